import Verif.Spec.IcpRun
import Mathlib.Data.Rat.Floor
import Mathlib.Data.List.Infix
import Mathlib.Tactic.NormNum
/-
C88: `icp-run`.
-/
namespace Verif.IcpRun
variable {O M K P X R : Type} [Field K] [LinearOrder K] [FloorRing K]

theorem find_none_iff (pat : List Char) : ∀ s, find pat s = none ↔ ¬ pat <:+: s
  | [] => by
    by_cases h : pat = [] <;> simp [find, h]
  | c :: s => by
    have ih := find_none_iff pat s
    rw [find, List.infix_cons_iff]
    by_cases h : pat.isPrefixOf (c :: s)
    · have := List.isPrefixOf_iff_prefix.1 h
      simp [h, this]
    · have h2 : ¬ pat <+: c :: s := fun e => h (List.isPrefixOf_iff_prefix.2 e)
      simp [h, h2, ih]

theorem find_some (pat : List Char) : ∀ s p, find pat s = some p → ∃ b, s = s.take p ++ pat ++ b ∧ (s.take p).length = p
  | [], p, h => by
    by_cases e : pat = []
    · simp [find, e] at h; subst h; exact ⟨[], by simp [e]⟩
    · simp [find, e] at h
  | c :: s, p, h => by
    rw [find] at h
    split at h
    · rename_i hp
      obtain ⟨b, hb⟩ := List.isPrefixOf_iff_prefix.1 hp
      cases h
      exact ⟨b, by simp [hb]⟩
    · obtain ⟨q, hq, rfl⟩ := Option.map_eq_some_iff.1 h
      obtain ⟨b, hb, hl⟩ := find_some pat s q hq
      refine ⟨b, ?_, by simpa using hl⟩
      simp only [List.take_succ_cons, List.cons_append]
      rw [← hb]

theorem rawlog_form_iff (name : List Char) :
    (∃ f n, name = f ++ ':' :: n ∧ ".rawlog".toList <:+ f) ↔ ".rawlog:".toList <:+: name := by
  constructor
  · rintro ⟨f, n, rfl, ⟨x, rfl⟩⟩
    exact ⟨x, n, by simp⟩
  · rintro ⟨x, n, rfl⟩
    exact ⟨x ++ ".rawlog".toList, n, by simp, List.suffix_append _ _⟩

/-- C88: how a name is taken: by the first thing that occurs anywhere in it, in the order `.rawlog:`, `.mm`, `.icplog`. -/
theorem input_kind (name : List Char) :
    (∀ f n, kindOf name = .rawlog f n → name = f ++ ':' :: n ∧ ".rawlog".toList <:+ f) ∧
    ((∃ f n, kindOf name = .rawlog f n) ↔ ".rawlog:".toList <:+: name) ∧
    (kindOf name = .map ↔ ¬ ".rawlog:".toList <:+: name ∧ ".mm".toList <:+: name) ∧
    (kindOf name = .icplog ↔ ¬ ".rawlog:".toList <:+: name ∧ ¬ ".mm".toList <:+: name ∧ ".icplog".toList <:+: name) ∧
    (kindOf name = .text ↔ ¬ ".rawlog:".toList <:+: name ∧ ¬ ".mm".toList <:+: name ∧ ¬ ".icplog".toList <:+: name) := by
  unfold kindOf
  rcases h1 : find ".rawlog:".toList name with _ | p
  · have n1 := (find_none_iff _ _).1 h1
    rcases h2 : find ".mm".toList name with _ | q
    · have n2 := (find_none_iff _ _).1 h2
      rcases h3 : find ".icplog".toList name with _ | r
      · have n3 := (find_none_iff _ _).1 h3
        simp only [n1, n2, n3, reduceCtorEq, exists_false, not_true_eq_false, not_false_eq_true, and_self, and_true, and_false, false_and, true_and, IsEmpty.forall_iff, implies_true, iff_self]
      · have n3 : ".icplog".toList <:+: name := by
          by_contra hc; rw [(find_none_iff _ _).2 hc] at h3; cases h3
        simp only [n1, n2, n3, reduceCtorEq, exists_false, not_true_eq_false, not_false_eq_true, and_self, and_true, and_false, false_and, true_and, IsEmpty.forall_iff, implies_true, iff_self]
    · have n2 : ".mm".toList <:+: name := by
        by_contra hc; rw [(find_none_iff _ _).2 hc] at h2; cases h2
      simp only [n1, n2, reduceCtorEq, exists_false, not_true_eq_false, not_false_eq_true, and_self, and_true, and_false, false_and, true_and, IsEmpty.forall_iff, implies_true, iff_self]
  · have n1 : ".rawlog:".toList <:+: name := by
      by_contra hc; rw [(find_none_iff _ _).2 hc] at h1; cases h1
    refine ⟨?_, ⟨fun _ => n1, fun _ => ⟨_, _, rfl⟩⟩, by simp only [n1, reduceCtorEq, exists_false, not_true_eq_false, not_false_eq_true, and_self, and_true, and_false, false_and, true_and, IsEmpty.forall_iff, implies_true, iff_self], by simp only [n1, reduceCtorEq, exists_false, not_true_eq_false, not_false_eq_true, and_self, and_true, and_false, false_and, true_and, IsEmpty.forall_iff, implies_true, iff_self], by simp only [n1, reduceCtorEq, exists_false, not_true_eq_false, not_false_eq_true, and_self, and_true, and_false, false_and, true_and, IsEmpty.forall_iff, implies_true, iff_self]⟩
    intro f n hk
    injection hk with hf hn
    obtain ⟨b, hb, hl⟩ := find_some _ _ _ h1
    generalize name.take p = a at hb hl
    subst hl
    have e1 : f = a ++ ".rawlog".toList := by
      rw [← hf, hb, List.append_assoc, List.take_append]
      simp
    have e2 : n = b := by
      have h8 : a.length + 7 + 1 - a.length = 8 := by omega
      rw [← hn, hb, List.append_assoc, List.drop_append, h8, List.drop_of_length_le (by omega)]
      rfl
    subst e1 e2
    exact ⟨by rw [hb]; simp, List.suffix_append _ _⟩

/-- C88 (partial): a name is taken as documented if `.mm` and `.icplog` occur in it at its end only. -/
theorem input_kind_documented_partial (name : List Char) (h1 : ".mm".toList <:+: name → ".mm".toList <:+ name)
    (h2 : ".icplog".toList <:+: name → ".icplog".toList <:+ name) : Documented name (kindOf name) := by
  obtain ⟨a, b, c, d, e⟩ := input_kind name
  have s1 : ".mm".toList <:+ name → ".mm".toList <:+: name := List.IsSuffix.isInfix
  have s2 : ".icplog".toList <:+ name → ".icplog".toList <:+: name := List.IsSuffix.isInfix
  rcases hk : kindOf name with ⟨f, n⟩ | _ | _ | _
  · exact a f n hk
  · have := c.1 hk; exact ⟨by rw [rawlog_form_iff]; exact this.1, h1 this.2⟩
  · have := d.1 hk; exact ⟨by rw [rawlog_form_iff]; exact this.1, fun x => this.2.1 (s1 x), h2 this.2.2⟩
  · have := e.1 hk; exact ⟨by rw [rawlog_form_iff]; exact this.1, fun x => this.2.1 (s1 x), fun x => this.2.2 (s2 x)⟩

example : kindOf "logs/run.rawlog:12".toList = .rawlog "logs/run.rawlog".toList "12".toList := by decide +kernel
example : kindOf "a/b.mm".toList = .map ∧ kindOf "a/b.icplog".toList = .icplog ∧ kindOf "a/b.xyz".toList = .text := by decide +kernel

/-- C88 (finding): with `.mm` anywhere in its path, even in the name of a directory, a log or a text file is taken for a map. -/
theorem input_kind_mm_anywhere (pre post : List Char) (h : ¬ ".rawlog:".toList <:+: pre ++ ".mm".toList ++ post) :
    kindOf (pre ++ ".mm".toList ++ post) = .map :=
  (input_kind _).2.2.1.2 ⟨h, ⟨pre, post, rfl⟩⟩

example : kindOf "data.mm.d/run.icplog".toList = .map ∧ Documented "data.mm.d/run.icplog".toList .icplog := by
  refine ⟨by decide +kernel, ?_, by decide +kernel, by decide +kernel⟩
  rw [rawlog_form_iff]
  decide +kernel

/-- C88: an input is loaded exactly as its kind says. -/
theorem input_loaded (w : World O M K) (dflt : Gen O M) (gens : List (Gen O M)) (name : List Char) (isLocal : Bool) (m : M) :
    loadInput w dflt gens name isLocal = .ok m ↔ Loads w dflt gens name isLocal m (kindOf name) := by
  unfold loadInput
  rcases kindOf name with ⟨f, n⟩ | _ | _ | _
  · simp only [Loads]
    rcases hv : w.stod n with _ | v
    · simp
    · rcases hr : w.rawlog f with _ | r
      · simp
      · simp only [toSize]
        by_cases hb : -1 < v ∧ v < 2 ^ 64
        · rw [if_pos hb]
          simp only [Outcome.bind, fromRawlog, Option.some.injEq]
          constructor
          · intro h
            refine ⟨v, r, _, rfl, rfl, hb.1, hb.2, rfl, ?_⟩
            rcases he : r[(Vox.truncZ v).toNat]? with _ | _ | (sf | o | _)
            · rw [he] at h; cases h
            · rw [he] at h; cases h
            · rw [he] at h
              obtain ⟨⟨b, m'⟩, h1, h2⟩ := Outcome.bind_eq_ok.1 h
              cases h2; exact Or.inl ⟨sf, b, rfl, h1⟩
            · rw [he] at h
              obtain ⟨⟨b, m'⟩, h1, h2⟩ := Outcome.bind_eq_ok.1 h
              cases h2; exact Or.inr ⟨o, b, rfl, h1⟩
            · rw [he] at h; cases h
          · rintro ⟨v', r', i, rfl, rfl, _, _, rfl, h⟩
            rcases h with ⟨sf, b, h1, h2⟩ | ⟨o, b, h1, h2⟩ <;> rw [h1] <;> simp only [h2]
        · rw [if_neg hb]
          simp only [Outcome.bind, Option.some.injEq, reduceCtorEq, false_iff, not_exists]
          rintro v' r' i ⟨rfl, _, h1, h2, _⟩
          exact hb ⟨h1, h2⟩
  · simp only [Loads]
    rcases w.mm name with (_ | x) | _ | _ <;> simp
  · simp only [Loads]
    rcases w.icplog name with (_ | ⟨l, g⟩) | _ | _
    · simp
    · cases isLocal <;> rcases l with _ | l <;> rcases g with _ | g <;> simp
    · simp
    · simp
  · rfl

/-- C88 (finding): an index that is negative, or too large for the type, is undefined behaviour; a fraction is cut off. -/
theorem input_rawlog_index (w : World O M K) (dflt : Gen O M) (gens : List (Gen O M)) (name f n : List Char) (isLocal : Bool) (v : K)
    (r : List (Option (Entry O))) (hk : kindOf name = .rawlog f n) (hv : w.stod n = some v) (hr : w.rawlog f = some r) :
    ((v ≤ -1 ∨ 2 ^ 64 ≤ v) → loadInput w dflt gens name isLocal = .ub) ∧
    (-1 < v → v < 2 ^ 64 → r.length ≤ (Vox.truncZ v).toNat → loadInput w dflt gens name isLocal = .throw) := by
  unfold loadInput
  simp only [hk, hv, hr, toSize]
  constructor
  · intro h
    rw [if_neg]
    · rfl
    · rintro ⟨h1, h2⟩
      rcases h with h | h
      · exact absurd h1 (not_lt.2 h)
      · exact absurd h2 (not_lt.2 h)
  · intro h1 h2 h3
    rw [if_pos ⟨h1, h2⟩]
    simp only [Outcome.bind, fromRawlog, List.getElem?_eq_none h3]

theorem chosen_gens_aux (c : Conf O M P X R) (a : Args O M P) (x : List (Gen O M)) :
    pickGens c a = .ok x ↔ Chosen a.genFile c.gens [] x := by
  unfold pickGens Chosen
  rcases a.genFile with _ | g <;> rcases c.gens with _ | g' <;> simp [eq_comm]

theorem chosen_filters_aux (c : Conf O M P X R) (file : Option (Outcome (Filters M))) (name : Option String) (x : Filters M) :
    pickFilters c file name = .ok x ↔ Chosen file (c.entry (name.getD "filters")) [] x := by
  unfold pickFilters Chosen
  rcases file with _ | g <;> rcases c.entry (name.getD "filters") with _ | g' <;> simp [eq_comm]

theorem applyOrThrow_ok (fl : Filters M) (m m' : M) : applyOrThrow fl m = .ok m' ↔ applyFilters fl m = (m', false) := by
  unfold applyOrThrow
  rcases applyFilters fl m with ⟨x, _ | _⟩ <;> simp

/-- C88: a run of the tool ends with a result exactly if: the configuration, the generators and the filters (option over configuration entry), both
inputs, the pipeline and the guess are valid, the filters run through, and the alignment of the filtered maps with that guess, and the parameters
of the configuration (but for the debug switch), gives that result. -/
theorem icp_run_result (w : World O M K) (dflt : Gen O M) (cfg : Outcome (Conf O M P X R)) (a : Args O M P) (r : R) :
    runIcp w dflt cfg a = .ok r ↔
      ∃ c gens l g al ps guess fl l' fg g', cfg = .ok c ∧ Chosen a.genFile c.gens [] gens ∧
        Loads w dflt gens a.inputLocal true l (kindOf a.inputLocal) ∧ Loads w dflt gens a.inputGlobal false g (kindOf a.inputGlobal) ∧
        c.icp = .ok (al, ps) ∧ a.guess = .ok guess ∧
        Chosen a.filtersLocal (c.entry (a.nameLocal.getD "filters")) [] fl ∧ applyFilters fl l = (l', false) ∧
        Chosen a.filtersGlobal (c.entry (a.nameGlobal.getD "filters")) [] fg ∧ applyFilters fg g = (g', false) ∧
        al l' g' guess ⟨a.debug || ps.generateDebugFiles, ps.rest⟩ = .ok r := by
  unfold runIcp
  simp only [Outcome.bind_eq_ok, chosen_gens_aux, chosen_filters_aux, applyOrThrow_ok, input_loaded]
  have hp : ∀ ps : Params X, (if a.debug = true then { ps with generateDebugFiles := true } else ps) =
      (⟨a.debug || ps.generateDebugFiles, ps.rest⟩ : Params X) := by
    intro ps; cases a.debug <;> rfl
  constructor
  · rintro ⟨c, h1, gens, h2, l, h3, g, h4, ⟨al, ps⟩, h5, guess, h6, fl, h7, l', h8, fg, h9, g', h10, h11⟩
    exact ⟨c, gens, l, g, al, ps, guess, fl, l', fg, g', h1, h2, h3, h4, h5, h6, h7, h8, h9, h10, by rw [← hp]; exact h11⟩
  · rintro ⟨c, gens, l, g, al, ps, guess, fl, l', fg, g', h1, h2, h3, h4, h5, h6, h7, h8, h9, h10, h11⟩
    exact ⟨c, h1, gens, h2, l, h3, g, h4, ⟨al, ps⟩, h5, guess, h6, fl, h7, l', h8, fg, h9, g', h10, by
      simp only [hp]; exact h11⟩

/-- C88: the exit code is 0 exactly if the command line was valid and the run gave a result; it is 1 if an exception ended the run. -/
theorem icp_run_exit (w : World O M K) (dflt : Gen O M) (cfg : Outcome (Conf O M P X R)) (a : Args O M P) (parsed : Bool) :
    (main w dflt cfg a parsed = .ok 0 ↔ parsed = true ∧ ∃ r, runIcp w dflt cfg a = .ok r) ∧
    (main w dflt cfg a parsed = .ok 1 ↔ parsed = false ∨ runIcp w dflt cfg a = .throw) ∧
    (∀ k, main w dflt cfg a parsed = .ok k → k = 0 ∨ k = 1) := by
  unfold main
  cases parsed
  · simp
  · rcases runIcp w dflt cfg a with r | _ | _ <;> simp

/-- a small world: maps are numbers, observations are numbers -/
def demoWorld : World Nat (List Nat) ℚ where
  rawlog := fun f => if f = "x.rawlog".toList then some [some (.obs 4), none, some (.frame [some 5, none, some 6]), some .other] else none
  mm := fun f => if f = "a.mm".toList then .ok (some [9]) else .ok none
  icplog := fun f => if f = "a.icplog".toList then .ok (some (some [1], some [2])) else .ok none
  xyz := fun _ => .ok [7]
  stod := fun s => if s = "0".toList then some 0 else if s = "2.9".toList then some (29/10) else if s = "-3".toList then some (-3) else if s = "9".toList then some 9 else none
  emptyMap := []
def demoGen : Gen Nat (List Nat) := fun o m => .ok (true, m ++ [o])
def demoConf : Conf Nat (List Nat) Nat Unit (List Nat × List Nat × Nat × Bool) where
  gens := none
  entry := fun s => if s = "filters" then some (.ok [some fun m => (m.map (· * 10), false)]) else if s = "none" then some (.ok []) else none
  icp := .ok (fun l g p ps => .ok (l, g, p, ps.generateDebugFiles), ⟨false, ()⟩)

example : (runIcp demoWorld demoGen (.ok demoConf) { inputLocal := "x.rawlog:2.9".toList, inputGlobal := "a.mm".toList, nameGlobal := some "none", guess := .ok 3, debug := true }).Sat
    (fun r => r = ([50, 60], [9], 3, true)) := by decide +kernel
example : loadInput demoWorld demoGen [] "x.rawlog:-3".toList true = .ub := Outcome.eq_ub_of (by decide +kernel)
example : (loadInput demoWorld demoGen [] "x.rawlog:9".toList true).isThrow = true := by decide +kernel
example : main demoWorld demoGen (.ok demoConf) { inputLocal := "x.rawlog:q".toList, inputGlobal := "a.mm".toList, guess := .ok 3 } true = .ok 1 := by decide +kernel
example : (runIcp demoWorld demoGen (.ok demoConf) { inputLocal := "a.icplog".toList, inputGlobal := "a.icplog".toList, guess := .ok 3, nameLocal := some "zz" }).Sat
    (fun r => r = ([1], [20], 3, false)) := by decide +kernel

end Verif.IcpRun
