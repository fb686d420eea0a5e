import Verif.Model.RawlogFilter
import Verif.Lemmas.AMap
import Mathlib.Tactic.Linarith
/-
C83: rawlog-filter.
-/
namespace Verif
namespace Spec
open Rawlog
variable {O τ C X σ : Type}

/-- The clouds of a map, in order, each with the label of its layer and a stamp -/
def cloudsOf (t : τ) (l : Layers C X) : List (String × τ × C) :=
  l.flatMap fun e => match e with
    | (name, some (.pts c)) => [("out_" ++ name, t, c)]
    | (_, some (.other _)) => []
    | (_, none) => []

/-- Entries are taken one after the other: those not handled by any generator give nothing, the others one frame each. -/
inductive Filtered (env : Rawlog.Env O τ C X σ) : σ → List O → List (Frame O τ C) → σ → Prop where
  | nil (s : σ) : Filtered env s [] [] s
  | skip {s s1 s' : σ} {o : O} {l : Layers C X} {os : List O} {fs : List (Frame O τ C)} (h : env.gen s o = .ok (false, l, s1))
      (hr : Filtered env s1 os fs s') : Filtered env s (o :: os) fs s'
  | keep {s s1 s2 s' : σ} {o : O} {l l' : Layers C X} {os : List O} {fs : List (Frame O τ C)}
      (h : env.gen s o = .ok (true, l, s1)) (hf : env.filt s1 l = .ok (l', s2))
      (hr : Filtered env s2 os fs s') : Filtered env s (o :: os) (⟨o, cloudsOf (env.stamp o) l'⟩ :: fs) s'

end Spec
namespace Props
open Rawlog Spec
variable {O τ C X σ : Type}

theorem filterMap_outOf (t : τ) (l : Layers C X) : l.filterMap (outOf t) = cloudsOf t l := by
  unfold cloudsOf
  induction l with
  | nil => rfl
  | cons e l ih =>
    rw [List.filterMap_cons, List.flatMap_cons, ← ih]
    rcases e with ⟨n, _ | ⟨c | y⟩⟩ <;> rfl

theorem mem_outs (t : τ) (l : Layers C X) (x : String × τ × C) :
    x ∈ l.filterMap (outOf t) ↔ ∃ name c, (name, some (.pts c)) ∈ l ∧ x = ("out_" ++ name, t, c) := by
  rw [List.mem_filterMap]
  constructor
  · rintro ⟨⟨name, a⟩, h1, h2⟩
    cases a with
    | none => simp [outOf] at h2
    | some a => cases a with
      | pts c => simp only [outOf, Option.some.injEq] at h2; exact ⟨name, c, h1, h2.symm⟩
      | other y => simp [outOf] at h2
  · rintro ⟨name, c, h1, rfl⟩
    exact ⟨_, h1, rfl⟩

theorem entry_skip (env : Rawlog.Env O τ C X σ) (s : σ) (o : O) {l s1} (h : env.gen s o = .ok (false, l, s1)) :
    entry env s o = .ok (none, s1) := by simp [entry, h]

theorem entry_keep (env : Rawlog.Env O τ C X σ) (s : σ) (o : O) {l s1 l' s2} (h : env.gen s o = .ok (true, l, s1))
    (hf : env.filt s1 l = .ok (l', s2)) : entry env s o = .ok (some ⟨o, cloudsOf (env.stamp o) l'⟩, s2) := by
  simp [entry, h, hf, filterMap_outOf]

theorem loop_filtered (env : Rawlog.Env O τ C X σ) {s s' : σ} {os : List O} {fs : List (Frame O τ C)} (h : Filtered env s os fs s')
    (data : List (Option O)) (cur : Nat) (out : List (Frame O τ C)) (k : Nat)
    (hd : (data.drop cur).take os.length = os.map some) :
    loop env data (os.length + k) cur s out = loop env data k (cur + os.length) s' (out ++ fs) := by
  induction h generalizing cur out with
  | nil => simp
  | @skip s s1 s' o l os fs h hr ih =>
    have h0 : data[cur]? = some (some o) := by
      have := congrArg (·[0]?) hd
      simpa [List.getElem?_take] using this
    have h1 : (data.drop (cur + 1)).take os.length = os.map some := by
      have := congrArg List.tail hd
      simpa [← List.drop_one, List.drop_take, List.drop_drop] using this
    rw [List.length_cons, show os.length + 1 + k = (os.length + k) + 1 by omega, loop, h0]
    simp only [entry_skip env s o h]
    rw [ih (cur + 1) out h1]
    congr 1; omega
  | @keep s s1 s2 s' o l l' os fs h hf hr ih =>
    have h0 : data[cur]? = some (some o) := by
      have := congrArg (·[0]?) hd
      simpa [List.getElem?_take] using this
    have h1 : (data.drop (cur + 1)).take os.length = os.map some := by
      have := congrArg List.tail hd
      simpa [← List.drop_one, List.drop_take, List.drop_drop] using this
    rw [List.length_cons, show os.length + 1 + k = (os.length + k) + 1 by omega, loop, h0]
    simp only [entry_keep env s o h hf]
    rw [ih (cur + 1) _ h1]
    simp only [List.append_assoc, List.singleton_append]
    congr 1; omega

theorem filtered_run (env : Rawlog.Env O τ C X σ) {s s' : σ} {os : List O} {fs : List (Frame O τ C)} (h : Filtered env s os fs s')
    (data : List (Option O)) (cur : Nat) (hd : (data.drop cur).take os.length = os.map some) :
    loop env data os.length cur s [] = (fs, .ok ()) := by
  have := loop_filtered env h data cur [] 0 hd
  simpa [loop] using this

theorem range_eq (data : List (Option O)) (a n : Nat) (os : List O) (hn : n ≤ data.length) (h : (data.take n).drop a = os.map some) :
    n - a = os.length ∧ (data.drop a).take os.length = os.map some := by
  have h1 := congrArg List.length h
  simp only [List.length_drop, List.length_take, List.length_map, Nat.min_eq_left hn] at h1
  refine ⟨h1, ?_⟩
  rw [List.drop_take, h1] at h
  exact h

/-- The entries from `from` to `to`, both included (or the first and the last of the file), are filtered in order; the file has exactly
one frame for each entry that a generator handled: the entry itself and every cloud of the filtered map, with its label and the stamp
of the entry.
Part of C83: `--to` SIZE_MAX is excluded (`rawlog_to_max`). -/
theorem rawlog_result_partial (env : Rawlog.Env O τ C X σ) (data : List (Option O)) (from_ to_ : Option Nat) (os : List O)
    (hto : ∀ t, to_ = some t → t < 2 ^ 64 - 1)
    (hsel : ((match to_ with | some t => data.take (t + 1) | none => data).drop (match from_ with | some f => f | none => 0)) =
      os.map some)
    (s s' : σ) (fs : List (Frame O τ C)) (h : Filtered env s os fs s') :
    run env data from_ to_ s = (fs, .ok ()) := by
  have hmain : ∀ n c, n ≤ data.length → (data.take n).drop c = os.map some → loop env data (n - c) c s [] = (fs, .ok ()) := by
    intro n c hn hd
    obtain ⟨h1, h2⟩ := range_eq data c n os hn hd
    rw [h1]; exact filtered_run env h data c h2
  have hc : (match from_ with | some f => max 0 f | none => 0) = (match from_ with | some f => f | none => 0) := by
    cases from_ <;> simp
  unfold run
  simp only [hc]
  cases to_ with
  | none =>
    refine hmain data.length _ le_rfl ?_
    rw [List.take_length]; exact hsel
  | some t =>
    have h2 : (t + 1) % 2 ^ 64 = t + 1 := Nat.mod_eq_of_lt (by have := hto t rfl; omega)
    simp only [h2]
    refine hmain _ _ (Nat.min_le_left ..) ?_
    simp only at hsel
    rw [← hsel]
    congr 1
    rcases Nat.le_total data.length (t + 1) with hl | hl
    · rw [Nat.min_eq_left hl, List.take_length, List.take_of_length_le hl]
    · rw [Nat.min_eq_right hl]

/-- If generators and filters keep no state, the frame of an entry depends on that entry alone. -/
theorem rawlog_stateless (env : Rawlog.Env O τ C X Unit) (g : O → Option (Layers C X)) (f : Layers C X → Layers C X)
    (hg : ∀ o, ∃ l, env.gen () o = .ok ((g o).isSome, l, ()) ∧ ∀ l', g o = some l' → l = l')
    (hf : ∀ l, env.filt () l = .ok (f l, ())) (os : List O) :
    Filtered env () os (os.filterMap fun o => (g o).map fun l => ⟨o, cloudsOf (env.stamp o) (f l)⟩) () := by
  induction os with
  | nil => exact .nil ()
  | cons o os ih =>
    obtain ⟨l, h1, h2⟩ := hg o
    cases hgo : g o with
    | none =>
      rw [hgo] at h1
      rw [List.filterMap_cons_none (by rw [hgo]; rfl)]
      exact .skip h1 ih
    | some l' =>
      rw [hgo] at h1
      have := h2 l' hgo
      subst this
      rw [List.filterMap_cons_some (b := ⟨o, cloudsOf (env.stamp o) (f l)⟩) (by rw [hgo]; rfl)]
      exact .keep h1 (hf l) ih

/-- The labels of a frame's clouds are all different. -/
theorem rawlog_labels_distinct (t : τ) (l : Layers C X) (hl : l.Sorted) :
    ((cloudsOf t l).map (·.1)).Nodup := by
  rw [← filterMap_outOf]
  unfold AMap.Sorted at hl
  induction l with
  | nil => simp
  | cons e l ih =>
    rw [List.pairwise_cons] at hl
    rw [List.filterMap_cons]
    split
    · exact ih hl.2
    · rename_i b hb
      rw [List.map_cons, List.nodup_cons]
      refine ⟨?_, ih hl.2⟩
      rw [List.mem_map]
      rintro ⟨x, hx, hxe⟩
      obtain ⟨name, c, h1, rfl⟩ := (mem_outs t l x).1 hx
      rcases e with ⟨n0, a⟩
      cases a with
      | none => simp [outOf] at hb
      | some a => cases a with
        | other y => simp [outOf] at hb
        | pts c' =>
          simp only [outOf, Option.some.injEq] at hb
          subst hb
          have h2 := hl.1 _ h1
          simp only at hxe h2
          have : name = n0 := by
            have := congrArg String.toList hxe
            simp only [String.toList_append, List.append_cancel_left_eq] at this
            exact String.ext this
          rw [this] at h2
          exact lt_irrefl _ h2

/-- An entry that is not an observation, or whose processing fails, ends the run with an error; the frames before it are in the file and
nothing after it is. -/
theorem rawlog_stops (env : Rawlog.Env O τ C X σ) (data : List (Option O)) (os : List O) (rest : List (Option O)) (bad : Option O)
    (hd : data = os.map some ++ bad :: rest) (s s' : σ) (fs : List (Frame O τ C)) (h : Filtered env s os fs s')
    (hb : bad = none ∨ ∃ o, bad = some o ∧ (env.gen s' o = .throw ∨ ∃ l s1, env.gen s' o = .ok (true, l, s1) ∧ env.filt s1 l = .throw)) :
    run env data none none s = (fs, .throw) := by
  unfold run
  have hl : data.length - 0 = os.length + (rest.length + 1) := by rw [hd]; simp
  simp only [hl]
  rw [loop_filtered env h data 0 [] _ (by rw [hd]; simp)]
  have h0 : data[0 + os.length]? = some bad := by
    rw [hd, Nat.zero_add, List.getElem?_append_right (by simp)]
    simp
  rw [loop, h0]
  rcases hb with rfl | ⟨o, rfl, hb | ⟨l, s1, h1, h2⟩⟩
  · simp
  · simp [entry, hb]
  · simp [entry, h1, h2]

/-- `--to` with the largest number there is, instead of leaving it out: the file is empty. -/
theorem rawlog_to_max (env : Rawlog.Env O τ C X σ) (data : List (Option O)) (from_ : Option Nat) (s : σ) :
    run env data from_ (some (2 ^ 64 - 1)) s = ([], .ok ()) := by
  unfold run
  have : min data.length ((2 ^ 64 - 1 + 1) % 2 ^ 64) = 0 := by norm_num
  simp only [this, Nat.zero_sub]
  rfl

/-! ### an example -/

def exRaw : Rawlog.Env Nat Nat Nat Unit Nat where
  gen s o := .ok (decide (o % 2 = 1), [("raw", some (.pts o)), ("x", none), ("y", some (.other ()))], s + 1)
  filt s l := .ok (AMap.set l "cnt" (some (.pts s)), s)
  stamp o := 100 * o

example : run exRaw [some 1, some 2, some 3, some 5, some 7] (some 1) (some 3) 0 =
    ([⟨3, [("out_cnt", 300, 2), ("out_raw", 300, 3)]⟩, ⟨5, [("out_cnt", 500, 3), ("out_raw", 500, 5)]⟩], .ok ()) := by
  decide +kernel
example : run exRaw [some 1, none, some 3] none none 0 = ([⟨1, [("out_cnt", 100, 1), ("out_raw", 100, 1)]⟩], .throw) := by
  decide +kernel

end Props
end Verif
