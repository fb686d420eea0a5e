import Verif.Lemmas.Rot
import Mathlib.Data.List.Pairwise
import Mathlib.Tactic.Ring
/-
The walk over the correspondences.
-/
namespace Verif.Lemmas
open Verif Verif.Spec
variable {K : Type} [Field K] [LinearOrder K]

theorem expand_length (l : List (Nat × K)) : (ExpandWeights l).length = (l.map (·.1)).sum := by
  induction l with
  | nil => rfl
  | cons b l ih => simp only [ExpandWeights, List.flatMap_cons] at ih ⊢; simp [ih]

theorem expand_append (a b : List (Nat × K)) : ExpandWeights (a ++ b) = ExpandWeights a ++ ExpandWeights b := by
  simp [ExpandWeights]

theorem expand_at {pre rest : List (Nat × K)} {n : Nat} {w : K} {i : Nat} (h1 : (pre.map (·.1)).sum ≤ i)
    (h2 : i < (pre.map (·.1)).sum + n) : (ExpandWeights (pre ++ (n, w) :: rest))[i]? = some w := by
  rw [expand_append, List.getElem?_append_right (by rw [expand_length]; exact h1), expand_length]
  have : ExpandWeights ((n, w) :: rest) = List.replicate n w ++ ExpandWeights rest := by simp [ExpandWeights]
  rw [this, List.getElem?_append_left (by rw [List.length_replicate]; omega), List.getElem?_replicate]
  rw [if_pos (by omega)]

/-- Where the cursor is before handling index `i`. -/
def CurInv (full blocks : List (Nat × K)) (start i : Nat) : Prop :=
  ∃ pre n w rest, blocks = (n, w) :: rest ∧ full = pre ++ blocks ∧ start = (pre.map (·.1)).sum ∧ start ≤ i ∧ i ≤ start + n

theorem blockStep_ok {full blocks : List (Nat × K)} {start i : Nat} (hpos : ∀ b ∈ full, 1 ≤ b.1)
    (h : CurInv full blocks start i) (hi : i < (full.map (·.1)).sum) :
    ∃ blocks' start' w, blockStep i blocks start = .ok (blocks', start', w) ∧ CurInv full blocks' start' (i + 1) ∧
      (ExpandWeights full)[i]? = some w := by
  obtain ⟨pre, n, w, rest, rfl, hf, hs, h1, h2⟩ := h
  simp only [blockStep]
  by_cases hlt : start + n ≤ i
  · have hi' : i = start + n := by omega
    rw [if_pos hlt]
    cases rest with
    | nil =>
      exfalso
      rw [hf] at hi
      simp at hi
      omega
    | cons b rest' =>
      obtain ⟨n', w'⟩ := b
      have hn' : 1 ≤ n' := hpos (n', w') (by rw [hf]; simp)
      have hf' : full = (pre ++ [(n, w)]) ++ (n', w') :: rest' := by rw [hf]; simp
      have hs' : i = ((pre ++ [(n, w)]).map (·.1)).sum := by simp; omega
      refine ⟨_, _, _, rfl, ⟨pre ++ [(n, w)], n', w', rest', rfl, hf', hs', by omega, by omega⟩, ?_⟩
      rw [hf']
      exact expand_at (by omega) (by omega)
  · rw [if_neg hlt]
    refine ⟨_, _, _, rfl, ⟨pre, n, w, rest, rfl, hf, hs, by omega, by omega⟩, ?_⟩
    rw [hf]
    exact expand_at (by omega) (by omega)

theorem blockStep_ok_inv {blocks blocks' : List (Nat × K)} {start start' i : Nat} {w : K}
    (h : blockStep i blocks start = .ok (blocks', start', w)) :
    (blocks' = blocks ∧ start' = start ∨ ∃ b, blocks = b :: blocks' ∧ start' = i ∧ start + b.1 ≤ i) ∧
      ∃ n rest, blocks' = (n, w) :: rest := by
  unfold blockStep at h
  split at h
  · cases h
  · rename_i n w0 rest
    split at h
    · rename_i hle
      split at h
      · cases h
      · simp only [Outcome.ok.injEq, Prod.mk.injEq] at h
        obtain ⟨rfl, rfl, rfl⟩ := h
        exact ⟨.inr ⟨_, rfl, rfl, hle⟩, _, _, rfl⟩
    · simp only [Outcome.ok.injEq, Prod.mk.injEq] at h
      obtain ⟨rfl, rfl, rfl⟩ := h
      exact ⟨.inl ⟨rfl, rfl⟩, _, _, rfl⟩

theorem createRobustKernel_factor (k : RobustKernel) (c : K) :
    createRobustKernel k c = if k = .none then none else some (kernelFactor k c) := by
  cases k <;> simp [createRobustKernel]
  all_goals (funext e; simp [kernelFactor, pow_two])

/-- What one call does. -/
def PairWeighted (c : VisitCfg K) (b r : P3 K) (bw w : K) : Prop :=
  (c.wp.kernel = .none → w = bw) ∧
  (c.wp.kernel ≠ .none → ∃ T, c.wp.estimate = some T ∧
    w = bw * kernelFactor c.wp.kernel c.wp.kernelParam (P3.distSq (T.composePoint r) b)) ∧ 0 < w

theorem visitPair_ok {c : VisitCfg K} {b r : P3 K} {bw : K} {s s' : VisitState K}
    (h : visitPair c b r bw s = .ok s') :
    ∃ w, PairWeighted c b r bw w ∧
      s' = { s with visited := s.visited ++ [⟨b, r, w⟩], wSum := s.wSum + w } := by
  unfold visitPair at h
  simp only [Outcome.bind_def, Outcome.pure_def, Outcome.bind_eq_ok] at h
  obtain ⟨w, hw, _, ha, h⟩ := h
  rw [Outcome.assert_eq_ok] at ha
  simp only [Outcome.ok.injEq] at h
  subst h
  unfold robustWeight at hw
  rw [createRobustKernel_factor] at hw
  by_cases hk : c.wp.kernel = .none
  · rw [if_pos hk] at hw
    simp only [Outcome.ok.injEq] at hw
    subst hw
    exact ⟨bw, ⟨fun _ => rfl, fun hh => absurd hk hh, ha⟩, rfl⟩
  · rw [if_neg hk] at hw
    simp only at hw
    split at hw
    · cases hw
    · rename_i T hT
      simp only [Outcome.ok.injEq] at hw
      subst hw
      exact ⟨_, ⟨fun hh => absurd hh hk, fun _ => ⟨T, hT, rfl⟩, ha⟩, rfl⟩

theorem visitPair_not_ub {c : VisitCfg K} {b r : P3 K} {bw : K} {s : VisitState K} : visitPair c b r bw s ≠ .ub := by
  unfold visitPair
  simp only [Outcome.bind_def, Outcome.pure_def, ne_eq, Outcome.bind_eq_ub]
  rintro (h | ⟨w, _, h⟩)
  · unfold robustWeight at h
    split at h
    · cases h
    · split at h <;> cases h
  · rcases h with h | ⟨_, _, h⟩
    · exact Outcome.assert_ne_ub h
    · cases h

/-- Invariant of the loop before handling index `i`. -/
structure VInv (nPt : Nat) (full : List (Nat × K)) (s : VisitState K) (i : Nat) : Prop where
  cur : i ≤ nPt → CurInv full s.blocks s.start i
  srt : s.outl.Pairwise (· < ·)
  ge : ∀ o ∈ s.outl, i ≤ o

/-- One step: what it appends. -/
inductive StepRes (c : VisitCfg K) (full : List (Nat × K)) (outl : List Nat) (i : Nat) (m : Corr K) :
    List (Visited K) → List Nat → Prop
  | skip : i ∈ outl → StepRes c full outl i m [] [i]
  | near {q} : i ∉ outl → m = .pt q →
      (c.norm (q.global - c.ctGlobal) < c.eps ∨ c.norm (q.local - c.ctLocal) < c.eps) → StepRes c full outl i m [] []
  | scale {q} : i ∉ outl → m = .pt q →
      ¬ (c.norm (q.global - c.ctGlobal) < c.eps ∨ c.norm (q.local - c.ctLocal) < c.eps) →
      (c.wp.useScaleOutlier = true ∧ c.wp.scaleThr < max (c.norm (q.global - c.ctGlobal)) (c.norm (q.local - c.ctLocal)) /
        min (c.norm (q.global - c.ctGlobal)) (c.norm (q.local - c.ctLocal))) → StepRes c full outl i m [] [i]
  | visitPt {q bw w b r} : i ∉ outl → m = .pt q →
      ¬ (c.norm (q.global - c.ctGlobal) < c.eps ∨ c.norm (q.local - c.ctLocal) < c.eps) →
      ¬ (c.wp.useScaleOutlier = true ∧ c.wp.scaleThr < max (c.norm (q.global - c.ctGlobal)) (c.norm (q.local - c.ctLocal)) /
        min (c.norm (q.global - c.ctGlobal)) (c.norm (q.local - c.ctLocal))) →
      b = (if c.normalize then P3.smul (1 / c.norm (q.global - c.ctGlobal)) (q.global - c.ctGlobal)
        else q.global - c.ctGlobal) →
      r = (if c.normalize then P3.smul (1 / c.norm (q.local - c.ctLocal)) (q.local - c.ctLocal)
        else q.local - c.ctLocal) →
      (ExpandWeights full)[i]? = some bw → PairWeighted c b r (c.waPoints * bw) w →
      StepRes c full outl i m [⟨b, r, w⟩] []
  | visitLn {b r w} : i ∉ outl → m = .ln b r → PairWeighted c b r c.waLines w → StepRes c full outl i m [⟨b, r, w⟩] []
  | visitPl {b r w} : i ∉ outl → m = .pl b r → PairWeighted c b r c.waPlanes w → StepRes c full outl i m [⟨b, r, w⟩] []

theorem outl_head {outl : List Nat} {i : Nat} (hs : outl.Pairwise (· < ·)) (hge : ∀ o ∈ outl, i ≤ o) :
    outl.head? = some i ↔ i ∈ outl := by
  cases outl with
  | nil => simp
  | cons o os =>
    simp only [List.head?_cons, Option.some.injEq, List.mem_cons]
    constructor
    · rintro rfl; exact .inl rfl
    · rintro (rfl | h)
      · rfl
      · have h1 := (List.pairwise_cons.mp hs).1 i h
        have h2 := hge o List.mem_cons_self
        omega

theorem visitStep_spec {c : VisitCfg K} {full : List (Nat × K)} {nPt : Nat} {s : VisitState K} {i : Nat} {m : Corr K}
    (hpos : ∀ b ∈ full, 1 ≤ b.1) (hsum : (full.map (·.1)).sum = nPt)
    (hm : i < nPt ↔ ∃ q, m = .pt q)
    (hout : ∀ o ∈ s.outl, o < nPt → ¬ StartsBlock full o) (hinv : VInv nPt full s i) :
    visitStep c s i m ≠ .ub ∧ ∀ s', visitStep c s i m = .ok s' →
      VInv nPt full s' (i + 1) ∧ (∀ o ∈ s'.outl, o ∈ s.outl) ∧ (∀ o ∈ s.outl, o ≠ i → o ∈ s'.outl) ∧
      ∃ vs os, StepRes c full s.outl i m vs os ∧ s'.visited = s.visited ++ vs ∧ s'.newOutl = s.newOutl ++ os ∧
        s'.wSum = s.wSum + (vs.map (·.w)).sum := by
  unfold visitStep
  by_cases ho : s.outl.head? = some i
  · rw [if_pos ho]
    refine ⟨by simp, ?_⟩
    intro s' h
    simp only [Outcome.ok.injEq] at h
    subst h
    have hmem := (outl_head hinv.srt hinv.ge).mp ho
    obtain ⟨os, hos⟩ : ∃ os, s.outl = i :: os := by
      cases hh : s.outl with
      | nil => rw [hh] at ho; cases ho
      | cons a as => rw [hh] at ho; simp at ho; exact ⟨as, by rw [ho]⟩
    have hp := hinv.srt
    rw [hos, List.pairwise_cons] at hp
    refine ⟨⟨?_, ?_, ?_⟩, ?_, ?_, [], [i], .skip hmem, by simp, rfl, by simp⟩
    · intro hi
      have hcur := hinv.cur (by omega)
      obtain ⟨pre, n, w, rest, h1, h2, h3, h4, h5⟩ := hcur
      refine ⟨pre, n, w, rest, h1, h2, h3, Nat.le_succ_of_le h4, ?_⟩
      by_contra hcon
      replace hcon : ¬ i + 1 ≤ s.start + n := hcon
      have hi' : i = s.start + n := by omega
      refine hout i hmem (by omega) ⟨pre ++ [(n, w)], rest, by simp, ?_, ?_⟩
      · rw [h2, h1]; simp
      · simp; omega
    · rw [hos]; exact hp.2
    · rw [hos]; intro o hoo; exact hp.1 o hoo
    · intro o hoo; exact List.mem_of_mem_tail hoo
    · rw [hos]; intro o hoo hne
      rcases List.mem_cons.mp hoo with h | h
      · exact absurd h hne
      · exact h
  · rw [if_neg ho]
    have hnm : i ∉ s.outl := fun hh => ho ((outl_head hinv.srt hinv.ge).mpr hh)
    have hge' : ∀ o ∈ s.outl, i + 1 ≤ o := by
      intro o hoo
      have := hinv.ge o hoo
      rcases Nat.lt_or_ge i o with h | h
      · omega
      · exact absurd (show i ∈ s.outl by rw [show i = o by omega]; exact hoo) hnm
    cases m with
    | pt q =>
      have hi : i < nPt := hm.mpr ⟨q, rfl⟩
      obtain ⟨bl, st, bw, hb, hcur, hw⟩ := blockStep_ok hpos (hinv.cur (by omega)) (by omega : i < (full.map (·.1)).sum)
      simp only [hb, Outcome.bind_def, Outcome.bind]
      have hinv' : ∀ s' : VisitState K, s'.blocks = bl → s'.start = st → s'.outl = s.outl → VInv nPt full s' (i + 1) := by
        intro s' h1 h2 h3
        exact ⟨fun _ => by rw [h1, h2]; exact hcur, by rw [h3]; exact hinv.srt, by rw [h3]; exact hge'⟩
      by_cases hn : c.norm (q.global - c.ctGlobal) < c.eps ∨ c.norm (q.local - c.ctLocal) < c.eps
      · rw [if_pos hn]
        refine ⟨by simp, ?_⟩
        intro s' h
        simp only [Outcome.ok.injEq] at h
        subst h
        exact ⟨hinv' _ rfl rfl rfl, fun o h => h, fun o h _ => h, [], [], .near hnm rfl hn, by simp, by simp, by simp⟩
      · rw [if_neg hn]
        by_cases hsc : c.wp.useScaleOutlier = true ∧
            c.wp.scaleThr < max (c.norm (q.global - c.ctGlobal)) (c.norm (q.local - c.ctLocal)) /
              min (c.norm (q.global - c.ctGlobal)) (c.norm (q.local - c.ctLocal))
        · rw [if_pos hsc]
          refine ⟨by simp, ?_⟩
          intro s' h
          simp only [Outcome.ok.injEq] at h
          subst h
          exact ⟨hinv' _ rfl rfl rfl, fun o h => h, fun o h _ => h, [], [i], .scale hnm rfl hn hsc, by simp, rfl, by simp⟩
        · rw [if_neg hsc]
          refine ⟨visitPair_not_ub, ?_⟩
          intro s' h
          obtain ⟨w, hpw, rfl⟩ := visitPair_ok h
          exact ⟨hinv' _ rfl rfl rfl, fun o h => h, fun o h _ => h, _, [],
            .visitPt hnm rfl hn hsc rfl rfl hw hpw, rfl, by simp, by simp⟩
    | ln b r =>
      have hi : ¬ i < nPt := fun h => by obtain ⟨q, hq⟩ := hm.mp h; cases hq
      refine ⟨visitPair_not_ub, ?_⟩
      intro s' h
      obtain ⟨w, hpw, rfl⟩ := visitPair_ok h
      exact ⟨⟨fun hh => by omega, hinv.srt, hge'⟩, fun o h => h, fun o h _ => h, _, [], .visitLn hnm rfl hpw, rfl, by simp, by simp⟩
    | pl b r =>
      have hi : ¬ i < nPt := fun h => by obtain ⟨q, hq⟩ := hm.mp h; cases hq
      refine ⟨visitPair_not_ub, ?_⟩
      intro s' h
      obtain ⟨w, hpw, rfl⟩ := visitPair_ok h
      exact ⟨⟨fun hh => by omega, hinv.srt, hge'⟩, fun o h => h, fun o h _ => h, _, [], .visitPl hnm rfl hpw, rfl, by simp, by simp⟩

/-- The whole loop: the results of the steps, in order. -/
inductive LoopRes (c : VisitCfg K) (full : List (Nat × K)) (outl : List Nat) :
    Nat → List (Corr K) → List (Visited K) → List Nat → Prop
  | nil {i} : LoopRes c full outl i [] [] []
  | cons {i m ms vs os vs' os'} : StepRes c full outl i m vs os → LoopRes c full outl (i + 1) ms vs' os' →
      LoopRes c full outl i (m :: ms) (vs ++ vs') (os ++ os')

theorem StepRes.congr {c : VisitCfg K} {full : List (Nat × K)} {o1 o2 : List Nat} {i : Nat} {m : Corr K}
    {vs : List (Visited K)} {os : List Nat} (h : i ∈ o1 ↔ i ∈ o2) (hs : StepRes c full o1 i m vs os) :
    StepRes c full o2 i m vs os := by
  cases hs with
  | skip a => exact .skip (h.mp a)
  | near a b d => exact .near (fun x => a (h.mpr x)) b d
  | scale a b d e => exact .scale (fun x => a (h.mpr x)) b d e
  | visitPt a b d e f g k l => exact .visitPt (fun x => a (h.mpr x)) b d e f g k l
  | visitLn a b d => exact .visitLn (fun x => a (h.mpr x)) b d
  | visitPl a b d => exact .visitPl (fun x => a (h.mpr x)) b d

theorem visitLoop_spec {c : VisitCfg K} {full : List (Nat × K)} {nPt : Nat} {outl : List Nat}
    (hpos : ∀ b ∈ full, 1 ≤ b.1) (hsum : (full.map (·.1)).sum = nPt)
    (hout : ∀ o ∈ outl, o < nPt → ¬ StartsBlock full o) (ms : List (Corr K)) :
    ∀ (s : VisitState K) (i : Nat), (∀ j, i + j < nPt ∧ j < ms.length ↔ ∃ q, ms[j]? = some (.pt q)) →
      VInv nPt full s i → (∀ o, i ≤ o → (o ∈ s.outl ↔ o ∈ outl)) →
    visitLoop c s i ms ≠ .ub ∧ ∀ s', visitLoop c s i ms = .ok s' →
      ∃ vs os, LoopRes c full outl i ms vs os ∧ s'.visited = s.visited ++ vs ∧ s'.newOutl = s.newOutl ++ os ∧
        s'.wSum = s.wSum + (vs.map (·.w)).sum := by
  induction ms with
  | nil =>
    intro s i _ _ _
    refine ⟨by simp [visitLoop], ?_⟩
    intro s' h
    simp only [visitLoop, Outcome.ok.injEq] at h
    subst h
    exact ⟨[], [], .nil, by simp, by simp, by simp⟩
  | cons m ms ih =>
    intro s i hpt hinv ho
    have hm : i < nPt ↔ ∃ q, m = .pt q := by
      have := hpt 0
      simpa using this
    have hout' : ∀ o ∈ s.outl, o < nPt → ¬ StartsBlock full o :=
      fun o h1 => hout o ((ho o (hinv.ge o h1)).mp h1)
    obtain ⟨h1, h2⟩ := visitStep_spec (c := c) hpos hsum hm hout' hinv
    have hpt' : ∀ j, i + 1 + j < nPt ∧ j < ms.length ↔ ∃ q, ms[j]? = some (.pt q) := by
      intro j
      have := hpt (j + 1)
      simp only [List.getElem?_cons_succ, List.length_cons, Nat.add_lt_add_iff_right] at this
      rw [← this]
      constructor <;> rintro ⟨a, b⟩ <;> exact ⟨by omega, b⟩
    have next : ∀ s1, visitStep c s i m = .ok s1 → ∀ o, i + 1 ≤ o → (o ∈ s1.outl ↔ o ∈ outl) := by
      intro s1 hs1 o hoo
      obtain ⟨_, h3, h4, _⟩ := h2 s1 hs1
      rw [← ho o (by omega)]
      exact ⟨h3 o, fun hh => h4 o hh (by omega)⟩
    constructor
    · simp only [visitLoop, ne_eq, Outcome.bind_eq_ub, not_or, not_exists, not_and]
      refine ⟨h1, fun s1 hs1 => ?_⟩
      exact (ih s1 (i + 1) hpt' (h2 s1 hs1).1 (next s1 hs1)).1
    · intro s' h
      simp only [visitLoop, Outcome.bind_eq_ok] at h
      obtain ⟨s1, hs1, h⟩ := h
      obtain ⟨hinv1, _, _, vs, os, hr, hv, hos, hws⟩ := h2 s1 hs1
      obtain ⟨vs', os', hr', hv', hos', hws'⟩ := (ih s1 (i + 1) hpt' hinv1 (next s1 hs1)).2 s' h
      refine ⟨vs ++ vs', os ++ os', .cons (hr.congr (ho i (Nat.le_refl i))) hr', ?_, ?_, ?_⟩
      · rw [hv', hv, List.append_assoc]
      · rw [hos', hos, List.append_assoc]
      · rw [hws', hws, List.map_append, List.sum_append, add_assoc]

/-- Without points the table is never looked at. -/
theorem visit_no_points {c : VisitCfg K} {outl : List Nat} (_ : outl.Pairwise (· < ·)) (ms : List (Corr K)) :
    ∀ (s : VisitState K) (i : Nat), (∀ m ∈ ms, ∀ q, m ≠ .pt q) → s.outl.Pairwise (· < ·) → (∀ o ∈ s.outl, i ≤ o) →
      (∀ o, i ≤ o → (o ∈ s.outl ↔ o ∈ outl)) →
    visitLoop c s i ms ≠ .ub ∧ ∀ s', visitLoop c s i ms = .ok s' →
      ∃ vs os, LoopRes c [] outl i ms vs os ∧ s'.visited = s.visited ++ vs ∧ s'.newOutl = s.newOutl ++ os ∧
        s'.wSum = s.wSum + (vs.map (·.w)).sum := by
  induction ms with
  | nil =>
    intro s i _ _ _ _
    refine ⟨by simp [visitLoop], ?_⟩
    intro s' h
    simp only [visitLoop, Outcome.ok.injEq] at h
    subst h
    exact ⟨[], [], .nil, by simp, by simp, by simp⟩
  | cons m ms ih =>
    intro s i hm hsrt hge ho
    have hms : ∀ m ∈ ms, ∀ q, m ≠ .pt q := fun x hx => hm x (List.mem_cons_of_mem _ hx)
    -- one step
    have step : visitStep c s i m ≠ .ub ∧ ∀ s1, visitStep c s i m = .ok s1 →
        s1.outl.Pairwise (· < ·) ∧ (∀ o ∈ s1.outl, i + 1 ≤ o) ∧ (∀ o, i + 1 ≤ o → (o ∈ s1.outl ↔ o ∈ outl)) ∧
        ∃ vs os, StepRes c [] s.outl i m vs os ∧ s1.visited = s.visited ++ vs ∧ s1.newOutl = s.newOutl ++ os ∧
          s1.wSum = s.wSum + (vs.map (·.w)).sum := by
      by_cases hh : s.outl.head? = some i
      · unfold visitStep
        rw [if_pos hh]
        refine ⟨by simp, fun s1 h1 => ?_⟩
        simp only [Outcome.ok.injEq] at h1
        subst h1
        have hmem := (outl_head hsrt hge).mp hh
        obtain ⟨os, hos⟩ : ∃ os, s.outl = i :: os := by
          cases hh' : s.outl with
          | nil => rw [hh'] at hh; cases hh
          | cons a as => rw [hh'] at hh; simp at hh; exact ⟨as, by rw [hh]⟩
        have hp := hsrt
        rw [hos, List.pairwise_cons] at hp
        refine ⟨by rw [hos]; exact hp.2, by rw [hos]; intro o hoo; exact hp.1 o hoo, ?_, [], [i], .skip hmem, by simp, rfl, by simp⟩
        intro o hoo
        have := ho o (by omega)
        rw [hos, List.mem_cons] at this
        rw [← this, hos]
        simp only [List.tail_cons]
        constructor
        · exact .inr
        · rintro (rfl | h)
          · omega
          · exact h
      · have hnm : i ∉ s.outl := fun h => hh ((outl_head hsrt hge).mpr h)
        have hge' : ∀ o ∈ s.outl, i + 1 ≤ o := by
          intro o hoo
          have := hge o hoo
          rcases Nat.lt_or_ge i o with h | h
          · omega
          · exact absurd (show i ∈ s.outl by rw [show i = o by omega]; exact hoo) hnm
        unfold visitStep
        rw [if_neg hh]
        cases m with
        | pt q => exact absurd rfl (hm _ List.mem_cons_self q)
        | ln b r =>
          refine ⟨visitPair_not_ub, fun s1 h1 => ?_⟩
          obtain ⟨w, hpw, rfl⟩ := visitPair_ok h1
          exact ⟨hsrt, hge', fun o h => ho o (by omega), _, [], .visitLn hnm rfl hpw, rfl, by simp, by simp⟩
        | pl b r =>
          refine ⟨visitPair_not_ub, fun s1 h1 => ?_⟩
          obtain ⟨w, hpw, rfl⟩ := visitPair_ok h1
          exact ⟨hsrt, hge', fun o h => ho o (by omega), _, [], .visitPl hnm rfl hpw, rfl, by simp, by simp⟩
    constructor
    · simp only [visitLoop, ne_eq, Outcome.bind_eq_ub, not_or, not_exists, not_and]
      refine ⟨step.1, fun s1 hs1 => ?_⟩
      obtain ⟨a, b, c', _⟩ := step.2 s1 hs1
      exact (ih s1 (i + 1) hms a b c').1
    · intro s' h
      simp only [visitLoop, Outcome.bind_eq_ok] at h
      obtain ⟨s1, hs1, h⟩ := h
      obtain ⟨a, b, c', vs, os, hr, hv, hos, hws⟩ := step.2 s1 hs1
      obtain ⟨vs', os', hr', hv', hos', hws'⟩ := (ih s1 (i + 1) hms a b c').2 s' h
      refine ⟨vs ++ vs', os ++ os', .cons (hr.congr (ho i (Nat.le_refl i))) hr', ?_, ?_, ?_⟩
      · rw [hv', hv, List.append_assoc]
      · rw [hos', hos, List.append_assoc]
      · rw [hws', hws, List.map_append, List.sum_append, add_assoc]

theorem corrs_pt (p : Pairings K) (i : Nat) (q : PtPair K) :
    (corrs p)[i]? = some (.pt q) ↔ p.pt2pt[i]? = some q := by
  unfold corrs
  rw [List.append_assoc]
  by_cases hi : i < p.pt2pt.length
  · rw [List.getElem?_append_left (by simpa using hi)]
    simp [hi]
  · rw [List.getElem?_append_right (by simpa using hi)]
    have h1 : p.pt2pt[i]? = none := List.getElem?_eq_none (by omega)
    rw [h1]
    constructor
    · intro h
      have := List.mem_of_getElem? h
      simp at this
    · intro h; cases h

theorem corrs_ln (p : Pairings K) (i : Nat) (b r : P3 K) :
    (corrs p)[i]? = some (.ln b r) ↔ ∃ j q, i = p.pt2pt.length + j ∧ p.ln2ln[j]? = some q ∧
      b = q.lnGlobal.director ∧ r = q.lnLocal.director := by
  unfold corrs
  rw [List.append_assoc]
  by_cases hi : i < p.pt2pt.length
  · rw [List.getElem?_append_left (by simpa using hi)]
    constructor
    · intro h
      have := List.mem_of_getElem? h
      simp at this
    · rintro ⟨j, q, h, _⟩; omega
  · rw [List.getElem?_append_right (by simpa using hi), List.length_map]
    by_cases hj : i - p.pt2pt.length < p.ln2ln.length
    · rw [List.getElem?_append_left (by simpa using hj), List.getElem?_map]
      constructor
      · intro h
        obtain ⟨q, hq, he⟩ := Option.map_eq_some_iff.mp h
        cases he
        exact ⟨_, q, by omega, hq, rfl, rfl⟩
      · rintro ⟨j, q, h1, h2, rfl, rfl⟩
        rw [show i - p.pt2pt.length = j by omega, h2]; rfl
    · rw [List.getElem?_append_right (by simpa using hj)]
      constructor
      · intro h
        have := List.mem_of_getElem? h
        simp at this
      · rintro ⟨j, q, h1, h2, _⟩
        have := (List.getElem?_eq_some_iff.mp h2).1
        omega

theorem corrs_pl (p : Pairings K) (i : Nat) (b r : P3 K) :
    (corrs p)[i]? = some (.pl b r) ↔ ∃ j q, i = p.pt2pt.length + p.ln2ln.length + j ∧ p.pl2pl[j]? = some q ∧
      b = q.pGlobal.plane.n ∧ r = q.pLocal.plane.n := by
  unfold corrs
  by_cases hi : i < p.pt2pt.length + p.ln2ln.length
  · rw [List.getElem?_append_left (by simpa using hi)]
    constructor
    · intro h
      have := List.mem_of_getElem? h
      simp at this
    · rintro ⟨j, q, h, _⟩; omega
  · rw [List.getElem?_append_right (by simpa using hi), List.length_append, List.length_map, List.length_map,
      List.getElem?_map]
    constructor
    · intro h
      obtain ⟨q, hq, he⟩ := Option.map_eq_some_iff.mp h
      cases he
      exact ⟨_, q, by omega, hq, rfl, rfl⟩
    · rintro ⟨j, q, h1, h2, rfl, rfl⟩
      rw [show i - (p.pt2pt.length + p.ln2ln.length) = j by omega, h2]; rfl

theorem corrs_length (p : Pairings K) : (corrs p).length = numCorr p := by
  simp [corrs, numCorr]; omega

/-- The outcome of a step in the terms of the specification. -/
theorem stepRes_spec {p : Pairings K} {wp : WeightParams K} {ctL ctG : P3 K} {nrm : Bool} {norm : P3 K → K} {eps : K}
    {outl : List Nat} {i : Nat} {m : Corr K} {vs : List (Visited K)} {os : List Nat}
    {full : List (Nat × K)} (hfull : ExpandWeights full = pointWeightList p)
    (hm : (corrs p)[i]? = some m)
    (h : StepRes (visitCfg p wp ctL ctG nrm norm eps) full outl i m vs os) :
    (vs = [] ∧ os = [i] ∧ (i ∈ outl ∨ (i ∉ outl ∧ ¬ OnCentroid p ctL ctG norm eps i ∧ wp.useScaleOutlier = true ∧
        ScaleMismatch p ctL ctG norm wp.scaleThr i))) ∨
    (vs = [] ∧ os = [] ∧ i ∉ outl ∧ OnCentroid p ctL ctG norm eps i) ∨
    (∃ v, vs = [v] ∧ os = [] ∧ i ∉ outl ∧ ¬ OnCentroid p ctL ctG norm eps i ∧
      (wp.useScaleOutlier = true → ¬ ScaleMismatch p ctL ctG norm wp.scaleThr i) ∧
      VisitedAs p wp ctL ctG nrm norm i v) := by
  cases h with
  | skip a => exact .inl ⟨rfl, rfl, .inl a⟩
  | @near q a b d =>
    subst b
    exact .inr (.inl ⟨rfl, rfl, a, q, (corrs_pt p i q).mp hm, d⟩)
  | @scale q a b d e =>
    subst b
    have hq := (corrs_pt p i q).mp hm
    refine .inl ⟨rfl, rfl, .inr ⟨a, ?_, e.1, q, hq, e.2⟩⟩
    rintro ⟨q', hq', hh⟩
    rw [hq] at hq'; cases hq'
    exact d hh
  | @visitPt q bw w b' r' a b d e f g k l =>
    subst b
    have hq := (corrs_pt p i q).mp hm
    have hi := (List.getElem?_eq_some_iff.mp hq).1
    refine .inr (.inr ⟨_, rfl, rfl, a, ?_, ?_, ?_⟩)
    · rintro ⟨q', hq', hh⟩
      rw [hq] at hq'; cases hq'
      exact d hh
    · rintro hu ⟨q', hq', hh⟩
      rw [hq] at hq'; cases hq'
      exact e ⟨hu, hh⟩
    · refine ⟨q.global - ctG, q.local - ctL, _, .inl ⟨q, hq, rfl, rfl⟩, .inl ⟨bw, hi, by rw [← hfull]; exact k, rfl⟩,
        ?_, ?_, ?_⟩
      · simp only [hi, true_and]; exact f
      · simp only [hi, true_and]; exact g
      · have : (visitCfg p wp ctL ctG nrm norm eps).waPoints = wp.pairWeights.pt2pt / kindTotal p wp.pairWeights := by
          simp [visitCfg, kindTotal, div_eq_mul_inv]
        rw [this] at l
        exact l
  | @visitLn b r w a c d =>
    subst c
    have hq := (corrs_ln p i b r).mp hm
    obtain ⟨j, q, h1, h2, h3, h4⟩ := hq
    have hj := (List.getElem?_eq_some_iff.mp h2).1
    have hnone : p.pt2pt[i]? = none := List.getElem?_eq_none (by omega)
    refine .inr (.inr ⟨_, rfl, rfl, a, ?_, ?_, ?_⟩)
    · rintro ⟨q', hq', _⟩; rw [hnone] at hq'; cases hq'
    · rintro _ ⟨q', hq', _⟩; rw [hnone] at hq'; cases hq'
    · refine ⟨b, r, _, .inr (.inl ⟨j, q, h1, h2, h3, h4⟩), .inr (.inl ⟨by omega, by omega, rfl⟩), ?_, ?_, ?_⟩
      · rw [if_neg (by omega)]
      · rw [if_neg (by omega)]
      · have : (visitCfg p wp ctL ctG nrm norm eps).waLines = wp.pairWeights.ln2ln / kindTotal p wp.pairWeights := by
          simp [visitCfg, kindTotal, div_eq_mul_inv]
        rw [this] at d
        exact d
  | @visitPl b r w a c d =>
    subst c
    have hq := (corrs_pl p i b r).mp hm
    obtain ⟨j, q, h1, h2, h3, h4⟩ := hq
    have hnone : p.pt2pt[i]? = none := List.getElem?_eq_none (by omega)
    refine .inr (.inr ⟨_, rfl, rfl, a, ?_, ?_, ?_⟩)
    · rintro ⟨q', hq', _⟩; rw [hnone] at hq'; cases hq'
    · rintro _ ⟨q', hq', _⟩; rw [hnone] at hq'; cases hq'
    · refine ⟨b, r, _, .inr (.inr ⟨j, q, h1, h2, h3, h4⟩), .inr (.inr ⟨by omega, rfl⟩), ?_, ?_, ?_⟩
      · rw [if_neg (by omega)]
      · rw [if_neg (by omega)]
      · have : (visitCfg p wp ctL ctG nrm norm eps).waPlanes = wp.pairWeights.pl2pl / kindTotal p wp.pairWeights := by
          simp [visitCfg, kindTotal, div_eq_mul_inv]
        rw [this] at d
        exact d

theorem loopRes_spec {p : Pairings K} {wp : WeightParams K} {ctL ctG : P3 K} {nrm : Bool} {norm : P3 K → K} {eps : K}
    {outl : List Nat} {full : List (Nat × K)} (hfull : ExpandWeights full = pointWeightList p) (i : Nat)
    (ms : List (Corr K)) (vs : List (Visited K)) (os : List Nat) (hms : ms = (corrs p).drop i)
    (h : LoopRes (visitCfg p wp ctL ctG nrm norm eps) full outl i ms vs os) :
    ∃ idx : List Nat, idx.Pairwise (· < ·) ∧ os.Pairwise (· < ·) ∧ (∀ j ∈ os, i ≤ j) ∧ (∀ j ∈ idx, i ≤ j) ∧
      List.Forall₂ (VisitedAs p wp ctL ctG nrm norm) idx vs ∧
      ∀ j, (j ∈ idx ↔ i ≤ j ∧ j < numCorr p ∧ j ∉ os ∧ ¬ OnCentroid p ctL ctG norm eps j) ∧
        (j ∈ os ↔ i ≤ j ∧ j < numCorr p ∧ (j ∈ outl ∨ (¬ OnCentroid p ctL ctG norm eps j ∧ wp.useScaleOutlier = true ∧
        ScaleMismatch p ctL ctG norm wp.scaleThr j))) := by
  induction h with
  | @nil i =>
    have hlen : numCorr p ≤ i := by
      have := congrArg List.length hms
      simp [corrs_length] at this
      omega
    refine ⟨[], .nil, .nil, by simp, by simp, .nil, fun j => ?_⟩
    constructor
    · constructor
      · intro h; cases h
      · rintro ⟨h1, h2, _⟩; omega
    · constructor
      · intro h; cases h
      · rintro ⟨h1, h2, _⟩; omega
  | @cons i m ms vs os vs' os' hs hl ih =>
    have hi : (corrs p)[i]? = some m := by
      have := congrArg (·[0]?) hms
      simpa using this.symm
    have hlt : i < numCorr p := by rw [← corrs_length]; exact (List.getElem?_eq_some_iff.mp hi).1
    obtain ⟨idx, h1, h2, h3, h4, h5, h6⟩ := ih (by
      have := congrArg List.tail hms
      simpa using this)
    have hs' := stepRes_spec hfull hi hs
    have hnot : i ∉ idx := fun hh => by have := h4 i hh; omega
    have hnot' : i ∉ os' := fun hh => by have := h3 i hh; omega
    have hgen : ∀ j, j ≠ i → (i ≤ j ↔ i + 1 ≤ j) := fun j hj => by omega
    rcases hs' with ⟨rfl, rfl, hc⟩ | ⟨rfl, rfl, hc1, hc2⟩ | ⟨v, rfl, rfl, hc1, hc2, hc3, hc4⟩
    · refine ⟨idx, h1, List.pairwise_cons.mpr ⟨fun j hj => by have := h3 j hj; omega, h2⟩, ?_, ?_, h5, ?_⟩
      · intro j hj
        rcases List.mem_cons.mp hj with rfl | hj
        · exact Nat.le_refl _
        · have := h3 j hj; omega
      · intro j hj; have := h4 j hj; omega
      · intro j
        simp only [List.cons_append, List.nil_append, List.mem_cons, not_or]
        by_cases hj : j = i
        · subst hj
          constructor
          · exact ⟨fun hh => absurd hh hnot, fun hh => absurd rfl hh.2.2.1.1⟩
          · refine ⟨fun _ => ⟨Nat.le_refl _, hlt, ?_⟩, fun _ => .inl rfl⟩
            rcases hc with hc | ⟨_, hc⟩
            · exact .inl hc
            · exact .inr hc
        · rw [(h6 j).1, (h6 j).2, hgen j hj]
          simp [hj]
    · refine ⟨idx, h1, h2, ?_, ?_, h5, ?_⟩
      · intro j hj; have := h3 j hj; omega
      · intro j hj; have := h4 j hj; omega
      · intro j
        rw [List.nil_append]
        by_cases hj : j = i
        · subst hj
          constructor
          · exact ⟨fun hh => absurd hh hnot, fun hh => absurd hc2 hh.2.2.2⟩
          · refine ⟨fun hh => absurd hh hnot', ?_⟩
            rintro ⟨_, _, hh | ⟨hh, _⟩⟩
            · exact absurd hh hc1
            · exact absurd hc2 hh
        · rw [(h6 j).1, (h6 j).2, hgen j hj]
          exact ⟨Iff.rfl, Iff.rfl⟩
    · refine ⟨i :: idx, List.pairwise_cons.mpr ⟨fun j hj => by have := h4 j hj; omega, h1⟩, h2, ?_, ?_,
        List.Forall₂.cons hc4 h5, ?_⟩
      · intro j hj; have := h3 j hj; omega
      · intro j hj
        rcases List.mem_cons.mp hj with rfl | hj
        · exact Nat.le_refl _
        · have := h4 j hj; omega
      · intro j
        rw [List.nil_append, List.mem_cons]
        by_cases hj : j = i
        · subst hj
          constructor
          · exact ⟨fun _ => ⟨Nat.le_refl _, hlt, hnot', hc2⟩, fun _ => .inl rfl⟩
          · refine ⟨fun hh => absurd hh hnot', ?_⟩
            rintro ⟨_, _, hh | ⟨_, h7, h8⟩⟩
            · exact absurd hh hc1
            · exact absurd h8 (hc3 h7)
        · rw [(h6 j).1, (h6 j).2, hgen j hj]
          simp [hj]

/-- The whole walk. -/
theorem visit_spec {p : Pairings K} {wp : WeightParams K} {ctL ctG : P3 K} {nrm : Bool} {norm : P3 K → K} {eps : K}
    {outl : List Nat} (hpos : ∀ b ∈ p.pointWeights, 1 ≤ b.1)
    (hsum : p.pointWeights ≠ [] → (p.pointWeights.map (·.1)).sum = p.pt2pt.length)
    (hsrt : outl.Pairwise (· < ·)) (hout : ∀ o ∈ outl, o < p.pt2pt.length → ¬ StartsBlock p.pointWeights o) :
    visitCorrespondences p wp ctL ctG outl nrm norm eps ≠ .ub ∧
    ∀ o, visitCorrespondences p wp ctL ctG outl nrm norm eps = .ok o →
      p.pt2ln = [] ∧ p.pt2pl = [] ∧ o.wSum = (o.visited.map (·.w)).sum ∧
      ∃ idx : List Nat, idx.Pairwise (· < ·) ∧ o.outliers.Pairwise (· < ·) ∧
      List.Forall₂ (VisitedAs p wp ctL ctG nrm norm) idx o.visited ∧
      ∀ j, (j ∈ idx ↔ j < numCorr p ∧ j ∉ o.outliers ∧ ¬ OnCentroid p ctL ctG norm eps j) ∧
        (j ∈ o.outliers ↔ j < numCorr p ∧ (j ∈ outl ∨ (¬ OnCentroid p ctL ctG norm eps j ∧ wp.useScaleOutlier = true ∧
        ScaleMismatch p ctL ctG norm wp.scaleThr j))) := by
  -- when there are no points and no table the single block is empty and never looked at
  have hpt : ∀ j, 0 + j < p.pt2pt.length ∧ j < (corrs p).length ↔ ∃ q, (corrs p)[j]? = some (.pt q) := by
    intro j
    simp only [corrs_pt]
    constructor
    · rintro ⟨h, _⟩
      exact ⟨_, List.getElem?_eq_getElem (by omega)⟩
    · rintro ⟨q, hq⟩
      have := (List.getElem?_eq_some_iff.mp hq).1
      refine ⟨by omega, ?_⟩
      rw [corrs_length]; unfold numCorr; omega
  have main : ∀ full : List (Nat × K), (∀ b ∈ full, 1 ≤ b.1) → (full.map (·.1)).sum = p.pt2pt.length →
      ExpandWeights full = pointWeightList p → (∀ o ∈ outl, o < p.pt2pt.length → ¬ StartsBlock full o) →
      ∀ s : VisitState K, s.outl = outl → s.newOutl = [] → s.visited = [] → s.wSum = 0 →
        VInv p.pt2pt.length full s 0 →
      visitLoop (visitCfg p wp ctL ctG nrm norm eps) s 0 (corrs p) ≠ .ub ∧
      ∀ s', visitLoop (visitCfg p wp ctL ctG nrm norm eps) s 0 (corrs p) = .ok s' →
        s'.wSum = (s'.visited.map (·.w)).sum ∧
        ∃ idx : List Nat, idx.Pairwise (· < ·) ∧ s'.newOutl.Pairwise (· < ·) ∧
        List.Forall₂ (VisitedAs p wp ctL ctG nrm norm) idx s'.visited ∧
        ∀ j, (j ∈ idx ↔ j < numCorr p ∧ j ∉ s'.newOutl ∧ ¬ OnCentroid p ctL ctG norm eps j) ∧
          (j ∈ s'.newOutl ↔ j < numCorr p ∧ (j ∈ outl ∨ (¬ OnCentroid p ctL ctG norm eps j ∧
            wp.useScaleOutlier = true ∧ ScaleMismatch p ctL ctG norm wp.scaleThr j))) := by
    intro full hp1 hs1 hf1 ho1 s e1 e2 e3 e4 hinv
    obtain ⟨h1, h2⟩ := visitLoop_spec (c := visitCfg p wp ctL ctG nrm norm eps) hp1 hs1 ho1 (corrs p) s 0 hpt hinv
      (by intro o _; rw [e1])
    refine ⟨h1, fun s' hs' => ?_⟩
    obtain ⟨vs, os, hl, hv, ho, hw⟩ := h2 s' hs'
    rw [e2, List.nil_append] at ho
    rw [e3, List.nil_append] at hv
    rw [e4, zero_add] at hw
    obtain ⟨idx, h3, h4, _, _, h7, h8⟩ := loopRes_spec hf1 0 _ vs os (by simp) hl
    rw [ho, hv, hw]
    refine ⟨rfl, idx, h3, h4, h7, fun j => ?_⟩
    have := h8 j
    simpa using this
  have hloop : visitLoop (visitCfg p wp ctL ctG nrm norm eps)
        ⟨if p.pointWeights.isEmpty then [(p.pt2pt.length, (1 : K))] else p.pointWeights, 0, outl, [], [], 0⟩ 0 (corrs p) ≠ .ub ∧
      ∀ s', visitLoop (visitCfg p wp ctL ctG nrm norm eps)
        ⟨if p.pointWeights.isEmpty then [(p.pt2pt.length, (1 : K))] else p.pointWeights, 0, outl, [], [], 0⟩ 0 (corrs p) = .ok s' →
        s'.wSum = (s'.visited.map (·.w)).sum ∧
        ∃ idx : List Nat, idx.Pairwise (· < ·) ∧ s'.newOutl.Pairwise (· < ·) ∧
        List.Forall₂ (VisitedAs p wp ctL ctG nrm norm) idx s'.visited ∧
        ∀ j, (j ∈ idx ↔ j < numCorr p ∧ j ∉ s'.newOutl ∧ ¬ OnCentroid p ctL ctG norm eps j) ∧
          (j ∈ s'.newOutl ↔ j < numCorr p ∧ (j ∈ outl ∨ (¬ OnCentroid p ctL ctG norm eps j ∧
            wp.useScaleOutlier = true ∧ ScaleMismatch p ctL ctG norm wp.scaleThr j))) := by
    by_cases hne : p.pointWeights = []
    · by_cases h0 : p.pt2pt.length = 0
      · -- the loop never reads the table: same as with a dummy cursor invariant
        have aux := visit_no_points (c := visitCfg p wp ctL ctG nrm norm eps) (outl := outl) hsrt (corrs p)
          ⟨if p.pointWeights.isEmpty then [(p.pt2pt.length, (1 : K))] else p.pointWeights, 0, outl, [], [], 0⟩ 0
          (by
            intro m hm q hq
            subst hq
            obtain ⟨j, hj⟩ := List.mem_iff_getElem?.mp hm
            have := (hpt j).mpr ⟨q, hj⟩
            omega)
        obtain ⟨h1, h2⟩ := aux hsrt (by simp) (by simp)
        refine ⟨h1, fun s' hs' => ?_⟩
        obtain ⟨vs, os, hl, hv, ho, hw⟩ := h2 s' hs'
        rw [List.nil_append] at ho hv
        rw [zero_add] at hw
        have hf1 : ExpandWeights ([] : List (Nat × K)) = pointWeightList p := by
          simp [pointWeightList, hne, h0, ExpandWeights]
        obtain ⟨idx, h3, h4, _, _, h7, h8⟩ := loopRes_spec hf1 0 _ vs os (by simp) hl
        rw [ho, hv, hw]
        refine ⟨rfl, idx, h3, h4, h7, fun j => ?_⟩
        have := h8 j
        simpa using this
      · refine main [(p.pt2pt.length, 1)] ?_ ?_ ?_ ?_ _ rfl rfl rfl rfl ⟨?_, hsrt, by simp⟩
        · intro b hb; simp at hb; subst hb; simp only; omega
        · simp
        · simp [pointWeightList, hne, ExpandWeights]
        · rintro o ho hlt ⟨pre, suf, h1, h2, h3⟩
          cases pre with
          | nil => exact h1 rfl
          | cons b pre =>
            rw [List.cons_append] at h2
            simp only [List.cons.injEq] at h2
            rw [← h2.1] at h3
            simp at h3
            omega
        · intro _
          simp only [hne, List.isEmpty_nil, if_true]
          exact ⟨[], _, _, [], rfl, by simp, by simp, by simp, by simp⟩
    · refine main p.pointWeights hpos (hsum hne) ?_ hout _ rfl rfl rfl rfl ⟨?_, hsrt, by simp⟩
      · simp [pointWeightList, hne]
      · intro _
        cases hw : p.pointWeights with
        | nil => exact absurd hw hne
        | cons b rest =>
          obtain ⟨n, w⟩ := b
          simp only [List.isEmpty_cons]
          exact ⟨[], n, w, rest, rfl, by simp, by simp, by simp, by simp⟩
  constructor
  · unfold visitCorrespondences
    simp only [Outcome.bind_def, Outcome.pure_def, ne_eq, Outcome.bind_eq_ub, not_or, not_exists, not_and]
    refine ⟨Outcome.assert_ne_ub, fun _ _ => ⟨Outcome.assert_ne_ub, fun _ _ => ⟨Outcome.assert_ne_ub, fun _ _ => ?_⟩⟩⟩
    exact ⟨hloop.1, fun s _ => by simp⟩
  · intro o ho
    unfold visitCorrespondences at ho
    simp only [Outcome.bind_def, Outcome.pure_def, Outcome.bind_eq_ok, Outcome.assert_eq_ok, Outcome.ok.injEq] at ho
    obtain ⟨_, h1, _, h2, _, h3, s, hs, rfl⟩ := ho
    obtain ⟨h4, idx, h5⟩ := hloop.2 s hs
    exact ⟨List.length_eq_zero_iff.mp h1, List.length_eq_zero_iff.mp h2, h4, idx, h5⟩

end Verif.Lemmas
