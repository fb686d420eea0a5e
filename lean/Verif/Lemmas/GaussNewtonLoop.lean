import Verif.Lemmas.GaussNewton
namespace Verif.Lemmas.Gn
open Verif Verif.Gn Verif.Spec Verif.Spec.GN
set_option linter.unusedSectionVars false
variable {K : Type} [Field K] [LinearOrder K]

/-- The trace only grows. -/
theorem loop_trace_prefix (b : Build) (E : Env K) (P : Params K) (inp : Pairings K) (n : Nat) :
    ∀ (k : Nat) (T : Pose3 K) (sys : Sys K) (c : Cursor K) (tr : List (Pose3 K × Sys K)) (r : Run K),
      loop b E P inp n k T sys c tr = .ok r → ∃ tl, r.trace = tr ++ tl ∧ tl.length ≤ n := by
  induction n with
  | zero =>
    intro k T sys c tr r h
    simp only [loop, Outcome.ok.injEq] at h
    subst h; exact ⟨[], by simp, by simp⟩
  | succ n ih =>
    intro k T sys c tr r h
    simp only [loop, Outcome.bind_eq_ok] at h
    obtain ⟨s, _, h⟩ := h
    split at h
    · simp only [Outcome.ok.injEq] at h; subst h; exact ⟨[_], rfl, by simp⟩
    · split at h
      · simp only [Outcome.ok.injEq] at h; subst h; exact ⟨[_], rfl, by simp⟩
      · obtain ⟨tl, h1, h2⟩ := ih _ _ _ _ _ _ h
        exact ⟨_ :: tl, by rw [h1]; simp; rfl, by simp; omega⟩

/-- Serial build with a cursor that does not move any more: the systems pile up. -/
theorem loop_piles (b : Build) (E : Env K) (P : Params K) (inp : Pairings K) (ws : List K) (c : Cursor K)
    (cost : Pose3 K → K)
    (hA : ∀ k T sys, assemble b E P inp k T sys c = .ok (⟨sys + system E P inp ws T, cost T⟩, c)) (n : Nat) :
    ∀ (k : Nat) (T : Pose3 K) (sys : Sys K) (tr : List (Pose3 K × Sys K)) (r : Run K),
      loop b E P inp n k T sys c tr = .ok r → ∃ tl, r.trace = tr ++ tl ∧
        ∀ (j : Nat) (q : Pose3 K × Sys K), tl[j]? = some q →
          q.2 = sys + ((tl.take (j + 1)).map fun p => system E P inp ws p.1).sum := by
  induction n with
  | zero =>
    intro k T sys tr r h
    simp only [loop, Outcome.ok.injEq] at h
    subst h; exact ⟨[], by simp, by simp⟩
  | succ n ih =>
    intro k T sys tr r h
    simp only [loop, hA, Outcome.bind] at h
    have one : ∀ (j : Nat) (q : Pose3 K × Sys K), [(T, sys + system E P inp ws T)][j]? = some q →
        q.2 = sys + (([(T, sys + system E P inp ws T)].take (j + 1)).map fun p => system E P inp ws p.1).sum := by
      intro j q hq
      cases j with
      | zero => simp at hq; subst hq; simp
      | succ j => simp at hq
    split at h
    · simp only [Outcome.ok.injEq] at h; subst h; exact ⟨_, rfl, one⟩
    · split at h
      · simp only [Outcome.ok.injEq] at h; subst h; exact ⟨_, rfl, one⟩
      · obtain ⟨tl, h1, h2⟩ := ih _ _ _ _ _ h
        refine ⟨(T, sys + system E P inp ws T) :: tl, by rw [h1]; simp, ?_⟩
        intro j q hq
        cases j with
        | zero => simp at hq; subst hq; simp
        | succ j =>
          simp only [List.getElem?_cons_succ] at hq
          rw [h2 j q hq]
          simp [add_assoc]

/-- Build where each system is fresh. -/
theorem loop_fresh (b : Build) (E : Env K) (P : Params K) (inp : Pairings K) (ws : List K) (c : Cursor K)
    (cost : Pose3 K → K)
    (hA : ∀ k T sys, assemble b E P inp k T sys c = .ok (⟨system E P inp ws T, cost T⟩, c)) (n : Nat) :
    ∀ (k : Nat) (T : Pose3 K) (sys : Sys K) (tr : List (Pose3 K × Sys K)) (r : Run K),
      loop b E P inp n k T sys c tr = .ok r → (∀ q ∈ tr, q.2 = system E P inp ws q.1) →
        ∀ q ∈ r.trace, q.2 = system E P inp ws q.1 := by
  induction n with
  | zero =>
    intro k T sys tr r h htr
    simp only [loop, Outcome.ok.injEq] at h
    subst h; exact htr
  | succ n ih =>
    intro k T sys tr r h htr
    simp only [loop, hA, Outcome.bind] at h
    have htr' : ∀ q ∈ tr ++ [(T, system E P inp ws T)], q.2 = system E P inp ws q.1 := by
      intro q hq
      simp only [List.mem_append, List.mem_singleton] at hq
      rcases hq with hq | rfl
      · exact htr q hq
      · rfl
    split at h
    · simp only [Outcome.ok.injEq] at h; subst h; exact htr'
    · split at h
      · simp only [Outcome.ok.injEq] at h; subst h; exact htr'
      · exact ih _ _ _ _ _ h htr'

/-- Two builds assembling the same systems give the same result. -/
theorem loop_congr (b b' : Build) (E : Env K) (P : Params K) (inp : Pairings K)
    (hA : ∀ k T sys c, assemble b E P inp k T sys c = assemble b' E P inp k T sys c) (n : Nat) :
    ∀ (k : Nat) (T : Pose3 K) (sys : Sys K) (c : Cursor K) (tr : List (Pose3 K × Sys K)),
      loop b E P inp n k T sys c tr = loop b' E P inp n k T sys c tr := by
  induction n with
  | zero => intros; rfl
  | succ n ih => intro k T sys c tr; simp only [loop, hA, ih]

theorem loop_total (b : Build) (E : Env K) (P : Params K) (inp : Pairings K) (c : Cursor K)
    (hA : ∀ k T sys, ∃ a, assemble b E P inp k T sys c = .ok (a, c)) (n : Nat) :
    ∀ (k : Nat) (T : Pose3 K) (sys : Sys K) (tr : List (Pose3 K × Sys K)),
      ∃ r, loop b E P inp n k T sys c tr = .ok r := by
  induction n with
  | zero => intro k T sys tr; exact ⟨_, rfl⟩
  | succ n ih =>
    intro k T sys tr
    obtain ⟨a, ha⟩ := hA k T sys
    simp only [loop, ha, Outcome.bind]
    split
    · exact ⟨_, rfl⟩
    · split
      · exact ⟨_, rfl⟩
      · exact ih _ _ _ _

/-- First pass over the point pairs with a table. -/
theorem ptLoop_table (E : Env K) (P : Params K) (T : Pose3 K) (full : List (Nat × K)) (hpos : ∀ b ∈ full, 1 ≤ b.1) :
    ∀ (ps : List (PtPair K)) (a : Acc K) (c : Cursor K) (i : Nat), CurInv full c.blocks c.start i →
      i + ps.length = (full.map (·.1)).sum →
      ∃ c', ptLoop E P true T (a, c) i ps = .ok (⟨a.sys + pointPart E P ps ((ExpandWeights full).drop i) T,
        a.err + costPoints P ps ((ExpandWeights full).drop i) T⟩, c') ∧ CurInv full c'.blocks c'.start (i + ps.length) := by
  intro ps
  induction ps with
  | nil => intro a c i h _; exact ⟨c, by simp [ptLoop, pointPart, costPoints], h⟩
  | cons p ps ih =>
    intro a c i h hi
    simp only [List.length_cons] at hi
    obtain ⟨bl, st, w, h1, h2, h3⟩ := blockStep_ok hpos h (by omega)
    obtain ⟨c', h4, h5⟩ := ih ⟨a.sys + ptTerm E P T w p, a.err + ptCost P T w p⟩ ⟨w, bl, st⟩ (i + 1) h2 (by omega)
    refine ⟨c', ?_, by rw [List.length_cons]; convert h5 using 1; omega⟩
    have hd : (ExpandWeights full).drop i = w :: (ExpandWeights full).drop (i + 1) := by
      obtain ⟨hl, hw⟩ := List.getElem?_eq_some_iff.mp h3
      rw [List.drop_eq_getElem_cons hl, hw]
    simp only [ptLoop, ptStep_eq, nextWeight, if_true, h1, Outcome.bind, h4, hd, pointPart_cons, costPoints_cons,
      add_assoc]

/-- Once the cursor is at the last block it stays there. -/
theorem ptLoop_last (E : Env K) (P : Params K) (T : Pose3 K) (n : Nat) (w : K) (st : Nat) :
    ∀ (ps : List (PtPair K)) (a : Acc K) (c : Cursor K) (i : Nat), c.blocks = [(n, w)] → c.start = st → c.wPt = w →
      i + ps.length ≤ st + n →
      ptLoop E P true T (a, c) i ps = .ok (⟨a.sys + pointPart E P ps (List.replicate ps.length w) T,
        a.err + costPoints P ps (List.replicate ps.length w) T⟩, c) := by
  intro ps
  induction ps with
  | nil => intro a c i _ _ _ _; simp [ptLoop, pointPart, costPoints]
  | cons p ps ih =>
    intro a c i h1 h2 h3 h4
    simp only [List.length_cons] at h4
    have hb : blockStep i c.blocks c.start = .ok ([(n, w)], st, w) := by
      rw [h1, h2]; simp only [blockStep]; rw [if_neg (by omega)]
    have hc : (⟨w, [(n, w)], st⟩ : Cursor K) = c := by cases c; simp_all
    simp only [ptLoop, ptStep_eq, nextWeight, if_true, hb, Outcome.bind, hc]
    rw [ih _ c (i + 1) h1 h2 h3 (by omega)]
    simp only [h3, List.length_cons, List.replicate_succ, pointPart_cons, costPoints_cons, add_assoc]

/-- The weight written last by a pass over the points is the one of the block of the cursor. -/
theorem ptLoop_wPt (E : Env K) (P : Params K) (T : Pose3 K) :
    ∀ (ps : List (PtPair K)) (a a' : Acc K) (c c' : Cursor K) (i : Nat), ps ≠ [] →
      ptLoop E P true T (a, c) i ps = .ok (a', c') → ∃ n rest, c'.blocks = (n, c'.wPt) :: rest := by
  intro ps
  induction ps with
  | nil => intro a a' c c' i h; exact absurd rfl h
  | cons p ps ih =>
    intro a a' c c' i _ h
    simp only [ptLoop, ptStep_eq, nextWeight, if_true, Outcome.bind_eq_ok] at h
    obtain ⟨s, ⟨d, ⟨⟨bl, st, w⟩, hb, hd⟩, hs⟩, h⟩ := h
    simp only [Outcome.ok.injEq] at hd hs
    subst hs hd
    cases ps with
    | nil =>
      simp only [ptLoop, Outcome.ok.injEq, Prod.mk.injEq] at h
      obtain ⟨_, rfl⟩ := h
      obtain ⟨_, n, rest, hr⟩ := blockStep_ok_inv hb
      exact ⟨n, rest, hr⟩
    | cons q qs => exact ih _ _ _ _ _ (by simp) h

/-- The cursor at the end of a pass over a table which covers exactly the points. -/
theorem curInv_end {full blocks : List (Nat × K)} {start : Nat} (hpos : ∀ b ∈ full, 1 ≤ b.1)
    (h : CurInv full blocks start (full.map (·.1)).sum) :
    ∃ n w, blocks = [(n, w)] ∧ full.getLast? = some (n, w) ∧ start + n = (full.map (·.1)).sum := by
  obtain ⟨pre, n, w, rest, rfl, hf, hs, h1, h2⟩ := h
  cases rest with
  | nil =>
    refine ⟨n, w, rfl, by rw [hf]; simp, ?_⟩
    rw [hf]; simp; omega
  | cons b rest =>
    have hb := hpos b (by rw [hf]; simp)
    have : (full.map (·.1)).sum = start + n + b.1 + (rest.map (·.1)).sum := by
      rw [hf]; simp; omega
    omega

end Verif.Lemmas.Gn

namespace Verif.Lemmas.Gn
open Verif Verif.Gn Verif.Spec Verif.Spec.GN
set_option linter.unusedSectionVars false
variable {K : Type} [Field K] [LinearOrder K]

/-- A table which covers the points: what the first and the later passes do. -/
theorem serial_table_passes (E : Env K) (P : Params K) (inp : Pairings K) (hw : inp.pointWeights ≠ [])
    (hb : BlocksCover inp) (w0 : K) (T0 : Pose3 K) :
    ∃ (c : Cursor K) (m : Nat) (w : K), inp.pointWeights.getLast? = some (m, w) ∧
      (∀ k sys, assemble .serial E P inp k T0 sys ⟨w0, inp.pointWeights, 0⟩
        = .ok (⟨sys + system E P inp (ExpandWeights inp.pointWeights) T0,
          costPoints P inp.pt2pt (ExpandWeights inp.pointWeights) T0 + costOther false P E inp T0⟩, c)) ∧
      (∀ k T sys, assemble .serial E P inp k T sys c
        = .ok (⟨sys + system E P inp (uniform inp w) T,
          costPoints P inp.pt2pt (uniform inp w) T + costOther false P E inp T⟩, c)) := by
  have hE : inp.pointWeights.isEmpty = false := by simpa using hw
  have hpt : inp.pt2pt ≠ [] := by
    intro h
    have h1 := hb.2 hw
    rw [h] at h1
    cases hpw : inp.pointWeights with
    | nil => exact hw hpw
    | cons b l =>
      have := hb.1 b (by rw [hpw]; simp)
      rw [hpw] at h1; simp at h1; omega
  have hc : CurInv inp.pointWeights inp.pointWeights 0 0 := by
    cases hpw : inp.pointWeights with
    | nil => exact absurd hpw hw
    | cons b l => exact ⟨[], b.1, b.2, l, rfl, rfl, rfl, le_refl _, Nat.zero_le _⟩
  have hall := fun (a : Acc K) => ptLoop_table E P T0 inp.pointWeights hb.1 inp.pt2pt a
    ⟨w0, inp.pointWeights, 0⟩ 0 hc (by rw [hb.2 hw]; simp)
  -- the cursor after the pass does not depend on the accumulators
  have hcur : ∀ (ps : List (PtPair K)) (a a' : Acc K) (c : Cursor K) (i : Nat) (r : Acc K × Cursor K),
      ptLoop E P true T0 (a, c) i ps = .ok r → ∃ r', ptLoop E P true T0 (a', c) i ps = .ok r' ∧ r'.2 = r.2 := by
    intro ps
    induction ps with
    | nil => intro a a' c i r h; simp only [ptLoop, Outcome.ok.injEq] at h; subst h; exact ⟨_, rfl, rfl⟩
    | cons p ps ih =>
      intro a a' c i r h
      simp only [ptLoop, ptStep_eq, Outcome.bind_eq_ok] at h
      obtain ⟨s, ⟨d, hd, hs⟩, h⟩ := h
      simp only [Outcome.ok.injEq] at hs
      subst hs
      obtain ⟨r', h1, h2⟩ := ih _ ⟨a'.sys + ptTerm E P T0 d.wPt p, a'.err + ptCost P T0 d.wPt p⟩ _ _ _ h
      exact ⟨r', by simp only [ptLoop, ptStep_eq, hd, Outcome.bind, h1], h2⟩
  obtain ⟨c, h1, h2⟩ := hall ⟨0, 0⟩
  rw [Nat.zero_add, ← hb.2 hw] at h2
  obtain ⟨m, w, hbl, hlast, hst⟩ := curInv_end hb.1 h2
  obtain ⟨_, _, hwp⟩ := ptLoop_wPt E P T0 inp.pt2pt _ _ _ _ _ hpt h1
  have hcw : c.wPt = w := by
    rw [hbl] at hwp; simp at hwp; exact hwp.1.2.symm
  refine ⟨c, m, w, hlast, ?_, ?_⟩
  · intro k sys
    obtain ⟨c', h3, h4⟩ := hall ⟨sys, 0⟩
    obtain ⟨r', h5, h6⟩ := hcur _ _ ⟨sys, 0⟩ _ _ _ h1
    rw [h3] at h5
    simp only [Outcome.ok.injEq] at h5
    subst h5
    simp only at h6
    subst h6
    simp only [assemble, hE, Bool.not_false, h3, Outcome.bind, restSerial_eq, List.drop_zero, zero_add, system, add_assoc]
  · intro k T sys
    have h3 := ptLoop_last E P T m w c.start inp.pt2pt ⟨sys, 0⟩ c 0 hbl rfl hcw (by rw [hst, hb.2 hw]; omega)
    simp only [assemble, hE, Bool.not_false, h3, Outcome.bind, restSerial_eq, zero_add, system, uniform, add_assoc]

/-- A table which is too short makes the pass read past its end. -/
theorem ptLoop_short (E : Env K) (P : Params K) (T : Pose3 K) (full : List (Nat × K)) (hpos : ∀ b ∈ full, 1 ≤ b.1) :
    ∀ (ps : List (PtPair K)) (a : Acc K) (c : Cursor K) (i : Nat), CurInv full c.blocks c.start i →
      i ≤ (full.map (·.1)).sum → (full.map (·.1)).sum < i + ps.length → ptLoop E P true T (a, c) i ps = .ub := by
  intro ps
  induction ps with
  | nil => intro a c i _ h1 h2; simp at h2; omega
  | cons p ps ih =>
    intro a c i h h1 h2
    simp only [List.length_cons] at h2
    by_cases hi : i < (full.map (·.1)).sum
    · obtain ⟨bl, st, w, h3, h4, _⟩ := blockStep_ok hpos h hi
      simp only [ptLoop, ptStep_eq, nextWeight, if_true, h3, Outcome.bind]
      exact ih _ _ _ h4 (by omega) (by omega)
    · have hi' : i = (full.map (·.1)).sum := by omega
      subst hi'
      obtain ⟨n, w, hbl, _, hst⟩ := curInv_end hpos h
      have : blockStep (full.map (·.1)).sum c.blocks c.start = .ub := by
        rw [hbl]; simp only [blockStep]; rw [if_pos (by omega)]
      simp only [ptLoop, ptStep_eq, nextWeight, if_true, this, Outcome.bind]

end Verif.Lemmas.Gn
