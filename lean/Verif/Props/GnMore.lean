import Verif.Props.GnSteps
import Verif.Props.ErrorTerms
import Mathlib.LinearAlgebra.Matrix.Rank
/-
C77 with a table of weights (serial build); C62 for line-to-line pairings.
-/
namespace Verif.Props
open Verif.Gn Verif.Spec Verif.Spec.GN Verif.Lemmas.Gn
variable {K : Type} [Field K] [LinearOrder K]

theorem loop_stops_cursor (b : Build) (E : Env K) (P : Params K) (inp : Pairings K) (Cur : Nat → Pose3 K → Cursor K → Prop)
    (cost : Nat → Pose3 K → K)
    (hA : ∀ k T sys c, Cur k T c → ∃ sys' c', assemble b E P inp k T sys c = .ok (⟨sys', cost k T⟩, c') ∧ ∀ T', Cur (k + 1) T' c') (n : Nat) :
    ∀ (k : Nat) (T : Pose3 K) (sys : Sys K) (c : Cursor K) (tr : List (Pose3 K × Sys K)), Cur k T c →
      ∃ r, loop b E P inp n k T sys c tr = .ok r ∧ ∃ tl, r.trace = tr ++ tl ∧ (n = 0 → tl = []) ∧
        (∀ j q q', tl[j]? = some q → tl[j + 1]? = some q' → P.maxCost < E.sqrt (cost (k + j) q.1)) ∧
        (∀ q, tl.getLast? = some q → (E.sqrt (cost (k + (tl.length - 1)) q.1) ≤ P.maxCost ∧ r.pose = q.1) ∨
          (P.maxCost < E.sqrt (cost (k + (tl.length - 1)) q.1) ∧ r.pose = stepped E q ∧
            (E.sqrt (sqLen (increment E q.2)) < P.minDelta ∨ tl.length = n))) := by
  induction n with
  | zero =>
    intro k T sys c tr _
    exact ⟨_, rfl, [], by simp, by simp, by simp, by simp⟩
  | succ n ih =>
    intro k T sys c tr hcur
    obtain ⟨sys', c', hAs, hcur'⟩ := hA k T sys c hcur
    simp only [loop, hAs, Outcome.bind]
    by_cases hc : E.sqrt (cost k T) ≤ P.maxCost
    · rw [if_pos hc]
      exact ⟨_, rfl, [(T, sys')], rfl, by simp, by simp, by intro q hq; simp at hq; subst hq; exact Or.inl ⟨hc, rfl⟩⟩
    · rw [if_neg hc]
      by_cases hmd : E.sqrt (sqNorm (-(E.solve sys'.1 sys'.2))) < P.minDelta
      · rw [if_pos hmd]
        exact ⟨_, rfl, [(T, sys')], rfl, by simp, by simp, by
          intro q hq; simp at hq; subst hq; exact Or.inr ⟨not_le.1 hc, rfl, Or.inl hmd⟩⟩
      · rw [if_neg hmd]
        obtain ⟨r, h, tl, h1, h2, h5, h6⟩ := ih (k + 1) (T.compose (E.exp (-(E.solve sys'.1 sys'.2)))) sys' c' (tr ++ [(T, sys')]) (hcur' _)
        obtain ⟨tl', g1, g2, g3, g4, -, -⟩ := loop_steps _ _ _ _ _ _ _ _ _ _ _ h
        have : tl' = tl := by rw [h1] at g1; exact (List.append_cancel_left g1).symm
        subst this
        refine ⟨r, h, (T, sys') :: tl', by rw [h1]; simp, by simp, ?_, ?_⟩
        · intro j q q' hq hq'
          cases j with
          | zero => simp at hq; subst hq; exact not_le.1 hc
          | succ j =>
            simp only [List.getElem?_cons_succ] at hq hq'
            have := h5 j q q' hq hq'
            rwa [show k + (j + 1) = k + 1 + j by omega]
        · intro q hq
          cases tl' with
          | nil =>
            simp at hq
            subst hq
            have hn := g2.1 rfl
            exact Or.inr ⟨not_le.1 hc, g3 hn, Or.inr (by simp [hn])⟩
          | cons a tl =>
            rw [List.getLast?_cons_cons] at hq
            have e : k + (((T, sys') :: a :: tl).length - 1) = k + 1 + ((a :: tl).length - 1) := by
              simp only [List.length_cons]; omega
            rw [e]
            rcases h6 q hq with h | ⟨a1, a2, a3 | a3⟩
            · exact Or.inl h
            · exact Or.inr ⟨a1, a2, Or.inl a3⟩
            · exact Or.inr ⟨a1, a2, Or.inr (by simpa using a3)⟩

/-- The cost the loop looks at in iteration `j` with a table of weights: right in the first iteration; in the others every point pair has the weight
`w` of the last block (C34). -/
def tableCost (E : Env K) (P : Params K) (inp : Pairings K) (w : K) (j : Nat) (T : Pose3 K) : K :=
  costPoints P inp.pt2pt (if j = 0 then ExpandWeights inp.pointWeights else uniform inp w) T + costOther false P E inp T

/-- **C77 (end), with a table of weights**, serial build: the loop always ends normally; every iteration but the last one has a cost above
`maxCost`; if the last one has not, the result is its pose, unchanged; otherwise it is that pose after its step, which was below `minDelta` or the
last one allowed.  The costs compared are those of `tableCost`. -/
theorem gn_stops_with_table (E : Env K) (P : Params K) (inp : Pairings K) (T0 : Pose3 K) (hl : P.linearizationPoint = some T0)
    (hw : inp.pointWeights ≠ []) (hb : BlocksCover inp) (m : Nat) (w : K) (hlast : inp.pointWeights.getLast? = some (m, w)) :
    ∃ r, run .serial E P inp = .ok r ∧
    (∀ j q q', r.trace[j]? = some q → r.trace[j + 1]? = some q' → P.maxCost < E.sqrt (tableCost E P inp w j q.1)) ∧
    (∀ q, r.trace.getLast? = some q → (E.sqrt (tableCost E P inp w (r.trace.length - 1) q.1) ≤ P.maxCost ∧ r.pose = q.1) ∨
      (P.maxCost < E.sqrt (tableCost E P inp w (r.trace.length - 1) q.1) ∧ r.pose = q.1.compose (E.exp (-(E.solve q.2.1 q.2.2))) ∧
        (E.sqrt (sqLen (-(E.solve q.2.1 q.2.2))) < P.minDelta ∨ r.trace.length = P.maxInner))) := by
  obtain ⟨c, m', w', h1, h2, h3⟩ := serial_table_passes E P inp hw hb P.pairWeights.pt2pt T0
  rw [hlast] at h1
  simp only [Option.some.injEq, Prod.mk.injEq] at h1
  obtain ⟨-, rfl⟩ := h1
  unfold run
  rw [hl]
  obtain ⟨r, g1, tl, g2, -, g3, g4⟩ := loop_stops_cursor .serial E P inp
    (fun k T d => (k = 0 ∧ T = T0 ∧ d = ⟨P.pairWeights.pt2pt, inp.pointWeights, 0⟩) ∨ (k ≠ 0 ∧ d = c)) (tableCost E P inp w)
    (by
      rintro k T sys d (⟨rfl, rfl, rfl⟩ | ⟨hk, rfl⟩)
      · exact ⟨_, _, by rw [h2]; rfl, fun T' => Or.inr ⟨by simp, rfl⟩⟩
      · exact ⟨_, _, by rw [h3]; simp only [tableCost, if_neg hk]; rfl, fun T' => Or.inr ⟨by simp, rfl⟩⟩)
    P.maxInner 0 T0 0 ⟨P.pairWeights.pt2pt, inp.pointWeights, 0⟩ [] (Or.inl ⟨rfl, rfl, rfl⟩)
  rw [List.nil_append] at g2
  refine ⟨r, g1, ?_, ?_⟩
  · rw [g2]; simpa only [Nat.zero_add] using g3
  · rw [g2]; simp only [Nat.zero_add] at g4; exact g4

/-- A table of two blocks over three points: hypotheses met. -/
example : BlocksCover ({ pt2pt := [⟨0, 0, ⟨1, 2, 4⟩, ⟨1, 2, 3⟩, 0⟩, ⟨0, 0, ⟨1, 2, 4⟩, ⟨1, 0, 3⟩, 0⟩, ⟨0, 0, ⟨1, 9, 4⟩, ⟨1, 2, 3⟩, 0⟩], pointWeights := [(1, 2), (2, 5)] } : Pairings ℚ) := by
  constructor
  · simp
  · simp

/-! ### C62: lines -/

/-- The matrix of the cross product with `w`. -/
def skew (w : P3 ℚ) : M3 ℚ := ⟨0, -w.z, w.y, w.z, 0, -w.x, -w.y, w.x, 0⟩

/-- `D` is the derivative of the entries of `T * exp(v, w)` at zero. -/
def IsExpJac (T : Pose3 ℚ) (D : Matrix (Fin 12) (Fin 6) ℚ) : Prop :=
  ∀ v w : P3 ℚ, D.mulVec ![v.x, v.y, v.z, w.x, w.y, w.z] = poseVec ⟨T.R.mul (skew w), T.R.mulVec v⟩

/-- Normal equations always have a solution. -/
theorem normal_solvable {n m : Nat} (A : Matrix (Fin n) (Fin m) ℚ) (e : Fin n → ℚ) (w : ℚ) :
    ∃ d, (w • (A.transpose * A)).mulVec d = w • A.transpose.mulVec e := by
  have hle : LinearMap.range (A.transpose * A).mulVecLin ≤ LinearMap.range A.transpose.mulVecLin := by
    rw [Matrix.mulVecLin_mul]
    exact LinearMap.range_comp_le_range _ _
  have heq : LinearMap.range (A.transpose * A).mulVecLin = LinearMap.range A.transpose.mulVecLin := by
    apply Submodule.eq_of_le_of_finrank_eq hle
    have h1 := Matrix.rank_transpose_mul_self A
    have h2 := Matrix.rank_transpose A
    unfold Matrix.rank at h1 h2
    rw [h1, ← h2]
  have : A.transpose.mulVecLin e ∈ LinearMap.range (A.transpose * A).mulVecLin := by rw [heq]; exact ⟨e, rfl⟩
  obtain ⟨d, hd⟩ := this
  refine ⟨d, ?_⟩
  rw [Matrix.smul_mulVec]
  simp only [Matrix.mulVecLin_apply] at hd
  rw [hd]

/-- Only these pairings. -/
def exLnPairs : Pairings ℚ := { ln2ln := [exLnPair] }

/-- the gradient of the aligned line pair is not zero -/
theorem aligned_lines_gradient (E : Env ℚ) (P : Params ℚ) (hp : P.prior = none) (hk : P.kernel = .none) (hw : P.pairWeights.ln2ln ≠ 0)
    (hpar : ∀ a b : P3 ℚ, P3.dot a b = 0 → E.ln.parallel a b = false) (hD : IsExpJac rot120 (E.expJac rot120)) (ws : List ℚ) :
    (∃ d, (system E P exLnPairs ws rot120).1.mulVec d = (system E P exLnPairs ws rot120).2) ∧ (system E P exLnPairs ws rot120).2 ≠ 0 := by
  have he := (error_line2line_nonzero_at_alignment E.ln E.junkErr hpar).2.2
  have hsys : system E P exLnPairs ws rot120 =
      term (E.expJac rot120) P.pairWeights.ln2ln (Err.ln2lnJac E.ln E.junkJac exLnPair rot120) ![0, 0, -1, 1] := by
    simp [system, pointPart, otherPart, exLnPairs, hp, robust, hk, kernelFactor, he]
  have hJ : Err.ln2lnJac E.ln E.junkJac exLnPair rot120 = Err.ln2lnJ1 E.ln exLnPair rot120 * Err.ln2lnJ2 exLnPair := by
    unfold Err.ln2lnJac
    rw [hpar exLnPair.lnGlobal.director (Err.ln2lnDir exLnPair rot120) (by decide +kernel)]
    rfl
  rw [hsys]
  refine ⟨normal_solvable _ _ _, fun h0 => ?_⟩
  have h5 := congrFun h0 5
  have hcol := hD ⟨0, 0, 0⟩ ⟨0, 0, 1⟩
  have hc : ∀ k, (E.expJac rot120) k 5 = poseVec (⟨rot120.R.mul (skew ⟨0, 0, 1⟩), rot120.R.mulVec ⟨0, 0, 0⟩⟩ : Pose3 ℚ) k := by
    intro k
    have := congrFun hcol k
    simpa [Matrix.mulVec, dotProduct, Fin.sum_univ_succ] using this
  simp only [term, hJ, Pi.smul_apply, smul_eq_mul, Matrix.mulVec, dotProduct, Fin.sum_univ_four, Matrix.transpose_apply, Pi.zero_apply, mul_eq_zero, hw, false_or] at h5
  simp only [Matrix.mul_apply, hc] at h5
  simp [Fin.sum_univ_succ, poseVec, rot120, skew, M3.mul, M3.mulVec, Err.ln2lnJ1, Err.ln2lnJ2, exLnPair] at h5

/-- **C62 (finding): line-to-line pairings.**  The pose takes the local line exactly to the global one (`error_line2line_nonzero_at_alignment`);
started there, one iteration makes a step which is not zero, in both builds, for every solver that solves, every non-zero weight and every
`maxCost` below the cost, which is not zero. -/
theorem gn_leaves_aligned_lines (b : Build) (E : Env ℚ) (P : Params ℚ) (hl : P.linearizationPoint = some rot120) (hn : P.maxInner = 1)
    (hb : ∀ sched, b = .tbb sched → ValidSchedule exLnPairs sched)
    (hp : P.prior = none) (hk : P.kernel = .none) (hw : P.pairWeights.ln2ln ≠ 0)
    (hpar : ∀ a b : P3 ℚ, P3.dot a b = 0 → E.ln.parallel a b = false) (hD : IsExpJac rot120 (E.expJac rot120))
    (hs : ∀ (H : Matrix (Fin 6) (Fin 6) ℚ) (g : Fin 6 → ℚ), (∃ d, H.mulVec d = g) → H.mulVec (E.solve H g) = g)
    (hcost : P.maxCost < E.sqrt (P.pairWeights.ln2ln * P.pairWeights.ln2ln * 2)) :
    ∃ r d, run b E P exLnPairs = .ok r ∧ d ≠ 0 ∧ r.pose = rot120.compose (E.exp d) ∧ (E.exp d ≠ Pose3.identity → r.pose ≠ rot120) := by
  have he := (error_line2line_nonzero_at_alignment E.ln E.junkErr hpar).2.2
  have hA : assemble b E P exLnPairs 0 rot120 0 ⟨P.pairWeights.pt2pt, [], 0⟩ =
      .ok (⟨system E P exLnPairs (uniform exLnPairs P.pairWeights.pt2pt) rot120, P.pairWeights.ln2ln * P.pairWeights.ln2ln * 2⟩, ⟨P.pairWeights.pt2pt, [], 0⟩) := by
    have hcst : ∀ t, costPoints P exLnPairs.pt2pt (uniform exLnPairs P.pairWeights.pt2pt) rot120 + costOther t P E exLnPairs rot120 =
        P.pairWeights.ln2ln * P.pairWeights.ln2ln * 2 := by
      intro t
      simp [costPoints, costOther, exLnPairs, he, robust, hk, kernelFactor, sqLen, Fin.sum_univ_four]
      norm_num
    cases b with
    | serial => rw [assemble_serial_plain E P exLnPairs rfl, hcst, zero_add]
    | tbb sched => rw [assemble_tbb_plain E P exLnPairs rfl sched (hb sched rfl), hcst]
  obtain ⟨h1, h2⟩ := aligned_lines_gradient E P hp hk hw hpar hD (uniform exLnPairs P.pairWeights.pt2pt)
  generalize system E P exLnPairs (uniform exLnPairs P.pairWeights.pt2pt) rot120 = S at h1 h2 hA
  have hd : -(E.solve S.1 S.2) ≠ 0 := by
    intro h0
    rw [neg_eq_zero] at h0
    have := hs S.1 S.2 h1
    rw [h0, Matrix.mulVec_zero] at this
    exact h2 this.symm
  have hr : ∃ r, run b E P exLnPairs = .ok r ∧ r.pose = rot120.compose (E.exp (-(E.solve S.1 S.2))) := by
    unfold run
    rw [hl, hn]
    simp only [loop, exLnPairs, Outcome.bind]
    rw [show assemble b E P { ln2ln := [exLnPair] } 0 rot120 0 ⟨P.pairWeights.pt2pt, [], 0⟩ = _ from hA]
    simp only [if_neg (not_le.2 hcost)]
    split <;> exact ⟨_, rfl, rfl⟩
  obtain ⟨r, hr1, hr2⟩ := hr
  refine ⟨r, _, hr1, hd, hr2, fun hne heq => hne ?_⟩
  rw [hr2] at heq
  generalize E.exp (-(E.solve S.1 S.2)) = X at heq ⊢
  obtain ⟨⟨a, b, c, d, e, f, g, h, i⟩, ⟨x, y, z⟩⟩ := X
  simp [Pose3.compose, rot120, M3.mul, M3.mulVec] at heq
  obtain ⟨hR, ht⟩ := heq
  have hx := congrArg P3.x ht
  have hy := congrArg P3.y ht
  have hz := congrArg P3.z ht
  simp at hx hy hz
  simp only [Pose3.identity, M3.one, hR, hx, hy, hz]
  rfl

open Classical in
/-- An environment as required: the right derivative at `rot120`, a solver that solves whenever it is possible. -/
noncomputable def exLnEnv : Env ℚ where
  expJac _ := fun k j => poseVec (⟨rot120.R.mul (skew ⟨if j = 3 then 1 else 0, if j = 4 then 1 else 0, if j = 5 then 1 else 0⟩),
    rot120.R.mulVec ⟨if j = 0 then 1 else 0, if j = 1 then 1 else 0, if j = 2 then 1 else 0⟩⟩ : Pose3 ℚ) k
  solve H g := if h : ∃ d, H.mulVec d = g then h.choose else 0
  exp d := ⟨M3.one, ⟨d 0, d 1, d 2⟩⟩
  sqrt := id
  ln := { parallel := fun a b => decide (P3.dot a b ≠ 0), sqrt := id }
  junkErr := 0
  junkJac := 0

example : IsExpJac rot120 (exLnEnv.expJac rot120) := by
  intro v w
  funext k
  simp only [Matrix.mulVec, dotProduct, Fin.sum_univ_six, exLnEnv]
  fin_cases k <;> simp [poseVec, rot120, skew, M3.mul, M3.mulVec]
example (H : Matrix (Fin 6) (Fin 6) ℚ) (g : Fin 6 → ℚ) (h : ∃ d, H.mulVec d = g) : H.mulVec (exLnEnv.solve H g) = g := by
  simp only [exLnEnv, dif_pos h]; exact h.choose_spec
example (a b : P3 ℚ) (h : P3.dot a b = 0) : exLnEnv.ln.parallel a b = false := by simp [exLnEnv, h]
example : (0 : ℚ) < exLnEnv.sqrt (1 * 1 * 2) := by simp [exLnEnv]

end Verif.Props
