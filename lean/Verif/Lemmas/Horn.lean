import Verif.Lemmas.Rot
import Mathlib.Tactic.Positivity
import Mathlib.Algebra.Order.BigOperators.Group.List
/-
Horn's method: the quadratic form of `N`, optimality among all rotations, the role of the centroids.
-/
namespace Verif.Lemmas
open Verif Verif.Spec
variable {K : Type} [Field K]

/-- `Σ_ab R_ba S_ab`: the correlation `Σ w b·(R r)` in terms of `S`. -/
def corrRS (R S : M3 K) : K :=
  R.a00 * S.a00 + R.a10 * S.a01 + R.a20 * S.a02 + R.a01 * S.a10 + R.a11 * S.a11 + R.a21 * S.a12 +
    R.a02 * S.a20 + R.a12 * S.a21 + R.a22 * S.a22

theorem corr_quat [LinearOrder K] (q : Quat K) (S : M3 K) : corrRS q.toMatrix S = dot4 q ((hornN S).mulVec q) := by
  simp only [corrRS, Quat.toMatrix, dot4, Sym4.mulVec, hornN]; ring

/-- Sum of the correlations over the visited pairs. -/
theorem corr_fold [LinearOrder K] (R : M3 K) (vs : List (Visited K)) (S : M3 K) :
    corrRS R (vs.foldl hornAdd S) = corrRS R S + (vs.map fun v => v.w * v.b.dot (R.mulVec v.r)).sum := by
  induction vs generalizing S with
  | nil => simp
  | cons v vs ih =>
    rw [List.foldl_cons, ih, List.map_cons, List.sum_cons, ← add_assoc]
    congr 1
    simp only [corrRS, hornAdd, P3.dot, M3.mulVec]; ring

theorem corr_zero (R : M3 K) : corrRS R M3.zero = 0 := by simp [corrRS, M3.zero]

theorem corr_smul (R S : M3 K) (s : K) : corrRS R (S.smul s) = s * corrRS R S := by
  simp only [corrRS, M3.smul]; ring

/-- Columns of the symmetric matrix `4 q qᵀ` written with the entries of the rotation. -/
def kCol0 (R : M3 K) : Quat K := ⟨1 + R.a00 + R.a11 + R.a22, R.a21 - R.a12, R.a02 - R.a20, R.a10 - R.a01⟩
def kCol1 (R : M3 K) : Quat K := ⟨R.a21 - R.a12, 1 + R.a00 - R.a11 - R.a22, R.a01 + R.a10, R.a02 + R.a20⟩
def kCol2 (R : M3 K) : Quat K := ⟨R.a02 - R.a20, R.a01 + R.a10, 1 - R.a00 + R.a11 - R.a22, R.a12 + R.a21⟩
def kCol3 (R : M3 K) : Quat K := ⟨R.a10 - R.a01, R.a02 + R.a20, R.a12 + R.a21, 1 - R.a00 - R.a11 + R.a22⟩

/-- Rows are orthonormal too. -/
theorem rot_rows {R : M3 K} (h : IsRotation R) :
    R.a00 * R.a00 + R.a01 * R.a01 + R.a02 * R.a02 = 1 ∧ R.a10 * R.a10 + R.a11 * R.a11 + R.a12 * R.a12 = 1 ∧
    R.a20 * R.a20 + R.a21 * R.a21 + R.a22 * R.a22 = 1 ∧ R.a00 * R.a10 + R.a01 * R.a11 + R.a02 * R.a12 = 0 ∧
    R.a00 * R.a20 + R.a01 * R.a21 + R.a02 * R.a22 = 0 ∧ R.a10 * R.a20 + R.a11 * R.a21 + R.a12 * R.a22 = 0 := by
  have r := rotRel h
  have d := h.2
  simp only [M3.det] at d
  refine ⟨?_, ?_, ?_, ?_, ?_, ?_⟩
  · linear_combination d - R.a00 * r.k00 - R.a01 * r.k01 - R.a02 * r.k02
  · linear_combination d - R.a10 * r.k10 - R.a11 * r.k11 - R.a12 * r.k12
  · linear_combination d - R.a20 * r.k20 - R.a21 * r.k21 - R.a22 * r.k22
  · linear_combination - R.a00 * r.k10 - R.a01 * r.k11 - R.a02 * r.k12
  · linear_combination - R.a00 * r.k20 - R.a01 * r.k21 - R.a02 * r.k22
  · linear_combination - R.a10 * r.k20 - R.a11 * r.k21 - R.a12 * r.k22

section
variable [LinearOrder K] [IsStrictOrderedRing K]

/-- For every rotation the correlation is an average of the quadratic form of `N`. -/
theorem corr_rot {R : M3 K} (h : IsRotation R) (S : M3 K) :
    16 * corrRS R S = dot4 (kCol0 R) ((hornN S).mulVec (kCol0 R)) + dot4 (kCol1 R) ((hornN S).mulVec (kCol1 R)) +
      dot4 (kCol2 R) ((hornN S).mulVec (kCol2 R)) + dot4 (kCol3 R) ((hornN S).mulVec (kCol3 R)) := by
  have r := rotRel h
  obtain ⟨w0, w1, w2, w3, w4, w5⟩ := rot_rows h
  have e00 : dot4 (kCol0 R) (kCol0 R) = 4 * (kCol0 R).r := by
    simp only [dot4, kCol0]; linear_combination r.c00 + r.c11 + r.c22 + 2 * r.k00 + 2 * r.k11 + 2 * r.k22
  have e11 : dot4 (kCol1 R) (kCol1 R) = 4 * (kCol1 R).x := by
    simp only [dot4, kCol1]; linear_combination r.c00 + r.c11 + r.c22 + 2 * r.k00 - 2 * r.k11 - 2 * r.k22
  have e22 : dot4 (kCol2 R) (kCol2 R) = 4 * (kCol2 R).y := by
    simp only [dot4, kCol2]; linear_combination r.c00 + r.c11 + r.c22 - 2 * r.k00 + 2 * r.k11 - 2 * r.k22
  have e33 : dot4 (kCol3 R) (kCol3 R) = 4 * (kCol3 R).z := by
    simp only [dot4, kCol3]; linear_combination r.c00 + r.c11 + r.c22 - 2 * r.k00 - 2 * r.k11 + 2 * r.k22
  have e01 : dot4 (kCol0 R) (kCol1 R) = 4 * (kCol0 R).x := by
    simp only [dot4, kCol0, kCol1]
    linarith [r.c12, r.c01, r.c02, w3, w4, w5, r.k12, r.k21]
  have e02 : dot4 (kCol0 R) (kCol2 R) = 4 * (kCol0 R).y := by
    simp only [dot4, kCol0, kCol2]
    linarith [r.c12, r.c01, r.c02, w3, w4, w5, r.k02, r.k20]
  have e03 : dot4 (kCol0 R) (kCol3 R) = 4 * (kCol0 R).z := by
    simp only [dot4, kCol0, kCol3]
    linarith [r.c12, r.c01, r.c02, w3, w4, w5, r.k01, r.k10]
  have e12 : dot4 (kCol1 R) (kCol2 R) = 4 * (kCol1 R).y := by
    simp only [dot4, kCol1, kCol2]
    linarith [r.c12, r.c01, r.c02, w3, w4, w5, r.k01, r.k10]
  have e13 : dot4 (kCol1 R) (kCol3 R) = 4 * (kCol1 R).z := by
    simp only [dot4, kCol1, kCol3]
    linarith [r.c12, r.c01, r.c02, w3, w4, w5, r.k02, r.k20]
  have e23 : dot4 (kCol2 R) (kCol3 R) = 4 * (kCol2 R).z := by
    simp only [dot4, kCol2, kCol3]
    linarith [r.c12, r.c01, r.c02, w3, w4, w5, r.k12, r.k21]
  have hs : dot4 (kCol0 R) ((hornN S).mulVec (kCol0 R)) + dot4 (kCol1 R) ((hornN S).mulVec (kCol1 R)) +
      dot4 (kCol2 R) ((hornN S).mulVec (kCol2 R)) + dot4 (kCol3 R) ((hornN S).mulVec (kCol3 R)) =
      (hornN S).n00 * dot4 (kCol0 R) (kCol0 R) + (hornN S).n11 * dot4 (kCol1 R) (kCol1 R) +
      (hornN S).n22 * dot4 (kCol2 R) (kCol2 R) + (hornN S).n33 * dot4 (kCol3 R) (kCol3 R) +
      2 * ((hornN S).n01 * dot4 (kCol0 R) (kCol1 R) + (hornN S).n02 * dot4 (kCol0 R) (kCol2 R) +
        (hornN S).n03 * dot4 (kCol0 R) (kCol3 R) + (hornN S).n12 * dot4 (kCol1 R) (kCol2 R) +
        (hornN S).n13 * dot4 (kCol1 R) (kCol3 R) + (hornN S).n23 * dot4 (kCol2 R) (kCol3 R)) := by
    simp only [dot4, Sym4.mulVec, kCol0, kCol1, kCol2, kCol3]; ring
  rw [hs, e00, e11, e22, e33, e01, e02, e03, e12, e13, e23]
  simp only [corrRS, hornN, kCol0, kCol1, kCol2, kCol3]; ring

/-- The quaternion of a top eigenvector gives the largest correlation among all rotations. -/
theorem corr_max {R S : M3 K} {v : Quat K} (hv : IsTopEigen (hornN S) v) (h : IsRotation R) :
    corrRS R S ≤ corrRS v.toMatrix S := by
  have r := rotRel h
  have h1 := hv.2 (kCol0 R)
  have h2 := hv.2 (kCol1 R)
  have h3 := hv.2 (kCol2 R)
  have h4 := hv.2 (kCol3 R)
  have hs := corr_rot h S
  rw [corr_quat]
  set l := dot4 v ((hornN S).mulVec v)
  have hsum : dot4 (kCol0 R) (kCol0 R) + dot4 (kCol1 R) (kCol1 R) + dot4 (kCol2 R) (kCol2 R) +
      dot4 (kCol3 R) (kCol3 R) = 16 := by
    simp only [dot4, kCol0, kCol1, kCol2, kCol3]; linear_combination 4 * r.c00 + 4 * r.c11 + 4 * r.c22
  have : 16 * corrRS R S ≤ l * 16 := by rw [hs, ← hsum]; linarith
  linarith

omit [LinearOrder K] [IsStrictOrderedRing K] in
/-- The attitude cost in terms of the correlation. -/
theorem attitudeCost_eq {R : M3 K} (h : IsRotation R) (vs : List (Visited K)) :
    attitudeCost vs R = (vs.map fun v => v.w * (v.r.normSq + v.b.normSq)).sum -
      2 * (vs.map fun v => v.w * v.b.dot (R.mulVec v.r)).sum := by
  induction vs with
  | nil => simp [attitudeCost]
  | cons v vs ih =>
    unfold attitudeCost at ih ⊢
    simp only [List.map_cons, List.sum_cons, ih]
    have h1 := rot_normSq h v.r
    have h2 : P3.distSq (R.mulVec v.r) v.b = (R.mulVec v.r).normSq + v.b.normSq - 2 * v.b.dot (R.mulVec v.r) := by
      simp only [P3.distSq, P3.normSq, P3.dot, P3.sub_x, P3.sub_y, P3.sub_z]; ring
    rw [h2, h1]; ring

/-- Attitude optimality for any walk. -/
theorem horn_attitude {o : VisitOut K} {v : Quat K} (hv : IsTopEigen (hornN (hornS o)) v) {R : M3 K}
    (h : IsRotation R) : attitudeCost o.visited v.toMatrix ≤ attitudeCost o.visited R := by
  have hr : IsRotation v.toMatrix := quat_rotation (by have := hv.1; simpa [dot4, Quat.normSq] using this)
  rw [attitudeCost_eq hr, attitudeCost_eq h]
  have hm := corr_max hv h
  have hf : ∀ R', corrRS R' (o.visited.foldl hornAdd M3.zero) =
      (o.visited.map fun v => v.w * v.b.dot (R'.mulVec v.r)).sum := by
    intro R'; rw [corr_fold, corr_zero, zero_add]
  have : corrRS R (o.visited.foldl hornAdd M3.zero) ≤ corrRS v.toMatrix (o.visited.foldl hornAdd M3.zero) := by
    unfold hornS at hm
    simp only at hm
    split at hm
    · rename_i hw
      rw [corr_smul, corr_smul] at hm
      exact le_of_mul_le_mul_left hm (by positivity)
    · exact hm
  rw [hf, hf] at this
  linarith

end
end Verif.Lemmas
