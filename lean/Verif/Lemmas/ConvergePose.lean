import Verif.Lemmas.Converge
import Verif.Lemmas.Rot
import Verif.Lemmas.Horn
import Verif.Props.Downhill
import Mathlib.Topology.Instances.Matrix
import Mathlib.Tactic.FunProp
/-
Lemmas for C116: poses as points of the space of twelve entries.
-/
namespace Verif.Lemmas.Conv
open Verif Verif.Gn Verif.Spec Verif.Spec.GN Verif.Lemmas Verif.Lemmas.GnS Verif.Props

/-- The pose with the given entries. -/
def vecPose (x : Fin 12 → ℝ) : Pose3 ℝ := ⟨⟨x 0, x 3, x 6, x 1, x 4, x 7, x 2, x 5, x 8⟩, ⟨x 9, x 10, x 11⟩⟩

theorem vecPose_poseVec (T : Pose3 ℝ) : vecPose (poseVec T) = T := by
  rcases T with ⟨R, t⟩
  rfl

theorem poseVec_vecPose (x : Fin 12 → ℝ) : poseVec (vecPose x) = x := by
  funext i
  fin_cases i <;> rfl

theorem jac_continuous : Continuous fun x => se3ExpJac (vecPose x) := by
  refine continuous_matrix fun i j => ?_
  fin_cases i <;> fin_cases j <;> simp [se3ExpJac, vecPose] <;> fun_prop

/-- Entries of rotations are at most 1. -/
theorem rot_entries {R : M3 ℝ} (h : IsRotation R) : |R.a00| ≤ 1 ∧ |R.a01| ≤ 1 ∧ |R.a02| ≤ 1 ∧ |R.a10| ≤ 1 ∧ |R.a11| ≤ 1 ∧ |R.a12| ≤ 1 ∧
    |R.a20| ≤ 1 ∧ |R.a21| ≤ 1 ∧ |R.a22| ≤ 1 := by
  obtain ⟨a, b, c, -, -, -⟩ := rot_rows h
  refine ⟨?_, ?_, ?_, ?_, ?_, ?_, ?_, ?_, ?_⟩ <;> (rw [abs_le_one_iff_mul_self_le_one]; nlinarith [sq_nonneg R.a00, sq_nonneg R.a01, sq_nonneg R.a02, sq_nonneg R.a10, sq_nonneg R.a11, sq_nonneg R.a12, sq_nonneg R.a20, sq_nonneg R.a21, sq_nonneg R.a22])

theorem abs_sum3 {a b c x y z m : ℝ} (ha : |a| ≤ 1) (hb : |b| ≤ 1) (hc : |c| ≤ 1) (hx : |x| ≤ m) (hy : |y| ≤ m) (hz : |z| ≤ m) :
    |a * x + b * y + c * z| ≤ 3 * m := by
  have h1 : |a * x| ≤ m := by
    rw [abs_mul]
    calc |a| * |x| ≤ 1 * |x| := mul_le_mul_of_nonneg_right ha (abs_nonneg _)
      _ ≤ m := by rw [one_mul]; exact hx
  have h2 : |b * y| ≤ m := by
    rw [abs_mul]
    calc |b| * |y| ≤ 1 * |y| := mul_le_mul_of_nonneg_right hb (abs_nonneg _)
      _ ≤ m := by rw [one_mul]; exact hy
  have h3 : |c * z| ≤ m := by
    rw [abs_mul]
    calc |c| * |z| ≤ 1 * |z| := mul_le_mul_of_nonneg_right hc (abs_nonneg _)
      _ ≤ m := by rw [one_mul]; exact hz
  calc |a * x + b * y + c * z| ≤ |a * x + b * y| + |c * z| := abs_add_le _ _
    _ ≤ |a * x| + |b * y| + |c * z| := add_le_add_left (abs_add_le _ _) _
    _ ≤ 3 * m := by linarith

theorem abs_prod3 {a b c x y z g : ℝ} (hg : 0 ≤ g) (ha : |a| ≤ g) (hb : |b| ≤ g) (hc : |c| ≤ g) (hx : |x| ≤ g) (hy : |y| ≤ g) (hz : |z| ≤ g) :
    |a * x + b * y + c * z| ≤ 3 * g ^ 2 := by
  have h : ∀ u v : ℝ, |u| ≤ g → |v| ≤ g → |u * v| ≤ g ^ 2 := by
    intro u v hu hv
    rw [abs_mul, sq]
    exact mul_le_mul hu hv (abs_nonneg _) hg
  calc |a * x + b * y + c * z| ≤ |a * x + b * y| + |c * z| := abs_add_le _ _
    _ ≤ |a * x| + |b * y| + |c * z| := add_le_add_left (abs_add_le _ _) _
    _ ≤ 3 * g ^ 2 := by linarith [h a x ha hx, h b y hb hy, h c z hc hz]

/-- All entries are at most `m`. -/
structure Small (A : M3 ℝ) (m : ℝ) : Prop where
  e00 : |A.a00| ≤ m
  e01 : |A.a01| ≤ m
  e02 : |A.a02| ≤ m
  e10 : |A.a10| ≤ m
  e11 : |A.a11| ≤ m
  e12 : |A.a12| ≤ m
  e20 : |A.a20| ≤ m
  e21 : |A.a21| ≤ m
  e22 : |A.a22| ≤ m

theorem rot_small {R : M3 ℝ} (h : IsRotation R) : Small R 1 := by
  obtain ⟨a, b, c, d, e, f, g, i, j⟩ := rot_entries h
  exact ⟨a, b, c, d, e, f, g, i, j⟩

theorem small_rot {R A : M3 ℝ} {m : ℝ} (hR : Small R 1) (hA : Small A m) : Small (R.mul A) (3 * m) := by
  obtain ⟨a1, a2, a3, a4, a5, a6, a7, a8, a9⟩ := hR
  obtain ⟨b1, b2, b3, b4, b5, b6, b7, b8, b9⟩ := hA
  constructor <;> (simp only [M3.mul]; apply abs_sum3 <;> assumption)

theorem small_gram {A : M3 ℝ} {g : ℝ} (hg : 0 ≤ g) (hA : Small A g) : Small (A.transpose.mul A) (3 * g ^ 2) := by
  obtain ⟨b1, b2, b3, b4, b5, b6, b7, b8, b9⟩ := hA
  constructor <;> (simp only [M3.mul, M3.transpose]; apply abs_prod3 hg <;> assumption)

def m3sub (A B : M3 ℝ) : M3 ℝ := A.add (M3.smul (-1) B)

/-- The increment towards a rotation: the skew part of the relative rotation. -/
noncomputable def towards (R S : M3 ℝ) : P3 ℝ :=
  let A := R.transpose.mul S
  ⟨(A.a21 - A.a12) / 2, (A.a02 - A.a20) / 2, (A.a10 - A.a01) / 2⟩

theorem towards_rest {R S : M3 ℝ} (hR : IsRotation R) (hS : IsRotation S) :
    m3sub (m3sub S R) (R.mul (crossMat (towards R S))) = M3.smul (-1 / 2) (R.mul ((m3sub S R).transpose.mul (m3sub S R))) := by
  obtain ⟨r1, r2, r3, r4, r5, r6⟩ := rot_rows hR
  have hs := hS.1
  have hr := hR.1
  simp only [M3.ext_iff, M3.mul, M3.transpose, M3.one] at hs hr
  obtain ⟨s1, s2, s3, s4, s5, s6, s7, s8, s9⟩ := hs
  obtain ⟨q1, q2, q3, q4, q5, q6, q7, q8, q9⟩ := hr
  ext <;> simp only [m3sub, M3.add, M3.smul, M3.mul, M3.transpose, crossMat, towards]
  · linear_combination - S.a00 * r1 - S.a10 * r4 - S.a20 * r5 + R.a00 / 2 * s1 + R.a00 / 2 * q1 + R.a01 / 2 * s4 + R.a01 / 2 * q4 + R.a02 / 2 * s7 + R.a02 / 2 * q7
  · linear_combination - S.a01 * r1 - S.a11 * r4 - S.a21 * r5 + R.a00 / 2 * s2 + R.a00 / 2 * q2 + R.a01 / 2 * s5 + R.a01 / 2 * q5 + R.a02 / 2 * s8 + R.a02 / 2 * q8
  · linear_combination - S.a02 * r1 - S.a12 * r4 - S.a22 * r5 + R.a00 / 2 * s3 + R.a00 / 2 * q3 + R.a01 / 2 * s6 + R.a01 / 2 * q6 + R.a02 / 2 * s9 + R.a02 / 2 * q9
  · linear_combination - S.a00 * r4 - S.a10 * r2 - S.a20 * r6 + R.a10 / 2 * s1 + R.a10 / 2 * q1 + R.a11 / 2 * s4 + R.a11 / 2 * q4 + R.a12 / 2 * s7 + R.a12 / 2 * q7
  · linear_combination - S.a01 * r4 - S.a11 * r2 - S.a21 * r6 + R.a10 / 2 * s2 + R.a10 / 2 * q2 + R.a11 / 2 * s5 + R.a11 / 2 * q5 + R.a12 / 2 * s8 + R.a12 / 2 * q8
  · linear_combination - S.a02 * r4 - S.a12 * r2 - S.a22 * r6 + R.a10 / 2 * s3 + R.a10 / 2 * q3 + R.a11 / 2 * s6 + R.a11 / 2 * q6 + R.a12 / 2 * s9 + R.a12 / 2 * q9
  · linear_combination - S.a00 * r5 - S.a10 * r6 - S.a20 * r3 + R.a20 / 2 * s1 + R.a20 / 2 * q1 + R.a21 / 2 * s4 + R.a21 / 2 * q4 + R.a22 / 2 * s7 + R.a22 / 2 * q7
  · linear_combination - S.a01 * r5 - S.a11 * r6 - S.a21 * r3 + R.a20 / 2 * s2 + R.a20 / 2 * q2 + R.a21 / 2 * s5 + R.a21 / 2 * q5 + R.a22 / 2 * s8 + R.a22 / 2 * q8
  · linear_combination - S.a02 * r5 - S.a12 * r6 - S.a22 * r3 + R.a20 / 2 * s3 + R.a20 / 2 * q3 + R.a21 / 2 * s6 + R.a21 / 2 * q6 + R.a22 / 2 * s9 + R.a22 / 2 * q9

/-- The largest difference between the entries of two rotations bounds the rest. -/
theorem towards_small {R S : M3 ℝ} (hR : IsRotation R) (hS : IsRotation S) {g : ℝ} (hg : 0 ≤ g) (h : Small (m3sub S R) g) :
    Small (m3sub (m3sub S R) (R.mul (crossMat (towards R S)))) (9 / 2 * g ^ 2) := by
  rw [towards_rest hR hS]
  have := small_rot (rot_small hR) (small_gram hg h)
  obtain ⟨a, b, c, d, e, f, i, j, k⟩ := this
  have hh : ∀ x : ℝ, |x| ≤ 3 * (3 * g ^ 2) → |(-1 / 2) * x| ≤ 9 / 2 * g ^ 2 := by
    intro x hx
    rw [abs_mul, show |(-1 / 2 : ℝ)| = 1 / 2 by norm_num]
    linarith
  exact ⟨hh _ a, hh _ b, hh _ c, hh _ d, hh _ e, hh _ f, hh _ i, hh _ j, hh _ k⟩

/-- The increment that leads from one pose towards another. -/
noncomputable def incTo (T U : Pose3 ℝ) : Fin 6 → ℝ := inc (T.R.transpose.mulVec (U.t - T.t)) (towards T.R U.R)

theorem small_of_norm {T U : Pose3 ℝ} : Small (m3sub U.R T.R) ‖poseVec T - poseVec U‖ := by
  have h := fun i => norm_le_pi_norm (poseVec T - poseVec U) i
  have e : ∀ a b : ℝ, |a + -1 * b| = |b - a| := fun a b => by rw [← abs_neg]; congr 1; ring
  have key := fun i => (Real.norm_eq_abs _).symm ▸ h i
  constructor <;> simp only [m3sub, M3.add, M3.smul, e]
  · exact key 0
  · exact key 3
  · exact key 6
  · exact key 1
  · exact key 4
  · exact key 7
  · exact key 2
  · exact key 5
  · exact key 8

/-- Between rotations, the increment is off by the square of the distance only. -/
theorem incTo_rest {T U : Pose3 ℝ} (hT : IsRotation T.R) (hU : IsRotation U.R) :
    ‖poseVec U - poseVec T - (se3ExpJac T).mulVec (incTo T U)‖ ≤ 9 / 2 * ‖poseVec T - poseVec U‖ ^ 2 := by
  have h := towards_small hT hU (norm_nonneg _) (small_of_norm (T := T) (U := U))
  have hD := se3_deriv T (T.R.transpose.mulVec (U.t - T.t)) (towards T.R U.R)
  rw [show incTo T U = ![_, _, _, _, _, _] from rfl, hD, rot_back hT]
  rw [pi_norm_le_iff_of_nonneg (by positivity)]
  obtain ⟨a, b, c, d, e, f, g, i, j⟩ := h
  have ee : ∀ a b c : ℝ, a + -1 * b + -1 * c = a - b - c := fun a b c => by ring
  simp only [m3sub, M3.add, M3.smul, ee] at a b c d e f g i j
  have hn : (0 : ℝ) ≤ 9 / 2 * ‖poseVec T - poseVec U‖ ^ 2 := by positivity
  intro q
  rw [Real.norm_eq_abs]
  fin_cases q
  · exact a
  · exact d
  · exact g
  · exact b
  · exact e
  · exact i
  · exact c
  · exact f
  · exact j
  all_goals (refine le_of_eq_of_le ?_ hn; simp [poseVec])

end Verif.Lemmas.Conv
