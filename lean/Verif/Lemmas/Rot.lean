import Verif.Spec.Solvers
import Mathlib.Tactic.Ring
import Mathlib.Tactic.LinearCombination
import Mathlib.Tactic.FieldSimp
import Mathlib.Tactic.Linarith
/-
Algebra of rotation matrices.
-/
namespace Verif.Lemmas
open Verif Verif.Spec
variable {K : Type} [Field K]

/-- Entry-wise orthonormality of the columns, and the cofactor identities. -/
structure RotRel (R : M3 K) : Prop where
  c00 : R.a00 * R.a00 + R.a10 * R.a10 + R.a20 * R.a20 = 1
  c11 : R.a01 * R.a01 + R.a11 * R.a11 + R.a21 * R.a21 = 1
  c22 : R.a02 * R.a02 + R.a12 * R.a12 + R.a22 * R.a22 = 1
  c01 : R.a00 * R.a01 + R.a10 * R.a11 + R.a20 * R.a21 = 0
  c02 : R.a00 * R.a02 + R.a10 * R.a12 + R.a20 * R.a22 = 0
  c12 : R.a01 * R.a02 + R.a11 * R.a12 + R.a21 * R.a22 = 0
  k00 : R.a11 * R.a22 - R.a12 * R.a21 = R.a00
  k01 : R.a12 * R.a20 - R.a10 * R.a22 = R.a01
  k02 : R.a10 * R.a21 - R.a11 * R.a20 = R.a02
  k10 : R.a02 * R.a21 - R.a01 * R.a22 = R.a10
  k11 : R.a00 * R.a22 - R.a02 * R.a20 = R.a11
  k12 : R.a01 * R.a20 - R.a00 * R.a21 = R.a12
  k20 : R.a01 * R.a12 - R.a02 * R.a11 = R.a20
  k21 : R.a02 * R.a10 - R.a00 * R.a12 = R.a21
  k22 : R.a00 * R.a11 - R.a01 * R.a10 = R.a22

theorem rotRel {R : M3 K} (h : IsRotation R) : RotRel R := by
  obtain ⟨h1, h2⟩ := h
  obtain ⟨a, b, c, d, e, f, g, i, j⟩ := R
  simp only [M3.transpose, M3.mul, M3.one, M3.mk.injEq] at h1
  simp only [M3.det] at h2
  obtain ⟨c00, c01, c02, c10, c11, c12, c20, c21, c22⟩ := h1
  constructor <;> simp only
  · exact c00
  · exact c11
  · exact c22
  · exact c01
  · exact c02
  · exact c12
  · linear_combination -(e * j - f * i) * c00 - (f * g - d * j) * c01 - (d * i - e * g) * c02 + a * h2
  · linear_combination -(e * j - f * i) * c10 - (f * g - d * j) * c11 - (d * i - e * g) * c12 + b * h2
  · linear_combination -(e * j - f * i) * c20 - (f * g - d * j) * c21 - (d * i - e * g) * c22 + c * h2
  · linear_combination -(c * i - b * j) * c00 - (a * j - c * g) * c01 - (b * g - a * i) * c02 + d * h2
  · linear_combination -(c * i - b * j) * c10 - (a * j - c * g) * c11 - (b * g - a * i) * c12 + e * h2
  · linear_combination -(c * i - b * j) * c20 - (a * j - c * g) * c21 - (b * g - a * i) * c22 + f * h2
  · linear_combination -(b * f - c * e) * c00 - (c * d - a * f) * c01 - (a * e - b * d) * c02 + g * h2
  · linear_combination -(b * f - c * e) * c10 - (c * d - a * f) * c11 - (a * e - b * d) * c12 + i * h2
  · linear_combination -(b * f - c * e) * c20 - (c * d - a * f) * c21 - (a * e - b * d) * c22 + j * h2

/-- The rotation of a unit quaternion is a rotation. -/
theorem quat_rotation {q : Quat K} (h : q.normSq = 1) : IsRotation q.toMatrix := by
  obtain ⟨r, x, y, z⟩ := q
  simp only [Quat.normSq] at h
  have h2 : (r * r + x * x + y * y + z * z) ^ 2 = 1 := by rw [h]; ring
  have h3 : (r * r + x * x + y * y + z * z) ^ 3 = 1 := by rw [h]; ring
  refine ⟨?_, ?_⟩
  · simp only [Quat.toMatrix, M3.transpose, M3.mul, M3.one, M3.mk.injEq]
    refine ⟨?_, ?_, ?_, ?_, ?_, ?_, ?_, ?_, ?_⟩ <;> first | linear_combination h2 | ring1
  · simp only [Quat.toMatrix, M3.det]
    linear_combination h3

theorem rot_dot {R : M3 K} (h : IsRotation R) (a b : P3 K) : (R.mulVec a).dot (R.mulVec b) = a.dot b := by
  have r := rotRel h
  simp only [M3.mulVec, P3.dot]
  linear_combination (a.x * b.x) * r.c00 + (a.y * b.y) * r.c11 + (a.z * b.z) * r.c22 +
    (a.x * b.y + a.y * b.x) * r.c01 + (a.x * b.z + a.z * b.x) * r.c02 + (a.y * b.z + a.z * b.y) * r.c12

theorem rot_normSq {R : M3 K} (h : IsRotation R) (a : P3 K) : (R.mulVec a).normSq = a.normSq := rot_dot h a a

/-- Rotations preserve cross products. -/
theorem rot_cross {R : M3 K} (h : IsRotation R) (a b : P3 K) :
    R.mulVec (a.cross b) = (R.mulVec a).cross (R.mulVec b) := by
  have r := rotRel h
  ext <;> simp only [M3.mulVec, P3.cross]
  · linear_combination -(a.y * b.z - a.z * b.y) * r.k00 - (a.z * b.x - a.x * b.z) * r.k01 - (a.x * b.y - a.y * b.x) * r.k02
  · linear_combination -(a.y * b.z - a.z * b.y) * r.k10 - (a.z * b.x - a.x * b.z) * r.k11 - (a.x * b.y - a.y * b.x) * r.k12
  · linear_combination -(a.y * b.z - a.z * b.y) * r.k20 - (a.z * b.x - a.x * b.z) * r.k21 - (a.x * b.y - a.y * b.x) * r.k22

theorem mulVec_add (R : M3 K) (a b : P3 K) : R.mulVec (a + b) = R.mulVec a + R.mulVec b := by
  ext <;> simp [M3.mulVec] <;> ring

theorem mulVec_sub (R : M3 K) (a b : P3 K) : R.mulVec (a - b) = R.mulVec a - R.mulVec b := by
  ext <;> simp [M3.mulVec] <;> ring

theorem mulVec_smul (R : M3 K) (s : K) (a : P3 K) : R.mulVec (a.smul s) = (R.mulVec a).smul s := by
  ext <;> simp [M3.mulVec] <;> ring

theorem mul_mulVec (A B : M3 K) (v : P3 K) : (A.mul B).mulVec v = A.mulVec (B.mulVec v) := by
  ext <;> simp [M3.mulVec, M3.mul] <;> ring

theorem M3.mul_assoc (A B C : M3 K) : (A.mul B).mul C = A.mul (B.mul C) := by
  ext <;> simp [M3.mul] <;> ring

theorem det_mul (A B : M3 K) : (A.mul B).det = A.det * B.det := by
  simp only [M3.mul, M3.det]; ring

theorem rot_mul {A B : M3 K} (ha : IsRotation A) (hb : IsRotation B) : IsRotation (A.mul B) := by
  refine ⟨?_, by rw [det_mul, ha.2, hb.2, mul_one]⟩
  have h1 : (A.mul B).transpose = B.transpose.mul A.transpose := by
    ext <;> simp [M3.mul, M3.transpose] <;> ring
  rw [h1, M3.mul_assoc, ← M3.mul_assoc A.transpose, ha.1]
  have h2 : (M3.one : M3 K).mul B = B := by ext <;> simp [M3.mul, M3.one]
  rw [h2, hb.1]

/-- Two linear maps which agree on a basis `a, b, c` (with non-zero triple product) are equal. -/
theorem eq_of_basis {A B : M3 K} {a b c : P3 K} (hd : (a.cross b).dot c ≠ 0)
    (ha : A.mulVec a = B.mulVec a) (hb : A.mulVec b = B.mulVec b) (hc : A.mulVec c = B.mulVec c) : A = B := by
  have key : ∀ (p q r p' q' r' : K),
      p * a.x + q * a.y + r * a.z = p' * a.x + q' * a.y + r' * a.z →
      p * b.x + q * b.y + r * b.z = p' * b.x + q' * b.y + r' * b.z →
      p * c.x + q * c.y + r * c.z = p' * c.x + q' * c.y + r' * c.z → p = p' ∧ q = q' ∧ r = r' := by
    intro p q r p' q' r' h1 h2 h3
    simp only [P3.cross, P3.dot] at hd
    refine ⟨mul_right_cancel₀ hd ?_, mul_right_cancel₀ hd ?_, mul_right_cancel₀ hd ?_⟩
    · linear_combination (b.y * c.z - b.z * c.y) * h1 + (c.y * a.z - c.z * a.y) * h2 + (a.y * b.z - a.z * b.y) * h3
    · linear_combination (b.z * c.x - b.x * c.z) * h1 + (c.z * a.x - c.x * a.z) * h2 + (a.z * b.x - a.x * b.z) * h3
    · linear_combination (b.x * c.y - b.y * c.x) * h1 + (c.x * a.y - c.y * a.x) * h2 + (a.x * b.y - a.y * b.x) * h3
  simp only [M3.mulVec, P3.mk.injEq] at ha hb hc
  obtain ⟨h1, h2, h3⟩ := key _ _ _ _ _ _ ha.1 hb.1 hc.1
  obtain ⟨h4, h5, h6⟩ := key _ _ _ _ _ _ ha.2.1 hb.2.1 hc.2.1
  obtain ⟨h7, h8, h9⟩ := key _ _ _ _ _ _ ha.2.2 hb.2.2 hc.2.2
  ext <;> assumption

end Verif.Lemmas
