import Verif.Lemmas.HornTop
/-
OLAE: the four systems, determinants, exact recovery.
-/
namespace Verif.Lemmas
open Verif Verif.Spec
set_option linter.unusedSectionVars false
variable {K : Type} [Field K] [LinearOrder K] [IsStrictOrderedRing K]

/-- `v` as it comes out of `B`. -/
def axial (B : M3 K) : P3 K := ⟨B.a21 - B.a12, B.a02 - B.a20, B.a10 - B.a01⟩

theorem olae_fold_axial (vs : List (Visited K)) (a : P3 K × M3 K) (h : a.1 = axial a.2) :
    (vs.foldl olaeAdd a).1 = axial (vs.foldl olaeAdd a).2 := by
  induction vs generalizing a with
  | nil => exact h
  | cons v vs ih =>
    rw [List.foldl_cons]
    apply ih
    simp only [olaeAdd, h]
    ext <;> simp [axial, M3.add, M3.smul] <;> ring

theorem olaeVB_axial (o : VisitOut K) : (olaeVB o).1 = axial (olaeVB o).2 := by
  have := olae_fold_axial o.visited (0, M3.zero) (by ext <;> simp [axial, M3.zero])
  unfold olaeVB
  simp only
  split
  · simp only [this]
    ext <;> simp [axial, M3.smul] <;> ring
  · exact this

/-- The `x`, `y` and `z` systems are the plain system of the attitude profile turned by π. -/
theorem olae_x (B : M3 K) : (olaeSystems (axial B) B).Mx = (olaeSystems (axial (rotXpi.mul B)) (rotXpi.mul B)).M ∧
    (olaeSystems (axial B) B).vx = (olaeSystems (axial (rotXpi.mul B)) (rotXpi.mul B)).v := by
  constructor
  · ext <;> simp only [olaeSystems, axial, rotXpi, M3.mul, M3.add, M3.transpose, M3.trace] <;> ring
  · ext <;> simp only [olaeSystems, axial, rotXpi, M3.mul, M3.add, M3.transpose, M3.trace] <;> ring

theorem olae_y (B : M3 K) : (olaeSystems (axial B) B).My = (olaeSystems (axial (rotYpi.mul B)) (rotYpi.mul B)).M ∧
    (olaeSystems (axial B) B).vy = (olaeSystems (axial (rotYpi.mul B)) (rotYpi.mul B)).v := by
  constructor
  · ext <;> simp only [olaeSystems, axial, rotYpi, M3.mul, M3.add, M3.transpose, M3.trace] <;> ring
  · ext <;> simp only [olaeSystems, axial, rotYpi, M3.mul, M3.add, M3.transpose, M3.trace] <;> ring

theorem olae_z (B : M3 K) : (olaeSystems (axial B) B).Mz = (olaeSystems (axial (rotZpi.mul B)) (rotZpi.mul B)).M ∧
    (olaeSystems (axial B) B).vz = (olaeSystems (axial (rotZpi.mul B)) (rotZpi.mul B)).v := by
  constructor
  · ext <;> simp only [olaeSystems, axial, rotZpi, M3.mul, M3.add, M3.transpose, M3.trace] <;> ring
  · ext <;> simp only [olaeSystems, axial, rotZpi, M3.mul, M3.add, M3.transpose, M3.trace] <;> ring

/-- A symmetric matrix of unit trace. -/
structure SymOne (A : M3 K) : Prop where
  s01 : A.a10 = A.a01
  s02 : A.a20 = A.a02
  s12 : A.a21 = A.a12
  tr : A.trace = 1

/-- `I - A`. -/
def coA (A : M3 K) : M3 K := M3.one.add (M3.smul (-1) A)

/-- Homogeneous form of the determinant identity. -/
theorem olae_det_hom (r x y z a b c d e f : K) :
    (⟨2 * ((r*r+x*x-y*y-z*z)*a + 2*(x*y-r*z)*b + 2*(z*x+r*y)*c) - (((r*r+x*x-y*y-z*z)*a + 2*(x*y-r*z)*b + 2*(z*x+r*y)*c) + (2*(x*y+r*z)*b + (r*r-x*x+y*y-z*z)*d + 2*(y*z-r*x)*e) + (2*(z*x-r*y)*c + 2*(y*z+r*x)*e + (r*r-x*x-y*y+z*z)*f) + (r*r+x*x+y*y+z*z)*(a+d+f)),
      ((r*r+x*x-y*y-z*z)*b + 2*(x*y-r*z)*d + 2*(z*x+r*y)*e) + (2*(x*y+r*z)*a + (r*r-x*x+y*y-z*z)*b + 2*(y*z-r*x)*c),
      ((r*r+x*x-y*y-z*z)*c + 2*(x*y-r*z)*e + 2*(z*x+r*y)*f) + (2*(z*x-r*y)*a + 2*(y*z+r*x)*b + (r*r-x*x-y*y+z*z)*c),
      ((r*r+x*x-y*y-z*z)*b + 2*(x*y-r*z)*d + 2*(z*x+r*y)*e) + (2*(x*y+r*z)*a + (r*r-x*x+y*y-z*z)*b + 2*(y*z-r*x)*c),
      2 * (2*(x*y+r*z)*b + (r*r-x*x+y*y-z*z)*d + 2*(y*z-r*x)*e) - (((r*r+x*x-y*y-z*z)*a + 2*(x*y-r*z)*b + 2*(z*x+r*y)*c) + (2*(x*y+r*z)*b + (r*r-x*x+y*y-z*z)*d + 2*(y*z-r*x)*e) + (2*(z*x-r*y)*c + 2*(y*z+r*x)*e + (r*r-x*x-y*y+z*z)*f) + (r*r+x*x+y*y+z*z)*(a+d+f)),
      (2*(x*y+r*z)*c + (r*r-x*x+y*y-z*z)*e + 2*(y*z-r*x)*f) + (2*(z*x-r*y)*b + 2*(y*z+r*x)*d + (r*r-x*x-y*y+z*z)*e),
      ((r*r+x*x-y*y-z*z)*c + 2*(x*y-r*z)*e + 2*(z*x+r*y)*f) + (2*(z*x-r*y)*a + 2*(y*z+r*x)*b + (r*r-x*x-y*y+z*z)*c),
      (2*(x*y+r*z)*c + (r*r-x*x+y*y-z*z)*e + 2*(y*z-r*x)*f) + (2*(z*x-r*y)*b + 2*(y*z+r*x)*d + (r*r-x*x-y*y+z*z)*e),
      2 * (2*(z*x-r*y)*c + 2*(y*z+r*x)*e + (r*r-x*x-y*y+z*z)*f) - (((r*r+x*x-y*y-z*z)*a + 2*(x*y-r*z)*b + 2*(z*x+r*y)*c) + (2*(x*y+r*z)*b + (r*r-x*x+y*y-z*z)*d + 2*(y*z-r*x)*e) + (2*(z*x-r*y)*c + 2*(y*z+r*x)*e + (r*r-x*x-y*y+z*z)*f) + (r*r+x*x+y*y+z*z)*(a+d+f))⟩ : M3 K).det =
    -8 * (r * r) * (r*r+x*x+y*y+z*z)^2 *
      (⟨d + f, -b, -c, -b, a + f, -e, -c, -e, a + d⟩ : M3 K).det := by
  simp only [M3.det]
  ring

theorem olae_det {q : Quat K} (hq : q.normSq = 1) {A : M3 K} (hA : SymOne A) :
    (olaeSystems (axial (q.toMatrix.mul A)) (q.toMatrix.mul A)).M.det = -8 * (q.r * q.r) * (coA A).det := by
  obtain ⟨r, x, y, z⟩ := q
  obtain ⟨a, b, c, b', d, e, c', e', f⟩ := A
  obtain ⟨h1, h2, h3, h4⟩ := hA
  simp only [M3.trace] at h1 h2 h3 h4
  subst h1; subst h2; subst h3
  simp only [Quat.normSq] at hq
  have key := olae_det_hom r x y z a b' c' d e' f
  rw [hq, h4] at key
  have e1 : (coA (⟨a, b', c', b', d, e', c', e', f⟩ : M3 K)) = ⟨d + f, -b', -c', -b', a + f, -e', -c', -e', a + d⟩ := by
    ext <;> simp only [coA, M3.one, M3.add, M3.smul] <;> first | linear_combination (-1 : K) * h4 | ring1
  rw [e1]
  simp only [one_pow, mul_one] at key
  rw [← key]
  congr 1
  ext <;> simp only [olaeSystems, axial, Quat.toMatrix, M3.mul, M3.add, M3.transpose, M3.trace] <;> ring

/-- The Gibbs vector, with the sign used by the code. -/
def gibbsOf (q : Quat K) : P3 K := ⟨-(q.x / q.r), -(q.y / q.r), -(q.z / q.r)⟩

theorem olae_solution {q : Quat K} (hq : q.normSq = 1) (hr : q.r ≠ 0) {A : M3 K} (hA : SymOne A) :
    (olaeSystems (axial (q.toMatrix.mul A)) (q.toMatrix.mul A)).M.mulVec (gibbsOf q) =
      (olaeSystems (axial (q.toMatrix.mul A)) (q.toMatrix.mul A)).v := by
  obtain ⟨r, x, y, z⟩ := q
  obtain ⟨a, b, c, b', d, e, c', e', f⟩ := A
  obtain ⟨h1, h2, h3, h4⟩ := hA
  simp only [M3.trace] at h1 h2 h3 h4
  subst h1; subst h2; subst h3
  simp only [Quat.normSq] at hq
  simp only at hr
  ext <;> simp only [olaeSystems, axial, Quat.toMatrix, M3.mul, M3.add, M3.transpose, M3.trace, M3.mulVec, gibbsOf]
  · field_simp
    linear_combination (-(x * (a + d + f))) * hq - x * h4
  · field_simp
    linear_combination (-(y * (a + d + f))) * hq - y * h4
  · field_simp
    linear_combination (-(z * (a + d + f))) * hq - z * h4

theorem gibbs_matrix {q : Quat K} (hq : q.normSq = 1) (hr : q.r ≠ 0) {sqrt : K → K}
    (hs : ∀ x, 0 ≤ x → sqrt x * sqrt x = x) : (gibbsQuat sqrt (gibbsOf q)).toMatrix = q.toMatrix := by
  obtain ⟨r, x, y, z⟩ := q
  simp only [Quat.normSq] at hq
  simp only at hr
  set n := 1 + -(x / r) * -(x / r) + -(y / r) * -(y / r) + -(z / r) * -(z / r) with hn
  have hn0 : n = 1 / (r * r) := by
    rw [hn]; field_simp; linear_combination hq
  have hrr : 0 < r * r := mul_self_pos.mpr hr
  have hnn : 0 ≤ n := by rw [hn0]; positivity
  have hsq := hs n hnn
  have hs0 : sqrt n ≠ 0 := by
    intro h0; rw [h0, mul_zero, hn0] at hsq
    have : (0 : K) < 1 / (r * r) := by positivity
    linarith
  have hρ : (1 / sqrt n) * (1 / sqrt n) = r * r := by
    have : (1 / sqrt n) * (1 / sqrt n) = 1 / (sqrt n * sqrt n) := by field_simp
    rw [this, hsq, hn0]; field_simp
  generalize hw : 1 / sqrt n = w at hρ
  have hgq : gibbsQuat sqrt (gibbsOf (⟨r, x, y, z⟩ : Quat K)) = ⟨w, x / r * w, y / r * w, z / r * w⟩ := by
    simp only [gibbsQuat, gibbsOf]
    rw [← hn, hw]
    simp only [Quat.mk.injEq]
    refine ⟨trivial, ?_, ?_, ?_⟩ <;> ring
  rw [hgq]
  have hx : x = r * (x / r) := by field_simp
  have hy : y = r * (y / r) := by field_simp
  have hz : z = r * (z / r) := by field_simp
  generalize x / r = X at hx
  generalize y / r = Y at hy
  generalize z / r = Z at hz
  subst hx; subst hy; subst hz
  ext <;> simp only [Quat.toMatrix]
  · linear_combination (1 + X * X - Y * Y - Z * Z) * hρ
  · linear_combination (2 * (X * Y - Z)) * hρ
  · linear_combination (2 * (Z * X + Y)) * hρ
  · linear_combination (2 * (X * Y + Z)) * hρ
  · linear_combination (1 - X * X + Y * Y - Z * Z) * hρ
  · linear_combination (2 * (Y * Z - X)) * hρ
  · linear_combination (2 * (Z * X - Y)) * hρ
  · linear_combination (2 * (Y * Z + X)) * hρ
  · linear_combination (1 - X * X - Y * Y + Z * Z) * hρ

/-- Uniqueness of the solution of a regular system. -/
theorem solve_unique {M : M3 K} (hd : M.det ≠ 0) {x y : P3 K} (h : M.mulVec x = M.mulVec y) : x = y := by
  simp only [M3.mulVec, P3.mk.injEq] at h
  obtain ⟨h1, h2, h3⟩ := h
  simp only [M3.det] at hd
  ext
  · refine mul_left_cancel₀ hd ?_
    linear_combination (M.a11 * M.a22 - M.a12 * M.a21) * h1 + (M.a02 * M.a21 - M.a01 * M.a22) * h2 +
      (M.a01 * M.a12 - M.a02 * M.a11) * h3
  · refine mul_left_cancel₀ hd ?_
    linear_combination (M.a12 * M.a20 - M.a10 * M.a22) * h1 + (M.a00 * M.a22 - M.a02 * M.a20) * h2 +
      (M.a02 * M.a10 - M.a00 * M.a12) * h3
  · refine mul_left_cancel₀ hd ?_
    linear_combination (M.a10 * M.a21 - M.a11 * M.a20) * h1 + (M.a01 * M.a20 - M.a00 * M.a21) * h2 +
      (M.a00 * M.a11 - M.a01 * M.a10) * h3

/-- Each of the systems, if regular, gives the true rotation. -/
theorem olae_regular {q : Quat K} (hq : q.normSq = 1) {A : M3 K} (hA : SymOne A) {sqrt : K → K}
    (hs : ∀ x, 0 ≤ x → sqrt x * sqrt x = x) {M : M3 K} {v g : P3 K}
    (hM : M = (olaeSystems (axial (q.toMatrix.mul A)) (q.toMatrix.mul A)).M)
    (hv : v = (olaeSystems (axial (q.toMatrix.mul A)) (q.toMatrix.mul A)).v)
    (hd : M.det ≠ 0) (hg : M.mulVec g = v) : (gibbsQuat sqrt g).toMatrix = q.toMatrix := by
  have hr : q.r ≠ 0 := by
    intro h0
    apply hd
    rw [hM, olae_det hq hA, h0]; ring
  have : g = gibbsOf q := by
    apply solve_unique hd
    rw [hg, hv, hM, olae_solution hq hr hA]
  rw [this, gibbs_matrix hq hr hs]

/-- Quaternion of the rotation followed by a half turn about an axis. -/
def turnX (q : Quat K) : Quat K := ⟨-q.x, q.r, -q.z, q.y⟩
def turnY (q : Quat K) : Quat K := ⟨-q.y, q.z, q.r, -q.x⟩
def turnZ (q : Quat K) : Quat K := ⟨-q.z, -q.y, q.x, q.r⟩

theorem turnX_matrix (q : Quat K) : (turnX q).toMatrix = rotXpi.mul q.toMatrix := by
  ext <;> simp only [turnX, Quat.toMatrix, rotXpi, M3.mul] <;> ring
theorem turnY_matrix (q : Quat K) : (turnY q).toMatrix = rotYpi.mul q.toMatrix := by
  ext <;> simp only [turnY, Quat.toMatrix, rotYpi, M3.mul] <;> ring
theorem turnZ_matrix (q : Quat K) : (turnZ q).toMatrix = rotZpi.mul q.toMatrix := by
  ext <;> simp only [turnZ, Quat.toMatrix, rotZpi, M3.mul] <;> ring

theorem turnX_norm (q : Quat K) : (turnX q).normSq = q.normSq := by simp only [turnX, Quat.normSq]; ring
theorem turnY_norm (q : Quat K) : (turnY q).normSq = q.normSq := by simp only [turnY, Quat.normSq]; ring
theorem turnZ_norm (q : Quat K) : (turnZ q).normSq = q.normSq := by simp only [turnZ, Quat.normSq]; ring

theorem rotX_invol (R : M3 K) : rotXpi.mul (rotXpi.mul R) = R := by
  ext <;> simp [rotXpi, M3.mul]
theorem rotY_invol (R : M3 K) : rotYpi.mul (rotYpi.mul R) = R := by
  ext <;> simp [rotYpi, M3.mul]
theorem rotZ_invol (R : M3 K) : rotZpi.mul (rotZpi.mul R) = R := by
  ext <;> simp [rotZpi, M3.mul]

/-- Determinants of the four systems for noise-free data. -/
theorem olae_dets {q : Quat K} (hq : q.normSq = 1) {A : M3 K} (hA : SymOne A) {s : OlaeSys K}
    (hs : s = olaeSystems (axial (q.toMatrix.mul A)) (q.toMatrix.mul A)) :
    s.M.det = -8 * (q.r * q.r) * (coA A).det ∧ s.Mx.det = -8 * (q.x * q.x) * (coA A).det ∧
    s.My.det = -8 * (q.y * q.y) * (coA A).det ∧ s.Mz.det = -8 * (q.z * q.z) * (coA A).det := by
  subst hs
  refine ⟨olae_det hq hA, ?_, ?_, ?_⟩
  · rw [(olae_x _).1, ← M3.mul_assoc, ← turnX_matrix, olae_det (by rw [turnX_norm]; exact hq) hA]
    simp [turnX]
  · rw [(olae_y _).1, ← M3.mul_assoc, ← turnY_matrix, olae_det (by rw [turnY_norm]; exact hq) hA]
    simp [turnY]
  · rw [(olae_z _).1, ← M3.mul_assoc, ← turnZ_matrix, olae_det (by rw [turnZ_norm]; exact hq) hA]
    simp [turnZ]

/-- Noise-free data: the attitude is recovered when one component of the quaternion is the largest, or the last one is not
zero. -/
theorem olaeAttitude_exact {e : OlaeEnv K} (hsq : ∀ x, 0 ≤ x → e.sqrt x * e.sqrt x = x)
    (hsol : ∀ (M : M3 K) (v : P3 K), M.det ≠ 0 → M.mulVec (e.solve M v) = v) {q : Quat K} (hq : q.normSq = 1) {A : M3 K} (hA : SymOne A)
    (hD : (coA A).det ≠ 0) (hmax : UniqueMax (q.r * q.r) (q.x * q.x) (q.y * q.y) (q.z * q.z) ∨ 0 < q.z * q.z) :
    olaeAttitude e (olaeSystems (axial (q.toMatrix.mul A)) (q.toMatrix.mul A)) = q.toMatrix := by
  obtain ⟨d0, dx, dy, dz⟩ := olae_dets hq hA rfl
  set s := olaeSystems (axial (q.toMatrix.mul A)) (q.toMatrix.mul A) with hs
  have hc : 0 < |(coA A).det| := abs_pos.mpr hD
  have a0 : |s.M.det| = 8 * (q.r * q.r) * |(coA A).det| := by
    rw [d0, abs_mul, abs_mul, abs_of_nonneg (mul_self_nonneg q.r)]; norm_num
  have ax : |s.Mx.det| = 8 * (q.x * q.x) * |(coA A).det| := by
    rw [dx, abs_mul, abs_mul, abs_of_nonneg (mul_self_nonneg q.x)]; norm_num
  have ay : |s.My.det| = 8 * (q.y * q.y) * |(coA A).det| := by
    rw [dy, abs_mul, abs_mul, abs_of_nonneg (mul_self_nonneg q.y)]; norm_num
  have az : |s.Mz.det| = 8 * (q.z * q.z) * |(coA A).det| := by
    rw [dz, abs_mul, abs_mul, abs_of_nonneg (mul_self_nonneg q.z)]; norm_num
  have lt_iff : ∀ u w : K, 8 * u * |(coA A).det| < 8 * w * |(coA A).det| ↔ u < w := by
    intro u w
    rw [mul_lt_mul_iff_of_pos_right hc]
    constructor <;> intro h <;> linarith
  have hne : ∀ M : M3 K, ∀ u w : K, |M.det| = 8 * u * |(coA A).det| → 0 ≤ w → w < u → M.det ≠ 0 := by
    intro M u w h1 h2 h3 h0
    rw [h0, abs_zero] at h1
    have : 0 < 8 * u * |(coA A).det| := by
      have : 0 < u := lt_of_le_of_lt h2 h3
      positivity
    linarith
  unfold olaeAttitude max3
  simp only [max_lt_iff, a0, ax, ay, az, lt_iff]
  by_cases c0 : q.x * q.x < q.r * q.r ∧ q.y * q.y < q.r * q.r ∧ q.z * q.z < q.r * q.r
  · rw [if_pos c0]
    obtain ⟨h1, h2, h3⟩ := c0
    have hdet := hne _ _ _ a0 (mul_self_nonneg _) h1
    exact olae_regular hq hA hsq (M := s.M) (v := s.v) rfl rfl hdet (hsol _ _ hdet)
  rw [if_neg c0]
  by_cases c1 : q.r * q.r < q.x * q.x ∧ q.y * q.y < q.x * q.x ∧ q.z * q.z < q.x * q.x
  · rw [if_pos c1]
    obtain ⟨h1, h2, h3⟩ := c1
    have hdet := hne _ _ _ ax (mul_self_nonneg _) h1
    have := olae_regular (q := turnX q) (by rw [turnX_norm]; exact hq) hA hsq (M := s.Mx) (v := s.vx)
      (by rw [turnX_matrix, M3.mul_assoc]; exact (olae_x _).1)
      (by rw [turnX_matrix, M3.mul_assoc]; exact (olae_x _).2) hdet (hsol _ _ hdet)
    rw [this, turnX_matrix, rotX_invol]
  rw [if_neg c1]
  by_cases c2 : q.r * q.r < q.y * q.y ∧ q.x * q.x < q.y * q.y ∧ q.z * q.z < q.y * q.y
  · rw [if_pos c2]
    obtain ⟨h1, h2, h3⟩ := c2
    have hdet := hne _ _ _ ay (mul_self_nonneg _) h1
    have := olae_regular (q := turnY q) (by rw [turnY_norm]; exact hq) hA hsq (M := s.My) (v := s.vy)
      (by rw [turnY_matrix, M3.mul_assoc]; exact (olae_y _).1)
      (by rw [turnY_matrix, M3.mul_assoc]; exact (olae_y _).2) hdet (hsol _ _ hdet)
    rw [this, turnY_matrix, rotY_invol]
  rw [if_neg c2]
  have h1 : 0 < q.z * q.z := by
    rcases hmax with (h | h | h | h) | h
    · exact absurd h c0
    · exact absurd h c1
    · exact absurd h c2
    · exact lt_of_le_of_lt (mul_self_nonneg _) h.1
    · exact h
  have hdet := hne _ _ _ az le_rfl h1
  have := olae_regular (q := turnZ q) (by rw [turnZ_norm]; exact hq) hA hsq (M := s.Mz) (v := s.vz)
    (by rw [turnZ_matrix, M3.mul_assoc]; exact (olae_z _).1)
    (by rw [turnZ_matrix, M3.mul_assoc]; exact (olae_z _).2) hdet (hsol _ _ hdet)
  rw [this, turnZ_matrix, rotZ_invol]

end Verif.Lemmas
