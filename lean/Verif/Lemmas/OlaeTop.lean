import Verif.Lemmas.Olae
import Mathlib.LinearAlgebra.Matrix.ToLinearEquiv
import Mathlib.LinearAlgebra.Matrix.Determinant.Basic
/-
OLAE as a whole, and Horn, for noise-free data.
-/
namespace Verif.Lemmas
open Verif Verif.Spec
set_option linter.unusedSectionVars false
variable {K : Type} [Field K] [LinearOrder K] [IsStrictOrderedRing K]

/-- A singular 3x3 matrix kills a non-zero vector. -/
theorem singular_kernel {M : M3 K} (h : M.det = 0) : ∃ u : P3 K, u ≠ 0 ∧ M.mulVec u = 0 := by
  let A : Matrix (Fin 3) (Fin 3) K := !![M.a00, M.a01, M.a02; M.a10, M.a11, M.a12; M.a20, M.a21, M.a22]
  have hA : A.det = 0 := by
    rw [Matrix.det_fin_three]
    simp [A]
    simp only [M3.det] at h
    linear_combination h
  obtain ⟨v, hv, he⟩ := Matrix.exists_mulVec_eq_zero_iff.mpr hA
  refine ⟨⟨v 0, v 1, v 2⟩, ?_, ?_⟩
  · intro hz
    apply hv
    simp only [P3.ext_iff, P3.zero_x, P3.zero_y, P3.zero_z] at hz
    funext i
    fin_cases i
    · exact hz.1
    · exact hz.2.1
    · exact hz.2.2
  · have h0 := congrFun he 0
    have h1 := congrFun he 1
    have h2 := congrFun he 2
    simp [A, Matrix.mulVec, dotProduct, Fin.sum_univ_three] at h0 h1 h2
    ext
    · simp only [M3.mulVec, P3.zero_x]; linear_combination h0
    · simp only [M3.mulVec, P3.zero_y]; linear_combination h1
    · simp only [M3.mulVec, P3.zero_z]; linear_combination h2

theorem kcol0 {R : M3 K} (h : IsRotation R) :
    (kCol0 R).toMatrix = R.smul (4 * (1 + R.a00 + R.a11 + R.a22)) ∧ (kCol0 R).normSq = 4 * (1 + R.a00 + R.a11 + R.a22) := by
  have r := rotRel h
  obtain ⟨r1, r2, r3, r4, r5, r6⟩ := rot_rows h
  obtain ⟨c00, c11, c22, c01, c02, c12, k00, k01, k02, k10, k11, k12, k20, k21, k22⟩ := r
  obtain ⟨a, b, c, d, e, f, g, i, j⟩ := R
  simp only at *
  constructor
  · ext <;> simp only [Quat.toMatrix, kCol0, M3.smul] <;> grind
  · simp only [Quat.normSq, kCol0]; grind

theorem kcol1 {R : M3 K} (h : IsRotation R) :
    (kCol1 R).toMatrix = R.smul (4 * (1 + R.a00 - R.a11 - R.a22)) ∧ (kCol1 R).normSq = 4 * (1 + R.a00 - R.a11 - R.a22) := by
  have r := rotRel h
  obtain ⟨r1, r2, r3, r4, r5, r6⟩ := rot_rows h
  obtain ⟨c00, c11, c22, c01, c02, c12, k00, k01, k02, k10, k11, k12, k20, k21, k22⟩ := r
  obtain ⟨a, b, c, d, e, f, g, i, j⟩ := R
  simp only at *
  constructor
  · ext <;> simp only [Quat.toMatrix, kCol1, M3.smul] <;> grind
  · simp only [Quat.normSq, kCol1]; grind

theorem kcol2 {R : M3 K} (h : IsRotation R) :
    (kCol2 R).toMatrix = R.smul (4 * (1 - R.a00 + R.a11 - R.a22)) ∧ (kCol2 R).normSq = 4 * (1 - R.a00 + R.a11 - R.a22) := by
  have r := rotRel h
  obtain ⟨r1, r2, r3, r4, r5, r6⟩ := rot_rows h
  obtain ⟨c00, c11, c22, c01, c02, c12, k00, k01, k02, k10, k11, k12, k20, k21, k22⟩ := r
  obtain ⟨a, b, c, d, e, f, g, i, j⟩ := R
  simp only at *
  constructor
  · ext <;> simp only [Quat.toMatrix, kCol2, M3.smul] <;> grind
  · simp only [Quat.normSq, kCol2]; grind

theorem kcol3 {R : M3 K} (h : IsRotation R) :
    (kCol3 R).toMatrix = R.smul (4 * (1 - R.a00 - R.a11 + R.a22)) ∧ (kCol3 R).normSq = 4 * (1 - R.a00 - R.a11 + R.a22) := by
  have r := rotRel h
  obtain ⟨r1, r2, r3, r4, r5, r6⟩ := rot_rows h
  obtain ⟨c00, c11, c22, c01, c02, c12, k00, k01, k02, k10, k11, k12, k20, k21, k22⟩ := r
  obtain ⟨a, b, c, d, e, f, g, i, j⟩ := R
  simp only at *
  constructor
  · ext <;> simp only [Quat.toMatrix, kCol3, M3.smul] <;> grind
  · simp only [Quat.normSq, kCol3]; grind

theorem quat_of_col {R : M3 K} {c : Quat K} {k : K} (h1 : c.toMatrix = R.smul (4 * k)) (h2 : c.normSq = 4 * k)
    (hk : 0 < k) {sqrt : K → K} (hs : IsSqrt sqrt) : ∃ q : Quat K, q.normSq = 1 ∧ q.toMatrix = R := by
  have h4 : (0 : K) < 1 / (4 * k) := by positivity
  have hq := hs _ h4.le
  generalize sqrt (1 / (4 * k)) = s at hq
  have hk' : s * s * (4 * k) = 1 := by rw [hq]; field_simp
  refine ⟨⟨s * c.r, s * c.x, s * c.y, s * c.z⟩, ?_, ?_⟩
  · simp only [Quat.normSq] at h2 ⊢
    linear_combination s * s * h2 + hk'
  · rw [M3.ext_iff] at h1 ⊢
    simp only [Quat.toMatrix, M3.smul] at h1 ⊢
    obtain ⟨e0, e1, e2, e3, e4, e5, e6, e7, e8⟩ := h1
    refine ⟨?_, ?_, ?_, ?_, ?_, ?_, ?_, ?_, ?_⟩
    · linear_combination s * s * e0 + R.a00 * hk'
    · linear_combination s * s * e1 + R.a01 * hk'
    · linear_combination s * s * e2 + R.a02 * hk'
    · linear_combination s * s * e3 + R.a10 * hk'
    · linear_combination s * s * e4 + R.a11 * hk'
    · linear_combination s * s * e5 + R.a12 * hk'
    · linear_combination s * s * e6 + R.a20 * hk'
    · linear_combination s * s * e7 + R.a21 * hk'
    · linear_combination s * s * e8 + R.a22 * hk'

/-- Every rotation comes from a unit quaternion. -/
theorem exists_quat {R : M3 K} (h : IsRotation R) {sqrt : K → K} (hs : IsSqrt sqrt) :
    ∃ q : Quat K, q.normSq = 1 ∧ q.toMatrix = R := by
  by_cases c0 : 0 < 1 + R.a00 + R.a11 + R.a22
  · exact quat_of_col (kcol0 h).1 (kcol0 h).2 c0 hs
  by_cases c1 : 0 < 1 + R.a00 - R.a11 - R.a22
  · exact quat_of_col (kcol1 h).1 (kcol1 h).2 c1 hs
  by_cases c2 : 0 < 1 - R.a00 + R.a11 - R.a22
  · exact quat_of_col (kcol2 h).1 (kcol2 h).2 c2 hs
  by_cases c3 : 0 < 1 - R.a00 - R.a11 + R.a22
  · exact quat_of_col (kcol3 h).1 (kcol3 h).2 c3 hs
  linarith

theorem quat_squares {q : Quat K} (hq : q.normSq = 1) {R : M3 K} (h : q.toMatrix = R) :
    1 + R.a00 + R.a11 + R.a22 = 4 * (q.r * q.r) ∧ 1 + R.a00 - R.a11 - R.a22 = 4 * (q.x * q.x) ∧
    1 - R.a00 + R.a11 - R.a22 = 4 * (q.y * q.y) ∧ 1 - R.a00 - R.a11 + R.a22 = 4 * (q.z * q.z) := by
  subst h
  simp only [Quat.normSq] at hq
  simp only [Quat.toMatrix]
  refine ⟨?_, ?_, ?_, ?_⟩ <;> linear_combination (-1 : K) * hq

theorem clearAxis_iff {q : Quat K} (hq : q.normSq = 1) {R : M3 K} (h : q.toMatrix = R) :
    ClearAxis R ↔ UniqueMax (q.r * q.r) (q.x * q.x) (q.y * q.y) (q.z * q.z) ∨ 0 < q.z * q.z := by
  obtain ⟨e0, e1, e2, e3⟩ := quat_squares hq h
  unfold ClearAxis
  rw [e0, e1, e2, e3]
  have hlt : ∀ u w : K, 4 * u < 4 * w ↔ u < w := fun u w => by constructor <;> intro h <;> linarith
  have hz : (4 : K) * (q.z * q.z) ≠ 0 ↔ 0 < q.z * q.z := by
    have := mul_self_nonneg q.z
    constructor
    · intro h; exact lt_of_le_of_ne this (fun h0 => h (by rw [← h0, mul_zero]))
    · intro h; positivity
  simp only [UniqueMax, hlt, hz]

/-- Weighted sum of `r rᵀ`. -/
def autoCorr (vs : List (Visited K)) : M3 K := vs.foldl (fun A v => A.add (M3.smul v.w (M3.outer v.r v.r))) M3.zero

theorem autoCorr_fold (vs : List (Visited K)) (R : M3 K) (A B : M3 K) (v0 : P3 K)
    (hb : ∀ v ∈ vs, v.b = R.mulVec v.r) (h : B = R.mul A) :
    (vs.foldl olaeAdd (v0, B)).2 = R.mul (vs.foldl (fun A v => A.add (M3.smul v.w (M3.outer v.r v.r))) A) := by
  induction vs generalizing A B v0 with
  | nil => exact h
  | cons v vs ih =>
    rw [List.foldl_cons, List.foldl_cons]
    apply ih
    · exact fun x hx => hb x (List.mem_cons_of_mem _ hx)
    · rw [h, hb v List.mem_cons_self]
      ext <;> simp only [M3.add, M3.smul, M3.mul, M3.outer, M3.mulVec] <;> ring

theorem fold_quad (vs : List (Visited K)) (A : M3 K) (u : P3 K) :
    u.dot ((vs.foldl (fun A v => A.add (M3.smul v.w (M3.outer v.r v.r))) A).mulVec u) =
      u.dot (A.mulVec u) + (vs.map fun v => v.w * (v.r.dot u * v.r.dot u)).sum := by
  induction vs generalizing A with
  | nil => simp
  | cons v vs ih =>
    rw [List.foldl_cons, ih, List.map_cons, List.sum_cons]
    simp only [P3.dot, M3.mulVec, M3.add, M3.smul, M3.outer]; ring

theorem fold_sym (vs : List (Visited K)) (A : M3 K) (h : A.a10 = A.a01 ∧ A.a20 = A.a02 ∧ A.a21 = A.a12)
    (hu : ∀ v ∈ vs, v.r.normSq = 1) :
    let B := vs.foldl (fun A v => A.add (M3.smul v.w (M3.outer v.r v.r))) A
    (B.a10 = B.a01 ∧ B.a20 = B.a02 ∧ B.a21 = B.a12) ∧ B.trace = A.trace + (vs.map (·.w)).sum := by
  induction vs generalizing A with
  | nil => simpa using h
  | cons v vs ih =>
    simp only [List.foldl_cons, List.map_cons, List.sum_cons]
    obtain ⟨h1, h2, h3⟩ := h
    obtain ⟨i1, i2⟩ := ih (A.add (M3.smul v.w (M3.outer v.r v.r))) (by
      simp only [M3.add, M3.smul, M3.outer, h1, h2, h3]
      refine ⟨?_, ?_, ?_⟩ <;> ring) (fun x hx => hu x (List.mem_cons_of_mem _ hx))
    refine ⟨i1, ?_⟩
    rw [i2]
    have := hu v List.mem_cons_self
    simp only [P3.normSq, P3.dot] at this
    simp only [M3.add, M3.smul, M3.outer, M3.trace]
    linear_combination v.w * this

/-- Exact vector pairs: form of the attitude profile. -/
theorem olae_form_visited {sqrt : K → K} (hsq : IsSqrt sqrt) {o : VisitOut K} {R : M3 K}
    (hR : IsRotation R) (hb : ∀ v ∈ o.visited, v.b = R.mulVec v.r)
    (hu : ∀ v ∈ o.visited, v.r.normSq = 1) (hw : ∀ v ∈ o.visited, 0 < v.w) (hs : o.wSum = (o.visited.map (·.w)).sum)
    {v1 v2 : Visited K} (m1 : v1 ∈ o.visited) (m2 : v2 ∈ o.visited) (hx : P3.cross v1.r v2.r ≠ 0) :
    ∃ (q : Quat K) (A : M3 K), q.normSq = 1 ∧ q.toMatrix = R ∧ SymOne A ∧ (coA A).det ≠ 0 ∧
      olaeSystems (olaeVB o).1 (olaeVB o).2 = olaeSystems (axial (q.toMatrix.mul A)) (q.toMatrix.mul A) := by
  obtain ⟨q, hq, hqR⟩ := exists_quat hR hsq
  have hpos : 0 < o.wSum := by
    rw [hs]
    have hnn : ∀ x ∈ o.visited.map (·.w), 0 ≤ x := by
      intro x hx; obtain ⟨v, hv, rfl⟩ := List.mem_map.mp hx; exact (hw v hv).le
    have := List.single_le_sum hnn v1.w (List.mem_map.mpr ⟨v1, m1, rfl⟩)
    exact lt_of_lt_of_le (hw v1 m1) this
  set A0 := autoCorr o.visited with hA0
  have hB0 : (o.visited.foldl olaeAdd (0, M3.zero)).2 = R.mul A0 :=
    autoCorr_fold _ R M3.zero M3.zero 0 hb (by ext <;> simp [M3.mul, M3.zero])
  set A := A0.smul (1 / o.wSum) with hA
  have hB : (olaeVB o).2 = q.toMatrix.mul A := by
    unfold olaeVB
    simp only [hpos, if_true]
    rw [hB0, hqR, hA]
    ext <;> simp only [M3.mul, M3.smul] <;> ring
  obtain ⟨⟨s1, s2, s3⟩, htr⟩ := fold_sym o.visited M3.zero (by simp [M3.zero]) hu
  have hsym : SymOne A := by
    refine ⟨?_, ?_, ?_, ?_⟩
    · exact congrArg (fun t => 1 / o.wSum * t) s1
    · exact congrArg (fun t => 1 / o.wSum * t) s2
    · exact congrArg (fun t => 1 / o.wSum * t) s3
    · have : A.trace = 1 / o.wSum * A0.trace := by simp only [hA, M3.smul, M3.trace]; ring
      rw [this, hA0]
      unfold autoCorr
      rw [htr, ← hs]
      simp only [M3.trace, M3.zero]
      field_simp
      ring
  have hD : (coA A).det ≠ 0 := by
    intro h0
    obtain ⟨u, hu0, hker⟩ := singular_kernel h0
    have hq1 : u.dot ((coA A).mulVec u) = 0 := by rw [hker]; simp [P3.dot]
    have hq2 : u.dot ((coA A).mulVec u) = 1 / o.wSum * (o.wSum * u.normSq - u.dot (A0.mulVec u)) := by
      have : 1 / o.wSum * (o.wSum * u.normSq) = u.normSq := by field_simp
      rw [mul_sub, this]
      simp only [hA, coA, M3.add, M3.smul, M3.one, M3.mulVec, P3.dot, P3.normSq]; ring
    have hfq := fold_quad o.visited M3.zero u
    have hz : u.dot ((M3.zero : M3 K).mulVec u) = 0 := by simp [P3.dot, M3.mulVec, M3.zero]
    rw [hz, zero_add] at hfq
    have hsum : o.wSum * u.normSq - u.dot (A0.mulVec u) = (o.visited.map fun v => v.w * (P3.cross v.r u).normSq).sum := by
      rw [hA0]
      unfold autoCorr
      rw [hfq, hs]
      clear hfq hq2 hs hB hB0 hA0 m1 m2 hpos s1 s2 s3 htr hsym hA
      generalize o.visited = vs at hu
      induction vs with
      | nil => simp
      | cons v vs ih =>
        simp only [List.map_cons, List.sum_cons]
        rw [← ih (fun x hx => hu x (List.mem_cons_of_mem _ hx))]
        have := hu v List.mem_cons_self
        simp only [P3.normSq, P3.dot, P3.cross] at this ⊢
        linear_combination (-(v.w * (u.x * u.x + u.y * u.y + u.z * u.z))) * this
    have hzero : (o.visited.map fun v => v.w * (P3.cross v.r u).normSq).sum = 0 := by
      rw [← hsum]
      rw [hq1] at hq2
      have : (1 / o.wSum) ≠ 0 := by positivity
      exact (mul_eq_zero.mp hq2.symm).resolve_left this
    have hnnsq : ∀ a : P3 K, 0 ≤ a.normSq := by
      intro a
      simp only [P3.normSq, P3.dot]
      have h1 := mul_self_nonneg a.x
      have h2 := mul_self_nonneg a.y
      have h3 := mul_self_nonneg a.z
      linarith
    have hall : ∀ v ∈ o.visited, P3.cross v.r u = 0 := by
      intro v hv
      have hnn : ∀ x ∈ o.visited.map (fun v => v.w * (P3.cross v.r u).normSq), 0 ≤ x := by
        intro x hx
        obtain ⟨y, hy, rfl⟩ := List.mem_map.mp hx
        exact mul_nonneg (hw y hy).le (hnnsq _)
      have h1 := List.single_le_sum hnn _ (List.mem_map.mpr ⟨v, hv, rfl⟩)
      rw [hzero] at h1
      have h2 := mul_nonneg (hw v hv).le (hnnsq (P3.cross v.r u))
      have h3 : v.w * (P3.cross v.r u).normSq = 0 := le_antisymm h1 h2
      have h4 := (mul_eq_zero.mp h3).resolve_left (hw v hv).ne'
      apply distSq_eq_zero
      simp only [P3.distSq, P3.normSq, P3.dot, P3.sub_x, P3.sub_y, P3.sub_z, P3.zero_x, P3.zero_y, P3.zero_z, sub_zero]
      exact h4
    have a1 := hall v1 m1
    have a2 := hall v2 m2
    apply hx
    have hun : u.normSq ≠ 0 := by
      intro hz0
      apply hu0
      apply distSq_eq_zero
      simp only [P3.distSq, P3.normSq, P3.dot, P3.sub_x, P3.sub_y, P3.sub_z, P3.zero_x, P3.zero_y, P3.zero_z, sub_zero]
      exact hz0
    simp only [P3.cross, P3.ext_iff, P3.zero_x, P3.zero_y, P3.zero_z] at a1 a2 ⊢
    obtain ⟨a11, a12, a13⟩ := a1
    obtain ⟨a21, a22, a23⟩ := a2
    simp only [P3.normSq, P3.dot] at hun
    refine ⟨?_, ?_, ?_⟩ <;> (refine mul_left_cancel₀ hun ?_; grind)
  exact ⟨q, A, hq, hqR, hsym, hD, by rw [olaeVB_axial, hB]⟩

theorem mean_moved {ps : List (PtPair K)} {T : Pose3 K} (h : ∀ q ∈ ps, T.composePoint q.local = q.global) (hne : ps ≠ []) :
    mean (ps.map (·.global)) = T.composePoint (mean (ps.map (·.local))) := by
  have hlen : (ps.length : K) ≠ 0 := by
    have : ps.length ≠ 0 := fun h => hne (List.length_eq_zero_iff.mp h)
    exact_mod_cast this
  have hx : ∀ (a b c d : K) (f : PtPair K → K), (∀ q ∈ ps, f q = a * q.local.x + b * q.local.y + c * q.local.z + d) →
      (ps.map f).sum = a * (ps.map fun q => q.local.x).sum + b * (ps.map fun q => q.local.y).sum +
        c * (ps.map fun q => q.local.z).sum + ps.length * d := by
    intro a b c d f hf
    clear h hne hlen
    induction ps with
    | nil => simp
    | cons q ps ih =>
      simp only [List.map_cons, List.sum_cons, List.length_cons, Nat.cast_succ]
      rw [ih (fun x hx => hf x (List.mem_cons_of_mem _ hx)), hf q List.mem_cons_self]; ring
  have e1 := hx T.R.a00 T.R.a01 T.R.a02 T.t.x (fun q => q.global.x) (fun q hq => by rw [← h q hq]; rfl)
  have e2 := hx T.R.a10 T.R.a11 T.R.a12 T.t.y (fun q => q.global.y) (fun q hq => by rw [← h q hq]; rfl)
  have e3 := hx T.R.a20 T.R.a21 T.R.a22 T.t.z (fun q => q.global.z) (fun q hq => by rw [← h q hq]; rfl)
  ext
  · simp only [mean, List.map_map, Function.comp_def, List.length_map, e1, Pose3.composePoint, M3.mulVec, P3.add_x]
    field_simp
  · simp only [mean, List.map_map, Function.comp_def, List.length_map, e2, Pose3.composePoint, M3.mulVec, P3.add_y]
    field_simp
  · simp only [mean, List.map_map, Function.comp_def, List.length_map, e3, Pose3.composePoint, M3.mulVec, P3.add_z]
    field_simp

theorem pair_exact {p : Pairings K} {T : Pose3 K} (h : NoiseFree p T) {ctL : P3 K} {i : Nat} {b r : P3 K}
    (hp : PairVectors p ctL (T.composePoint ctL) i b r) : b = T.R.mulVec r := by
  rcases hp with ⟨q, hq, rfl, rfl⟩ | ⟨j, q, _, hq, rfl, rfl⟩ | ⟨j, q, _, hq, rfl, rfl⟩
  · rw [← h.pts q (List.mem_of_getElem? hq)]
    rw [mulVec_sub]
    ext <;> simp [Pose3.composePoint]
  · exact (h.lns q (List.mem_of_getElem? hq)).symm
  · exact (h.pls q (List.mem_of_getElem? hq)).symm

theorem pair_unique {p : Pairings K} {ctL ctG : P3 K} {i : Nat} {b r b' r' : P3 K} (h : PairVectors p ctL ctG i b r)
    (h' : PairVectors p ctL ctG i b' r') : b = b' ∧ r = r' := by
  have lt : ∀ {α : Type} {l : List α} {j : Nat} {x : α}, l[j]? = some x → j < l.length := by
    intro α l j x hx
    by_contra hc
    rw [List.getElem?_eq_none (by omega)] at hx
    exact absurd hx (by simp)
  rcases h with ⟨q, hq, rfl, rfl⟩ | ⟨j, q, hj, hq, rfl, rfl⟩ | ⟨j, q, hj, hq, rfl, rfl⟩ <;>
  rcases h' with ⟨q', hq', rfl, rfl⟩ | ⟨j', q', hj', hq', rfl, rfl⟩ | ⟨j', q', hj', hq', rfl, rfl⟩ <;>
  have l1 := lt hq <;> have l2 := lt hq' <;> first
    | (rw [hq] at hq'; cases hq'; exact ⟨rfl, rfl⟩)
    | (exfalso; omega)
    | (have : j = j' := by omega
       subst this; rw [hq] at hq'; cases hq'; exact ⟨rfl, rfl⟩)

theorem norm_eq {norm : P3 K → K} (hn : IsNorm norm) {a b : P3 K} (h : a.normSq = b.normSq) : norm a = norm b := by
  obtain ⟨h1, h2⟩ := hn a
  obtain ⟨h3, h4⟩ := hn b
  rw [← h2, ← h4] at h
  exact (mul_self_inj h1 h3).mp h

theorem unit_scaled {norm : P3 K → K} (hn : IsNorm norm) {a : P3 K} (h : norm a ≠ 0) :
    (P3.smul (1 / norm a) a).normSq = 1 := by
  have h2 := (hn a).2
  have : (P3.smul (1 / norm a) a).normSq = a.normSq / (norm a * norm a) := by
    simp only [P3.normSq, P3.dot, P3.smul]; field_simp
  rw [this, h2]
  apply div_self
  rw [← h2]
  exact mul_self_ne_zero.mpr h

theorem mem_idx_lt {p : Pairings K} {ctL ctG : P3 K} {i : Nat} {b r : P3 K} (h : PairVectors p ctL ctG i b r) :
    i < numCorr p := by
  unfold numCorr
  rcases h with ⟨q, hq, rfl, rfl⟩ | ⟨j, q, hj, hq, rfl, rfl⟩ | ⟨j, q, hj, hq, rfl, rfl⟩
  · have := (List.getElem?_eq_some_iff.mp hq).1; omega
  · have := (List.getElem?_eq_some_iff.mp hq).1; omega
  · have := (List.getElem?_eq_some_iff.mp hq).1; omega

/-- What the walk gives for noise-free pairings. -/
theorem visit_exact {p : Pairings K} {wp : WeightParams K} {T : Pose3 K} (hT : NoiseFree p T) (hB : BlocksCover p)
    {norm : P3 K → K} (hn : IsNorm norm) {eps : K} (he : 0 < eps) (hthr : wp.useScaleOutlier = true → 1 ≤ wp.scaleThr)
    {ctL : P3 K} {nrm : Bool} (htwo : TwoDirections p norm eps ctL (T.composePoint ctL)) {o : VisitOut K}
    (ho : visitCorrespondences p wp ctL (T.composePoint ctL) [] nrm norm eps = .ok o) :
    o.outliers = [] ∧ o.wSum = (o.visited.map (·.w)).sum ∧ (∀ v ∈ o.visited, v.b = T.R.mulVec v.r) ∧
    (∀ v ∈ o.visited, 0 < v.w) ∧ (nrm = true → UnitDirections p → ∀ v ∈ o.visited, v.r.normSq = 1) ∧
    ∃ v1 ∈ o.visited, ∃ v2 ∈ o.visited, P3.cross v1.r v2.r ≠ 0 := by
  obtain ⟨_, hspec⟩ := visit_spec (p := p) (wp := wp) (ctL := ctL) (ctG := T.composePoint ctL) (nrm := nrm) (norm := norm)
    (eps := eps) (outl := []) hB.1 hB.2 (by simp) (by simp)
  obtain ⟨_, _, hsum, idx, _, _, hfor, hidx⟩ := hspec o ho
  have hnrm : ∀ {i b r}, PairVectors p ctL (T.composePoint ctL) i b r → norm b = norm r := by
    intro i b r h
    apply norm_eq hn
    rw [pair_exact hT h, rot_normSq hT.rot]
  have hout : o.outliers = [] := by
    apply List.eq_nil_iff_forall_not_mem.mpr
    intro j hj
    obtain ⟨_, hj⟩ := (hidx j).2.mp hj
    rcases hj with hj | ⟨hc, hus, q, hq, hlt⟩
    · simp at hj
    have hpv : PairVectors p ctL (T.composePoint ctL) j (q.global - T.composePoint ctL) (q.local - ctL) :=
      Or.inl ⟨q, hq, rfl, rfl⟩
    have heq := hnrm hpv
    rw [heq, max_self, min_self, div_self] at hlt
    · exact absurd hlt (not_lt.mpr (hthr hus))
    · intro h0
      exact hc ⟨q, hq, Or.inr (by rw [h0]; exact he)⟩
  have hfar : ∀ i ∈ idx, ∀ b r, i < p.pt2pt.length → PairVectors p ctL (T.composePoint ctL) i b r → norm r ≠ 0 := by
    intro i hi b r hlt hp h0
    have hc := ((hidx i).1.mp hi).2.2
    rcases hp with ⟨q, hq, rfl, rfl⟩ | ⟨j, q, hj, hq, rfl, rfl⟩ | ⟨j, q, hj, hq, rfl, rfl⟩
    · exact hc ⟨q, hq, Or.inr (by rw [h0]; exact he)⟩
    · omega
    · omega
  have hmem : ∀ v ∈ o.visited, ∃ i ∈ idx, VisitedAs p wp ctL (T.composePoint ctL) nrm norm i v := by
    intro v hv
    obtain ⟨k, hk, rfl⟩ := List.getElem_of_mem hv
    have hl := hfor.length_eq
    exact ⟨idx[k]'(by omega), List.getElem_mem _, List.Forall₂.get hfor (by omega) hk⟩
  have hmem' : ∀ i ∈ idx, ∃ v ∈ o.visited, VisitedAs p wp ctL (T.composePoint ctL) nrm norm i v := by
    intro i hi
    obtain ⟨k, hk, rfl⟩ := List.getElem_of_mem hi
    have hl := hfor.length_eq
    exact ⟨o.visited[k]'(by omega), List.getElem_mem _, List.Forall₂.get hfor hk (by omega)⟩
  refine ⟨hout, hsum, ?_, ?_, ?_, ?_⟩
  · intro v hv
    obtain ⟨i, hi, b, r, bw, hp, _, hb, hr, _⟩ := hmem v hv
    rw [hb, hr]
    split
    · rw [hnrm hp, mulVec_smul, ← pair_exact hT hp]
    · exact pair_exact hT hp
  · intro v hv
    obtain ⟨i, hi, b, r, bw, _, _, _, _, _, _, hpos⟩ := hmem v hv
    exact hpos
  · intro hnt hu v hv
    obtain ⟨i, hi, b, r, bw, hp, _, hb, hr, _⟩ := hmem v hv
    rw [hr]
    split
    · rename_i hc
      exact unit_scaled hn (hfar i hi b r hc.1 hp)
    · rename_i hc
      rcases hp with ⟨q, hq, rfl, rfl⟩ | ⟨j, q, hj, hq, rfl, rfl⟩ | ⟨j, q, hj, hq, rfl, rfl⟩
      · exact absurd ⟨(List.getElem?_eq_some_iff.mp hq).1, hnt⟩ hc
      · exact hu.lns q (List.mem_of_getElem? hq)
      · exact hu.pls q (List.mem_of_getElem? hq)
  · obtain ⟨i, j, b, r, b', r', hi, hj, ci, cj, hx⟩ := htwo
    have mi : i ∈ idx := (hidx i).1.mpr ⟨mem_idx_lt hi, by rw [hout]; simp, ci⟩
    have mj : j ∈ idx := (hidx j).1.mpr ⟨mem_idx_lt hj, by rw [hout]; simp, cj⟩
    obtain ⟨v1, m1, b1, r1, bw1, hp1, _, _, hr1, _⟩ := hmem' i mi
    obtain ⟨v2, m2, b2, r2, bw2, hp2, _, _, hr2, _⟩ := hmem' j mj
    refine ⟨v1, m1, v2, m2, ?_⟩
    obtain ⟨_, e1⟩ := pair_unique hi hp1
    obtain ⟨_, e2⟩ := pair_unique hj hp2
    subst e1; subst e2
    have hsc : ∃ s, s ≠ 0 ∧ v1.r = P3.smul s r := by
      rw [hr1]
      split
      · rename_i hc
        exact ⟨_, one_div_ne_zero (hfar i mi b1 r hc.1 hp1), rfl⟩
      · exact ⟨1, one_ne_zero, by ext <;> simp⟩
    have hsc' : ∃ s, s ≠ 0 ∧ v2.r = P3.smul s r' := by
      rw [hr2]
      split
      · rename_i hc
        exact ⟨_, one_div_ne_zero (hfar j mj b2 r' hc.1 hp2), rfl⟩
      · exact ⟨1, one_ne_zero, by ext <;> simp⟩
    obtain ⟨s, hs, e1⟩ := hsc
    obtain ⟨s', hs', e2⟩ := hsc'
    intro h0
    apply hx
    rw [e1, e2] at h0
    have hss : s * s' ≠ 0 := mul_ne_zero hs hs'
    simp only [P3.ext_iff, P3.cross, P3.smul, P3.zero_x, P3.zero_y, P3.zero_z] at h0 ⊢
    obtain ⟨h1, h2, h3⟩ := h0
    refine ⟨?_, ?_, ?_⟩ <;> refine mul_left_cancel₀ hss ?_
    · linear_combination h1
    · linear_combination h2
    · linear_combination h3

theorem pose_of_exact {T : Pose3 K} {ctL : P3 K} : poseFromRot T.R ctL (T.composePoint ctL) = T := by
  ext <;> simp [poseFromRot, Pose3.composePoint]

/-- OLAE on noise-free data: the systems solved. -/
theorem olae_form {e : OlaeEnv K} (hsq : IsSqrt e.sqrt) (hn : IsNorm e.norm) (he : 0 < e.eps)
    {p : Pairings K} {wp : WeightParams K} {T : Pose3 K} (hT : NoiseFree p T) (hB : BlocksCover p) (hU : UnitDirections p)
    (hthr : wp.useScaleOutlier = true → 1 ≤ wp.scaleThr)
    (htwo : TwoDirections p e.norm e.eps (mean (p.pt2pt.map (·.local))) (mean (p.pt2pt.map (·.global))))
    {res : TFResult K} (h : optimalTfOlae e p wp = .ok res) : res.outliers = [] ∧
    ∃ (q : Quat K) (A : M3 K) (ctL : P3 K), q.normSq = 1 ∧ q.toMatrix = T.R ∧ SymOne A ∧ (coA A).det ≠ 0 ∧
      res.pose = poseFromRot (olaeAttitude e (olaeSystems (axial (q.toMatrix.mul A)) (q.toMatrix.mul A))) ctL
        (T.composePoint ctL) := by
  by_cases hne : p.pt2pt = []
  · exfalso
    unfold optimalTfOlae at h
    simp only [Outcome.bind_def, Outcome.pure_def, Outcome.bind_eq_ok, Outcome.assert_eq_ok] at h
    obtain ⟨_, _, _, _, _, _, _, hce, _⟩ := h
    simp [evalCentroidsRobust, hne, Outcome.assert, Outcome.bind] at hce
  have hlen : 0 < p.pt2pt.length := List.length_pos_iff.mpr hne
  have hcen := centroids_ok p {} (by simp) (by simp) (by simpa using hlen)
  simp only [inliers_nil] at hcen
  have hm := mean_moved hT.pts hne
  rw [hm] at hcen htwo
  set ctL := mean (p.pt2pt.map (·.local)) with hctL
  unfold optimalTfOlae olaeBuild at h
  simp only [hcen, Outcome.bind_def, Outcome.pure_def, Outcome.bind_eq_ok, Outcome.assert_eq_ok] at h
  obtain ⟨_, _, _, _, _, _, _, hx, ⟨sys, outl⟩, ⟨o, ho, hsys⟩, hres⟩ := h
  cases hx
  obtain ⟨h1, h2, h3, h4, h5, v1, m1, v2, m2, h6⟩ := visit_exact hT hB hn he hthr htwo ho
  cases hsys
  rw [if_neg (by simp [h1])] at hres
  cases hres
  obtain ⟨q, A, a1, a2, a3, a4, a5⟩ := olae_form_visited hsq hT.rot h3 (h5 rfl hU) h4 h2 m1 m2 h6
  exact ⟨h1, q, A, ctL, a1, a2, a3, a4, by rw [← a5]⟩

/-- OLAE recovers noise-free motions. -/
theorem olae_exact {e : OlaeEnv K} (hsq : IsSqrt e.sqrt) (hsol : IsSolver e.solve) (hn : IsNorm e.norm) (he : 0 < e.eps)
    {p : Pairings K} {wp : WeightParams K} {T : Pose3 K} (hT : NoiseFree p T) (hB : BlocksCover p) (hU : UnitDirections p)
    (hc : ClearAxis T.R) (hthr : wp.useScaleOutlier = true → 1 ≤ wp.scaleThr)
    (htwo : TwoDirections p e.norm e.eps (mean (p.pt2pt.map (·.local))) (mean (p.pt2pt.map (·.global))))
    {res : TFResult K} (h : optimalTfOlae e p wp = .ok res) : res.pose = T ∧ res.outliers = [] := by
  obtain ⟨h1, q, A, ctL, a1, a2, a3, a4, a5⟩ := olae_form hsq hn he hT hB hU hthr htwo h
  refine ⟨?_, h1⟩
  rw [a5, olaeAttitude_exact hsq hsol a1 a3 a4 ((clearAxis_iff a1 a2).mp hc), a2]
  exact pose_of_exact

/-- Noise-free data, other rotations: the system chosen is a singular one. -/
theorem olae_tie {e : OlaeEnv K} (hsq : IsSqrt e.sqrt) (hn : IsNorm e.norm) (he : 0 < e.eps)
    {p : Pairings K} {wp : WeightParams K} {T : Pose3 K} (hT : NoiseFree p T) (hB : BlocksCover p) (hU : UnitDirections p)
    (hc : ¬ ClearAxis T.R) (hthr : wp.useScaleOutlier = true → 1 ≤ wp.scaleThr)
    (htwo : TwoDirections p e.norm e.eps (mean (p.pt2pt.map (·.local))) (mean (p.pt2pt.map (·.global))))
    {res : TFResult K} (h : optimalTfOlae e p wp = .ok res) :
    ∃ (M : M3 K) (v : P3 K), M.det = 0 ∧ res.pose.R = rotZpi.mul (gibbsQuat e.sqrt (e.solve M v)).toMatrix := by
  obtain ⟨_, q, A, ctL, a1, a2, a3, a4, a5⟩ := olae_form hsq hn he hT hB hU hthr htwo h
  rw [clearAxis_iff a1 a2, not_or] at hc
  obtain ⟨hc, hz⟩ := hc
  obtain ⟨d0, dx, dy, dz⟩ := olae_dets a1 a3 rfl
  have z3 : q.z * q.z = 0 := le_antisymm (not_lt.mp hz) (mul_self_nonneg _)
  set s := olaeSystems (axial (q.toMatrix.mul A)) (q.toMatrix.mul A) with hs
  have hd : 0 < |(coA A).det| := abs_pos.mpr a4
  have b0 : |s.M.det| = 8 * (q.r * q.r) * |(coA A).det| := by
    rw [d0, abs_mul, abs_mul, abs_of_nonneg (mul_self_nonneg q.r)]; norm_num
  have bx : |s.Mx.det| = 8 * (q.x * q.x) * |(coA A).det| := by
    rw [dx, abs_mul, abs_mul, abs_of_nonneg (mul_self_nonneg q.x)]; norm_num
  have by' : |s.My.det| = 8 * (q.y * q.y) * |(coA A).det| := by
    rw [dy, abs_mul, abs_mul, abs_of_nonneg (mul_self_nonneg q.y)]; norm_num
  have bz : |s.Mz.det| = 8 * (q.z * q.z) * |(coA A).det| := by
    rw [dz, abs_mul, abs_mul, abs_of_nonneg (mul_self_nonneg q.z)]; norm_num
  have lt_iff : ∀ u w : K, 8 * u * |(coA A).det| < 8 * w * |(coA A).det| ↔ u < w := by
    intro u w
    rw [mul_lt_mul_iff_of_pos_right hd]
    constructor <;> intro h <;> linarith
  refine ⟨s.Mz, s.vz, ?_, ?_⟩
  · rw [dz, z3]; simp
  · rw [a5]
    simp only [poseFromRot]
    unfold UniqueMax at hc
    simp only [not_or] at hc
    unfold olaeAttitude max3
    simp only [max_lt_iff, b0, bx, by', bz, lt_iff]
    rw [if_neg hc.1, if_neg hc.2.1, if_neg hc.2.2.1]

/-- Horn recovers noise-free motions, for all weights, kernels and kinds of pairings. -/
theorem horn_exact {e : HornEnv K} (heig : ∀ N, IsTopEigen N (e.eig N)) (hn : IsNorm e.norm) (he : 0 < e.eps)
    {p : Pairings K} {wp : WeightParams K} {T : Pose3 K} (hT : NoiseFree p T) (hB : BlocksCover p)
    (hthr : wp.useScaleOutlier = true → 1 ≤ wp.scaleThr)
    (htwo : TwoDirections p e.norm e.eps (mean (p.pt2pt.map (·.local))) (mean (p.pt2pt.map (·.global))))
    {res : TFResult K} (h : optimalTfHorn e p wp = .ok (some res)) : res.pose = T ∧ res.outliers = [] := by
  by_cases hne : p.pt2pt = []
  · exfalso
    unfold optimalTfHorn at h
    simp only [Outcome.bind_def, Outcome.pure_def, Outcome.bind_eq_ok, Outcome.assert_eq_ok] at h
    obtain ⟨_, _, _, _, _, _, _, hce, _⟩ := h
    simp [evalCentroidsRobust, hne, Outcome.assert, Outcome.bind] at hce
  have hlen : 0 < p.pt2pt.length := List.length_pos_iff.mpr hne
  have hcen := centroids_ok p {} (by simp) (by simp) (by simpa using hlen)
  simp only [inliers_nil] at hcen
  have hm := mean_moved hT.pts hne
  rw [hm] at hcen htwo
  set ctL := mean (p.pt2pt.map (·.local)) with hctL
  unfold optimalTfHorn at h
  simp only [hcen, Outcome.bind_def, Outcome.pure_def, Outcome.bind_eq_ok, Outcome.assert_eq_ok] at h
  obtain ⟨_, _, _, _, _, _, _, hx, ores, hse, hres⟩ := h
  cases hx
  cases ores with
  | none => simp at hres
  | some qo =>
    obtain ⟨q, outl⟩ := qo
    unfold se3L2Internal at hse
    simp only [Outcome.bind_def, Outcome.pure_def, Outcome.bind_eq_ok, Outcome.assert_eq_ok] at hse
    obtain ⟨_, _, _, _, hse⟩ := hse
    split at hse
    · simp at hse
    simp only [Outcome.bind_eq_ok] at hse
    obtain ⟨o, ho, hse⟩ := hse
    obtain ⟨h1, h2, h3, h4, _, v1, m1, v2, m2, h6⟩ := visit_exact hT hB hn he hthr htwo ho
    have htop := negQuat_top (heig (hornN (hornS o)))
    simp only [Outcome.ok.injEq, Option.some.injEq, Prod.mk.injEq] at hse
    obtain ⟨rfl, rfl⟩ := hse
    generalize (if (e.eig (hornN (hornS o))).r < 0 then
      (⟨-(e.eig (hornN (hornS o))).r, -(e.eig (hornN (hornS o))).x, -(e.eig (hornN (hornS o))).y,
        -(e.eig (hornN (hornS o))).z⟩ : Quat K) else e.eig (hornN (hornS o))) = q at htop hres
    simp only [h1, ne_eq, not_true_eq_false, and_false, if_false] at hres
    cases hres
    refine ⟨?_, rfl⟩
    have hz : attitudeCost o.visited T.R = 0 := by
      unfold attitudeCost
      apply List.sum_eq_zero
      intro x hx
      obtain ⟨v, hv, rfl⟩ := List.mem_map.mp hx
      rw [h3 v hv]
      simp [P3.distSq, P3.normSq, P3.dot]
    have hle := horn_attitude htop hT.rot
    rw [hz] at hle
    have hrot := top_rotation htop
    have hv : ∀ v ∈ o.visited, q.toMatrix.mulVec v.r = T.R.mulVec v.r := by
      intro v hv
      have hnn : ∀ x ∈ o.visited.map (fun v => v.w * P3.distSq (q.toMatrix.mulVec v.r) v.b), 0 ≤ x := by
        intro x hx
        obtain ⟨y, hy, rfl⟩ := List.mem_map.mp hx
        exact mul_nonneg (h4 y hy).le (distSq_nonneg _ _)
      have h7 := List.single_le_sum hnn _ (List.mem_map.mpr ⟨v, hv, rfl⟩)
      have h8 : v.w * P3.distSq (q.toMatrix.mulVec v.r) v.b = 0 :=
        le_antisymm (le_trans h7 hle) (mul_nonneg (h4 v hv).le (distSq_nonneg _ _))
      rw [← h3 v hv]
      exact distSq_eq_zero ((mul_eq_zero.mp h8).resolve_left (h4 v hv).ne')
    have hR : q.toMatrix = T.R := by
      refine eq_of_basis (a := v1.r) (b := v2.r) (c := P3.cross v1.r v2.r) ?_ (hv v1 m1) (hv v2 m2) ?_
      · intro hz0
        apply h6
        apply distSq_eq_zero
        simp only [P3.distSq, P3.normSq, P3.dot, P3.sub_x, P3.sub_y, P3.sub_z, P3.zero_x, P3.zero_y, P3.zero_z, sub_zero]
        exact hz0
      · rw [rot_cross hrot, rot_cross hT.rot, hv v1 m1, hv v2 m2]
    simp only
    rw [hR]
    exact pose_of_exact

end Verif.Lemmas
