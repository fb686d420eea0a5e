import Mathlib.LinearAlgebra.Matrix.NonsingularInverse
import Mathlib.Algebra.Order.BigOperators.Group.List
import Mathlib.Tactic.Ring
import Mathlib.Tactic.LinearCombination
import Mathlib.Tactic.Linarith
import Mathlib.Tactic.FieldSimp
import Mathlib.Tactic.Positivity
import Verif.Spec.PointsEigen
import Verif.Lemmas.Decimate
import Verif.Lemmas.Poles
set_option linter.unusedSectionVars false
namespace Verif
namespace Eig
open Flt Vox
variable {K X : Type} [Field K]

/-! ### sums -/

theorem over_nil (f : P3 K → K) : over [] f = 0 := rfl
theorem over_cons (p : P3 K) (ps : List (P3 K)) (f : P3 K → K) : over (p :: ps) f = f p + over ps f := by
  simp [over]
theorem over_add (ps : List (P3 K)) (f g : P3 K → K) : over ps (fun p => f p + g p) = over ps f + over ps g := by
  induction ps with
  | nil => simp [over_nil]
  | cons p ps ih => simp only [over_cons, ih]; ring
theorem over_mul (ps : List (P3 K)) (c : K) (f : P3 K → K) : over ps (fun p => c * f p) = c * over ps f := by
  induction ps with
  | nil => simp [over_nil]
  | cons p ps ih => simp only [over_cons, ih]; ring
theorem over_const (ps : List (P3 K)) (c : K) : over ps (fun _ => c) = ps.length * c := by
  induction ps with
  | nil => simp [over_nil]
  | cons p ps ih => simp only [over_cons, ih, List.length_cons]; push_cast; ring
theorem over_congr {ps : List (P3 K)} {f g : P3 K → K} (h : ∀ p ∈ ps, f p = g p) : over ps f = over ps g := by
  unfold over; rw [List.map_congr_left h]
theorem over_map (ps : List (P3 K)) (t : P3 K → P3 K) (f : P3 K → K) : over (ps.map t) f = over ps fun p => f (t p) := by
  simp [over, Function.comp_def]
theorem over_perm {ps qs : List (P3 K)} (h : ps.Perm qs) (f : P3 K → K) : over ps f = over qs f := (h.map f).sum_eq

theorem sumPts_eq (ps : List (P3 K)) : sumPts ps = ⟨over ps (·.x), over ps (·.y), over ps (·.z)⟩ := by
  have h : ∀ s : P3 K, ps.foldl (fun s p => ⟨s.x + p.x, s.y + p.y, s.z + p.z⟩) s =
      ⟨s.x + over ps (·.x), s.y + over ps (·.y), s.z + over ps (·.z)⟩ := by
    induction ps with
    | nil => intro s; simp [over_nil]
    | cons p ps ih =>
      intro s
      rw [List.foldl_cons, ih]
      simp only [over_cons, P3.mk.injEq]
      refine ⟨?_, ?_, ?_⟩ <;> ring
  unfold sumPts
  rw [h]
  simp

theorem acc_eq (mean : P3 K) (ps : List (P3 K)) (s : Low K) : ps.foldl (accLow mean) s =
    ⟨s.a00 + over ps fun p => (p.x - mean.x) * (p.x - mean.x), s.a10 + over ps fun p => (p.x - mean.x) * (p.y - mean.y),
     s.a20 + over ps fun p => (p.x - mean.x) * (p.z - mean.z), s.a11 + over ps fun p => (p.y - mean.y) * (p.y - mean.y),
     s.a21 + over ps fun p => (p.y - mean.y) * (p.z - mean.z), s.a22 + over ps fun p => (p.z - mean.z) * (p.z - mean.z)⟩ := by
  induction ps generalizing s with
  | nil => simp [over_nil]
  | cons p ps ih =>
    rw [List.foldl_cons, ih]
    simp only [over_cons, accLow, Low.mk.injEq]
    refine ⟨?_, ?_, ?_, ?_, ?_, ?_⟩ <;> ring

theorem stats_mean_eq (ps : List (P3 K)) : (stats ps).1 = centroid ps := by
  simp only [stats, sumPts_eq, centroid, mul_one_div]

/-- an entry of the covariance -/
def covE (ps : List (P3 K)) (f g : P3 K → K) : K :=
  over ps (fun p => (f p - f (centroid ps)) * (g p - g (centroid ps))) / ps.length

theorem stats_cov_eq (ps : List (P3 K)) : (stats ps).2.full =
    ⟨covE ps (·.x) (·.x), covE ps (·.x) (·.y), covE ps (·.x) (·.z), covE ps (·.x) (·.y), covE ps (·.y) (·.y), covE ps (·.y) (·.z),
     covE ps (·.x) (·.z), covE ps (·.y) (·.z), covE ps (·.z) (·.z)⟩ := by
  simp only [stats, Low.full, acc_eq, sumPts_eq, centroid, zero_add, covE, mul_one_div]

theorem quad_form (ps : List (P3 K)) (u : P3 K) :
    u.dot ((stats ps).2.full.mulVec u) = toPlane ps (centroid ps) u / ps.length := by
  rw [stats_cov_eq]
  have : toPlane ps (centroid ps) u =
      u.x * u.x * over ps (fun p => (p.x - (centroid ps).x) * (p.x - (centroid ps).x)) +
      u.y * u.y * over ps (fun p => (p.y - (centroid ps).y) * (p.y - (centroid ps).y)) +
      u.z * u.z * over ps (fun p => (p.z - (centroid ps).z) * (p.z - (centroid ps).z)) +
      (2 * u.x * u.y) * over ps (fun p => (p.x - (centroid ps).x) * (p.y - (centroid ps).y)) +
      (2 * u.x * u.z) * over ps (fun p => (p.x - (centroid ps).x) * (p.z - (centroid ps).z)) +
      (2 * u.y * u.z) * over ps (fun p => (p.y - (centroid ps).y) * (p.z - (centroid ps).z)) := by
    simp only [← over_mul, ← over_add]
    unfold toPlane
    apply over_congr
    intro p _
    simp only [P3.dot, P3.sub_x, P3.sub_y, P3.sub_z]
    ring
  rw [this]
  simp only [M3.mulVec, P3.dot, covE]
  ring

/-! ### deviations from the centroid -/

theorem dev_sum [CharZero K] (ps : List (P3 K)) (hp : ps ≠ []) (u : P3 K) : over ps (fun p => u.dot (p - centroid ps)) = 0 := by
  have hn : (ps.length : K) ≠ 0 := by
    have := List.length_pos_iff.2 hp
    exact_mod_cast this.ne'
  have : over ps (fun p => u.dot (p - centroid ps)) =
      u.x * over ps (·.x) + u.y * over ps (·.y) + u.z * over ps (·.z) + over ps (fun _ => -u.dot (centroid ps)) := by
    simp only [← over_mul, ← over_add]
    apply over_congr
    intro p _
    simp only [P3.dot, P3.sub_x, P3.sub_y, P3.sub_z]
    ring
  rw [this, over_const]
  simp only [P3.dot, centroid]
  field_simp
  ring

/-- moving the plane away from the centroid -/
theorem toPlane_shift [CharZero K] (ps : List (P3 K)) (hp : ps ≠ []) (q u : P3 K) :
    toPlane ps q u = toPlane ps (centroid ps) u + ps.length * (u.dot (centroid ps - q) * u.dot (centroid ps - q)) := by
  have : toPlane ps q u = toPlane ps (centroid ps) u +
      (2 * u.dot (centroid ps - q)) * over ps (fun p => u.dot (p - centroid ps)) +
      over ps (fun _ => u.dot (centroid ps - q) * u.dot (centroid ps - q)) := by
    unfold toPlane
    simp only [← over_mul, ← over_add]
    apply over_congr
    intro p _
    simp only [P3.dot, P3.sub_x, P3.sub_y, P3.sub_z]
    ring
  rw [this, dev_sum ps hp, over_const]
  ring

theorem toPoint_planes (ps : List (P3 K)) (q : P3 K) :
    toPoint ps q = toPlane ps q ⟨1, 0, 0⟩ + toPlane ps q ⟨0, 1, 0⟩ + toPlane ps q ⟨0, 0, 1⟩ := by
  unfold toPoint toPlane
  simp only [← over_add]
  apply over_congr
  intro p _
  simp only [P3.normSq, P3.dot, P3.sub_x, P3.sub_y, P3.sub_z]
  ring

theorem toPoint_shift [CharZero K] (ps : List (P3 K)) (hp : ps ≠ []) (q : P3 K) :
    toPoint ps q = toPoint ps (centroid ps) + ps.length * (centroid ps - q).normSq := by
  simp only [toPoint_planes, toPlane_shift ps hp q]
  simp only [P3.normSq, P3.dot, P3.sub_x, P3.sub_y, P3.sub_z]
  ring

theorem toLine_eq (ps : List (P3 K)) (q w : P3 K) : toLine ps q w = toPoint ps q - toPlane ps q w := by
  have : toLine ps q w = toPoint ps q + (-1) * toPlane ps q w := by
    unfold toLine toPoint toPlane
    simp only [← over_mul, ← over_add]
    apply over_congr
    intro p _
    ring
  rw [this]; ring

/-! ### orthonormal vectors -/

/-- three orthonormal vectors are a basis: Parseval -/
theorem parseval {a b c : P3 K} (ha : a.normSq = 1) (hb : b.normSq = 1) (hc : c.normSq = 1) (hab : a.dot b = 0)
    (hac : a.dot c = 0) (hbc : b.dot c = 0) (u v : P3 K) :
    u.dot v = u.dot a * v.dot a + u.dot b * v.dot b + u.dot c * v.dot c := by
  let A : Matrix (Fin 3) (Fin 3) K := !![a.x, a.y, a.z; b.x, b.y, b.z; c.x, c.y, c.z]
  have h1 : A * A.transpose = 1 := by
    simp only [P3.normSq, P3.dot] at *
    ext i j
    fin_cases i <;> fin_cases j <;> simp [A, Matrix.mul_apply, Fin.sum_univ_three]
    · exact ha
    · exact hab
    · exact hac
    · linear_combination hab
    · exact hb
    · exact hbc
    · linear_combination hac
    · linear_combination hbc
    · exact hc
  have h2 : A.transpose * A = 1 := mul_eq_one_comm.1 h1
  have e : ∀ i j, (A.transpose * A) i j = (1 : Matrix (Fin 3) (Fin 3) K) i j := fun i j => by rw [h2]
  have e00 := e 0 0
  have e11 := e 1 1
  have e22 := e 2 2
  have e01 := e 0 1
  have e02 := e 0 2
  have e12 := e 1 2
  simp [A, Matrix.mul_apply, Fin.sum_univ_three] at e00 e11 e22 e01 e02 e12
  simp only [P3.dot]
  linear_combination -(u.x * v.x) * e00 - (u.y * v.y) * e11 - (u.z * v.z) * e22 - (u.x * v.y + u.y * v.x) * e01 -
    (u.x * v.z + u.z * v.x) * e02 - (u.y * v.z + u.z * v.y) * e12

section ordered
variable [LinearOrder K] [IsStrictOrderedRing K]

theorem quad_eig {M : M3 K} {d : EigDec K} (h : IsEig M d) (hs : SymM M) (u : P3 K) :
    u.dot (M.mulVec u) = d.vals.1 * (u.dot d.vecs.1 * u.dot d.vecs.1) + d.vals.2.1 * (u.dot d.vecs.2.1 * u.dot d.vecs.2.1) +
      d.vals.2.2 * (u.dot d.vecs.2.2 * u.dot d.vecs.2.2) := by
  have hsym : ∀ a b : P3 K, (M.mulVec a).dot b = a.dot (M.mulVec b) := by
    intro a b
    have h0 : M.a01 = M.a10 := by have := congrArg M3.a10 hs; exact this
    have h1 : M.a02 = M.a20 := by have := congrArg M3.a20 hs; exact this
    have h2 : M.a12 = M.a21 := by have := congrArg M3.a21 hs; exact this
    simp only [M3.mulVec, P3.dot]
    rw [h0, h1, h2]; ring
  have hp := parseval h.unit.1 h.unit.2.1 h.unit.2.2 h.ortho.1 h.ortho.2.1 h.ortho.2.2 u (M.mulVec u)
  rw [hp, hsym u d.vecs.1, hsym u d.vecs.2.1, hsym u d.vecs.2.2, h.eq0, h.eq1, h.eq2]
  simp only [P3.dot, P3.smul_x, P3.smul_y, P3.smul_z]
  ring

theorem rayleigh {M : M3 K} {d : EigDec K} (h : IsEig M d) (hs : SymM M) (u : P3 K) :
    d.vals.1 * u.normSq ≤ u.dot (M.mulVec u) ∧ u.dot (M.mulVec u) ≤ d.vals.2.2 * u.normSq := by
  rw [quad_eig h hs u]
  have hn : u.normSq = _ := parseval h.unit.1 h.unit.2.1 h.unit.2.2 h.ortho.1 h.ortho.2.1 h.ortho.2.2 u u
  rw [hn]
  obtain ⟨s1, s2⟩ := h.sorted
  have q0 := mul_self_nonneg (u.dot d.vecs.1)
  have q1 := mul_self_nonneg (u.dot d.vecs.2.1)
  have q2 := mul_self_nonneg (u.dot d.vecs.2.2)
  constructor <;> nlinarith

/-- the value of the form at the eigenvectors -/
theorem quad_at {M : M3 K} {d : EigDec K} (h : IsEig M d) :
    d.vecs.1.dot (M.mulVec d.vecs.1) = d.vals.1 ∧ d.vecs.2.1.dot (M.mulVec d.vecs.2.1) = d.vals.2.1 ∧
      d.vecs.2.2.dot (M.mulVec d.vecs.2.2) = d.vals.2.2 := by
  have hk : ∀ (v : P3 K) (l : K), v.normSq = 1 → v.dot (v.smul l) = l := by
    intro v l hv
    simp only [P3.normSq, P3.dot] at hv
    simp only [P3.dot, P3.smul_x, P3.smul_y, P3.smul_z]
    linear_combination l * hv
  rw [h.eq0, h.eq1, h.eq2]
  exact ⟨hk _ _ h.unit.1, hk _ _ h.unit.2.1, hk _ _ h.unit.2.2⟩

theorem over_nonneg (ps : List (P3 K)) (f : P3 K → K) (h : ∀ p ∈ ps, 0 ≤ f p) : 0 ≤ over ps f := by
  unfold over
  apply List.sum_nonneg
  intro x hx
  obtain ⟨p, hp, rfl⟩ := List.mem_map.1 hx
  exact h p hp

theorem over_eq_zero (ps : List (P3 K)) (f : P3 K → K) (h : ∀ p ∈ ps, 0 ≤ f p) (h0 : over ps f = 0) : ∀ p ∈ ps, f p = 0 := by
  induction ps with
  | nil => intro p hp; cases hp
  | cons a ps ih =>
    rw [over_cons] at h0
    have h1 := h a (List.mem_cons_self ..)
    have h2 := over_nonneg ps f fun p hp => h p (List.mem_cons_of_mem _ hp)
    intro p hp
    rcases List.mem_cons.1 hp with rfl | hp
    · linarith
    · exact ih (fun p hp => h p (List.mem_cons_of_mem _ hp)) (by linarith) p hp

theorem toPlane_nonneg (ps : List (P3 K)) (q u : P3 K) : 0 ≤ toPlane ps q u :=
  over_nonneg _ _ fun p _ => mul_self_nonneg _

end ordered
end Eig
end Verif
