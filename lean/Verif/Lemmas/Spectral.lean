import Verif.Spec.Solvers
import Mathlib.Analysis.Matrix.PosDef
import Mathlib.Topology.Order.Compact
import Mathlib.Analysis.InnerProductSpace.PiL2
import Mathlib.Analysis.Normed.Module.FiniteDimension
import Mathlib.Tactic.FieldSimp
import Mathlib.Tactic.Positivity
import Mathlib.Tactic.Ring
import Mathlib.Tactic.Linarith
import Mathlib.Tactic.LinearCombination
/-
Over the reals, the usual contract of an eigen-solver implies the variational one.
-/
namespace Verif.Lemmas
open Verif Verif.Spec Matrix

/-- `l I - N` as a Mathlib matrix. -/
noncomputable def shiftMat (N : Sym4 ℝ) (l : ℝ) : Matrix (Fin 4) (Fin 4) ℝ :=
  !![l - N.n00, -N.n01, -N.n02, -N.n03; -N.n01, l - N.n11, -N.n12, -N.n13;
     -N.n02, -N.n12, l - N.n22, -N.n23; -N.n03, -N.n13, -N.n23, l - N.n33]

theorem shiftMat_herm (N : Sym4 ℝ) (l : ℝ) : (shiftMat N l).IsHermitian := by
  ext i j
  fin_cases i <;> fin_cases j <;> simp [shiftMat]

theorem top_of_eigenvector {N : Sym4 ℝ} {v : Quat ℝ} (h : IsTopEigenvector N v) : IsTopEigen N v := by
  obtain ⟨hv, l, hl, hmax⟩ := h
  have hlam : dot4 v (N.mulVec v) = l := by
    rw [hl]
    have : dot4 v ⟨l * v.r, l * v.x, l * v.y, l * v.z⟩ = l * dot4 v v := by simp only [dot4]; ring
    rw [this, hv, mul_one]
  refine ⟨hv, fun u => ?_⟩
  rw [hlam]
  have hA := shiftMat_herm N l
  have hpsd : (shiftMat N l).PosSemidef := by
    rw [hA.posSemidef_iff_eigenvalues_nonneg]
    intro i
    have he := hA.mulVec_eigenvectorBasis i
    set w : Fin 4 → ℝ := ⇑(hA.eigenvectorBasis i) with hw
    have hne : w ≠ 0 := by
      intro h0
      have h1 := (hA.eigenvectorBasis).orthonormal.1 i
      have h2 : hA.eigenvectorBasis i = 0 := by
        ext j
        exact congrFun h0 j
      rw [h2, norm_zero] at h1
      exact zero_ne_one h1
    show 0 ≤ hA.eigenvalues i
    generalize hA.eigenvalues i = mu at he ⊢
    have c0 := congrFun he 0
    have c1 := congrFun he 1
    have c2 := congrFun he 2
    have c3 := congrFun he 3
    simp [shiftMat, Matrix.mulVec, dotProduct, Fin.sum_univ_four] at c0 c1 c2 c3
    have := hmax (l - mu) ⟨w 0, w 1, w 2, w 3⟩ ?_ ?_
    · linarith
    · intro hq
      apply hne
      simp only [Quat.mk.injEq] at hq
      funext j
      fin_cases j
      · exact hq.1
      · exact hq.2.1
      · exact hq.2.2.1
      · exact hq.2.2.2
    · simp only [Sym4.mulVec, Quat.mk.injEq]
      refine ⟨?_, ?_, ?_, ?_⟩
      · linear_combination -c0
      · linear_combination -c1
      · linear_combination -c2
      · linear_combination -c3
  have hq := hpsd.re_dotProduct_nonneg ![u.r, u.x, u.y, u.z]
  simp [shiftMat, Matrix.mulVec, dotProduct, Fin.sum_univ_four] at hq
  simp only [dot4, Sym4.mulVec]
  linarith

/-- The variational contract implies the usual one. -/
theorem eigenvector_of_top {N : Sym4 ℝ} {v : Quat ℝ} (h : IsTopEigen N v) : IsTopEigenvector N v := by
  obtain ⟨hv, hmax⟩ := h
  set l := dot4 v (N.mulVec v) with hl
  have hN : N.mulVec v = ⟨l * v.r, l * v.x, l * v.y, l * v.z⟩ := by
    set d : Quat ℝ := ⟨(N.mulVec v).r - l * v.r, (N.mulVec v).x - l * v.x, (N.mulVec v).y - l * v.y, (N.mulVec v).z - l * v.z⟩ with hd
    have key : ∀ t : ℝ, 2 * t * dot4 d d + t ^ 2 * (dot4 d (N.mulVec d) - l * dot4 d d) ≤ 0 := by
      intro t
      have h1 := hmax ⟨v.r + t * d.r, v.x + t * d.x, v.y + t * d.y, v.z + t * d.z⟩
      have h2 : dot4 ⟨v.r + t * d.r, v.x + t * d.x, v.y + t * d.y, v.z + t * d.z⟩
          (N.mulVec ⟨v.r + t * d.r, v.x + t * d.x, v.y + t * d.y, v.z + t * d.z⟩) =
          dot4 v (N.mulVec v) + 2 * t * dot4 d (N.mulVec v) + t ^ 2 * dot4 d (N.mulVec d) := by
        simp only [dot4, Sym4.mulVec]; ring
      have h3 : dot4 (⟨v.r + t * d.r, v.x + t * d.x, v.y + t * d.y, v.z + t * d.z⟩ : Quat ℝ)
          ⟨v.r + t * d.r, v.x + t * d.x, v.y + t * d.y, v.z + t * d.z⟩ = dot4 v v + 2 * t * dot4 d v + t ^ 2 * dot4 d d := by
        simp only [dot4]; ring
      have h4 : dot4 d d = dot4 d (N.mulVec v) - l * dot4 d v := by simp only [hd, dot4]; ring
      rw [h2, h3, hv, ← hl] at h1
      have h5 : 2 * t * dot4 d d = 2 * t * (dot4 d (N.mulVec v) - l * dot4 d v) := by rw [← h4]
      linarith
    have hdd : 0 ≤ dot4 d d := by simp only [dot4]; nlinarith [mul_self_nonneg d.r, mul_self_nonneg d.x, mul_self_nonneg d.y, mul_self_nonneg d.z]
    have hz : dot4 d d = 0 := by
      by_contra hne
      have hpos : 0 < dot4 d d := lt_of_le_of_ne hdd (Ne.symm hne)
      generalize dot4 d d = a at key hpos
      generalize dot4 d (N.mulVec d) - l * a = c at key
      rcases lt_trichotomy c 0 with hc | hc | hc
      · have := key (-(a / c))
        have e : 2 * (-(a / c)) * a + (-(a / c)) ^ 2 * c = -(a ^ 2 / c) := by field_simp; ring
        rw [e] at this
        have : 0 ≤ a ^ 2 / c := by linarith
        have h5 : a ^ 2 / c < 0 := div_neg_of_pos_of_neg (by positivity) hc
        linarith
      · have := key 1; rw [hc] at this; linarith
      · have := key 1; nlinarith
    have h0 : d.r = 0 ∧ d.x = 0 ∧ d.y = 0 ∧ d.z = 0 := by
      simp only [dot4] at hz
      have h1 := mul_self_nonneg d.r
      have h2 := mul_self_nonneg d.x
      have h3 := mul_self_nonneg d.y
      have h4 := mul_self_nonneg d.z
      refine ⟨?_, ?_, ?_, ?_⟩ <;> apply mul_self_eq_zero.mp <;> linarith
    obtain ⟨a1, a2, a3, a4⟩ := h0
    simp only [hd] at a1 a2 a3 a4
    ext <;> simp only <;> linarith
  refine ⟨hv, l, hN, ?_⟩
  intro m u hu hm
  have h1 := hmax u
  have h2 : dot4 u (N.mulVec u) = m * dot4 u u := by rw [hm]; simp only [dot4]; ring
  rw [h2] at h1
  have h3 : 0 < dot4 u u := by
    have g1 := mul_self_nonneg u.r
    have g2 := mul_self_nonneg u.x
    have g3 := mul_self_nonneg u.y
    have g4 := mul_self_nonneg u.z
    rcases lt_or_eq_of_le (show 0 ≤ dot4 u u by simp only [dot4]; linarith) with h | h
    · exact h
    · exfalso
      apply hu
      simp only [dot4] at h
      ext
      · exact mul_self_eq_zero.mp (by linarith)
      · exact mul_self_eq_zero.mp (by linarith)
      · exact mul_self_eq_zero.mp (by linarith)
      · exact mul_self_eq_zero.mp (by linarith)
  exact le_of_mul_le_mul_right h1 h3

/-- Over the reals the contract can be met: a maximiser exists. -/
theorem exists_top (N : Sym4 ℝ) : ∃ v, IsTopEigen N v := by
  let f : EuclideanSpace ℝ (Fin 4) → ℝ := fun u => dot4 ⟨u 0, u 1, u 2, u 3⟩ (N.mulVec ⟨u 0, u 1, u 2, u 3⟩)
  have hf : Continuous f := by
    simp only [f, dot4, Sym4.mulVec]
    fun_prop
  have hne : (Metric.sphere (0 : EuclideanSpace ℝ (Fin 4)) 1).Nonempty := by
    refine ⟨EuclideanSpace.single 0 1, ?_⟩
    simp
  obtain ⟨w, hw, hmax⟩ := (isCompact_sphere (0 : EuclideanSpace ℝ (Fin 4)) 1).exists_isMaxOn hne hf.continuousOn
  have hn : ∀ u : EuclideanSpace ℝ (Fin 4), ‖u‖ ^ 2 = dot4 ⟨u 0, u 1, u 2, u 3⟩ ⟨u 0, u 1, u 2, u 3⟩ := by
    intro u
    rw [EuclideanSpace.norm_sq_eq]
    simp [Fin.sum_univ_four, dot4, pow_two]
  refine ⟨⟨w 0, w 1, w 2, w 3⟩, ?_, ?_⟩
  · rw [← hn w, mem_sphere_zero_iff_norm.mp hw]; norm_num
  · intro u
    let U : EuclideanSpace ℝ (Fin 4) := !₂[u.r, u.x, u.y, u.z]
    have hU : dot4 u u = ‖U‖ ^ 2 := by rw [hn U]; simp [U]
    by_cases hz : ‖U‖ = 0
    · have h0 : U = 0 := norm_eq_zero.mp hz
      have e0 : u.r = 0 := by have := congrArg (fun z : EuclideanSpace ℝ (Fin 4) => z 0) h0; simpa [U] using this
      have e1 : u.x = 0 := by have := congrArg (fun z : EuclideanSpace ℝ (Fin 4) => z 1) h0; simpa [U] using this
      have e2 : u.y = 0 := by have := congrArg (fun z : EuclideanSpace ℝ (Fin 4) => z 2) h0; simpa [U] using this
      have e3 : u.z = 0 := by have := congrArg (fun z : EuclideanSpace ℝ (Fin 4) => z 3) h0; simpa [U] using this
      rw [hU, hz]
      simp [dot4, Sym4.mulVec, e0, e1, e2, e3]
    · have hpos : 0 < ‖U‖ := lt_of_le_of_ne (norm_nonneg _) (Ne.symm hz)
      have hm : (‖U‖⁻¹ • U) ∈ Metric.sphere (0 : EuclideanSpace ℝ (Fin 4)) 1 := by
        rw [mem_sphere_zero_iff_norm, norm_smul, norm_inv, norm_norm, inv_mul_cancel₀ hz]
      have h1 : f (‖U‖⁻¹ • U) ≤ f w := hmax hm
      have h2 : f (‖U‖⁻¹ • U) = (‖U‖⁻¹) ^ 2 * dot4 u (N.mulVec u) := by
        simp [f, U, dot4, Sym4.mulVec]; ring
      rw [h2] at h1
      rw [hU]
      have h3 : dot4 u (N.mulVec u) = ‖U‖ ^ 2 * ((‖U‖⁻¹) ^ 2 * dot4 u (N.mulVec u)) := by field_simp
      rw [h3, mul_comm (dot4 _ _)]
      exact mul_le_mul_of_nonneg_left h1 (by positivity)

end Verif.Lemmas
