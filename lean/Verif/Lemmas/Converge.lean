import Verif.Lemmas.Laguerre
import Verif.Props.GnShift
import Mathlib.Topology.Instances.Matrix
import Mathlib.Analysis.Normed.Group.Constructions
import Mathlib.LinearAlgebra.Matrix.NonsingularInverse
import Mathlib.LinearAlgebra.Matrix.ToLinearEquiv
import Mathlib.Topology.Algebra.Order.Field
/-
Lemmas for C116: local convergence of Gauss-Newton.
-/
namespace Verif.Lemmas.Conv
open Verif Verif.Gn Verif.Spec Verif.Spec.GN Verif.Lemmas Verif.Lemmas.GnS Verif.Props

/-- Sum of the absolute values of the entries. -/
def size {n m : Nat} (A : Matrix (Fin n) (Fin m) ℝ) : ℝ := ∑ i, ∑ j, |A i j|

theorem size_nonneg {n m : Nat} (A : Matrix (Fin n) (Fin m) ℝ) : 0 ≤ size A :=
  Finset.sum_nonneg fun _ _ => Finset.sum_nonneg fun _ _ => abs_nonneg _

theorem size_mulVec {n m : Nat} (A : Matrix (Fin n) (Fin m) ℝ) (v : Fin m → ℝ) : ‖A.mulVec v‖ ≤ size A * ‖v‖ := by
  rw [pi_norm_le_iff_of_nonneg (mul_nonneg (size_nonneg A) (norm_nonneg v))]
  intro i
  have h1 : ‖A.mulVec v i‖ ≤ ∑ j, |A i j| * ‖v‖ := by
    show ‖∑ j, A i j * v j‖ ≤ _
    refine (norm_sum_le Finset.univ fun j => A i j * v j).trans (Finset.sum_le_sum fun j _ => ?_)
    rw [norm_mul, Real.norm_eq_abs]
    exact mul_le_mul_of_nonneg_left (norm_le_pi_norm v j) (abs_nonneg _)
  refine h1.trans ?_
  rw [← Finset.sum_mul]
  refine mul_le_mul_of_nonneg_right ?_ (norm_nonneg v)
  exact Finset.single_le_sum (f := fun i => ∑ j, |A i j|) (fun i _ => Finset.sum_nonneg fun _ _ => abs_nonneg _) (Finset.mem_univ i)

theorem size_continuous {n m : Nat} : Continuous (size (n := n) (m := m)) := by
  unfold size
  exact continuous_finsetSum _ fun i _ => continuous_finsetSum _ fun j _ => (continuous_id.matrix_elem i j).abs

theorem mulAt {n m l k : Nat} {f : (Fin k → ℝ) → Matrix (Fin n) (Fin m) ℝ} {g : (Fin k → ℝ) → Matrix (Fin m) (Fin l) ℝ} {p : Fin k → ℝ}
    (hf : ContinuousAt f p) (hg : ContinuousAt g p) : ContinuousAt (fun x => f x * g x) p := by
  have : Continuous fun q : Matrix (Fin n) (Fin m) ℝ × Matrix (Fin m) (Fin l) ℝ => q.1 * q.2 := continuous_fst.matrix_mul continuous_snd
  exact ContinuousAt.comp (g := fun q : Matrix (Fin n) (Fin m) ℝ × Matrix (Fin m) (Fin l) ℝ => q.1 * q.2) this.continuousAt (hf.prodMk hg)

theorem smulAt {n m k : Nat} {c : (Fin k → ℝ) → ℝ} {f : (Fin k → ℝ) → Matrix (Fin n) (Fin m) ℝ} {p : Fin k → ℝ}
    (hc : ContinuousAt c p) (hf : ContinuousAt f p) : ContinuousAt (fun x => c x • f x) p := hc.smul hf

/-- Near a point where it is continuous, a matrix is bounded. -/
theorem bounded_near {n m k : Nat} {f : (Fin k → ℝ) → Matrix (Fin n) (Fin m) ℝ} {p : Fin k → ℝ} (hf : ContinuousAt f p) :
    ∃ c > 0, ∃ ρ > 0, ∀ x, ‖x - p‖ ≤ ρ → size (f x) ≤ c := by
  have h1 : ContinuousAt (fun x => size (f x)) p := ContinuousAt.comp (g := size (n := n) (m := m)) size_continuous.continuousAt hf
  have h2 := h1.eventually (gt_mem_nhds (show size (f p) < size (f p) + 1 by linarith))
  rw [Metric.eventually_nhds_iff] at h2
  obtain ⟨ε, he, h2⟩ := h2
  refine ⟨size (f p) + 1, by have := size_nonneg (f p); linarith, ε / 2, by linarith, fun x hx => ?_⟩
  exact (h2 (y := x) (by rw [dist_eq_norm]; linarith)).le

/-- One step of Gauss-Newton, for residuals that are linear in the difference to `p0`: where the matrix of the step is regular, quadratic convergence. -/
theorem step_quadratic {n m : Nat} (D : (Fin n → ℝ) → Matrix (Fin n) (Fin m) ℝ) (M : (Fin n → ℝ) → Matrix (Fin n) (Fin n) ℝ) (p0 : Fin n → ℝ)
    (hD : ContinuousAt D p0) (hM : ContinuousAt M p0) (hreg : ((D p0).transpose * M p0 * D p0).det ≠ 0) (C1 C2 r2 : ℝ) (hC1 : 0 ≤ C1) (hC2 : 0 ≤ C2)
    (hr2 : 0 < r2) :
    ∃ C > 0, ∃ ρ > 0, ∀ p q : Fin n → ℝ, ∀ δ η : Fin m → ℝ, ‖p - p0‖ ≤ ρ →
      ‖p0 - p - (D p).mulVec η‖ ≤ C1 * ‖p - p0‖ ^ 2 →
      ((D p).transpose * M p * D p).mulVec δ = -((D p).transpose * M p).mulVec (p - p0) →
      (‖δ‖ ≤ r2 → ‖q - p - (D p).mulVec δ‖ ≤ C2 * ‖δ‖ ^ 2) →
      ‖q - p0‖ ≤ C * ‖p - p0‖ ^ 2 := by
  have hT : ContinuousAt (fun p => (D p).transpose) p0 := ContinuousAt.comp (g := fun A : Matrix (Fin n) (Fin m) ℝ => A.transpose) (continuous_id.matrix_transpose).continuousAt hD
  have hG : ContinuousAt (fun p => (D p).transpose * M p * D p) p0 := mulAt (mulAt hT hM) hD
  have hdet : ContinuousAt (fun p => ((D p).transpose * M p * D p).det) p0 := ContinuousAt.comp (g := fun A : Matrix (Fin m) (Fin m) ℝ => A.det) (continuous_id.matrix_det).continuousAt hG
  have hadj : ContinuousAt (fun p => ((D p).transpose * M p * D p).adjugate) p0 := ContinuousAt.comp (g := fun A : Matrix (Fin m) (Fin m) ℝ => A.adjugate) (continuous_id.matrix_adjugate).continuousAt hG
  have hL : ContinuousAt (fun p => (((D p).transpose * M p * D p).det)⁻¹ • ((D p).transpose * M p * D p).adjugate * ((D p).transpose * M p)) p0 :=
    mulAt (smulAt (hdet.inv₀ hreg) hadj) (mulAt hT hM)
  obtain ⟨k1, hk1, ρ1, hρ1, h1⟩ := bounded_near hL
  obtain ⟨k2, hk2, ρ2, hρ2, h2⟩ := bounded_near hD
  obtain ⟨ρ3, hρ3, h3⟩ : ∃ ρ > 0, ∀ x, ‖x - p0‖ ≤ ρ → ((D x).transpose * M x * D x).det ≠ 0 := by
    have := hdet.eventually (isOpen_ne.mem_nhds hreg)
    rw [Metric.eventually_nhds_iff] at this
    obtain ⟨ε, he, h⟩ := this
    exact ⟨ε / 2, by linarith, fun x hx => h (y := x) (by rw [dist_eq_norm]; linarith)⟩
  refine ⟨C2 * k1 ^ 2 + C1 * (1 + k2 * k1) + 1, by positivity, min (min ρ1 ρ2) (min ρ3 (r2 / k1)), by positivity, ?_⟩
  intro p q δ η hp hη hδ hq
  have hpa : ‖p - p0‖ ≤ ρ1 := hp.trans ((min_le_left _ _).trans (min_le_left _ _))
  have hpb : ‖p - p0‖ ≤ ρ2 := hp.trans ((min_le_left _ _).trans (min_le_right _ _))
  have hpc : ‖p - p0‖ ≤ ρ3 := hp.trans ((min_le_right _ _).trans (min_le_left _ _))
  have hpd : ‖p - p0‖ ≤ r2 / k1 := hp.trans ((min_le_right _ _).trans (min_le_right _ _))
  set G := (D p).transpose * M p * D p with hGd
  set L := (G.det)⁻¹ • G.adjugate * ((D p).transpose * M p) with hLd
  have hdp := h3 p hpc
  have hinv : (G.det)⁻¹ • G.adjugate * G = 1 := by
    rw [Matrix.smul_mul, Matrix.adjugate_mul, smul_smul, inv_mul_cancel₀ hdp, one_smul]
  have hLD : L * D p = 1 := by rw [hLd, Matrix.mul_assoc, ← hGd, hinv]
  have hδ' : δ = -L.mulVec (p - p0) := by
    have := congrArg (fun v => ((G.det)⁻¹ • G.adjugate).mulVec v) hδ
    simp only [Matrix.mulVec_mulVec, hinv, Matrix.one_mulVec, Matrix.mulVec_neg] at this
    rw [this, hLd]
  set s := p0 - p - (D p).mulVec η with hs
  have hδ2 : δ = η + L.mulVec s := by
    have e : L.mulVec s = L.mulVec (p0 - p) - η := by
      rw [hs, Matrix.mulVec_sub, Matrix.mulVec_mulVec, hLD, Matrix.one_mulVec]
    rw [e, hδ', ← neg_sub p p0, Matrix.mulVec_neg]
    abel
  have hL1 := size_mulVec L (p - p0)
  have hnδ : ‖δ‖ ≤ k1 * ‖p - p0‖ := by
    rw [hδ', norm_neg]
    exact hL1.trans (mul_le_mul_of_nonneg_right (h1 p hpa) (norm_nonneg _))
  have hnδr : ‖δ‖ ≤ r2 := by
    refine hnδ.trans ?_
    calc k1 * ‖p - p0‖ ≤ k1 * (r2 / k1) := mul_le_mul_of_nonneg_left hpd hk1.le
      _ = r2 := by field_simp
  have hr := hq hnδr
  have hsplit : q - p0 = (q - p - (D p).mulVec δ) - s + (D p).mulVec (L.mulVec s) := by
    rw [hδ2, Matrix.mulVec_add, hs]
    abel
  have hDL : ‖(D p).mulVec (L.mulVec s)‖ ≤ k2 * (k1 * ‖s‖) := by
    refine (size_mulVec _ _).trans ?_
    refine mul_le_mul (h2 p hpb) ((size_mulVec L s).trans (mul_le_mul_of_nonneg_right (h1 p hpa) (norm_nonneg _))) (norm_nonneg _) hk2.le
  have hsq : ‖δ‖ ^ 2 ≤ k1 ^ 2 * ‖p - p0‖ ^ 2 := by
    rw [← mul_pow]
    exact pow_le_pow_left₀ (norm_nonneg _) hnδ 2
  have hx : 0 ≤ ‖p - p0‖ ^ 2 := by positivity
  calc ‖q - p0‖ ≤ ‖q - p - (D p).mulVec δ‖ + ‖s‖ + ‖(D p).mulVec (L.mulVec s)‖ := by
        rw [hsplit]
        exact (norm_add_le _ _).trans (add_le_add_left (norm_sub_le _ _) _)
    _ ≤ C2 * (k1 ^ 2 * ‖p - p0‖ ^ 2) + C1 * ‖p - p0‖ ^ 2 + k2 * (k1 * (C1 * ‖p - p0‖ ^ 2)) := by
        refine add_le_add (add_le_add (hr.trans (mul_le_mul_of_nonneg_left hsq hC2)) hη) (hDL.trans ?_)
        exact mul_le_mul_of_nonneg_left (mul_le_mul_of_nonneg_left hη hk1.le) hk2.le
    _ ≤ (C2 * k1 ^ 2 + C1 * (1 + k2 * k1) + 1) * ‖p - p0‖ ^ 2 := by nlinarith

end Verif.Lemmas.Conv
