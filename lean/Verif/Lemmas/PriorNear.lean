import Verif.Lemmas.ConvergeStep
import Verif.Props.Prior
/-
Lemmas for C120: one step of Gauss-Newton with a prior, near its mean.
-/
namespace Verif.Lemmas.Conv
open Verif Verif.Gn Verif.Spec Verif.Spec.GN Verif.Lemmas Verif.Lemmas.GnS Verif.Props

/-- One step of Gauss-Newton, for residuals that are linear in the difference to `p0` up to its square: where the matrix of the step is regular, quadratic convergence. -/
theorem step_quadratic_err {n m : Nat} (D : (Fin n → ℝ) → Matrix (Fin n) (Fin m) ℝ) (M : (Fin n → ℝ) → Matrix (Fin n) (Fin n) ℝ) (p0 : Fin n → ℝ)
    (hD : ContinuousAt D p0) (hM : ContinuousAt M p0) (hreg : ((D p0).transpose * M p0 * D p0).det ≠ 0) (C1 C2 C3 r2 : ℝ) (hC1 : 0 ≤ C1) (hC2 : 0 ≤ C2)
    (hC3 : 0 ≤ C3)
    (hr2 : 0 < r2) :
    ∃ C > 0, ∃ ρ > 0, ∀ p q : Fin n → ℝ, ∀ δ η ε : Fin m → ℝ, ‖p - p0‖ ≤ ρ →
      ‖p0 - p - (D p).mulVec η‖ ≤ C1 * ‖p - p0‖ ^ 2 →
      ((D p).transpose * M p * D p).mulVec δ = -((D p).transpose * M p).mulVec (p - p0) + ε → ‖ε‖ ≤ C3 * ‖p - p0‖ ^ 2 →
      (‖δ‖ ≤ r2 → ‖q - p - (D p).mulVec δ‖ ≤ C2 * ‖δ‖ ^ 2) →
      ‖q - p0‖ ≤ C * ‖p - p0‖ ^ 2 := by
  have hT : ContinuousAt (fun p => (D p).transpose) p0 := ContinuousAt.comp (g := fun A : Matrix (Fin n) (Fin m) ℝ => A.transpose) (continuous_id.matrix_transpose).continuousAt hD
  have hG : ContinuousAt (fun p => (D p).transpose * M p * D p) p0 := mulAt (mulAt hT hM) hD
  have hdet : ContinuousAt (fun p => ((D p).transpose * M p * D p).det) p0 := ContinuousAt.comp (g := fun A : Matrix (Fin m) (Fin m) ℝ => A.det) (continuous_id.matrix_det).continuousAt hG
  have hadj : ContinuousAt (fun p => ((D p).transpose * M p * D p).adjugate) p0 := ContinuousAt.comp (g := fun A : Matrix (Fin m) (Fin m) ℝ => A.adjugate) (continuous_id.matrix_adjugate).continuousAt hG
  have hL : ContinuousAt (fun p => (((D p).transpose * M p * D p).det)⁻¹ • ((D p).transpose * M p * D p).adjugate * ((D p).transpose * M p)) p0 :=
    mulAt (smulAt (hdet.inv₀ hreg) hadj) (mulAt hT hM)
  have hN : ContinuousAt (fun p => (((D p).transpose * M p * D p).det)⁻¹ • ((D p).transpose * M p * D p).adjugate) p0 :=
    smulAt (hdet.inv₀ hreg) hadj
  obtain ⟨k0, hk0, ρ0, hρ0, h0⟩ := bounded_near hN
  obtain ⟨k1, hk1, ρ1, hρ1, h1⟩ := bounded_near hL
  obtain ⟨k2, hk2, ρ2, hρ2, h2⟩ := bounded_near hD
  obtain ⟨ρ3, hρ3, h3⟩ : ∃ ρ > 0, ∀ x, ‖x - p0‖ ≤ ρ → ((D x).transpose * M x * D x).det ≠ 0 := by
    have := hdet.eventually (isOpen_ne.mem_nhds hreg)
    rw [Metric.eventually_nhds_iff] at this
    obtain ⟨ε, he, h⟩ := this
    exact ⟨ε / 2, by linarith, fun x hx => h (y := x) (by rw [dist_eq_norm]; linarith)⟩
  have hk : 0 < k1 + k0 * C3 := by positivity
  refine ⟨C2 * (k1 + k0 * C3) ^ 2 + C1 * (1 + k2 * k1) + k2 * (k0 * C3) + 1, by positivity,
    min (min (min ρ1 ρ2) (min ρ3 (r2 / (k1 + k0 * C3)))) (min ρ0 1), by positivity, ?_⟩
  intro p q δ η ε hp' hη hδ hε hq
  have hp := hp'.trans (min_le_left _ _)
  have hp0 : ‖p - p0‖ ≤ ρ0 := hp'.trans ((min_le_right _ _).trans (min_le_left _ _))
  have hp1 : ‖p - p0‖ ≤ 1 := hp'.trans ((min_le_right _ _).trans (min_le_right _ _))
  have hpa : ‖p - p0‖ ≤ ρ1 := hp.trans ((min_le_left _ _).trans (min_le_left _ _))
  have hpb : ‖p - p0‖ ≤ ρ2 := hp.trans ((min_le_left _ _).trans (min_le_right _ _))
  have hpc : ‖p - p0‖ ≤ ρ3 := hp.trans ((min_le_right _ _).trans (min_le_left _ _))
  have hpd : ‖p - p0‖ ≤ r2 / (k1 + k0 * C3) := hp.trans ((min_le_right _ _).trans (min_le_right _ _))
  set G := (D p).transpose * M p * D p with hGd
  set L := (G.det)⁻¹ • G.adjugate * ((D p).transpose * M p) with hLd
  have hdp := h3 p hpc
  have hinv : (G.det)⁻¹ • G.adjugate * G = 1 := by
    rw [Matrix.smul_mul, Matrix.adjugate_mul, smul_smul, inv_mul_cancel₀ hdp, one_smul]
  have hLD : L * D p = 1 := by rw [hLd, Matrix.mul_assoc, ← hGd, hinv]
  set N := (G.det)⁻¹ • G.adjugate with hNd
  have hδ' : δ = -L.mulVec (p - p0) + N.mulVec ε := by
    have := congrArg (fun v => N.mulVec v) hδ
    simp only [Matrix.mulVec_mulVec, hinv, Matrix.one_mulVec, Matrix.mulVec_neg, Matrix.mulVec_add] at this
    rw [this, hLd]
  have hnε : ‖N.mulVec ε‖ ≤ k0 * C3 * ‖p - p0‖ ^ 2 := by
    calc ‖N.mulVec ε‖ ≤ size N * ‖ε‖ := size_mulVec N ε
      _ ≤ k0 * (C3 * ‖p - p0‖ ^ 2) := mul_le_mul (h0 p hp0) hε (norm_nonneg _) hk0.le
      _ = k0 * C3 * ‖p - p0‖ ^ 2 := by ring
  have hsq1 : ‖p - p0‖ ^ 2 ≤ ‖p - p0‖ := by
    have := norm_nonneg (p - p0)
    nlinarith
  set s := p0 - p - (D p).mulVec η with hs
  have hδ2 : δ = η + L.mulVec s + N.mulVec ε := by
    have e : L.mulVec s = L.mulVec (p0 - p) - η := by
      rw [hs, Matrix.mulVec_sub, Matrix.mulVec_mulVec, hLD, Matrix.one_mulVec]
    rw [e, hδ', ← neg_sub p p0, Matrix.mulVec_neg]
    abel
  have hL1 := size_mulVec L (p - p0)
  have hnδ : ‖δ‖ ≤ (k1 + k0 * C3) * ‖p - p0‖ := by
    rw [hδ', add_mul]
    refine (norm_add_le _ _).trans (add_le_add ?_ (hnε.trans (mul_le_mul_of_nonneg_left hsq1 (by positivity))))
    rw [norm_neg]
    exact hL1.trans (mul_le_mul_of_nonneg_right (h1 p hpa) (norm_nonneg _))
  have hnδr : ‖δ‖ ≤ r2 := by
    refine hnδ.trans ?_
    calc (k1 + k0 * C3) * ‖p - p0‖ ≤ (k1 + k0 * C3) * (r2 / (k1 + k0 * C3)) := mul_le_mul_of_nonneg_left hpd hk.le
      _ = r2 := by field_simp
  have hr := hq hnδr
  have hsplit : q - p0 = (q - p - (D p).mulVec δ) - s + (D p).mulVec (L.mulVec s) + (D p).mulVec (N.mulVec ε) := by
    rw [hδ2, Matrix.mulVec_add, Matrix.mulVec_add, hs]
    abel
  have hDL : ‖(D p).mulVec (L.mulVec s)‖ ≤ k2 * (k1 * ‖s‖) := by
    refine (size_mulVec _ _).trans ?_
    refine mul_le_mul (h2 p hpb) ((size_mulVec L s).trans (mul_le_mul_of_nonneg_right (h1 p hpa) (norm_nonneg _))) (norm_nonneg _) hk2.le
  have hDN : ‖(D p).mulVec (N.mulVec ε)‖ ≤ k2 * (k0 * C3 * ‖p - p0‖ ^ 2) :=
    (size_mulVec _ _).trans (mul_le_mul (h2 p hpb) hnε (norm_nonneg _) hk2.le)
  have hsq : ‖δ‖ ^ 2 ≤ (k1 + k0 * C3) ^ 2 * ‖p - p0‖ ^ 2 := by
    rw [← mul_pow]
    exact pow_le_pow_left₀ (norm_nonneg _) hnδ 2
  have hx : 0 ≤ ‖p - p0‖ ^ 2 := by positivity
  calc ‖q - p0‖ ≤ ‖q - p - (D p).mulVec δ‖ + ‖s‖ + ‖(D p).mulVec (L.mulVec s)‖ + ‖(D p).mulVec (N.mulVec ε)‖ := by
        rw [hsplit]
        exact (norm_add_le _ _).trans (add_le_add_left ((norm_add_le _ _).trans (add_le_add_left (norm_sub_le _ _) _)) _)
    _ ≤ C2 * ((k1 + k0 * C3) ^ 2 * ‖p - p0‖ ^ 2) + C1 * ‖p - p0‖ ^ 2 + k2 * (k1 * (C1 * ‖p - p0‖ ^ 2)) + k2 * (k0 * C3 * ‖p - p0‖ ^ 2) := by
        refine add_le_add (add_le_add (add_le_add (hr.trans (mul_le_mul_of_nonneg_left hsq hC2)) hη) (hDL.trans ?_)) hDN
        exact mul_le_mul_of_nonneg_left (mul_le_mul_of_nonneg_left hη hk1.le) hk2.le
    _ ≤ (C2 * (k1 + k0 * C3) ^ 2 + C1 * (1 + k2 * k1) + k2 * (k0 * C3) + 1) * ‖p - p0‖ ^ 2 := by nlinarith

open Matrix in
/-- One step, from anywhere near, with a prior whose mean is the alignment: the distance to the alignment is squared. -/
theorem near_prior_step {E : Env ℝ} (hE : ∀ T, IsExpDeriv T (E.expJac T)) (hE2 : SecondOrderExp E) {P : Params ℝ} {inp : Pairings ℝ} {ws : List ℝ}
    {L : PriorEnv ℝ} {p : PriorPdf ℝ} (hT0 : IsRotation p.mean.R) (ha : ExactlyAligned inp p.mean) (S : SmoothPrior E L p.mean) (hΛ : Information p.inf)
    (hh : HoldsWith inp L p p.mean) (hlen : inp.pt2pt.length ≤ ws.length)
    (hws : ∀ w ∈ ws, 0 < w) (h1 : 0 < P.pairWeights.pt2ln) (h2 : 0 < P.pairWeights.pt2pl) (h3 : 0 < P.pairWeights.pl2pl)
    (hk : P.kernel = .none ∨ 0 < P.kernelParam) :
    ∃ C > 0, ∃ ρ > 0, ∀ (T : Pose3 ℝ) (δ : Fin 6 → ℝ), IsRotation T.R → gap T p.mean ≤ ρ →
      (system E (withPrior P L (some p)) inp ws T).1.mulVec δ = -(system E (withPrior P L (some p)) inp ws T).2 →
      gap (T.compose (E.exp δ)) p.mean ≤ C * gap T p.mean ^ 2 := by
  obtain ⟨M, hM⟩ := factored_system hE (P := withPrior P L none) ws hk ha rfl
  obtain ⟨c, hc, r, hr, hexp⟩ := hE2.near
  have hD : ∀ T, E.expJac T = se3ExpJac T := fun T => Lag.deriv_unique (hE T) (t' := T.t) (se3_deriv _)
  have hSD : ContinuousAt (fun x => (se3ExpJac (vecPose x)).transpose * ((S.slope x).transpose * p.inf)) (poseVec p.mean) := by
    have a1 : ContinuousAt (fun x => (se3ExpJac (vecPose x)).transpose) (poseVec p.mean) :=
      ContinuousAt.comp (g := fun A : Matrix (Fin 12) (Fin 6) ℝ => A.transpose) (continuous_id.matrix_transpose).continuousAt jac_continuous.continuousAt
    have a2 : ContinuousAt (fun x => (S.slope x).transpose) (poseVec p.mean) :=
      ContinuousAt.comp (g := fun A : Matrix (Fin 6) (Fin 12) ℝ => A.transpose) (continuous_id.matrix_transpose).continuousAt S.continuous
    exact mulAt a1 (mulAt a2 continuousAt_const)
  have hM2 : ContinuousAt (fun x => M x + (S.slope x).transpose * p.inf * S.slope x) (poseVec p.mean) := by
    have a2 : ContinuousAt (fun x => (S.slope x).transpose) (poseVec p.mean) :=
      ContinuousAt.comp (g := fun A : Matrix (Fin 6) (Fin 12) ℝ => A.transpose) (continuous_id.matrix_transpose).continuousAt S.continuous
    exact hM.cont.add (mulAt (mulAt a2 continuousAt_const) S.continuous)
  obtain ⟨k4, hk4, ρ4, hρ4, h4⟩ := bounded_near hSD
  have hmat : ∀ T : Pose3 ℝ, IsRotation T.R → gap T p.mean ≤ S.radius → (system E (withPrior P L (some p)) inp ws T).1 =
      (se3ExpJac T).transpose * (M (poseVec T) + (S.slope (poseVec T)).transpose * p.inf * S.slope (poseVec T)) * se3ExpJac T := by
    intro T hT hg
    have hm := hM.mat (poseVec T)
    simp only [vecPose_poseVec] at hm
    rw [system_prior, Prod.fst_add, hm]
    simp only [priorTerm, S.isSlope T hT hg, hD, Matrix.mul_add, Matrix.add_mul, Matrix.transpose_mul, Matrix.mul_assoc]
  have hg0 : gap p.mean p.mean ≤ S.radius := by
    have : gap p.mean p.mean = 0 := by simp [gap]
    rw [this]; exact S.positive.le
  have hdet : ((se3ExpJac (vecPose (poseVec p.mean))).transpose * (M (poseVec p.mean) + (S.slope (poseVec p.mean)).transpose * p.inf *
      S.slope (poseVec p.mean)) * se3ExpJac (vecPose (poseVec p.mean))).det ≠ 0 := by
    intro hz
    obtain ⟨v, hv, hz⟩ := Matrix.exists_mulVec_eq_zero_iff.mpr hz
    rw [vecPose_poseVec, ← hmat p.mean hT0 hg0] at hz
    have hq : v ⬝ᵥ (system E (withPrior P L (some p)) inp ws p.mean).1.mulVec v = 0 := by rw [hz, dotProduct_zero]
    rw [system_prior, Prod.fst_add, Matrix.add_mulVec, dotProduct_add] at hq
    have hn1 := (system_normal (E := E) (P := withPrior P L none) (ws := ws) ⟨fun w h => (hws w h).le, h1.le, h2.le, h3.le⟩ ha.noLines rfl p.mean).nonneg v
    have hn2 := (priorTerm_normal (L := L) hΛ p.mean).nonneg v
    have e1 : v ⬝ᵥ (system E (withPrior P L none) inp ws p.mean).1.mulVec v = 0 := by linarith
    have e2 : v ⬝ᵥ (priorTerm L p p.mean).1.mulVec v = 0 := by linarith
    rw [priorTerm_quad] at e2
    obtain ⟨a, b, rfl, hsl⟩ := system_slides (P := withPrior P L none) (hE p.mean) ha.noLines rfl hlen hws h1 h2 h3 hk v e1
    obtain ⟨rfl, rfl⟩ := hh a b hsl e2
    exact hv (by funext i; fin_cases i <;> rfl)
  obtain ⟨C, hC, ρ, hρ, h⟩ := step_quadratic_err (fun x => se3ExpJac (vecPose x)) (fun x => M x + (S.slope x).transpose * p.inf * S.slope x) (poseVec p.mean)
    jac_continuous.continuousAt hM2 hdet (9 / 2) c (k4 * S.curb) r (by norm_num) hc.le (mul_nonneg hk4.le S.curbNonneg) hr
  have hrad := S.positive
  refine ⟨C, hC, min ρ (min S.radius ρ4), by positivity, fun T δ hT hg hs => ?_⟩
  have hgρ : gap T p.mean ≤ ρ := hg.trans (min_le_left _ _)
  have hgr : gap T p.mean ≤ S.radius := hg.trans ((min_le_right _ _).trans (min_le_left _ _))
  have hg4 : gap T p.mean ≤ ρ4 := hg.trans ((min_le_right _ _).trans (min_le_right _ _))
  have hb := hM.rhs (poseVec T)
  simp only [vecPose_poseVec] at hb
  refine h (poseVec T) (poseVec (T.compose (E.exp δ))) δ (incTo T p.mean)
    (-((se3ExpJac T).transpose * ((S.slope (poseVec T)).transpose * p.inf)).mulVec
      (S.err (poseVec T) - (S.slope (poseVec T)).mulVec (poseVec T - poseVec p.mean))) hgρ ?_ ?_ ?_ ?_
  · simp only [vecPose_poseVec]
    exact incTo_rest hT hT0
  · rw [hmat T hT hgr] at hs
    simp only [vecPose_poseVec]
    rw [hs, system_prior, Prod.snd_add, hb]
    simp only [priorTerm, S.isSlope T hT hgr, S.isErr T hT hgr, hD, Matrix.mul_add, Matrix.add_mulVec, Matrix.transpose_mul, Matrix.mulVec_sub,
      Matrix.mulVec_mulVec, Matrix.mul_assoc, Matrix.neg_mulVec, neg_add_rev, neg_sub, Matrix.mulVec_neg]
    abel
  · rw [norm_neg]
    have h5 := h4 (poseVec T) hg4
    simp only [vecPose_poseVec] at h5
    calc _ ≤ _ := size_mulVec _ _
      _ ≤ k4 * (S.curb * ‖poseVec T - poseVec p.mean‖ ^ 2) := mul_le_mul h5 (S.second _ hgr) (norm_nonneg _) hk4.le
      _ = k4 * S.curb * ‖poseVec T - poseVec p.mean‖ ^ 2 := by ring
  · intro hδ
    have := hexp T hT δ hδ
    rw [hD] at this
    simpa only [vecPose_poseVec] using this

end Verif.Lemmas.Conv
