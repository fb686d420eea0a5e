import Verif.Lemmas.ConvergeExp
import Verif.Props.GnSteps
/-
Lemmas for C116: one step of Gauss-Newton near an exact alignment.
-/
namespace Verif.Lemmas.Conv
open Verif Verif.Gn Verif.Spec Verif.Spec.GN Verif.Lemmas Verif.Lemmas.GnS Verif.Props

/-- A residual that vanishes at `T0` is linear in the difference of the entries. -/
theorem residual_linear {n : Nat} {f : Pose3 ℝ → Fin n → ℝ} {J : Matrix (Fin n) (Fin 12) ℝ} {T0 : Pose3 ℝ} (hx : ExactChange f J T0) (h0 : f T0 = 0)
    (T : Pose3 ℝ) : f T = J.mulVec (poseVec T - poseVec T0) := by
  funext i
  have := hx (poseDiff T0 T) i
  rw [perturb_diff, poseVec_diff, h0] at this
  simpa using this

/-- The weight matrix of one residual, at the entries `x`. -/
noncomputable def weightMat {n : Nat} (P : Params ℝ) (w : ℝ) (J : Matrix (Fin n) (Fin 12) ℝ) (p0 x : Fin 12 → ℝ) : Matrix (Fin 12) (Fin 12) ℝ :=
  robust P w (J.mulVec (x - p0)) • (J.transpose * J)

theorem weightMat_cont {n : Nat} {P : Params ℝ} (hk : P.kernel = .none ∨ 0 < P.kernelParam) (w : ℝ) (J : Matrix (Fin n) (Fin 12) ℝ) (p0 : Fin 12 → ℝ) :
    ContinuousAt (weightMat P w J p0) p0 := by
  unfold weightMat robust
  have hs : Continuous fun x : Fin 12 → ℝ => sqLen (J.mulVec (x - p0)) := by
    unfold sqLen Matrix.mulVec dotProduct
    fun_prop
  have h0 : sqLen (J.mulVec (p0 - p0)) = 0 := by simp [sqLen]
  have hf : ContinuousAt (fun x : Fin 12 → ℝ => kernelFactor P.kernel P.kernelParam (sqLen (J.mulVec (x - p0)))) p0 := by
    unfold kernelFactor
    rcases hk with hk | hk
    · rw [hk]; exact continuousAt_const
    · cases P.kernel with
      | none => exact continuousAt_const
      | gemanMcClure =>
        refine ContinuousAt.div continuousAt_const ((hs.continuousAt.add continuousAt_const).pow 2) ?_
        rw [h0, zero_add]; positivity
      | cauchy =>
        refine ContinuousAt.div continuousAt_const (hs.continuousAt.add continuousAt_const) ?_
        rw [h0, zero_add]; positivity
  exact (continuousAt_const.mul hf).smul continuousAt_const

/-- Normal equations of the whole problem in terms of the entries. -/
structure Factored (t : (Fin 12 → ℝ) → Sys ℝ) (M : (Fin 12 → ℝ) → Matrix (Fin 12) (Fin 12) ℝ) (p0 : Fin 12 → ℝ) : Prop where
  mat : ∀ x, (t x).1 = (se3ExpJac (vecPose x)).transpose * M x * se3ExpJac (vecPose x)
  rhs : ∀ x, (t x).2 = ((se3ExpJac (vecPose x)).transpose * M x).mulVec (x - p0)
  cont : ContinuousAt M p0

theorem factored_zero (p0 : Fin 12 → ℝ) : Factored (fun _ => 0) (fun _ => 0) p0 :=
  ⟨fun x => by simp, fun x => by simp, continuousAt_const⟩

theorem factored_add {t t' : (Fin 12 → ℝ) → Sys ℝ} {M M' : (Fin 12 → ℝ) → Matrix (Fin 12) (Fin 12) ℝ} {p0 : Fin 12 → ℝ} (h : Factored t M p0)
    (h' : Factored t' M' p0) : Factored (fun x => t x + t' x) (fun x => M x + M' x) p0 := by
  refine ⟨fun x => ?_, fun x => ?_, h.cont.add h'.cont⟩
  · rw [Prod.fst_add, h.mat, h'.mat, Matrix.mul_add, Matrix.add_mul]
  · rw [Prod.snd_add, h.rhs, h'.rhs, Matrix.mul_add, Matrix.add_mulVec]

theorem factored_term {E : Env ℝ} (hE : ∀ T, IsExpDeriv T (E.expJac T)) {P : Params ℝ} (hk : P.kernel = .none ∨ 0 < P.kernelParam) (w : ℝ) {n : Nat}
    {f : Pose3 ℝ → Fin n → ℝ} {J : Matrix (Fin n) (Fin 12) ℝ} {T0 : Pose3 ℝ} (hx : ExactChange f J T0) (h0 : f T0 = 0) :
    Factored (fun x => term (E.expJac (vecPose x)) (robust P w (f (vecPose x))) J (f (vecPose x))) (weightMat P w J (poseVec T0)) (poseVec T0) := by
  have hD : ∀ x, E.expJac (vecPose x) = se3ExpJac (vecPose x) := fun x => Lag.deriv_unique (hE (vecPose x)) (t' := (vecPose x).t) (se3_deriv _)
  have hf : ∀ x, f (vecPose x) = J.mulVec (x - poseVec T0) := fun x => by rw [residual_linear hx h0, poseVec_vecPose]
  refine ⟨fun x => ?_, fun x => ?_, weightMat_cont hk w J _⟩
  · simp only [term, hD, hf, weightMat, Matrix.transpose_mul, Matrix.mul_smul, Matrix.smul_mul, Matrix.mul_assoc]
  · simp only [term, hD, hf, weightMat, Matrix.transpose_mul, Matrix.mul_smul, Matrix.smul_mulVec, Matrix.mulVec_mulVec, Matrix.mul_assoc]

theorem factored_list {α : Type} (l : List α) (t : α → (Fin 12 → ℝ) → Sys ℝ) (M : α → (Fin 12 → ℝ) → Matrix (Fin 12) (Fin 12) ℝ) {p0 : Fin 12 → ℝ}
    (h : ∀ a ∈ l, Factored (t a) (M a) p0) : ∃ M', Factored (fun x => (l.map fun a => t a x).sum) M' p0 := by
  induction l with
  | nil => exact ⟨_, factored_zero p0⟩
  | cons a l ih =>
    obtain ⟨M', hM⟩ := ih fun b hb => h b (List.mem_cons_of_mem _ hb)
    exact ⟨_, by simpa only [List.map_cons, List.sum_cons] using factored_add (h a (List.mem_cons_self ..)) hM⟩

theorem factored_system {E : Env ℝ} (hE : ∀ T, IsExpDeriv T (E.expJac T)) {P : Params ℝ} {inp : Pairings ℝ} (ws : List ℝ) {T0 : Pose3 ℝ}
    (hk : P.kernel = .none ∨ 0 < P.kernelParam) (ha : ExactlyAligned inp T0) (hprior : P.prior = none) :
    ∃ M, Factored (fun x => system E P inp ws (vecPose x)) M (poseVec T0) := by
  obtain ⟨M1, h1⟩ := factored_list (inp.pt2pt.zip ws) _ _ fun q hq =>
    factored_term hE hk q.2 (pt2pt_exact q.1 T0) (shift_aligned_pt (ha.pts q.1 (List.of_mem_zip hq).1))
  obtain ⟨M2, h2⟩ := factored_list inp.pt2ln _ _ fun q hq =>
    factored_term hE hk P.pairWeights.pt2ln (pt2ln_exact q T0) (shift_aligned_ln (ha.lns q hq).1 (ha.lns q hq).2)
  obtain ⟨M3, h3⟩ := factored_list inp.pt2pl _ _ fun q hq =>
    factored_term hE hk P.pairWeights.pt2pl (pt2pl_exact q T0) (shift_aligned_pl (ha.pls q hq))
  obtain ⟨M4, h4⟩ := factored_list inp.pl2pl _ _ fun q hq =>
    factored_term hE hk P.pairWeights.pl2pl (pl2pl_exact q T0) (shift_aligned_nm (ha.nms q hq))
  have h := factored_add h1 (factored_add (factored_add h2 h3) h4)
  refine ⟨fun x => M1 x + (M2 x + M3 x + M4 x), ?_⟩
  simpa only [system, pointPart, otherPart, hprior, ha.noLines, List.map_nil, List.sum_nil, Option.elim_none, add_zero] using h

/-- One step, from anywhere near: the distance to the alignment is squared. -/
theorem near_step {E : Env ℝ} (hE : ∀ T, IsExpDeriv T (E.expJac T)) (hE2 : SecondOrderExp E) {P : Params ℝ} {inp : Pairings ℝ} {ws : List ℝ} {T0 : Pose3 ℝ}
    (hT0 : IsRotation T0.R) (ha : ExactlyAligned inp T0) (hh : Holds inp T0.R) (hprior : P.prior = none) (hlen : inp.pt2pt.length ≤ ws.length)
    (hws : ∀ w ∈ ws, 0 < w) (h1 : 0 < P.pairWeights.pt2ln) (h2 : 0 < P.pairWeights.pt2pl) (h3 : 0 < P.pairWeights.pl2pl)
    (hk : P.kernel = .none ∨ 0 < P.kernelParam) :
    ∃ C > 0, ∃ ρ > 0, ∀ (T : Pose3 ℝ) (δ : Fin 6 → ℝ), IsRotation T.R → gap T T0 ≤ ρ →
      (system E P inp ws T).1.mulVec δ = -(system E P inp ws T).2 → gap (T.compose (E.exp δ)) T0 ≤ C * gap T T0 ^ 2 := by
  obtain ⟨M, hM⟩ := factored_system hE (P := P) ws hk ha hprior
  obtain ⟨c, hc, r, hr, hexp⟩ := hE2.near
  have hD : ∀ T, E.expJac T = se3ExpJac T := fun T => Lag.deriv_unique (hE T) (t' := T.t) (se3_deriv _)
  have hdet : ((se3ExpJac (vecPose (poseVec T0))).transpose * M (poseVec T0) * se3ExpJac (vecPose (poseVec T0))).det ≠ 0 := by
    intro hz
    obtain ⟨v, hv, hz⟩ := Matrix.exists_mulVec_eq_zero_iff.mpr hz
    rw [← hM.mat, vecPose_poseVec] at hz
    exact hv (system_unique (hE T0) hh ha.noLines hprior hlen hws h1 h2 h3 hk v hz)
  obtain ⟨C, hC, ρ, hρ, h⟩ := step_quadratic (fun x => se3ExpJac (vecPose x)) M (poseVec T0) jac_continuous.continuousAt hM.cont hdet (9 / 2) c r (by norm_num)
    hc.le hr
  refine ⟨C, hC, ρ, hρ, fun T δ hT hg hs => ?_⟩
  have hm := hM.mat (poseVec T)
  have hb := hM.rhs (poseVec T)
  refine h (poseVec T) (poseVec (T.compose (E.exp δ))) δ (incTo T T0) hg ?_ ?_ ?_
  · simp only [vecPose_poseVec]
    exact incTo_rest hT hT0
  · have e : ((se3ExpJac (vecPose (poseVec T))).transpose * M (poseVec T) * se3ExpJac (vecPose (poseVec T))).mulVec δ =
        -((se3ExpJac (vecPose (poseVec T))).transpose * M (poseVec T)).mulVec (poseVec T - poseVec T0) := by
      rw [← hm, ← hb]
      simp only [vecPose_poseVec]
      exact hs
    simpa only [Matrix.neg_mulVec] using e
  · intro hδ
    have := hexp T hT δ hδ
    rw [hD] at this
    simpa only [vecPose_poseVec] using this

end Verif.Lemmas.Conv
