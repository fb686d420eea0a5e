import Verif.Lemmas.Downhill
import Verif.Props.GnShift
import Mathlib.Analysis.SpecialFunctions.Trigonometric.Sinc
import Mathlib.Analysis.Calculus.Deriv.Slope
/-
C114: Gauss-Newton goes downhill on the robust cost of the pairings.
-/
namespace Verif.Props
open Verif.Gn Verif.Spec Verif.Spec.GN Verif.Lemmas

section
variable {E : Env ℝ} {P : Params ℝ} {inp : Pairings ℝ} {ws : List ℝ}

/-- C114 (the gradient): moving from any pose in any direction, the robust cost starts to change at twice the rate given by the right-hand side of the
linear system there, for the three kernels and all weights: the factor which `create_robust_kernel` gives is the slope of the loss. -/
theorem gn_gradient_partial (hE : DerivesExp E) (h0 : FixesZero E) (hk : P.kernel = .none ∨ 0 < P.kernelParam) (hln : inp.ln2ln = [])
    (hp : P.prior = none) (T : Pose3 ℝ) (d : Fin 6 → ℝ) :
    Rate E P inp ws T d (2 * (system E P inp ws T).2 ⬝ᵥ d) := by
  have h1 := list_rate (inp.pt2pt.zip ws) _ _ d fun q => term_rate hE h0 hk T (pt2pt_exact q.1 T) q.2 d
  have h2 := list_rate inp.pt2ln _ _ d fun q => term_rate hE h0 hk T (pt2ln_exact q T) P.pairWeights.pt2ln d
  have h3 := list_rate inp.pt2pl _ _ d fun q => term_rate hE h0 hk T (pt2pl_exact q T) P.pairWeights.pt2pl d
  have h4 := list_rate inp.pl2pl _ _ d fun q => term_rate hE h0 hk T (pl2pl_exact q T) P.pairWeights.pl2pl d
  have h := ((h1.add h2).add h3).add h4
  unfold Rate robustCost
  refine h.congr_deriv ?_
  simp only [system, pointPart, otherPart, hp, hln, List.map_nil, List.sum_nil, Option.elim_none, add_zero, Prod.snd_add, add_dotProduct]
  ring

/-- C114: a pose is stationary exactly when the right-hand side of the linear system is zero there. -/
theorem gn_stationary_iff_partial (hE : DerivesExp E) (h0 : FixesZero E) (hk : P.kernel = .none ∨ 0 < P.kernelParam) (hln : inp.ln2ln = [])
    (hp : P.prior = none) (T : Pose3 ℝ) : Stationary E P inp ws T ↔ (system E P inp ws T).2 = 0 := by
  constructor
  · intro h
    have h1 := (gn_gradient_partial (ws := ws) hE h0 hk hln hp T (system E P inp ws T).2).unique (h _)
    have h2 : (system E P inp ws T).2 ⬝ᵥ (system E P inp ws T).2 = 0 := by linarith
    exact dotProduct_self_eq_zero.mp h2
  · intro h d
    have := gn_gradient_partial (ws := ws) hE h0 hk hln hp T d
    rwa [h, zero_dotProduct, mul_zero] at this

/-- Weights, none negative. -/
structure NonnegWeights (P : Params ℝ) (ws : List ℝ) : Prop where
  points : ∀ w ∈ ws, 0 ≤ w
  lines : 0 ≤ P.pairWeights.pt2ln
  planes : 0 ≤ P.pairWeights.pt2pl
  normals : 0 ≤ P.pairWeights.pl2pl

theorem system_normal (hw : NonnegWeights P ws) (hln : inp.ln2ln = []) (hp : P.prior = none) (T : Pose3 ℝ) : Normal (system E P inp ws T) := by
  simp only [system, pointPart, otherPart, hp, hln, List.map_nil, List.sum_nil, Option.elim_none, add_zero]
  refine normal_add (normal_sum _ _ fun q hq => normal_term _ (robust_nonneg P _ (hw.points _ (List.of_mem_zip hq).2) _) _ _) ?_
  refine normal_add (normal_add (normal_sum _ _ fun q _ => normal_term _ (robust_nonneg P _ hw.lines _) _ _) ?_) ?_
  · exact normal_sum _ _ fun q _ => normal_term _ (robust_nonneg P _ hw.planes _) _ _
  · exact normal_sum _ _ fun q _ => normal_term _ (robust_nonneg P _ hw.normals _) _ _

/-- C114: whatever the pairings, and even if they do not hold the body, the linear system has a solution. -/
theorem gn_solvable_partial (hw : NonnegWeights P ws) (hln : inp.ln2ln = []) (hp : P.prior = none) (T : Pose3 ℝ) :
    ∃ d, (system E P inp ws T).1.mulVec d = (system E P inp ws T).2 := by
  have hn := system_normal (E := E) hw hln hp T
  exact symmetric_solvable _ hn.symm _ fun d hd => (hn.still d (by rw [hd]; simp)).2

/-- A pose from which the direction `d` is downhill: short enough steps lower the cost. -/
def ShortStepsLower (E : Env ℝ) (P : Params ℝ) (inp : Pairings ℝ) (ws : List ℝ) (T : Pose3 ℝ) (d : Fin 6 → ℝ) : Prop :=
  ∃ ε > 0, ∀ s, 0 < s → s < ε → robustCost P inp ws (path E T d s) < robustCost P inp ws T

theorem path_zero (h0 : FixesZero E) (T : Pose3 ℝ) (d : Fin 6 → ℝ) : path E T d 0 = T := by
  unfold path
  rw [zero_smul, h0]
  rcases T with ⟨R, t⟩
  simp only [Pose3.compose, Pose3.identity]
  congr 1
  · ext <;> simp [M3.mul, M3.one]
  · ext <;> simp [M3.mulVec]

theorem short_steps (h0 : FixesZero E) {T : Pose3 ℝ} {d : Fin 6 → ℝ} {v : ℝ} (h : Rate E P inp ws T d v) (hv : v < 0) :
    ShortStepsLower E P inp ws T d := by
  have h1 := h.tendsto_slope_zero_right
  have h2 := h1.eventually (gt_mem_nhds hv)
  rw [eventually_nhdsWithin_iff, Metric.eventually_nhds_iff] at h2
  obtain ⟨ε, he, h2⟩ := h2
  refine ⟨ε, he, fun s hs hs' => ?_⟩
  have h3 := h2 (y := s) (by simpa [abs_of_pos hs] using hs') hs
  simp only [zero_add, path_zero h0, smul_eq_mul] at h3
  have h4 : s * (s⁻¹ * (robustCost P inp ws (path E T d s) - robustCost P inp ws T)) < 0 := mul_neg_of_pos_of_neg hs h3
  rw [← mul_assoc, mul_inv_cancel₀ hs.ne', one_mul] at h4
  linarith

/-- C114 (partial): in the build with TBB, however it splits its sums, every step of the optimization is downhill on the robust cost of the pairings, unless
the pose is stationary: the cost starts to change at a negative rate, and short enough steps in that direction lower it. Missing: the build without TBB,
for which it is false (`gn_serial_leaves_minimum`); full steps, for which it is false (`gn_full_step_uphill`); line-to-line pairings; a prior; tables of weights;
floating-point numbers. -/
theorem gn_downhill_partial (hE : DerivesExp E) (h0 : FixesZero E) (hsol : SolvesLinear E.solve) (hk : P.kernel = .none ∨ 0 < P.kernelParam)
    (hln : inp.ln2ln = []) (hp : P.prior = none) (hpw : inp.pointWeights = []) (hw : NonnegWeights P (uniform inp P.pairWeights.pt2pt))
    (sched : Nat → RTree × RTree) (hs : ValidSchedule inp sched) (r : Run ℝ) (h : run (.tbb sched) E P inp = .ok r)
    (q : Pose3 ℝ × Sys ℝ) (hq : q ∈ r.trace) :
    Stationary E P inp (uniform inp P.pairWeights.pt2pt) q.1 ∨
    ∃ v < 0, Rate E P inp (uniform inp P.pairWeights.pt2pt) q.1 (-(E.solve q.2.1 q.2.2)) v ∧
      ShortStepsLower E P inp (uniform inp P.pairWeights.pt2pt) q.1 (-(E.solve q.2.1 q.2.2)) := by
  have hf := gn_tbb_fresh_partial E P inp hpw sched hs r h q hq
  have hn := system_normal (E := E) hw hln hp q.1
  have hso := hsol _ _ (gn_solvable_partial (E := E) hw hln hp q.1)
  rw [← hf] at hn hso
  have hr := gn_gradient_partial (ws := uniform inp P.pairWeights.pt2pt) hE h0 hk hln hp q.1 (-(E.solve q.2.1 q.2.2))
  rw [← hf] at hr
  set x := E.solve q.2.1 q.2.2 with hx
  have hv : 2 * q.2.2 ⬝ᵥ (-x) = -(2 * (x ⬝ᵥ q.2.1.mulVec x)) := by
    rw [hso, dotProduct_neg, dotProduct_comm]; ring
  rcases (hn.nonneg x).lt_or_eq with hlt | heq
  · right
    have hneg : 2 * q.2.2 ⬝ᵥ (-x) < 0 := by rw [hv]; linarith
    exact ⟨_, hneg, hr, short_steps h0 hr hneg⟩
  · left
    rw [gn_stationary_iff_partial hE h0 hk hln hp, ← hf, ← hso]
    exact (hn.still x heq.symm).1

/-- C114 (where it rests): if the pairings hold the body, the step from a pose is null exactly when the pose is stationary. -/
theorem gn_rests_iff_partial (hE : DerivesExp E) (h0 : FixesZero E) (hd : ∀ T, IsExpDeriv T (E.expJac T)) (hsol : SolvesLinear E.solve)
    (hln : inp.ln2ln = []) (hp : P.prior = none) (hpw : inp.pointWeights = []) (hw : PositiveWeights P inp)
    (sched : Nat → RTree × RTree) (hs : ValidSchedule inp sched) (r : Run ℝ) (h : run (.tbb sched) E P inp = .ok r)
    (q : Pose3 ℝ × Sys ℝ) (hq : q ∈ r.trace) (hh : Holds inp q.1.R) :
    E.solve q.2.1 q.2.2 = 0 ↔ Stationary E P inp (uniform inp P.pairWeights.pt2pt) q.1 := by
  have hws : firstWeights P inp = uniform inp P.pairWeights.pt2pt := by simp [firstWeights, hpw]
  have hpos := hw.points
  rw [hws] at hpos
  have hnw : NonnegWeights P (uniform inp P.pairWeights.pt2pt) := ⟨fun w h => (hpos w h).le, hw.lines.le, hw.planes.le, hw.normals.le⟩
  have hf := gn_tbb_fresh_partial E P inp hpw sched hs r h q hq
  have hso := hsol _ _ (gn_solvable_partial (E := E) hnw hln hp q.1)
  rw [gn_stationary_iff_partial hE h0 hw.kernel hln hp]
  rw [← hf] at hso ⊢
  constructor
  · intro h
    rw [h, Matrix.mulVec_zero] at hso
    exact hso.symm
  · intro h
    refine GnS.system_unique (hd q.1) hh hln hp (ws := uniform inp P.pairWeights.pt2pt) (by simp [uniform]) hpos hw.lines hw.planes hw.normals
      hw.kernel _ ?_
    rw [← hf, hso, h]

/-- C114 (robust weights): from any pose to any other, the robust cost changes by no more than the squared errors with the weights of the first pose: to lower the
weighted squares is enough. -/
theorem gn_weighted_squares_suffice (hk : P.kernel = .none ∨ 0 < P.kernelParam) (hw : NonnegWeights P ws) (T U : Pose3 ℝ) :
    robustCost P inp ws U - robustCost P inp ws T ≤ weightedSquares P inp ws T U - weightedSquares P inp ws T T := by
  have h1 := list_tangent (inp.pt2pt.zip ws) _ _ _ _ fun q hq => term_tangent hk (Err.pt2pt q.1 T) (Err.pt2pt q.1 U) (hw.points q.2 (List.of_mem_zip hq).2)
  have h2 := list_tangent inp.pt2ln _ _ _ _ fun q _ => term_tangent hk (Err.pt2ln q T) (Err.pt2ln q U) hw.lines
  have h3 := list_tangent inp.pt2pl _ _ _ _ fun q _ => term_tangent hk (Err.pt2pl q T) (Err.pt2pl q U) hw.planes
  have h4 := list_tangent inp.pl2pl _ _ _ _ fun q _ => term_tangent hk (Err.pl2pl q T) (Err.pl2pl q U) hw.normals
  unfold robustCost weightedSquares
  linarith

theorem linear_step {n : Nat} {f : Pose3 ℝ → Fin n → ℝ} {J : Matrix (Fin n) (Fin 12) ℝ} {T U : Pose3 ℝ} {D : Matrix (Fin 12) (Fin 6) ℝ} {d : Fin 6 → ℝ}
    (hf : ExactChange f J T) (h : D.mulVec d = poseVec (poseDiff T U)) : f U = f T + (J * D).mulVec d := by
  funext i
  have := hf (poseDiff T U) i
  rw [perturb_diff, ← h, Matrix.mulVec_mulVec] at this
  exact this

/-- C114 (full steps without rotation): in the build with TBB, a step which does not rotate never raises the robust cost. -/
theorem gn_shift_never_uphill_partial (hE : GoodEnv E) (hk : P.kernel = .none ∨ 0 < P.kernelParam)
    (hln : inp.ln2ln = []) (hp : P.prior = none) (hpw : inp.pointWeights = []) (hw : NonnegWeights P (uniform inp P.pairWeights.pt2pt))
    (h2 : 0 ≤ P.pairWeights.pt2pt ∧ 0 ≤ P.pairWeights.ln2ln) (sched : Nat → RTree × RTree) (hs : ValidSchedule inp sched) (r : Run ℝ)
    (h : run (.tbb sched) E P inp = .ok r)
    (q : Pose3 ℝ × Sys ℝ) (hq : q ∈ r.trace) (v : P3 ℝ) (hv : -(E.solve q.2.1 q.2.2) = ![v.x, v.y, v.z, 0, 0, 0]) :
    robustCost P inp (uniform inp P.pairWeights.pt2pt) (q.1.compose (E.exp (-(E.solve q.2.1 q.2.2)))) ≤
      robustCost P inp (uniform inp P.pairWeights.pt2pt) q.1 := by
  have hf := gn_tbb_fresh_partial E P inp hpw sched hs r h q hq
  have hso := hE.solve _ _ (gn_solvable_partial (E := E) hw hln hp q.1)
  rw [← hf] at hso
  have hmin := gn_tbb_steps_minimise E P inp hpw hp sched hs r h ⟨h2.1, hw.lines, h2.2, hw.planes, hw.normals⟩ q hq hso 0
  have hd : (E.expJac q.1).mulVec (-(E.solve q.2.1 q.2.2)) = poseVec (poseDiff q.1 (q.1.compose (E.exp (-(E.solve q.2.1 q.2.2))))) := by
    have h1 := hE.deriv q.1 v 0
    rw [hv, hE.shift v]
    refine Eq.trans ?_ (h1.trans ?_)
    · rfl
    · congr 1
      simp only [poseDiff, Pose3.compose]
      congr 1
      · ext <;> simp [M3.mul, M3.one, crossMat]
      · ext <;> simp
  have hmaj := gn_weighted_squares_suffice (inp := inp) hk hw q.1 (q.1.compose (E.exp (-(E.solve q.2.1 q.2.2))))
  have e1 : weightedSquares P inp (uniform inp P.pairWeights.pt2pt) q.1 (q.1.compose (E.exp (-(E.solve q.2.1 q.2.2)))) =
      linCost E P inp (uniform inp P.pairWeights.pt2pt) q.1 (-(E.solve q.2.1 q.2.2)) := by
    unfold weightedSquares linCost linTerm
    simp only [hln, List.map_nil, List.sum_nil, add_zero]
    simp only [linear_step (pt2pt_exact _ q.1) hd, linear_step (pt2ln_exact _ q.1) hd, linear_step (pt2pl_exact _ q.1) hd,
      linear_step (pl2pl_exact _ q.1) hd]
    ring
  have e2 : weightedSquares P inp (uniform inp P.pairWeights.pt2pt) q.1 q.1 = linCost E P inp (uniform inp P.pairWeights.pt2pt) q.1 0 := by
    unfold weightedSquares linCost linTerm
    simp only [hln, List.map_nil, List.sum_nil, add_zero, Matrix.mulVec_zero]
    ring
  rw [e1, e2] at hmaj
  linarith

/-- C114 (build without TBB): if its first step reaches a stationary pose, and the cost there is not below the limit, its second step is not null: it leaves
the pose, in a direction which still undoes the error of the guess. -/
theorem gn_serial_leaves_minimum (hE : DerivesExp E) (h0 : FixesZero E) (hsol : SolvesLinear E.solve) (hk : P.kernel = .none ∨ 0 < P.kernelParam)
    (hln : inp.ln2ln = []) (hp : P.prior = none) (hpw : inp.pointWeights = []) (hw : NonnegWeights P (uniform inp P.pairWeights.pt2pt))
    (r : Run ℝ) (h : run .serial E P inp = .ok r) (q₀ q₁ : Pose3 ℝ × Sys ℝ) (hq0 : r.trace[0]? = some q₀) (hq1 : r.trace[1]? = some q₁)
    (hg : ¬ Stationary E P inp (uniform inp P.pairWeights.pt2pt) q₀.1) (hst : Stationary E P inp (uniform inp P.pairWeights.pt2pt) q₁.1) :
    E.solve q₁.2.1 q₁.2.2 ≠ 0 := by
  have ha := gn_serial_accumulates E P inp hpw r h 1 q₁ hq1
  have hsum : q₁.2 = system E P inp (uniform inp P.pairWeights.pt2pt) q₀.1 + system E P inp (uniform inp P.pairWeights.pt2pt) q₁.1 := by
    cases htr : r.trace with
    | nil => rw [htr] at hq0; simp at hq0
    | cons a l =>
      cases l with
      | nil => rw [htr] at hq1; simp at hq1
      | cons b l =>
        rw [htr] at hq0 hq1 ha
        simp at hq0 hq1
        subst hq0 hq1
        simpa using ha
  rw [gn_stationary_iff_partial hE h0 hk hln hp] at hg hst
  have hn := normal_add (system_normal (E := E) hw hln hp q₀.1) (system_normal (E := E) hw hln hp q₁.1)
  rw [← hsum] at hn
  have hso := hsol _ _ (symmetric_solvable _ hn.symm _ fun d hd => (hn.still d (by rw [hd]; simp)).2)
  intro hz
  rw [hz, Matrix.mulVec_zero, hsum, Prod.snd_add, hst, add_zero] at hso
  exact hg hso.symm

end

/-! ### the exponential of SE(3) -/

/-- The exponential of the velocities `(v, w)`: the rotation by the angle `|w|` about `w`, and the translation that goes with it. -/
noncomputable def se3Exp (d : Fin 6 → ℝ) : Pose3 ℝ :=
  let v : P3 ℝ := ⟨d 0, d 1, d 2⟩
  let w : P3 ℝ := ⟨d 3, d 4, d 5⟩
  let θ := Real.sqrt (w.normSq)
  ⟨M3.add M3.one (M3.add (M3.smul (Real.sinc θ) (crossMat w)) (M3.smul (Real.sinc (θ / 2) ^ 2 / 2) ((crossMat w).mul (crossMat w)))),
   v + (P3.smul (Real.sinc (θ / 2) ^ 2 / 2) (P3.cross w v) + P3.smul ((1 - Real.sinc θ) / w.normSq) (P3.cross w (P3.cross w v)))⟩

open Classical in
/-- The real environment: this exponential, its derivative, and a solver of linear systems. -/
noncomputable def se3Env : Env ℝ := { goodGn with exp := se3Exp }

theorem deriv_at_zero (f : ℝ → ℝ) (a : ℝ) (hf : ContinuousAt f 0) : HasDerivAt (fun s => a + s * f s) (f 0) 0 := by
  refine HasDerivAt.const_add _ ?_
  rw [hasDerivAt_iff_tendsto_slope_zero]
  simp only [zero_add, zero_mul, sub_zero, smul_eq_mul]
  refine (hf.tendsto.mono_left nhdsWithin_le_nhds).congr' ?_
  filter_upwards [self_mem_nhdsWithin] with s hs
  rw [← mul_assoc, inv_mul_cancel₀ hs, one_mul]

theorem sqrt_scaled (s a b c : ℝ) :
    Real.sqrt (s * a * (s * a) + s * b * (s * b) + s * c * (s * c)) = |s| * Real.sqrt (a * a + b * b + c * c) := by
  rw [← Real.sqrt_sq_eq_abs, ← Real.sqrt_mul (sq_nonneg s)]
  congr 1; ring

/-- What the rotation of `exp (s d)` adds to the identity, divided by `s`. -/
noncomputable def se3Rot (w : P3 ℝ) (s : ℝ) : M3 ℝ :=
  M3.add (M3.smul (Real.sinc (|s| * Real.sqrt w.normSq)) (crossMat w))
    (M3.smul (s * (Real.sinc (|s| * Real.sqrt w.normSq / 2) ^ 2 / 2)) ((crossMat w).mul (crossMat w)))

/-- The translation of `exp (s d)`, divided by `s`. -/
noncomputable def se3Move (v w : P3 ℝ) (s : ℝ) : P3 ℝ :=
  v + (P3.smul (s * (Real.sinc (|s| * Real.sqrt w.normSq / 2) ^ 2 / 2)) (P3.cross w v) +
    P3.smul ((1 - Real.sinc (|s| * Real.sqrt w.normSq)) / w.normSq) (P3.cross w (P3.cross w v)))

theorem se3_scaled (d : Fin 6 → ℝ) (s : ℝ) :
    se3Exp (s • d) = ⟨M3.add M3.one (M3.smul s (se3Rot ⟨d 3, d 4, d 5⟩ s)), P3.smul s (se3Move ⟨d 0, d 1, d 2⟩ ⟨d 3, d 4, d 5⟩ s)⟩ := by
  have hθ : Real.sqrt (P3.normSq ⟨s * d 3, s * d 4, s * d 5⟩) = |s| * Real.sqrt (P3.normSq ⟨d 3, d 4, d 5⟩) := sqrt_scaled s _ _ _
  have hn : P3.normSq (⟨s * d 3, s * d 4, s * d 5⟩ : P3 ℝ) = s ^ 2 * P3.normSq ⟨d 3, d 4, d 5⟩ := by
    simp only [P3.normSq, P3.dot]; ring
  have hc : ∀ a u : ℝ, a / (s ^ 2 * P3.normSq ⟨d 3, d 4, d 5⟩) * (s * (s * (s * u))) = s * (a / P3.normSq ⟨d 3, d 4, d 5⟩ * u) := by
    intro a u
    by_cases hs : s = 0
    · simp [hs]
    · by_cases hz : P3.normSq (⟨d 3, d 4, d 5⟩ : P3 ℝ) = 0
      · simp [hz]
      · field_simp
  unfold se3Exp
  simp only [Pi.smul_apply, smul_eq_mul, hθ]
  congr 1
  · ext <;> simp [M3.add, M3.one, M3.smul, se3Rot, crossMat, M3.mul] <;> ring
  · rw [hn]
    ext
    · have := hc (1 - Real.sinc (|s| * Real.sqrt (P3.normSq ⟨d 3, d 4, d 5⟩))) (P3.cross ⟨d 3, d 4, d 5⟩ (P3.cross ⟨d 3, d 4, d 5⟩ ⟨d 0, d 1, d 2⟩)).x
      simp [P3.smul, se3Move, P3.cross] at this ⊢
      linear_combination this
    · have := hc (1 - Real.sinc (|s| * Real.sqrt (P3.normSq ⟨d 3, d 4, d 5⟩))) (P3.cross ⟨d 3, d 4, d 5⟩ (P3.cross ⟨d 3, d 4, d 5⟩ ⟨d 0, d 1, d 2⟩)).y
      simp [P3.smul, se3Move, P3.cross] at this ⊢
      linear_combination this
    · have := hc (1 - Real.sinc (|s| * Real.sqrt (P3.normSq ⟨d 3, d 4, d 5⟩))) (P3.cross ⟨d 3, d 4, d 5⟩ (P3.cross ⟨d 3, d 4, d 5⟩ ⟨d 0, d 1, d 2⟩)).z
      simp [P3.smul, se3Move, P3.cross] at this ⊢
      linear_combination this

theorem se3_path (T : Pose3 ℝ) (d : Fin 6 → ℝ) (s : ℝ) (i : Fin 12) :
    poseVec (path se3Env T d s) i = poseVec T i +
      s * poseVec ⟨T.R.mul (se3Rot ⟨d 3, d 4, d 5⟩ s), T.R.mulVec (se3Move ⟨d 0, d 1, d 2⟩ ⟨d 3, d 4, d 5⟩ s)⟩ i := by
  have : path se3Env T d s = T.compose (se3Exp (s • d)) := rfl
  rw [this, se3_scaled]
  generalize se3Rot ⟨d 3, d 4, d 5⟩ s = A
  generalize se3Move ⟨d 0, d 1, d 2⟩ ⟨d 3, d 4, d 5⟩ s = b
  fin_cases i <;> simp [poseVec, Pose3.compose, M3.mul, M3.mulVec, M3.add, M3.one, M3.smul, P3.smul] <;> ring

/-- The derivative given to the solver is the derivative of the exponential of SE(3). -/
theorem se3_derives : DerivesExp se3Env := by
  intro T d i
  have hs : Continuous fun s : ℝ => Real.sinc (|s| * Real.sqrt (P3.normSq ⟨d 3, d 4, d 5⟩)) :=
    Real.continuous_sinc.comp (by fun_prop)
  have hs2 : Continuous fun s : ℝ => Real.sinc (|s| * Real.sqrt (P3.normSq ⟨d 3, d 4, d 5⟩) / 2) :=
    Real.continuous_sinc.comp (by fun_prop)
  have hc : Continuous fun s => poseVec ⟨T.R.mul (se3Rot ⟨d 3, d 4, d 5⟩ s), T.R.mulVec (se3Move ⟨d 0, d 1, d 2⟩ ⟨d 3, d 4, d 5⟩ s)⟩ i := by
    fin_cases i <;> simp [poseVec, M3.mul, M3.mulVec, se3Rot, se3Move, M3.add, M3.smul, P3.smul] <;> fun_prop
  have h := deriv_at_zero _ (poseVec T i) hc.continuousAt
  have e : (fun s => poseVec (path se3Env T d s) i) = fun s => poseVec T i +
      s * poseVec ⟨T.R.mul (se3Rot ⟨d 3, d 4, d 5⟩ s), T.R.mulVec (se3Move ⟨d 0, d 1, d 2⟩ ⟨d 3, d 4, d 5⟩ s)⟩ i := funext fun s => se3_path T d s i
  rw [e]
  refine h.congr_deriv ?_
  have h2 := congrFun (se3_deriv T ⟨d 0, d 1, d 2⟩ ⟨d 3, d 4, d 5⟩) i
  have hd : d = ![d 0, d 1, d 2, d 3, d 4, d 5] := by funext j; fin_cases j <;> rfl
  have h3 : (se3Env.expJac T).mulVec d i = (se3ExpJac T).mulVec ![d 0, d 1, d 2, d 3, d 4, d 5] i := by rw [← hd]; rfl
  rw [h3]
  refine Eq.trans ?_ h2.symm
  congr 2
  · congr 1
    ext <;> simp [se3Rot, M3.add, M3.smul]
  · congr 1
    ext <;> simp [se3Move, P3.smul]

theorem se3_fixes : FixesZero se3Env := by
  have h := se3_scaled 0 0
  rw [zero_smul] at h
  have : se3Env.exp 0 = se3Exp 0 := rfl
  rw [FixesZero, this, h]
  simp only [Pose3.identity]
  congr 1
  · ext <;> simp [M3.add, M3.one, M3.smul]
  · ext <;> simp [P3.smul]

/-- The real environment is as required for C111 too. -/
theorem se3_good : GoodEnv se3Env where
  sqrt := goodGn_good.sqrt
  solve := goodGn_good.solve
  deriv := goodGn_good.deriv
  shift v := by
    change se3Exp _ = _
    simp only [se3Exp]
    congr 1
    · ext <;> simp [M3.add, M3.one, M3.smul, crossMat, M3.mul]
    · ext <;> simp [P3.smul, P3.cross]

end Verif.Props
