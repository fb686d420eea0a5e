import Verif.Spec.Prior
import Verif.Props.Downhill
/-
C120: the prior of Gauss-Newton.
-/
namespace Verif.Props
open Verif.Gn Verif.Spec Verif.Spec.GN Verif.Lemmas Matrix

section
variable {K : Type} [Field K]

/-- The system with a prior is that without, and the term of the prior. -/
theorem system_prior (E : Env K) (P : Params K) (inp : Pairings K) (ws : List K) (L : PriorEnv K) (p : PriorPdf K) (T : Pose3 K) :
    system E (withPrior P L (some p)) inp ws T = system E (withPrior P L none) inp ws T + priorTerm L p T := by
  simp only [system, pointPart, otherPart, withPrior, Option.map_some, Option.map_none, Option.elim_some, Option.elim_none, add_zero, robust, ← add_assoc]

theorem prior_of_nothing (L : PriorEnv K) (m T : Pose3 K) : priorTerm L ⟨m, 0⟩ T = 0 := by
  simp [priorTerm]

/-- Parameters that agree but for the prior. -/
theorem ptLoop_prior (E : Env K) (P : Params K) (f g : Option (Pose3 K → Sys K)) (hasW : Bool) (T : Pose3 K) (ps : List (PtPair K)) :
    ∀ s i, ptLoop E { P with prior := f } hasW T s i ps = ptLoop E { P with prior := g } hasW T s i ps := by
  induction ps with
  | nil => intro s i; rfl
  | cons p ps ih =>
    intro s i
    simp only [ptLoop]
    refine congrArg (Outcome.bind _) (funext fun s' => ih _ _) |>.trans ?_
    rfl

theorem ptBody_prior (E : Env K) (P : Params K) (f g : Option (Pose3 K → Sys K)) (hasW : Bool) (T : Pose3 K) (ps : List (PtPair K)) (is : List Nat) :
    ∀ s, ptBody E { P with prior := f } hasW T ps s is = ptBody E { P with prior := g } hasW T ps s is := by
  induction is with
  | nil => intro s; rfl
  | cons i is ih =>
    intro s
    simp only [ptBody]
    cases ps[i]? with
    | none => rfl
    | some p =>
      refine (congrArg (Outcome.bind _) (funext fun s' => ih _)).trans ?_
      rfl

theorem ptReduce_prior (E : Env K) (P : Params K) (f g : Option (Pose3 K → Sys K)) (hasW : Bool) (T : Pose3 K) (ps : List (PtPair K)) (t : RTree) :
    ∀ e c, ptReduce E { P with prior := f } hasW T ps t e c = ptReduce E { P with prior := g } hasW T ps t e c := by
  induction t with
  | idle => intro e c; rfl
  | chunk t lo hi ih => intro e c; simp only [ptReduce, ih, ptBody_prior E P f g]
  | join rf a b iha ihb => intro e c; simp only [ptReduce, iha, ihb]

theorem plReduce_prior (E : Env K) (P : Params K) (f g : Option (Pose3 K → Sys K)) (T : Pose3 K) (ps : List (PtPlPair K)) (t : RTree) :
    ∀ e, plReduce E { P with prior := f } T ps t e = plReduce E { P with prior := g } T ps t e := by
  induction t with
  | idle => intro e; rfl
  | chunk t lo hi ih => intro e; simp only [plReduce, ih]; rfl
  | join rf a b iha ihb => intro e; simp only [plReduce, iha, ihb]

theorem assemble_prior (b : Build) (E : Env K) (P : Params K) (inp : Pairings K) {f g : Option (Pose3 K → Sys K)}
    (h : ∀ T a, priorStep { P with prior := f } T a = priorStep { P with prior := g } T a) (k : Nat) (T : Pose3 K) (sys : Sys K) (c : Cursor K) :
    assemble b E { P with prior := f } inp k T sys c = assemble b E { P with prior := g } inp k T sys c := by
  cases b with
  | serial =>
    simp only [assemble, ptLoop_prior E P f g, restSerial, h]
    rfl
  | tbb sched =>
    simp only [assemble, ptReduce_prior E P f g, restTbb, h, plReduce_prior E P f g]
    rfl

theorem loop_prior [LinearOrder K] (b : Build) (E : Env K) (P : Params K) (inp : Pairings K) {f g : Option (Pose3 K → Sys K)}
    (h : ∀ T a, priorStep { P with prior := f } T a = priorStep { P with prior := g } T a) (n : Nat) :
    ∀ k T sys c tr, loop b E { P with prior := f } inp n k T sys c tr = loop b E { P with prior := g } inp n k T sys c tr := by
  induction n with
  | zero => intro k T sys c tr; rfl
  | succ n ih =>
    intro k T sys c tr
    simp only [loop, assemble_prior b E P inp h, ih]

/-- C120 (no information): a prior without information is no prior: the same result, step by step, in every build, with any schedule. -/
theorem gn_prior_no_information [LinearOrder K] (b : Build) (E : Env K) (P : Params K) (inp : Pairings K) (L : PriorEnv K) (m : Pose3 K) :
    run b E (withPrior P L (some ⟨m, 0⟩)) inp = run b E (withPrior P L none) inp := by
  have hs : ∀ T a, priorStep { P with prior := some (priorTerm L ⟨m, 0⟩) } T a = priorStep { P with prior := none } T a := by
    intro T a
    simp only [priorStep, prior_of_nothing, add_zero]
  have h := loop_prior b E P inp hs
  unfold run withPrior
  simp only [Option.map_some, Option.map_none]
  split
  · rfl
  · exact h _ _ _ _ _ _

end

section
variable {E : Env ℝ} {P : Params ℝ} {inp : Pairings ℝ} {ws : List ℝ} {L : PriorEnv ℝ} {p : PriorPdf ℝ}

theorem sym_form {n : Nat} {Λ : Matrix (Fin n) (Fin n) ℝ} (h : Λ.transpose = Λ) (u v : Fin n → ℝ) : u ⬝ᵥ Λ.mulVec v = v ⬝ᵥ Λ.mulVec u := by
  rw [Matrix.dotProduct_mulVec, ← Matrix.mulVec_transpose, h, dotProduct_comm]

theorem priorTerm_quad (T : Pose3 ℝ) (d : Fin 6 → ℝ) :
    d ⬝ᵥ (priorTerm L p T).1.mulVec d = (L.jac p.mean T).mulVec d ⬝ᵥ p.inf.mulVec ((L.jac p.mean T).mulVec d) := by
  simp only [priorTerm]
  rw [← Matrix.mulVec_mulVec, ← Matrix.mulVec_mulVec, Matrix.dotProduct_mulVec, Matrix.vecMul_transpose]

theorem priorTerm_rhs (hs : p.inf.transpose = p.inf) (T : Pose3 ℝ) (d : Fin 6 → ℝ) :
    (priorTerm L p T).2 ⬝ᵥ d = L.log (seenFrom p.mean T) ⬝ᵥ p.inf.mulVec ((L.jac p.mean T).mulVec d) := by
  simp only [priorTerm]
  rw [← Matrix.mulVec_mulVec, dotProduct_comm, Matrix.dotProduct_mulVec, Matrix.vecMul_transpose, sym_form hs]

/-- C120 (the gradient): moving from any pose in any direction, the cost of the pairings and of the prior starts to change at twice the rate given by the
right-hand side of the linear system there. -/
theorem gn_prior_gradient (hE : DerivesExp E) (h0 : FixesZero E) (hk : P.kernel = .none ∨ 0 < P.kernelParam) (hln : inp.ln2ln = [])
    (hs : p.inf.transpose = p.inf) (T : Pose3 ℝ) (hL : DerivesLog E L p T) (d : Fin 6 → ℝ) :
    WholeRate E P inp ws L p T d (2 * (system E (withPrior P L (some p)) inp ws T).2 ⬝ᵥ d) := by
  have h1 := gn_gradient_partial (P := withPrior P L none) (ws := ws) hE h0 hk hln rfl T d
  have hp0 : path E T d 0 = T := path_zero h0 T d
  have h2 : HasDerivAt (fun s => priorCost L p (path E T d s))
      (2 * (L.log (seenFrom p.mean T) ⬝ᵥ p.inf.mulVec ((L.jac p.mean T).mulVec d))) 0 := by
    have h3 : HasDerivAt (fun s => ∑ i, L.log (seenFrom p.mean (path E T d s)) i * ∑ j, p.inf i j * L.log (seenFrom p.mean (path E T d s)) j)
        (∑ i, ((L.jac p.mean T).mulVec d i * ∑ j, p.inf i j * L.log (seenFrom p.mean (path E T d 0)) j +
          L.log (seenFrom p.mean (path E T d 0)) i * ∑ j, p.inf i j * (L.jac p.mean T).mulVec d j)) 0 :=
      HasDerivAt.fun_sum fun i _ => (hL d i).mul (HasDerivAt.fun_sum fun j _ => (hL d j).const_mul _)
    refine h3.congr_deriv ?_
    rw [hp0, Finset.sum_add_distrib, two_mul]
    have e1 : ∑ i, (L.jac p.mean T).mulVec d i * ∑ j, p.inf i j * L.log (seenFrom p.mean T) j =
        (L.jac p.mean T).mulVec d ⬝ᵥ p.inf.mulVec (L.log (seenFrom p.mean T)) := rfl
    have e2 : ∑ i, L.log (seenFrom p.mean T) i * ∑ j, p.inf i j * (L.jac p.mean T).mulVec d j =
        L.log (seenFrom p.mean T) ⬝ᵥ p.inf.mulVec ((L.jac p.mean T).mulVec d) := rfl
    rw [e1, e2, sym_form hs]
  have h := h1.add h2
  unfold WholeRate wholeCost
  refine h.congr_deriv ?_
  rw [system_prior, Prod.snd_add, add_dotProduct, priorTerm_rhs hs]
  ring

/-- C120: a pose is stationary for the whole cost exactly when the right-hand side of the linear system is zero there. -/
theorem gn_prior_stationary_iff (hE : DerivesExp E) (h0 : FixesZero E) (hk : P.kernel = .none ∨ 0 < P.kernelParam) (hln : inp.ln2ln = [])
    (hs : p.inf.transpose = p.inf) (T : Pose3 ℝ) (hL : DerivesLog E L p T) :
    WholeStationary E P inp ws L p T ↔ (system E (withPrior P L (some p)) inp ws T).2 = 0 := by
  constructor
  · intro h
    have h1 := (gn_prior_gradient (ws := ws) hE h0 hk hln hs T hL (system E (withPrior P L (some p)) inp ws T).2).unique (h _)
    have h2 : (system E (withPrior P L (some p)) inp ws T).2 ⬝ᵥ (system E (withPrior P L (some p)) inp ws T).2 = 0 := by linarith
    exact dotProduct_self_eq_zero.mp h2
  · intro h d
    have := gn_prior_gradient (ws := ws) hE h0 hk hln hs T hL d
    rwa [h, zero_dotProduct, mul_zero] at this

theorem priorTerm_normal (hΛ : Information p.inf) (T : Pose3 ℝ) : Normal (priorTerm L p T) := by
  have hz : ∀ u, u ⬝ᵥ p.inf.mulVec u = 0 → p.inf.mulVec u = 0 := by
    intro u hu
    set w := p.inf.mulVec u with hw
    have hww : 0 ≤ w ⬝ᵥ w := by
      rw [dotProduct]; exact Finset.sum_nonneg fun i _ => mul_self_nonneg _
    by_contra hne
    have hpos : 0 < w ⬝ᵥ w := lt_of_le_of_ne hww fun h => hne (dotProduct_self_eq_zero.mp h.symm)
    have key : ∀ s : ℝ, 0 ≤ -(2 * s * (w ⬝ᵥ w)) + s ^ 2 * (w ⬝ᵥ p.inf.mulVec w) := by
      intro s
      have h := hΛ.nonneg (u - s • w)
      rw [Matrix.mulVec_sub, Matrix.mulVec_smul, ← hw, sub_dotProduct, dotProduct_sub, dotProduct_sub, hu, smul_dotProduct, smul_dotProduct,
        dotProduct_smul, dotProduct_smul, sym_form hΛ.symm, ← hw] at h
      simp only [smul_eq_mul] at h
      linarith
    have hq := hΛ.nonneg w
    rcases hq.eq_or_lt with hq | hq
    · have := key 1
      rw [← hq] at this
      linarith
    · have := key ((w ⬝ᵥ w) / (w ⬝ᵥ p.inf.mulVec w))
      have e : -(2 * ((w ⬝ᵥ w) / (w ⬝ᵥ p.inf.mulVec w)) * (w ⬝ᵥ w)) + ((w ⬝ᵥ w) / (w ⬝ᵥ p.inf.mulVec w)) ^ 2 * (w ⬝ᵥ p.inf.mulVec w) =
          -((w ⬝ᵥ w) ^ 2 / (w ⬝ᵥ p.inf.mulVec w)) := by
        field_simp
        ring
      rw [e] at this
      have : 0 < (w ⬝ᵥ w) ^ 2 / (w ⬝ᵥ p.inf.mulVec w) := by positivity
      linarith
  refine ⟨?_, fun d => by rw [priorTerm_quad]; exact hΛ.nonneg _, fun d h => ?_⟩
  · simp only [priorTerm, Matrix.transpose_mul, Matrix.transpose_transpose, hΛ.symm, Matrix.mul_assoc]
  · rw [priorTerm_quad] at h
    have h1 := hz _ h
    refine ⟨?_, by rw [priorTerm_rhs hΛ.symm, h1, dotProduct_zero]⟩
    simp only [priorTerm]
    rw [← Matrix.mulVec_mulVec, ← Matrix.mulVec_mulVec, h1, Matrix.mulVec_zero]

theorem prior_normal (hw : NonnegWeights P ws) (hln : inp.ln2ln = []) (hΛ : Information p.inf) (T : Pose3 ℝ) :
    Normal (system E (withPrior P L (some p)) inp ws T) := by
  rw [system_prior]
  exact normal_add (system_normal (P := withPrior P L none) ⟨hw.points, hw.lines, hw.planes, hw.normals⟩ hln rfl T) (priorTerm_normal hΛ T)

/-- C120: whatever the pairings and the prior, the linear system has a solution. -/
theorem gn_prior_solvable (hw : NonnegWeights P ws) (hln : inp.ln2ln = []) (hΛ : Information p.inf) (T : Pose3 ℝ) :
    ∃ d, (system E (withPrior P L (some p)) inp ws T).1.mulVec d = (system E (withPrior P L (some p)) inp ws T).2 := by
  have hn := prior_normal (E := E) (L := L) hw hln hΛ T
  exact symmetric_solvable _ hn.symm _ fun d hd => (hn.still d (by rw [hd]; simp)).2

/-- C120 (few pairings): with information on every coordinate the system has only one solution, whatever the pairings, even without any. -/
theorem gn_prior_full_unique (hw : NonnegWeights P ws) (hln : inp.ln2ln = []) (hΛ : Information p.inf) (hf : Full p.inf) (T : Pose3 ℝ)
    (hJ : ∀ d, (L.jac p.mean T).mulVec d = 0 → d = 0) (x y : Fin 6 → ℝ)
    (h : (system E (withPrior P L (some p)) inp ws T).1.mulVec x = (system E (withPrior P L (some p)) inp ws T).1.mulVec y) : x = y := by
  have hd : (system E (withPrior P L (some p)) inp ws T).1.mulVec (x - y) = 0 := by rw [Matrix.mulVec_sub, h, sub_self]
  have h0 : (x - y) ⬝ᵥ (system E (withPrior P L (some p)) inp ws T).1.mulVec (x - y) = 0 := by rw [hd, dotProduct_zero]
  have hn := (system_normal (E := E) (P := withPrior P L none) ⟨hw.points, hw.lines, hw.planes, hw.normals⟩ hln rfl T).nonneg (x - y)
  have hp := (priorTerm_normal (L := L) hΛ T).nonneg (x - y)
  rw [system_prior, Prod.fst_add, Matrix.add_mulVec, dotProduct_add] at h0
  have hz : (x - y) ⬝ᵥ (priorTerm L p T).1.mulVec (x - y) = 0 := by linarith
  rw [priorTerm_quad] at hz
  exact sub_eq_zero.mp (hJ _ (hf _ hz))

/-- A pose from which the direction `d` is downhill on the whole cost. -/
def WholeStepsLower (E : Env ℝ) (P : Params ℝ) (inp : Pairings ℝ) (ws : List ℝ) (L : PriorEnv ℝ) (p : PriorPdf ℝ) (T : Pose3 ℝ) (d : Fin 6 → ℝ) : Prop :=
  ∃ ε > 0, ∀ s, 0 < s → s < ε → wholeCost P inp ws L p (path E T d s) < wholeCost P inp ws L p T

theorem whole_steps (h0 : FixesZero E) {T : Pose3 ℝ} {d : Fin 6 → ℝ} {v : ℝ} (h : WholeRate E P inp ws L p T d v) (hv : v < 0) :
    WholeStepsLower E P inp ws L p T d := by
  have h1 := h.tendsto_slope_zero_right
  have h2 := h1.eventually (gt_mem_nhds hv)
  rw [eventually_nhdsWithin_iff, Metric.eventually_nhds_iff] at h2
  obtain ⟨ε, he, h2⟩ := h2
  refine ⟨ε, he, fun s hs hs' => ?_⟩
  have h3 := h2 (y := s) (by simpa [abs_of_pos hs] using hs') hs
  simp only [zero_add, path_zero h0, smul_eq_mul] at h3
  have h4 : s * (s⁻¹ * (wholeCost P inp ws L p (path E T d s) - wholeCost P inp ws L p T)) < 0 := mul_neg_of_pos_of_neg hs h3
  rw [← mul_assoc, mul_inv_cancel₀ hs.ne', one_mul] at h4
  linarith

/-- C120 (partial): in the build with TBB, however it splits its sums, every step of the optimization is downhill on the cost of the pairings and of the prior
together, unless the pose is stationary for it.  Missing: the build without TBB (C114: not so); line-to-line pairings; tables of weights; floating-point
numbers. -/
theorem gn_prior_downhill_partial (hE : DerivesExp E) (h0 : FixesZero E) (hsol : SolvesLinear E.solve) (hk : P.kernel = .none ∨ 0 < P.kernelParam)
    (hln : inp.ln2ln = []) (hΛ : Information p.inf) (hpw : inp.pointWeights = []) (hw : NonnegWeights P (uniform inp P.pairWeights.pt2pt))
    (sched : Nat → RTree × RTree) (hs : ValidSchedule inp sched) (r : Run ℝ) (h : run (.tbb sched) E (withPrior P L (some p)) inp = .ok r)
    (q : Pose3 ℝ × Sys ℝ) (hq : q ∈ r.trace) (hL : DerivesLog E L p q.1) :
    WholeStationary E P inp (uniform inp P.pairWeights.pt2pt) L p q.1 ∨
    ∃ v < 0, WholeRate E P inp (uniform inp P.pairWeights.pt2pt) L p q.1 (-(E.solve q.2.1 q.2.2)) v ∧
      WholeStepsLower E P inp (uniform inp P.pairWeights.pt2pt) L p q.1 (-(E.solve q.2.1 q.2.2)) := by
  have hf : q.2 = system E (withPrior P L (some p)) inp (uniform inp P.pairWeights.pt2pt) q.1 :=
    gn_tbb_fresh_partial E (withPrior P L (some p)) inp hpw sched hs r h q hq
  have hn := prior_normal (E := E) (L := L) hw hln hΛ q.1
  have hso := hsol _ _ (gn_prior_solvable (E := E) (L := L) hw hln hΛ q.1)
  rw [← hf] at hn hso
  have hr := gn_prior_gradient (ws := uniform inp P.pairWeights.pt2pt) hE h0 hk hln hΛ.symm q.1 hL (-(E.solve q.2.1 q.2.2))
  rw [← hf] at hr
  set x := E.solve q.2.1 q.2.2 with hx
  have hv : 2 * q.2.2 ⬝ᵥ (-x) = -(2 * (x ⬝ᵥ q.2.1.mulVec x)) := by
    rw [hso, dotProduct_neg, dotProduct_comm]; ring
  rcases (hn.nonneg x).lt_or_eq with hlt | heq
  · right
    have hneg : 2 * q.2.2 ⬝ᵥ (-x) < 0 := by rw [hv]; linarith
    exact ⟨_, hneg, hr, whole_steps h0 hr hneg⟩
  · left
    rw [gn_prior_stationary_iff hE h0 hk hln hΛ.symm q.1 hL, ← hf, ← hso]
    exact (hn.still x heq.symm).1

/-- C120 (where it rests): with information on every coordinate, the step from a pose is null exactly when the pose is stationary for the whole cost. -/
theorem gn_prior_rests_iff (hE : DerivesExp E) (h0 : FixesZero E) (hsol : SolvesLinear E.solve) (hk : P.kernel = .none ∨ 0 < P.kernelParam)
    (hln : inp.ln2ln = []) (hΛ : Information p.inf) (hfull : Full p.inf) (hpw : inp.pointWeights = [])
    (hw : NonnegWeights P (uniform inp P.pairWeights.pt2pt))
    (sched : Nat → RTree × RTree) (hs : ValidSchedule inp sched) (r : Run ℝ) (h : run (.tbb sched) E (withPrior P L (some p)) inp = .ok r)
    (q : Pose3 ℝ × Sys ℝ) (hq : q ∈ r.trace) (hL : DerivesLog E L p q.1) (hJ : ∀ d, (L.jac p.mean q.1).mulVec d = 0 → d = 0) :
    E.solve q.2.1 q.2.2 = 0 ↔ WholeStationary E P inp (uniform inp P.pairWeights.pt2pt) L p q.1 := by
  have hf : q.2 = system E (withPrior P L (some p)) inp (uniform inp P.pairWeights.pt2pt) q.1 :=
    gn_tbb_fresh_partial E (withPrior P L (some p)) inp hpw sched hs r h q hq
  have hso := hsol _ _ (gn_prior_solvable (E := E) (L := L) hw hln hΛ q.1)
  have hu := gn_prior_full_unique (E := E) hw hln hΛ hfull q.1 hJ
  rw [gn_prior_stationary_iff hE h0 hk hln hΛ.symm q.1 hL]
  rw [← hf] at hso hu ⊢
  constructor
  · intro h
    rw [h, Matrix.mulVec_zero] at hso
    exact hso.symm
  · intro h
    exact hu _ _ (by rw [hso, h, Matrix.mulVec_zero])

/-- Pairings that leave no error have no gradient. -/
theorem aligned_no_gradient {T : Pose3 ℝ} (ha : ExactlyAligned inp T) : (system E (withPrior P L none) inp ws T).2 = 0 := by
  have h := shift_system (E := E) (P := withPrior P L none) (ws := ws) rfl ha.noLines 0 (T := T)
    (fun q hq => by rw [shift_aligned_pt (ha.pts q hq)]; simp)
    (fun q hq => by rw [shift_aligned_ln (ha.lns q hq).1 (ha.lns q hq).2]; simp)
    (fun q hq => by rw [shift_aligned_pl (ha.pls q hq)]; simp)
    (fun q hq => by rw [shift_aligned_nm (ha.nms q hq)]; simp)
  rwa [Matrix.mulVec_zero, zero_add] at h

/-- **C120 (finding): a prior is not looked at when the pairings leave no error.**  The error that is compared with the limit is that of the pairings alone: from
a guess which aligns them exactly (few pairings do not determine the pose; without any, every guess does), the guess is returned, whatever the prior and its
information, in both builds; and yet that pose is stationary for the whole cost only if it is the mean. -/
theorem gn_prior_ignored (hE : DerivesExp E) (h0 : FixesZero E) (hsq : E.sqrt 0 = 0) (hk : P.kernel = .none ∨ 0 < P.kernelParam)
    {G : Pose3 ℝ} (ha : ExactlyAligned inp G) (hc : 0 ≤ P.maxCost) (hl : P.linearizationPoint = some G)
    (hΛ : Information p.inf) (hfull : Full p.inf) (hL : DerivesLog E L p G) (hJ : ∀ e, (L.jac p.mean G).transpose.mulVec e = 0 → e = 0)
    (hne : L.log (seenFrom p.mean G) ≠ 0) :
    (BlocksCover inp → ∃ r, run .serial E (withPrior P L (some p)) inp = .ok r ∧ r.pose = G) ∧
    (inp.pointWeights = [] → ∀ sched, ValidSchedule inp sched → ∃ r, run (.tbb sched) E (withPrior P L (some p)) inp = .ok r ∧ r.pose = G) ∧
    ¬ WholeStationary E P inp ws L p G := by
  refine ⟨fun hb => ?_, fun hpw sched hs => ?_, ?_⟩
  · obtain ⟨r, h1, h2, -⟩ := gn_fixed_point_serial_partial E (withPrior P L (some p)) inp G hl hb ha hsq hc
    exact ⟨r, h1, h2⟩
  · obtain ⟨r, h1, h2, -⟩ := gn_fixed_point_tbb_partial E (withPrior P L (some p)) inp G hl hpw sched hs ha hsq hc
    exact ⟨r, h1, h2⟩
  · rw [gn_prior_stationary_iff hE h0 hk ha.noLines hΛ.symm G hL, system_prior, Prod.snd_add]
    have hz : (system E (withPrior P L none) inp ws G).2 = 0 := by
      exact aligned_no_gradient ha
    rw [hz, zero_add]
    intro h
    simp only [priorTerm] at h
    rw [← Matrix.mulVec_mulVec] at h
    have h1 := hJ _ h
    exact hne (hfull _ (by rw [h1, dotProduct_zero]))

end
end Verif.Props
