import Verif.Props.Downhill
/-
C114: where the optimization goes uphill.
-/
namespace Verif.Props
open Verif.Lemmas.Gn Verif.Gn Verif.Spec Verif.Spec.GN Verif.Lemmas

/-- Four points on the axes, one unit away from the origin, paired with `a`, `b`, `c`, `d`. -/
def crossPairs (a b c d : P3 ℝ) : Pairings ℝ where
  pt2pt := [⟨0, 0, a, ⟨1, 0, 0⟩, 1⟩, ⟨1, 1, b, ⟨-1, 0, 0⟩, 1⟩, ⟨2, 2, c, ⟨0, 1, 0⟩, 1⟩, ⟨3, 3, d, ⟨0, -1, 0⟩, 1⟩]

/-- Parameters: no kernel, unit weights, no tolerance. -/
noncomputable def plainGn (n : Nat) : Params ℝ :=
  { linearizationPoint := some Pose3.identity, prior := none, minDelta := 0, maxCost := 0, pairWeights := ⟨1, 1, 1, 1, 1⟩, maxInner := n,
    kernel := .none, kernelParam := 1 }

theorem pair_jac (l t : P3 ℝ) :
    Err.composeJac l * se3ExpJac ⟨M3.one, t⟩ = !![1, 0, 0, 0, l.z, -l.y; 0, 1, 0, -l.z, 0, l.x; 0, 0, 1, l.y, -l.x, 0] := by
  ext i j
  fin_cases i <;> fin_cases j <;> simp [Matrix.mul_apply, Fin.sum_univ_succ, Err.composeJac, se3ExpJac, M3.one]

theorem cross_gradient (n : Nat) (a b c d t : P3 ℝ) :
    (system se3Env (plainGn n) (crossPairs a b c d) (uniform (crossPairs a b c d) 1) ⟨M3.one, t⟩).2 =
      ![4 * t.x - a.x - b.x - c.x - d.x, 4 * t.y - a.y - b.y - c.y - d.y, 4 * t.z - a.z - b.z - c.z - d.z,
        d.z - c.z, a.z - b.z, b.y - a.y + c.x - d.x] := by
  have hj : ∀ q : PtPair ℝ, Err.pt2ptJac q * se3Env.expJac ⟨M3.one, t⟩ = _ := fun q => pair_jac q.local t
  simp only [system, pointPart, otherPart, plainGn, crossPairs, uniform, List.length_cons, List.length_nil, List.replicate, List.zip_cons_cons, List.zip_nil_left,
    List.map_cons, List.map_nil, List.sum_cons, List.sum_nil, Option.elim_none, add_zero, term, hj, Prod.snd_add]
  funext i
  fin_cases i <;> simp [robust, kernelFactor, Matrix.mulVec, dotProduct, Fin.sum_univ_succ, Err.pt2pt, Pose3.composePoint, M3.mulVec, M3.one] <;> ring

theorem cross_matrix (n : Nat) (a b c d t : P3 ℝ) (v : Fin 6 → ℝ) :
    (system se3Env (plainGn n) (crossPairs a b c d) (uniform (crossPairs a b c d) 1) ⟨M3.one, t⟩).1.mulVec v =
      ![4 * v 0, 4 * v 1, 4 * v 2, 2 * v 3, 2 * v 4, 4 * v 5] := by
  have hj : ∀ q : PtPair ℝ, Err.pt2ptJac q * se3Env.expJac ⟨M3.one, t⟩ = _ := fun q => pair_jac q.local t
  simp only [system, pointPart, otherPart, plainGn, crossPairs, uniform, List.length_cons, List.length_nil, List.replicate, List.zip_cons_cons, List.zip_nil_left,
    List.map_cons, List.map_nil, List.sum_cons, List.sum_nil, Option.elim_none, add_zero, term, hj, Prod.fst_add, Matrix.add_mulVec]
  funext i
  fin_cases i <;> simp [robust, kernelFactor, Matrix.mulVec, dotProduct, Matrix.mul_apply, Fin.sum_univ_succ] <;> ring

theorem cross_cost (n : Nat) (a b c d : P3 ℝ) (T : Pose3 ℝ) :
    robustCost (plainGn n) (crossPairs a b c d) (uniform (crossPairs a b c d) 1) T =
      P3.distSq (T.composePoint ⟨1, 0, 0⟩) a + P3.distSq (T.composePoint ⟨-1, 0, 0⟩) b + P3.distSq (T.composePoint ⟨0, 1, 0⟩) c +
        P3.distSq (T.composePoint ⟨0, -1, 0⟩) d := by
  simp only [robustCost, plainGn, crossPairs, uniform, List.length_cons, List.length_nil, List.replicate, List.zip_cons_cons, List.zip_nil_left,
    List.map_cons, List.map_nil, List.sum_cons, List.sum_nil, add_zero, loss]
  simp [sqLen, Fin.sum_univ_succ, Err.pt2pt, P3.distSq, P3.normSq, P3.dot]
  ring

theorem cross_solve (M : Matrix (Fin 6) (Fin 6) ℝ) (k : ℝ) (hk : 0 < k)
    (hM : ∀ v : Fin 6 → ℝ, M.mulVec v = ![k * (4 * v 0), k * (4 * v 1), k * (4 * v 2), k * (2 * v 3), k * (2 * v 4), k * (4 * v 5)]) (g : Fin 6 → ℝ) :
    se3Env.solve M g = ![g 0 / (4 * k), g 1 / (4 * k), g 2 / (4 * k), g 3 / (2 * k), g 4 / (2 * k), g 5 / (4 * k)] := by
  have hne := hk.ne'
  have h := se3_good.solve M g ⟨![g 0 / (4 * k), g 1 / (4 * k), g 2 / (4 * k), g 3 / (2 * k), g 4 / (2 * k), g 5 / (4 * k)], by
    rw [hM]
    funext i
    fin_cases i <;> simp <;> field_simp⟩
  rw [hM] at h
  have h' : ∀ i, _ := fun i => congrFun h i
  funext i
  have := h' i
  fin_cases i <;> simp at this ⊢ <;> rw [← this] <;> field_simp

theorem cross_costs (n : Nat) (tbb : Bool) (a b c d : P3 ℝ) (T : Pose3 ℝ) :
    costPoints (plainGn n) (crossPairs a b c d).pt2pt (uniform (crossPairs a b c d) 1) T + costOther tbb (plainGn n) se3Env (crossPairs a b c d) T =
      robustCost (plainGn n) (crossPairs a b c d) (uniform (crossPairs a b c d) 1) T := by
  simp [costPoints, costOther, robustCost, robust, kernelFactor, loss, crossPairs, plainGn]

/-- The rotation by `c` about the vertical. -/
noncomputable def turnZ (c : ℝ) : Pose3 ℝ := ⟨⟨Real.cos c, -Real.sin c, 0, Real.sin c, Real.cos c, 0, 0, 0, 1⟩, 0⟩

theorem se3_turn {c : ℝ} (hc : 0 < c) : se3Exp ![0, 0, 0, 0, 0, c] = turnZ c := by
  have hs : Real.sqrt (c * c) = c := Real.sqrt_mul_self hc.le
  have h1 : Real.sinc c * c = Real.sin c := by rw [Real.sinc_of_ne_zero hc.ne']; field_simp
  have h2 : Real.sinc (c / 2) ^ 2 / 2 * (c * c) = 1 - Real.cos c := by
    have e : Real.cos c = 1 - 2 * Real.sin (c / 2) ^ 2 := by
      have h3 := Real.cos_two_mul (c / 2)
      have h4 := Real.sin_sq_add_cos_sq (c / 2)
      rw [show 2 * (c / 2) = c by ring] at h3
      linarith
    rw [Real.sinc_of_ne_zero (by positivity), e]
    field_simp
    ring
  simp only [se3Exp, turnZ]
  congr 1
  · ext <;> simp [M3.add, M3.one, M3.smul, crossMat, M3.mul, P3.normSq, P3.dot, hs] <;> linarith
  · ext <;> simp [P3.smul, P3.cross]

/-- C114 (full steps): they may go uphill, in both builds, without any kernel, and with the linear system solved exactly: the points are to turn by a right
angle, and their mates are `c` times as far.  The step turns by the angle `c`: the sum of the squared errors changes by `-8 c sin c`. -/
theorem gn_full_step_uphill (c : ℝ) (hc : 0 < c) (b : Build)
    (hb : Sound (crossPairs ⟨0, c, 0⟩ ⟨0, -c, 0⟩ ⟨-c, 0, 0⟩ ⟨c, 0, 0⟩) b) :
    ∃ r, run b se3Env (plainGn 1) (crossPairs ⟨0, c, 0⟩ ⟨0, -c, 0⟩ ⟨-c, 0, 0⟩ ⟨c, 0, 0⟩) = .ok r ∧ r.pose = turnZ c ∧
      (let cost := robustCost (plainGn 1) (crossPairs ⟨0, c, 0⟩ ⟨0, -c, 0⟩ ⟨-c, 0, 0⟩ ⟨c, 0, 0⟩)
          (uniform (crossPairs ⟨0, c, 0⟩ ⟨0, -c, 0⟩ ⟨-c, 0, 0⟩ ⟨c, 0, 0⟩) 1)
       cost r.pose = cost Pose3.identity - 8 * c * Real.sin c) := by
  set inp := crossPairs ⟨0, c, 0⟩ ⟨0, -c, 0⟩ ⟨-c, 0, 0⟩ ⟨c, 0, 0⟩ with hinp
  have hpw : inp.pointWeights = [] := rfl
  have hu : firstWeights (plainGn 1) inp = uniform inp 1 := by simp [firstWeights, hpw, plainGn]
  obtain ⟨cu, h1, -⟩ := first_pass (E := se3Env) (P := plainGn 1) hb Pose3.identity
  have hcost : firstCost b se3Env (plainGn 1) inp Pose3.identity = 4 * (1 + c * c) := by
    unfold firstCost
    rw [hu, cross_costs, cross_cost]
    simp [Pose3.composePoint, Pose3.identity, M3.mulVec, M3.one, P3.distSq, P3.normSq, P3.dot]
    ring
  have hsolve : -(se3Env.solve (system se3Env (plainGn 1) inp (uniform inp 1) Pose3.identity).1
      (system se3Env (plainGn 1) inp (uniform inp 1) Pose3.identity).2) = ![0, 0, 0, 0, 0, c] := by
    have e : (Pose3.identity : Pose3 ℝ) = ⟨M3.one, 0⟩ := rfl
    rw [e, hinp, cross_solve _ 1 one_pos (fun v => by simpa using cross_matrix 1 _ _ _ _ 0 v)]
    have := cross_gradient 1 ⟨0, c, 0⟩ ⟨0, -c, 0⟩ ⟨-c, 0, 0⟩ ⟨c, 0, 0⟩ 0
    rw [this]
    funext i
    fin_cases i <;> simp
    ring
  refine ⟨⟨turnZ c, [(Pose3.identity, system se3Env (plainGn 1) inp (uniform inp 1) Pose3.identity)], true⟩, ?_, rfl, ?_⟩
  · unfold run
    rw [hu] at h1
    have hl : (plainGn 1).linearizationPoint = some Pose3.identity := rfl
    have hn : (plainGn 1).maxInner = 0 + 1 := rfl
    have hpos : ¬ se3Env.sqrt (4 * (1 + c * c)) ≤ (plainGn 1).maxCost := by
      change ¬ Real.sqrt _ ≤ 0
      rw [not_le]
      positivity
    have hT : (Pose3.identity : Pose3 ℝ).compose (se3Env.exp ![0, 0, 0, 0, 0, c]) = turnZ c := by
      change Pose3.compose _ (se3Exp _) = _
      rw [se3_turn hc]
      unfold Pose3.compose Pose3.identity turnZ
      congr 1
      · ext <;> simp [M3.mul, M3.one]
      · ext <;> simp [M3.mulVec, M3.one]
    simp only [hl, hn, loop, h1, Outcome.bind, hcost, if_neg hpos, hsolve, hT]
    split <;> simp
  · simp only [hinp, cross_cost]
    have := Real.sin_sq_add_cos_sq c
    simp [Pose3.composePoint, Pose3.identity, turnZ, M3.mulVec, M3.one, P3.distSq, P3.normSq, P3.dot]
    linear_combination 4 * this

/-- ... and so it does for `c = 3 π / 2`. -/
theorem gn_full_step_uphill_case (b : Build) (hb : Sound (crossPairs ⟨0, 3 * Real.pi / 2, 0⟩ ⟨0, -(3 * Real.pi / 2), 0⟩ ⟨-(3 * Real.pi / 2), 0, 0⟩ ⟨3 * Real.pi / 2, 0, 0⟩) b) :
    ∃ inp r, inp = crossPairs ⟨0, 3 * Real.pi / 2, 0⟩ ⟨0, -(3 * Real.pi / 2), 0⟩ ⟨-(3 * Real.pi / 2), 0, 0⟩ ⟨3 * Real.pi / 2, 0, 0⟩ ∧
      run b se3Env (plainGn 1) inp = .ok r ∧
      robustCost (plainGn 1) inp (uniform inp 1) Pose3.identity < robustCost (plainGn 1) inp (uniform inp 1) r.pose := by
  obtain ⟨r, h1, -, h2⟩ := gn_full_step_uphill (3 * Real.pi / 2) (by positivity) b hb
  refine ⟨_, r, rfl, h1, ?_⟩
  have hs : Real.sin (3 * Real.pi / 2) = -1 := by
    have : 3 * Real.pi / 2 = Real.pi / 2 + Real.pi := by ring
    rw [this, Real.sin_add_pi, Real.sin_pi_div_two]
  simp only [hs] at h2
  rw [h2]
  have := Real.pi_pos
  linarith

/-- The points are to be moved by 5, and their mates are twice as far from their middle. -/
def farPairs : Pairings ℝ := crossPairs ⟨7, 0, 0⟩ ⟨3, 0, 0⟩ ⟨5, 2, 0⟩ ⟨5, -2, 0⟩

/-- The pose after the first step: the best one. -/
def farBest : Pose3 ℝ := ⟨M3.one, ⟨5, 0, 0⟩⟩

theorem far_stationary (n : Nat) : Stationary se3Env (plainGn n) farPairs (uniform farPairs 1) farBest := by
  rw [gn_stationary_iff_partial se3_derives se3_fixes (Or.inl rfl) rfl rfl]
  unfold farPairs farBest
  rw [cross_gradient]
  funext i
  fin_cases i <;> norm_num

theorem far_not_stationary (n : Nat) : ¬ Stationary se3Env (plainGn n) farPairs (uniform farPairs 1) Pose3.identity := by
  rw [gn_stationary_iff_partial se3_derives se3_fixes (Or.inl rfl) rfl rfl]
  unfold farPairs
  have e : (Pose3.identity : Pose3 ℝ) = ⟨M3.one, 0⟩ := rfl
  rw [e, cross_gradient]
  intro h
  have := congrFun h 0
  norm_num at this

theorem far_first (n : Nat) : -(se3Env.solve (system se3Env (plainGn n) farPairs (uniform farPairs 1) Pose3.identity).1
    (system se3Env (plainGn n) farPairs (uniform farPairs 1) Pose3.identity).2) = ![5, 0, 0, 0, 0, 0] := by
  have e : (Pose3.identity : Pose3 ℝ) = ⟨M3.one, 0⟩ := rfl
  unfold farPairs
  rw [e, cross_solve _ 1 one_pos (fun v => by simpa using cross_matrix n _ _ _ _ 0 v), cross_gradient]
  funext i
  fin_cases i <;> norm_num <;> rfl

theorem far_second (n : Nat) (S : Sys ℝ) (hS : S = system se3Env (plainGn n) farPairs (uniform farPairs 1) Pose3.identity +
    system se3Env (plainGn n) farPairs (uniform farPairs 1) farBest) : -(se3Env.solve S.1 S.2) = ![5 / 2, 0, 0, 0, 0, 0] := by
  have e : (Pose3.identity : Pose3 ℝ) = ⟨M3.one, 0⟩ := rfl
  have h2 : S.2 = ![-20, 0, 0, 0, 0, 0] := by
    simp only [hS, Prod.snd_add, farPairs, farBest, e, cross_gradient]
    funext i
    fin_cases i <;> norm_num
  rw [cross_solve S.1 2 two_pos (fun v => ?_), h2]
  · funext i
    fin_cases i <;> norm_num <;> rfl
  · simp only [hS, Prod.fst_add, Matrix.add_mulVec, farPairs, farBest, e, cross_matrix]
    funext i
    fin_cases i <;> simp <;> ring

theorem shift_steps (a b : ℝ) : (⟨M3.one, ⟨a, 0, 0⟩⟩ : Pose3 ℝ).compose (se3Env.exp ![b, 0, 0, 0, 0, 0]) = ⟨M3.one, ⟨a + b, 0, 0⟩⟩ := by
  have := se3_good.shift ⟨b, 0, 0⟩
  simp only at this
  rw [this]
  unfold Pose3.compose
  congr 1
  · ext <;> simp [M3.mul, M3.one]
  · ext <;> simp [M3.mulVec, M3.one]
    ring

/-- C114 (build without TBB, a case): the first step reaches the best pose, with a cost of 4; the second one leaves it for a pose with a cost of 29, which
is the result.  The hypotheses of `gn_serial_leaves_minimum` are met. -/
theorem gn_serial_overshoots : ∃ r q₀ q₁, run .serial se3Env (plainGn 2) farPairs = .ok r ∧ r.trace = [q₀, q₁] ∧ q₀.1 = Pose3.identity ∧ q₁.1 = farBest ∧
    ¬ Stationary se3Env (plainGn 2) farPairs (uniform farPairs 1) q₀.1 ∧ Stationary se3Env (plainGn 2) farPairs (uniform farPairs 1) q₁.1 ∧
    r.pose = ⟨M3.one, ⟨15 / 2, 0, 0⟩⟩ ∧ robustCost (plainGn 2) farPairs (uniform farPairs 1) q₁.1 = 4 ∧
    robustCost (plainGn 2) farPairs (uniform farPairs 1) r.pose = 29 := by
  have e : (Pose3.identity : Pose3 ℝ) = ⟨M3.one, 0⟩ := rfl
  have hc0 : robustCost (plainGn 2) farPairs (uniform farPairs 1) Pose3.identity = 104 := by
    simp only [farPairs, cross_cost]
    norm_num [Pose3.composePoint, Pose3.identity, M3.mulVec, M3.one, P3.distSq, P3.normSq, P3.dot]
  have hc1 : robustCost (plainGn 2) farPairs (uniform farPairs 1) farBest = 4 := by
    simp only [farPairs, cross_cost, farBest]
    norm_num [Pose3.composePoint, M3.mulVec, M3.one, P3.distSq, P3.normSq, P3.dot]
  have hc2 : robustCost (plainGn 2) farPairs (uniform farPairs 1) ⟨M3.one, ⟨15 / 2, 0, 0⟩⟩ = 29 := by
    simp only [farPairs, cross_cost]
    norm_num [Pose3.composePoint, M3.mulVec, M3.one, P3.distSq, P3.normSq, P3.dot]
  have s0 := far_first 2
  have s1 := far_second 2 _ rfl
  have t0 : (Pose3.identity : Pose3 ℝ).compose (se3Env.exp ![5, 0, 0, 0, 0, 0]) = farBest := by
    have := shift_steps 0 5
    rw [zero_add] at this
    exact this
  have t1 : farBest.compose (se3Env.exp ![5 / 2, 0, 0, 0, 0, 0]) = ⟨M3.one, ⟨15 / 2, 0, 0⟩⟩ := by
    have := shift_steps 5 (5 / 2)
    rw [show (5 : ℝ) + 5 / 2 = 15 / 2 by norm_num] at this
    exact this
  have hsq : ∀ x : ℝ, 0 < x → ¬ se3Env.sqrt x ≤ (plainGn 2).maxCost := by
    intro x hx
    change ¬ Real.sqrt _ ≤ 0
    rw [not_le]
    exact Real.sqrt_pos.mpr hx
  have hmd : ∀ x : ℝ, ¬ se3Env.sqrt x < (plainGn 2).minDelta := by
    intro x
    change ¬ Real.sqrt _ < 0
    exact not_lt.mpr (Real.sqrt_nonneg x)
  refine ⟨⟨⟨M3.one, ⟨15 / 2, 0, 0⟩⟩, [(Pose3.identity, system se3Env (plainGn 2) farPairs (uniform farPairs 1) Pose3.identity),
    (farBest, system se3Env (plainGn 2) farPairs (uniform farPairs 1) Pose3.identity + system se3Env (plainGn 2) farPairs (uniform farPairs 1) farBest)], true⟩,
    _, _, ?_, rfl, rfl, rfl, far_not_stationary 2, far_stationary 2, rfl, hc1, hc2⟩
  unfold run
  have hl : (plainGn 2).linearizationPoint = some Pose3.identity := rfl
  have hn : (plainGn 2).maxInner = 0 + 1 + 1 := rfl
  have hwt : (plainGn 2).pairWeights.pt2pt = 1 := rfl
  have hcc := fun T => cross_costs 2 false ⟨7, 0, 0⟩ ⟨3, 0, 0⟩ ⟨5, 2, 0⟩ ⟨5, -2, 0⟩ T
  change ∀ T, costPoints (plainGn 2) farPairs.pt2pt (uniform farPairs 1) T + costOther false (plainGn 2) se3Env farPairs T =
    robustCost (plainGn 2) farPairs (uniform farPairs 1) T at hcc
  simp only [hl, hn, loop, assemble_serial_plain se3Env (plainGn 2) farPairs rfl, Outcome.bind, hwt, hcc, hc0, zero_add, if_neg (hsq 104 (by norm_num)), s0, t0, hmd,
    if_false, hc1, if_neg (hsq 4 (by norm_num)), s1, t1]
  rfl

/-- One chunk. -/
def wholeSched : Nat → RTree × RTree := fun _ => (.chunk .idle 0 4, .idle)

theorem whole_valid (a b c d : P3 ℝ) : ValidSchedule (crossPairs a b c d) wholeSched := fun _ => ⟨rfl, rfl⟩

theorem whole_sound (a b c d : P3 ℝ) : Sound (crossPairs a b c d) (.tbb wholeSched) := .tbb rfl (whole_valid a b c d)

/-- The hypotheses of `gn_downhill_partial` and of `gn_rests_iff_partial` are met by the run of `gn_full_step_uphill_case`: though its step goes uphill, short steps in the
same direction go downhill; its guess is not stationary, and the pairings hold the body. -/
example : ∃ r q, run (.tbb wholeSched) se3Env (plainGn 1)
      (crossPairs ⟨0, 3 * Real.pi / 2, 0⟩ ⟨0, -(3 * Real.pi / 2), 0⟩ ⟨-(3 * Real.pi / 2), 0, 0⟩ ⟨3 * Real.pi / 2, 0, 0⟩) = .ok r ∧ q ∈ r.trace ∧ q.1 = Pose3.identity ∧
    ShortStepsLower se3Env (plainGn 1) (crossPairs ⟨0, 3 * Real.pi / 2, 0⟩ ⟨0, -(3 * Real.pi / 2), 0⟩ ⟨-(3 * Real.pi / 2), 0, 0⟩ ⟨3 * Real.pi / 2, 0, 0⟩) (uniform
      (crossPairs ⟨0, 3 * Real.pi / 2, 0⟩ ⟨0, -(3 * Real.pi / 2), 0⟩ ⟨-(3 * Real.pi / 2), 0, 0⟩ ⟨3 * Real.pi / 2, 0, 0⟩) 1) q.1 (-(se3Env.solve q.2.1 q.2.2)) ∧
    se3Env.solve q.2.1 q.2.2 ≠ 0 := by
  obtain ⟨r, hr, -⟩ := gn_full_step_uphill (3 * Real.pi / 2) (by positivity) _ (whole_sound _ _ _ _)
  obtain ⟨h1, -, h2, -⟩ := gn_steps _ _ _ _ Pose3.identity rfl r hr
  have hne : r.trace ≠ [] := fun h => by have := h1.mp h; simp [plainGn] at this
  obtain ⟨q, hq⟩ : ∃ q, r.trace[0]? = some q := ⟨r.trace[0]'(List.length_pos_iff.mpr hne), by simp⟩
  have hmem : q ∈ r.trace := List.mem_of_getElem? hq
  have hst : ¬ Stationary se3Env (plainGn 1) (crossPairs ⟨0, 3 * Real.pi / 2, 0⟩ ⟨0, -(3 * Real.pi / 2), 0⟩ ⟨-(3 * Real.pi / 2), 0, 0⟩ ⟨3 * Real.pi / 2, 0, 0⟩)
      (uniform (crossPairs ⟨0, 3 * Real.pi / 2, 0⟩ ⟨0, -(3 * Real.pi / 2), 0⟩ ⟨-(3 * Real.pi / 2), 0, 0⟩ ⟨3 * Real.pi / 2, 0, 0⟩) 1) q.1 := by
    rw [gn_stationary_iff_partial se3_derives se3_fixes (Or.inl rfl) rfl rfl, h2 q hq]
    have e : (Pose3.identity : Pose3 ℝ) = ⟨M3.one, 0⟩ := rfl
    rw [e, cross_gradient]
    intro h
    have := congrFun h 5
    have hp := Real.pi_pos
    simp at this
    linarith
  have hw : NonnegWeights (plainGn 1) (uniform (crossPairs ⟨0, 3 * Real.pi / 2, 0⟩ ⟨0, -(3 * Real.pi / 2), 0⟩ ⟨-(3 * Real.pi / 2), 0, 0⟩ ⟨3 * Real.pi / 2, 0, 0⟩) 1) :=
    ⟨fun w h => by rw [List.eq_of_mem_replicate h]; exact zero_le_one, zero_le_one, zero_le_one, zero_le_one⟩
  refine ⟨r, q, hr, hmem, h2 q hq, ?_, ?_⟩
  · rcases gn_downhill_partial se3_derives se3_fixes se3_good.solve (Or.inl rfl) rfl rfl rfl hw _ (whole_valid _ _ _ _) r hr q hmem with h | ⟨v, -, -, h⟩
    · exact absurd h hst
    · exact h
  · have hh : Holds (crossPairs ⟨0, 3 * Real.pi / 2, 0⟩ ⟨0, -(3 * Real.pi / 2), 0⟩ ⟨-(3 * Real.pi / 2), 0, 0⟩ ⟨3 * Real.pi / 2, 0, 0⟩) q.1.R := by
      rw [h2 q hq]
      refine points_hold ?_ ?_
      · constructor
        · ext <;> simp [Pose3.identity, M3.one, M3.mul, M3.transpose]
        · simp [Pose3.identity, M3.one, M3.det]
      · exact ⟨⟨1, 0, 0⟩, by simp [crossPairs], ⟨-1, 0, 0⟩, by simp [crossPairs], ⟨0, 1, 0⟩, by simp [crossPairs], by norm_num [P3.cross, P3.ext_iff]⟩
    have hpos : PositiveWeights (plainGn 1) (crossPairs ⟨0, 3 * Real.pi / 2, 0⟩ ⟨0, -(3 * Real.pi / 2), 0⟩ ⟨-(3 * Real.pi / 2), 0, 0⟩ ⟨3 * Real.pi / 2, 0, 0⟩) := by
      refine ⟨fun w h => ?_, one_pos, one_pos, one_pos, Or.inl rfl⟩
      rw [show firstWeights (plainGn 1) (crossPairs ⟨0, 3 * Real.pi / 2, 0⟩ ⟨0, -(3 * Real.pi / 2), 0⟩ ⟨-(3 * Real.pi / 2), 0, 0⟩ ⟨3 * Real.pi / 2, 0, 0⟩) =
        uniform (crossPairs ⟨0, 3 * Real.pi / 2, 0⟩ ⟨0, -(3 * Real.pi / 2), 0⟩ ⟨-(3 * Real.pi / 2), 0, 0⟩ ⟨3 * Real.pi / 2, 0, 0⟩) 1 from rfl] at h
      rw [List.eq_of_mem_replicate h]; exact one_pos
    intro h
    exact hst ((gn_rests_iff_partial se3_derives se3_fixes se3_good.deriv se3_good.solve rfl rfl rfl hpos _ (whole_valid _ _ _ _) r hr q hmem hh).mp h)

/-- The hypotheses of `gn_shift_never_uphill_partial` are met: a step of 5 without rotation. -/
example : ∃ r q, run (.tbb wholeSched) se3Env (plainGn 1) farPairs = .ok r ∧ q ∈ r.trace ∧ -(se3Env.solve q.2.1 q.2.2) = ![5, 0, 0, 0, 0, 0] ∧
    robustCost (plainGn 1) farPairs (uniform farPairs 1) (q.1.compose (se3Env.exp (-(se3Env.solve q.2.1 q.2.2)))) ≤
      robustCost (plainGn 1) farPairs (uniform farPairs 1) q.1 := by
  have hv : ValidSchedule farPairs wholeSched := whole_valid _ _ _ _
  obtain ⟨r, hr⟩ : ∃ r, run (.tbb wholeSched) se3Env (plainGn 1) farPairs = .ok r := by
    unfold run
    have hl : (plainGn 1).linearizationPoint = some Pose3.identity := rfl
    have hn : (plainGn 1).maxInner = 0 + 1 := rfl
    simp only [hl, hn, loop, assemble_tbb_plain se3Env (plainGn 1) farPairs rfl _ hv, Outcome.bind]
    split
    · exact ⟨_, rfl⟩
    · split <;> exact ⟨_, rfl⟩
  obtain ⟨h1, -, h2, -⟩ := gn_steps _ _ _ _ Pose3.identity rfl r hr
  have hne : r.trace ≠ [] := fun h => by have := h1.mp h; simp [plainGn] at this
  obtain ⟨q, hq⟩ : ∃ q, r.trace[0]? = some q := ⟨r.trace[0]'(List.length_pos_iff.mpr hne), by simp⟩
  have hmem : q ∈ r.trace := List.mem_of_getElem? hq
  have hw : NonnegWeights (plainGn 1) (uniform farPairs 1) :=
    ⟨fun w h => by rw [List.eq_of_mem_replicate h]; exact zero_le_one, zero_le_one, zero_le_one, zero_le_one⟩
  have hf := gn_tbb_fresh_partial _ _ _ rfl _ hv r hr q hmem
  have hstep : -(se3Env.solve q.2.1 q.2.2) = ![5, 0, 0, 0, 0, 0] := by
    rw [hf, h2 q hq]
    exact far_first 1
  exact ⟨r, q, hr, hmem, hstep, gn_shift_never_uphill_partial se3_good (Or.inl rfl) rfl rfl rfl hw ⟨zero_le_one, zero_le_one⟩ _ hv r hr q hmem ⟨5, 0, 0⟩ hstep⟩

end Verif.Props
