import Verif.Lemmas.Laguerre
import Verif.Props.DownhillCases
/-
C115: Gauss-Newton started with the rotation of the least-squares pose.
-/
namespace Verif.Props
open Verif.Gn Verif.Spec Verif.Spec.GN Verif.Lemmas Verif.Lemmas.GnS Verif.Lemmas.Lag Verif.Lemmas.Gn
set_option linter.unusedSectionVars false
variable {K : Type} [Field K] [LinearOrder K] [IsStrictOrderedRing K]

theorem back_shift {T : Pose3 K} (hR : IsRotation T.R) (t0 : P3 K) (c : K) :
    partWay T t0 c = ⟨T.R, T.t + T.R.mulVec (P3.smul c (T.R.transpose.mulVec (t0 - T.t)))⟩ := by
  have h := rot_back hR (t0 - T.t)
  have hs : T.R.mulVec (P3.smul c (T.R.transpose.mulVec (t0 - T.t))) = P3.smul c (T.R.mulVec (T.R.transpose.mulVec (t0 - T.t))) := by
    generalize T.R.transpose.mulVec (t0 - T.t) = a
    ext <;> simp [M3.mulVec, P3.smul] <;> ring
  rw [hs, h]
  rfl

theorem inc_smul (c : K) (a : P3 K) : inc (P3.smul c a) 0 = c • inc a 0 := by
  funext i
  fin_cases i <;> simp [inc, P3.smul]

/-- The pose after a step which takes `m` times the shift away. -/
theorem step_partWay {E : Env K} (hE : GoodEnv E) {T : Pose3 K} (hR : IsRotation T.R) (t0 : P3 K) (c m : K) :
    (partWay T t0 c).compose (E.exp (-(m • inc (T.R.transpose.mulVec (t0 - T.t)) 0))) = partWay T t0 (c - m) := by
  have e : -(m • inc (T.R.transpose.mulVec (t0 - T.t)) 0) =
      ![(P3.smul (-m) (T.R.transpose.mulVec (t0 - T.t))).x, (P3.smul (-m) (T.R.transpose.mulVec (t0 - T.t))).y,
        (P3.smul (-m) (T.R.transpose.mulVec (t0 - T.t))).z, 0, 0, 0] := by
    rw [← neg_smul, ← inc_smul]; rfl
  rw [e, hE.shift, back_shift hR, back_shift hR]
  unfold Pose3.compose
  congr 1
  · ext <;> simp [M3.mul, M3.one]
  · generalize T.R.transpose.mulVec (t0 - T.t) = a
    ext <;> simp [M3.mulVec, P3.smul] <;> ring

section
variable {E : Env K} {P : Params K} {inp : Pairings K}

/-- What is assumed of the pairings and the parameters: no kernel, no prior, no table of weights, no line paired with a line, positive weights. -/
structure PlainProblem (P : Params K) (inp : Pairings K) : Prop where
  kernel : P.kernel = .none
  noLines : inp.ln2ln = []
  noPrior : P.prior = none
  noTable : inp.pointWeights = []
  weights : PositiveWeights P inp

theorem plain_unique (hE : GoodEnv E) (hp : PlainProblem P inp) {T : Pose3 K} (hh : Holds inp T.R) (d : Fin 6 → K)
    (hz : (system E P inp (uniform inp P.pairWeights.pt2pt) T).1.mulVec d = 0) : d = 0 := by
  have hws : firstWeights P inp = uniform inp P.pairWeights.pt2pt := by simp [firstWeights, hp.noTable]
  have hpos := hp.weights.points
  rw [hws] at hpos
  exact system_unique (hE.deriv T) hh hp.noLines hp.noPrior (by simp [uniform]) hpos hp.weights.lines hp.weights.planes hp.weights.normals
    (Or.inl hp.kernel) d hz

theorem plain_system (hE : GoodEnv E) (hp : PlainProblem P inp) {T : Pose3 K} (hR : IsRotation T.R) (hb : Balanced E P inp T) (t0 : P3 K) (c : K) :
    system E P inp (uniform inp P.pairWeights.pt2pt) (partWay T t0 c) =
      (⟨(system E P inp (uniform inp P.pairWeights.pt2pt) T).1,
        c • (system E P inp (uniform inp P.pairWeights.pt2pt) T).1.mulVec (inc (T.R.transpose.mulVec (t0 - T.t)) 0)⟩ : Sys K) := by
  rw [back_shift hR, system_shift hE hp.kernel hp.noLines hp.noPrior, show (system E P inp (uniform inp P.pairWeights.pt2pt) T).2 = 0 from hb, zero_add,
    inc_smul, Matrix.mulVec_smul]

/-- The answer of the linear solver, when the matrix is a multiple of the one of the problem, and the right-hand side a multiple of its product with the shift. -/
theorem plain_solve (hE : GoodEnv E) (hp : PlainProblem P inp) {T : Pose3 K} (hh : Holds inp T.R) (a b : K) (ha : a ≠ 0) (d : Fin 6 → K) :
    E.solve (a • (system E P inp (uniform inp P.pairWeights.pt2pt) T).1) (b • (system E P inp (uniform inp P.pairWeights.pt2pt) T).1.mulVec d) =
      (b / a) • d := by
  have h := hE.solve (a • (system E P inp (uniform inp P.pairWeights.pt2pt) T).1)
    (b • (system E P inp (uniform inp P.pairWeights.pt2pt) T).1.mulVec d) ⟨(b / a) • d, by
      rw [Matrix.smul_mulVec, Matrix.mulVec_smul, smul_smul, mul_div_cancel₀ b ha]⟩
  have h2 : (system E P inp (uniform inp P.pairWeights.pt2pt) T).1.mulVec
      (E.solve (a • (system E P inp (uniform inp P.pairWeights.pt2pt) T).1)
        (b • (system E P inp (uniform inp P.pairWeights.pt2pt) T).1.mulVec d) - (b / a) • d) = 0 := by
    rw [Matrix.smul_mulVec] at h
    have h3 := congrArg (fun v => a⁻¹ • v) h
    simp only [smul_smul, inv_mul_cancel₀ ha, one_smul] at h3
    rw [Matrix.mulVec_sub, h3, Matrix.mulVec_smul, div_eq_inv_mul, sub_self]
  exact sub_eq_zero.mp (plain_unique hE hp hh _ h2)

theorem partWay_one (T : Pose3 K) (t0 : P3 K) : partWay T t0 1 = ⟨T.R, t0⟩ := by
  unfold partWay
  congr 1
  ext <;> simp [P3.smul]

theorem partWay_zero (T : Pose3 K) (t0 : P3 K) : partWay T t0 0 = T := by
  cases T
  unfold partWay
  congr 1
  ext <;> simp [P3.smul]

/-- C115 (partial), build with TBB: there is no kernel, the pairings hold the body, and at the pose `T` the weighted squared errors, which need not be zero, are
balanced.  From a guess with the rotation of `T` and any translation, the second iteration, and all later ones, are at `T`; `T` is returned, unless the cost at
the guess is already below the limit. -/
theorem gn_shift_least_squares_partial (hE : GoodEnv E) (hp : PlainProblem P inp) {T : Pose3 K} (hR : IsRotation T.R) (hh : Holds inp T.R)
    (hb : Balanced E P inp T) (t0 : P3 K) (hl : P.linearizationPoint = some ⟨T.R, t0⟩) (hn : 1 ≤ P.maxInner)
    (sched : Nat → RTree × RTree) (hs : ValidSchedule inp sched) (r : Run K) (h : run (.tbb sched) E P inp = .ok r) :
    (∀ k q, r.trace[k + 1]? = some q → q.1 = T) ∧
    (r.pose = T ∨ (E.sqrt (firstCost (.tbb sched) E P inp ⟨T.R, t0⟩) ≤ P.maxCost ∧ r.pose = ⟨T.R, t0⟩)) := by
  have hf := gn_tbb_fresh_partial E P inp hp.noTable sched hs r h
  obtain ⟨h1, -, h3, h4, -⟩ := gn_steps _ _ _ _ _ hl r h
  have hstep : ∀ q ∈ r.trace, ∀ c, q.1 = partWay T t0 c → q.1.compose (E.exp (-(E.solve q.2.1 q.2.2))) = T := by
    intro q hq c hc
    rw [hf q hq, hc, plain_system hE hp hR hb]
    have := plain_solve hE hp hh (1 : K) c one_ne_zero (inc (T.R.transpose.mulVec (t0 - T.t)) 0)
    rw [one_smul, div_one] at this
    rw [this, step_partWay hE hR, sub_self, partWay_zero]
  have hall : ∀ k q, r.trace[k + 1]? = some q → q.1 = T := by
    intro k
    induction k with
    | zero =>
      intro q hq
      obtain ⟨q0, hq0⟩ : ∃ q0, r.trace[0]? = some q0 :=
        ⟨r.trace[0]'(by have := (List.getElem?_eq_some_iff.mp hq).1; omega), by simp⟩
      rw [(h4 0 q0 q hq0 hq).1]
      exact hstep q0 (List.mem_of_getElem? hq0) 1 (by rw [partWay_one]; exact h3 q0 hq0)
    | succ k ih =>
      intro q hq
      obtain ⟨q0, hq0⟩ : ∃ q0, r.trace[k + 1]? = some q0 :=
        ⟨r.trace[k + 1]'(by have := (List.getElem?_eq_some_iff.mp hq).1; omega), by simp⟩
      rw [(h4 (k + 1) q0 q hq0 hq).1]
      exact hstep q0 (List.mem_of_getElem? hq0) 0 (by rw [partWay_zero]; exact ih q0 hq0)
  refine ⟨hall, ?_⟩
  have hne : r.trace ≠ [] := fun h => by have := h1.mp h; omega
  obtain ⟨-, hend⟩ := gn_stops_partial (.tbb sched) E P inp hp.noTable (by rintro s ⟨rfl⟩; exact hs) r h
  have hq := hend (r.trace.getLast hne) (List.getLast?_eq_some_getLast hne)
  set q := r.trace.getLast hne with hqd
  have hmem : q ∈ r.trace := List.getLast_mem hne
  obtain ⟨k, hk, hkq⟩ := List.mem_iff_getElem.mp hmem
  have hk' : r.trace[k]? = some q := by rw [List.getElem?_eq_getElem hk, hkq]
  cases k with
  | zero =>
    have hq0 := h3 q hk'
    rcases hq with ⟨hq1, hq2⟩ | ⟨-, hq2, -⟩
    · right
      refine ⟨?_, by rw [hq2, hq0]⟩
      rw [hq0] at hq1
      simpa [firstCost, firstWeights, hp.noTable, plainCost, isParallel] using hq1
    · left
      rw [hq2]
      exact hstep q hmem 1 (by rw [partWay_one]; exact hq0)
  | succ k =>
    left
    rcases hq with ⟨-, hq2⟩ | ⟨-, hq2, -⟩
    · rw [hq2]; exact hall k q hk'
    · rw [hq2]
      exact hstep q hmem 0 (by rw [partWay_zero]; exact hall k q hk')

/-- C115, build without TBB: under the same conditions, at the iteration number `n` (from zero) the error of the position is the initial one times the value at 1 of the
Laguerre polynomial of degree `n`: 1, 0, -1/2, -2/3, -5/8, -7/15, … -/
theorem gn_serial_laguerre (hE : GoodEnv E) (hp : PlainProblem P inp) {T : Pose3 K} (hR : IsRotation T.R) (hh : Holds inp T.R)
    (hb : Balanced E P inp T) (t0 : P3 K) (hl : P.linearizationPoint = some ⟨T.R, t0⟩) (r : Run K) (h : run .serial E P inp = .ok r) :
    (∀ n q, r.trace[n]? = some q → q.1 = partWay T t0 (laguerre K n)) ∧
    (∀ q, r.trace.getLast? = some q →
      (E.sqrt (plainCost false E P inp q.1) ≤ P.maxCost ∧ r.pose = q.1) ∨
      (r.pose = partWay T t0 (laguerre K r.trace.length) ∧ (E.sqrt (sqLen (-(E.solve q.2.1 q.2.2))) < P.minDelta ∨ r.trace.length = P.maxInner))) := by
  have ha := gn_serial_accumulates E P inp hp.noTable r h
  obtain ⟨-, -, h3, h4, -⟩ := gn_steps _ _ _ _ _ hl r h
  set H := (system E P inp (uniform inp P.pairWeights.pt2pt) T).1 with hH
  set d := inc (T.R.transpose.mulVec (t0 - T.t)) 0 with hd
  have hall : ∀ n q, r.trace[n]? = some q → q.1 = partWay T t0 (laguerre K n) ∧
      q.2 = (⟨((n : K) + 1) • H, (∑ j ∈ Finset.range (n + 1), laguerre K j) • H.mulVec d⟩ : Sys K) ∧
      q.1.compose (E.exp (-(E.solve q.2.1 q.2.2))) = partWay T t0 (laguerre K (n + 1)) := by
    intro n
    induction n with
    | zero =>
      intro q hq
      have hq1 : q.1 = partWay T t0 (laguerre K 0) := by rw [laguerre_zero, partWay_one]; exact h3 q hq
      have hq2 : q.2 = (⟨(((0 : Nat) : K) + 1) • H, (∑ j ∈ Finset.range (0 + 1), laguerre K j) • H.mulVec d⟩ : Sys K) := by
        rw [gn_serial_first_fresh_partial E P inp hp.noTable r h q hq, hq1, plain_system hE hp hR hb]
        simp [hH, hd]
      refine ⟨hq1, hq2, ?_⟩
      have hne : ((0 : Nat) : K) + 1 ≠ 0 := by positivity
      rw [hq2, hq1, plain_solve hE hp hh _ _ hne, step_partWay hE hR, laguerre_step]
    | succ n ih =>
      intro q hq
      have hlen : n + 1 < r.trace.length := (List.getElem?_eq_some_iff.mp hq).1
      obtain ⟨q0, hq0⟩ : ∃ q0, r.trace[n]? = some q0 := ⟨r.trace[n]'(by omega), by simp⟩
      obtain ⟨i1, i2, i3⟩ := ih q0 hq0
      have hq1 : q.1 = partWay T t0 (laguerre K (n + 1)) := by rw [(h4 n q0 q hq0 hq).1, i3]
      have hq2 : q.2 = (⟨(((n + 1 : Nat) : K) + 1) • H, (∑ j ∈ Finset.range (n + 1 + 1), laguerre K j) • H.mulVec d⟩ : Sys K) := by
        have e : q.2 = q0.2 + system E P inp (uniform inp P.pairWeights.pt2pt) q.1 := by
          rw [ha (n + 1) q hq, ha n q0 hq0, List.take_succ (i := n + 1), hq]
          simp
        rw [e, i2, hq1, plain_system hE hp hR hb, Finset.sum_range_succ _ (n + 1)]
        ext1
        · simp only [Prod.fst_add, ← hH]; push_cast; module
        · simp only [Prod.snd_add, ← hH, ← hd]; module
      refine ⟨hq1, hq2, ?_⟩
      have hne : (((n + 1 : Nat) : K) + 1) ≠ 0 := by positivity
      rw [hq2, hq1, plain_solve hE hp hh _ _ hne, step_partWay hE hR, laguerre_step (n + 1)]
  refine ⟨fun n q hq => (hall n q hq).1, fun q hq => ?_⟩
  obtain ⟨-, hend⟩ := gn_stops_partial .serial E P inp hp.noTable (by rintro s ⟨⟩) r h
  rcases hend q hq with h5 | ⟨-, h6, h7⟩
  · exact Or.inl h5
  · right
    refine ⟨?_, h7⟩
    have hlast : r.trace[r.trace.length - 1]? = some q := by rw [← List.getLast?_eq_getElem?]; exact hq
    have hpos : 0 < r.trace.length := by
      have := (List.getElem?_eq_some_iff.mp hlast).1
      omega
    rw [h6, (hall _ q hlast).2.2, Nat.sub_add_cancel hpos]

end

/-! ### a case -/

theorem far_plain (n : Nat) : PlainProblem (plainGn n) farPairs where
  kernel := rfl
  noLines := rfl
  noPrior := rfl
  noTable := rfl
  weights := by
    refine ⟨fun w h => ?_, one_pos, one_pos, one_pos, Or.inl rfl⟩
    rw [show firstWeights (plainGn n) farPairs = uniform farPairs 1 from rfl] at h
    rw [List.eq_of_mem_replicate h]; exact one_pos

theorem far_rot : IsRotation farBest.R := by
  constructor
  · ext <;> simp [farBest, M3.one, M3.mul, M3.transpose]
  · simp [farBest, M3.one, M3.det]

theorem far_holds : Holds farPairs farBest.R :=
  points_hold far_rot ⟨⟨1, 0, 0⟩, by simp [farPairs, crossPairs], ⟨-1, 0, 0⟩, by simp [farPairs, crossPairs], ⟨0, 1, 0⟩, by simp [farPairs, crossPairs],
    by norm_num [P3.cross, P3.ext_iff]⟩

theorem far_balanced (n : Nat) : GN.Balanced se3Env (plainGn n) farPairs farBest := by
  unfold GN.Balanced
  change (system se3Env (plainGn n) farPairs (uniform farPairs 1) farBest).2 = 0
  unfold farPairs farBest
  rw [cross_gradient]
  funext i
  fin_cases i <;> norm_num

theorem far_cost (n : Nat) (c : ℝ) : plainCost false se3Env (plainGn n) farPairs (partWay farBest 0 c) = 4 + 100 * c ^ 2 := by
  unfold plainCost
  change costPoints (plainGn n) farPairs.pt2pt (uniform farPairs 1) _ + _ = _
  unfold farPairs
  rw [cross_costs, cross_cost]
  simp only [partWay, farBest, Pose3.composePoint, M3.mulVec, M3.one, P3.distSq, P3.normSq, P3.dot, P3.smul, P3.add_x, P3.add_y, P3.add_z, P3.sub_x, P3.sub_y, P3.sub_z,
    P3.zero_x, P3.zero_y, P3.zero_z]
  ring

theorem laguerre_five : laguerre ℝ 5 = -7 / 15 := by
  norm_num [laguerre, Finset.sum_range_succ, Nat.choose, Nat.factorial]

/-- With 5 iterations, the number in use by default, the build without TBB ends 7/3 beyond the best position, after a guess 5 short of it. -/
theorem gn_serial_five : ∃ r, run .serial se3Env (plainGn 5) farPairs = .ok r ∧ r.pose = ⟨M3.one, ⟨5 + 7 / 3, 0, 0⟩⟩ := by
  obtain ⟨r, hr⟩ := gn_serial_total se3Env (plainGn 5) farPairs Pose3.identity rfl ⟨by simp [farPairs, crossPairs], fun h => absurd rfl h⟩
  refine ⟨r, hr, ?_⟩
  have hl : (plainGn 5).linearizationPoint = some ⟨farBest.R, 0⟩ := rfl
  obtain ⟨h1, -⟩ := gn_steps _ _ _ _ _ hl r hr
  have hne : r.trace ≠ [] := fun h => by have := h1.mp h; simp [plainGn] at this
  obtain ⟨h2, h3⟩ := gn_serial_laguerre se3_good (far_plain 5) far_rot far_holds (far_balanced 5) 0 hl r hr
  have hlast : r.trace[r.trace.length - 1]? = some (r.trace.getLast hne) := by
    rw [← List.getLast?_eq_getElem?]; exact List.getLast?_eq_some_getLast hne
  rcases h3 _ (List.getLast?_eq_some_getLast hne) with ⟨h4, -⟩ | ⟨h4, h5 | h5⟩
  · exfalso
    rw [h2 _ _ hlast, far_cost] at h4
    change Real.sqrt _ ≤ 0 at h4
    have : 0 < Real.sqrt (4 + 100 * laguerre ℝ (r.trace.length - 1) ^ 2) := Real.sqrt_pos.mpr (by positivity)
    linarith
  · exfalso
    change Real.sqrt _ < 0 at h5
    exact absurd h5 (not_lt.mpr (Real.sqrt_nonneg _))
  · rw [h4, h5, show (plainGn 5).maxInner = 5 from rfl, laguerre_five]
    unfold partWay farBest
    congr 1
    ext <;> norm_num [P3.smul]

/-- With TBB, the best position is found. -/
example : ∃ r, run (.tbb wholeSched) se3Env (plainGn 5) farPairs = .ok r ∧ r.pose = farBest := by
  obtain ⟨r, hr⟩ : ∃ r, run (.tbb wholeSched) se3Env (plainGn 5) farPairs = .ok r := by
    have hA : ∀ n k T sys tr, ∃ r, loop (.tbb wholeSched) se3Env (plainGn 5) farPairs n k T sys ⟨1, [], 0⟩ tr = .ok r := by
      intro n
      induction n with
      | zero => intro k T sys tr; exact ⟨_, rfl⟩
      | succ n ih =>
        intro k T sys tr
        simp only [loop, assemble_tbb_plain se3Env (plainGn 5) farPairs rfl _ (whole_valid _ _ _ _ : ValidSchedule farPairs wholeSched), Outcome.bind]
        split
        · exact ⟨_, rfl⟩
        · split
          · exact ⟨_, rfl⟩
          · exact ih _ _ _ _
    exact hA 5 0 _ _ _
  refine ⟨r, hr, ?_⟩
  have hl : (plainGn 5).linearizationPoint = some ⟨farBest.R, 0⟩ := rfl
  rcases (gn_shift_least_squares_partial se3_good (far_plain 5) far_rot far_holds (far_balanced 5) 0 hl (by simp [plainGn]) _ (whole_valid _ _ _ _) r hr).2 with h | ⟨h, -⟩
  · exact h
  · exfalso
    have hc : firstCost (.tbb wholeSched) se3Env (plainGn 5) farPairs ⟨farBest.R, 0⟩ = 104 := by
      change costPoints (plainGn 5) farPairs.pt2pt (uniform farPairs 1) _ + costOther true (plainGn 5) se3Env farPairs _ = _
      unfold farPairs
      rw [cross_costs, cross_cost]
      norm_num [farBest, Pose3.composePoint, M3.mulVec, M3.one, P3.distSq, P3.normSq, P3.dot]
    rw [hc] at h
    change Real.sqrt 104 ≤ 0 at h
    have : 0 < Real.sqrt 104 := Real.sqrt_pos.mpr (by norm_num)
    linarith

end Verif.Props
