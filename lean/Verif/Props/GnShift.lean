import Verif.Lemmas.GnShift
import Verif.Props.GnMore
import Verif.Props.GnFrame
/-
C111: Gauss-Newton takes away an error of pure translation in one step.
-/
namespace Verif.Props
open Verif Verif.Gn Verif.Spec Verif.Spec.GN Verif.Lemmas.Gn
open Verif.Lemmas.GnS
set_option linter.unusedSectionVars false
variable {K : Type} [Field K] [LinearOrder K] [IsStrictOrderedRing K]

theorem shift_aligned_ln {q : PtLnPair K} {T : Pose3 K} (hu : q.lnGlobal.director.normSq = 1) (h : OnLine q.lnGlobal (T.composePoint q.ptLocal)) :
    Err.pt2ln q T = 0 := by
  obtain ⟨s, hs⟩ := h
  simp only [P3.normSq, P3.dot] at hu
  funext i
  fin_cases i <;> simp [Err.pt2ln, hs, P3.dot]
  · linear_combination -(s * q.lnGlobal.director.x) * hu
  · linear_combination -(s * q.lnGlobal.director.y) * hu
  · linear_combination -(s * q.lnGlobal.director.z) * hu

theorem shift_aligned_pt {q : PtPair K} {T : Pose3 K} (h : T.composePoint q.local = q.global) : Err.pt2pt q T = 0 := by
  funext i
  fin_cases i <;> simp [Err.pt2pt, h]

theorem shift_aligned_pl {q : PtPlPair K} {T : Pose3 K} (h : OnPlane q.plGlobal.plane (T.composePoint q.ptLocal)) : Err.pt2pl q T = 0 := by
  simp only [OnPlane, P3.dot] at h
  funext i
  fin_cases i <;> simp [Err.pt2pl, h]

theorem shift_aligned_nm {q : PlPair K} {T : Pose3 K} (h : T.R.mulVec q.pLocal.plane.n = q.pGlobal.plane.n) : Err.pl2pl q T = 0 := by
  funext i
  fin_cases i <;> simp [Err.pl2pl, h]

/-- Linearised residuals that all vanish after the increment `d` give a solution. -/
theorem shift_system {E : Env K} {P : Params K} {inp : Pairings K} {ws : List K} {T : Pose3 K} (hprior : P.prior = none) (hln : inp.ln2ln = [])
    (d : Fin 6 → K) (h1 : ∀ q ∈ inp.pt2pt, Err.pt2pt q T + (Err.pt2ptJac q * E.expJac T).mulVec d = 0)
    (h2 : ∀ q ∈ inp.pt2ln, Err.pt2ln q T + (Err.pt2lnJac q * E.expJac T).mulVec d = 0)
    (h3 : ∀ q ∈ inp.pt2pl, Err.pt2pl q T + (Err.pt2plJac q * E.expJac T).mulVec d = 0)
    (h4 : ∀ q ∈ inp.pl2pl, Err.pl2pl q T + (Err.pl2plJac q * E.expJac T).mulVec d = 0) :
    (system E P inp ws T).1.mulVec d + (system E P inp ws T).2 = 0 := by
  have a1 := sum_solved (inp.pt2pt.zip ws) (fun q => term (E.expJac T) (robust P q.2 (Err.pt2pt q.1 T)) (Err.pt2ptJac q.1) (Err.pt2pt q.1 T)) d
    (fun q hq => term_solved _ _ _ _ _ (h1 q.1 (List.of_mem_zip hq).1))
  have a2 := sum_solved inp.pt2ln (fun q => term (E.expJac T) (robust P P.pairWeights.pt2ln (Err.pt2ln q T)) (Err.pt2lnJac q) (Err.pt2ln q T)) d
    (fun q hq => term_solved _ _ _ _ _ (h2 q hq))
  have a3 := sum_solved inp.pt2pl (fun q => term (E.expJac T) (robust P P.pairWeights.pt2pl (Err.pt2pl q T)) (Err.pt2plJac q) (Err.pt2pl q T)) d
    (fun q hq => term_solved _ _ _ _ _ (h3 q hq))
  have a4 := sum_solved inp.pl2pl (fun q => term (E.expJac T) (robust P P.pairWeights.pl2pl (Err.pl2pl q T)) (Err.pl2plJac q) (Err.pl2pl q T)) d
    (fun q hq => term_solved _ _ _ _ _ (h4 q hq))
  simp only [system, pointPart, otherPart, hprior, hln, List.map_nil, List.sum_nil, Option.elim_none, add_zero, Prod.fst_add, Prod.snd_add,
    Matrix.add_mulVec]
  generalize (List.map (fun q : PtPair K × K => term (E.expJac T) (robust P q.2 (Err.pt2pt q.1 T)) (Err.pt2ptJac q.1) (Err.pt2pt q.1 T))
    (inp.pt2pt.zip ws)).sum = s1 at *
  generalize (List.map (fun q => term (E.expJac T) (robust P P.pairWeights.pt2ln (Err.pt2ln q T)) (Err.pt2lnJac q) (Err.pt2ln q T)) inp.pt2ln).sum
    = s2 at *
  generalize (List.map (fun q => term (E.expJac T) (robust P P.pairWeights.pt2pl (Err.pt2pl q T)) (Err.pt2plJac q) (Err.pt2pl q T)) inp.pt2pl).sum
    = s3 at *
  generalize (List.map (fun q => term (E.expJac T) (robust P P.pairWeights.pl2pl (Err.pl2pl q T)) (Err.pl2plJac q) (Err.pl2pl q T)) inp.pl2pl).sum
    = s4 at *
  have : s1.1.mulVec d + (s2.1.mulVec d + s3.1.mulVec d + s4.1.mulVec d) + (s1.2 + (s2.2 + s3.2 + s4.2)) =
      (s1.1.mulVec d + s1.2) + (s2.1.mulVec d + s2.2) + (s3.1.mulVec d + s3.2) + (s4.1.mulVec d + s4.2) := by abel
  rw [this, a1, a2, a3, a4]
  simp

/-- The first pass of every sound build assembles the fresh system with the first weights. -/
theorem first_pass {b : Build} {E : Env K} {P : Params K} {inp : Pairings K} (hb : Sound inp b) (T0 : Pose3 K) :
    ∃ c, assemble b E P inp 0 T0 0 ⟨P.pairWeights.pt2pt, inp.pointWeights, 0⟩ =
        .ok (⟨system E P inp (firstWeights P inp) T0, firstCost b E P inp T0⟩, c) ∧
      ∀ k T sys, ∃ sys' ws, assemble b E P inp k T sys c =
        .ok (⟨sys', costPoints P inp.pt2pt ws T + costOther (isParallel b) P E inp T⟩, c) := by
  cases hb with
  | serial hc =>
    by_cases hw : inp.pointWeights = []
    · refine ⟨⟨P.pairWeights.pt2pt, inp.pointWeights, 0⟩, ?_, fun k T sys => ⟨_, _, assemble_serial_plain E P inp hw k T sys _⟩⟩
      rw [assemble_serial_plain E P inp hw]
      simp only [firstWeights, hw, if_true, firstCost, zero_add, isParallel]
    · obtain ⟨c, m, w, -, h1, h2⟩ := serial_table_passes E P inp hw hc P.pairWeights.pt2pt T0
      refine ⟨c, ?_, fun k T sys => ⟨_, _, h2 k T sys⟩⟩
      rw [h1]
      simp only [firstWeights, hw, if_false, firstCost, zero_add, isParallel]
  | tbb hw hs =>
    refine ⟨⟨P.pairWeights.pt2pt, inp.pointWeights, 0⟩, ?_, fun k T sys => ⟨_, _, assemble_tbb_plain E P inp hw _ hs k T sys _⟩⟩
    rw [assemble_tbb_plain E P inp hw _ hs]
    simp only [firstWeights, hw, if_true, firstCost, isParallel]

theorem firstWeights_length {P : Params K} {inp : Pairings K} {b : Build} (hb : Sound inp b) :
    inp.pt2pt.length ≤ (firstWeights P inp).length := by
  unfold firstWeights
  split
  · simp [uniform]
  · rename_i h
    cases hb with
    | tbb hw _ => exact absurd hw h
    | serial hc =>
      rw [← hc.2 h]
      simp [ExpandWeights, List.length_flatMap]

theorem shift_exact_solution {E : Env K} (hE : GoodEnv E) {P : Params K} {inp : Pairings K} {ws : List K} {T : Pose3 K} (hR : IsRotation T.R)
    (ha : ExactlyAligned inp T) (hprior : P.prior = none) (t0 : P3 K) :
    (system E P inp ws ⟨T.R, t0⟩).1.mulVec (inc (shiftInc T t0) 0) + (system E P inp ws ⟨T.R, t0⟩).2 = 0 := by
  have hD := hE.deriv ⟨T.R, t0⟩
  refine shift_system hprior ha.noLines _ ?_ ?_ ?_ ?_
  · exact fun q hq => shift_residual hR t0 (pt2pt_exact q _) hD (shift_aligned_pt (ha.pts q hq))
  · exact fun q hq => shift_residual hR t0 (pt2ln_exact q _) hD (shift_aligned_ln (ha.lns q hq).1 (ha.lns q hq).2)
  · exact fun q hq => shift_residual hR t0 (pt2pl_exact q _) hD (shift_aligned_pl (ha.pls q hq))
  · exact fun q hq => shift_residual hR t0 (pl2pl_exact q _) hD (shift_aligned_nm (ha.nms q hq))

/-- C111 (partial): the pairings are exactly aligned by `T` and hold the body; the guess has the rotation of `T` and any translation.  Then one step of the
optimization, in every build and schedule, with any robust kernel and weights by blocks, leads exactly to `T`, which is returned (at the latest
after the cost of the second iteration is seen to be zero); unless the cost at the guess is already below the limit, and then the guess is
returned.  Missing: line-to-line pairings, for which it is false (C62); a prior; floating-point numbers. -/
theorem gn_shift_one_step_partial {E : Env K} (hE : GoodEnv E) {P : Params K} {inp : Pairings K} {T : Pose3 K} (hR : IsRotation T.R)
    (ha : ExactlyAligned inp T) (hh : Holds inp T.R) (hw : PositiveWeights P inp) (hprior : P.prior = none) (t0 : P3 K)
    (hl : P.linearizationPoint = some ⟨T.R, t0⟩) (hc : 0 ≤ P.maxCost) (hn : 1 ≤ P.maxInner) {b : Build} (hb : Sound inp b) :
    ∃ r, run b E P inp = .ok r ∧ r.trace.length ≤ 2 ∧
      ((E.sqrt (firstCost b E P inp ⟨T.R, t0⟩) ≤ P.maxCost ∧ r.pose = ⟨T.R, t0⟩) ∨
       (P.maxCost < E.sqrt (firstCost b E P inp ⟨T.R, t0⟩) ∧ r.pose = T)) := by
  have hD := hE.deriv ⟨T.R, t0⟩
  have hs0 : E.sqrt 0 = 0 := by
    have := (hE.sqrt 0 le_rfl).2
    simpa using this
  obtain ⟨c, h1, h2⟩ := first_pass (E := E) (P := P) hb ⟨T.R, t0⟩
  obtain ⟨n, hn⟩ : ∃ n, P.maxInner = n + 1 := ⟨P.maxInner - 1, by omega⟩
  set S := system E P inp (firstWeights P inp) ⟨T.R, t0⟩ with hS
  have hsol : S.1.mulVec (inc (shiftInc T t0) 0) + S.2 = 0 := shift_exact_solution hE hR ha hprior t0
  have hcons : S.1.mulVec (E.solve S.1 S.2) = S.2 :=
    hE.solve S.1 S.2 ⟨-(inc (shiftInc T t0) 0), by rw [Matrix.mulVec_neg]; exact (eq_neg_of_add_eq_zero_right hsol).symm⟩
  have hδ : -(E.solve S.1 S.2) = inc (shiftInc T t0) 0 := by
    have hz : S.1.mulVec (inc (shiftInc T t0) 0 + E.solve S.1 S.2) = 0 := by rw [Matrix.mulVec_add, hcons, hsol]
    have := system_unique hD hh ha.noLines hprior (firstWeights_length hb) hw.points hw.lines hw.planes hw.normals hw.kernel _ hz
    exact (eq_neg_of_add_eq_zero_left this).symm
  have hT' : (⟨T.R, t0⟩ : Pose3 K).compose (E.exp (-(E.solve S.1 S.2))) = T := by
    rw [hδ]
    have := hE.shift (shiftInc T t0)
    have e : inc (shiftInc T t0) 0 = ![(shiftInc T t0).x, (shiftInc T t0).y, (shiftInc T t0).z, 0, 0, 0] := rfl
    rw [e, this]
    have hb' := rot_back hR (T.t - t0)
    cases T with
    | mk R t =>
      simp only [Pose3.compose, shiftInc] at hb' ⊢
      congr 1
      · ext <;> simp [M3.mul, M3.one]
      · rw [hb']; ext <;> simp
  unfold run
  simp only [hl, hn, loop, h1, Outcome.bind]
  by_cases hcost : E.sqrt (firstCost b E P inp ⟨T.R, t0⟩) ≤ P.maxCost
  · rw [if_pos hcost]
    exact ⟨_, rfl, by simp, Or.inl ⟨hcost, rfl⟩⟩
  · rw [if_neg hcost]
    by_cases hd : E.sqrt (sqNorm (-(E.solve S.1 S.2))) < P.minDelta
    · simp only [hd, if_true]
      exact ⟨_, rfl, by simp, Or.inr ⟨not_le.mp hcost, hT'⟩⟩
    · simp only [hd, if_false, hT']
      cases n with
      | zero => exact ⟨_, rfl, by simp, Or.inr ⟨not_le.mp hcost, rfl⟩⟩
      | succ n =>
        obtain ⟨sys', ws, h3⟩ := h2 1 T S
        simp only [loop, h3, Outcome.bind, costPoints_aligned_aux P inp T ha, costOther_aligned_aux _ E P inp T ha, add_zero, hs0, if_pos hc, zero_add]
        exact ⟨_, rfl, by simp, Or.inr ⟨not_le.mp hcost, rfl⟩⟩

theorem list_sum_zero {l : List K} (hp : ∀ x ∈ l, 0 ≤ x) (h : l.sum = 0) : ∀ x ∈ l, x = 0 := by
  induction l with
  | nil => simp
  | cons a l ih =>
    have h1 := hp a (List.mem_cons_self ..)
    have h2 := List.sum_nonneg fun x hx => hp x (List.mem_cons_of_mem _ hx)
    rw [List.sum_cons] at h
    intro x hx
    rcases List.mem_cons.mp hx with rfl | hx
    · linarith
    · exact ih (fun x hx => hp x (List.mem_cons_of_mem _ hx)) (by linarith) x hx

/-- No cost: every error is zero. -/
theorem no_cost {b : Build} {E : Env K} {P : Params K} {inp : Pairings K} (hb : Sound inp b) (hw : PositiveWeights P inp) (hln : inp.ln2ln = [])
    {T : Pose3 K} : 0 ≤ firstCost b E P inp T ∧ (firstCost b E P inp T = 0 →
      (∀ q ∈ inp.pt2pt, Err.pt2pt q T = 0) ∧ (∀ q ∈ inp.pt2ln, Err.pt2ln q T = 0) ∧ (∀ q ∈ inp.pt2pl, Err.pt2pl q T = 0) ∧
      ∀ q ∈ inp.pl2pl, Err.pl2pl q T = 0) := by
  have hk := hw.kernel
  have p1 : ∀ x ∈ (inp.pt2pt.zip (firstWeights P inp)).map (fun q => robust P q.2 (Err.pt2pt q.1 T) * sqLen (Err.pt2pt q.1 T)), 0 ≤ x := by
    intro x hx
    obtain ⟨q, hq, rfl⟩ := List.mem_map.mp hx
    exact mul_nonneg (robust_pos hk (hw.points _ (List.of_mem_zip hq).2) _).le (sqLen_nonneg' _)
  have p2 : ∀ x ∈ inp.pt2ln.map (fun q => robust P P.pairWeights.pt2ln (Err.pt2ln q T) * robust P P.pairWeights.pt2ln (Err.pt2ln q T)
      * sqLen (Err.pt2ln q T)), 0 ≤ x := by
    intro x hx
    obtain ⟨q, hq, rfl⟩ := List.mem_map.mp hx
    exact mul_nonneg (mul_self_nonneg _) (sqLen_nonneg' _)
  have hf : ∀ q : PtPlPair K, 0 < (if isParallel b = true then 1 else robust P P.pairWeights.pt2pl (Err.pt2pl q T))
      * robust P P.pairWeights.pt2pl (Err.pt2pl q T) := by
    intro q
    have := robust_pos hk hw.planes (Err.pt2pl q T)
    split <;> positivity
  have p3 : ∀ x ∈ inp.pt2pl.map (fun q => (if isParallel b = true then 1 else
      robust P P.pairWeights.pt2pl (Err.pt2pl q T)) * robust P P.pairWeights.pt2pl (Err.pt2pl q T) * sqLen (Err.pt2pl q T)), 0 ≤ x := by
    intro x hx
    obtain ⟨q, hq, rfl⟩ := List.mem_map.mp hx
    exact mul_nonneg (hf q).le (sqLen_nonneg' _)
  have p4 : ∀ x ∈ inp.pl2pl.map (fun q => robust P P.pairWeights.pl2pl (Err.pl2pl q T) * robust P P.pairWeights.pl2pl (Err.pl2pl q T)
      * sqLen (Err.pl2pl q T)), 0 ≤ x := by
    intro x hx
    obtain ⟨q, hq, rfl⟩ := List.mem_map.mp hx
    exact mul_nonneg (mul_self_nonneg _) (sqLen_nonneg' _)
  have s1 := List.sum_nonneg p1
  have s2 := List.sum_nonneg p2
  have s3 := List.sum_nonneg p3
  have s4 := List.sum_nonneg p4
  unfold firstCost costPoints costOther
  rw [hln]
  simp only [List.map_nil, List.sum_nil, add_zero]
  refine ⟨by linarith, fun h => ⟨?_, ?_, ?_, ?_⟩⟩
  · intro q hq
    obtain ⟨w, hz⟩ := zip_has inp.pt2pt _ (firstWeights_length (P := P) hb) q hq
    exact weighted_zero (robust_pos hk (hw.points _ (List.of_mem_zip hz).2) _)
      (list_sum_zero p1 (by linarith) _ (List.mem_map.mpr ⟨(q, w), hz, rfl⟩))
  · intro q hq
    have := robust_pos hk hw.lines (Err.pt2ln q T)
    exact weighted_zero (mul_pos this this) (list_sum_zero p2 (by linarith) _ (List.mem_map.mpr ⟨q, hq, rfl⟩))
  · intro q hq
    exact weighted_zero (hf q) (list_sum_zero p3 (by linarith) _ (List.mem_map.mpr ⟨q, hq, rfl⟩))
  · intro q hq
    have := robust_pos hk hw.normals (Err.pl2pl q T)
    exact weighted_zero (mul_pos this this) (list_sum_zero p4 (by linarith) _ (List.mem_map.mpr ⟨q, hq, rfl⟩))

/-- C111 (partial): with the default limit of the cost, zero, the pose returned is the true one.  Missing: as in `gn_shift_one_step_partial`. -/
theorem gn_shift_exact_partial {E : Env K} (hE : GoodEnv E) {P : Params K} {inp : Pairings K} {T : Pose3 K} (hR : IsRotation T.R)
    (ha : ExactlyAligned inp T) (hh : Holds inp T.R) (hw : PositiveWeights P inp) (hprior : P.prior = none) (t0 : P3 K)
    (hl : P.linearizationPoint = some ⟨T.R, t0⟩) (hc : P.maxCost = 0) (hn : 1 ≤ P.maxInner) {b : Build} (hb : Sound inp b) :
    ∃ r, run b E P inp = .ok r ∧ r.trace.length ≤ 2 ∧ r.pose = T := by
  obtain ⟨r, h1, h2, h3⟩ := gn_shift_one_step_partial hE hR ha hh hw hprior t0 hl hc.ge hn hb
  refine ⟨r, h1, h2, ?_⟩
  rcases h3 with ⟨h3, h4⟩ | ⟨-, h4⟩
  · obtain ⟨hp, hz⟩ := no_cost (b := b) (E := E) hb hw ha.noLines (T := ⟨T.R, t0⟩)
    obtain ⟨n1, n2⟩ := hE.sqrt _ hp
    rw [hc] at h3
    have h0 : firstCost b E P inp ⟨T.R, t0⟩ = 0 := by rw [← n2, le_antisymm h3 n1]; simp
    obtain ⟨e1, e2, e3, e4⟩ := hz h0
    have hS0 : (system E P inp (firstWeights P inp) ⟨T.R, t0⟩).2 = 0 := by
      have := shift_system (E := E) (ws := firstWeights P inp) hprior ha.noLines 0 (T := ⟨T.R, t0⟩) (fun q hq => by rw [e1 q hq]; simp)
        (fun q hq => by rw [e2 q hq]; simp) (fun q hq => by rw [e3 q hq]; simp) (fun q hq => by rw [e4 q hq]; simp)
      simpa using this
    have hs := shift_exact_solution (P := P) (ws := firstWeights P inp) hE hR ha hprior t0
    rw [hS0, add_zero] at hs
    have hd := system_unique (hE.deriv ⟨T.R, t0⟩) hh ha.noLines hprior (firstWeights_length hb) hw.points hw.lines hw.planes hw.normals hw.kernel _ hs
    have hsh : shiftInc T t0 = 0 := by
      ext
      · exact congrFun hd 0
      · exact congrFun hd 1
      · exact congrFun hd 2
    have hb' := rot_back hR (T.t - t0)
    rw [shiftInc] at hsh
    rw [hsh] at hb'
    rw [h4]
    cases T with
    | mk R t =>
      simp only [Pose3.mk.injEq, true_and]
      have hx := congrArg P3.x hb'
      have hy := congrArg P3.y hb'
      have hz := congrArg P3.z hb'
      simp [M3.mulVec] at hx hy hz
      ext
      · linear_combination hx
      · linear_combination hy
      · linear_combination hz
  · exact h4

/-! ### whole registrations -/

/-- Three of the points are not on one line. -/
def NotOnALine (pts : List (P3 K)) : Prop := ∃ a ∈ pts, ∃ b ∈ pts, ∃ c ∈ pts, P3.cross (b - a) (c - a) ≠ 0

/-- Pairings of points hold the body unless the points are all on one line. -/
theorem points_hold {inp : Pairings K} {R : M3 K} (hR : IsRotation R) (h : NotOnALine (inp.pt2pt.map (·.local))) : Holds inp R := by
  intro v w hs
  have hv : ∀ a ∈ inp.pt2pt.map (·.local), v + P3.cross w a = 0 := by
    intro a ha
    obtain ⟨q, hq, rfl⟩ := List.mem_map.mp ha
    have h1 := hs.pts q hq
    unfold velocity at h1
    have h2 := Lemmas.rot_normSq hR (v + P3.cross w q.local)
    rw [h1] at h2
    exact normSq_eq_zero'.mp (by rw [← h2]; simp [P3.normSq, P3.dot])
  obtain ⟨a, ha, b, hb, c, hc, hne⟩ := h
  have ea := hv a ha
  have eb := hv b hb
  have ec := hv c hc
  simp only [P3.ext_iff, P3.cross, P3.add_x, P3.add_y, P3.add_z, P3.zero_x, P3.zero_y, P3.zero_z, P3.sub_x, P3.sub_y, P3.sub_z, ne_eq] at ea eb ec hne
  obtain ⟨a1, a2, a3⟩ := ea
  obtain ⟨b1, b2, b3⟩ := eb
  obtain ⟨c1, c2, c3⟩ := ec
  have hw : w = 0 := by
    by_contra hw0
    apply hne
    have k : ∀ i : K, i * w.x = 0 → i * w.y = 0 → i * w.z = 0 → i = 0 := by
      intro i h1 h2 h3
      by_contra hi
      apply hw0
      ext
      · exact (mul_eq_zero.mp h1).resolve_left hi
      · exact (mul_eq_zero.mp h2).resolve_left hi
      · exact (mul_eq_zero.mp h3).resolve_left hi
    -- both differences are parallel to `w`
    have p1 : w.y * (b.z - a.z) = w.z * (b.y - a.y) := by linear_combination b1 - a1
    have p2 : w.z * (b.x - a.x) = w.x * (b.z - a.z) := by linear_combination b2 - a2
    have p3 : w.x * (b.y - a.y) = w.y * (b.x - a.x) := by linear_combination b3 - a3
    have q1 : w.y * (c.z - a.z) = w.z * (c.y - a.y) := by linear_combination c1 - a1
    have q2 : w.z * (c.x - a.x) = w.x * (c.z - a.z) := by linear_combination c2 - a2
    have q3 : w.x * (c.y - a.y) = w.y * (c.x - a.x) := by linear_combination c3 - a3
    refine ⟨k _ ?_ ?_ ?_, k _ ?_ ?_ ?_, k _ ?_ ?_ ?_⟩
    · linear_combination (c.z - a.z) * p3 + (c.y - a.y) * p2 + (b.x - a.x) * q1
    · linear_combination (b.y - a.y) * q1 - (c.y - a.y) * p1
    · linear_combination (b.z - a.z) * q1 - (c.z - a.z) * p1
    · linear_combination (b.x - a.x) * q2 - (c.x - a.x) * p2
    · linear_combination (c.x - a.x) * p1 + (c.z - a.z) * p3 + (b.y - a.y) * q2
    · linear_combination (b.z - a.z) * q2 - (c.z - a.z) * p2
    · linear_combination (b.x - a.x) * q3 - (c.x - a.x) * p3
    · linear_combination (b.y - a.y) * q3 - (c.y - a.y) * p3
    · linear_combination (c.y - a.y) * p2 + (c.x - a.x) * p1 + (b.z - a.z) * q3
  subst hw
  refine ⟨?_, rfl⟩
  ext
  · simpa using a1
  · simpa using a2
  · simpa using a3

/-- What Gauss-Newton makes of the true pairings, from a guess with the right rotation. -/
theorem gn_solves_from {E : Env K} (hE : GoodEnv E) {P : Params K} (hprior : P.prior = none) (hc : P.maxCost = 0) (hn : 1 ≤ P.maxInner)
    (h1 : 0 < P.pairWeights.pt2pt) (h2 : 0 < P.pairWeights.pt2ln) (h3 : 0 < P.pairWeights.pt2pl) (h4 : 0 < P.pairWeights.pl2pl)
    (hk : P.kernel = .none ∨ 0 < P.kernelParam) {bb : SolverCtx (Pose3 K) → Pairings K → Build}
    (hbb : ∀ sc q, q.pointWeights = [] → Sound q (bb sc q)) (tnorm : Pose3 K → K) {pts : List (P3 K)} (hl : NotOnALine pts) {T : Pose3 K}
    (hR : IsRotation T.R) (t0 : P3 K) : SolvesFrom (gnAsSolver bb E P) tnorm pts T ⟨T.R, t0⟩ := by
  intro prs hm out sc fin hg
  have hrest := hm.rest
  have hpw : prs.pointWeights = [] := by rw [hrest]
  have hpts : ∀ q ∈ prs.pt2pt, T.composePoint q.local = q.global := by
    intro q hq
    have : (q.localIdx, q.local, q.global) ∈ prs.pt2pt.map fun q => (q.localIdx, q.local, q.global) := List.mem_map.mpr ⟨q, hq, rfl⟩
    rw [hm.pairs] at this
    obtain ⟨x, -, hx⟩ := List.mem_map.mp this
    simp only [Prod.mk.injEq] at hx
    rw [← hx.2.1, ← hx.2.2]
  have hloc : prs.pt2pt.map (·.local) = pts := by
    have := congrArg (List.map fun x => x.2.1) hm.pairs
    simpa [List.map_map, Function.comp_def] using this
  have ha : ExactlyAligned prs T := by
    refine ⟨hpts, ?_, ?_, ?_, ?_⟩ <;> rw [hrest] <;> simp
  have hh : Holds prs T.R := points_hold hR (by rw [hloc]; exact hl)
  obtain ⟨r, e1, -, e3⟩ := gn_shift_exact_partial (P := { P with linearizationPoint := some ⟨T.R, t0⟩ }) hE hR ha hh
    ⟨by
      intro w hw
      simp only [firstWeights, hpw, if_true, uniform] at hw
      rw [List.eq_of_mem_replicate hw]; exact h1, h2, h3, h4, hk⟩ hprior t0 rfl hc hn (hbb sc prs hpw)
  have hret := (gn_always_reports_success _ _ _ _).1 r e1
  rw [gn_object bb E P tnorm prs sc _ out fin hg, e1]
  simp [Outcome.bind, hret, e3]

/-- C111 (partial): and so for a whole registration with a matcher by distance and Gauss-Newton: if the local points, moved by `T`, are all in the map,
three of them are not on one line, and the guess has the rotation of `T` and is close enough for each point to be nearest to its true place, then
exactly `T` is returned, with all the points paired with their true places and quality 1, after at most two iterations.  Missing: guesses
with another rotation; floating-point numbers. -/
theorem exact_registration_gn_partial {ops : PoseOps K (Pose3 K)} {E : Env K} (hE : GoodEnv E) {P : Params K} (hprior : P.prior = none)
    (hc : P.maxCost = 0) (hn : 1 ≤ P.maxInner)
    (hw : 0 < P.pairWeights.pt2pt ∧ 0 < P.pairWeights.pt2ln ∧ 0 < P.pairWeights.pt2pl ∧ 0 < P.pairWeights.pl2pl)
    (hk : P.kernel = .none ∨ 0 < P.kernelParam) {bb : SolverCtx (Pose3 K) → Pairings K → Build}
    (hbb : ∀ sc q, q.pointWeights = [] → Sound q (bb sc q)) {c : DTCfg K} {mr : K} (name : String)
    {g : GLayer K} {gpts pts : List (P3 K)} (dense : Bool) {T : Pose3 K} (t0 : P3 K) {p : IcpParams K}
    (hs : RegSetting ops c mr g gpts pts T p) (hl : NotOnALine pts)
    (hcl : CloseEnough pts gpts c.thr T ⟨T.R, t0⟩) (wantsLog : Bool) (hlog : LogThere p wantsLog) (hit : 1 ≤ p.maxIterations) :
    ∃ r, align ops (simpleIcp c (gnAsSolver bb E P) mr name g gpts.length dense pts) p ⟨T.R, t0⟩ 1 wantsLog = .ok r ∧
      r.pose = T ∧ r.scale = 1 ∧ r.quality = 1 ∧ AllMatched pts T r.pairings ∧ r.nIterations ≤ 1 ∧
      (2 ≤ p.maxIterations → r.reason = .stalled) := by
  have hsv := fun t0 => gn_solves_from hE hprior hc hn hw.1 hw.2.1 hw.2.2.1 hw.2.2.2 hk hbb ops.tnorm hl hs.rot t0
  obtain ⟨r, h1, h2, h3, h4, h5, h6, h7, -⟩ := Lemmas.align_exact_from (name := name) (dense := dense) hs (hsv t0) (hsv T.t) hcl wantsLog hlog hit
  exact ⟨r, h1, h2, h3, h4, h5, h6, h7⟩

/-! ### the hypotheses are met -/

open Classical in
/-- An environment as required, over the reals. -/
noncomputable def goodGn : Env ℝ where
  expJac := se3ExpJac
  solve H g := if h : ∃ d, H.mulVec d = g then h.choose else 0
  exp d := ⟨M3.one, ⟨d 0, d 1, d 2⟩⟩
  sqrt := Real.sqrt
  ln := ⟨Real.sqrt, fun _ _ => false⟩
  junkErr := fun _ => 0
  junkJac := fun _ _ => 0

theorem goodGn_good : GoodEnv goodGn where
  sqrt x hx := ⟨Real.sqrt_nonneg x, Real.mul_self_sqrt hx⟩
  solve H g h := by simp only [goodGn, dif_pos h]; exact h.choose_spec
  deriv := se3_deriv
  shift v := by simp [goodGn]

/-- A quarter of a turn about `x`, and a translation. -/
def shiftT : Pose3 ℝ := ⟨⟨1, 0, 0, 0, 0, -1, 0, 1, 0⟩, ⟨1, 2, 3⟩⟩

/-- A point, a point on a line, one on a plane, and two pairs of planes: all as `shiftT` puts them; the point with a weight of its own. -/
noncomputable def shiftPairs : Pairings ℝ where
  pt2pt := [⟨3, 0, ⟨2, 2, 3⟩, ⟨1, 0, 0⟩, 7⟩]
  pt2ln := [⟨⟨⟨1, 2, 0⟩, ⟨0, 0, 1⟩⟩, ⟨0, 1, 0⟩⟩]
  pt2pl := [⟨⟨⟨⟨0, 1, 0⟩, -1⟩, ⟨0, 1, 0⟩⟩, ⟨0, 0, 1⟩⟩]
  pl2pl := [⟨⟨⟨⟨1, 0, 0⟩, 0⟩, ⟨0, 0, 0⟩⟩, ⟨⟨⟨1, 0, 0⟩, 5⟩, ⟨0, 0, 0⟩⟩⟩, ⟨⟨⟨⟨0, 0, 1⟩, 0⟩, ⟨0, 0, 0⟩⟩, ⟨⟨⟨0, 1, 0⟩, 5⟩, ⟨0, 0, 0⟩⟩⟩]
  pointWeights := [(1, 2)]

/-- From a guess 100 m away, with a robust kernel, the true motion is found in one step. -/
example : ∃ r, run .serial goodGn { realGnParams with linearizationPoint := some ⟨shiftT.R, ⟨101, 2, 3⟩⟩ } shiftPairs = .ok r ∧
    r.trace.length ≤ 2 ∧ r.pose = shiftT := by
  have hR : IsRotation shiftT.R := by
    constructor
    · ext <;> simp [shiftT, M3.mul, M3.transpose, M3.one]
    · simp [shiftT, M3.det]
  refine gn_shift_exact_partial goodGn_good hR ?_ ?_ ?_ rfl ⟨101, 2, 3⟩ rfl rfl (by simp [realGnParams]) (.serial ?_)
  · refine ⟨?_, ?_, ?_, ?_, rfl⟩
    · norm_num [shiftPairs, shiftT, Pose3.composePoint, M3.mulVec, P3.ext_iff]
    · simp only [shiftPairs, List.mem_singleton, forall_eq]
      exact ⟨by simp [P3.normSq, P3.dot], 4, by norm_num [shiftT, Pose3.composePoint, M3.mulVec, P3.ext_iff]⟩
    · norm_num [shiftPairs, shiftT, Pose3.composePoint, M3.mulVec, OnPlane, P3.dot]
    · norm_num [shiftPairs, shiftT, M3.mulVec, P3.ext_iff]
  · intro v w hs
    have h1 := hs.pts _ (List.mem_singleton.mpr rfl)
    have h2 := hs.nms _ (List.mem_cons_self ..)
    have h3 := hs.nms _ (List.mem_cons_of_mem _ (List.mem_singleton.mpr rfl))
    simp [velocity, shiftT, M3.mulVec, P3.cross, P3.ext_iff] at h1 h2 h3
    obtain ⟨h2a, h2b⟩ := h2
    obtain ⟨h3a, h3b⟩ := h3
    simp only [P3.ext_iff]
    obtain ⟨h1a, h1b, h1c⟩ := h1
    refine ⟨⟨?_, ?_, ?_⟩, ?_, ?_, ?_⟩ <;> simp <;> linarith
  · refine ⟨?_, ?_, ?_, ?_, Or.inr ?_⟩ <;> simp [realGnParams, firstWeights, shiftPairs, ExpandWeights]
  · simp [BlocksCover, shiftPairs]

/-- The same four points and the same guess as for Horn's method. -/
example : ∃ r, align diffOps (simpleIcp (regCfg false) (gnAsSolver (fun _ _ => .serial) goodGn realGnParams) 1 "pts"
    (bruteLayer regMap) 5 true regPts) regParams regGuess 1 false = .ok r ∧ r.pose = exT ∧ r.reason = .stalled := by
  have h := reg_setting false
  obtain ⟨r, h1, h2, -, -, -, -, h7⟩ := exact_registration_gn_partial (P := realGnParams) goodGn_good rfl rfl (by simp [realGnParams])
    (by simp [realGnParams]) (Or.inr (by simp [realGnParams])) (bb := fun _ _ => .serial)
    (fun _ q hq => .serial (by simp [BlocksCover, hq])) "pts" true (T := exT) ⟨11 / 10, 2, 3⟩
    ⟨h.ops, h.serves, h.matcher, by simp [regPts], h.distinct, h.rot, h.there, h.ratio, h.checks, h.stepT, h.stepR⟩
    ⟨⟨1, 0, 0⟩, by simp [regPts], ⟨-1, 0, 0⟩, by simp [regPts], ⟨0, 1, 0⟩, by simp [regPts], by simp [P3.cross, P3.ext_iff]; norm_num⟩
    reg_close false (by simp [LogThere, regParams]) (by simp [regParams])
  exact ⟨r, h1, h2, h7 (by simp [regParams])⟩

end Verif.Props
