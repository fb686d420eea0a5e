import Verif.Props.EndToEnd
/-
More on whole registrations (C93, C94): the OLAE solver, and angular thresholds.
-/
namespace Verif.Props
open Verif Verif.Spec
set_option linter.unusedSectionVars false
variable {K : Type} [Field K] [LinearOrder K] [IsStrictOrderedRing K]

/-- A run of one iteration. -/
theorem align_once {ops : PoseOps K (Pose3 K)} {c : DTCfg K} {sv : Solver K (Pose3 K)} {mr : K} {name : String} {g : GLayer K}
    {ng : Nat} {dense : Bool} {pts : List (P3 K)} {p : IcpParams K} {T0 : Pose3 K} {wantsLog : Bool}
    (hit : p.maxIterations = 1) (hck : p.qualityCheckpoints = []) (hdet : p.saveIterationDetails = false)
    {ms : MatchState K} {prs : Pairings K}
    (hm : runMatchers (simpleIcp c sv mr name g ng dense pts).matchers 0 T0 (simpleIcp c sv mr name g ng dense pts).freshMS =
      .ok (ms, prs)) (hne : prs.isEmpty = false) {sol : Sol K (Pose3 K)} {fin' : List Nat → List Nat}
    (hs : ∀ out sc fin, runSolvers ops.tnorm [sv] prs out sc fin = .ok (true, sol, fin' fin)) {q : K}
    (hq : ∀ it fin pose, evaluateQuality (simpleIcp c sv mr name g ng dense pts).quality it fin pose prs = .ok q) :
    ∃ r, align ops (simpleIcp c sv mr name g ng dense pts) p T0 1 wantsLog = .ok r ∧ r.pose = sol.pose ∧
      r.pairings = prs ∧ r.quality = q ∧ r.reason ≠ .solverError := by
  set env := simpleIcp c sv mr name g ng dense pts with henv
  have hs' : ∀ out sc fin, runSolvers ops.tnorm env.solvers prs out sc fin = .ok (true, sol, fin' fin) := hs
  have e1 : env.matchers ≠ [] ∧ env.solvers ≠ [] ∧ env.quality ≠ [] := by simp [henv, simpleIcp]
  have e2 : env.globalEmpty = false ∧ env.localEmpty = false := ⟨rfl, rfl⟩
  have hook : ∀ n prs sol, hookStops env n prs sol = false := fun _ _ _ => rfl
  unfold align
  simp only [Outcome.assert, e1, e2, if_true, Outcome.bind_def, Outcome.bind, ne_eq, not_false_eq_true, and_self, hit]
  simp only [icpLoop, icpBody, hm, hne, Outcome.bind, hs', Bool.not_true, Bool.false_eq_true, if_false, saveDetails, hdet,
    Bool.false_and, checkpointFails, hck, List.lookup, hook]
  cases isStalled p (stepNorms ops sol.pose T0 none) with
  | true => simp [hq]
  | false => simp [hq]

/-! ### C93: other solvers -/

/-- C93 for any solver: exact registration needs of the solver only that, given the true pairings, it answers with the true
motion. -/
theorem exact_registration_any {ops : PoseOps K (Pose3 K)} {s : Solver K (Pose3 K)} {c : DTCfg K} {mr : K} (name : String)
    {g : GLayer K} {gpts pts : List (P3 K)} (dense : Bool) {T T0 : Pose3 K} {p : IcpParams K}
    (hs : RegSetting ops c mr g gpts pts T p) (hsv : SolvesExactly s ops.tnorm pts T)
    (hcl : CloseEnough pts gpts c.thr T T0) (wantsLog : Bool) (hlog : LogThere p wantsLog) (hit : 1 ≤ p.maxIterations) :
    ∃ r, align ops (simpleIcp c s mr name g gpts.length dense pts) p T0 1 wantsLog = .ok r ∧
      r.pose = T ∧ r.scale = 1 ∧ r.quality = 1 ∧ AllMatched pts T r.pairings ∧ r.nIterations ≤ 1 ∧
      (2 ≤ p.maxIterations → r.reason = .stalled) := by
  obtain ⟨r, h1, h2, h3, h4, h5, h6, h7, -⟩ := Lemmas.align_exact (name := name) (dense := dense) hs hsv hcl wantsLog hlog hit
  exact ⟨r, h1, h2, h3, h4, h5, h6, h7⟩

/-- C93 for the OLAE solver, if the quaternion of the true rotation has a unique component of largest absolute value, or a `z`
component that is not zero. -/
theorem exact_registration_olae {ops : PoseOps K (Pose3 K)} {e : OlaeEnv K} (nearOne : P3 K → Bool) (ratio : K)
    {wp : WeightParams K} {c : DTCfg K} {mr : K} (name : String) {g : GLayer K} {gpts pts : List (P3 K)} (dense : Bool)
    {T T0 : Pose3 K} {p : IcpParams K} (hs : RegSetting ops c mr g gpts pts T p) (ho : OlaeExact e wp pts T)
    (hcl : CloseEnough pts gpts c.thr T T0) (wantsLog : Bool) (hlog : LogThere p wantsLog) (hit : 1 ≤ p.maxIterations) :
    ∃ r, align ops (simpleIcp c (olaeAsSolver e nearOne ratio wp) mr name g gpts.length dense pts) p T0 1 wantsLog = .ok r ∧
      r.pose = T ∧ r.scale = 1 ∧ r.quality = 1 ∧ AllMatched pts T r.pairings ∧ r.nIterations ≤ 1 ∧
      (2 ≤ p.maxIterations → r.reason = .stalled) :=
  exact_registration_any name dense hs (Lemmas.olae_solves hs.nonempty hs.rot ho) hcl wantsLog hlog hit

/-- C93, negative for OLAE: for all other true rotations (such as right angles about `x` or `y`), an iteration that starts from the
true pose itself, with all the points paired with their true places, ends at a wrong one (linear systems solved by Cramer's
rule, zero for singular ones; the system chosen is singular, whatever the points).  The quality reported is 1. -/
theorem tied_rotation_lost {ops : PoseOps ℝ (Pose3 ℝ)} (nearOne : P3 ℝ → Bool) (ratio : ℝ) {wp : WeightParams ℝ} {c : DTCfg ℝ}
    {mr : ℝ} (name : String) {g : GLayer ℝ} {gpts pts : List (P3 ℝ)} (dense : Bool) {T : Pose3 ℝ} {p : IcpParams ℝ}
    (hs : RegSetting ops c mr g gpts pts T p) (hw : PlainSolver wp) (hsp : Spread realOlae.norm realOlae.eps pts)
    (hc : ¬ ClearAxis T.R)
    (hit : p.maxIterations = 1) (hck : p.qualityCheckpoints = []) (hdet : p.saveIterationDetails = false) (wantsLog : Bool) :
    ∃ r, align ops (simpleIcp c (olaeAsSolver realOlae nearOne ratio wp) mr name g gpts.length dense pts) p T 1 wantsLog =
        .ok r ∧ r.pose.R ≠ T.R ∧ r.quality = 1 ∧ AllMatched pts T r.pairings := by
  have hlen : 0 < pts.length := List.length_pos_iff.mpr hs.nonempty
  obtain ⟨ms, prs, hm1, hm2⟩ := Lemmas.match_close (s := olaeAsSolver realOlae nearOne ratio wp) (mr := mr) (name := name)
    (dense := dense) hs.serves hs.matcher hs.nonempty hs.distinct hs.rot hs.there (Lemmas.close_self hs.matcher.thr T) 0
  obtain ⟨h1, h2, h3, h4⟩ := Lemmas.matched_data realNorm_ok hs.nonempty hs.rot hsp hm2
  obtain ⟨r, hr⟩ := Lemmas.olae_total (e := realOlae) hw prs.pt2pt pts.length (List.length_pos_iff.mpr h3)
  have hsolve := fun out sc fin => Lemmas.olae_solve (nearOne := nearOne) (ratio := ratio) ops.tnorm prs.pt2pt pts.length out sc fin hr
  rw [← hm2.rest] at hr
  simp only [← hm2.rest] at hsolve
  have hU : UnitDirections prs := by
    refine ⟨?_, ?_⟩ <;> · rw [hm2.rest]; simp
  have hemp : prs.isEmpty = false := by
    cases hp : prs.pt2pt with
    | nil => exact absurd hp h3
    | cons a l => simp [Pairings.isEmpty, hp]
  obtain ⟨M, v, hd, hR⟩ := olae_tie_singular (e := realOlae) realSqrt_ok realNorm_ok (by norm_num [realOlae]) h1 h2 hU
    hc (by rw [hw.noScale]; simp) h4 hr
  obtain ⟨res, g1, g2, g3, g4, -⟩ := align_once (T0 := T) (wantsLog := wantsLog) hit hck hdet hm1 hemp (fin' := id) hsolve
    (Lemmas.full_quality hlen hs.ratio hm2)
  refine ⟨res, g1, ?_, g4, g3 ▸ hm2⟩
  rw [g2]
  intro hp
  rw [hp] at hR
  refine hc (Or.inr ?_)
  rw [hR]
  simp [realOlae, cramer, hd, gibbsQuat, Quat.toMatrix, rotZpi, M3.mul]
  norm_num

/-- The registration of the four points of `exact_registration` with OLAE. -/
example : ∃ r, align diffOps (simpleIcp (regCfg false) (olaeAsSolver realOlae (fun _ => false) 0 exParams) 1 "pts"
    (bruteLayer regMap) 5 true regPts) regParams regGuess 1 false = .ok r ∧ r.pose = exT := by
  have hs := reg_setting false
  obtain ⟨r, h1, h2, -⟩ := exact_registration_olae (fun _ => false) 0 "pts" true (e := realOlae) (wp := exParams) (p := regParams)
    ⟨hs.ops, hs.serves, hs.matcher, by simp [regPts], hs.distinct, hs.rot, hs.there, hs.ratio, hs.checks, hs.stepT, hs.stepR⟩
    ⟨realSqrt_ok, cramer_ok, realNorm_ok, by norm_num [realOlae], hs.solver, hs.spread, by
      unfold ClearAxis UniqueMax
      left; right; left
      simp [exT, rotXpi]
      norm_num⟩ reg_close false (by simp [LogThere, regParams]) (by simp [regParams])
  exact ⟨r, h1, h2⟩

/-- The map of the four points turned by a right angle. -/
def regMap90 : List (P3 ℝ) := [⟨2, 2, 3⟩, ⟨0, 2, 3⟩, ⟨1, 2, 4⟩, ⟨1, 2, 2⟩]

example : ∃ r, align diffOps (simpleIcp (regCfg false) (olaeAsSolver realOlae (fun _ => false) 0 exParams) 1 "pts"
    (bruteLayer regMap90) 4 true regPts) { regParams with maxIterations := 1 } exT90 1 false = .ok r ∧ r.pose ≠ exT90 ∧
    r.quality = 1 := by
  have hs := reg_setting false
  obtain ⟨r, h1, h2, h3, -⟩ := tied_rotation_lost (ops := diffOps) (c := regCfg false) (mr := 1) (g := bruteLayer regMap90)
    (gpts := regMap90) (pts := regPts) (T := exT90) (p := { regParams with maxIterations := 1 }) (fun _ => false) 0 "pts" true
    ⟨hs.ops, bruteLayer_serves (by simp [regMap90]), hs.matcher, by simp [regPts], hs.distinct, by
      constructor
      · ext <;> simp [exT90, M3.mul, M3.transpose, M3.one]
      · simp [exT90, M3.det], by
      intro x hx
      simp only [regPts, List.mem_cons, List.not_mem_nil, or_false] at hx
      rcases hx with rfl | rfl | rfl | rfl <;>
        norm_num [regMap90, exT90, Pose3.composePoint, M3.mulVec, P3.ext_iff], hs.ratio, by simp [regParams], hs.stepT, hs.stepR⟩
    hs.solver hs.spread (right_angle_tie rfl rfl rfl) rfl rfl rfl false
  exact ⟨r, h1, fun h => h2 (by rw [h]), h3⟩

/-! ### C94: angular thresholds -/

/-- Five points; the last one far from the origin. -/
def angPts : List (P3 ℝ) := [⟨0, 10, 0⟩, ⟨0, -10, 0⟩, ⟨0, 0, 10⟩, ⟨0, 0, -10⟩, ⟨100, 0, 0⟩]
/-- The same, with the last one 8 m away. -/
def angMap : List (P3 ℝ) := [⟨0, 10, 0⟩, ⟨0, -10, 0⟩, ⟨0, 0, 10⟩, ⟨0, 0, -10⟩, ⟨108, 0, 0⟩]
/-- Threshold 1 m and an angular threshold of a tenth of a radian (`angDeg`, only used in a check, is the same in degrees, about). -/
noncomputable def angCfg : DTCfg ℝ := { thr := 1, angDeg := 57 / 10, angSq := 1 / 100, eps := 1 / 100, allowGlobal := true }

theorem ang_setting : FitSetting diffOps realHorn exParams angCfg (bruteLayer angMap) angMap angPts where
  norms := diffOps_ok.nonneg
  eig N := Lemmas.top_of_eigenvector (realHorn_top N)
  norm := realNorm_ok
  eps := by norm_num [realHorn]
  solver := (reg_setting true).solver
  serves := bruteLayer_serves (by simp [angMap])
  matcher := ⟨rfl, by norm_num [angCfg], by norm_num [angCfg], by norm_num [angCfg], by norm_num [angCfg], Or.inl rfl, rfl⟩
  many := rfl

theorem id_composePoint (x : P3 ℝ) : (Pose3.identity : Pose3 ℝ).composePoint x = x := by
  ext <;> simp [Pose3.identity, Pose3.composePoint, M3.mulVec, M3.one]

/-- The pairings at the identity: each point with the one of the same position in the list. -/
theorem ang_pairs : ∀ i, i < 5 → ∃ q, Lemmas.cand angCfg (Pose3.identity : Pose3 ℝ).composePoint (bruteLayer angMap) angPts i = some q ∧
    angPts[i]? = some q.local ∧ angMap[i]? = some q.global := by
  intro i hi
  have hg := ang_setting.serves
  cases hc : Lemmas.cand angCfg (Pose3.identity : Pose3 ℝ).composePoint (bruteLayer angMap) angPts i with
  | none =>
    exfalso
    interval_cases i <;>
    · have := Lemmas.cand_none hg (p := _) rfl hc
      simp only [id_composePoint, angMap, List.mem_cons, List.not_mem_nil, or_false, forall_eq_or_imp, forall_eq] at this
      norm_num [dtLimit, angCfg, P3.distSq, P3.normSq, P3.dot] at this
  | some q =>
    obtain ⟨h1, h2, -, h4⟩ := Lemmas.cand_some hg hc
    refine ⟨q, rfl, h1, ?_⟩
    simp only [angMap, List.mem_cons, List.not_mem_nil, or_false] at h2
    simp only [id_composePoint, angMap, List.mem_cons, List.not_mem_nil, or_false, forall_eq_or_imp, forall_eq] at h4
    interval_cases i <;>
    · simp only [angPts, List.getElem?_cons_zero, List.getElem?_cons_succ, Option.some.injEq] at h1
      rw [← h1] at h4
      rcases h2 with h2 | h2 | h2 | h2 | h2 <;> rw [h2] at h4 ⊢ <;>
        first
        | rfl
        | (exfalso; norm_num [P3.distSq, P3.normSq, P3.dot] at h4)

/-- Cost of those pairings. -/
theorem ang_cost {R : M3 ℝ} (hR : IsRotation R) (t : P3 ℝ) (q0 q1 q2 q3 q4 : PtPair ℝ)
    (h : ∀ (i : Nat) (q : PtPair ℝ), [q0, q1, q2, q3, q4][i]? = some q → angPts[i]? = some q.local ∧ angMap[i]? = some q.global) :
    pointCost [q0, q1, q2, q3, q4] ⟨R, t⟩ = 256 / 5 + 5 * P3.normSq (t + R.mulVec ⟨20, 0, 0⟩ - ⟨108 / 5, 0, 0⟩) +
      17280 * (1 - R.a00) + 400 * (1 - R.a11) + 400 * (1 - R.a22) := by
  have g0 := h 0 q0 rfl
  have g1 := h 1 q1 rfl
  have g2 := h 2 q2 rfl
  have g3 := h 3 q3 rfl
  have g4 := h 4 q4 rfl
  simp only [angPts, angMap, List.getElem?_cons_zero, List.getElem?_cons_succ, Option.some.injEq] at g0 g1 g2 g3 g4
  have := hR.1
  rw [M3.ext_iff] at this
  simp only [M3.mul, M3.transpose, M3.one] at this
  obtain ⟨a1, a2, a3, a4, a5, a6, a7, a8, a9⟩ := this
  simp only [pointCost, List.map_cons, List.map_nil, List.sum_cons, List.sum_nil, ← g0.1, ← g0.2, ← g1.1, ← g1.2, ← g2.1,
    ← g2.2, ← g3.1, ← g3.2, ← g4.1, ← g4.2, Pose3.composePoint, M3.mulVec, P3.distSq, P3.normSq, P3.dot, P3.sub_x, P3.sub_y,
    P3.sub_z, P3.add_x, P3.add_y, P3.add_z]
  linear_combination 8000 * a1 + 200 * a5 + 200 * a9

theorem realNorm_far {v : P3 ℝ} (h : 1 ≤ v.normSq) : ¬ realHorn.norm v < realHorn.eps := by
  have h1 : (1 : ℝ) ≤ realNorm v := by
    unfold realNorm
    exact Real.one_le_sqrt.mpr h
  have h2 : realHorn.norm v = realNorm v := rfl
  have h3 : realHorn.eps = 1 / 10000 := rfl
  rw [h2, h3]
  linarith

theorem abs_le_one_of_sq {a b c : ℝ} (h : a * a + b * b + c * c = 1) : a ≤ 1 := by
  nlinarith [mul_self_nonneg b, mul_self_nonneg c]

theorem two_sq_zero {b c : ℝ} (h : b * b + c * c = 0) : b = 0 ∧ c = 0 := by
  constructor <;> nlinarith [mul_self_nonneg b, mul_self_nonneg c]

/-- The only motion as good as the shift by 8/5. -/
theorem ang_best {R : M3 ℝ} {t : P3 ℝ} (hrot : IsRotation R)
    (hbest : 256 / 5 + 5 * P3.normSq (t + R.mulVec ⟨20, 0, 0⟩ - ⟨108 / 5, 0, 0⟩) +
      17280 * (1 - R.a00) + 400 * (1 - R.a11) + 400 * (1 - R.a22) ≤
      256 / 5 + 5 * P3.normSq ((⟨8 / 5, 0, 0⟩ : P3 ℝ) + M3.one.mulVec ⟨20, 0, 0⟩ - ⟨108 / 5, 0, 0⟩) +
      17280 * (1 - (M3.one : M3 ℝ).a00) + 400 * (1 - (M3.one : M3 ℝ).a11) + 400 * (1 - (M3.one : M3 ℝ).a22)) :
    R = M3.one ∧ t = ⟨8 / 5, 0, 0⟩ := by
  have hR := hrot.1
  rw [M3.ext_iff] at hR
  simp only [M3.mul, M3.transpose, M3.one] at hR
  obtain ⟨a1, a2, a3, a4, a5, a6, a7, a8, a9⟩ := hR
  have b0 : R.a00 ≤ 1 := abs_le_one_of_sq a1
  have b1 : R.a11 ≤ 1 := abs_le_one_of_sq (by linarith : R.a11 * R.a11 + R.a01 * R.a01 + R.a21 * R.a21 = 1)
  have b2 : R.a22 ≤ 1 := abs_le_one_of_sq (by linarith : R.a22 * R.a22 + R.a02 * R.a02 + R.a12 * R.a12 = 1)
  have hn := normSq_nonneg (t + R.mulVec ⟨20, 0, 0⟩ - ⟨108 / 5, 0, 0⟩)
  have hn1 : P3.normSq ((⟨8 / 5, 0, 0⟩ : P3 ℝ) + M3.one.mulVec ⟨20, 0, 0⟩ - ⟨108 / 5, 0, 0⟩) = 0 := by
    simp [P3.normSq, P3.dot, M3.mulVec, M3.one]; norm_num
  rw [hn1] at hbest
  simp only [M3.one] at hbest
  have d0 : R.a00 = 1 := by linarith
  have d1 : R.a11 = 1 := by linarith
  have d2 : R.a22 = 1 := by linarith
  have hn0 : P3.normSq (t + R.mulVec ⟨20, 0, 0⟩ - ⟨108 / 5, 0, 0⟩) = 0 := by linarith
  obtain ⟨e10, e20⟩ := two_sq_zero (b := R.a10) (c := R.a20) (by rw [d0] at a1; linarith)
  obtain ⟨e01, e21⟩ := two_sq_zero (b := R.a01) (c := R.a21) (by rw [d1] at a5; linarith)
  obtain ⟨e02, e12⟩ := two_sq_zero (b := R.a02) (c := R.a12) (by rw [d2] at a9; linarith)
  simp only [P3.normSq, P3.dot, P3.sub_x, P3.sub_y, P3.sub_z, P3.add_x, P3.add_y, P3.add_z, M3.mulVec, d0, e10, e20] at hn0
  refine ⟨by ext <;> simp [M3.one, *], ?_⟩
  have hx : (t.x - 8 / 5) * (t.x - 8 / 5) + t.y * t.y + t.z * t.z = 0 := by linarith
  clear hbest hn hn1 a1 a2 a3 a4 a5 a6 a7 a8 a9 b0 b1 b2 hn0
  have hz1 := mul_self_nonneg (t.x - 8 / 5)
  have hz2 := mul_self_nonneg t.y
  have hz3 := mul_self_nonneg t.z
  have x1 : t.x - 8 / 5 = 0 := mul_self_eq_zero.mp (by linarith)
  have x2 : t.y = 0 := mul_self_eq_zero.mp (by linarith)
  have x3 : t.z = 0 := mul_self_eq_zero.mp (by linarith)
  ext
  · linarith
  · exact x2
  · exact x3

theorem ang_misfits : misfit angCfg.thr angMap angPts Pose3.identity = 1 ∧
    misfit angCfg.thr angMap angPts ⟨M3.one, ⟨8 / 5, 0, 0⟩⟩ = 5 := by
  constructor
  · simp only [misfit, angPts, angMap, id_composePoint, angCfg, List.map_cons, List.map_nil, List.sum_cons, List.sum_nil,
      List.foldr_cons, List.foldr_nil, P3.distSq, P3.normSq, P3.dot, P3.sub_x, P3.sub_y, P3.sub_z]
    norm_num
  · simp only [misfit, angPts, angMap, angCfg, Pose3.composePoint, M3.mulVec, M3.one, List.map_cons, List.map_nil,
      List.sum_cons, List.sum_nil, P3.add_x, P3.add_y, P3.add_z,
      List.foldr_cons, List.foldr_nil, P3.distSq, P3.normSq, P3.dot, P3.sub_x, P3.sub_y, P3.sub_z]
    norm_num

/-- The matches, the solution and the misfit, put together: C94 fails for the plain threshold when there is an angular one.  All
the points but one are in their places, with misfit zero; the last one is too far for the plain threshold, but, being far from the
origin, not too far for the angular one: it is paired, and pulls the others out of their places.  The misfit truncated at the plain threshold,
which is 1 at the initial guess, is 5 at the end of the iteration. -/
theorem fit_worse_angular : FitSetting diffOps realHorn exParams angCfg (bruteLayer angMap) angMap angPts ∧
    ∃ r, align diffOps (simpleIcp angCfg (hornAsSolver realHorn (fun _ => false) 0 exParams) 1 "pts"
        (bruteLayer angMap) 5 true angPts) { regParams with maxIterations := 1 } Pose3.identity 1 false = .ok r ∧
      r.reason ≠ .solverError ∧ r.pose = ⟨M3.one, ⟨8 / 5, 0, 0⟩⟩ ∧
      misfit angCfg.thr angMap angPts Pose3.identity = 1 ∧ misfit angCfg.thr angMap angPts r.pose = 5 := by
  refine ⟨ang_setting, ?_⟩
  have hg := ang_setting.serves
  obtain ⟨ms, hm⟩ := Lemmas.simple_match (s := hornAsSolver realHorn (fun _ => false) 0 exParams) (mr := 1) (name := "pts")
    (dense := true) hg ang_setting.matcher (by simp [angPts]) 0 (Pose3.identity : Pose3 ℝ) (Or.inl rfl) (Or.inl rfl)
  obtain ⟨q0, c0, l0, m0⟩ := ang_pairs 0 (by omega)
  obtain ⟨q1, c1, l1, m1⟩ := ang_pairs 1 (by omega)
  obtain ⟨q2, c2, l2, m2⟩ := ang_pairs 2 (by omega)
  obtain ⟨q3, c3, l3, m3⟩ := ang_pairs 3 (by omega)
  obtain ⟨q4, c4, l4, m4⟩ := ang_pairs 4 (by omega)
  have hps : (List.range angPts.length).filterMap
      (Lemmas.cand angCfg (Pose3.identity : Pose3 ℝ).composePoint (bruteLayer angMap) angPts) = [q0, q1, q2, q3, q4] := by
    have : List.range angPts.length = [0, 1, 2, 3, 4] := rfl
    rw [this]
    simp only [List.filterMap_cons, c0, c1, c2, c3, c4, List.filterMap_nil]
  rw [hps] at hm
  have hall : ∀ (i : Nat) (q : PtPair ℝ), [q0, q1, q2, q3, q4][i]? = some q → angPts[i]? = some q.local ∧ angMap[i]? = some q.global := by
    intro i q hq
    match i, hq with
    | 0, hq => cases hq; exact ⟨l0, m0⟩
    | 1, hq => cases hq; exact ⟨l1, m1⟩
    | 2, hq => cases hq; exact ⟨l2, m2⟩
    | 3, hq => cases hq; exact ⟨l3, m3⟩
    | 4, hq => cases hq; exact ⟨l4, m4⟩
    | n + 5, hq => simp at hq
  have hpl : PlainPoints ({ pt2pt := [q0, q1, q2, q3, q4], potential := 5 } : Pairings ℝ) exParams :=
    ⟨rfl, rfl, rfl, rfl, rfl, rfl, rfl, by simp [exParams], by simp [exParams], by simp [exParams]⟩
  obtain ⟨sol, hho⟩ := Lemmas.horn_total (e := realHorn) (wp := exParams) ang_setting.solver [q0, q1, q2, q3, q4] 5 (by simp)
  have hrot := Lemmas.horn_rot ang_setting.eig ang_setting.solver hho
  have hlm : [q0, q1, q2, q3, q4].map (·.local) = angPts := by
    simp only [angPts, List.getElem?_cons_zero, List.getElem?_cons_succ, Option.some.injEq] at l0 l1 l2 l3 l4
    simp [angPts, ← l0, ← l1, ← l2, ← l3, ← l4]
  have hgm : [q0, q1, q2, q3, q4].map (·.global) = angMap := by
    simp only [angMap, List.getElem?_cons_zero, List.getElem?_cons_succ, Option.some.injEq] at m0 m1 m2 m3 m4
    simp [angMap, ← m0, ← m1, ← m2, ← m3, ← m4]
  have hml : mean angPts = ⟨20, 0, 0⟩ := by ext <;> simp [mean, angPts] <;> norm_num
  have hmg : mean angMap = ⟨108 / 5, 0, 0⟩ := by ext <;> simp [mean, angMap]
  have haway : AwayFromCentroids realHorn.norm realHorn.eps [q0, q1, q2, q3, q4] := by
    intro q hq
    rw [hlm, hgm, hml, hmg]
    have h1 : q.global ∈ angMap := by rw [← hgm]; exact List.mem_map.mpr ⟨q, hq, rfl⟩
    have h2 : q.local ∈ angPts := by rw [← hlm]; exact List.mem_map.mpr ⟨q, hq, rfl⟩
    constructor
    · apply realNorm_far
      revert h1
      generalize q.global = y
      intro h1
      simp only [angMap, List.mem_cons, List.not_mem_nil, or_false] at h1
      rcases h1 with rfl | rfl | rfl | rfl | rfl <;> norm_num [P3.normSq, P3.dot]
    · apply realNorm_far
      revert h2
      generalize q.local = y
      intro h2
      simp only [angPts, List.mem_cons, List.not_mem_nil, or_false] at h2
      rcases h2 with rfl | rfl | rfl | rfl | rfl <;> norm_num [P3.normSq, P3.dot]
  have hone : IsRotation (M3.one : M3 ℝ) := by
    constructor
    · ext <;> simp [M3.mul, M3.transpose, M3.one]
    · simp [M3.det, M3.one]
  have hbest := Lemmas.horn_near ang_setting.eig ang_setting.norm hpl hho ⟨M3.one, ⟨8 / 5, 0, 0⟩⟩ hone
  have hz := (Lemmas.nearSlack_bounds ang_setting.norm (eps := realHorn.eps) (not_lt.mpr ang_setting.eps) [q0, q1, q2, q3, q4]).2.1 haway
  rw [hz, add_zero, ang_cost hone _ q0 q1 q2 q3 q4 hall] at hbest
  obtain ⟨⟨R, t⟩, outl⟩ := sol
  simp only at hrot hbest
  rw [ang_cost hrot _ q0 q1 q2 q3 q4 hall] at hbest
  have hpose := ang_best hrot hbest
  obtain ⟨rfl, rfl⟩ := hpose
  have hsolve := fun out sc fin => Lemmas.simple_solve (c := angCfg) (nearOne := fun _ => false) (ratio := 0) (mr := 1) (name := "pts")
    (g := bruteLayer angMap) (ng := 5) (dense := true) (pts := angPts) diffOps.tnorm [q0, q1, q2, q3, q4] 5 out sc fin hho
  obtain ⟨r, g1, g2, -, -, g5⟩ := align_once (ops := diffOps) (p := { regParams with maxIterations := 1 }) (wantsLog := false)
    rfl rfl rfl hm (by simp [Pairings.isEmpty]) (fin' := id) hsolve (q := 1) (by
      intro it fin pose
      have hq : pairedRatio 1 ({ pt2pt := [q0, q1, q2, q3, q4], potential := angPts.length } : Pairings ℝ) = (1, false) := by
        norm_num [pairedRatio, Pairings.size, angPts]
      simp [evaluateQuality, evaluateQualityLoop, simpleIcp, pairedRatioEval, hq, Outcome.assert, Outcome.bind])
  exact ⟨r, g1, g5, g2, ang_misfits.1, by rw [g2]; exact ang_misfits.2⟩

end Verif.Props
