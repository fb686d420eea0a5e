import Verif.Lemmas.HornSame
import Verif.Props.PriorNear
import Verif.Props.NearReg
/-
C123: whole registrations with a prior.
-/
namespace Verif.Props
open Verif.Gn Verif.Spec Verif.Spec.GN Verif.Lemmas Verif.Lemmas.GnS Verif.Lemmas.Conv Verif.Lemmas.Near Matrix

/-- The true pairs, whatever the points. -/
theorem truePairs_fit (pts : List (P3 ℝ)) (T : Pose3 ℝ) : ExactlyAligned (truePairs pts T) T := by
  refine ⟨?_, ?_, ?_, ?_, rfl⟩ <;> simp [truePairs]

/-- A pose that leaves no error on points not on a line is the true one. -/
theorem no_error_true {pts : List (P3 ℝ)} {T U : Pose3 ℝ} (hT : IsRotation T.R) (hU : IsRotation U.R) (hl : NotOnALine pts)
    (h : NoError (truePairs pts T) U) : U = T := by
  obtain ⟨a, ha, b, hb, c, hc, hx⟩ := hl
  have key : ∀ x ∈ pts, U.composePoint x = T.composePoint x := by
    intro x hx
    have := h.pts ⟨0, 0, T.composePoint x, x, 0⟩ (List.mem_map.mpr ⟨x, hx, rfl⟩)
    have h0 := congrFun this 0
    have h1 := congrFun this 1
    have h2 := congrFun this 2
    simp [Err.pt2pt] at h0 h1 h2
    ext
    · linarith
    · linarith
    · linarith
  exact rigid_unique hU hT hx (key a ha) (key b hb) (key c hc)

/-- With a prior at the true motion that, together with the points, holds the body, Gauss-Newton squares the distance to it: with a limit on the cost that is
negative (never reached), or with the default limit of zero and points that are not on a line. -/
theorem gn_squares_prior {E : Env ℝ} (hE : GoodEnv E) (hE2 : SecondOrderExp E) {P : Params ℝ} (hn : 1 ≤ P.maxInner)
    (hw : 0 < P.pairWeights.pt2pt ∧ 0 < P.pairWeights.pt2ln ∧ 0 < P.pairWeights.pt2pl ∧ 0 < P.pairWeights.pl2pl)
    (hk : P.kernel = .none ∨ 0 < P.kernelParam) {sched : SolverCtx (Pose3 ℝ) → Pairings ℝ → Nat → RTree × RTree}
    (hv : ∀ sc q, ValidSchedule q (sched sc q)) (tnorm : Pose3 ℝ → ℝ) {pts : List (P3 ℝ)} {L : PriorEnv ℝ} {p : PriorPdf ℝ}
    (hR : IsRotation p.mean.R) (S : SmoothPrior E L p.mean) (hΛ : Information p.inf) (hh : HoldsWith (truePairs pts p.mean) L p p.mean)
    (hc : P.maxCost < 0 ∨ (P.maxCost = 0 ∧ NotOnALine pts)) :
    ∃ C > 0, ∃ ρ > 0, SquaresNear (gnAsSolver (fun sc q => .tbb (sched sc q)) E (withPrior P L (some p))) tnorm pts p.mean C ρ := by
  have hpos : PositiveWeights P (truePairs pts p.mean) :=
    ⟨by
      intro w h
      simp only [firstWeights, truePairs, if_true, uniform] at h
      rw [List.eq_of_mem_replicate h]; exact hw.1, hw.2.1, hw.2.2.1, hw.2.2.2, hk⟩
  obtain ⟨C, hC, ρ, hρ, h⟩ := gn_prior_near_partial (L := L) (p := p) hE hE2 hR (truePairs_fit pts p.mean) S hΛ hh hpos rfl
  refine ⟨C, hC, ρ, hρ, fun G hG hg prs hm out sc fin hgs => ?_⟩
  have hb := bare_paired hm
  have hvs : ValidSchedule (truePairs pts p.mean) (sched sc prs) := by
    rw [← hb]
    intro k
    obtain ⟨a, b⟩ := hv sc prs k
    exact ⟨by rw [a]; simp [bare], by rw [b]; rfl⟩
  obtain ⟨r, h1, h2, -, -, -, -, h3⟩ := h G P.maxInner P.minDelta P.maxCost (sched sc prs) hvs hG hg
  rw [← hb, run_bare] at h1
  have hP : { withPrior P L (some p) with linearizationPoint := some G } =
      withPrior (started P G P.maxInner P.minDelta P.maxCost) L (some p) := rfl
  refine ⟨r.pose, ?_, h2, ?_⟩
  · have hret := (gn_always_reports_success _ _ _ _).1 r h1
    rw [gn_object _ E _ tnorm prs sc _ out fin hgs, hP, h1]
    simp [Outcome.bind, hret]
  · rcases h3 (by rcases hc with hc | hc; exacts [hc.le, hc.1.le]) hn with h4 | ⟨h4, h5⟩
    · exact h4
    · rcases hc with hc | ⟨-, hl⟩
      · linarith
      · rw [no_error_true hR h2 hl h5]
        have : gap p.mean p.mean = 0 := by simp [gap]
        rw [this]
        exact mul_nonneg hC.le (sq_nonneg _)

/-- C123 (partial): the local points, moved by `T`, are all in the map, and the prior is centred at `T`; together they hold the body (the points alone need not: one is enough if the
prior tells all coordinates).  Then there is a distance within which every rigid guess is good enough: the registration with a matcher by distance and Gauss-Newton with TBB pairs every
point with its true place at each iteration, each iteration at least squares the distance to the true motion, quality 1 is reported, and the run ends as stalled, or with the maximum of
iterations.  That is so with a negative limit on the cost; with the default limit, zero, if the points are not on a line (otherwise see `prior_ignored_by_registration`).  Missing:
priors that are not centred at the true motion; the build without TBB; how far the guess may be; floating-point numbers. -/
theorem prior_registration_near_partial {ops : PoseOps ℝ (Pose3 ℝ)} {E : Env ℝ} (hE : GoodEnv E) (hE2 : SecondOrderExp E) {P : Params ℝ} (hn : 1 ≤ P.maxInner)
    (hw : 0 < P.pairWeights.pt2pt ∧ 0 < P.pairWeights.pt2ln ∧ 0 < P.pairWeights.pt2pl ∧ 0 < P.pairWeights.pl2pl)
    (hk : P.kernel = .none ∨ 0 < P.kernelParam) {sched : SolverCtx (Pose3 ℝ) → Pairings ℝ → Nat → RTree × RTree}
    (hv : ∀ sc q, ValidSchedule q (sched sc q)) {c : DTCfg ℝ} {mr : ℝ} (name : String) {g : GLayer ℝ} {gpts pts : List (P3 ℝ)} (dense : Bool)
    {L : PriorEnv ℝ} {pr : PriorPdf ℝ} {p : IcpParams ℝ} (hs : RegSetting ops c mr g gpts pts pr.mean p)
    (S : SmoothPrior E L pr.mean) (hΛ : Information pr.inf) (hh : HoldsWith (truePairs pts pr.mean) L pr pr.mean)
    (hc : P.maxCost < 0 ∨ (P.maxCost = 0 ∧ NotOnALine pts)) :
    ∃ C > 0, ∃ ρ > 0, ∀ (T0 : Pose3 ℝ) (M : Nat) (wantsLog : Bool), IsRotation T0.R → gap T0 pr.mean ≤ ρ → 1 ≤ M → LogThere p wantsLog →
      ∃ r, align ops (simpleIcp c (gnAsSolver (fun sc q => .tbb (sched sc q)) E (withPrior P L (some pr))) mr name g gpts.length dense pts)
          { p with maxIterations := M } T0 1 wantsLog = .ok r ∧
        IsRotation r.pose.R ∧ r.scale = 1 ∧ r.quality = 1 ∧ AllMatched pts pr.mean r.pairings ∧
        (∀ ev ∈ r.trace, AllMatched pts pr.mean ev.pairings ∧
          ∃ s : Sol ℝ (Pose3 ℝ), ev.solver = some (true, s) ∧ gap s.pose pr.mean ≤ C * gap ev.poseIn pr.mean ^ 2) ∧
        gap r.pose pr.mean ≤ gap T0 pr.mean * (1 / 2) ^ (2 ^ r.trace.length - 1) ∧ 1 ≤ r.trace.length ∧ r.nIterations ≤ r.trace.length ∧
        ((r.reason = .stalled ∧ r.nIterations < M) ∨ (r.reason = .maxIterations ∧ r.nIterations = M)) := by
  obtain ⟨C, hC, ρ1, hρ1, hsq⟩ := gn_squares_prior (P := P) hE hE2 hn hw hk hv ops.tnorm hs.rot S hΛ hh hc
  obtain ⟨ρ2, hρ2, hclose⟩ := close_near pts gpts hs.matcher.thr pr.mean
  obtain ⟨ρ, hρ, h⟩ := near_all (simple_near (name := name) (dense := dense) hs (ρ := min ρ1 ρ2)
    (fun G hG hgG => hsq G hG (hgG.trans (min_le_left _ _))) (fun G hgG => hclose G (hgG.trans (min_le_right _ _)))) hC (by positivity)
  exact ⟨C, hC, ρ, hρ, h⟩

/-- C123: if moreover steps between poses near the true one have small lengths, then some number of iterations is enough for all those guesses: the run then ends as stalled, whatever
the maximum. -/
theorem prior_registration_stalls_partial {ops : PoseOps ℝ (Pose3 ℝ)} {E : Env ℝ} (hE : GoodEnv E) (hE2 : SecondOrderExp E) {P : Params ℝ} (hn : 1 ≤ P.maxInner)
    (hw : 0 < P.pairWeights.pt2pt ∧ 0 < P.pairWeights.pt2ln ∧ 0 < P.pairWeights.pt2pl ∧ 0 < P.pairWeights.pl2pl)
    (hk : P.kernel = .none ∨ 0 < P.kernelParam) {sched : SolverCtx (Pose3 ℝ) → Pairings ℝ → Nat → RTree × RTree}
    (hv : ∀ sc q, ValidSchedule q (sched sc q)) {c : DTCfg ℝ} {mr : ℝ} (name : String) {g : GLayer ℝ} {gpts pts : List (P3 ℝ)} (dense : Bool)
    {L : PriorEnv ℝ} {pr : PriorPdf ℝ} {p : IcpParams ℝ} (hs : RegSetting ops c mr g gpts pts pr.mean p)
    (S : SmoothPrior E L pr.mean) (hΛ : Information pr.inf) (hh : HoldsWith (truePairs pts pr.mean) L pr pr.mean)
    (hc : P.maxCost < 0 ∨ (P.maxCost = 0 ∧ NotOnALine pts)) (hops : SmoothDiffs ops pr.mean) :
    ∃ ρ > 0, ∃ N : Nat, ∀ (T0 : Pose3 ℝ) (M : Nat) (wantsLog : Bool), IsRotation T0.R → gap T0 pr.mean ≤ ρ → N < M → LogThere p wantsLog →
      ∃ r, align ops (simpleIcp c (gnAsSolver (fun sc q => .tbb (sched sc q)) E (withPrior P L (some pr))) mr name g gpts.length dense pts)
          { p with maxIterations := M } T0 1 wantsLog = .ok r ∧ r.reason = .stalled ∧ r.nIterations ≤ N ∧ gap r.pose pr.mean ≤ gap T0 pr.mean := by
  obtain ⟨C, hC, ρ1, hρ1, hsq⟩ := gn_squares_prior (P := P) hE hE2 hn hw hk hv ops.tnorm hs.rot S hΛ hh hc
  obtain ⟨ρ2, hρ2, hclose⟩ := close_near pts gpts hs.matcher.thr pr.mean
  obtain ⟨ρ, hρ, N, h⟩ := near_stalls (simple_near (name := name) (dense := dense) hs (ρ := min ρ1 ρ2)
    (fun G hG hgG => hsq G hG (hgG.trans (min_le_left _ _))) (fun G hgG => hclose G (hgG.trans (min_le_right _ _)))) hC (by positivity) hs.ops hs.stepT hs.stepR hops
  refine ⟨ρ, hρ, N, fun T0 M wantsLog hr hg hM hlog => ?_⟩
  obtain ⟨r, h1, h2, h3, h4, -, -⟩ := h T0 M wantsLog hr hg hM hlog
  exact ⟨r, h1, h2, h3, h4⟩

/-- C123: with the default limit on the cost (zero, or any other that is not negative) a registration that starts at a pose which brings every point onto a point of the map returns that
pose, whatever the prior, in every build: the prior is not looked at. -/
theorem prior_ignored_by_registration {ops : PoseOps ℝ (Pose3 ℝ)} {E : Env ℝ} (hsq : E.sqrt 0 = 0) {P : Params ℝ} (hc : 0 ≤ P.maxCost)
    (L : PriorEnv ℝ) (pr : PriorPdf ℝ) {bb : SolverCtx (Pose3 ℝ) → Pairings ℝ → Build} (hbb : ∀ sc q, q.pointWeights = [] → Sound q (bb sc q))
    {c : DTCfg ℝ} {mr : ℝ} (name : String) {g : GLayer ℝ} {gpts pts : List (P3 ℝ)} (dense : Bool) {T0 : Pose3 ℝ} {p : IcpParams ℝ}
    (hs : RegSetting ops c mr g gpts pts T0 p) {M : Nat} (hM : 1 ≤ M) {wantsLog : Bool} (hlog : LogThere p wantsLog) :
    ∃ r, align ops (simpleIcp c (gnAsSolver bb E (withPrior P L (some pr))) mr name g gpts.length dense pts) { p with maxIterations := M } T0 1 wantsLog = .ok r ∧
      r.pose = T0 ∧ r.quality = 1 ∧ r.nIterations ≤ 1 ∧ (2 ≤ M → r.reason = .stalled) := by
  have hsv : SolvesFrom (gnAsSolver bb E (withPrior P L (some pr))) ops.tnorm pts T0 T0 := by
    intro prs hm out sc fin hg
    have hrest := hm.rest
    have hpw : prs.pointWeights = [] := by rw [hrest]
    have ha : ExactlyAligned prs T0 := by
      refine ⟨?_, ?_, ?_, ?_, ?_⟩
      · intro q hq
        have : (q.localIdx, q.local, q.global) ∈ prs.pt2pt.map fun q => (q.localIdx, q.local, q.global) := List.mem_map.mpr ⟨q, hq, rfl⟩
        rw [hm.pairs] at this
        obtain ⟨x, -, hx⟩ := List.mem_map.mp this
        simp only [Prod.mk.injEq] at hx
        rw [← hx.2.1, ← hx.2.2]
      all_goals (rw [hrest]; try simp)
    obtain ⟨r, e1, e2⟩ : ∃ r, run (bb sc prs) E { withPrior P L (some pr) with linearizationPoint := some T0 } prs = .ok r ∧ r.pose = T0 := by
      have hb := hbb sc prs hpw
      cases hbs : bb sc prs with
      | serial =>
        obtain ⟨r, h1, h2, -⟩ := gn_fixed_point_serial_partial E { withPrior P L (some pr) with linearizationPoint := some T0 } prs T0 rfl
          (by simp [BlocksCover, hpw]) ha hsq hc
        exact ⟨r, h1, h2⟩
      | tbb sched =>
        rw [hbs] at hb
        cases hb with
        | tbb _ hv =>
          obtain ⟨r, h1, h2, -⟩ := gn_fixed_point_tbb_partial E { withPrior P L (some pr) with linearizationPoint := some T0 } prs T0 rfl hpw sched hv ha hsq hc
          exact ⟨r, h1, h2⟩
    have hret := (gn_always_reports_success _ _ _ _).1 r e1
    rw [gn_object bb E _ ops.tnorm prs sc _ out fin hg, e1]
    simp [Outcome.bind, hret, e2]
  have hs' : RegSetting ops c mr g gpts pts T0 { p with maxIterations := M } :=
    ⟨hs.ops, hs.serves, hs.matcher, hs.nonempty, hs.distinct, hs.rot, hs.there, hs.ratio, hs.checks, hs.stepT, hs.stepR⟩
  obtain ⟨r, h1, h2, -, h3, -, h4, h5, -⟩ := align_exact_from (name := name) (dense := dense) hs' hsv hsv (close_self hs.matcher.thr T0) wantsLog hlog hM
  exact ⟨r, h1, h2, h3, h4, h5⟩

/-! ### a case -/

/-- One point. -/
def lonePts : List (P3 ℝ) := [⟨1, 0, 0⟩]
/-- A map of two points. -/
def loneMap : List (P3 ℝ) := [⟨1, 0, 0⟩, ⟨5, 0, 0⟩]

theorem lone_setting {T : Pose3 ℝ} (hR : IsRotation T.R) (hT : T.composePoint ⟨1, 0, 0⟩ = ⟨1, 0, 0⟩) :
    RegSetting diffOps (regCfg false) 1 (bruteLayer loneMap) loneMap lonePts T regParams where
  ops := diffOps_ok
  serves := bruteLayer_serves (by simp [loneMap])
  matcher := ⟨rfl, by norm_num [regCfg], by simp [regCfg], by simp [regCfg], by norm_num [regCfg], Or.inl rfl, rfl⟩
  nonempty := by simp [lonePts]
  distinct := by simp [lonePts]
  rot := hR
  there x hx := by
    simp only [lonePts, List.mem_singleton] at hx
    rw [hx, hT]; simp [loneMap]
  ratio := le_rfl
  checks := by simp [regParams]
  stepT := by norm_num [regParams]
  stepR := by norm_num [regParams]

/-- The whole prior of unit information at the identity holds the body, whatever the points. -/
theorem entry_holds (pts : List (P3 ℝ)) : HoldsWith (truePairs pts Pose3.identity) entryPrior ⟨Pose3.identity, 1⟩ Pose3.identity := by
  intro v w _ hq
  have hq : (entryPrior.jac Pose3.identity Pose3.identity).mulVec (twist v w) ⬝ᵥ
    (1 : Matrix (Fin 6) (Fin 6) ℝ).mulVec ((entryPrior.jac Pose3.identity Pose3.identity).mulVec (twist v w)) = 0 := hq
  rw [entry_turned v w Pose3.identity rfl] at hq
  have h := unit_information.2 _ hq
  have h' := fun i => congrFun h i
  constructor <;> ext
  · exact h' 0
  · exact h' 1
  · exact h' 2
  · exact h' 3
  · exact h' 4
  · exact h' 5

/-- A single point, and a prior of unit information at the true motion, with the real exponential map and a robust kernel.  With a negative limit on the cost, the registration squares the
distance to the true motion in each iteration, from every guess near enough.  With the limit zero it is not so: from a guess turned by half a turn around the axis through the point,
that guess is returned. -/
example :
    (∃ C > 0, ∃ ρ > 0, ∀ T0 : Pose3 ℝ, IsRotation T0.R → gap T0 Pose3.identity ≤ ρ →
      ∃ r, align diffOps (simpleIcp (regCfg false) (gnAsSolver (fun _ q => .tbb (oneChunk q)) se3Env
          (withPrior { cauchyGn with maxInner := 2, maxCost := -1 } entryPrior (some ⟨Pose3.identity, 1⟩))) 1 "pts" (bruteLayer loneMap) 2 true lonePts)
          { regParams with maxIterations := 20 } T0 1 false = .ok r ∧
        ∀ ev ∈ r.trace, ∃ s : Sol ℝ (Pose3 ℝ), ev.solver = some (true, s) ∧ gap s.pose Pose3.identity ≤ C * gap ev.poseIn Pose3.identity ^ 2) ∧
    ∃ r, align diffOps (simpleIcp (regCfg false) (gnAsSolver (fun _ q => .tbb (oneChunk q)) se3Env
        (withPrior { cauchyGn with maxInner := 2 } entryPrior (some ⟨Pose3.identity, 1⟩))) 1 "pts" (bruteLayer loneMap) 2 true lonePts)
        { regParams with maxIterations := 20 } ⟨rotXpi, 0⟩ 1 false = .ok r ∧ r.pose = ⟨rotXpi, 0⟩ ∧ r.quality = 1 ∧ r.reason = .stalled := by
  constructor
  · have hs := lone_setting (T := Pose3.identity) still_setting.1 (by simp [Pose3.identity, Pose3.composePoint, M3.mulVec, M3.one, P3.ext_iff])
    obtain ⟨C, hC, ρ, hρ, h⟩ := prior_registration_near_partial (P := { cauchyGn with maxInner := 2, maxCost := -1 }) (pr := ⟨Pose3.identity, 1⟩)
      se3_good se3_second (by norm_num) (by simp [cauchyGn, plainGn]) (Or.inr (by simp [cauchyGn, plainGn])) (sched := fun _ q => oneChunk q)
      (fun _ q => oneChunk_valid q) "pts" true hs entrySmooth unit_information.1 (entry_holds lonePts) (Or.inl (by norm_num))
    refine ⟨C, hC, ρ, hρ, fun T0 hr hg => ?_⟩
    obtain ⟨r, h1, -, -, -, -, h2, -⟩ := h T0 20 false hr hg (by omega) (by simp [LogThere, regParams])
    exact ⟨r, h1, fun ev hev => (h2 ev hev).2⟩
  · have hR : IsRotation (rotXpi : M3 ℝ) := by
      constructor
      · ext <;> simp [rotXpi, M3.mul, M3.transpose, M3.one]
      · simp [rotXpi, M3.det]
    have hs := lone_setting (T := ⟨rotXpi, 0⟩) hR (by simp [rotXpi, Pose3.composePoint, M3.mulVec, P3.ext_iff])
    obtain ⟨r, h1, h2, h3, -, h4⟩ := prior_ignored_by_registration (E := se3Env) (P := { cauchyGn with maxInner := 2 }) Real.sqrt_zero
      (by simp [cauchyGn, plainGn]) entryPrior ⟨Pose3.identity, 1⟩ (bb := fun _ q => .tbb (oneChunk q)) (fun _ q hq => .tbb hq (oneChunk_valid q))
      "pts" true hs (M := 20) (by omega) (wantsLog := false) (by simp [LogThere, regParams])
    exact ⟨r, h1, h2, h3, h4 (by omega)⟩

/-- C120: what the logarithm of the prior's error is taken of is the pose as seen from the mean: it, and it alone, composed with the mean gives the pose. -/
theorem prior_error_relative {K : Type} [Field K] [LinearOrder K] [IsStrictOrderedRing K] {M : Pose3 K} (hM : IsRotation M.R) (T X : Pose3 K) :
    X = seenFrom M T ↔ ∀ x, M.composePoint (X.composePoint x) = T.composePoint x := by
  have e : ∀ x, (seenFrom M T).composePoint x = M.inv.composePoint (T.composePoint x) := by
    intro x
    simp only [seenFrom, Pose3.inv, Pose3.composePoint]
    ext <;> simp [M3.mul, M3.mulVec] <;> ring
  constructor
  · rintro rfl x
    rw [e, Lemmas.HS.point_inv hM]
  · intro h
    refine Lemmas.HS.pose_ext fun x => ?_
    rw [e, ← h, Lemmas.HS.inv_point hM]

example : ∀ x, exT.composePoint ((seenFrom exT Pose3.identity).composePoint x) = (Pose3.identity : Pose3 ℝ).composePoint x :=
  (prior_error_relative exPairs_noiseFree.rot _ _).mp rfl

end Verif.Props
