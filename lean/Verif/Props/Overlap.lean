import Verif.Lemmas.Overlap
import Verif.Lemmas.PlaneReg
import Verif.Props.NearReg
/-
C118: registration of maps that overlap only in part.
-/
namespace Verif.Props
open Verif Verif.Spec Verif.Lemmas.Ov
set_option linter.unusedSectionVars false

section
variable {K : Type} [Field K] [LinearOrder K] [IsStrictOrderedRing K]

/-- Moved by `T` itself the points are close, if those without place in the map are apart from it. -/
theorem close_shared_self {pts gpts : List (P3 K)} {c : DTCfg K} (ht : 0 < c.thr) {T : Pose3 K} (ha : LonersApart pts gpts c T) : CloseShared pts gpts c T T :=
  have h := Lemmas.close_self (pts := pts) (gpts := gpts) ht T
  ⟨fun p hp _ => h.nearest p hp, fun p hp _ => h.within p hp, fun p hp hn y hy => (ha p hp hn y hy).le⟩

/-- C118: some of the local points, moved by a rigid motion `T`, are in the map, and the others are there farther than the threshold from it.  From every guess at which the points
of the first kind are nearest to their true places and within the threshold, and those of the second kind are not within it of any map point, ICP with the distance-threshold
matcher, the Horn solver and the paired-ratio evaluator returns exactly `T`, with exactly the points of the first kind paired, each with its true place, and as quality their
share, after at most two iterations, and reports that it has converged. -/
theorem overlap_registration {ops : PoseOps K (Pose3 K)} {e : HornEnv K} (nearOne : P3 K → Bool) (ratio : K) {wp : WeightParams K} {c : DTCfg K} {mr : K}
    (name : String) {g : GLayer K} {gpts pts : List (P3 K)} (dense : Bool) {T T0 : Pose3 K} {p : IcpParams K} (hs : OverlapSetting ops c mr g gpts pts T p)
    (heig : ∀ N, IsTopEigen N (e.eig N)) (hn : IsNorm e.norm) (he : 0 < e.eps) (hw : PlainSolver wp) (h3 : 3 ≤ (sharedPts gpts pts T).length)
    (hsp : Spread e.norm e.eps (sharedPts gpts pts T)) (ha : LonersApart pts gpts c T) (hcl : CloseShared pts gpts c T T0) (wantsLog : Bool)
    (hlog : LogThere p wantsLog) (hit : 1 ≤ p.maxIterations) :
    ∃ r, align ops (simpleIcp c (hornAsSolver e nearOne ratio wp) mr name g gpts.length dense pts) p T0 1 wantsLog = .ok r ∧
      r.pose = T ∧ r.scale = 1 ∧ r.quality = ((sharedPts gpts pts T).length : K) / (pts.length : K) ∧ SharedMatched gpts pts T r.pairings ∧ r.nIterations ≤ 1 ∧
      (2 ≤ p.maxIterations → r.reason = .stalled) := by
  refine Lemmas.PR.settles (SharedMatched gpts pts T) hs.ops rfl rfl rfl (by simp [simpleIcp]) (by simp [simpleIcp]) (by simp [simpleIcp])
    (fun prs hm => shared_found hs.overlap hm) ?_ (fun prs hm it fin pose => shared_quality (pts_ne hs.overlap) hs.ratio hm it fin pose)
    hs.checks hs.stepT hs.stepR wantsLog hlog hit
  intro Q hQ it
  have hclose : CloseShared pts gpts c T Q := by
    rcases hQ with rfl | rfl
    · exact hcl
    · exact close_shared_self hs.matcher.thr ha
  obtain ⟨ms, prs, m1, m2⟩ := match_shared (s := hornAsSolver e nearOne ratio wp) (name := name) (dense := dense) hs hclose it
  exact ⟨ms, prs, m1, m2, fun out sc fin _ => Lemmas.horn_solves_paired heig hn he hw h3 hs.rot hsp (shared_paired m2) out sc fin⟩

end

open Verif.Gn Verif.Spec.GN Verif.Lemmas.Conv Verif.Lemmas.Near

/-- Every pose near enough to `T` is close. -/
theorem close_shared_near (pts gpts : List (P3 ℝ)) {c : DTCfg ℝ} (ht : 0 < c.thr) {T : Pose3 ℝ} (ha : LonersApart pts gpts c T) :
    ∃ ρ > 0, ∀ G, gap G T ≤ ρ → CloseShared pts gpts c T G := by
  obtain ⟨ρ1, hρ1, h1⟩ := close_near pts gpts ht T
  have e1 : ∀ᶠ v in nhds (poseVec T), ∀ p ∈ pts, ∀ y ∈ gpts, T.composePoint p ∉ gpts →
      c.thr * c.thr + c.angSq * P3.normSq ((vecPose v).composePoint p) < P3.distSq ((vecPose v).composePoint p) y := by
    refine eventually_list fun p hp => eventually_list fun y hy => ?_
    by_cases hne : T.composePoint p ∈ gpts
    · exact Filter.Eventually.of_forall fun v h => absurd hne h
    · have hc : Continuous fun v : Fin 12 → ℝ => c.thr * c.thr + c.angSq * P3.normSq ((vecPose v).composePoint p) := by
        have h0 := near_place p 0
        have h2 : (fun v : Fin 12 → ℝ => P3.normSq ((vecPose v).composePoint p)) = fun v => P3.distSq ((vecPose v).composePoint p) 0 := by
          funext v; simp [P3.distSq, P3.normSq, P3.dot]
        have h3 : Continuous fun v : Fin 12 → ℝ => P3.normSq ((vecPose v).composePoint p) := by rw [h2]; exact h0
        exact continuous_const.add (continuous_const.mul h3)
      have := hc.continuousAt.eventually_lt (near_place p y).continuousAt (x₀ := poseVec T)
        (by simpa only [vecPose_poseVec] using ha p hp hne y hy)
      exact this.mono fun v h _ => h
  obtain ⟨ε, hε, h⟩ := Metric.eventually_nhds_iff.mp e1
  refine ⟨min ρ1 (ε / 2), by positivity, fun G hG => ?_⟩
  have hd : dist (poseVec G) (poseVec T) < ε := by
    rw [dist_eq_norm]
    have h2 : gap G T = ‖poseVec G - poseVec T‖ := rfl
    have h3 := hG.trans (min_le_right _ _)
    linarith
  have h2 := h hd
  simp only [vecPose_poseVec] at h2
  have h3 := h1 G (hG.trans (min_le_left _ _))
  exact ⟨fun p hp _ => h3.nearest p hp, fun p hp _ => h3.within p hp, fun p hp hn y hy => (h2 p hp y hy hn).le⟩

/-- A pipeline with a solver that squares the distance homes in on `T` from near it. -/
theorem overlap_near {ops : PoseOps ℝ (Pose3 ℝ)} {sv : Solver ℝ (Pose3 ℝ)} {c : DTCfg ℝ} {mr : ℝ} {name : String} {g : GLayer ℝ} {gpts pts : List (P3 ℝ)}
    {dense : Bool} {T : Pose3 ℝ} {p : IcpParams ℝ} (hs : OverlapSetting ops c mr g gpts pts T p) {C ρ : ℝ} (hsv : SquaresNear sv ops.tnorm (sharedPts gpts pts T) T C ρ)
    (hclose : ∀ G, gap G T ≤ ρ → CloseShared pts gpts c T G) :
    NearRun ops (simpleIcp c sv mr name g gpts.length dense pts) p T C ρ (((sharedPts gpts pts T).length : ℝ) / (pts.length : ℝ)) (SharedMatched gpts pts T) where
  hook := rfl
  ge := rfl
  le := rfl
  ms := by simp [simpleIcp]
  ss := by simp [simpleIcp]
  qs := by simp [simpleIcp]
  found prs hm := shared_found hs.overlap hm
  step G hr hg it := by
    obtain ⟨ms, prs, hm1, hm2⟩ := match_shared (s := sv) (mr := mr) (name := name) (dense := dense) hs (hclose _ hg) it
    exact ⟨ms, prs, hm1, hm2, fun out sc fin hsc => hsv G hr hg prs (shared_paired hm2) out sc fin hsc⟩
  qual prs hm it fin pose := shared_quality (pts_ne hs.overlap) hs.ratio hm it fin pose
  checks := hs.checks

/-- C118 (partial): the same with Gauss-Newton, from every rigid guess near enough to `T`, turned or not: at each iteration exactly the points with a place in the map are paired,
each with its true place, and each iteration at least squares the distance to `T`, up to a constant factor; their share is reported as quality, and the run ends as stalled, or
with the maximum of iterations.  Missing: more inner steps without TBB; how far the guess may be; floating-point numbers. -/
theorem gn_overlap_near_partial {ops : PoseOps ℝ (Pose3 ℝ)} {E : Env ℝ} (hE : GoodEnv E) (hE2 : SecondOrderExp E) {P : Params ℝ} (hprior : P.prior = none)
    (hc : P.maxCost = 0) (hn : 1 ≤ P.maxInner)
    (hw : 0 < P.pairWeights.pt2pt ∧ 0 < P.pairWeights.pt2ln ∧ 0 < P.pairWeights.pt2pl ∧ 0 < P.pairWeights.pl2pl)
    (hk : P.kernel = .none ∨ 0 < P.kernelParam) {bb : SolverCtx (Pose3 ℝ) → Pairings ℝ → Build}
    (hbb : ∀ sc q, q.pointWeights = [] → Sound q (bb sc q)) (hser : P.maxInner = 1 ∨ ∀ sc q, isParallel (bb sc q) = true) {c : DTCfg ℝ} {mr : ℝ} (name : String)
    {g : GLayer ℝ} {gpts pts : List (P3 ℝ)} (dense : Bool) {T : Pose3 ℝ} {p : IcpParams ℝ} (hs : OverlapSetting ops c mr g gpts pts T p)
    (ha : LonersApart pts gpts c T) (hl : NotOnALine (sharedPts gpts pts T)) :
    ∃ C > 0, ∃ ρ > 0, ∀ (T0 : Pose3 ℝ) (M : Nat) (wantsLog : Bool), IsRotation T0.R → gap T0 T ≤ ρ → 1 ≤ M → LogThere p wantsLog →
      ∃ r, align ops (simpleIcp c (gnAsSolver bb E P) mr name g gpts.length dense pts) { p with maxIterations := M } T0 1 wantsLog = .ok r ∧
        IsRotation r.pose.R ∧ r.scale = 1 ∧ r.quality = ((sharedPts gpts pts T).length : ℝ) / (pts.length : ℝ) ∧ SharedMatched gpts pts T r.pairings ∧
        (∀ ev ∈ r.trace, SharedMatched gpts pts T ev.pairings ∧ ∃ s : Sol ℝ (Pose3 ℝ), ev.solver = some (true, s) ∧ gap s.pose T ≤ C * gap ev.poseIn T ^ 2) ∧
        gap r.pose T ≤ gap T0 T * (1 / 2) ^ (2 ^ r.trace.length - 1) ∧ 1 ≤ r.trace.length ∧ r.nIterations ≤ r.trace.length ∧
        ((r.reason = .stalled ∧ r.nIterations < M) ∨ (r.reason = .maxIterations ∧ r.nIterations = M)) := by
  obtain ⟨C, hC, ρ1, hρ1, hsq⟩ := gn_squares_near hE hE2 hprior hc hn hw hk hbb hser ops.tnorm hl hs.rot
  obtain ⟨ρ2, hρ2, hclose⟩ := close_shared_near pts gpts hs.matcher.thr ha
  obtain ⟨ρ, hρ, h⟩ := near_all (overlap_near (name := name) (dense := dense) hs (ρ := min ρ1 ρ2)
    (fun G hG hgG => hsq G hG (hgG.trans (min_le_left _ _))) (fun G hgG => hclose G (hgG.trans (min_le_right _ _)))) hC (by positivity)
  exact ⟨C, hC, ρ, hρ, h⟩

/-- C118 (partial): if moreover steps between poses near the true one have small lengths, some number of iterations is enough for all those guesses: the run then ends as stalled,
whatever the maximum. -/
theorem gn_overlap_stalls_partial {ops : PoseOps ℝ (Pose3 ℝ)} {E : Env ℝ} (hE : GoodEnv E) (hE2 : SecondOrderExp E) {P : Params ℝ} (hprior : P.prior = none)
    (hc : P.maxCost = 0) (hn : 1 ≤ P.maxInner)
    (hw : 0 < P.pairWeights.pt2pt ∧ 0 < P.pairWeights.pt2ln ∧ 0 < P.pairWeights.pt2pl ∧ 0 < P.pairWeights.pl2pl)
    (hk : P.kernel = .none ∨ 0 < P.kernelParam) {bb : SolverCtx (Pose3 ℝ) → Pairings ℝ → Build}
    (hbb : ∀ sc q, q.pointWeights = [] → Sound q (bb sc q)) (hser : P.maxInner = 1 ∨ ∀ sc q, isParallel (bb sc q) = true) {c : DTCfg ℝ} {mr : ℝ} (name : String)
    {g : GLayer ℝ} {gpts pts : List (P3 ℝ)} (dense : Bool) {T : Pose3 ℝ} {p : IcpParams ℝ} (hs : OverlapSetting ops c mr g gpts pts T p)
    (ha : LonersApart pts gpts c T) (hl : NotOnALine (sharedPts gpts pts T)) (hops : SmoothDiffs ops T) :
    ∃ ρ > 0, ∃ N : Nat, ∀ (T0 : Pose3 ℝ) (M : Nat) (wantsLog : Bool), IsRotation T0.R → gap T0 T ≤ ρ → N < M → LogThere p wantsLog →
      ∃ r, align ops (simpleIcp c (gnAsSolver bb E P) mr name g gpts.length dense pts) { p with maxIterations := M } T0 1 wantsLog = .ok r ∧
        r.reason = .stalled ∧ r.nIterations ≤ N ∧ gap r.pose T ≤ gap T0 T ∧
        r.quality = ((sharedPts gpts pts T).length : ℝ) / (pts.length : ℝ) ∧ SharedMatched gpts pts T r.pairings := by
  obtain ⟨C, hC, ρ1, hρ1, hsq⟩ := gn_squares_near hE hE2 hprior hc hn hw hk hbb hser ops.tnorm hl hs.rot
  obtain ⟨ρ2, hρ2, hclose⟩ := close_shared_near pts gpts hs.matcher.thr ha
  exact near_stalls (overlap_near (name := name) (dense := dense) hs (ρ := min ρ1 ρ2)
    (fun G hG hgG => hsq G hG (hgG.trans (min_le_left _ _))) (fun G hgG => hclose G (hgG.trans (min_le_right _ _)))) hC (by positivity)
    hs.ops hs.stepT hs.stepR hops

/-! ### the hypotheses are met -/

/-- The four points of the other examples, and one that the map does not have. -/
def lonerPts : List (P3 ℝ) := ⟨0, 0, 5⟩ :: regPts

theorem loner_out : exT.composePoint ⟨0, 0, 5⟩ ∉ regMap := by
  norm_num [regMap, exT, rotXpi, Pose3.composePoint, M3.mulVec, P3.ext_iff]

theorem loner_shared : sharedPts regMap lonerPts exT = regPts := by
  unfold sharedPts lonerPts
  rw [List.filter_cons_of_neg (by simpa using loner_out), List.filter_eq_self]
  intro x hx
  simpa using reg_there x hx

theorem loner_setting : OverlapSetting diffOps (regCfg false) (4 / 5) (bruteLayer regMap) regMap lonerPts exT regParams := by
  have h := reg_setting false
  have hlen : ((sharedPts regMap lonerPts exT).length : ℝ) / (lonerPts.length : ℝ) = 4 / 5 := by
    rw [loner_shared]; norm_num [lonerPts, regPts]
  exact ⟨h.ops, h.serves, ⟨rfl, h.matcher.thr, h.matcher.angDeg, h.matcher.angSq, h.matcher.eps, Or.inl rfl, rfl⟩, by rw [loner_shared]; simp [regPts],
    by norm_num [lonerPts, regPts, P3.ext_iff], h.rot, by rw [hlen], by simp [regParams], h.stepT, h.stepR⟩

theorem loner_apart : LonersApart lonerPts regMap (regCfg false) exT := by
  intro p hp hn y hy
  rcases List.mem_cons.mp hp with rfl | hp
  · simp only [regMap, List.mem_cons, List.not_mem_nil, or_false] at hy
    rcases hy with rfl | rfl | rfl | rfl | rfl <;>
      norm_num [regCfg, exT, rotXpi, Pose3.composePoint, M3.mulVec, P3.distSq, P3.normSq, P3.dot]
  · exact absurd (reg_there p hp) hn

theorem loner_close : CloseShared lonerPts regMap (regCfg false) exT regGuess := by
  have h := reg_close
  refine ⟨fun p hp hin => ?_, fun p hp hin => ?_, fun p hp hn y hy => ?_⟩
  · rcases List.mem_cons.mp hp with rfl | hp
    · exact absurd hin loner_out
    · exact h.nearest p hp
  · rcases List.mem_cons.mp hp with rfl | hp
    · exact absurd hin loner_out
    · exact h.within p hp
  · rcases List.mem_cons.mp hp with rfl | hp
    · simp only [regMap, List.mem_cons, List.not_mem_nil, or_false] at hy
      rcases hy with rfl | rfl | rfl | rfl | rfl <;>
        norm_num [regCfg, regGuess, rotXpi, Pose3.composePoint, M3.mulVec, P3.distSq, P3.normSq, P3.dot]
    · exact absurd (reg_there p hp) hn

/-- The registration of the five points, one of which the map does not have, finds `exT`, and reports that four fifths were paired. -/
example : ∃ r, align diffOps (simpleIcp (regCfg false) (hornAsSolver realHorn (fun _ => false) 0 exParams) (4 / 5) "pts"
    (bruteLayer regMap) 5 true lonerPts) regParams regGuess 1 false = .ok r ∧ r.pose = exT ∧ r.reason = .stalled ∧ r.quality = 4 / 5 := by
  have h := reg_setting false
  obtain ⟨r, h1, h2, -, h4, -, -, h7⟩ := overlap_registration (e := realHorn) (fun _ => false) 0 "pts" true loner_setting h.eig h.norm h.epsPos h.solver
    (by rw [loner_shared]; simp [regPts]) (by rw [loner_shared]; exact h.spread) loner_apart loner_close false
    (by simp [LogThere, regParams]) (by simp [regParams])
  refine ⟨r, h1, h2, h7 (by simp [regParams]), ?_⟩
  rw [h4, loner_shared]
  norm_num [lonerPts, regPts]

/-- So does Gauss-Newton, from every guess near enough. -/
example : ∃ ρ > 0, ∃ N : Nat, ∀ T0 : Pose3 ℝ, IsRotation T0.R → gap T0 exT ≤ ρ →
    ∃ r, align diffOps (simpleIcp (regCfg false) (gnAsSolver (fun _ q => .tbb (oneChunk q)) se3Env { cauchyGn with maxInner := 2 }) (4 / 5) "pts"
      (bruteLayer regMap) 5 true lonerPts) { regParams with maxIterations := N + 1 } T0 1 false = .ok r ∧ r.reason = .stalled ∧ gap r.pose exT ≤ gap T0 exT ∧
      r.quality = 4 / 5 := by
  obtain ⟨ρ, hρ, N, hN⟩ := gn_overlap_stalls_partial (P := { cauchyGn with maxInner := 2 }) se3_good se3_second rfl rfl (by norm_num)
    (by simp [cauchyGn, plainGn]) (Or.inr (by simp [cauchyGn, plainGn])) (bb := fun _ q => .tbb (oneChunk q))
    (fun _ q hq => .tbb hq (oneChunk_valid q)) (Or.inr fun _ _ => rfl) "pts" true loner_setting loner_apart
    (by rw [loner_shared]; exact ⟨⟨1, 0, 0⟩, by simp [regPts], ⟨-1, 0, 0⟩, by simp [regPts], ⟨0, 1, 0⟩, by simp [regPts], by simp [P3.cross, P3.ext_iff]; norm_num⟩)
    (diffOps_smooth exT)
  refine ⟨ρ, hρ, N, fun T0 hr hg => ?_⟩
  obtain ⟨r, h1, h2, -, h3, h4, -⟩ := hN T0 (N + 1) false hr hg (by omega) (by simp [LogThere, regParams])
  refine ⟨r, h1, h2, h3, ?_⟩
  rw [h4, loner_shared]
  norm_num [lonerPts, regPts]

end Verif.Props
