import Verif.Lemmas.Unit
import Verif.Props.HornSame
/-
C125: a registration does not depend on the unit of length.
-/
namespace Verif.Props
open Verif Verif.Spec Verif.Lemmas.Unit Verif.Lemmas.HS
set_option linter.unusedSectionVars false
variable {K : Type} [Field K] [LinearOrder K] [IsStrictOrderedRing K]

/-- C125 (partial): take a registration (one matcher by distance, Horn's solver) that ends normally, and do it again in another unit of length:
all points of the map and of the cloud, the translation of the initial guess, the distance threshold of the matcher and the least step of the
translation multiplied by `u > 0`.  The second one ends normally too, after the same number of iterations, for the same reason (also if that is that the
solver failed), with the same quality and scale, the same pairs and log, the same rotation, and the translation multiplied by `u`.  Needed: in each
iteration no ties for the nearest point, one best motion for the pairs, and no pair within the solver's fixed distance of a centroid in either unit
(without that it is false: `unit_matters`).  Missing: angular thresholds; the other matchers and solvers; floating-point numbers. -/
theorem unit_free_partial {ops : PoseOps K (Pose3 K)} {e : HornEnv K} {nearOne : P3 K → Bool} {ratio : K} {wp : WeightParams K}
    {c : DTCfg K} {mr : K} {name : String} (name' : String) {u k : K} {g g' : GLayer K} {gpts pts : List (P3 K)} {dense : Bool} (dense' : Bool)
    {p : IcpParams K} (hs : UnitSetting ops e wp c u k g g' gpts pts) {init : Pose3 K} {wantsLog : Bool} {r : IcpResult K (Pose3 K)}
    (h : align ops (simpleIcp c (hornAsSolver e nearOne ratio wp) mr name g gpts.length dense pts) p init 1 wantsLog = .ok r)
    (hclear : ∀ ev ∈ r.trace, UnitClear e.norm e.eps u gpts pts ev) :
    ∃ r', align ops (simpleIcp (matcherInUnit u c) (hornAsSolver e nearOne ratio wp) mr name' g' (gpts.map (P3.smul u)).length dense'
        (pts.map (P3.smul u))) (paramsInUnit k p) (inUnit u init) 1 wantsLog = .ok r' ∧ UnitRun u r r' :=
  align_unit hs h fun ev hev => ⟨(hclear ev hev).noTies, (hclear ev hev).oneBest, (hclear ev hev).far, (hclear ev hev).farThere⟩

/-- What is needed of pose differences holds for those of the library: `a ⊖ b` is `b⁻¹ a`, and the length and the angle of a motion are those of
its logarithm, of which the length goes with the unit. -/
theorem relative_pose_unit_free {ops : PoseOps K (Pose3 K)} (h : ∀ a b, ops.sub a b = b.inv.compose a) {u : K}
    (hn : ∀ d, ops.logNorms (inUnit u d) = (u * (ops.logNorms d).1, (ops.logNorms d).2)) : UnitFree ops u u := by
  intro a b
  have e1 : (inUnit u b).inv.compose (inUnit u a) = inUnit u (b.inv.compose a) := by
    simp only [Pose3.inv, Pose3.compose, inUnit]
    refine Pose3.ext rfl ?_
    ext <;> simp [M3.mulVec] <;> ring
  rw [h, h, e1, hn]

/-! ### Four points that do not fit, in a unit a third as long -/

theorem diffOps_unit (u : ℝ) : UnitFree diffOps u (u * u) := by
  intro a b
  simp only [diffOps, inUnit, P3.normSq, P3.dot, P3.sub_x, P3.sub_y, P3.sub_z, P3.smul_x, P3.smul_y, P3.smul_z, Prod.mk.injEq, and_true]
  ring

theorem wide_one_fit {ps : List (PtPair ℝ)} (h : pointsOf ps = widePairs) : OneBestFit ps := by
  have e : ∀ T, pointCost ps T = pointCost noisyPairs.pt2pt T := by
    intro T
    rw [cost_points, cost_points, h, noisy_points]
  intro A B hA hB h1 h2
  refine noisy_one_best A B hA hB (fun T hT => ?_) (fun T hT => ?_)
  · rw [← e, ← e]; exact h1 T hT
  · rw [← e, ← e]; exact h2 T hT

theorem wide_far {ps : List (PtPair ℝ)} (h : pointsOf ps = widePairs) : AwayFromCentroids realHorn.norm realHorn.eps ps := by
  have := noisy_fit.far
  rw [far_points] at this ⊢
  rw [h, ← noisy_points]
  exact this

example : ∃ r r', align diffOps (simpleIcp wideCfg (hornAsSolver realHorn (fun _ => false) 0 exParams) 1 "pts" (bruteLayer wideMap) 4 true regPts)
      onceParams Pose3.identity 1 false = .ok r ∧
    align diffOps (simpleIcp (matcherInUnit 3 wideCfg) (hornAsSolver realHorn (fun _ => false) 0 exParams) 1 "map"
      (bruteLayer (wideMap.map (P3.smul 3))) (wideMap.map (P3.smul 3)).length false (regPts.map (P3.smul 3))) (paramsInUnit (3 * 3) onceParams)
      (inUnit 3 Pose3.identity) 1 false = .ok r' ∧
    (∀ ev ∈ r.trace, UnitClear realHorn.norm realHorn.eps 3 wideMap regPts ev) ∧ UnitRun 3 r r' ∧ r'.quality = 1 := by
  obtain ⟨r, h1, h2, h3, h4, -⟩ := one_iteration (c := wideCfg) (gpts := wideMap) (pts := regPts) (T := Pose3.identity) (by simp [wideMap])
    wide_setting.fit.matcher rfl rfl (by simp [regPts]) (L := widePairs) (by simp [widePairs, regPts]) wide_spots
  have hclear : ∀ ev ∈ r.trace, UnitClear realHorn.norm realHorn.eps 3 wideMap regPts ev := by
    intro ev hev
    obtain ⟨k1, k2⟩ := h4 ev hev
    refine ⟨?_, fun _ => wide_one_fit k2, wide_far k2, fun q hq => ?_⟩
    · rw [k1]
      refine noTies_only fun x hx => ?_
      have : x ∈ widePairs.map (·.1) := by simpa [widePairs, regPts] using hx
      obtain ⟨q, hq, rfl⟩ := List.mem_map.mp this
      exact ⟨_, wide_nearest q hq⟩
    · have hlt : realHorn.eps / 3 < realHorn.eps := by norm_num [realHorn]
      obtain ⟨f1, f2⟩ := wide_far k2 q hq
      exact ⟨fun hc => f1 (hc.trans hlt), fun hc => f2 (hc.trans hlt)⟩
  have hset : UnitSetting diffOps realHorn exParams wideCfg 3 (3 * 3) (bruteLayer wideMap) (bruteLayer (wideMap.map (P3.smul 3))) wideMap regPts :=
    ⟨wide_setting.fit, bruteLayer_serves (by simp [wideMap]), by norm_num, by norm_num, rfl, diffOps_unit 3⟩
  obtain ⟨r', k1, k2⟩ := unit_free_partial "map" false hset h1 hclear
  exact ⟨r, r', h1, k1, hclear, k2, by rw [k2.quality, h2]⟩

end Verif.Props
