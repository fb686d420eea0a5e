import Verif.Lemmas.Reach
import Verif.Props.Unit
/-
C127: what is out of reach of the matcher does not matter.
-/
namespace Verif.Props
open Verif Verif.Spec Verif.Lemmas.Reach Verif.Lemmas.Unit Verif.Lemmas.HS
set_option linter.unusedSectionVars false
variable {K : Type} [Field K] [LinearOrder K] [IsStrictOrderedRing K]

/-- C127 (partial): take a registration (one matcher by distance, Horn's solver) that ends normally, and do it again with another map that, within the
matcher's threshold of the points of the cloud at each pose at which they were matched, has the same points (a larger map, one cropped, one in which
far things have changed, one with its points in another order or repeated).  The second one ends normally too, after the same number of iterations, for
the same reason, with the same pose, scale and quality, the same points paired, and the same log.  Needed: in each iteration no ties for the nearest
point among those within the threshold, one best motion for the pairs, and no pair within the solver's fixed distance of a centroid.  Missing: angular
thresholds; the other matchers and solvers; floating-point numbers. -/
theorem out_of_reach_partial {ops : PoseOps K (Pose3 K)} {e : HornEnv K} {nearOne : P3 K → Bool} {ratio : K} {wp : WeightParams K}
    {c : DTCfg K} {mr : K} {name : String} (name' : String) {g g' : GLayer K} {gpts gpts' pts : List (P3 K)} {dense : Bool} (dense' : Bool)
    {p : IcpParams K} (hs : FitSetting ops e wp c g gpts pts) (hang : c.angSq = 0) (hs' : ServesPoints g' gpts') {init : Pose3 K} {wantsLog : Bool}
    {r : IcpResult K (Pose3 K)}
    (h : align ops (simpleIcp c (hornAsSolver e nearOne ratio wp) mr name g gpts.length dense pts) p init 1 wantsLog = .ok r)
    (hclear : ∀ ev ∈ r.trace, ReachClear e.norm e.eps c.thr gpts gpts' pts ev) :
    ∃ r', align ops (simpleIcp c (hornAsSolver e nearOne ratio wp) mr name' g' gpts'.length dense' pts) p init 1 wantsLog = .ok r' ∧
      ReachRun r r' := by
  have hfree : UnitFree ops 1 1 := by
    intro a b
    rw [one_unit, one_unit, one_mul]
  obtain ⟨r', h1, h2⟩ := align_two (name' := name') (dense' := dense') (u := 1) (k := 1) (g' := g') (gpts' := gpts')
    ⟨hs, hs', one_pos, one_pos, hang, hfree⟩ h (fun ev hev => by
      obtain ⟨k1, k2, k3, k4⟩ := hclear ev hev
      refine ⟨fun x hx => ?_, k3, k4, by rw [div_one]; exact k4⟩
      rw [one_matcher, one_unit, smul_one_id, id, spot_reach hs.serves hs' k1 k2 hx]
      simp)
  rw [one_matcher, one_params, one_unit, smul_one_id, List.map_id] at h1
  exact ⟨r', h1, run_of_unit h2⟩

/-- C127 (partial): so a map may be cropped before the registration (by any filter `keep` of its points) if all its points within the threshold of the
cloud, at the poses at which it is matched, are kept. -/
theorem crop_partial {ops : PoseOps K (Pose3 K)} {e : HornEnv K} {nearOne : P3 K → Bool} {ratio : K} {wp : WeightParams K}
    {c : DTCfg K} {mr : K} {name : String} (name' : String) {g g' : GLayer K} {gpts pts : List (P3 K)} (keep : P3 K → Bool) {dense : Bool}
    (dense' : Bool) {p : IcpParams K} (hs : FitSetting ops e wp c g gpts pts) (hang : c.angSq = 0) (hs' : ServesPoints g' (gpts.filter keep))
    {init : Pose3 K} {wantsLog : Bool} {r : IcpResult K (Pose3 K)}
    (h : align ops (simpleIcp c (hornAsSolver e nearOne ratio wp) mr name g gpts.length dense pts) p init 1 wantsLog = .ok r)
    (hclear : ∀ ev ∈ r.trace, NoTiesWithin c.thr gpts pts ev.poseIn ∧ (3 ≤ ev.pairings.pt2pt.length → OneBestFit ev.pairings.pt2pt) ∧
      AwayFromCentroids e.norm e.eps ev.pairings.pt2pt)
    (hkeep : ∀ ev ∈ r.trace, ∀ x ∈ pts, ∀ y ∈ gpts, P3.distSq (ev.poseIn.composePoint x) y < c.thr * c.thr → keep y = true) :
    ∃ r', align ops (simpleIcp c (hornAsSolver e nearOne ratio wp) mr name' g' (gpts.filter keep).length dense' pts) p init 1 wantsLog = .ok r' ∧
      ReachRun r r' := by
  refine out_of_reach_partial name' dense' hs hang hs' h fun ev hev => ?_
  obtain ⟨k1, k2, k3⟩ := hclear ev hev
  refine ⟨fun x hx y hy => ?_, k1, k2, k3⟩
  rw [List.mem_filter]
  exact ⟨fun hm => ⟨hm, hkeep ev hev x hx y hm hy⟩, fun hm => hm.1⟩

/-! ### A point far away added to the map -/

/-- The map and one point far from it. -/
def farMap : List (P3 ℝ) := ⟨1000, 0, 0⟩ :: wideMap

example : ∃ r r', align diffOps (simpleIcp wideCfg (hornAsSolver realHorn (fun _ => false) 0 exParams) 1 "pts" (bruteLayer wideMap) 4 true regPts)
      onceParams Pose3.identity 1 false = .ok r ∧
    align diffOps (simpleIcp wideCfg (hornAsSolver realHorn (fun _ => false) 0 exParams) 1 "map" (bruteLayer farMap) 5 false regPts)
      onceParams Pose3.identity 1 false = .ok r' ∧
    (∀ ev ∈ r.trace, ReachClear realHorn.norm realHorn.eps wideCfg.thr wideMap farMap regPts ev) ∧ ReachRun r r' ∧ r'.quality = 1 := by
  obtain ⟨r, h1, h2, h3, h4, -⟩ := one_iteration (c := wideCfg) (gpts := wideMap) (pts := regPts) (T := Pose3.identity) (by simp [wideMap])
    wide_setting.fit.matcher rfl rfl (by simp [regPts]) (L := widePairs) (by simp [widePairs, regPts]) wide_spots
  have hclear : ∀ ev ∈ r.trace, ReachClear realHorn.norm realHorn.eps wideCfg.thr wideMap farMap regPts ev := by
    intro ev hev
    obtain ⟨k1, k2⟩ := h4 ev hev
    refine ⟨?_, ?_, fun _ => wide_one_fit k2, wide_far k2⟩
    · rw [k1]
      intro x hx y hy
      refine ⟨fun h => List.mem_cons_of_mem _ h, fun h => ?_⟩
      rcases List.mem_cons.mp h with rfl | h
      · exfalso
        revert hy
        simp only [regPts, List.mem_cons, List.not_mem_nil, or_false] at hx
        rcases hx with rfl | rfl | rfl | rfl <;>
          norm_num [wideCfg, P3.distSq, P3.normSq, P3.dot, Pose3.identity, Pose3.composePoint, M3.mulVec, M3.one]
      · exact h
    · rw [k1]
      have hn := noTies_only (gpts := wideMap) (pts := regPts) (T := Pose3.identity) fun x hx => by
        have : x ∈ widePairs.map (·.1) := by simpa [widePairs, regPts] using hx
        obtain ⟨q, hq, rfl⟩ := List.mem_map.mp this
        exact ⟨_, wide_nearest q hq⟩
      exact fun x hx y hy z hz _ h1 h2 => hn x hx y hy z hz h1 h2
  obtain ⟨r', k1, k2⟩ := out_of_reach_partial "map" false wide_setting.fit rfl (bruteLayer_serves (gpts := farMap) (by simp [farMap])) h1 hclear
  exact ⟨r, r', h1, k1, hclear, k2, by rw [k2.quality, h2]⟩

/-- The map cropped: the far point is left out. -/
noncomputable def nearBy (y : P3 ℝ) : Bool := decide (y.x ≤ 2)

theorem far_nearest : ∀ q ∈ widePairs, OnlyNearest farMap Pose3.identity q.1 q.2 := by
  intro q hq
  obtain ⟨h1, h2⟩ := wide_nearest q hq
  refine ⟨List.mem_cons_of_mem _ h1, fun z hz => ?_⟩
  rcases List.mem_cons.mp hz with rfl | hz
  · rw [id_composePoint]
    simp only [widePairs, List.mem_cons, List.not_mem_nil, or_false] at hq
    rcases hq with rfl | rfl | rfl | rfl <;> norm_num [P3.distSq, P3.normSq, P3.dot, P3.ext_iff]
  · exact h2 z hz

theorem far_spots : regPts.filterMap (Lemmas.spot wideCfg Pose3.identity (bruteLayer farMap)) = widePairs := by
  have h : ∀ q ∈ widePairs, Lemmas.spot wideCfg Pose3.identity (bruteLayer farMap) q.1 = some (q.1, q.2) := by
    intro q hq
    refine spot_only (bruteLayer_serves (by simp [farMap])) (far_nearest q hq) ?_
    rw [id_composePoint]
    simp only [widePairs, List.mem_cons, List.not_mem_nil, or_false] at hq
    rcases hq with rfl | rfl | rfl | rfl <;> norm_num [P3.distSq, P3.normSq, P3.dot, wideCfg]
  simp only [widePairs, List.mem_cons, List.not_mem_nil, or_false, forall_eq_or_imp, forall_eq] at h
  simp only [regPts, List.filterMap_cons, List.filterMap_nil, h, widePairs]

example : ∃ r r', align diffOps (simpleIcp wideCfg (hornAsSolver realHorn (fun _ => false) 0 exParams) 1 "pts" (bruteLayer farMap) 5 true regPts)
      onceParams Pose3.identity 1 false = .ok r ∧
    align diffOps (simpleIcp wideCfg (hornAsSolver realHorn (fun _ => false) 0 exParams) 1 "map" (bruteLayer (farMap.filter nearBy))
      (farMap.filter nearBy).length false regPts) onceParams Pose3.identity 1 false = .ok r' ∧ ReachRun r r' ∧ (⟨1000, 0, 0⟩ : P3 ℝ) ∉ farMap.filter nearBy := by
  obtain ⟨r, h1, h2, h3, h4, -⟩ := one_iteration (c := wideCfg) (gpts := farMap) (pts := regPts) (T := Pose3.identity) (by simp [farMap])
    wide_setting.fit.matcher rfl rfl (by simp [regPts]) (L := widePairs) (by simp [widePairs, regPts]) far_spots
  have hne : farMap.filter nearBy ≠ [] := by
    refine List.ne_nil_of_mem (a := (⟨2, 0, 0⟩ : P3 ℝ)) (List.mem_filter.mpr ⟨by simp [farMap, wideMap], by norm_num [nearBy]⟩)
  obtain ⟨r', k1, k2⟩ := crop_partial "map" nearBy false (plain_fit (c := wideCfg) (gpts := farMap) (by simp [farMap]) wide_setting.fit.matcher rfl) rfl
    (bruteLayer_serves hne) h1 (fun ev hev => by
      obtain ⟨k1, k2⟩ := h4 ev hev
      refine ⟨?_, fun _ => wide_one_fit k2, wide_far k2⟩
      rw [k1]
      have hn := noTies_only (gpts := farMap) (pts := regPts) (T := Pose3.identity) fun x hx => by
        have : x ∈ widePairs.map (·.1) := by simpa [widePairs, regPts] using hx
        obtain ⟨q, hq, rfl⟩ := List.mem_map.mp this
        exact ⟨_, far_nearest q hq⟩
      exact fun x hx y hy z hz _ h1 h2 => hn x hx y hy z hz h1 h2) (fun ev hev x hx y hy hd => by
      rw [(h4 ev hev).1, id_composePoint] at hd
      revert hd
      simp only [regPts, List.mem_cons, List.not_mem_nil, or_false] at hx
      simp only [farMap, wideMap, List.mem_cons, List.not_mem_nil, or_false] at hy
      rcases hx with rfl | rfl | rfl | rfl <;> rcases hy with rfl | rfl | rfl | rfl | rfl <;>
        norm_num [wideCfg, P3.distSq, P3.normSq, P3.dot, nearBy])
  exact ⟨r, r', h1, k1, k2, fun h => by
    have := (List.mem_filter.mp h).2
    norm_num [nearBy] at this⟩

end Verif.Props
