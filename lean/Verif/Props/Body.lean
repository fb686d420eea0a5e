import Verif.Lemmas.Body
import Verif.Props.Unit
/-
C126: a registration does not depend on the frame in which the cloud is given.
-/
namespace Verif.Props
open Verif Verif.Spec Verif.Lemmas.Body Verif.Lemmas.HS
set_option linter.unusedSectionVars false
variable {K : Type} [Field K] [LinearOrder K] [IsStrictOrderedRing K]

/-- C126 (partial): take a registration (one matcher by distance, Horn's solver) that ends normally, and do it again with the points of the cloud
moved by a rigid motion `A` (the cloud given in another frame of the sensor) and the initial guess changed to match, `init A⁻¹`.  The second one ends
normally too, after the same number of iterations, for the same reason, with the same quality and scale, the same points paired and the same log, and
with the pose `T A⁻¹`, that puts the points of the cloud where `T` puts them; only if the solver failed, it is the identity in both.  Needed: in each
iteration one best motion for the pairs, no pair within the solver's fixed distance of a centroid, and pose differences that tell the same in both
frames (true of the library's if the frames have the same origin: `relative_pose_body_free`; not in general: `shift_not_free`).  Missing:
angular thresholds; the other matchers and solvers; floating-point numbers. -/
theorem body_frame_free_partial {ops : PoseOps K (Pose3 K)} {e : HornEnv K} {nearOne : P3 K → Bool} {ratio : K} {wp : WeightParams K}
    {c : DTCfg K} {mr : K} {name : String} (name' : String) {A : Pose3 K} {g : GLayer K} {gpts pts : List (P3 K)} {dense : Bool} (dense' : Bool)
    {p : IcpParams K} (hs : BodySetting ops e wp c A g gpts pts) {init : Pose3 K} {wantsLog : Bool} {r : IcpResult K (Pose3 K)}
    (h : align ops (simpleIcp c (hornAsSolver e nearOne ratio wp) mr name g gpts.length dense pts) p init 1 wantsLog = .ok r)
    (hclear : ∀ ev ∈ r.trace, BodyClear e.norm e.eps ev) :
    ∃ r', align ops (simpleIcp c (hornAsSolver e nearOne ratio wp) mr name' g gpts.length dense' (pts.map A.composePoint)) p
        (fromFrame A init) 1 wantsLog = .ok r' ∧ BodyRun A r r' :=
  align_body hs h fun ev hev => ⟨(hclear ev hev).oneBest, (hclear ev hev).far⟩

/-- The second pose puts the points of the cloud, as seen from the new frame, where the first puts them. -/
theorem fromFrame_puts {A : Pose3 K} (hA : IsRotation A.R) (T : Pose3 K) (x : P3 K) :
    (fromFrame A T).composePoint (A.composePoint x) = T.composePoint x := body_point hA T x

/-- What is needed of pose differences holds for those of the library (`a ⊖ b` is `b⁻¹ a`, and the two numbers are the length and the angle of its
logarithm, which do not change when a motion is seen from a turned frame), if the frames have the same origin. -/
theorem relative_pose_body_free {ops : PoseOps K (Pose3 K)} (h : ∀ a b, ops.sub a b = b.inv.compose a) {A : Pose3 K} (hA : A.t = ⟨0, 0, 0⟩)
    (hn : ∀ d, ops.logNorms (A.compose (d.compose A.inv)) = ops.logNorms d) : BodyFree ops A := by
  intro a b
  have e1 : (fromFrame A b).inv.compose (fromFrame A a) = A.compose ((b.inv.compose a).compose A.inv) := by
    refine Pose3.ext ?_ ?_
    · simp only [fromFrame, Pose3.inv, Pose3.compose]
      ext <;> simp [M3.mul, M3.transpose] <;> ring
    · simp only [fromFrame, Pose3.inv, Pose3.compose, hA]
      ext <;> simp [M3.mul, M3.transpose, M3.mulVec] <;> ring
  rw [h, h, e1, hn]

/-- It does not hold if the origin is another: with the same poses, the translation between them depends on it. -/
theorem shift_not_free : ¬ BodyFree diffOps (⟨M3.one, ⟨0, 1, 0⟩⟩ : Pose3 ℝ) := by
  intro h
  have := congrArg Prod.fst (h ⟨rotXpi, ⟨0, 0, 0⟩⟩ Pose3.identity)
  norm_num [diffOps, fromFrame, Pose3.compose, Pose3.inv, Pose3.identity, M3.one, M3.mul, M3.transpose, M3.mulVec, rotXpi, P3.normSq, P3.dot] at this

/-! ### Four points that do not fit, seen by a sensor mounted upside down -/

/-- The sensor turned upside down. -/
noncomputable def upsideDown : Pose3 ℝ := ⟨rotXpi, ⟨0, 0, 0⟩⟩

theorem diffOps_body : BodyFree diffOps upsideDown := by
  intro a b
  simp only [diffOps, fromFrame, upsideDown, Pose3.compose, Pose3.inv, M3.mul, M3.transpose, M3.mulVec, rotXpi, P3.normSq, P3.dot, P3.sub_x,
    P3.sub_y, P3.sub_z, P3.add_x, P3.add_y, P3.add_z, P3.neg_x, P3.neg_y, P3.neg_z, Prod.mk.injEq]
  constructor <;> ring

example : ∃ r r', align diffOps (simpleIcp wideCfg (hornAsSolver realHorn (fun _ => false) 0 exParams) 1 "pts" (bruteLayer wideMap) 4 true regPts)
      onceParams Pose3.identity 1 false = .ok r ∧
    align diffOps (simpleIcp wideCfg (hornAsSolver realHorn (fun _ => false) 0 exParams) 1 "map" (bruteLayer wideMap) 4 false
      (regPts.map upsideDown.composePoint)) onceParams (fromFrame upsideDown Pose3.identity) 1 false = .ok r' ∧
    (∀ ev ∈ r.trace, BodyClear realHorn.norm realHorn.eps ev) ∧ BodyRun upsideDown r r' ∧ r'.quality = 1 := by
  obtain ⟨r, h1, h2, h3, h4, -⟩ := one_iteration (c := wideCfg) (gpts := wideMap) (pts := regPts) (T := Pose3.identity) (by simp [wideMap])
    wide_setting.fit.matcher rfl rfl (by simp [regPts]) (L := widePairs) (by simp [widePairs, regPts]) wide_spots
  have hclear : ∀ ev ∈ r.trace, BodyClear realHorn.norm realHorn.eps ev := by
    intro ev hev
    obtain ⟨-, k2⟩ := h4 ev hev
    exact ⟨fun _ => wide_one_fit k2, wide_far k2⟩
  obtain ⟨r', k1, k2⟩ := body_frame_free_partial "map" false (A := upsideDown) ⟨wide_setting.fit, half_turn_rot, rfl, diffOps_body⟩ h1 hclear
  exact ⟨r, r', h1, k1, hclear, k2, by rw [k2.quality, h2]⟩

end Verif.Props
