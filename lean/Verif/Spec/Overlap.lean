import Verif.Spec.EndToEnd
/-
Specifications for registrations of maps that overlap only in part (C118).
-/
namespace Verif.Spec
open Verif
variable {K : Type} [Field K] [LinearOrder K]

/-- The local points whose true place is in the map. -/
def sharedPts (gpts pts : List (P3 K)) (T : Pose3 K) : List (P3 K) := pts.filter fun x => decide (T.composePoint x ∈ gpts)

/-- Exactly the local points whose true place is in the map are paired, each with that place. -/
structure SharedMatched (gpts pts : List (P3 K)) (T : Pose3 K) (prs : Pairings K) : Prop where
  pairs : prs.pt2pt.map (fun q => (q.localIdx, q.local, q.global)) =
    (pts.zipIdx.filter fun x => decide (T.composePoint x.1 ∈ gpts)).map fun x => (x.2, x.1, T.composePoint x.1)
  rest : prs = { pt2pt := prs.pt2pt, potential := pts.length }

/-- The pose `T0` is close to `T`: each local point whose true place is in the map is nearer to it than to any other point of the map, and within the threshold; the others are at
the threshold (with its angular part) or farther from every point of the map. -/
structure CloseShared (pts gpts : List (P3 K)) (c : DTCfg K) (T T0 : Pose3 K) : Prop where
  nearest : ∀ p ∈ pts, T.composePoint p ∈ gpts → ∀ y ∈ gpts, y ≠ T.composePoint p →
    P3.distSq (T0.composePoint p) (T.composePoint p) < P3.distSq (T0.composePoint p) y
  within : ∀ p ∈ pts, T.composePoint p ∈ gpts → P3.distSq (T0.composePoint p) (T.composePoint p) < c.thr * c.thr
  alone : ∀ p ∈ pts, T.composePoint p ∉ gpts → ∀ y ∈ gpts,
    c.thr * c.thr + c.angSq * P3.normSq (T0.composePoint p) ≤ P3.distSq (T0.composePoint p) y

/-- Moved by `T`, the local points whose place is not in the map are farther than the threshold (with its angular part) from every point of the map. -/
def LonersApart (pts gpts : List (P3 K)) (c : DTCfg K) (T : Pose3 K) : Prop :=
  ∀ p ∈ pts, T.composePoint p ∉ gpts → ∀ y ∈ gpts, c.thr * c.thr + c.angSq * P3.normSq (T.composePoint p) < P3.distSq (T.composePoint p) y

/-- The setting: as for an exact registration, but only some of the local points need to have their place in the map, and the required quality is not more than
their share. -/
structure OverlapSetting (ops : PoseOps K (Pose3 K)) (c : DTCfg K) (mr : K) (g : GLayer K) (gpts pts : List (P3 K)) (T : Pose3 K)
    (p : IcpParams K) : Prop where
  ops : PoseDiffs ops
  serves : ServesPoints g gpts
  matcher : PlainMatcher c pts.length
  overlap : sharedPts gpts pts T ≠ []
  distinct : pts.Nodup
  rot : IsRotation T.R
  ratio : mr ≤ ((sharedPts gpts pts T).length : K) / (pts.length : K)
  checks : ∀ k ∈ p.qualityCheckpoints, k.2 ≤ ((sharedPts gpts pts T).length : K) / (pts.length : K)
  stepT : 0 < p.minAbsStepTrans
  stepR : 0 < p.minAbsStepRot

end Verif.Spec
