import Verif.Spec.Unit
/-
Specifications for what is out of reach of the matcher (C127).
-/
namespace Verif.Spec
open Verif
variable {K : Type} [Field K] [LinearOrder K]

/-- Two maps have the same points within a distance of the points of the cloud, placed at `T`. -/
def SameWithin (thr : K) (gpts gpts' pts : List (P3 K)) (T : Pose3 K) : Prop :=
  ∀ x ∈ pts, ∀ y, P3.distSq (T.composePoint x) y < thr * thr → (y ∈ gpts ↔ y ∈ gpts')

/-- No point of the cloud, placed at `T`, has two nearest points of the map within a distance. -/
def NoTiesWithin (thr : K) (gpts pts : List (P3 K)) (T : Pose3 K) : Prop :=
  ∀ x ∈ pts, ∀ y ∈ gpts, ∀ z ∈ gpts, P3.distSq (T.composePoint x) y < thr * thr →
    (∀ w ∈ gpts, P3.distSq (T.composePoint x) y ≤ P3.distSq (T.composePoint x) w) →
    (∀ w ∈ gpts, P3.distSq (T.composePoint x) z ≤ P3.distSq (T.composePoint x) w) → y = z

/-- Two sets of pairings, point to point, that pair the same points (whatever their places in the maps). -/
structure ReachPairs (a b : Pairings K) : Prop where
  pairs : pointsOf b.pt2pt = pointsOf a.pt2pt
  potential : b.potential = a.potential
  rest : a = { pt2pt := a.pt2pt, potential := a.potential } ∧ b = { pt2pt := b.pt2pt, potential := b.potential }

/-- The records of an iteration. -/
def ReachDetail (a b : Nat × Pose3 K × Pairings K) : Prop :=
  b.1 = a.1 ∧ b.2.1 = a.2.1 ∧ ReachPairs a.2.2 b.2.2

/-- Two runs that tell the same. -/
structure ReachRun (r r' : IcpResult K (Pose3 K)) : Prop where
  nIterations : r'.nIterations = r.nIterations
  reason : r'.reason = r.reason
  pose : r'.pose = r.pose
  scale : r'.scale = r.scale
  quality : r'.quality = r.quality
  pairings : ReachPairs r.pairings r'.pairings
  log : Option.Rel (List.Forall₂ ReachDetail) r.log r'.log

/-- In that iteration the two maps were the same within reach, without ties, one motion fitted the pairs best, and the solver's fixed distance left no
pair out. -/
structure ReachClear (norm : P3 K → K) (eps thr : K) (gpts gpts' pts : List (P3 K)) (ev : IterEvent K (Pose3 K)) : Prop where
  same : SameWithin thr gpts gpts' pts ev.poseIn
  noTies : NoTiesWithin thr gpts pts ev.poseIn
  oneBest : 3 ≤ ev.pairings.pt2pt.length → OneBestFit ev.pairings.pt2pt
  far : AwayFromCentroids norm eps ev.pairings.pt2pt

end Verif.Spec
