import Verif.Spec.HornSame
import Verif.Spec.FrameFree
/-
Specifications for a registration with the cloud given in another frame (C126).
-/
namespace Verif.Spec
open Verif
variable {K : Type} [Field K] [LinearOrder K]

/-- The pose of the cloud when its points are given in the frame in which they are moved by `A`: first back to the old frame, then `T`. -/
def fromFrame (A T : Pose3 K) : Pose3 K := T.compose A.inv

/-- Differences of poses tell the same when the cloud is given in the other frame. -/
def BodyFree (ops : PoseOps K (Pose3 K)) (A : Pose3 K) : Prop :=
  ∀ a b, ops.logNorms (ops.sub (fromFrame A a) (fromFrame A b)) = ops.logNorms (ops.sub a b)

/-- Two sets of pairings, point to point, that pair the same points, those of the cloud seen from two frames. -/
structure BodyPairs (A : Pose3 K) (a b : Pairings K) : Prop where
  pairs : pointsOf b.pt2pt = (pointsOf a.pt2pt).map fun q => (A.composePoint q.1, q.2)
  potential : b.potential = a.potential
  rest : a = { pt2pt := a.pt2pt, potential := a.potential } ∧ b = { pt2pt := b.pt2pt, potential := b.potential }

/-- The records of an iteration. -/
def BodyDetail (A : Pose3 K) (a b : Nat × Pose3 K × Pairings K) : Prop :=
  b.1 = a.1 ∧ b.2.1 = fromFrame A a.2.1 ∧ BodyPairs A a.2.2 b.2.2

/-- Two runs that tell the same, the cloud being seen from two frames. -/
structure BodyRun (A : Pose3 K) (r r' : IcpResult K (Pose3 K)) : Prop where
  nIterations : r'.nIterations = r.nIterations
  reason : r'.reason = r.reason
  pose : r'.pose = if r.reason = .solverError then Pose3.identity else fromFrame A r.pose
  scale : r'.scale = r.scale
  quality : r'.quality = r.quality
  pairings : BodyPairs A r.pairings r'.pairings
  log : Option.Rel (List.Forall₂ (BodyDetail A)) r.log r'.log

/-- Two registrations of the same data, the cloud given in two frames. -/
structure BodySetting (ops : PoseOps K (Pose3 K)) (e : HornEnv K) (wp : WeightParams K) (c : DTCfg K) (A : Pose3 K)
    (g : GLayer K) (gpts pts : List (P3 K)) : Prop where
  fit : FitSetting ops e wp c g gpts pts
  rot : IsRotation A.R
  angSq : c.angSq = 0
  free : BodyFree ops A

/-- One motion fits the pairs best, and the solver's fixed distance left no pair out. -/
structure BodyClear (norm : P3 K → K) (eps : K) (ev : IterEvent K (Pose3 K)) : Prop where
  oneBest : 3 ≤ ev.pairings.pt2pt.length → OneBestFit ev.pairings.pt2pt
  far : AwayFromCentroids norm eps ev.pairings.pt2pt

end Verif.Spec
