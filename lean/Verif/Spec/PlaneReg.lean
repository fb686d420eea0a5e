import Verif.Spec.GnShift
import Verif.Spec.EndToEnd
/-
Specifications for registrations with planes (C112).
-/
namespace Verif.Spec
open Verif Verif.Spec.GN
variable {K : Type} [Field K] [LinearOrder K]

/-- Each local point, where the pose `P` puts it, is answered by the map with a plane within the threshold on which the true place of the point lies
(its place under `T`). -/
def SeesTrue (g : GLayer K) (thr : K) (pts : List (P3 K)) (T P : Pose3 K) : Prop :=
  ∀ x ∈ pts, ∃ pl d, g.nnPlane (P.composePoint x) thr = some (pl, d) ∧ d ≤ thr ∧ OnPlane pl.plane (T.composePoint x)

/-- The planes the map answers with hold the body: if all points move along their planes, there is no motion. -/
def PlanesHold (g : GLayer K) (thr : K) (pts : List (P3 K)) (T P : Pose3 K) : Prop :=
  ∀ v w : P3 K, (∀ x ∈ pts, ∀ pl d, g.nnPlane (P.composePoint x) thr = some (pl, d) → pl.plane.n.dot (velocity T.R v w x) = 0) →
    v = 0 ∧ w = 0

/-- Pairings of all the points, in order, each with a plane its true place is on; nothing else. -/
structure PlanesMatched (pts : List (P3 K)) (T : Pose3 K) (prs : Pairings K) : Prop where
  locals : prs.pt2pl.map (·.ptLocal) = pts
  on : ∀ q ∈ prs.pt2pl, OnPlane q.plGlobal.plane (T.composePoint q.ptLocal)
  rest : prs = { pt2pl := prs.pt2pl, potential := pts.length }

/-- The setting: a map that answers, a matcher that uses all points, thresholds for the stop criterion that are positive. -/
structure PlaneSetting (ops : PoseOps K (Pose3 K)) (c : PlCfg K) (mr : K) (g : GLayer K) (pts : List (P3 K)) (T : Pose3 K) (p : IcpParams K) :
    Prop where
  ops : PoseDiffs ops
  capable : g.planeCapable = true
  filled : g.isEmpty = false
  all : c.maxLocal = 0 ∨ pts.length ≤ c.maxLocal
  noTable : c.weights = []
  nonempty : pts ≠ []
  rot : IsRotation T.R
  ratio : mr ≤ 1
  checks : ∀ k ∈ p.qualityCheckpoints, k.2 ≤ 1
  stepT : 0 < p.minAbsStepTrans
  stepR : 0 < p.minAbsStepRot

/-- What is wanted of a pose from which an iteration starts. -/
structure GoodStart (c : PlCfg K) (g : GLayer K) (pts : List (P3 K)) (T P : Pose3 K) : Prop where
  sees : SeesTrue g c.thr pts T P
  hold : PlanesHold g c.thr pts T P
  boxes : g.boxesMeet (pts.map P.composePoint) (c.thr + c.eps) = true

end Verif.Spec
