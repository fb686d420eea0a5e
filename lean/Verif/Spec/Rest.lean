import Verif.Spec.EndToEnd
/-
Specifications for registrations that come to rest (C121).
-/
namespace Verif.Spec
open Verif
variable {K : Type} [Field K] [LinearOrder K]

/-- Of all rigid motions, none fits these pairs better: the sum of the squared distances between the moved local points and their map
points is nowhere smaller. -/
def BestFit (ps : List (PtPair K)) (A : Pose3 K) : Prop :=
  ∀ T : Pose3 K, IsRotation T.R → pointCost ps A ≤ pointCost ps T

/-- Only one rigid motion fits them best. -/
def OneBestFit (ps : List (PtPair K)) : Prop :=
  ∀ A B : Pose3 K, IsRotation A.R → IsRotation B.R → BestFit ps A → BestFit ps B → A = B

/-- In every iteration of the run which solved: no pair is too near the centroids, and only one rigid motion fits the pairs best. -/
def ClearRun (e : HornEnv K) (r : IcpResult K (Pose3 K)) : Prop :=
  ∀ ev ∈ r.trace, ∀ s, ev.solver = some (true, s) →
    AwayFromCentroids e.norm e.eps ev.pairings.pt2pt ∧ OneBestFit ev.pairings.pt2pt

end Verif.Spec
