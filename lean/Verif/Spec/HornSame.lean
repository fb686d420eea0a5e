import Verif.Spec.Rest
import Verif.Model.MoreFilters
/-
Specifications for Horn's solver on changed pairs (C124).
-/
namespace Verif.Spec
open Verif
variable {K : Type} [Field K] [LinearOrder K]

/-- The pairs as (local point, map point), which is all that counts here. -/
def pointsOf (ps : List (PtPair K)) : List (P3 K × P3 K) := ps.map fun q => (q.local, q.global)

/-- The same pairs with the two clouds swapped. -/
def Swapped (ps ps' : List (PtPair K)) : Prop := pointsOf ps' = (pointsOf ps).map fun q => (q.2, q.1)

/-- The same pairs with the local points moved by `A` and the map points by `B`. -/
def Moved (A B : Pose3 K) (ps ps' : List (PtPair K)) : Prop :=
  pointsOf ps' = (pointsOf ps).map fun q => (A.composePoint q.1, B.composePoint q.2)

/-- The same pairs in another unit of length. -/
def Scaled (s : K) (ps ps' : List (PtPair K)) : Prop := pointsOf ps' = (pointsOf ps).map fun q => (q.1.smul s, q.2.smul s)

/-- Each pair given `k` times, in any order. -/
def Repeated (k : Nat) (ps ps' : List (PtPair K)) : Prop := (pointsOf ps').Perm (List.replicate k (pointsOf ps)).flatten

/-- What is asked of a set of pairs: plain, at least three, none too near one of the centroids, one best motion. -/
structure FitPairs (e : HornEnv K) (p : Pairings K) (wp : WeightParams K) : Prop where
  plain : PlainPoints p wp
  three : 3 ≤ p.pt2pt.length
  far : AwayFromCentroids e.norm e.eps p.pt2pt

end Verif.Spec
