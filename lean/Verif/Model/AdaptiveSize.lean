import Verif.Model.Decimate
import Verif.Model.MatcherSolver
/-
The voxel size that FilterDecimateAdaptive derives from the cloud: /repo/mp2p_icp_filters/src/FilterDecimateAdaptive.cpp:80-92.
For any type of numbers: those of a field, or those of the machine.
-/
namespace Verif
namespace Vox
open Flt
variable {K X : Type}

section
variable [LT K] [DecidableLT K]
/-- Lowest and highest value of one coordinate: `boundingBox()` of the cloud (MRPT, external: `keep_min`, `keep_max` over all points, zeros without points) -/
def spanOf [Zero K] : List K → K × K
  | [] => (0, 0)
  | x :: l => (l.foldl keepMin x, l.foldl keepMax x)

/-- FilterDecimateAdaptive.cpp:82-86: the side of the bounding box in one coordinate, at least `minBox` -/
def boxSide [Zero K] [Sub K] (minBox : K) (l : List K) : K := keepMax ((spanOf l).2 - (spanOf l).1) minBox

/-- FilterDecimateAdaptive.cpp:82-90: `voxel_size`; `nrm` = length of a vector (`TVector3Df::norm`), `maxN` =
`maximum_voxel_count_per_dimension` -/
def adaptiveSize [Zero K] [Sub K] [Div K] [NatCast K] (nrm : K → K → K → K) (minBox : K) (maxN : Nat) (pts : List (FPt K)) : K :=
  nrm (boxSide minBox (pts.map (·.x))) (boxSide minBox (pts.map (·.y))) (boxSide minBox (pts.map (·.z))) / (maxN : K)

/-- `FilterDecimateAdaptive::filter` with the voxel size it derives, FilterDecimateAdaptive.cpp:59-167 -/
def filterAdaptiveSized [Zero K] [Sub K] [Div K] [NatCast K] [VoxelIdx K] (p : AdParams) (nrm : K → K → K → K) (minBox : K) (maxN : Nat)
    (visitM : List (Idx × List Nat) → List (Idx × List Nat)) (rnd : Nat → Nat → Nat) (fuel : Nat) (m : FMap K X) :
    Option (Outcome (FMap K X)) :=
  filterAdaptive p (adaptiveSize nrm minBox maxN (ptsOf m p.inp)) visitM rnd fuel m
end

end Vox
end Verif
