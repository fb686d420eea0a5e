import Mathlib.Algebra.Order.Ring.Abs
import Verif.Model.Decimate
/-
Non-linear voxel decimation: /repo/mp2p_icp_filters/include/mp2p_icp_filters/FilterDecimateVoxelsQuadratic.h and
/repo/mp2p_icp_filters/src/FilterDecimateVoxelsQuadratic.cpp.
Coordinates are elements of an ordered field with a floor function (the code uses `float`).
-/
namespace Verif
namespace Quad
open Flt Vox
variable {K X : Type} [Field K] [LinearOrder K] [IsStrictOrderedRing K] [FloorRing K]

/-- `mrpt::sign` (external): -1 for negative numbers, 1 otherwise -/
def sgn (x : K) : K := if x < 0 then -1 else 1

/-- `real2grid`, FilterDecimateVoxelsQuadratic.h:91-97, `R` = `quadratic_reference_radius`.  With `R` = 0 the coordinate 0 gives
0·∞ = NaN, whose conversion to an index is undefined. -/
def real2grid (R x : K) : Outcome K :=
  if R < |x| then .ok x else if R = 0 then .ub else .ok (sgn x * (x * x) * (1 / R))

/-- `grid2real`, FilterDecimateVoxelsQuadratic.h:98-104 (no caller in the library).  `sqrt` = `std::sqrt`, `none` = NaN. -/
def grid2real (sqrt : K → Option K) (R y : K) : Option K :=
  if R < |y| then some y else (sqrt (y * R)).map (· * sgn y)

/-- FilterDecimateVoxelsQuadratic.cpp:107-110: the transformed copy of the input -/
def warpAll (R : K) : List (FPt K) → Outcome (List (FPt K))
  | [] => .ok []
  | p :: ps => (real2grid R p.x).bind fun x => (real2grid R p.y).bind fun y => (real2grid R p.z).bind fun z =>
    (warpAll R ps).bind fun r => .ok (barePt x y z :: r)

/-- `FilterDecimateVoxelsQuadratic::Parameters`, FilterDecimateVoxelsQuadratic.h:57-86 -/
structure Params (K : Type) where
  inp : String
  errMissing : Bool := true
  out : String
  res : K
  R : K
  average : Bool := false
  closest : Bool := false
  random : Bool := false

/-- FilterDecimateVoxelsQuadratic.cpp:140-184: which of the cases applies -/
def Params.method (p : Params K) : Method :=
  if p.average || p.closest then (if p.closest then .closestToAverage else .voxelAverage)
  else if p.random then .randomPoint else .firstPoint

/-- `FilterDecimateVoxelsQuadratic::filter`, FilterDecimateVoxelsQuadratic.cpp:62-195 (after `initialize()`: the container is
the robin map).  `visit` = the order in which the hash map is gone through, `draws` = the random numbers.  The points are
inserted with `insertPointFast(x, y, z)`: no other channels.  Simplification: a `CVoxelMap` as input, which the code sees as the
cloud of its occupied voxels, is not modelled (layers are point clouds or else not convertible). -/
def filterQuadratic (p : Params K) (visit : List (Idx × List Nat) → List (Idx × List Nat)) (draws : Nat → Nat)
    (m : FMap K X) : Outcome (FMap K X) :=
  (Outcome.assert (p.out ≠ "")).bind fun _ =>
  (getOrCreatePointLayer (some { hasI := false, hasRing := false, hasT := false }) m p.out true).bind fun r =>
  match AMap.get r.2 p.inp with
  | some (.pts c) =>
    (warpAll p.R c.pts).bind fun w => (processMulti p.res w 0 []).bind fun g =>
    (representatives p.method draws c.pts 0 (visit g)).bind fun rs =>
    .ok (rs.foldl (fun m e => insertInto m p.out (barePt e.2.x e.2.y e.2.z)) r.2)
  | some (.other _) => .throw
  | none => if p.errMissing then .throw else .ok r.2

end Quad
end Verif
