import Mathlib.Algebra.Order.Field.Basic
import Verif.Model.Decimate
import Verif.Model.Linalg
/-
Mean, covariance and principal directions of points: /repo/mp2p_icp_map/src/estimate_points_eigen.cpp, and the filter that
classifies voxels by them: /repo/mp2p_icp_filters/src/FilterEdgesPlanes.cpp.
Coordinates are elements of a field (the code uses `float`, and `double` for the matrix).  The eigendecomposition
(`CMatrixFixed::eig_symmetric`, MRPT/Eigen) is a parameter.
-/
namespace Verif
namespace Eig
open Flt Vox
variable {K X : Type}

section
variable [Field K]

/-- the sum, one point after the other -/
def sumPts (ps : List (P3 K)) : P3 K := ps.foldl (fun s p => ⟨s.x + p.x, s.y + p.y, s.z + p.z⟩) ⟨0, 0, 0⟩

/-- the lower triangle of a symmetric matrix: (0,0), (1,0), (2,0), (1,1), (2,1), (2,2) -/
@[ext] structure Low (K : Type) where
  a00 : K
  a10 : K
  a20 : K
  a11 : K
  a21 : K
  a22 : K

/-- `mat_a(r, c) += a_r * a_c`, estimate_points_eigen.cpp:55-62, 84-93, FilterEdgesPlanes.cpp:127-140 -/
def accLow (mean : P3 K) (s : Low K) (p : P3 K) : Low K :=
  let a : P3 K := ⟨p.x - mean.x, p.y - mean.y, p.z - mean.z⟩
  ⟨s.a00 + a.x * a.x, s.a10 + a.x * a.y, s.a20 + a.x * a.z, s.a11 + a.y * a.y, s.a21 + a.y * a.z, s.a22 + a.z * a.z⟩

/-- the mean and the lower triangle of the covariance matrix, estimate_points_eigen.cpp:44-64, 73-95 -/
def stats (ps : List (P3 K)) : P3 K × Low K :=
  let inv : K := 1 / ps.length
  let s := sumPts ps
  let mean : P3 K := ⟨s.x * inv, s.y * inv, s.z * inv⟩
  let l := ps.foldl (accLow mean) ⟨0, 0, 0, 0, 0, 0⟩
  (mean, ⟨l.a00 * inv, l.a10 * inv, l.a20 * inv, l.a11 * inv, l.a21 * inv, l.a22 * inv⟩)

/-- the symmetric matrix of which only the lower triangle is looked at, estimate_points_eigen.cpp:98-100 -/
def Low.full (l : Low K) : M3 K := ⟨l.a00, l.a10, l.a20, l.a10, l.a11, l.a21, l.a20, l.a21, l.a22⟩

/-- eigenvalues and eigenvectors -/
structure EigDec (K : Type) where
  vals : K × K × K
  vecs : P3 K × P3 K × P3 K

/-- `PointCloudEigen` -/
structure CloudEigen (K : Type) where
  mean : P3 K
  cov : M3 K
  dec : EigDec K

/-- `xs[i], ys[i], zs[i]`: undefined out of the arrays -/
def readAt (pts : List (P3 K)) : List Nat → Outcome (List (P3 K))
  | [] => .ok []
  | i :: l => match pts[i]? with
    | some p => (readAt pts l).bind fun r => .ok (p :: r)
    | none => .ub

/-- `estimate_points_eigen`, estimate_points_eigen.cpp:27-125; `pts` = the three arrays -/
def estimate (eig : M3 K → EigDec K) (pts : List (P3 K)) (indices : Option (List Nat)) (total : Option Nat) :
    Outcome (CloudEigen K) :=
  match total with
  | some n =>
    if n < 3 then .throw
    else (readAt pts (List.range n)).bind fun ps =>
      .ok ⟨(stats ps).1, (stats ps).2.full, eig (stats ps).2.full⟩
  | none => match indices with
    | none => .throw
    | some idxs =>
      if idxs.length < 3 then .throw
      else (readAt pts idxs).bind fun ps =>
        .ok ⟨(stats ps).1, (stats ps).2.full, eig (stats ps).2.full⟩

/-- `vector_of_points_to_xyz`, estimate_points_eigen.cpp:127-142: the three arrays -/
def toXyz (pts : List (P3 K)) : List K × List K × List K := (pts.map (·.x), pts.map (·.y), pts.map (·.z))

/-! ### FilterEdgesPlanes -/

/-- `FilterEdgesPlanes::Parameters`, FilterEdgesPlanes.h:57-75 -/
structure EpParams (K : Type) where
  inp : String
  fullDecim : Nat
  res : K
  useTsl : Bool := true
  decim : Nat
  maxE20 : K
  maxE10 : K
  minE20 : K
  minE10 : K
  minE1 : K

/-- the outputs: the four new clouds and `metric_map_t::planes` -/
structure EpState (K : Type) where
  edges : List (FPt K)
  planePts : List (FPt K)
  full : List (FPt K)
  centroids : List (FPt K)
  planes : List (PlanePatch K)

/-- the coordinates of a point -/
def xyz (q : FPt K) : P3 K := ⟨q.x, q.y, q.z⟩

/-- `for (i = 0; i < n; i += step)`, FilterEdgesPlanes.cpp:199-215; `none`: not ended after `fuel` iterations -/
def stride (step : Nat) (ps : List (FPt K)) : Nat → Nat → Option (List (FPt K))
  | 0, _ => none
  | fuel + 1, i => match ps[i]? with
    | none => some []
    | some q => (stride step ps fuel (i + step)).map fun r => barePt q.x q.y q.z :: r

variable [LinearOrder K]

inductive VoxClass where
  | edge | plane | neither
  deriving DecidableEq

/-- FilterEdgesPlanes.cpp:150-161 -/
def classify (p : EpParams K) (v : K × K × K) : VoxClass :=
  if v.2.2 < p.maxE20 * v.1 ∧ v.2.1 < p.maxE10 * v.1 then .edge
  else if p.minE20 * v.1 < v.2.2 ∧ p.minE10 * v.1 < v.2.1 ∧ p.minE1 < v.2.1 then .plane
  else .neither

/-- the normal, towards the vehicle, FilterEdgesPlanes.cpp:166-186; throws for centroids at the origin -/
def facing (norm : P3 K → K) (c n : P3 K) : Outcome (P3 K) :=
  (Outcome.assert (1 / 1000 < norm c)).bind fun _ =>
  let u : P3 K := ⟨c.x * (1 / norm c), c.y * (1 / norm c), c.z * (1 / norm c)⟩
  .ok (if 0 < u.dot n then -n else n)

/-- `TPlane3D(point, normal)` -/
def planeAt (c n : P3 K) : Plane K := ⟨n, -n.dot c⟩

/-- the points of the voxel to `dest`, if any -/
def strideIf (b : Bool) (step : Nat) (ps : List (FPt K)) (fuel : Nat) : Option (List (FPt K)) :=
  if b then stride step ps fuel 0 else some []

/-- the voxel with points `ps`, FilterEdgesPlanes.cpp:108-216 -/
def epVoxel (norm : P3 K → K) (eig : M3 K → EigDec K) (p : EpParams K) (fuel : Nat) (ps : List (FPt K)) (s : EpState K) :
    Option (Outcome (EpState K)) :=
  if ps.length < 5 then some (.ok s)
  else
    let st := stats (ps.map xyz)
    let d := eig st.2.full
    let cl := classify p d.vals
    match (if cl = .plane then facing norm st.1 d.vecs.1 else .ok 0) with
    | .throw => some .throw
    | .ub => some .ub
    | .ok n =>
      let isPl : Bool := decide (cl = .plane)
      let toPl : Bool := isPl && decide (|d.vecs.1.z| < 9 / 10)
      (strideIf (decide (cl = .edge)) p.decim ps fuel).bind fun e =>
      (strideIf toPl p.decim ps fuel).bind fun q =>
      (strideIf (decide (0 < p.fullDecim)) p.fullDecim ps fuel).bind fun f =>
      some (.ok
        { edges := s.edges ++ e
          planePts := s.planePts ++ q
          full := s.full ++ f
          centroids := if isPl then s.centroids ++ [barePt st.1.x st.1.y st.1.z] else s.centroids
          planes := if isPl then s.planes ++ [⟨planeAt st.1 n, st.1⟩] else s.planes })

/-- all voxels in the order of visit -/
def epVoxels (norm : P3 K → K) (eig : M3 K → EigDec K) (p : EpParams K) (fuel : Nat) (pts : List (FPt K)) :
    List (Idx × List Nat) → EpState K → Option (Outcome (EpState K))
  | [], s => some (.ok s)
  | e :: g, s => match pointsAt pts e.2 with
    | .throw => some .throw
    | .ub => some .ub
    | .ok ps => match epVoxel norm eig p fuel ps s with
      | none => none
      | some .throw => some .throw
      | some .ub => some .ub
      | some (.ok s) => epVoxels norm eig p fuel pts g s

/-- a `CSimplePointsMap` with these points -/
def simplePts (ps : List (FPt K)) : Layer (Cloud K) X := .pts { pts := ps, hasI := false, hasRing := false, hasT := false }

/-- `FilterEdgesPlanes::filter`, FilterEdgesPlanes.cpp:58-223: layers and planes.  The input is kept by its pointer, so that it may
have the name of an output.  `grid`: the container of the filter, kept between calls; on an exception the map is left partially
updated, which is not modelled. -/
def edgesPlanes [FloorRing K] (norm : P3 K → K) (eig : M3 K → EigDec K) (p : EpParams K)
    (visit : List (Idx × List Nat) → List (Idx × List Nat)) (fuel : Nat) (grid : GridM) (m : FMap K X) (planes : List (PlanePatch K)) :
    Option (Outcome ((FMap K X × List (PlanePatch K)) × GridM)) :=
  match pointLayer m p.inp with
  | .throw => some .throw
  | .ub => some .ub
  | .ok c =>
    let grid := grid.clear p.useTsl
    match processMulti p.res c.pts 0 grid.robin with
    | .throw => some .throw
    | .ub => some .ub
    | .ok g =>
      let grid := { grid with robin := g }
      match epVoxels norm eig p fuel c.pts (visit (grid.content p.useTsl)) ⟨[], [], [], [], planes⟩ with
      | none => none
      | some .throw => some .throw
      | some .ub => some .ub
      | some (.ok s) =>
        some (.ok (((((m.set "edge_points" (simplePts s.edges)).set "plane_points" (simplePts s.planePts)).set "full_decim"
          (simplePts s.full)).set "plane_centroids" (simplePts s.centroids), s.planes), grid))

end
end Eig
end Verif
