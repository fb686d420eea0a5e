import Mathlib.Algebra.Order.Floor.Ring
import Verif.Model.FilterBasic
import Verif.Model.Linalg
/-
FilterMerge and FilterVoxelSlice: /repo/mp2p_icp_filters/src/FilterMerge.cpp, FilterVoxelSlice.cpp.
Numbers are elements of an ordered field.
-/
namespace Verif

/-- `-pose` of `CPose3D` (external): the inverse of a rigid motion -/
def Pose3.inv {K : Type} [Add K] [Mul K] [Neg K] (T : Pose3 K) : Pose3 K := ⟨T.R.transpose, -(T.R.transpose.mulVec T.t)⟩

namespace MoreF
open Flt
variable {K X : Type} [Field K] [LinearOrder K]

/-! ### FilterMerge -/

/-- `FilterMerge::Parameters`, FilterMerge.h:63-82; `realized` = all its expressions have been evaluated -/
structure MergeParams (K : Type) where
  inp : String
  target : String
  inLocal : Bool := false
  pose : Pose3 K
  realized : Bool := true

/-- What is external: the occupied voxels of a layer that is a voxel map (`MapToPointsMap`, metricmap.cpp:767-782; `none` for
other classes), and `insertObservation(obs, pose)` for a layer that is not a point cloud. -/
structure MergeExt (K X : Type) where
  voxels : X → Option (List (P3 K))
  insertObs : X → List (P3 K) → Pose3 K → X

/-- `MapToPointsMap`, metricmap.cpp:767-782: positions only, which is all `CSimplePointsMap` keeps of them -/
def toPoints (E : MergeExt K X) : Layer (Cloud K) X → Option (List (P3 K))
  | .pts c => some (c.pts.map fun p => ⟨p.x, p.y, p.z⟩)
  | .other x => E.voxels x

/-- `CMetricMap::insertObservation` (external) of an observation made of points, seen from `pose`: a point cloud appends
them, composed with the pose; they have no other channels. -/
def insertObservation (E : MergeExt K X) (obs : List (P3 K)) (pose : Pose3 K) : Layer (Cloud K) X → Layer (Cloud K) X
  | .pts c => .pts { c with pts := c.pts ++ obs.map fun q =>
      ⟨(pose.composePoint q).x, (pose.composePoint q).y, (pose.composePoint q).z, 0, 0, 0⟩ }
  | .other x => .other (E.insertObs x obs pose)

/-- `FilterMerge::filter`, FilterMerge.cpp:60-112 (no null layers) -/
def filterMerge (E : MergeExt K X) (p : MergeParams K) (m : FMap K X) : Outcome (FMap K X) :=
  (Outcome.assert (p.realized = true)).bind fun _ =>
  match m.get p.inp with
  | none => .throw
  | some L => match toPoints E L with
    | none => .throw
    | some pts =>
      (Outcome.assert (p.target ≠ "")).bind fun _ =>
      match m.get p.target with
      | none => .throw
      | some T =>
        let obs := if p.inLocal then pts.map Pose3.identity.composePoint else pts.map p.pose.inv.composePoint
        .ok (m.set p.target (insertObservation E obs p.pose T))

/-! ### FilterVoxelSlice -/

/-- A `CVoxelMap`: side of a voxel, the observed voxels with their occupancy in the order `forEachCell` goes through them,
and its bounding box (x, y) -/
structure VMap (K : Type) where
  res : K
  cells : List ((ℤ × ℤ × ℤ) × K)
  xmin : K
  xmax : K
  ymin : K
  ymax : K

/-- A `COccupancyGridMap2D` just created: its size, and the cell updates (x, y, probability) made, in order -/
structure Slice (K : Type) where
  xmin : K
  xmax : K
  ymin : K
  ymax : K
  res : K
  altitude : K
  updates : List (K × K × K)
  deriving DecidableEq

/-- The classes of layers the filter tells apart -/
inductive VClass (K : Type) where
  | voxels (v : VMap K)
  | voxelsRGB
  | other

/-- External: the class of a layer which is no point cloud; a grid map as a layer; `l2p` (log-odds to probability);
`CoordToPos` of one index -/
structure SliceExt (K X : Type) where
  asVoxels : X → VClass K
  mkGrid : Slice K → X
  l2p : K → K
  centre : K → ℤ → K

/-- `FilterVoxelSlice::Parameters`, FilterVoxelSlice.h:47-56 -/
structure SliceParams (K : Type) where
  inp : String
  out : String
  zmin : K
  zmax : K
  realized : Bool := true

/-- `Bonxai::PosToCoord` of one coordinate (external): the voxel that contains it -/
def posToCoord [FloorRing K] (res z : K) : ℤ := ⌊z * (1 / res)⌋

/-- FilterVoxelSlice.cpp:93-121: all the voxels at the right height -/
def sliceUpdates [FloorRing K] (E : SliceExt K X) (p : SliceParams K) (v : VMap K) :
    List ((ℤ × ℤ × ℤ) × K) → List (K × K × K)
  | [] => []
  | (k, o) :: l =>
    if k.2.2 < posToCoord v.res p.zmin ∨ k.2.2 > posToCoord v.res p.zmax then sliceUpdates E p v l
    else (E.centre v.res k.1, E.centre v.res k.2.1, E.l2p o) :: sliceUpdates E p v l

/-- `FilterVoxelSlice::filter`, FilterVoxelSlice.cpp:58-131.  A grid whose size was never set is `Slice` with zeros. -/
def filterSlice [FloorRing K] (E : SliceExt K X) (p : SliceParams K) (m : FMap K X) : Outcome (FMap K X) :=
  (Outcome.assert (p.realized = true)).bind fun _ =>
  (Outcome.assert (p.zmax ≥ p.zmin)).bind fun _ =>
  (Outcome.assert (p.inp ≠ "")).bind fun _ =>
  match m.get p.inp with
  | some (.other x) => match E.asVoxels x with
    | .voxels v =>
      (Outcome.assert (p.out ≠ "")).bind fun _ =>
      .ok (m.set p.out (.other (E.mkGrid ⟨v.xmin, v.xmax, v.ymin, v.ymax, v.res, 1 / 2 * (p.zmax + p.zmin),
        sliceUpdates E p v v.cells⟩)))
    | .voxelsRGB =>
      (Outcome.assert (p.out ≠ "")).bind fun _ =>
      .ok (m.set p.out (.other (E.mkGrid ⟨0, 0, 0, 0, 0, 1 / 2 * (p.zmax + p.zmin), []⟩)))
    | .other => .throw
  | _ => .throw

end MoreF
end Verif
