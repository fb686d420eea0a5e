import Mathlib.Algebra.Order.Floor.Ring
import Verif.Model.FilterBasic
/-
Voxel decimation: /repo/mp2p_icp_filters/include/mp2p_icp_filters/PointCloudToVoxelGrid.h, PointCloudToVoxelGridSingle.h,
/repo/mp2p_icp_filters/src/PointCloudToVoxelGrid.cpp, PointCloudToVoxelGridSingle.cpp, FilterDecimateVoxels.cpp,
FilterDecimateAdaptive.cpp, FilterRemoveByVoxelOccupancy.cpp.
Coordinates are numbers of any type with the operations the code uses: elements of an ordered field with a floor function, or the
numbers of the machine (`Model/FpDecimate.lean`; the code uses `float`).
Input layers which are voxel maps (`MapToPointsMap` of a `CVoxelMap`) are not modelled: a layer is a cloud or `other`, refused.
-/
namespace Verif
namespace Vox
open Flt
variable {K X : Type}

/-- `indices_t` -/
abbrev Idx := ℤ × ℤ × ℤ

section
variable [Field K] [LinearOrder K] [FloorRing K]

/-- `static_cast<int32_t>(float)`: truncation towards zero -/
def truncZ (q : K) : ℤ := if 0 ≤ q then ⌊q⌋ else ⌈q⌉

/-- `coord2idx`, PointCloudToVoxelGrid.h:116, PointCloudToVoxelGridSingle.h:109: undefined if the quotient is not finite or its
integral part does not fit 32 bits. -/
def coord2idx (res x : K) : Outcome ℤ :=
  if res = 0 then .ub
  else if -2 ^ 31 ≤ truncZ (x / res) ∧ truncZ (x / res) < 2 ^ 31 then .ok (truncZ (x / res)) else .ub

end

/-- `coord2idx` for a type of numbers: the resolution, the coordinate -/
class VoxelIdx (N : Type) where
  idx : N → N → Outcome ℤ

instance [Field K] [LinearOrder K] [FloorRing K] : VoxelIdx K := ⟨coord2idx⟩

section
variable [Zero K] [One K] [Add K] [Sub K] [Mul K] [Div K] [NatCast K] [LT K] [DecidableLT K] [VoxelIdx K]

/-- the voxel of a point, PointCloudToVoxelGrid.cpp:83, PointCloudToVoxelGridSingle.cpp:61 -/
def voxelOf (res : K) (p : FPt K) : Outcome Idx :=
  (VoxelIdx.idx res p.x).bind fun i => (VoxelIdx.idx res p.y).bind fun j => (VoxelIdx.idx res p.z).bind fun k => .ok (i, j, k)

/-- `pts_voxels[idx].indices.push_back(i)`.  Hash map: a list of the entries in the order of their creation (the order of visit
is another one, see `visit` below). -/
def pushIdx (k : Idx) (i : Nat) : List (Idx × List Nat) → List (Idx × List Nat)
  | [] => [(k, [i])]
  | e :: g => if e.1 = k then (e.1, e.2 ++ [i]) :: g else e :: pushIdx k i g

/-- `find(idx)`; insert if new: the first point stays.  PointCloudToVoxelGridSingle.cpp:63-84 (the point counter, which nothing
reads but `== 0`, is left out: it would take 2^32 points in a voxel to wrap). -/
def pushFirst {V : Type} (k : Idx) (v : V) : List (Idx × V) → List (Idx × V)
  | [] => [(k, v)]
  | e :: g => if e.1 = k then e :: g else e :: pushFirst k v g

/-- `PointCloudToVoxelGrid::processPointCloud`, PointCloudToVoxelGrid.cpp:50-88, from index `i` on, with
`min_consecutive_distance` = 0 (its default, which no filter changes). -/
def processMulti (res : K) : List (FPt K) → Nat → List (Idx × List Nat) → Outcome (List (Idx × List Nat))
  | [], _, g => .ok g
  | p :: ps, i, g => (voxelOf res p).bind fun k => processMulti res ps (i + 1) (pushIdx k i g)

/-- `PointCloudToVoxelGridSingle::processPointCloud`, PointCloudToVoxelGridSingle.cpp:41-98; `source` and `pointIdx` are
represented by the point they refer to (points are only ever appended to clouds). -/
def processSingle (res : K) : List (FPt K) → List (Idx × FPt K) → Outcome (List (Idx × FPt K))
  | [], g => .ok g
  | p :: ps, g => (voxelOf res p).bind fun k => processSingle res ps (pushFirst k p g)

/-- `PointCloudToVoxelGrid::Impl`: the two containers -/
structure GridM where
  robin : List (Idx × List Nat) := []
  stdMap : List (Idx × List Nat) := []
  deriving DecidableEq

/-- `clear()`, PointCloudToVoxelGrid.cpp:90-100 -/
def GridM.clear (g : GridM) (tsl : Bool) : GridM := if tsl then { g with robin := [] } else { g with stdMap := [] }
/-- what `visit_voxels` goes through, PointCloudToVoxelGrid.cpp:102-119 -/
def GridM.content (g : GridM) (tsl : Bool) : List (Idx × List Nat) := if tsl then g.robin else g.stdMap

inductive Method where
  | firstPoint | closestToAverage | voxelAverage | randomPoint
  deriving DecidableEq

/-- `FilterDecimateVoxels::Parameters`, FilterDecimateVoxels.h:88-123 -/
structure DecParams (K : Type) where
  inputs : List String
  errMissing : Bool := true
  out : String
  res : K
  useTsl : Bool := true
  minPts : Nat := 0
  flatten : Option K := none
  method : Method

/-- FilterDecimateVoxels.cpp:117-141: the input layers found -/
def gatherInputs (errMissing : Bool) (m : FMap K X) : List String → Outcome (List String)
  | [] => .ok []
  | n :: l => match m.get n with
    | some (.pts _) => (gatherInputs errMissing m l).bind fun r => .ok (n :: r)
    | some (.other _) => .throw
    | none => if errMissing then .throw else gatherInputs errMissing m l

/-- `insertPointFast(x, y, z)`: no other channels -/
def barePt (x y z : K) : FPt K := ⟨x, y, z, 0, 0, 0⟩

/-- FilterDecimateVoxels.cpp:175-182, 240-263: with `flatten_to`, the point at that height, without its channels -/
def flat (f : Option K) (p : FPt K) : FPt K :=
  match f with
  | some z => barePt p.x p.y z
  | none => p

/-- FilterDecimateVoxels.cpp:170-185: all the points of layer `inp`, whose size is read at each iteration, are appended to the
output.  `none`: not ended after `fuel` iterations. -/
def passLive (inp out : String) (f : Option K) : Nat → Nat → FMap K X → Option (FMap K X)
  | 0, _, _ => none
  | fuel + 1, i, m =>
    match (match m.get inp with | some (.pts c) => c.pts[i]? | _ => none) with
    | some p => passLive inp out f fuel (i + 1) (insertInto m out (flat f p))
    | none => some m

/-- FilterDecimateVoxels.cpp:155-193: pass small clouds through; the others are left for decimation -/
def passSmall (p : DecParams K) (fuel : Nat) : List String → FMap K X → Option (List String × FMap K X)
  | [], m => some ([], m)
  | n :: l, m =>
    if 0 < p.minPts ∧ sizeNow m n ≤ p.minPts then
      match passLive n p.out p.flatten fuel 0 m with
      | none => none
      | some m => passSmall p fuel l m
    else
      match passSmall p fuel l m with
      | none => none
      | some r => some (n :: r.1, r.2)

/-- The points of a layer now -/
def ptsOf (m : FMap K X) (n : String) : List (FPt K) :=
  match m.get n with
  | some (.pts c) => c.pts
  | _ => []

/-- FilterDecimateVoxels.cpp:230-264, 347-374: go through the voxels; with `flatten_to` only the first one of each column -/
def collect (out : String) (f : Option K) : List (Idx × FPt K) → List (ℤ × ℤ) → FMap K X → FMap K X
  | [], _, m => m
  | (k, p) :: g, used, m =>
    match f with
    | some z =>
      if used.contains (k.1, k.2.1) then collect out f g used m
      else collect out f g ((k.1, k.2.1) :: used) (insertInto m out (barePt p.x p.y z))
    | none => collect out f g used (insertInto m out p)

/-- the mean of the points of a voxel, FilterDecimateVoxels.cpp:304-314 -/
def meanOf (ps : List (FPt K)) : FPt K :=
  let inv := 1 / (ps.length : K)
  barePt ((ps.map (·.x)).foldl (· + ·) 0 * inv) ((ps.map (·.y)).foldl (· + ·) 0 * inv) ((ps.map (·.z)).foldl (· + ·) 0 * inv)

/-- `sqrErr`, FilterDecimateVoxels.cpp:324-326 -/
def sqErr (a b : FPt K) : K := (a.x - b.x) * (a.x - b.x) + (a.y - b.y) * (a.y - b.y) + (a.z - b.z) * (a.z - b.z)

/-- FilterDecimateVoxels.cpp:318-334: `if (!minSqrErr || sqrErr < *minSqrErr)` -/
def closestLoop (mean : FPt K) : List (FPt K) → Option (FPt K) → Option (FPt K)
  | [], b => b
  | p :: ps, none => closestLoop mean ps (some p)
  | p :: ps, some b => closestLoop mean ps (if sqErr p mean < sqErr b mean then some p else some b)

/-- The points a voxel holds; the index is in range by construction (undefined otherwise). -/
def pointsAt (pts : List (FPt K)) : List Nat → Outcome (List (FPt K))
  | [] => .ok []
  | i :: l => match pts[i]? with
    | some p => (pointsAt pts l).bind fun r => .ok (p :: r)
    | none => .ub

/-- FilterDecimateVoxels.cpp:292-345: the representative of one voxel; `draw` = the random number drawn for it -/
def representative (meth : Method) (draw : Nat) (ps : List (FPt K)) : Outcome (FPt K) :=
  match meth with
  | .voxelAverage => .ok (meanOf ps)
  | .closestToAverage => match closestLoop (meanOf ps) ps none with
    | some p => .ok p
    | none => .ub
  | .randomPoint => match ps[draw % ps.length]? with
    | some p => .ok p
    | none => .throw
  | .firstPoint => match ps[0]? with
    | some p => .ok p
    | none => .throw

/-- the representatives of all the voxels visited -/
def representatives (meth : Method) (draws : Nat → Nat) (pts : List (FPt K)) :
    Nat → List (Idx × List Nat) → Outcome (List (Idx × FPt K))
  | _, [] => .ok []
  | j, (k, l) :: g =>
    if l.isEmpty then representatives meth draws pts j g
    else (pointsAt pts l).bind fun ps => (representative meth (draws j) ps).bind fun r =>
      (representatives meth draws pts (j + 1) g).bind fun rs => .ok ((k, r) :: rs)

/-- the input clouds of the single grid, one after the other, FilterDecimateVoxels.cpp:210-218 -/
def processLayers (res : K) (m : FMap K X) : List String → List (Idx × FPt K) → Outcome (List (Idx × FPt K))
  | [], g => .ok g
  | n :: l, g => (processSingle res (ptsOf m n) g).bind fun g => processLayers res m l g

/-- FilterDecimateVoxels.cpp:196-376.  `visit1`, `visitM` = the order in which the containers are gone through (the
iteration order of a hash map is unspecified). -/
def decimateCore (p : DecParams K) (visit1 : List (Idx × FPt K) → List (Idx × FPt K))
    (visitM : List (Idx × List Nat) → List (Idx × List Nat)) (draws : Nat → Nat) (grid : GridM) (inputs : List String)
    (m : FMap K X) : Outcome (FMap K X × GridM) :=
  if p.method = .firstPoint then
    (processLayers p.res m inputs []).bind fun g => .ok (collect p.out p.flatten (visit1 g) [] m, grid)
  else
    match inputs with
    | [n] =>
      let grid := grid.clear p.useTsl
      (processMulti p.res (ptsOf m n) 0 grid.robin).bind fun g =>
      let grid := { grid with robin := g }
      (representatives p.method draws (ptsOf m n) 0 (visitM (grid.content p.useTsl))).bind fun rs =>
      .ok (collect p.out p.flatten rs [] m, grid)
    | _ => .throw

/-- the class of the first input cloud, for a new output -/
def classOf (m : FMap K X) (n : String) : Cloud K :=
  match m.get n with
  | some (.pts c) => emptyLike c
  | _ => {}

/-- `FilterDecimateVoxels::filter`, FilterDecimateVoxels.cpp:107-386 (parameters realized, after `initialize()`).  `grid` = the
grid object kept by the filter between calls. -/
def filterDecimate (p : DecParams K) (visit1 : List (Idx × FPt K) → List (Idx × FPt K))
    (visitM : List (Idx × List Nat) → List (Idx × List Nat)) (draws : Nat → Nat) (fuel : Nat) (grid : GridM)
    (m : FMap K X) : Option (Outcome (FMap K X × GridM)) :=
  match gatherInputs p.errMissing m p.inputs with
  | .throw => some .throw
  | .ub => some .ub
  | .ok [] => some .throw
  | .ok (n :: l) =>
    match getOrCreatePointLayer (some (classOf m n)) m p.out false with
    | .throw => some .throw
    | .ub => some .ub
    | .ok r =>
      match passSmall p fuel (n :: l) r.2 with
      | none => none
      | some s => some (decimateCore p visit1 visitM draws grid s.1 s.2)

end

/-! ### adaptive decimation -/

/-- one voxel with the point to take next; `exhausted` = no points left.  FilterDecimateAdaptive.cpp:92-97 -/
abbrev VoxQ := List Nat

structure AdState where
  /-- the indices not yet taken of each voxel -/
  vox : List VoxQ
  i : Nat
  any : Bool
  /-- the indices taken, in order -/
  taken : List Nat

/-- FilterDecimateAdaptive.cpp:132-161: the loop; `have0` = size of the output before it, `want` =
`desired_output_point_count`, `inc` = `voxelIdxIncrement`.  `none`: not ended after `fuel` iterations. -/
def adLoop (have0 want inc : Nat) : Nat → AdState → Option (Outcome (List Nat))
  | 0, _ => none
  | fuel + 1, s =>
    if have0 + s.taken.length < want then
      match s.vox[s.i]? with
      | none => some .ub
      | some q =>
        let s : AdState := match q with
          | [] => s
          | a :: q' => { s with vox := s.vox.set s.i q', any := true, taken := s.taken ++ [a] }
        let i := s.i + inc
        if s.vox.length ≤ i then
          if s.any then adLoop have0 want inc fuel { s with i := (i + 123653) % s.vox.length, any := false }
          else some (.ok s.taken)
        else adLoop have0 want inc fuel { s with i := i }
    else some (.ok s.taken)

/-- `voxelIdxIncrement`, FilterDecimateAdaptive.cpp:121-127: `rnd n d` = `mrpt::round(n / (float)d)` -/
def increment (rnd : Nat → Nat → Nat) (nVoxels want : Nat) : Nat :=
  if want < nVoxels then max 1 (rnd nVoxels want) else 1

/-- FilterDecimateAdaptive.cpp:107-161: the voxels with enough points (`minPer`), in the order of visit, and the loop: the
indices of the points appended to the output -/
def adaptiveIndices (rnd : Nat → Nat → Nat) (fuel have0 want minPer : Nat) (voxels : List (List Nat)) :
    Option (Outcome (List Nat)) :=
  let v := voxels.filter fun l => decide (minPer ≤ l.length)
  adLoop have0 want (increment rnd v.length want) fuel ⟨v, 0, false, []⟩

/-- `FilterDecimateAdaptive::Parameters`, FilterDecimateAdaptive.h:50-72; the voxel size it derives from the bounding box
(FilterDecimateAdaptive.cpp:80-88) is a separate argument below -/
structure AdParams where
  enabled : Bool := true
  inp : String
  out : String
  want : Nat
  minPer : Nat := 1

/-- `FilterDecimateAdaptive::filter`, FilterDecimateAdaptive.cpp:59-167.  `vs` = the voxel size; a new output is a
`CSimplePointsMap`; an empty output name gives a null pointer, which is used. -/
def filterAdaptive [Zero K] [VoxelIdx K] (p : AdParams) (vs : K)
    (visitM : List (Idx × List Nat) → List (Idx × List Nat)) (rnd : Nat → Nat → Nat) (fuel : Nat) (m : FMap K X) :
    Option (Outcome (FMap K X)) :=
  if p.enabled = false then some (.ok m)
  else match pointLayer m p.inp with
    | .throw => some .throw
    | .ub => some .ub
    | .ok c =>
      if p.out = "" then some .ub
      else match getOrCreatePointLayer (some { hasI := false, hasRing := false, hasT := false }) m p.out true with
      | .throw => some .throw
      | .ub => some .ub
      | .ok r => match processMulti vs c.pts 0 [] with
        | .throw => some .throw
        | .ub => some .ub
        | .ok g => match adaptiveIndices rnd fuel (sizeNow r.2 p.out) p.want p.minPer ((visitM g).map (·.2)) with
          | none => none
          | some .throw => some .throw
          | some .ub => some .ub
          | some (.ok idxs) => some ((pointsAt c.pts idxs).bind fun ps =>
              .ok (ps.foldl (fun m q => insertInto m p.out q) r.2))

/-! ### removal by occupancy -/

/-- `FilterRemoveByVoxelOccupancy::Parameters` -/
structure OccParams (K : Type) where
  inp : String
  voxels : String
  static : String
  dynamic : String
  thr : K

section
variable [Field K] [LinearOrder K]
/-- FilterRemoveByVoxelOccupancy.cpp:114-117: `occFree` -/
def occFree (thr : K) : K := if 1 / 2 < thr then 1 - thr else thr

/-- FilterRemoveByVoxelOccupancy.cpp:129-153: where a point with this occupancy goes (`none` = out of the voxel map) -/
def occTarget (p : OccParams K) : Option K → String
  | none => ""
  | some o => if 1 - occFree p.thr < o then p.static else if o < occFree p.thr then p.dynamic else ""

/-- `FilterRemoveByVoxelOccupancy::filter`, FilterRemoveByVoxelOccupancy.cpp:57-161.  `asVoxels x` = the occupancy look-up of
the layer, if it is a `CVoxelMap`. -/
def filterOccupancy (asVoxels : X → Option (K → K → K → Option K)) (p : OccParams K) (m : FMap K X) :
    Outcome (FMap K X) :=
  (Outcome.assert (p.thr ≤ 1 ∧ 0 ≤ p.thr)).bind fun _ =>
  (pointLayer m p.inp).bind fun c =>
  match m.get p.voxels with
  | some (.other x) => match asVoxels x with
    | some occ =>
      (openOutputs (emptyLike c) [p.static, p.dynamic] m).bind fun m =>
      (Outcome.assert (p.static ≠ "" ∨ p.dynamic ≠ "")).bind fun _ =>
      partSnap p.inp (fun q => occTarget p (occ q.x q.y q.z)) (sizeNow m p.inp) 0 m
    | none => .throw
  | _ => .throw
end

end Vox
end Verif
