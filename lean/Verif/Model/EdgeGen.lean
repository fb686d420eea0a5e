import Mathlib.Data.Int.Order.Basic
import Mathlib.Algebra.Order.Group.Int
import Verif.Model.Decimate
import Verif.Model.Linalg
/-
Generators of edge points: /repo/mp2p_icp_filters/src/GeneratorEdgesFromRangeImage.cpp, GeneratorEdgesFromCurvature.cpp.
Coordinates are elements of an ordered field (the code uses `float` and `double`); the fixed-point arithmetic of the range images
is modelled as it is, on integers of 64 bits.
-/
namespace Verif
namespace Edge
open Flt Vox
variable {K X : Type}

/-! ### 64-bit arithmetic -/

/-- the result of an operation on `int64_t`: undefined on overflow -/
def i64 (z : ℤ) : Outcome ℤ := if -2 ^ 63 ≤ z ∧ z < 2 ^ 63 then .ok z else .ub

/-- `a / n` with `int64_t a` and `size_t n`: both operands are converted to 64-bit unsigned numbers; the quotient is then
converted to `int64_t` -/
def divMixed (a n : ℤ) : ℤ :=
  let q := a % 2 ^ 64 / n
  if q < 2 ^ 63 then q else q - 2 ^ 64

/-- `mrpt::square(mrpt::math::absDiff<int64_t>(d, m))`, GeneratorEdgesFromRangeImage.cpp:55, 128 -/
def sqDiff (d m : ℤ) : Outcome ℤ := (i64 |d - m|).bind fun a => i64 (a * a)

/-- `calcStats`, GeneratorEdgesFromRangeImage.cpp:39-61 -/
def calcStats (data : List ℤ) : Outcome (ℤ × ℤ) :=
  (Outcome.assert (1 < data.length)).bind fun _ =>
  (foldOutcome (fun s d => i64 (s + d)) 0 data).bind fun sum =>
  let mean := divMixed sum (data.length - 1)
  (foldOutcome (fun s d => (sqDiff d mean).bind fun q => i64 (s + q)) 0 data).bind fun sumVar =>
  .ok (mean, divMixed sumVar (data.length - 1))

/-! ### rotating scans -/

/-- `CObservationRotatingScan`: the declared size, the sizes of the two matrices, ranges (0 = invalid) and points -/
structure RotScan (K : Type) where
  rows : Nat
  cols : Nat
  ptsRows : Nat
  ptsCols : Nat
  riRows : Nat
  riCols : Nat
  range : Nat → Nat → Nat
  pts : Nat → Nat → P3 K

/-- the assertions at the start, GeneratorEdgesFromRangeImage.cpp:87-96, GeneratorEdgesFromCurvature.cpp:123-132 -/
def RotScan.consistent (s : RotScan K) : Prop :=
  0 < s.ptsRows ∧ 0 < s.ptsCols ∧ s.rows = s.ptsRows ∧ s.cols = s.ptsCols ∧ s.rows = s.riRows ∧ s.cols = s.riCols
instance (s : RotScan K) : Decidable s.consistent := by unfold RotScan.consistent; infer_instance

/-- `rowRangeDiff`, GeneratorEdgesFromRangeImage.cpp:106-114.  (A shift to the left of a negative number is taken to be the
multiplication it is in C++20 and in all compilers.) -/
def rowDiff (ri : Nat → Nat) (n : Nat) : List ℤ :=
  (List.range n).map fun i => if i = 0 then 0 else ((ri i : ℤ) - ri (i - 1)) * 256

/-- one iteration of the loop on columns, GeneratorEdgesFromRangeImage.cpp:118-132: is the point an edge?  Reading the
differences out of their bounds is undefined. -/
def rotEdge (thr : ℤ) (ri : Nat → Nat) (d : List ℤ) (i : Nat) : Outcome Bool :=
  if i + 8 < d.length then
    (calcStats ((d.drop (i - 8)).take 17)).bind fun mv =>
      if mv.2 = 0 then .ok false
      else (sqDiff (ri i * 256) mv.1).bind fun q => .ok (decide (thr < q.tdiv mv.2 / 65536))
  else .ub

/-- the columns visited: from 9 on, as long as `i < nCols - 8` in unsigned arithmetic of 32 bits,
GeneratorEdgesFromRangeImage.cpp:116 -/
def rotCols (cols : Nat) : List Nat :=
  List.range' 9 ((cols + 2 ^ 32 - 8) % 2 ^ 32 - 9)

/-- a row, GeneratorEdgesFromRangeImage.cpp:104-144: the columns of the edge points are added to `acc` -/
def rotRow (thr : ℤ) (s : RotScan K) (acc : List (Nat × Nat)) (r : Nat) : Outcome (List (Nat × Nat)) :=
  foldOutcome (fun acc i => (rotEdge thr (s.range r) (rowDiff (s.range r) s.cols) i).bind fun b =>
    .ok (if b then acc ++ [(r, i)] else acc)) acc (rotCols s.cols)

/-- a `CSimplePointsMap` -/
def simpleOf (ps : List (FPt K)) : Cloud K := { pts := ps, hasI := false, hasRing := false, hasT := false }
/-- an empty `CSimplePointsMap` -/
def simpleCloud : Cloud K := simpleOf []

section
variable [Field K]

/-- the point given to `insertPoint`: GeneratorEdgesFromRangeImage.cpp:135-142, GeneratorEdgesFromCurvature.cpp:165-172 -/
def posed (robot : Option (Pose3 K)) (p : P3 K) : P3 K :=
  match robot with
  | some T => T.composePoint p
  | none => p

/-- `insertPoint(p)`, as a point without channels -/
def bare (p : P3 K) : FPt K := barePt p.x p.y p.z

/-- `GeneratorEdgesFromRangeImage::filterRotatingScan`, GeneratorEdgesFromRangeImage.cpp:79-150; the layer is assigned, not
added to -/
def rangeEdgesRot (thr : ℤ) (target : String) (robot : Option (Pose3 K)) (s : RotScan K) (m : FMap K X) :
    Outcome (FMap K X) :=
  (Outcome.assert s.consistent).bind fun _ =>
  (foldOutcome (rotRow thr s) [] (List.range s.rows)).bind fun es =>
  .ok (m.set target (.pts (simpleOf (es.map fun e => bare (posed robot (s.pts e.1 e.2))))))

/-! ### depth images -/

/-- `CObservation3DRangeScan`: range image (0 = invalid), the look-up tables of directions (sizes and contents), the
translation of the sensor and the unit of ranges -/
structure Rgbd (K : Type) where
  hasRange : Bool
  rows : Nat
  cols : Nat
  range : Nat → Nat → Nat
  lutSizes : Nat × Nat × Nat
  lut : Nat → P3 K
  trans : P3 K
  units : K

/-- the mean of the valid ranges of a block of 8 × 8 pixels, GeneratorEdgesFromRangeImage.cpp:198-221 -/
def blockMean (range : Nat → Nat → Nat) (rd cd : Nat) : Nat :=
  let vals := ((List.range 8).flatMap fun i => (List.range 8).map fun j => range (rd * 8 + i) (cd * 8 + j)).filter (· ≠ 0)
  if vals.length = 0 then 0 else vals.sum / vals.length

/-- first differences, GeneratorEdgesFromRangeImage.cpp:266-280 -/
def decDiff (R : Nat → Nat) (i : Nat) : ℤ :=
  if i = 0 ∨ R i = 0 ∨ R (i - 1) = 0 then 0 else ((R i : ℤ) - R (i - 1)) * 256

/-- second differences, GeneratorEdgesFromRangeImage.cpp:281-284 -/
def decDiff2 (R : Nat → Nat) (i : Nat) : ℤ :=
  if i = 0 then 0 else decDiff R i - decDiff R (i - 1)

/-- state of the loop on columns: `currentPlaneStart`, and the insertions made so far: (is a plane point, row, column) -/
structure ColState where
  start : Option Nat
  ins : List (Bool × Nat × Nat)

/-- one iteration of the loop on columns, GeneratorEdgesFromRangeImage.cpp:291-324; `e`, `p`: the output clouds are not null -/
def scanCol (thr : ℤ) (e p : Bool) (minSpace rd : Nat) (R : Nat → Nat) (var : ℤ) (st : ColState) (cd : Nat) :
    Outcome ColState :=
  if R cd = 0 then .ok { st with start := none }
  else
    (if var ≠ 0 then (i64 (decDiff2 R cd * decDiff2 R cd)).bind fun q => .ok (q.tdiv var) else .ok 0).bind fun score =>
    if thr < score then
      if e then .ok ⟨none, st.ins ++ [(false, rd, cd)]⟩ else .ub
    else
      let s0 := st.start.getD cd
      if minSpace < cd - s0 then
        if p then .ok ⟨none, st.ins ++ [(true, rd, cd)]⟩ else .ub
      else .ok { st with start := some s0 }

/-- a row, GeneratorEdgesFromRangeImage.cpp:264-325 -/
def scanRow (thr : ℤ) (e p : Bool) (n : Nat) (R : Nat → Nat → Nat) (ins : List (Bool × Nat × Nat)) (rd : Nat) :
    Outcome (List (Bool × Nat × Nat)) :=
  (calcStats ((List.range n).map (decDiff2 (R rd)))).bind fun mv =>
  (foldOutcome (scanCol thr e p (n / 16) rd (R rd) mv.2) ⟨none, ins⟩ (List.range' 1 (n - 1))).bind fun st => .ok st.ins

/-- `lambdaUnprojectPoint`, GeneratorEdgesFromRangeImage.cpp:244-261 -/
def unproject (o : Rgbd K) (robot : Option (Pose3 K)) (rd cd : Nat) : P3 K :=
  let D : K := blockMean o.range rd cd * o.units
  let k := o.lut ((rd * 8 + 4) * o.cols + (cd * 8 + 4))
  posed robot ⟨k.x * D + o.trans.x, k.y * D + o.trans.y, k.z * D + o.trans.z⟩

/-- `GeneratorEdgesFromRangeImage::filterScan3D`, GeneratorEdgesFromRangeImage.cpp:152-328.  `null` stands for a layer that is a
null pointer.  Layers are shared pointers: `layers[planes] = outEdges` (line 175) makes the two layers the same cloud, and
leaves the cloud of the planes, unless it is the same, out of the map. -/
def rangeEdges3D (null : X) (thr : ℤ) (target planes : String) (robot : Option (Pose3 K)) (o : Rgbd K) (m : FMap K X) :
    Outcome (FMap K X) :=
  (getOrCreatePointLayer (some simpleCloud) m target true).bind fun r1 =>
  (getOrCreatePointLayer (some simpleCloud) r1.2 planes true).bind fun r2 =>
  (Outcome.assert (target ≠ "" ∨ planes ≠ "")).bind fun _ =>
  (Outcome.assert (o.hasRange = true)).bind fun _ =>
  (Outcome.assert (o.rows * o.cols = o.lutSizes.1 ∧ o.rows * o.cols = o.lutSizes.2.1 ∧ o.rows * o.cols = o.lutSizes.2.2)).bind
    fun _ =>
  (foldOutcome (scanRow thr (decide (target ≠ "")) (decide (planes ≠ "")) (o.cols / 8) (blockMean o.range)) []
    (List.range (o.rows / 8))).bind fun ins =>
  let edges : Cloud K := r1.1.getD simpleCloud
  let new := (ins.filter fun e => !e.1 || decide (planes = target)).map fun e => bare (unproject o robot e.2.1 e.2.2)
  let full : Cloud K := { edges with pts := edges.pts ++ new.map (conform edges) }
  let m3 := if target ≠ "" then r2.2.set target (.pts full) else r2.2
  .ok (if planes ≠ "" then m3.set planes (if target ≠ "" then .pts full else .other null) else m3)

/-! ### edges from the curvature of rotating scans -/

variable [LinearOrder K]

/-- `GeneratorEdgesFromCurvature`: parameters -/
structure CurvEdgeParams (K : Type) where
  target : String
  maxCosine : K
  clearance : K

/-- one iteration, GeneratorEdgesFromCurvature.cpp:140-162; `norm` = `TPoint3Df::norm()` -/
def curvEdge (norm : P3 K → K) (c : CurvEdgeParams K) (s : RotScan K) (r i : Nat) : Bool :=
  if s.range r (i - 1) = 0 ∨ s.range r i = 0 ∨ s.range r (i + 1) = 0 then false
  else
    let v1 := s.pts r i - s.pts r (i - 1)
    let v2 := s.pts r (i + 1) - s.pts r i
    if norm v1 < c.clearance ∨ norm v2 < c.clearance then false
    else decide (|v1.x * v2.x + v1.y * v2.y + v1.z * v2.z| < c.maxCosine * norm v1 * norm v2)

/-- `filterRotatingScan`, GeneratorEdgesFromCurvature.cpp:117-181: `i` from 1 as long as `i + 1 < nCols` -/
def curvEdgesRot (norm : P3 K → K) (c : CurvEdgeParams K) (robot : Option (Pose3 K)) (s : RotScan K) (m : FMap K X) :
    Outcome (FMap K X) :=
  (Outcome.assert s.consistent).bind fun _ =>
  let es := (List.range s.rows).flatMap fun r =>
    ((List.range' 1 (s.cols - 2)).filter fun i => curvEdge norm c s r i).map fun i => (r, i)
  .ok (m.set c.target (.pts (simpleOf (es.map fun e => bare (posed robot (s.pts e.1 e.2))))))

/-- `process`, GeneratorEdgesFromCurvature.cpp:48-115.  `ready`: initialized, parameters realized and no custom map;
`accepted`: the class and the label match; `scan`: the observation if it is a rotating scan.  Result: handled?, and the map. -/
def curvProcess (norm : P3 K → K) (c : CurvEdgeParams K) (ready accepted : Bool) (robot : Option (Pose3 K))
    (scan : Option (RotScan K)) (m : FMap K X) : Outcome (Bool × FMap K X) :=
  (Outcome.assert (ready = true)).bind fun _ =>
  if !accepted then .ok (false, m)
  else match scan with
    | some s => (curvEdgesRot norm c robot s m).bind fun m => .ok (true, m)
    | none => match m.get c.target with
      | some (.pts _) => .ok (false, m)
      | some (.other _) => .throw
      | none => .ok (false, m.set c.target (.pts simpleCloud))

end
end Edge
end Verif
