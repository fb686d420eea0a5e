import Mathlib.Algebra.Order.Field.Basic
import Verif.Model.Pipeline
/-
Point filters: /repo/mp2p_icp_filters/src/FilterBoundingBox.cpp, FilterByRange.cpp, FilterByRing.cpp,
FilterByIntensity.cpp, FilterNormalizeIntensity.cpp, FilterAdjustTimestamps.cpp.
Coordinates, intensities and times are elements of an ordered field (the code uses `float`); layers with different names are
different objects.
-/
namespace Verif
namespace Flt

/-- A point with all its channels. -/
structure FPt (K : Type) where
  x : K
  y : K
  z : K
  i : K
  ring : Int
  t : K
  deriving DecidableEq

/-- A point cloud (`mrpt::maps::CPointsMap`): the points, and which optional channels its class has. -/
structure Cloud (K : Type) where
  pts : List (FPt K) := []
  hasI : Bool := true
  hasRing : Bool := true
  hasT : Bool := true
  deriving DecidableEq

variable {K X : Type}

/-- the layers of a `metric_map_t` -/
abbrev FMap (K X : Type) := AMap String (Layer (Cloud K) X)

/-- `metric_map_t::point_layer`, metricmap.cpp:725-748 (no null layers) -/
def pointLayer (m : FMap K X) (name : String) : Outcome (Cloud K) :=
  match m.get name with
  | some (.pts c) => .ok c
  | _ => .throw

/-- the outputs of a filter, in order: `GetOrCreatePointLayer(…, allow empty, class of the input)` -/
def openOutputs (empty : Cloud K) : List String → FMap K X → Outcome (FMap K X)
  | [], m => .ok m
  | n :: l, m => (getOrCreatePointLayer (some empty) m n true).bind fun r => openOutputs empty l r.2

/-- A point as a cloud of another class can hold it: the channels this class has not are lost (read as 0). -/
def conform [Zero K] (c : Cloud K) (p : FPt K) : FPt K :=
  { p with
    i := if c.hasI then p.i else 0
    ring := if c.hasRing then p.ring else 0
    t := if c.hasT then p.t else 0 }

/-- `if (target) target->insertPointFrom(pc, i)`: the target by name, the empty name being a null pointer. -/
def insertInto [Zero K] (m : FMap K X) (name : String) (p : FPt K) : FMap K X :=
  if name = "" then m
  else match m.get name with
    | some (.pts c) => m.set name (.pts { c with pts := c.pts ++ [conform c p] })
    | _ => m

/-- `pc[i]`, the cloud being layer `inp` as it is now -/
def pointAt (m : FMap K X) (inp : String) (i : Nat) : Outcome (FPt K) :=
  match m.get inp with
  | some (.pts c) => match c.pts[i]? with
    | some p => .ok p
    | none => .ub
  | _ => .ub

/-- `for (size_t i = 0; i < N; i++)` with `N` read before the loop: FilterByRing.cpp:112-134, FilterByIntensity.cpp:112-142.
`k` = iterations left, `i` = index. -/
def partSnap [Zero K] (inp : String) (target : FPt K → String) : Nat → Nat → FMap K X → Outcome (FMap K X)
  | 0, _, m => .ok m
  | k + 1, i, m => (pointAt m inp i).bind fun p => partSnap inp target k (i + 1) (insertInto m (target p) p)

/-- the number of points of layer `inp` now -/
def sizeNow (m : FMap K X) (inp : String) : Nat :=
  match m.get inp with
  | some (.pts c) => c.pts.length
  | _ => 0

/-- `for (size_t i = 0; i < xs.size(); i++)`, the size being read at each iteration: FilterBoundingBox.cpp:106-113,
FilterByRange.cpp:103-114.  `none`: the loop has not ended after `fuel` iterations. -/
def partLive [Zero K] (inp : String) (target : FPt K → String) : Nat → Nat → FMap K X → Option (Outcome (FMap K X))
  | 0, _, _ => none
  | fuel + 1, i, m =>
    if i < sizeNow m inp then
      match pointAt m inp i with
      | .ok p => partLive inp target fuel (i + 1) (insertInto m (target p) p)
      | .throw => some .throw
      | .ub => some .ub
    else some (.ok m)

/-- new clouds are of the class of the input -/
def emptyLike (c : Cloud K) : Cloud K := { c with pts := [] }

/-- Common shape of FilterBoundingBox and FilterByRange: look up the input, open the two outputs, loop. -/
def filterLive [Zero K] (fuel : Nat) (inp : String) (outs : List String) (target : FPt K → String) (m : FMap K X) :
    Option (Outcome (FMap K X)) :=
  match pointLayer m inp with
  | .throw => some .throw
  | .ub => some .ub
  | .ok c => match openOutputs (emptyLike c) outs m with
    | .throw => some .throw
    | .ub => some .ub
    | .ok m => partLive inp target fuel 0 m

/-- Common shape of FilterByRing and FilterByIntensity: `has` tells that the cloud has the channel, `≠ []` its buffer not
being empty; at least one output. -/
def filterSnap [Zero K] (has : Cloud K → Bool) (inp : String) (outs : List String) (target : FPt K → String) (m : FMap K X) :
    Outcome (FMap K X) :=
  (pointLayer m inp).bind fun c => (openOutputs (emptyLike c) outs m).bind fun m =>
  (Outcome.assert (outs.any fun n => n ≠ "")).bind fun _ =>
  match pointLayer m inp with
  | .ok c => if has c && !c.pts.isEmpty then partSnap inp target c.pts.length 0 m else .throw
  | _ => .ub

section
variable [Field K] [LinearOrder K]

/-- `FilterBoundingBox`: parameters, FilterBoundingBox.h -/
structure BoxParams (K : Type) where
  inp : String
  inside : String
  outside : String
  xmin : K
  ymin : K
  zmin : K
  xmax : K
  ymax : K
  zmax : K

/-- `TBoundingBox::containsPoint` (external): closed box -/
def BoxParams.contains (b : BoxParams K) (p : FPt K) : Bool :=
  decide (b.xmin ≤ p.x) && decide (p.x ≤ b.xmax) && decide (b.ymin ≤ p.y) && decide (p.y ≤ b.ymax) &&
  decide (b.zmin ≤ p.z) && decide (p.z ≤ b.zmax)

/-- `FilterBoundingBox::filter`, FilterBoundingBox.cpp:73-116 -/
def filterBoundingBox (b : BoxParams K) (fuel : Nat) (m : FMap K X) : Option (Outcome (FMap K X)) :=
  filterLive fuel b.inp [b.inside, b.outside] (fun p => if b.contains p then b.inside else b.outside) m

/-- `FilterByRange`: parameters, FilterByRange.h -/
structure RangeParams (K : Type) where
  inp : String
  between : String
  outside : String
  rmin : K
  rmax : K
  cx : K
  cy : K
  cz : K

/-- FilterByRange.cpp:100-108 -/
def RangeParams.isInside (r : RangeParams K) (p : FPt K) : Bool :=
  let sq := (p.x - r.cx) * (p.x - r.cx) + (p.y - r.cy) * (p.y - r.cy) + (p.z - r.cz) * (p.z - r.cz)
  decide (sq ≥ r.rmin * r.rmin) && decide (sq ≤ r.rmax * r.rmax)

/-- `FilterByRange::filter`, FilterByRange.cpp:66-118 (its parameters realized) -/
def filterByRange (r : RangeParams K) (fuel : Nat) (m : FMap K X) : Option (Outcome (FMap K X)) :=
  filterLive fuel r.inp [r.between, r.outside] (fun p => if r.isInside p then r.between else r.outside) m

/-- `FilterByRing`: parameters, FilterByRing.h -/
structure RingParams where
  inp : String
  selected : String
  nonSelected : String
  ids : List Int
/-- `FilterByRing::filter`, FilterByRing.cpp:66-142 -/
def filterByRing (r : RingParams) (m : FMap K X) : Outcome (FMap K X) :=
  filterSnap (·.hasRing) r.inp [r.selected, r.nonSelected]
    (fun p => if r.ids.contains p.ring then r.selected else r.nonSelected) m

/-- `FilterByIntensity`: parameters, FilterByIntensity.h -/
structure IntensityParams (K : Type) where
  inp : String
  low : String
  high : String
  mid : String
  lowThr : K
  highThr : K
/-- `FilterByIntensity::filter`, FilterByIntensity.cpp:58-149 -/
def filterByIntensity (r : IntensityParams K) (m : FMap K X) : Outcome (FMap K X) :=
  filterSnap (·.hasI) r.inp [r.low, r.high, r.mid]
    (fun p => if p.i < r.lowThr then r.low else if p.i > r.highThr then r.high else r.mid) m
/-- `FilterByIntensity::Parameters::load_from_yaml`, FilterByIntensity.cpp:29-47: the check of the output names as written (the
low one twice). -/
def IntensityParams.accepted (r : IntensityParams K) : Bool := (r.low ≠ "") || (r.low ≠ "") || (r.mid ≠ "")

/-! ### intensity normalisation -/

/-- `if (!o || v < *o) o = v;` -/
def optMin (o : Option K) (v : K) : Option K :=
  match o with
  | none => some v
  | some a => if v < a then some v else some a
/-- `if (!o || v > *o) o = v;` -/
def optMax (o : Option K) (v : K) : Option K :=
  match o with
  | none => some v
  | some a => if v > a then some v else some a

structure NormParams (K : Type) where
  layer : String
  remember : Bool
  fixedMin : K
  fixedMax : K

/-- the remembered range `minI_`, `maxI_` -/
structure NormMem (K : Type) where
  lo : Option K := none
  hi : Option K := none

/-- `std::clamp(v, 0, 1)` -/
def clamp01 (v : K) : K := if v < 0 then 0 else if 1 < v then 1 else v

/-- FilterNormalizeIntensity.cpp:75-113: the range used and the memory afterwards -/
def normRange (p : NormParams K) (mem : NormMem K) (is : List K) : Outcome ((K × K) × NormMem K) :=
  if 0 < p.fixedMax then .ok ((p.fixedMin, p.fixedMax), mem)
  else
    match is.foldl optMin none, is.foldl optMax none with
    | some lo, some hi =>
      if p.remember then
        let mem := { mem with lo := optMin mem.lo lo, hi := optMax mem.hi hi }
        match mem.lo, mem.hi with
        | some a, some b => .ok ((a, b), mem)
        | _, _ => .ub
      else .ok ((lo, hi), mem)
    | _, _ => .throw

/-- FilterNormalizeIntensity.cpp:115-127 -/
def normValue (r : K × K) (i : K) : K :=
  let delta := r.2 - r.1
  let delta := if delta = 0 then 1 else delta
  clamp01 ((i - r.1) * (1 / delta))

/-- `FilterNormalizeIntensity::filter`, FilterNormalizeIntensity.cpp:53-134 -/
def filterNormalize (p : NormParams K) (mem : NormMem K) (m : FMap K X) : Outcome (FMap K X × NormMem K) :=
  (pointLayer m p.layer).bind fun c =>
  (Outcome.assert (c.hasI = true ∧ c.pts ≠ [])).bind fun _ =>
  (normRange p mem (c.pts.map (·.i))).bind fun r =>
  .ok (m.set p.layer (.pts { c with pts := c.pts.map fun q => { q with i := normValue r.1 q.i } }), r.2)

/-! ### time stamps -/

inductive TsMethod where
  | middleIsZero | earliestIsZero | normalize
  deriving DecidableEq

structure TsParams (K : Type) where
  layer : String
  method : TsMethod
  silent : Bool
  offset : K

/-- FilterAdjustTimestamps.cpp:121-150: the new stamps and `dt` -/
def adjustValues (p : TsParams K) (lo hi : K) : (K → K) × K :=
  match p.method with
  | .middleIsZero => let dt := (1 / 2) * (hi + lo) + p.offset; (fun t => t - dt, dt)
  | .earliestIsZero => let dt := lo + p.offset; (fun t => t - dt, dt)
  | .normalize => (fun t => (t - lo) * (if hi ≠ lo then 1 / (hi - lo) else 1) + p.offset, 0)

/-- `FilterAdjustTimestamps::filter`, FilterAdjustTimestamps.cpp:54-162.  `ref` = the reference time of the velocity buffer of
the attached source, if any. -/
def filterTimestamps (p : TsParams K) (ref : Option K) (m : FMap K X) : Outcome (FMap K X × Option K) :=
  (pointLayer m p.layer).bind fun c =>
  if c.pts.isEmpty then .ok (m, ref)
  else if !c.hasT then (if p.silent then .ok (m, ref) else .throw)
  else
    match (c.pts.map (·.t)).foldl optMin none, (c.pts.map (·.t)).foldl optMax none with
    | some lo, some hi =>
      let a := adjustValues p lo hi
      .ok (m.set p.layer (.pts { c with pts := c.pts.map fun q => { q with t := a.1 q.t } }), ref.map (· + a.2))
    | _, _ => .throw
end

end Flt
end Verif
