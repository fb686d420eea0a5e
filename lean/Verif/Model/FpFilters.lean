import Verif.Model.Fp
import Verif.Model.FilterBasic
/-
The parts of the code whose result depends on floating point, with the arithmetic of the machine (`Model/Fp.lean`): the same functions as in
`Model/FilterBasic.lean`, `Model/Icp.lean`, `Model/Decimate.lean`, `Model/Visit.lean`, operation by operation.
`A` is the arithmetic of `float`, `D` that of `double`.
-/
namespace Verif
namespace Fp
open Flt
variable {X : Type}

/-- conversion from `double` to `float` (also from integers, given as rationals) -/
def Arith.conv (A : Arith) : Fl → Fl
  | .fin q => A.fl q
  | v => v

/-! ### FilterNormalizeIntensity -/

/-- `if (!o || v < *o) o = v;` -/
def optMinF (o : Option Fl) (v : Fl) : Option Fl :=
  match o with
  | none => some v
  | some a => if v.lt a then some v else some a
/-- `if (!o || v > *o) o = v;` -/
def optMaxF (o : Option Fl) (v : Fl) : Option Fl :=
  match o with
  | none => some v
  | some a => if a.lt v then some v else some a

/-- FilterNormalizeIntensity.cpp:73-110: the range used and the memory afterwards; the fixed limits are `double`s put into `float`s -/
def normRangeF (A : Arith) (p : NormParams Fl) (mem : NormMem Fl) (is : List Fl) : Outcome ((Fl × Fl) × NormMem Fl) :=
  if Fl.lt 0 p.fixedMax then .ok ((A.conv p.fixedMin, A.conv p.fixedMax), mem)
  else
    match is.foldl optMinF none, is.foldl optMaxF none with
    | some lo, some hi =>
      if p.remember then
        let mem := { mem with lo := optMinF mem.lo lo, hi := optMaxF mem.hi hi }
        match mem.lo, mem.hi with
        | some a, some b => .ok ((a, b), mem)
        | _, _ => .ub
      else .ok ((lo, hi), mem)
    | _, _ => .throw

/-- `delta`, FilterNormalizeIntensity.cpp:112-116 -/
def normDelta (A : Arith) (r : Fl × Fl) : Fl := if (A.sub r.2 r.1).eq (.fin 0) then .fin 1 else A.sub r.2 r.1

/-- FilterNormalizeIntensity.cpp:117-124 -/
def normValueF (A : Arith) (r : Fl × Fl) (i : Fl) : Fl :=
  clampF (A.mul (A.sub i r.1) (A.div (.fin 1) (normDelta A r))) (.fin 0) (.fin 1)

/-- `FilterNormalizeIntensity::filter`, FilterNormalizeIntensity.cpp:51-130 -/
def filterNormalizeF (A : Arith) (p : NormParams Fl) (mem : NormMem Fl) (m : FMap Fl X) : Outcome (FMap Fl X × NormMem Fl) :=
  (pointLayer m p.layer).bind fun c =>
  (Outcome.assert (c.hasI = true ∧ c.pts ≠ [])).bind fun _ =>
  (normRangeF A p mem (c.pts.map (·.i))).bind fun r =>
  .ok (m.set p.layer (.pts { c with pts := c.pts.map fun q => { q with i := normValueF A r.1 q.i } }), r.2)

/-! ### FilterAdjustTimestamps -/

/-- FilterAdjustTimestamps.cpp:119-153: the new stamps and `dt` -/
def adjustValuesF (A : Arith) (p : TsParams Fl) (lo hi : Fl) : (Fl → Fl) × Fl :=
  match p.method with
  | .middleIsZero => let dt := A.add (A.mul (.fin (1 / 2)) (A.add hi lo)) (A.conv p.offset); (fun t => A.sub t dt, dt)
  | .earliestIsZero => let dt := A.add lo (A.conv p.offset); (fun t => A.sub t dt, dt)
  | .normalize =>
    (fun t => A.add (A.mul (A.sub t lo) (if hi.eq lo then .fin 1 else A.div (.fin 1) (A.sub hi lo))) (A.conv p.offset), .fin 0)

/-- `FilterAdjustTimestamps::filter`, FilterAdjustTimestamps.cpp:55-162; the reference time is a `double` -/
def filterTimestampsF (A D : Arith) (p : TsParams Fl) (ref : Option Fl) (m : FMap Fl X) : Outcome (FMap Fl X × Option Fl) :=
  (pointLayer m p.layer).bind fun c =>
  if c.pts.isEmpty then .ok (m, ref)
  else if !c.hasT then (if p.silent then .ok (m, ref) else .throw)
  else
    match (c.pts.map (·.t)).foldl optMinF none, (c.pts.map (·.t)).foldl optMaxF none with
    | some lo, some hi =>
      let a := adjustValuesF A p lo hi
      .ok (m.set p.layer (.pts { c with pts := c.pts.map fun q => { q with t := a.1 q.t } }), ref.map (D.add · a.2))
    | _, _ => .throw

/-! ### the box, range and intensity filters -/

/-- `TBoundingBoxf::containsPoint` (external): comparisons only -/
def boxContainsF (b : BoxParams Fl) (p : FPt Fl) : Bool :=
  b.xmin.le p.x && p.x.le b.xmax && b.ymin.le p.y && p.y.le b.ymax && b.zmin.le p.z && p.z.le b.zmax

/-- `FilterBoundingBox::filter`, FilterBoundingBox.cpp:73-116 -/
def filterBoundingBoxF (b : BoxParams Fl) (fuel : Nat) (m : FMap Fl X) : Option (Outcome (FMap Fl X)) :=
  filterLive fuel b.inp [b.inside, b.outside] (fun p => if boxContainsF b p then b.inside else b.outside) m

/-- `sqrNorm`, FilterByRange.cpp:105-106 with `TPoint3Df::sqrNorm` (external): `x*x + y*y + z*z` -/
def sqrNormF (A : Arith) (r : RangeParams Fl) (p : FPt Fl) : Fl :=
  A.add (A.add (A.mul (A.sub p.x r.cx) (A.sub p.x r.cx)) (A.mul (A.sub p.y r.cy) (A.sub p.y r.cy)))
    (A.mul (A.sub p.z r.cz) (A.sub p.z r.cz))

/-- FilterByRange.cpp:100-108 -/
def rangeInsideF (A : Arith) (r : RangeParams Fl) (p : FPt Fl) : Bool :=
  (A.mul r.rmin r.rmin).le (sqrNormF A r p) && (sqrNormF A r p).le (A.mul r.rmax r.rmax)

/-- `FilterByRange::filter`, FilterByRange.cpp:66-118 -/
def filterByRangeF (A : Arith) (r : RangeParams Fl) (fuel : Nat) (m : FMap Fl X) : Option (Outcome (FMap Fl X)) :=
  filterLive fuel r.inp [r.between, r.outside] (fun p => if rangeInsideF A r p then r.between else r.outside) m

/-- `FilterByIntensity::filter`, FilterByIntensity.cpp:58-149 -/
def filterByIntensityF (r : IntensityParams Fl) (m : FMap Fl X) : Outcome (FMap Fl X) :=
  filterSnap (·.hasI) r.inp [r.low, r.high, r.mid]
    (fun p => if p.i.lt r.lowThr then r.low else if r.highThr.lt p.i then r.high else r.mid) m

/-! ### voxel indices -/

/-- truncation towards zero -/
def truncQ (q : ℚ) : ℤ := if 0 ≤ q then ⌊q⌋ else ⌈q⌉

/-- `coord2idx`, PointCloudToVoxelGrid.h:118, PointCloudToVoxelGridSingle.h:110: undefined behaviour if the quotient is not finite or its integer
part does not fit into 32 bits -/
def coord2idxF (A : Arith) (res x : Fl) : Outcome ℤ :=
  match A.div x res with
  | .fin q => if -2147483648 ≤ truncQ q ∧ truncQ q ≤ 2147483647 then .ok (truncQ q) else .ub
  | _ => .ub

end Fp
end Verif
