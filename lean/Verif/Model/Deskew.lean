import Verif.Model.FilterBasic
import Verif.Model.Velocity
import Verif.Model.Geom
/-
`FilterDeskew::filter`: /repo/mp2p_icp_filters/src/FilterDeskew.cpp:70-275.
The rotations come from MRPT: `rot w p` = `SO<3>::exp(w)` applied to `p`; `poseRot q p` = the rotation of the pose `q` applied to `p`.
Simplification: one iteration of the parallel loop is atomic.
-/
namespace Verif
namespace Flt
variable {K X Q : Type}

/-- `FilterDeskew`: parameters, FilterDeskew.h:79-108.  `newCloud`: an empty cloud of the class `output_layer_class` (`none`: no
such class).  `twist` = linear and angular velocity. -/
structure DeskewParams (K : Type) where
  inp : String
  out : String
  newCloud : Option (Cloud K)
  silent : Bool := false
  skip : Bool := false
  precise : Bool := false
  twist : Option (P3 K × P3 K) := none
  /-- `checkAllParametersAreRealized` -/
  realized : Bool := true

section
variable [Field K] [LinearOrder K]

/-- MRPT's rotations -/
structure RotEnv (K Q : Type) where
  rot : P3 K → P3 K → P3 K
  poseRot : Q → P3 K → P3 K

/-- coordinates of a point -/
def FPt.pos (p : FPt K) : P3 K := ⟨p.x, p.y, p.z⟩

/-- `pose_increment.composePoint(pt)` for a point with stamp `t`, FilterDeskew.cpp:211-252.  `poses` =
`interpolated_relative_poses`. -/
def deskewPos (e : RotEnv K Q) (vw : P3 K × P3 K) (poses : Option (AMap K Q)) (p : FPt K) : P3 K :=
  match poses with
  | some tr =>
    match Vel.findClosest tr p.t with
    | some k => match AMap.get tr k with
      | some q => e.poseRot q p.pos + vw.1.smul p.t
      | none => p.pos
    | none => p.pos
  | none => e.rot (vw.2.smul p.t) p.pos + vw.1.smul p.t

/-- the corrected point as written at `n0 + i`: coordinates, and the channels that both clouds have; the others keep the value they
got at `resize`, FilterDeskew.cpp:254-262 -/
def deskewWrite (e : RotEnv K Q) (vw : P3 K × P3 K) (poses : Option (AMap K Q)) (cin cout : Cloud K) (p old : FPt K) : FPt K :=
  let q := deskewPos e vw poses p
  { x := q.x, y := q.y, z := q.z
    i := if cin.hasI && cout.hasI then p.i else old.i
    ring := if cin.hasRing && cout.hasRing then p.ring else old.ring
    t := if cin.hasT && cout.hasT then p.t else old.t }

/-- one iteration, FilterDeskew.cpp:201-263 -/
def deskewStep (e : RotEnv K Q) (vw : P3 K × P3 K) (poses : Option (AMap K Q)) (inp out : String) (n0 : Nat) (m : FMap K X)
    (i : Nat) : Outcome (FMap K X) :=
  match m.get inp, m.get out with
  | some (.pts cin), some (.pts cout) =>
    match cin.pts[i]?, cout.pts[n0 + i]? with
    | some p, some old =>
      if p.x = 0 ∧ p.y = 0 ∧ p.z = 0 then .ok m
      else .ok (m.set out (.pts { cout with pts := cout.pts.set (n0 + i) (deskewWrite e vw poses cin cout p old) }))
    | _, _ => .ub
  | _, _ => .ub

/-- the loop, its iterations being executed in the order `order` -/
def deskewLoop (e : RotEnv K Q) (vw : P3 K × P3 K) (poses : Option (AMap K Q)) (inp out : String) (n0 : Nat) :
    List Nat → FMap K X → Outcome (FMap K X) := fun order m =>
  foldOutcome (deskewStep e vw poses inp out n0) m order

/-- a point made by `resize` -/
def blankPt : FPt K := ⟨0, 0, 0, 0, 0, 0⟩

/-- FilterDeskew.cpp:154-196: velocity and poses used.  `source`: `none` if there is no attached parameter source; otherwise
`reconstruct_poses_around_reference_time` as a function of the time span.  The constant twist stays zero in the precise mode. -/
def deskewMotion (P : DeskewParams K) (source : Option (K → Outcome (AMap K Q))) (ts : List K) :
    Outcome ((P3 K × P3 K) × Option (AMap K Q)) :=
  if P.precise then
    match source with
    | none => .throw
    | some rec =>
      match ts.foldl optMin none, ts.foldl optMax none with
      | some lo, some hi => (rec (hi - lo)).bind fun tr => .ok ((0, 0), if tr.isEmpty then none else some tr)
      | _, _ => .throw
  else
    match P.twist with
    | none => .throw
    | some vw => .ok (vw, none)

/-- `FilterDeskew::filter`, FilterDeskew.cpp:70-275.  `order` = the order in which the iterations of the loop are executed. -/
def filterDeskew (e : RotEnv K Q) (P : DeskewParams K) (source : Option (K → Outcome (AMap K Q))) (order : Nat → List Nat)
    (m : FMap K X) : Outcome (FMap K X) :=
  (Outcome.assert (P.realized = true)).bind fun _ =>
  (Outcome.assert (P.out ≠ "")).bind fun _ =>
  (getOrCreatePointLayer P.newCloud m P.out false).bind fun r =>
  (Outcome.assert (P.inp ≠ "")).bind fun _ =>
  match AMap.get r.2 P.inp with
  | some (.pts c) =>
    if c.pts.isEmpty then .ok r.2
    else if !c.hasT || P.skip then
      if P.silent || P.skip then partSnap P.inp (fun _ => P.out) c.pts.length 0 r.2 else .throw
    else
      match AMap.get r.2 P.out with
      | some (.pts co) =>
        let m1 := AMap.set r.2 P.out (.pts { co with pts := co.pts ++ List.replicate c.pts.length blankPt })
        (deskewMotion P source (c.pts.map (·.t))).bind fun mo =>
        deskewLoop e mo.1 mo.2 P.inp P.out co.pts.length (order c.pts.length) m1
      | _ => .ub
  | _ => .throw
end

end Flt
end Verif
