import Verif.Model.FilterBasic
import Verif.Model.Linalg
import Verif.Model.Velocity
/-
`Generator::process`: /repo/mp2p_icp_filters/src/Generator.cpp:137-262, 371-610, for the base class (the derived generators are in
`EdgeGen.lean`, the calls of several generators in `Pipeline.lean`).
Layers are not null.  All the channels of a cloud have as many entries as it has points, so that `pointcloud_sanity_check`
(Generator.cpp:257-258) always passes.
-/
namespace Verif
namespace Gen
open Flt
variable {K X : Type}

/-- What an observation is, by the `dynamic_cast`s at Generator.cpp:401-432.  `cloud`: `pointcloud` may be null.  `scan3d`: the
points that `unprojectInto` makes of the range image if `points3D_x` is empty, for a pose of the robot; `none` if it is not empty.
`imu`: the three angular velocities, each of which may be missing. -/
inductive Kind (K : Type) where
  | rotating
  | cloud (pc : Option (Cloud K)) (sensorPose : Pose3 K)
  | scan2d
  | scan3d (unproject : Option (Option (Pose3 K) → List (P3 K)))
  | velodyne
  | imu (wx wy wz : Option K) (sensorPose : Pose3 K)
  | other

/-- An observation.  `insert`: `insertObservationInto` and `insertObservation` (external), into a given layer with a given pose of the
robot: was it done, and the layer afterwards. -/
structure Obs (K X : Type) where
  cls : String
  label : String
  stamp : K
  kind : Kind K
  insert : Option (Pose3 K) → Layer (Cloud K) X → Bool × Layer (Cloud K) X

/-- `Generator::Parameters` and state, Generator.h:110-160.  The two regular expressions are predicates.  `custom`: `none` if no map
definition is given; otherwise the first map made by it (`setListOfMaps` and `ASSERT_(maps.size() >= 1)`, which may throw),
Generator.cpp:508-575. -/
structure Params (K X : Type) where
  target : String
  custom : Option (Outcome (Layer (Cloud K) X)) := none
  clsOk : String → Bool := fun _ => true
  labelOk : String → Bool := fun _ => true
  throwUnhandled : Bool := false
  initialized : Bool := true
  realized : Bool := true

/-- The map, and the velocity buffer of the attached parameter source, if any -/
structure State (K X : Type) where
  map : FMap K X
  buf : Option (Vel.Buf K (P3 K))

/-- an empty `CSimplePointsMap` -/
def simple : Cloud K := { pts := [], hasI := false, hasRing := false, hasT := false }
/-- an empty `CPointsMapXYZIRT` -/
def xyzirt : Cloud K := { pts := [], hasI := true, hasRing := true, hasT := true }

/-- skipped by the default generator, Generator.cpp:383-393 -/
def skipDefault (p : Params K X) (o : Obs K X) : Bool :=
  o.cls == "mrpt::obs::CObservationComment" || o.cls == "mrpt::obs::CObservationGPS" ||
    o.cls == "mrpt::obs::CObservationRobotPose" || !p.clsOk o.cls || !p.labelOk o.label

/-- skipped with a custom map, Generator.cpp:581-589 -/
def skipCustom (p : Params K X) (o : Obs K X) : Bool :=
  o.cls == "mrpt::obs::CObservationComment" || !p.clsOk o.cls || !p.labelOk o.label

section
variable [Field K] [LinearOrder K]

/-- one point seen from `T` (external: `insertAnotherMap`), the other channels being kept -/
def movePt (T : Pose3 K) (q : FPt K) : FPt K :=
  let r := T.composePoint ⟨q.x, q.y, q.z⟩
  { q with x := r.x, y := r.y, z := r.z }

/-- `robotPose ? robotPose.value() + sensorPose : sensorPose`, Generator.cpp:252 -/
def totalPose (robot : Option (Pose3 K)) (sensor : Pose3 K) : Pose3 K :=
  match robot with
  | some R => R.compose sensor
  | none => sensor

/-- `insertAnotherMap(&pc, T)` (external): all the points are appended; channels as far as the cloud has them -/
def insertAnother (c pc : Cloud K) (T : Pose3 K) : Cloud K :=
  { c with pts := c.pts ++ pc.pts.map fun q => conform c (movePt T q) }

/-- `filterPointCloud`, Generator.cpp:224-261 -/
def filterPointCloud (p : Params K X) (pc : Cloud K) (sensor : Pose3 K) (robot : Option (Pose3 K)) (m : FMap K X) :
    Outcome (FMap K X) :=
  match m.get p.target with
  | some (.pts c) => .ok (m.set p.target (.pts (insertAnother c pc (totalPose robot sensor))))
  | some (.other _) => .throw
  | none => .ok (m.set p.target (.pts (insertAnother (emptyLike pc) pc (totalPose robot sensor))))

/-- `filterVelodyneScan`, Generator.cpp:171-189.  Clouds with the three channels are those of class `CPointsMapXYZIRT`.  What
`insertObservation` returns is ignored. -/
def filterVelodyne (p : Params K X) (o : Obs K X) (robot : Option (Pose3 K)) (m : FMap K X) : Outcome (FMap K X) :=
  (getOrCreatePointLayer (some xyzirt) m p.target false).bind fun r =>
  match AMap.get r.2 p.target with
  | some (.pts c) =>
    (Outcome.assert (c.hasI = true ∧ c.hasRing = true ∧ c.hasT = true)).bind fun _ =>
      .ok (AMap.set r.2 p.target (o.insert robot (.pts c)).2)
  | _ => .throw

/-- `processIMU`, Generator.cpp:191-216: `none` if not handled.  `rotateVector` applies the rotation only. -/
def processIMU (wx wy wz : Option K) (sensor : Pose3 K) (stamp : K) (buf : Option (Vel.Buf K (P3 K))) :
    Option (Vel.Buf K (P3 K)) :=
  match buf, wx, wy, wz with
  | some b, some x, some y, some z => some (b.addAngular stamp (sensor.R.mulVec ⟨x, y, z⟩))
  | _, _, _, _ => none

/-- the specialised methods of the base class, Generator.cpp:399-432: handled, is the stamp to be the reference time, and the state -/
def special (p : Params K X) (o : Obs K X) (robot : Option (Pose3 K)) (s : State K X) : Outcome (Bool × Bool × State K X) :=
  match o.kind with
  | .rotating => .ok (false, true, s)
  | .cloud none _ => .throw
  | .cloud (some pc) sensor => (filterPointCloud p pc sensor robot s.map).bind fun m => .ok (true, true, { s with map := m })
  | .scan2d => .ok (false, true, s)
  | .scan3d _ => .ok (false, true, s)
  | .velodyne => (filterVelodyne p o robot s.map).bind fun m => .ok (true, true, { s with map := m })
  | .imu wx wy wz sensor => match processIMU wx wy wz sensor o.stamp s.buf with
    | some b => .ok (true, false, { s with buf := some b })
    | none => .ok (false, false, s)
  | .other => .ok (false, false, s)

/-- the general case, Generator.cpp:449-495: the layer is opened or created, and the observation inserted into it -/
def general (p : Params K X) (o : Obs K X) (robot : Option (Pose3 K)) (s : State K X) : Outcome (Bool × State K X) :=
  (getOrCreatePointLayer (some simple) s.map p.target false).bind fun r =>
  match AMap.get r.2 p.target with
  | some (.pts c) =>
    match o.kind with
    | .scan3d (some unproject) =>
      .ok (true, { s with map := AMap.set r.2 p.target (.pts (insertAnother c
        { pts := (unproject robot).map fun q => ⟨q.x, q.y, q.z, 0, 0, 0⟩, hasI := false, hasRing := false, hasT := false }
        Pose3.identity)) })
    | _ =>
      let ins := o.insert robot (.pts c)
      if !ins.1 && p.throwUnhandled then .throw
      else .ok (ins.1, { s with map := AMap.set r.2 p.target ins.2 })
  | _ => .throw

/-- `implProcessDefault`, Generator.cpp:371-498 -/
def processDefault (p : Params K X) (o : Obs K X) (robot : Option (Pose3 K)) (s : State K X) : Outcome (Bool × State K X) :=
  if skipDefault p o then .ok (false, s)
  else (special p o robot s).bind fun r =>
    let s1 := if r.2.1 then { r.2.2 with buf := r.2.2.buf.map (·.setRef o.stamp) } else r.2.2
    if r.1 then .ok (true, s1) else general p o robot s1

/-- the layer, which is made if there is none, Generator.cpp:510-578 -/
def openCustom (p : Params K X) (make : Outcome (Layer (Cloud K) X)) (m : FMap K X) : Outcome (Layer (Cloud K) X × FMap K X) :=
  match m.get p.target with
  | some L => .ok (L, m)
  | none => make.bind fun L => .ok (L, m.set p.target L)

/-- `implProcessCustomMap`, Generator.cpp:500-610: the layer is created before the observation is looked at -/
def processCustom (p : Params K X) (make : Outcome (Layer (Cloud K) X)) (o : Obs K X) (robot : Option (Pose3 K)) (s : State K X) :
    Outcome (Bool × State K X) :=
  (openCustom p make s.map).bind fun r =>
  if skipCustom p o then .ok (false, { s with map := r.2 })
  else
    let ins := o.insert robot r.1
    if !ins.1 && p.throwUnhandled then .throw
    else .ok (ins.1, { s with map := r.2.set p.target ins.2 })

/-- `Generator::process`, Generator.cpp:137-160 -/
def process (p : Params K X) (o : Obs K X) (robot : Option (Pose3 K)) (s : State K X) : Outcome (Bool × State K X) :=
  (Outcome.assert (p.realized = true)).bind fun _ =>
  (Outcome.assert (p.initialized = true)).bind fun _ =>
  match p.custom with
  | none => processDefault p o robot s
  | some make => processCustom p make o robot s

/-- the observations of a list, one after the other, with the pose of the robot for each -/
def processAll (p : Params K X) : List (Obs K X × Option (Pose3 K)) → State K X → Outcome (State K X)
  | [], s => .ok s
  | (o, r) :: l, s => (process p o r s).bind fun q => processAll p l q.2

end
end Gen
end Verif
