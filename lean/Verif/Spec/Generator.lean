import Verif.Model.Generator
/-
What a generator should do with an observation (C78).
-/
namespace Verif.Spec
open Verif Verif.Flt Verif.Gen
variable {K X : Type} [Field K] [LinearOrder K]

/-- Where a point of a cloud is: the pose of the sensor on the robot is applied first, then that of the robot, if known. -/
def place (robot : Option (Pose3 K)) (sensor : Pose3 K) (q : P3 K) : P3 K :=
  match robot with
  | some R => R.composePoint (sensor.composePoint q)
  | none => sensor.composePoint q

/-- The same with all the channels of the point -/
def placed (robot : Option (Pose3 K)) (sensor : Pose3 K) (q : FPt K) : FPt K :=
  ⟨(place robot sensor ⟨q.x, q.y, q.z⟩).x, (place robot sensor ⟨q.x, q.y, q.z⟩).y, (place robot sensor ⟨q.x, q.y, q.z⟩).z,
    q.i, q.ring, q.t⟩

/-- The layer `name` of `m'` is that of `m` with the points `ps` appended to it, or a new cloud `new` with them; nothing else
differs. -/
def AddedTo (name : String) (new : Cloud K) (ps : List (FPt K)) (m m' : FMap K X) : Prop :=
  (∃ c, (m.get name = some (.pts c) ∨ m.get name = none ∧ c = new) ∧
    m'.get name = some (.pts { c with pts := c.pts ++ ps.map (conform c) })) ∧
  ∀ n, n ≠ name → m'.get n = m.get n

/-- Observations which no generator of point clouds looks at -/
def ignoredClasses : List String :=
  ["mrpt::obs::CObservationComment", "mrpt::obs::CObservationGPS", "mrpt::obs::CObservationRobotPose"]

/-- The user's filters accept the observation. -/
def AcceptsObs (p : Gen.Params K X) (o : Gen.Obs K X) : Prop := p.clsOk o.cls = true ∧ p.labelOk o.label = true

/-- The generator can be used. -/
def Ready (p : Gen.Params K X) : Prop := p.realized = true ∧ p.initialized = true

/-- The observation is one of points: its stamp becomes the reference time of the velocity buffer. -/
def OfPoints : Gen.Kind K → Prop
  | .imu .. => False
  | .other => False
  | _ => True

end Verif.Spec
