import Verif.Model.Pipeline
import Verif.Model.Geom
/-
`simplemap_to_metricmap`: /repo/mp2p_icp_filters/src/sm2mm.cpp:31-250.
Generators and filters are functions: of the parameter source they are attached to (the variables as last realized, and the velocity
buffer as it is now), of the observation and of the map.  A filter that was never attached is called with `none`.
Not modelled: progress bar, loading of externally stored observations, the map left behind by an exception.
-/
namespace Verif
namespace Sm
variable {K B O M : Type}

/-- Pose of a keyframe: x, y, z, yaw, pitch, roll. -/
structure Pose6 (K : Type) where
  x : K
  y : K
  z : K
  yaw : K
  pitch : K
  roll : K
  deriving DecidableEq

/-- `CSimpleMap::Keyframe`: pose, observations, twist; null pointers are `none`. -/
structure KF (K O : Type) where
  pose : Option (Pose6 K)
  sf : Option (List (Option O))
  twist : Option (P3 K × P3 K) := none

/-- Variables of the parameter source and the velocity buffer. -/
structure Src (K B : Type) where
  vars : AMap String K
  buf : B

/-- Generators, filters and final filters, as loaded from YAML; `onComment`: effect of an observation on the velocity buffer
(sm2mm.cpp:95-134: a comment holding a `local_velocity_buffer` loads it; all errors are swallowed). -/
structure SmEnv (K B O M : Type) where
  gens : List (Src K B → Pose6 K → O → M → Outcome (Bool × M))
  filters : List (Option (Src K B) → M → Outcome M)
  finals : List (Option (Src K B) → M → Outcome M)
  onComment : O → B → B
  /-- a cleared map -/
  empty : M

/-- `ParameterSource::updateVariables` -/
def setVars (v : AMap String K) (l : List (String × K)) : AMap String K := l.foldl (fun v e => AMap.set v e.1 e.2) v

def twistVars (t : P3 K × P3 K) : List (String × K) :=
  [("vx", t.1.x), ("vy", t.1.y), ("vz", t.1.z), ("wx", t.2.x), ("wy", t.2.y), ("wz", t.2.z)]
def poseVars (p : Pose6 K) : List (String × K) :=
  [("robot_x", p.x), ("robot_y", p.y), ("robot_z", p.z), ("robot_yaw", p.yaw), ("robot_pitch", p.pitch), ("robot_roll", p.roll)]

/-- sm2mm.cpp:160-169: the twist variables, if there is a twist -/
def kfTwist (v : AMap String K) (t : Option (P3 K × P3 K)) : AMap String K :=
  match t with
  | some t => setVars v (twistVars t)
  | none => v

/-- The state of the run. -/
structure St (K B M : Type) where
  src : Src K B
  map : M

/-- one observation, sm2mm.cpp:185-203 -/
def smObs (e : SmEnv K B O M) (pose : Pose6 K) (s : St K B M) (o : Option O) : Outcome (St K B M) :=
  match o with
  | none => .throw
  | some o =>
    let src : Src K B := { s.src with buf := e.onComment o s.src.buf }
    (applyGeneratorsObs (e.gens.map fun g => g src pose) o s.map).bind fun r =>
    if r.1 then
      (foldOutcome (fun m f => f (some src) m) r.2 e.filters).bind fun m => .ok { src := src, map := m }
    else .ok { src := src, map := r.2 }

/-- one keyframe, sm2mm.cpp:157-204 -/
def smKF (e : SmEnv K B O M) (s : St K B M) (kf : KF K O) : Outcome (St K B M) :=
  match kf.pose, kf.sf with
  | some p, some sf =>
    foldOutcome (smObs e p) { s with src := { s.src with vars := setVars (kfTwist s.src.vars kf.twist) (poseVars p) } } sf
  | _, _ => .throw

/-- `for (; curKF < nKFs; curKF++)`, sm2mm.cpp:157: `k` iterations left -/
def smLoop (e : SmEnv K B O M) (sm : List (KF K O)) : Nat → Nat → St K B M → Outcome (St K B M)
  | 0, _, s => .ok s
  | k + 1, cur, s =>
    match sm[cur]? with
    | some kf => (smKF e s kf).bind fun s => smLoop e sm k (cur + 1) s
    | none => .throw

/-- sm2mm.cpp:145-150: `size_t` arithmetic, `end + 1` wraps -/
def nKFs (n : Nat) (endIdx : Option Nat) : Nat :=
  match endIdx with
  | some e => min n ((e + 1) % 2 ^ 64)
  | none => n

/-- the variables before the first keyframe, sm2mm.cpp:82-92 -/
def initVars [Zero K] (custom : List (String × K)) : AMap String K :=
  setVars (setVars (setVars [] (twistVars (0, 0))) (poseVars ⟨0, 0, 0, 0, 0, 0⟩)) custom

/-- `simplemap_to_metricmap`, sm2mm.cpp:31-250 -/
def sm2mm [Zero K] (e : SmEnv K B O M) (buf : B) (sm : List (KF K O)) (start endIdx : Option Nat) (custom : List (String × K)) :
    Outcome M :=
  let n := nKFs sm.length endIdx
  let cur := max 0 (start.getD 0)
  (smLoop e sm (n - cur) cur { src := { vars := initVars custom, buf := buf }, map := e.empty }).bind fun s =>
  foldOutcome (fun m f => f none m) s.map e.finals

end Sm
end Verif
