import Verif.Model.Icp
import Verif.Model.Covariance
import Verif.Model.PairedRatio
import Verif.Model.AMap
import Verif.Model.Linalg
import Mathlib.Data.String.Basic
/-
`ICP_LibPointmatcher`: /repo/mp2p_icp/src/ICP_LibPointmatcher.cpp.

Not modelled: the debug log file (C27: its own module), log messages, the `MRPT_START/END` wrapping.
-/
namespace Verif.Pm

/-- A layer, as far as `MapToPointsMap` (metricmap.cpp:750-765) and `size_points_only` (544-555) tell layers apart:
a point cloud; a voxel map, with the centres of its occupied voxels; anything else. -/
inductive Layer (K : Type) where
  | cloud (pts : List (P3 K))
  | voxels (occ : List (P3 K))
  | other
  deriving DecidableEq

/-- `metric_map_t`: layers by name (`none`: a null pointer), number of lines and planes. -/
structure PMap (K : Type) where
  layers : AMap String (Option (Layer K)) := []
  lines : Nat := 0
  planes : Nat := 0
  deriving DecidableEq

/-- `metric_map_t::size_points_only`, metricmap.cpp:544-555: only layers that are `CPointsMap`s count. -/
def sizePoints (m : PMap K) : Nat :=
  (m.layers.map fun e => match e.2 with
    | some (.cloud p) => p.length
    | _ => 0).sum

/-- `metric_map_t::size`, metricmap.cpp:534-543. -/
def size (m : PMap K) : Nat := m.lines + m.planes + sizePoints m

/-- `metric_map_t::empty`, metricmap.cpp:437. -/
def isEmpty (m : PMap K) : Bool := m.layers.isEmpty && m.lines == 0 && m.planes == 0

/-- `MapToPointsMap(*ly.second)`, metricmap.cpp:750-765; null: dereferenced, undefined. -/
def toPoints : Option (Layer K) → Outcome (Option (List (P3 K)))
  | none => .ub
  | some (.cloud p) => .ok (some p)
  | some (.voxels p) => .ok (some p)
  | some .other => .ok none

/-- `pointsToPM`, ICP_LibPointmatcher.cpp:53-73: points of all layers that have some, in order of name; `txt` is what
becomes of a point when it is printed with `%f` and read again (line 69 and `loadCSV`). -/
def pointsToPM (txt : P3 K → P3 K) : List (String × Option (Layer K)) → Outcome (List (P3 K))
  | [] => .ok []
  | e :: es =>
    (toPoints e.2).bind fun o =>
      (pointsToPM txt es).bind fun rest => .ok ((o.getD []).map txt ++ rest)

/-- libpointmatcher: `config` reads the settings (`none`: it throws); `icp cfg reading reference` = the transformation
which takes the reading onto the reference, `none` for `ConvergenceError` (other exceptions: `throw`); `rigid` = `checkParameters`;
`iterations cfg reading reference` = first condition variable of the first transformation checker, if there is one. -/
structure Lib (K Cfg : Type) where
  txt : P3 K → P3 K
  config : String → Option Cfg
  icp : Cfg → List (P3 K) → List (P3 K) → Outcome (Option (Pose3 K))
  rigid : Pose3 K → Bool
  iterations : Cfg → List (P3 K) → List (P3 K) → Option Nat

/-- `Results`. -/
structure PmResult (K : Type) where
  pose : Pose3 K
  scale : K
  reason : Reason
  quality : K
  nIterations : Nat
  pairings : Pairings K
  cov : Fin 6 → Fin 6 → K

/-- `initialize_derived`, ICP_LibPointmatcher.cpp:76-81: the settings are the text of the YAML node. -/
def initializeDerived (print : Y → String) (params : Y) : String := print params

/-- What the wrapper object and the covariance need besides the library. -/
structure Obj (K Cfg : Type) where
  /-- built with libpointmatcher (`methodAvailable`, lines 43-50) -/
  available : Bool
  lib : Lib K Cfg
  /-- `pm_icp_yaml_settings_` -/
  settings : String
  quality : List (QualEval K (Pose3 K))
  cov : Cov.Env K
  /-- the literal 1e6 of covariance.cpp:38 -/
  million : K
  /-- the six numbers of a pose -/
  six : Pose3 K → Cov.Six K

section
variable {K Cfg : Type} [Field K] [LinearOrder K]

/-- ICP_LibPointmatcher.cpp:182-205: the transformation of the library after the initial guess; kept at the guess on `ConvergenceError`. -/
def poseOf (init : Pose3 K) : Option (Pose3 K) → Pose3 K
  | some T => init.compose T
  | none => init

/-- ICP_LibPointmatcher.cpp:207-212. -/
def itersOf : Option Nat → Nat
  | some n => n
  | none => 1

/-- `ICP_LibPointmatcher::align`, ICP_LibPointmatcher.cpp:83-240.  The prior and the parameters (but for those of the log) are not used. -/
def align (o : Obj K Cfg) (pcLocal pcGlobal : PMap K) (init : Pose3 K) : Outcome (PmResult K) :=
  if o.available = false then .throw
  else
  (Outcome.assert (pcLocal.layers.length = pcGlobal.layers.length)).bind fun _ =>
  (Outcome.assert (isEmpty pcLocal = false ∧ isEmpty pcGlobal = false)).bind fun _ =>
  (Outcome.assert (o.settings ≠ "")).bind fun _ =>
  (Outcome.assert (size pcLocal > 0)).bind fun _ =>
  (Outcome.assert (size pcGlobal > 0)).bind fun _ =>
  (pointsToPM o.lib.txt pcLocal.layers).bind fun ptsLocal =>
  (pointsToPM o.lib.txt pcGlobal.layers).bind fun ptsGlobal =>
  (Outcome.assert (ptsLocal.length > 0)).bind fun _ =>
  (Outcome.assert (ptsGlobal.length > 0)).bind fun _ =>
  match o.lib.config o.settings with
  | none => .throw
  | some cfg =>
    let initTransfo := if o.lib.rigid init then init else Pose3.identity
    let ptsLocalTf := ptsLocal.map initTransfo.composePoint
    (o.lib.icp cfg ptsLocalTf ptsGlobal).bind fun T =>
    (evaluateQuality o.quality 0 true (poseOf init T) {}).bind fun q =>
    (Cov.covariance o.cov o.million {} (o.six (poseOf init T))).bind fun c =>
    .ok { pose := poseOf init T, scale := 1, reason := .stalled, quality := q
          nIterations := itersOf (o.lib.iterations cfg ptsLocalTf ptsGlobal), pairings := {}, cov := c }

end
end Verif.Pm
