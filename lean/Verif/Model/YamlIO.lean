import Mathlib.Data.String.Basic
import Verif.Model.AMap
import Verif.Model.Outcome
import Verif.Model.Visit
/-
YAML input and output of mp2p_icp: georeferencing (metricmap.cpp), `Parameters`, `PairWeights`, `WeightParameters`.
`mrpt::containers::yaml` is external: a tree of typed scalars, sequences and string-keyed maps.  Reading a scalar as
another type than it holds is an exception here (MRPT converts between numeric types and strings).
-/
namespace Verif
namespace YamlIO

inductive Scalar (K : Type) where
  | num (x : K)
  | nat (n : Nat)
  | bool (b : Bool)
  | str (s : String)
  deriving DecidableEq, Repr

/-- `mrpt::containers::yaml` node -/
inductive Y (K : Type) where
  | null
  | scalar (s : Scalar K)
  | seq (l : List (Y K))
  | map (m : List (String × Y K))
  deriving Repr

namespace Y
variable {K : Type}

def isMap : Y K → Bool
  | map _ => true
  | _ => false
/-- `p.has(key)` (throws on a non-map) and `p[key]` (throws if missing) of a const node -/
def find (y : Y K) (k : String) : Option (Y K) :=
  match y with
  | map m => AMap.get m k
  | _ => none
def has (y : Y K) (k : String) : Bool := (y.find k).isSome
def at! (y : Y K) (k : String) : Outcome (Y K) :=
  match y.find k with
  | some v => .ok v
  | none => .throw
/-- `p[key] = v` on a map node; a null node becomes a map, other nodes throw (here: unchanged, never happens) -/
def put (y : Y K) (k : String) (v : Y K) : Y K :=
  match y with
  | map m => map (AMap.set m k v)
  | null => map (AMap.set [] k v)
  | y => y
/-- `yaml::Map()` -/
def emptyMap : Y K := map []

def asNum : Y K → Outcome K
  | scalar (.num x) => .ok x
  | _ => .throw
def asNat : Y K → Outcome Nat
  | scalar (.nat x) => .ok x
  | _ => .throw
def asBool : Y K → Outcome Bool
  | scalar (.bool x) => .ok x
  | _ => .throw
def asStr : Y K → Outcome String
  | scalar (.str x) => .ok x
  | _ => .throw
end Y

variable {K : Type}

/-! ### georeferencing -/

/-- Georeferencing with its mean pose in coordinates (metricmap.h:134-148). -/
structure Geo (K : Type) where
  lat : K
  lon : K
  height : K
  x : K
  y : K
  z : K
  yaw : K
  pitch : K
  roll : K
  /-- the 36 entries of the covariance, row by row -/
  cov : List K
  deriving DecidableEq, Repr

def magic : String := "mp2p_icp::Georeferencing"

/-- `yaml::FromMatrix`, `yaml::toMatrix` -/
def fromMatrix (c : List K) : Y K := .seq (c.map fun x => .scalar (.num x))
def allNums : List (Y K) → Outcome (List K)
  | [] => .ok []
  | y :: l => y.asNum.bind fun x => (allNums l).bind fun r => .ok (x :: r)
def toMatrix : Y K → Outcome (List K)
  | .seq l => allNums l
  | _ => .throw

/-- inner part of `ToYAML`, metricmap.cpp:905-926 -/
def geoFields (g : Geo K) (data : Y K) : Y K :=
  let gcoord := ((Y.emptyMap.put "lon" (.scalar (.num g.lon))).put "lat" (.scalar (.num g.lat))).put "altitude"
    (.scalar (.num g.height))
  let data := data.put "geo_coord" gcoord
  let poseMean := ((Y.emptyMap.put "x" (.scalar (.num g.x))).put "y" (.scalar (.num g.y))).put "z"
    (.scalar (.num g.z))
  let pose := (Y.emptyMap.put "mean" poseMean).put "cov" (fromMatrix g.cov)
  data.put "T_enu_to_map" pose

/-- `ToYAML`, metricmap.cpp:896-929. -/
def toYAML (g : Option (Geo K)) : Y K :=
  let data := (Y.emptyMap.put "type" (.scalar (.str magic))).put "defined" (.scalar (.bool g.isSome))
  match g with
  | none => data
  | some g => geoFields g data

/-- the reading of a defined georeference, metricmap.cpp:879-893: a default pose (identity rotation, `zero` angles) whose
coordinates are then set. -/
def fromFields (zero : K) (y : Y K) : Outcome (Geo K) :=
  (y.at! "geo_coord").bind fun gc =>
  (gc.at! "lon").bind fun lon => lon.asNum.bind fun lon =>
  (gc.at! "lat").bind fun lat => lat.asNum.bind fun lat =>
  (gc.at! "altitude").bind fun al => al.asNum.bind fun al =>
  (y.at! "T_enu_to_map").bind fun t =>
  (t.at! "mean").bind fun ym =>
  (ym.at! "x").bind fun px => px.asNum.bind fun px =>
  (ym.at! "y").bind fun py => py.asNum.bind fun py =>
  (ym.at! "z").bind fun pz => pz.asNum.bind fun pz =>
  (t.at! "cov").bind fun c => (toMatrix c).bind fun cov =>
  .ok { lat := lat, lon := lon, height := al, x := px, y := py, z := pz, yaw := zero, pitch := zero, roll := zero,
        cov := cov }

/-- `FromYAML`, metricmap.cpp:870-894. -/
def fromYAML (zero : K) (y : Y K) : Outcome (Option (Geo K)) :=
  (Outcome.assert (y.isMap = true)).bind fun _ =>
  (Outcome.assert (y.has "type" = true)).bind fun _ =>
  (Outcome.assert (y.has "defined" = true)).bind fun _ =>
  (y.at! "type").bind fun t => t.asStr.bind fun t =>
  (Outcome.assert (t = magic)).bind fun _ =>
  (y.at! "defined").bind fun d => d.asBool.bind fun d =>
  if d then (fromFields zero y).bind fun g => .ok (some g) else .ok none

/-! ### Parameters -/

/-- `struct Parameters` (Parameters.h:34-114), the fields YAML knows. -/
structure Params (K : Type) where
  maxIterations : Nat
  minAbsStepTrans : K
  minAbsStepRot : K
  generateDebugFiles : Bool
  saveIterationDetails : Bool
  decimationIterationDetails : Nat
  decimationDebugFiles : Nat
  debugFileNameFormat : String
  debugPrintIterationProgress : Bool
  qualityCheckpoints : AMap Nat K
  deriving DecidableEq, Repr

/-- `MCP_LOAD_REQ` -/
def loadReq {α : Type} (as : Y K → Outcome α) (y : Y K) (k : String) : Outcome α := (y.at! k).bind as
/-- `MCP_LOAD_OPT`: the previous value if the key is missing -/
def loadOpt {α : Type} (as : Y K → Outcome α) (y : Y K) (k : String) (prev : α) : Outcome α :=
  match y.find k with
  | some v => as v
  | none => .ok prev

/-- `std::map::emplace`: an existing key keeps its value -/
def emplace (m : AMap Nat K) (k : Nat) (v : K) : AMap Nat K :=
  match AMap.get m k with
  | some _ => m
  | none => AMap.set m k v

/-- loop over `quality_checkpoints`, Parameters.cpp:83-95 -/
def checkpointLoop : AMap Nat K → List (Y K) → Outcome (AMap Nat K)
  | acc, [] => .ok acc
  | acc, e :: l =>
    (Outcome.assert (e.isMap = true)).bind fun _ =>
    (loadReq Y.asNat e "iteration").bind fun i => (loadReq Y.asNum e "minimum_quality").bind fun q =>
    checkpointLoop (emplace acc i q) l

/-- Parameters.cpp:76-96: must be a non-empty sequence; the previous ones are dropped. -/
def loadCheckpoints (y : Y K) (prev : AMap Nat K) : Outcome (AMap Nat K) :=
  match y.find "quality_checkpoints" with
  | none => .ok prev
  | some (.seq (e :: l)) => checkpointLoop [] (e :: l)
  | some _ => .throw

/-- `Parameters::load_from`, Parameters.cpp:63-99. -/
def loadParams (env : Bool) (prev : Params K) (y : Y K) : Outcome (Params K) :=
  (loadReq Y.asNat y "maxIterations").bind fun mi =>
  (loadOpt Y.asNum y "minAbsStep_trans" prev.minAbsStepTrans).bind fun st =>
  (loadOpt Y.asNum y "minAbsStep_rot" prev.minAbsStepRot).bind fun sr =>
  (loadOpt Y.asBool y "generateDebugFiles" prev.generateDebugFiles).bind fun gd =>
  (loadOpt Y.asStr y "debugFileNameFormat" prev.debugFileNameFormat).bind fun fm =>
  (loadOpt Y.asBool y "debugPrintIterationProgress" prev.debugPrintIterationProgress).bind fun pr =>
  (loadOpt Y.asNat y "decimationDebugFiles" prev.decimationDebugFiles).bind fun dd =>
  (loadOpt Y.asBool y "saveIterationDetails" prev.saveIterationDetails).bind fun sd =>
  (loadOpt Y.asNat y "decimationIterationDetails" prev.decimationIterationDetails).bind fun di =>
  (loadCheckpoints y prev.qualityCheckpoints).bind fun qc =>
  .ok { maxIterations := mi, minAbsStepTrans := st, minAbsStepRot := sr, generateDebugFiles := gd || env,
        saveIterationDetails := sd, decimationIterationDetails := di, decimationDebugFiles := dd,
        debugFileNameFormat := fm, debugPrintIterationProgress := pr, qualityCheckpoints := qc }

/-- `Parameters::save_to`, Parameters.cpp:101-112. -/
def saveParams (p : Params K) (y : Y K) : Y K :=
  let y := y.put "maxIterations" (.scalar (.nat p.maxIterations))
  let y := y.put "minAbsStep_trans" (.scalar (.num p.minAbsStepTrans))
  let y := y.put "minAbsStep_rot" (.scalar (.num p.minAbsStepRot))
  let y := y.put "generateDebugFiles" (.scalar (.bool p.generateDebugFiles))
  let y := y.put "debugFileNameFormat" (.scalar (.str p.debugFileNameFormat))
  let y := y.put "debugPrintIterationProgress" (.scalar (.bool p.debugPrintIterationProgress))
  let y := y.put "decimationDebugFiles" (.scalar (.nat p.decimationDebugFiles))
  let y := y.put "saveIterationDetails" (.scalar (.bool p.saveIterationDetails))
  y.put "decimationIterationDetails" (.scalar (.nat p.decimationIterationDetails))

/-! ### weights -/

/-- `PairWeights::load_from`, PairWeights.cpp:26-34 (all five are required). -/
def loadPairWeights (y : Y K) : Outcome (PairWeights K) :=
  (loadReq Y.asNum y "pt2pt").bind fun a => (loadReq Y.asNum y "pt2pl").bind fun b =>
  (loadReq Y.asNum y "pt2ln").bind fun c => (loadReq Y.asNum y "ln2ln").bind fun d =>
  (loadReq Y.asNum y "pl2pl").bind fun e =>
  .ok { pt2pt := a, pt2pl := b, pt2ln := c, ln2ln := d, pl2pl := e }
/-- `PairWeights::save_to`, PairWeights.cpp:36-44. -/
def savePairWeights (w : PairWeights K) (y : Y K) : Y K :=
  let y := y.put "pt2pt" (.scalar (.num w.pt2pt))
  let y := y.put "pt2pl" (.scalar (.num w.pt2pl))
  let y := y.put "pt2ln" (.scalar (.num w.pt2ln))
  let y := y.put "ln2ln" (.scalar (.num w.ln2ln))
  y.put "pl2pl" (.scalar (.num w.pl2pl))

/-- names of the kernels, robust_kernels.h:98-103 -/
def kernelName : RobustKernel → String
  | .none => "RobustKernel::None"
  | .gemanMcClure => "RobustKernel::GemanMcClure"
  | .cauchy => "RobustKernel::Cauchy"
def asKernel (y : Y K) : Outcome RobustKernel :=
  y.asStr.bind fun s =>
  if s = kernelName .none then .ok .none
  else if s = kernelName .gemanMcClure then .ok .gemanMcClure
  else if s = kernelName .cauchy then .ok .cauchy
  else .throw

/-- `if (p.has("pair_weights")) ...`, WeightParameters.cpp:79 -/
def loadPairWeightsOpt (y : Y K) (prev : PairWeights K) : Outcome (PairWeights K) :=
  match y.find "pair_weights" with
  | some v => loadPairWeights v
  | none => .ok prev

/-- `WeightParameters::load_from`, WeightParameters.cpp:71-80. -/
def loadWeights (prev : WeightParams K) (y : Y K) : Outcome (WeightParams K) :=
  (loadReq Y.asBool y "use_scale_outlier_detector").bind fun us =>
  (loadOpt Y.asNum y "scale_outlier_threshold" prev.scaleThr).bind fun th =>
  (loadReq asKernel y "robust_kernel").bind fun k =>
  (loadOpt Y.asNum y "robust_kernel_param" prev.kernelParam).bind fun kp =>
  (loadPairWeightsOpt y prev.pairWeights).bind fun pw =>
  .ok { prev with useScaleOutlier := us, scaleThr := th, kernel := k, kernelParam := kp, pairWeights := pw }
/-- `WeightParameters::save_to`, WeightParameters.cpp:81-91. -/
def saveWeights (w : WeightParams K) (y : Y K) : Y K :=
  let y := y.put "use_scale_outlier_detector" (.scalar (.bool w.useScaleOutlier))
  let y := y.put "scale_outlier_threshold" (.scalar (.num w.scaleThr))
  let y := y.put "robust_kernel" (.scalar (.str (kernelName w.kernel)))
  let y := y.put "robust_kernel_param" (.scalar (.num w.kernelParam))
  y.put "pair_weights" (savePairWeights w.pairWeights Y.emptyMap)

end YamlIO
end Verif
