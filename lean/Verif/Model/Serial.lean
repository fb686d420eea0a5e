import Verif.Model.Wire
import Verif.Model.AMap
import Verif.Model.Pairings
import Verif.Model.Visit
import Verif.Model.Icp
/-
Serializers of mp2p_icp.  Every `read*` takes the previous contents of the receiving object when the C++ code
reads into `*this` without resetting it first.
-/
namespace Verif
namespace Serial
open Wire

/-! ### geometric primitives (MRPT `TPoint3D`, `TLine3D`, `TPlane`, `TPose3D`: the doubles in order) -/
def putP3 (p : P3 F64) : Bytes := putF p.x ++ putF p.y ++ putF p.z
def getP3 : Rd (P3 F64) := getF.bind fun x => getF.bind fun y => getF.bind fun z => Rd.pure ⟨x, y, z⟩
def putLine (l : Line3 F64) : Bytes := putP3 l.pBase ++ putP3 l.director
def getLine : Rd (Line3 F64) := getP3.bind fun b => getP3.bind fun d => Rd.pure ⟨b, d⟩
def putPlane (p : Plane F64) : Bytes := putP3 p.n ++ putF p.d
def getPlane : Rd (Plane F64) := getP3.bind fun n => getF.bind fun d => Rd.pure ⟨n, d⟩

/-! ### Pairings -/

/-- `operator<<(CArchive&, const TMatchingPair&)` (MRPT).  Simplification: the coordinates, `float` there, are
written with the width of a `double`. -/
def putPtPair (p : PtPair F64) : Bytes :=
  putU32 p.globalIdx ++ putU32 p.localIdx ++ putP3 p.global ++ putP3 p.local ++ putF p.errSq
def getPtPair : Rd (PtPair F64) :=
  getU32.bind fun gi => getU32.bind fun li => getP3.bind fun g => getP3.bind fun l => getF.bind fun e =>
  Rd.pure ⟨gi, li, g, l, e⟩

/-- `operator<<(CArchive&, const point_line_pair_t&)`, Pairings.cpp:280-286. -/
def putPtLn (p : PtLnPair F64) : Bytes := putU8 0 ++ putLine p.lnGlobal ++ putP3 p.ptLocal
/-- `operator>>(CArchive&, point_line_pair_t&)`, Pairings.cpp:288-295: the version byte is read and ignored. -/
def getPtLn : Rd (PtLnPair F64) :=
  getU8.bind fun _ => getLine.bind fun l => getP3.bind fun p => Rd.pure ⟨l, p⟩

/-- Pairings.cpp:297-302 -/
def putPtPl (p : PtPlPair F64) : Bytes :=
  putU8 0 ++ putP3 p.plGlobal.centroid ++ putPlane p.plGlobal.plane ++ putP3 p.ptLocal
/-- Pairings.cpp:304-310 -/
def getPtPl : Rd (PtPlPair F64) :=
  getU8.bind fun _ => getP3.bind fun c => getPlane.bind fun pl => getP3.bind fun p => Rd.pure ⟨⟨pl, c⟩, p⟩

/-- Pairings.cpp:312-317 -/
def putLnLn (p : LnPair F64) : Bytes := putU8 0 ++ putLine p.lnLocal ++ putLine p.lnGlobal
/-- Pairings.cpp:319-325 -/
def getLnLn : Rd (LnPair F64) :=
  getU8.bind fun _ => getLine.bind fun l => getLine.bind fun g => Rd.pure { lnGlobal := g, lnLocal := l }

/-- Pairings.cpp:327-333 -/
def putPlPl (p : PlPair F64) : Bytes :=
  putU8 0 ++ putP3 p.pLocal.centroid ++ putPlane p.pLocal.plane ++
    putP3 p.pGlobal.centroid ++ putPlane p.pGlobal.plane
/-- Pairings.cpp:334-341 -/
def getPlPl : Rd (PlPair F64) :=
  getU8.bind fun _ => getP3.bind fun cl => getPlane.bind fun pl => getP3.bind fun cg => getPlane.bind fun pg =>
  Rd.pure { pGlobal := ⟨pg, cg⟩, pLocal := ⟨pl, cl⟩ }

/-- names of the element types (`TTypeName<T>::get()`); the C++ class names declared in Pairings.h:49,58,73 -/
def tyPtPt : Bytes := asc "TMatchingPair"
def tyPtLn : Bytes := asc "mp2p_icp::point_line_pair_t"
def tyPtPl : Bytes := asc "mp2p_icp::point_plane_pair_t"
def tyLnLn : Bytes := asc "mp2p_icp::matched_line_t"
def tyPlPl : Bytes := asc "mp2p_icp::matched_plane_t"
def tyU64 : Bytes := asc "uint64_t"
def tyF64 : Bytes := asc "double"
def tyWeight : Bytes := asc "std::pair<uint64_t,double>"

def putWeight : Nat × F64 → Bytes := putPair tyU64 tyF64 putU64 putF
def getWeight : Rd (Nat × F64) := getPair tyU64 tyF64 getU64 getF

/-- `Pairings::serializeTo`, Pairings.cpp:36-42 (SERIALIZATION_VERSION = 1, line 32). -/
def writePairings (p : Pairings F64) : Bytes :=
  putU8 1 ++ putVec tyPtPt putPtPair p.pt2pt ++ putVec tyPtLn putPtLn p.pt2ln ++ putVec tyPtPl putPtPl p.pt2pl ++
    putVec tyLnLn putLnLn p.ln2ln ++ putVec tyPlPl putPlPl p.pl2pl ++ putVec tyWeight putWeight p.pointWeights ++
    putU64 p.potential

/-- Pairings.cpp:50: `if (readVersion >= 1) in >> potential_pairings;` -/
def readPotential (v prev : Nat) : Rd Nat := if 1 ≤ v then getU64 else Rd.pure prev

/-- `Pairings::serializeFrom`, Pairings.cpp:43-52; `prev` are the contents of the receiving object. -/
def readPairings (prev : Pairings F64) : Rd (Pairings F64) :=
  getU8.bind fun v => (Rd.assert (v ≤ 1)).bind fun _ =>
  (getVec tyPtPt getPtPair).bind fun a => (getVec tyPtLn getPtLn).bind fun b =>
  (getVec tyPtPl getPtPl).bind fun c => (getVec tyLnLn getLnLn).bind fun d =>
  (getVec tyPlPl getPlPl).bind fun e => (getVec tyWeight getWeight).bind fun w =>
  (readPotential v prev.potential).bind fun n =>
  Rd.pure { pt2pt := a, pt2ln := b, pt2pl := c, ln2ln := d, pl2pl := e, potential := n, pointWeights := w }

/-! ### Parameters -/

/-- `struct Parameters`, Parameters.h:34-114 (without the two `std::function` hooks). -/
structure Params where
  maxIterations : Nat
  minAbsStepTrans : F64
  minAbsStepRot : F64
  generateDebugFiles : Bool
  saveIterationDetails : Bool
  decimationIterationDetails : Nat
  decimationDebugFiles : Nat
  debugFileNameFormat : Bytes
  debugPrintIterationProgress : Bool
  qualityCheckpoints : List (Nat × F64)
  deriving DecidableEq, Repr

/-- `Parameters()`: the member initializers of Parameters.h.  The four `double`s appear as bit patterns
(5e-4, 1e-4, 0.05, 0.10). -/
def Params.default : Params where
  maxIterations := 40
  minAbsStepTrans := 0x3f40624dd2f1a9fc#64
  minAbsStepRot := 0x3f1a36e2eb1c432d#64
  generateDebugFiles := false
  saveIterationDetails := false
  decimationIterationDetails := 10
  decimationDebugFiles := 1
  debugFileNameFormat :=
    asc "icp-run-$UNIQUE_ID-local-$LOCAL_ID$LOCAL_LABEL-global-$GLOBAL_ID$GLOBAL_LABEL.icplog"
  debugPrintIterationProgress := false
  qualityCheckpoints := [(50, 0x3fa999999999999a#64), (100, 0x3fb999999999999a#64)]

/-- `Parameters::serializeTo`, Parameters.cpp:31-38; `serializeGetVersion` = 2 (line 30). -/
def writeParams (p : Params) : Bytes :=
  putU32 p.maxIterations ++ putF p.minAbsStepTrans ++ putF p.minAbsStepRot ++
    putBool p.generateDebugFiles ++ putStr p.debugFileNameFormat ++ putBool p.debugPrintIterationProgress ++
    putU32 p.decimationDebugFiles ++ putBool p.saveIterationDetails ++ putU32 p.decimationIterationDetails

/-- `if (version >= 1) in >> decimationDebugFiles;`, Parameters.cpp:52 -/
def readDecim (v : Nat) : Rd Nat := if 1 ≤ v then getU32 else Rd.pure Params.default.decimationDebugFiles
/-- `if (version >= 2) in >> saveIterationDetails >> decimationIterationDetails;`, Parameters.cpp:53 -/
def readDetails (v : Nat) : Rd (Bool × Nat) :=
  if 2 ≤ v then getBool.bind fun s => getU32.bind fun n => Rd.pure (s, n)
  else Rd.pure (Params.default.saveIterationDetails, Params.default.decimationIterationDetails)

/-- `Parameters::serializeFrom`, Parameters.cpp:39-60.  `env` is the value of MP2P_ICP_GENERATE_DEBUG_FILES.
The object is reset first (line 41), so its previous contents do not matter. -/
def readParams (env : Bool) (version : Nat) : Rd Params :=
  if version ≤ 2 then
    getU32.bind fun mi => getF.bind fun st => getF.bind fun sr => getBool.bind fun gd => getStr.bind fun fmt =>
    getBool.bind fun pr => (readDecim version).bind fun dd => (readDetails version).bind fun sd =>
    Rd.pure { Params.default with
      maxIterations := mi
      minAbsStepTrans := st
      minAbsStepRot := sr
      generateDebugFiles := gd || env
      debugFileNameFormat := fmt
      debugPrintIterationProgress := pr
      decimationDebugFiles := dd
      saveIterationDetails := sd.1
      decimationIterationDetails := sd.2 }
  else Rd.throw

/-! ### PairWeights, WeightParameters -/

/-- `PairWeights::serializeTo`, PairWeights.cpp:46-49. -/
def writePairWeights (w : PairWeights F64) : Bytes :=
  putF w.pt2pt ++ putF w.pt2pl ++ putF w.pt2ln ++ putF w.ln2ln ++ putF w.pl2pl
/-- `PairWeights::serializeFrom`, PairWeights.cpp:50-53. -/
def readPairWeights : Rd (PairWeights F64) :=
  getF.bind fun a => getF.bind fun b => getF.bind fun c => getF.bind fun d => getF.bind fun e =>
  Rd.pure { pt2pt := a, pt2pl := b, pt2ln := c, ln2ln := d, pl2pl := e }

/-- `struct WeightParameters`; the robust kernel is its `uint8_t` value (robust_kernels.h:33). -/
structure Weights (Pose : Type) where
  useScaleOutlier : Bool
  scaleThr : F64
  pairWeights : PairWeights F64
  kernel : Nat
  kernelParam : F64
  estimate : Option Pose
  deriving DecidableEq, Repr

def tyPose : Bytes := asc "mrpt::poses::CPose3D"

variable {Pose Pdf L Y : Type}

/-- `WeightParameters::serializeTo`, WeightParameters.cpp:31-37; version 1 (line 30). -/
def writeWeights (pc : Codec Pose) (w : Weights Pose) : Bytes :=
  putBool w.useScaleOutlier ++ putF w.scaleThr ++ putU8 w.kernel ++ putOpt tyPose pc.put w.estimate ++
    putF w.kernelParam ++ writePairWeights w.pairWeights

/-- WeightParameters.cpp:48-54 -/
def readKernel (version prev : Nat) : Rd Nat :=
  if version < 1 then getBool.bind fun _ => Rd.pure prev else getU8
/-- WeightParameters.cpp:58-62 -/
def readDummyScale (version : Nat) : Rd Unit :=
  if version < 1 then getF.bind fun _ => Rd.pure () else Rd.pure ()

/-- `WeightParameters::serializeFrom`, WeightParameters.cpp:38-70.  The object is not reset first. -/
def readWeights (pc : Codec Pose) (prev : Weights Pose) (version : Nat) : Rd (Weights Pose) :=
  if version ≤ 1 then
    getBool.bind fun us => getF.bind fun thr => (readKernel version prev.kernel).bind fun k =>
    (getOpt tyPose pc.get).bind fun est => getF.bind fun kp => (readDummyScale version).bind fun _ =>
    readPairWeights.bind fun pw =>
    Rd.pure { useScaleOutlier := us, scaleThr := thr, pairWeights := pw, kernel := k, kernelParam := kp,
              estimate := est }
  else Rd.throw

/-! ### Results -/

/-- `static_cast<uint8_t>(terminationReason)`, IterTermReason.h:26-35 -/
def reasonToU8 : Reason → Nat
  | .undefined => 0
  | .noPairings => 1
  | .solverError => 2
  | .maxIterations => 3
  | .stalled => 4
  | .qualityCheckpointFailed => 5
  | .hookRequest => 6

/-- `struct Results`, Results.h:29-58; the reason is the `uint8_t` value of the enumeration, which a reader
may set to any value (`static_cast`). -/
structure Res (Pdf : Type) where
  optimalTf : Pdf
  optimalScale : F64
  nIterations : Nat
  reason : Nat
  quality : F64
  finalPairings : Pairings F64
  deriving DecidableEq, Repr

/-- `Results::serializeTo`, Results.cpp:24-31 (SERIALIZATION_VERSION = 0, line 22). -/
def writeRes (pc : Codec Pdf) (r : Res Pdf) : Bytes :=
  putU8 0 ++ pc.put r.optimalTf ++ putF r.optimalScale ++ putU64 r.nIterations ++ putU8 r.reason ++
    putF r.quality ++ writePairings r.finalPairings
/-- `Results::serializeFrom`, Results.cpp:32-42. -/
def readRes (pc : Codec Pdf) (prev : Res Pdf) : Rd (Res Pdf) :=
  getU8.bind fun v => (Rd.assert (v = 0)).bind fun _ =>
  pc.get.bind fun tf => getF.bind fun sc => getU64.bind fun n => getU8.bind fun re => getF.bind fun q =>
  (readPairings prev.finalPairings).bind fun fp =>
  Rd.pure { optimalTf := tf, optimalScale := sc, nIterations := n, reason := re, quality := q, finalPairings := fp }

/-! ### Georeferencing, metric_map_t -/

/-- `metric_map_t::Georeferencing`, metricmap.h:134-148. -/
structure Georef (Pdf : Type) where
  lat : F64
  lon : F64
  height : F64
  tEnuToMap : Pdf
  deriving DecidableEq, Repr

/-- `GEOREF_MAGIC_STR`, metricmap.cpp:825 -/
def georefMagic : Bytes := asc "mp2p_icp::Georeferencing"

/-- body of `operator<<`, metricmap.cpp:860-866 -/
def putGeoBody (pc : Codec Pdf) (g : Georef Pdf) : Bytes :=
  putF g.lat ++ putF g.lon ++ putF g.height ++ pc.put g.tEnuToMap
def getGeoBody (pc : Codec Pdf) : Rd (Georef Pdf) :=
  getF.bind fun la => getF.bind fun lo => getF.bind fun h => pc.get.bind fun t => Rd.pure ⟨la, lo, h, t⟩

/-- `operator<<(CArchive&, const std::optional<Georeferencing>&)`, metricmap.cpp:852-868. -/
def writeGeoref (pc : Codec Pdf) (g : Option (Georef Pdf)) : Bytes :=
  putStr georefMagic ++ putU8 0 ++
  (match g with
   | none => putBool false
   | some g => putBool true ++ putGeoBody pc g)
/-- `operator>>(CArchive&, std::optional<Georeferencing>&)`, metricmap.cpp:827-850: with the flag unset the
receiving object is left as it was. -/
def readGeoref (pc : Codec Pdf) (prev : Option (Georef Pdf)) : Rd (Option (Georef Pdf)) :=
  getStr.bind fun sig => (Rd.assert (sig = georefMagic)).bind fun _ =>
  getU8.bind fun version =>
  if version = 0 then
    getBool.bind fun has => if has then (getGeoBody pc).bind fun g => Rd.pure (some g) else Rd.pure prev
  else Rd.throw

/-- What MRPT supplies: serializers of the pose density, of the pose, of the map layers (polymorphic
`WriteObject`/`ReadObject`); the density with a given mean and default covariance; YAML text. -/
structure Ext (Pose Pdf L Y : Type) where
  pose : Codec Pose
  pdf : Codec Pdf
  layer : Codec L
  pdfOfMean : Pose → Pdf
  /-- `metadata.isNullNode() || metadata.empty()` -/
  yamlEmpty : Y → Bool
  /-- `metadata.clear()` -/
  yamlCleared : Y
  printYaml : Y → Bytes
  parseYaml : Bytes → Outcome Y

/-- `class metric_map_t` data members, metricmap.h:91-150.  `layers` is an ordered map. -/
structure MapRec (Pdf L Y : Type) where
  layers : AMap Bytes L
  lines : List (Line3 F64)
  planes : List (PlanePatch F64)
  id : Option Nat
  label : Option Bytes
  georef : Option (Georef Pdf)
  metadata : Y
  deriving DecidableEq, Repr

def tyLine : Bytes := asc "mrpt::math::TLine3D"
def tyString : Bytes := asc "std::string"

/-- `out << p.plane << p.centroid`, metricmap.cpp:54-57 -/
def putPatch (p : PlanePatch F64) : Bytes := putPlane p.plane ++ putP3 p.centroid
def getPatch : Rd (PlanePatch F64) := getPlane.bind fun pl => getP3.bind fun c => Rd.pure ⟨pl, c⟩
/-- `out << l.first << *l.second`, metricmap.cpp:66-69 -/
def putLayer (x : Ext Pose Pdf L Y) (e : Bytes × L) : Bytes := putStr e.1 ++ x.layer.put e.2
def getLayer (x : Ext Pose Pdf L Y) : Rd (Bytes × L) :=
  getStr.bind fun n => x.layer.get.bind fun l => Rd.pure (n, l)

/-- metricmap.cpp:76-83 -/
def putMetadata (x : Ext Pose Pdf L Y) (y : Y) : Bytes :=
  if x.yamlEmpty y then putBool false else putBool true ++ putStr (x.printYaml y)

/-- `metric_map_t::serializeTo`, metricmap.cpp:49-88; version 5 (line 48).  The hook `derivedSerializeTo` (line 87)
writes nothing for `metric_map_t` itself. -/
def writeMap (x : Ext Pose Pdf L Y) (m : MapRec Pdf L Y) : Bytes :=
  putVec tyLine putLine m.lines ++ putU32 m.planes.length ++ putMany putPatch m.planes ++
    putU32 m.lines.length ++ putMany putLine m.lines ++ putU32 m.layers.length ++ putMany (putLayer x) m.layers ++
    putOpt tyU64 putU64 m.id ++ putOpt tyString putStr m.label ++ writeGeoref x.pdf m.georef ++
    putMetadata x m.metadata

/-- metricmap.cpp:123-132: `in >> id >> label` from v1 on, otherwise both are reset. -/
def readIdLabel (version : Nat) : Rd (Option Nat × Option Bytes) :=
  if 1 ≤ version then
    (getOpt tyU64 getU64).bind fun i => (getOpt tyString getStr).bind fun l => Rd.pure (i, l)
  else Rd.pure (none, none)

/-- metricmap.cpp:144-151: the density in v3, only its mean in v2. -/
def readTenu (x : Ext Pose Pdf L Y) (version : Nat) : Rd Pdf :=
  if 3 ≤ version then x.pdf.get else x.pose.get.bind fun p => Rd.pure (x.pdfOfMean p)
/-- metricmap.cpp:136-152: georeferencing inside the map stream, v2 and v3. -/
def readOldGeo (x : Ext Pose Pdf L Y) (version : Nat) : Rd (Option (Georef Pdf)) :=
  getBool.bind fun has =>
  if has then
    getF.bind fun la => getF.bind fun lo => getF.bind fun h => (readTenu x version).bind fun t =>
    Rd.pure (some ⟨la, lo, h, t⟩)
  else Rd.pure none
/-- metricmap.cpp:134-158: reset, then v2/v3 format, then the v4 format. -/
def readGeo (x : Ext Pose Pdf L Y) (version : Nat) : Rd (Option (Georef Pdf)) :=
  (if 2 ≤ version ∧ version < 4 then readOldGeo x version else Rd.pure none).bind fun g =>
  if 4 ≤ version then readGeoref x.pdf g else Rd.pure g
/-- text to YAML; `loadFromStream` throws on malformed text -/
def parseMeta (x : Ext Pose Pdf L Y) (t : Bytes) : Rd Y := fun s => (x.parseYaml t).bind fun y => .ok (y, s)
/-- metricmap.cpp:160-171 -/
def readMeta (x : Ext Pose Pdf L Y) (version : Nat) : Rd Y :=
  if 5 ≤ version then
    getBool.bind fun has => if has then getStr.bind fun t => parseMeta x t else Rd.pure x.yamlCleared
  else Rd.pure x.yamlCleared

/-- `layers.clear()` and the loop `layers[name] = ...`, metricmap.cpp:113-121 -/
def insertLayers (l : List (Bytes × L)) : AMap Bytes L := l.foldl (fun m e => AMap.set m e.1 e.2) []

/-- `metric_map_t::serializeFrom`, metricmap.cpp:89-178.  Every member is replaced (`lines`: assigned by line 101,
resized and overwritten by lines 109-114), so the previous contents of the object do not matter; `lines0` is
the first of the two copies of the lines in the stream. -/
def readMap (x : Ext Pose Pdf L Y) (version : Nat) : Rd (MapRec Pdf L Y) :=
  if version ≤ 5 then
    (getVec tyLine getLine).bind fun _lines0 =>
    getU32.bind fun nPls => (getMany getPatch nPls).bind fun planes =>
    getU32.bind fun nLins => (getMany getLine nLins).bind fun lines =>
    getU32.bind fun nPts => (getMany (getLayer x) nPts).bind fun lay =>
    (readIdLabel version).bind fun il => (readGeo x version).bind fun g => (readMeta x version).bind fun md =>
    Rd.pure { layers := insertLayers lay, lines := lines, planes := planes, id := il.1, label := il.2,
              georef := g, metadata := md }
  else Rd.throw

/-! ### LogRecord -/

/-- `LogRecord::DebugInfoPerIteration`, LogRecord.h:64-74 -/
structure IterInfo (Pose : Type) where
  optimalPose : Pose
  pairings : Pairings F64
  deriving DecidableEq, Repr

/-- `struct TPose3D` -/
structure TPose where
  x : F64
  y : F64
  z : F64
  yaw : F64
  pitch : F64
  roll : F64
  deriving DecidableEq, Repr

def putTPose (p : TPose) : Bytes := putF p.x ++ putF p.y ++ putF p.z ++ putF p.yaw ++ putF p.pitch ++ putF p.roll
def getTPose : Rd TPose :=
  getF.bind fun a => getF.bind fun b => getF.bind fun c => getF.bind fun d => getF.bind fun e => getF.bind fun f =>
  Rd.pure ⟨a, b, c, d, e, f⟩

/-- `class LogRecord`, LogRecord.h:33-85; the two maps are shared pointers, possibly null. -/
structure LogRec (Pose Pdf L Y : Type) where
  pcGlobal : Option (MapRec Pdf L Y)
  pcLocal : Option (MapRec Pdf L Y)
  initialGuess : TPose
  icpParameters : Params
  icpResult : Res Pdf
  iterationsDetails : Option (AMap Nat (IterInfo Pose))
  dynamicVariables : AMap Bytes F64
  deriving DecidableEq, Repr

def clsMap : Bytes := asc "mp2p_icp::metric_map_t"
def clsParams : Bytes := asc "mp2p_icp::Parameters"
def clsLog : Bytes := asc "mp2p_icp::LogRecord"
def clsWeights : Bytes := asc "mp2p_icp::WeightParameters"
def tyIterInfo : Bytes := asc "mp2p_icp::LogRecord::DebugInfoPerIteration"
def tyIterMap : Bytes := asc "std::map<uint64_t,mp2p_icp::LogRecord::DebugInfoPerIteration>"

/-- `DebugInfoPerIteration::serializeTo`, LogRecord.cpp:127-132 -/
def putIterInfo (pc : Codec Pose) (i : IterInfo Pose) : Bytes :=
  putU8 0 ++ pc.put i.optimalPose ++ writePairings i.pairings
/-- `DebugInfoPerIteration::serializeFrom`, LogRecord.cpp:133-138; the receiving element is default constructed by the
reader of `std::map`. -/
def getIterInfo (pc : Codec Pose) : Rd (IterInfo Pose) :=
  getU8.bind fun v => (Rd.assert (v = 0)).bind fun _ =>
  pc.get.bind fun p => (readPairings {}).bind fun q => Rd.pure ⟨p, q⟩

/-- `if (pc) { true; out << *pc } else false`, LogRecord.cpp:30-47 -/
def putMapPtr (x : Ext Pose Pdf L Y) : Option (MapRec Pdf L Y) → Bytes
  | some m => putBool true ++ putObj clsMap 5 (writeMap x m)
  | none => putBool false
/-- LogRecord.cpp:62-71 (the pointer was reset by `*this = LogRecord()`, line 56) -/
def getMapPtr (x : Ext Pose Pdf L Y) : Rd (Option (MapRec Pdf L Y)) :=
  getBool.bind fun has =>
  if has then (getObj clsMap (readMap x)).bind fun m => Rd.pure (some m) else Rd.pure none

/-- reader of a `std::map`: pairs inserted in stream order -/
def insertAll {κ α : Type} [LinearOrder κ] (l : List (κ × α)) : AMap κ α := l.foldl (fun m e => AMap.set m e.1 e.2) []

def putIterMap (pc : Codec Pose) (m : AMap Nat (IterInfo Pose)) : Bytes :=
  putMap tyU64 tyIterInfo putU64 (putIterInfo pc) m
def getIterMap (pc : Codec Pose) : Rd (AMap Nat (IterInfo Pose)) :=
  (getMap tyU64 tyIterInfo getU64 (getIterInfo pc)).bind fun l => Rd.pure (insertAll l)
def putVars (m : AMap Bytes F64) : Bytes := putMap tyString tyF64 putStr putF m
def getVars : Rd (AMap Bytes F64) := (getMap tyString tyF64 getStr getF).bind fun l => Rd.pure (insertAll l)

/-- `LogRecord::serializeTo`, LogRecord.cpp:28-53; version 1 (line 27). -/
def writeLog (x : Ext Pose Pdf L Y) (r : LogRec Pose Pdf L Y) : Bytes :=
  putMapPtr x r.pcGlobal ++ putMapPtr x r.pcLocal ++ putTPose r.initialGuess ++
    putObj clsParams 2 (writeParams r.icpParameters) ++ writeRes x.pdf r.icpResult ++
    putOpt tyIterMap (putIterMap x.pose) r.iterationsDetails ++ putVars r.dynamicVariables

/-- LogRecord.cpp:75-78 -/
def readDynVars (version : Nat) : Rd (AMap Bytes F64) := if 1 ≤ version then getVars else Rd.pure []

/-- `LogRecord::serializeFrom`, LogRecord.cpp:54-84: reset, then read.  `fresh` is the `icpResult` of a default
constructed record (line 56). -/
def readLog (x : Ext Pose Pdf L Y) (env : Bool) (fresh : Res Pdf) (version : Nat) : Rd (LogRec Pose Pdf L Y) :=
  if version ≤ 1 then
    (getMapPtr x).bind fun g => (getMapPtr x).bind fun l => getTPose.bind fun ig =>
    (getObj clsParams (readParams env)).bind fun ps => (readRes x.pdf fresh).bind fun rs =>
    (getOpt tyIterMap (getIterMap x.pose)).bind fun it => (readDynVars version).bind fun dv =>
    Rd.pure { pcGlobal := g, pcLocal := l, initialGuess := ig, icpParameters := ps, icpResult := rs,
              iterationsDetails := it, dynamicVariables := dv }
  else Rd.throw

/-- `LogRecord::save_to_file`, LogRecord.cpp:86-103: the bytes of the (decompressed) file; gzip is external. -/
def saveLog (x : Ext Pose Pdf L Y) (r : LogRec Pose Pdf L Y) : Bytes := putObj clsLog 1 (writeLog x r)
/-- `LogRecord::load_from_file`, LogRecord.cpp:105-122: `false` (here `none`) if the reader throws. -/
def loadLog (x : Ext Pose Pdf L Y) (env : Bool) (fresh : Res Pdf) (file : Bytes) : Outcome (Option (LogRec Pose Pdf L Y)) :=
  match getObj clsLog (readLog x env fresh) file with
  | .ok r => .ok (some r.1)
  | .throw => .ok none
  | .ub => .ub

end Serial
end Verif
