import Verif.Spec.Serial
import Verif.Model.Serial
/-
Ranges of the C++ types involved, the assumptions on the external (MRPT) serializers, and the byte
formats of earlier versions of the library, as far as they differ from the current ones.
-/
namespace Verif
namespace Serial
open Wire

/-- The values fit in the C++ types (`uint32_t` indices, `uint64_t` counters), and no container has 2³² or more
elements (the archive stores sizes in 32 bits). -/
structure PairingsFit (p : Pairings F64) : Prop where
  n_pt2pt : p.pt2pt.length < 2 ^ 32
  n_pt2ln : p.pt2ln.length < 2 ^ 32
  n_pt2pl : p.pt2pl.length < 2 ^ 32
  n_ln2ln : p.ln2ln.length < 2 ^ 32
  n_pl2pl : p.pl2pl.length < 2 ^ 32
  n_weights : p.pointWeights.length < 2 ^ 32
  idx : ∀ q ∈ p.pt2pt, q.globalIdx < 2 ^ 32 ∧ q.localIdx < 2 ^ 32
  counts : ∀ w ∈ p.pointWeights, w.1 < 2 ^ 64
  potential : p.potential < 2 ^ 64

structure ParamsFit (p : Params) : Prop where
  iters : p.maxIterations < 2 ^ 32
  decim : p.decimationDebugFiles < 2 ^ 32
  decimDetails : p.decimationIterationDetails < 2 ^ 32
  fmt : p.debugFileNameFormat.length < 2 ^ 32

structure ResFit {Pdf : Type} (r : Res Pdf) : Prop where
  iters : r.nIterations < 2 ^ 64
  reason : r.reason < 256
  pairings : PairingsFit r.finalPairings

variable {Pose Pdf L Y : Type}

/-- The external serializer reads back what it wrote (and refuses truncated streams). -/
def CodecOk {α : Type} (c : Codec α) : Prop := ∀ a, Faithful c.get (c.put a) a

/-- The external library: its serializers are faithful, and the YAML text of a non-empty node parses back to
that node (and has fewer than 2³² characters). -/
structure ExtOk (x : Ext Pose Pdf L Y) : Prop where
  pose : CodecOk x.pose
  pdf : CodecOk x.pdf
  layer : CodecOk x.layer
  yaml : ∀ y, x.yamlEmpty y = false → x.parseYaml (x.printYaml y) = .ok y
  yamlLen : ∀ y, (x.printYaml y).length < 2 ^ 32

structure MapFit (m : MapRec Pdf L Y) : Prop where
  n_lines : m.lines.length < 2 ^ 32
  n_planes : m.planes.length < 2 ^ 32
  n_layers : m.layers.length < 2 ^ 32
  names : ∀ e ∈ m.layers, e.1.length < 2 ^ 32
  sorted : AMap.Sorted m.layers
  id : ∀ i, m.id = some i → i < 2 ^ 64
  label : ∀ l, m.label = some l → l.length < 2 ^ 32

structure LogFit (r : LogRec Pose Pdf L Y) : Prop where
  global : ∀ m, r.pcGlobal = some m → MapFit m
  «local» : ∀ m, r.pcLocal = some m → MapFit m
  params : ParamsFit r.icpParameters
  result : ResFit r.icpResult
  details : ∀ m, r.iterationsDetails = some m →
    AMap.Sorted m ∧ m.length < 2 ^ 32 ∧ ∀ e ∈ m, e.1 < 2 ^ 64 ∧ PairingsFit e.2.pairings
  vars : AMap.Sorted r.dynamicVariables ∧ r.dynamicVariables.length < 2 ^ 32 ∧
    ∀ e ∈ r.dynamicVariables, e.1.length < 2 ^ 32

/-- Pairings as written before the counter existed (version 0). -/
def pairingsV0 (p : Pairings F64) : Bytes :=
  putU8 0 ++ putVec tyPtPt putPtPair p.pt2pt ++ putVec tyPtLn putPtLn p.pt2ln ++ putVec tyPtPl putPtPl p.pt2pl ++
    putVec tyLnLn putLnLn p.ln2ln ++ putVec tyPlPl putPlPl p.pl2pl ++ putVec tyWeight putWeight p.pointWeights

/-- Parameters as written by version 0 and 1: without the later fields. -/
def paramsV0 (p : Params) : Bytes :=
  putU32 p.maxIterations ++ putF p.minAbsStepTrans ++ putF p.minAbsStepRot ++
    putBool p.generateDebugFiles ++ putStr p.debugFileNameFormat ++ putBool p.debugPrintIterationProgress
def paramsV1 (p : Params) : Bytes := paramsV0 p ++ putU32 p.decimationDebugFiles

/-- Weights as written by version 0: a flag instead of the kernel, and an extra scale. -/
def weightsV0 (pc : Codec Pose) (flag : Bool) (scale : F64) (w : Weights Pose) : Bytes :=
  putBool w.useScaleOutlier ++ putF w.scaleThr ++ putBool flag ++ putOpt tyPose pc.put w.estimate ++
    putF w.kernelParam ++ putF scale ++ writePairWeights w.pairWeights

/-- The part of a map all versions share. -/
def mapCore (x : Ext Pose Pdf L Y) (m : MapRec Pdf L Y) : Bytes :=
  putVec tyLine putLine m.lines ++ putU32 m.planes.length ++ putMany putPatch m.planes ++
    putU32 m.lines.length ++ putMany putLine m.lines ++ putU32 m.layers.length ++ putMany (putLayer x) m.layers
def mapIds (m : MapRec Pdf L Y) : Bytes := putOpt tyU64 putU64 m.id ++ putOpt tyString putStr m.label
/-- georeferencing in the format of version 3 -/
def geoV3 (x : Ext Pose Pdf L Y) : Option (Georef Pdf) → Bytes
  | none => putBool false
  | some g => putBool true ++ putF g.lat ++ putF g.lon ++ putF g.height ++ x.pdf.put g.tEnuToMap
/-- georeferencing in the format of version 2: only the mean pose `p` -/
def geoV2 (x : Ext Pose Pdf L Y) : Option (F64 × F64 × F64 × Pose) → Bytes
  | none => putBool false
  | some (la, lo, h, p) => putBool true ++ putF la ++ putF lo ++ putF h ++ x.pose.put p

end Serial
end Verif
