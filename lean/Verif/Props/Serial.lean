import Verif.Lemmas.Serial
/-
C36, C37, C38, C64: serialization.
-/
namespace Verif
namespace Props
open Wire Serial
variable {Pose Pdf L Y : Type}

/-! ### C36 -/

/-- Every `Pairings` value written to a stream is read back identically into any object, exactly the written
bytes are consumed, and a stream cut short is refused. -/
theorem pairings_roundtrip (p : Pairings F64) (h : PairingsFit p) (prev : Pairings F64) :
    RoundTrip (readPairings prev) (writePairings p) p ∧ RefusesCut (readPairings prev) (writePairings p) :=
  faithful_pairings h prev

/-- A stream announcing a later version is refused. -/
theorem pairings_unknown_version_refused (prev : Pairings F64) (v : Nat) (h1 : 1 < v) (h2 : v < 256)
    (rest : Bytes) : readPairings prev (putU8 v ++ rest) = .throw :=
  readPairings_unknown prev v h1 h2 rest

/-- No stream makes the reader leave the defined behaviour. -/
theorem pairings_reader_safe (prev : Pairings F64) : Safe (readPairings prev) := safe_pairings prev

/-- Version 0 streams load everything except the counter, which keeps the value the receiving object had. -/
theorem pairings_v0_loads_partial (p : Pairings F64) (h : PairingsFit p) (prev : Pairings F64) :
    RoundTrip (readPairings prev) (pairingsV0 p) { p with potential := prev.potential } :=
  (faithful_pairingsV0 h prev).1

/-- The claim "older versions load with the counter reset" is false: after reading a version 0 stream into a used
object the counter is the stale one. -/
theorem pairings_v0_stale_counter :
    ∃ p prev : Pairings F64, PairingsFit p ∧
      ∃ q, readPairings prev (pairingsV0 p) = .ok (q, []) ∧ q.potential ≠ 0 := by
  have hfit : PairingsFit ({} : Pairings F64) := by
    refine ⟨?_, ?_, ?_, ?_, ?_, ?_, ?_, ?_, ?_⟩ <;> simp
  refine ⟨{}, { potential := 7 }, hfit, { potential := 7 }, ?_, by decide⟩
  have := pairings_v0_loads_partial {} hfit { potential := 7 } []
  simpa using this

/-- A pairings value with one pair of each kind and a weight block. -/
def exPairings : Pairings F64 where
  pt2pt := [⟨3, 4, ⟨1, 2, 3⟩, ⟨4, 5, 6⟩, 7⟩]
  pt2ln := [⟨⟨⟨1, 2, 3⟩, ⟨4, 5, 6⟩⟩, ⟨7, 8, 9⟩⟩]
  pt2pl := [⟨⟨⟨⟨1, 2, 3⟩, 4⟩, ⟨5, 6, 7⟩⟩, ⟨7, 8, 9⟩⟩]
  ln2ln := [⟨⟨⟨1, 2, 3⟩, ⟨4, 5, 6⟩⟩, ⟨⟨11, 2, 3⟩, ⟨4, 5, 6⟩⟩⟩]
  pl2pl := [⟨⟨⟨⟨1, 2, 3⟩, 4⟩, ⟨5, 6, 7⟩⟩, ⟨⟨⟨11, 2, 3⟩, 4⟩, ⟨5, 6, 7⟩⟩⟩]
  potential := 10
  pointWeights := [(1, 5)]
theorem exPairings_fit : PairingsFit exPairings := by
  refine ⟨?_, ?_, ?_, ?_, ?_, ?_, ?_, ?_, ?_⟩ <;> simp [exPairings]
example : ∃ w : Bytes, w ≠ [] ∧ readPairings {} w = .ok (exPairings, []) :=
  ⟨writePairings exPairings, by simp [writePairings, putU8, putN],
    by simpa using (pairings_roundtrip exPairings exPairings_fit {}).1 []⟩

/-! ### C37 -/

/-- `Parameters` are read back in every field except two: the debug flag is or-ed with the environment variable,
and the quality checkpoints, which are not written, come back as the default ones. -/
theorem params_roundtrip_partial (p : Params) (h : ParamsFit p) (env : Bool) :
    Faithful (readParams env 2) (writeParams p)
      { p with
        generateDebugFiles := p.generateDebugFiles || env
        qualityCheckpoints := [(50, 0x3fa999999999999a#64), (100, 0x3fb999999999999a#64)] } :=
  faithful_params h env

/-- With the environment variable unset and the default checkpoints the round trip is exact. -/
theorem params_roundtrip_exact (p : Params) (h : ParamsFit p)
    (hq : p.qualityCheckpoints = [(50, 0x3fa999999999999a#64), (100, 0x3fb999999999999a#64)]) :
    Faithful (readParams false 2) (writeParams p) p := by
  have := params_roundtrip_partial p h false
  rw [← hq] at this
  simpa using this

/-- The full claim is false: two parameter sets which differ only in their checkpoints have the same bytes, so no
reader whatsoever can tell them apart. -/
theorem params_checkpoints_lost :
    ∃ p q : Params, ParamsFit p ∧ ParamsFit q ∧ p ≠ q ∧ writeParams p = writeParams q := by
  refine ⟨Params.default, { Params.default with qualityCheckpoints := [] }, ?_, ?_, by decide, rfl⟩ <;>
    (refine ⟨?_, ?_, ?_, ?_⟩ <;> decide)

/-- Older streams: version 0 and 1 load with the defaults in the fields they lack. -/
theorem params_old_versions (p : Params) (h : ParamsFit p) (env : Bool) :
    RoundTrip (readParams env 0) (paramsV0 p)
      { Params.default with
        maxIterations := p.maxIterations
        minAbsStepTrans := p.minAbsStepTrans
        minAbsStepRot := p.minAbsStepRot
        generateDebugFiles := p.generateDebugFiles || env
        debugFileNameFormat := p.debugFileNameFormat
        debugPrintIterationProgress := p.debugPrintIterationProgress } ∧
    RoundTrip (readParams env 1) (paramsV1 p)
      { Params.default with
        maxIterations := p.maxIterations
        minAbsStepTrans := p.minAbsStepTrans
        minAbsStepRot := p.minAbsStepRot
        generateDebugFiles := p.generateDebugFiles || env
        debugFileNameFormat := p.debugFileNameFormat
        debugPrintIterationProgress := p.debugPrintIterationProgress
        decimationDebugFiles := p.decimationDebugFiles } := by
  constructor
  · have := faithful_params_gen h env (v := 0) (by decide) (Faithful.pure _) (Faithful.pure _)
    simpa using this.1
  · have := faithful_params_gen h env (v := 1) (by decide) (w1 := putU32 p.decimationDebugFiles)
      (faithful_u32 h.decim) (Faithful.pure _)
    simpa [paramsV1] using this.1

theorem params_unknown_version_refused (env : Bool) (v : Nat) (h : 2 < v) (s : Bytes) :
    readParams env v s = .throw := by
  have : ¬ v ≤ 2 := by omega
  simp [readParams, this, Rd.throw]

/-- Relative weights. -/
theorem pairWeights_roundtrip (w : PairWeights F64) : Faithful readPairWeights (writePairWeights w) w :=
  faithful_pairWeights w

/-- Weight parameters are read back in every field, into any object (`hc`: the pose serializer of MRPT reads back
what it wrote; the kernel is a `uint8_t`). -/
theorem weights_roundtrip (pc : Codec Pose) (hc : CodecOk pc) (w : Weights Pose) (hk : w.kernel < 256)
    (prev : Weights Pose) : Faithful (readWeights pc prev 1) (writeWeights pc w) w :=
  faithful_weights hc hk prev

/-- Version 0 streams load all fields except the kernel, which keeps the value of the receiving object: the
kernel flag and scale of the stream are discarded. -/
theorem weights_v0_loads_partial (pc : Codec Pose) (hc : CodecOk pc) (flag : Bool) (scale : F64) (w prev : Weights Pose) :
    RoundTrip (readWeights pc prev 0) (weightsV0 pc flag scale w) { w with kernel := prev.kernel } :=
  (faithful_weightsV0 hc flag scale w prev).1

theorem weights_unknown_version_refused (pc : Codec Pose) (prev : Weights Pose) (v : Nat) (h : 1 < v) (s : Bytes) :
    readWeights pc prev v s = .throw := by
  have : ¬ v ≤ 1 := by omega
  simp [readWeights, this, Rd.throw]

/-- Results are read back in every field, into any object. -/
theorem results_roundtrip (pc : Codec Pdf) (hc : CodecOk pc) (r : Res Pdf) (h : ResFit r) (prev : Res Pdf) :
    Faithful (readRes pc prev) (writeRes pc r) r :=
  faithful_res hc h prev

/-- The termination reason survives the cast to a byte and back. -/
theorem reason_byte_injective (a b : Reason) (h : reasonToU8 a = reasonToU8 b) : a = b := by
  cases a <;> cases b <;> first | rfl | (simp [reasonToU8] at h)

theorem results_unknown_version_refused (pc : Codec Pdf) (prev : Res Pdf) (v : Nat) (h1 : 0 < v) (h2 : v < 256)
    (rest : Bytes) : readRes pc prev (putU8 v ++ rest) = .throw :=
  readRes_unknown pc prev v h1 h2 rest

/-- A concrete external library meeting the assumptions: poses, densities and layers are doubles, YAML nodes are
byte strings of at most one byte. -/
def exExt : Ext F64 F64 F64 (Option Byte) where
  pose := ⟨putF, getF⟩
  pdf := ⟨putF, getF⟩
  layer := ⟨putF, getF⟩
  pdfOfMean := id
  yamlEmpty := fun y => y.isNone
  yamlCleared := none
  printYaml := fun y => y.toList
  parseYaml := fun b => match b with
    | [x] => .ok (some x)
    | _ => .throw
theorem exExt_ok : ExtOk exExt where
  pose := faithful_f
  pdf := faithful_f
  layer := faithful_f
  yaml := by intro y hy; cases y <;> simp_all [exExt]
  yamlLen := by intro y; cases y <;> simp [exExt]

example : ∃ r : Res F64, ResFit r ∧ r.finalPairings.size = 5 ∧
    readRes exExt.pdf r (writeRes exExt.pdf r) = .ok (r, []) := by
  have hf : ResFit (⟨5, 1, 12, reasonToU8 .stalled, 9, exPairings⟩ : Res F64) :=
    ⟨by decide, by decide, exPairings_fit⟩
  exact ⟨_, hf, rfl, by simpa using (results_roundtrip exExt.pdf exExt_ok.pdf _ hf _).1 []⟩
example : ∃ w : Weights F64, w.kernel = 2 ∧ w.estimate = some 5 ∧
    readWeights exExt.pose w 1 (writeWeights exExt.pose w) = .ok (w, []) := by
  refine ⟨⟨true, 1, ⟨1, 2, 3, 4, 5⟩, 2, 7, some 5⟩, rfl, rfl, ?_⟩
  simpa using (weights_roundtrip exExt.pose exExt_ok.pose _ (by decide) _).1 []

/-! ### C38 -/

/-- A metric map written to a stream is read back identically: layers, lines, planes, id, label,
georeferencing and metadata (an empty metadata node comes back as a cleared one).  The reader does not look at the
previous contents of the receiving object. -/
theorem map_roundtrip (x : Ext Pose Pdf L Y) (hx : ExtOk x) (m : MapRec Pdf L Y) (h : MapFit m) :
    Faithful (readMap x 5) (writeMap x m)
      { m with metadata := if x.yamlEmpty m.metadata then x.yamlCleared else m.metadata } :=
  faithful_map_cur hx h

/-- Non-empty metadata: identical in every field. -/
theorem map_roundtrip_exact (x : Ext Pose Pdf L Y) (hx : ExtOk x) (m : MapRec Pdf L Y) (h : MapFit m)
    (hm : x.yamlEmpty m.metadata = false) : Faithful (readMap x 5) (writeMap x m) m := by
  have := map_roundtrip x hx m h
  simpa [hm] using this

/-- Streams of version 0, 1, 3 and 4 load, with no id/label, no georeferencing, cleared metadata where the version
has none. -/
theorem map_old_versions (x : Ext Pose Pdf L Y) (hx : ExtOk x) (m : MapRec Pdf L Y) (h : MapFit m) :
    RoundTrip (readMap x 0) (mapCore x m)
      { m with id := none, label := none, georef := none, metadata := x.yamlCleared } ∧
    RoundTrip (readMap x 1) (mapCore x m ++ mapIds m) { m with georef := none, metadata := x.yamlCleared } ∧
    RoundTrip (readMap x 3) (mapCore x m ++ mapIds m ++ geoV3 x m.georef) { m with metadata := x.yamlCleared } ∧
    RoundTrip (readMap x 4) (mapCore x m ++ mapIds m ++ writeGeoref x.pdf m.georef)
      { m with metadata := x.yamlCleared } := by
  have hg : ∀ v, v < 2 → Faithful (readGeo x v) [] none := by
    intro v hv
    have h1 : ¬ (2 ≤ v ∧ v < 4) := by omega
    have h2 : ¬ 4 ≤ v := by omega
    simp only [readGeo, h1, h2, if_false]
    exact Faithful.last (Faithful.pure none) rfl
  have hmd : ∀ v, v < 5 → Faithful (readMeta x v) [] x.yamlCleared := by
    intro v hv
    have h2 : ¬ 5 ≤ v := by omega
    simp only [readMeta, h2, if_false]
    exact Faithful.pure _
  refine ⟨?_, ?_, ?_, ?_⟩
  · have := faithful_map_gen hx h (v := 0) (by decide) (Faithful.pure _) (hg 0 (by decide)) (hmd 0 (by decide))
    simpa using this.1
  · have := faithful_map_gen hx h (v := 1) (by decide) (faithful_idLabel h (by decide)) (hg 1 (by decide))
      (hmd 1 (by decide))
    simpa using this.1
  · have := faithful_map_gen hx h (v := 3) (by decide) (faithful_idLabel h (by decide))
      (faithful_geo_v3 hx m.georef) (hmd 3 (by decide))
    simpa using this.1
  · have := faithful_map_gen hx h (v := 4) (by decide) (faithful_idLabel h (by decide))
      (faithful_geo_new hx m.georef (by decide)) (hmd 4 (by decide))
    simpa using this.1

/-- Streams of version 2, which stored only the mean pose of the georeferencing. -/
theorem map_version_2 (x : Ext Pose Pdf L Y) (hx : ExtOk x) (m : MapRec Pdf L Y) (h : MapFit m)
    (g : Option (F64 × F64 × F64 × Pose)) :
    RoundTrip (readMap x 2) (mapCore x m ++ mapIds m ++ geoV2 x g)
      { m with
        georef := g.map fun q => ⟨q.1, q.2.1, q.2.2.1, x.pdfOfMean q.2.2.2⟩
        metadata := x.yamlCleared } := by
  have := faithful_map_gen hx h (v := 2) (by decide) (faithful_idLabel h (by decide))
    (faithful_geo_v2 hx g) (w3 := []) (md := x.yamlCleared) (Faithful.pure _)
  simpa using this.1

theorem map_unknown_version_refused (x : Ext Pose Pdf L Y) (v : Nat) (h : 5 < v) (s : Bytes) :
    readMap x v s = .throw := by
  have : ¬ v ≤ 5 := by omega
  simp [readMap, this, Rd.throw]

/-- The stand-alone georeferencing reader gives back a present georeference, into any object, and an absent one into
an object holding none; … -/
theorem georef_roundtrip_present (pc : Codec Pdf) (hc : CodecOk pc) (g prev : Option (Georef Pdf))
    (h : g.isSome ∨ prev = none) : RoundTrip (readGeoref pc prev) (writeGeoref pc g) g := by
  have := (faithful_georef hc g prev).1
  cases g with
  | some g => exact this
  | none =>
    rcases h with h | h
    · simp at h
    · subst h; exact this

/-- … but reading an absent georeference into an object that holds one leaves the stale one in place. -/
theorem georef_absent_keeps_stale (pc : Codec Pdf) (hc : CodecOk pc) (stale : Georef Pdf) :
    readGeoref pc (some stale) (writeGeoref pc none) = .ok (some stale, []) := by
  simpa using (faithful_georef hc none (some stale)).1 []

/-- A map with two layers, a line, a plane, an id, a label, a georeference and metadata. -/
def exMap : MapRec F64 F64 (Option Byte) where
  layers := [([1], 5), ([2], 6)]
  lines := [⟨⟨1, 2, 3⟩, ⟨4, 5, 6⟩⟩]
  planes := [⟨⟨⟨1, 2, 3⟩, 4⟩, ⟨5, 6, 7⟩⟩]
  id := some 77
  label := some [65, 66]
  georef := some ⟨1, 2, 3, 4⟩
  metadata := some 9
theorem exMap_fit : MapFit exMap := by
  refine ⟨?_, ?_, ?_, ?_, ?_, ?_, ?_⟩ <;> simp [exMap, AMap.Sorted] <;> decide
example : readMap exExt 5 (writeMap exExt exMap) = .ok (exMap, []) := by
  simpa using (map_roundtrip_exact exExt exExt_ok exMap exMap_fit rfl).1 []

/-! ### C64 -/

/-- A log record is read back in every field, except that its ICP parameters suffer what `params_roundtrip_partial`
says and empty metadata of the maps comes back cleared. -/
theorem log_roundtrip_partial (x : Ext Pose Pdf L Y) (hx : ExtOk x) (r : LogRec Pose Pdf L Y) (h : LogFit r) (env : Bool)
    (fresh : Res Pdf) :
    Faithful (readLog x env fresh 1) (writeLog x r)
      { r with
        pcGlobal := r.pcGlobal.map fun m =>
          { m with metadata := if x.yamlEmpty m.metadata then x.yamlCleared else m.metadata }
        pcLocal := r.pcLocal.map fun m =>
          { m with metadata := if x.yamlEmpty m.metadata then x.yamlCleared else m.metadata }
        icpParameters := { r.icpParameters with
          generateDebugFiles := r.icpParameters.generateDebugFiles || env
          qualityCheckpoints := [(50, 0x3fa999999999999a#64), (100, 0x3fb999999999999a#64)] } } :=
  faithful_log hx h env fresh

/-- `load_from_file` after `save_to_file` succeeds and gives that record; a file cut anywhere makes it report
failure instead of an exception. -/
theorem log_file_roundtrip (x : Ext Pose Pdf L Y) (hx : ExtOk x) (r : LogRec Pose Pdf L Y) (h : LogFit r) (env : Bool)
    (fresh : Res Pdf) :
    (∃ r', loadLog x env fresh (saveLog x r) = .ok (some r') ∧
      r'.icpResult = r.icpResult ∧ r'.iterationsDetails = r.iterationsDetails ∧
      r'.dynamicVariables = r.dynamicVariables ∧ r'.initialGuess = r.initialGuess) ∧
    ∀ cut, cut <+: saveLog x r → cut ≠ saveLog x r → loadLog x env fresh cut = .ok none := by
  obtain ⟨r', hf, h1, h2, h3, h4⟩ : ∃ r' : LogRec Pose Pdf L Y,
      Faithful (getObj clsLog (readLog x env fresh)) (putObj clsLog 1 (writeLog x r)) r' ∧
      r'.icpResult = r.icpResult ∧ r'.iterationsDetails = r.iterationsDetails ∧
      r'.dynamicVariables = r.dynamicVariables ∧ r'.initialGuess = r.initialGuess :=
    ⟨_, faithful_obj (by decide) (by decide) (faithful_log hx h env fresh), rfl, rfl, rfl, rfl⟩
  refine ⟨⟨r', ?_, h1, h2, h3, h4⟩, fun cut hc hne => ?_⟩
  · have := hf.1 []
    simp only [List.append_nil] at this
    simp only [loadLog, saveLog, this]
  · simp only [loadLog, hf.2 cut hc hne]

def exLog : LogRec F64 F64 F64 (Option Byte) where
  pcGlobal := some exMap
  pcLocal := none
  initialGuess := ⟨1, 2, 3, 4, 5, 6⟩
  icpParameters := Params.default
  icpResult := ⟨5, 1, 12, 4, 9, exPairings⟩
  iterationsDetails := some [(0, ⟨5, exPairings⟩), (10, ⟨6, {}⟩)]
  dynamicVariables := [([65], 1), ([66], 2)]
theorem exLog_fit : LogFit exLog := by
  refine ⟨?_, ?_, ?_, ?_, ?_, ?_⟩
  · intro m hm; cases hm; exact exMap_fit
  · intro m hm; cases hm
  · refine ⟨?_, ?_, ?_, ?_⟩ <;> decide
  · exact ⟨by decide, by decide, exPairings_fit⟩
  · intro m hm
    cases hm
    refine ⟨by simp [AMap.Sorted], by simp, ?_⟩
    intro e he
    simp only [List.mem_cons, List.not_mem_nil, or_false] at he
    rcases he with rfl | rfl
    · exact ⟨by decide, exPairings_fit⟩
    · refine ⟨by decide, ?_⟩
      refine ⟨?_, ?_, ?_, ?_, ?_, ?_, ?_, ?_, ?_⟩ <;> simp
  · refine ⟨by simp [exLog, AMap.Sorted]; decide, by simp [exLog], by simp [exLog]⟩
example : ∃ r', loadLog exExt false exLog.icpResult (saveLog exExt exLog) = .ok (some r') ∧
    r'.iterationsDetails = exLog.iterationsDetails := by
  obtain ⟨⟨r', h, _, h2, _⟩, _⟩ := log_file_roundtrip exExt exExt_ok exLog exLog_fit false exLog.icpResult
  exact ⟨r', h, h2⟩

end Props
end Verif
