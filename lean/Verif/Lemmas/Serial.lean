import Verif.Lemmas.Wire
import Verif.Lemmas.AMap
import Verif.Spec.SerialFormats
set_option linter.unusedSimpArgs false
namespace Verif
namespace Serial
open Wire
variable {Pose Pdf L Y : Type}

/-! geometry -/
theorem faithful_p3 (p : P3 F64) : Faithful getP3 (putP3 p) p := by
  simp only [putP3, getP3, List.append_assoc]
  exact Faithful.bind (faithful_f _) <| Faithful.bind (faithful_f _) <| Faithful.last (faithful_f _) rfl
theorem faithful_line (l : Line3 F64) : Faithful getLine (putLine l) l :=
  Faithful.bind (faithful_p3 _) <| Faithful.last (faithful_p3 _) rfl
theorem faithful_plane (l : Plane F64) : Faithful getPlane (putPlane l) l :=
  Faithful.bind (faithful_p3 _) <| Faithful.last (faithful_f _) rfl
theorem safe_p3 : Safe getP3 :=
  Safe.bind safe_f fun _ => Safe.bind safe_f fun _ => Safe.bind safe_f fun _ => Safe.pure _
theorem safe_line : Safe getLine := Safe.bind safe_p3 fun _ => Safe.bind safe_p3 fun _ => Safe.pure _
theorem safe_plane : Safe getPlane := Safe.bind safe_p3 fun _ => Safe.bind safe_f fun _ => Safe.pure _

/-! pairs -/
theorem faithful_ptpair (p : PtPair F64) (h : p.globalIdx < 2 ^ 32 ∧ p.localIdx < 2 ^ 32) :
    Faithful getPtPair (putPtPair p) p := by
  simp only [putPtPair, getPtPair, List.append_assoc]
  exact Faithful.bind (faithful_u32 h.1) <| Faithful.bind (faithful_u32 h.2) <|
    Faithful.bind (faithful_p3 _) <| Faithful.bind (faithful_p3 _) <| Faithful.last (faithful_f _) rfl
theorem faithful_ptln (p : PtLnPair F64) : Faithful getPtLn (putPtLn p) p := by
  simp only [putPtLn, getPtLn, List.append_assoc]
  exact Faithful.bind (faithful_u8 (by decide)) <| Faithful.bind (faithful_line _) <|
    Faithful.last (faithful_p3 _) rfl
theorem faithful_ptpl (p : PtPlPair F64) : Faithful getPtPl (putPtPl p) p := by
  simp only [putPtPl, getPtPl, List.append_assoc]
  exact Faithful.bind (faithful_u8 (by decide)) <| Faithful.bind (faithful_p3 _) <|
    Faithful.bind (faithful_plane _) <| Faithful.last (faithful_p3 _) rfl
theorem faithful_lnln (p : LnPair F64) : Faithful getLnLn (putLnLn p) p := by
  simp only [putLnLn, getLnLn, List.append_assoc]
  exact Faithful.bind (faithful_u8 (by decide)) <| Faithful.bind (faithful_line _) <|
    Faithful.last (faithful_line _) rfl
theorem faithful_plpl (p : PlPair F64) : Faithful getPlPl (putPlPl p) p := by
  simp only [putPlPl, getPlPl, List.append_assoc]
  exact Faithful.bind (faithful_u8 (by decide)) <| Faithful.bind (faithful_p3 _) <|
    Faithful.bind (faithful_plane _) <| Faithful.bind (faithful_p3 _) <| Faithful.last (faithful_plane _) rfl
theorem faithful_weight (w : Nat × F64) (h : w.1 < 2 ^ 64) : Faithful getWeight (putWeight w) w :=
  faithful_pair (by decide) (by decide) (faithful_u64 h) (faithful_f _)

theorem faithful_pairings_body {p : Pairings F64} (h : PairingsFit p) {v : Nat} (hv : v ≤ 1) {prev : Nat}
    {w : Bytes} {n : Nat} (hw : Faithful (readPotential v prev) w n) (pr : Pairings F64) (hpr : pr.potential = prev) :
    Faithful (readPairings pr)
      (putU8 v ++ putVec tyPtPt putPtPair p.pt2pt ++ putVec tyPtLn putPtLn p.pt2ln ++
        putVec tyPtPl putPtPl p.pt2pl ++ putVec tyLnLn putLnLn p.ln2ln ++ putVec tyPlPl putPlPl p.pl2pl ++
        putVec tyWeight putWeight p.pointWeights ++ w) { p with potential := n } := by
  simp only [readPairings, List.append_assoc]
  subst hpr
  exact Faithful.bind (faithful_u8 (by omega)) <| Faithful.assertBind hv <|
    Faithful.bind (faithful_vec (by decide) h.n_pt2pt fun q hq => faithful_ptpair q (h.idx q hq)) <|
    Faithful.bind (faithful_vec (by decide) h.n_pt2ln fun q _ => faithful_ptln q) <|
    Faithful.bind (faithful_vec (by decide) h.n_pt2pl fun q _ => faithful_ptpl q) <|
    Faithful.bind (faithful_vec (by decide) h.n_ln2ln fun q _ => faithful_lnln q) <|
    Faithful.bind (faithful_vec (by decide) h.n_pl2pl fun q _ => faithful_plpl q) <|
    Faithful.bind (faithful_vec (by decide) h.n_weights fun q hq => faithful_weight q (h.counts q hq)) <|
    Faithful.last hw rfl

theorem faithful_pairings {p : Pairings F64} (h : PairingsFit p) (prev : Pairings F64) :
    Faithful (readPairings prev) (writePairings p) p := by
  have := faithful_pairings_body (v := 1) h (by decide) (prev := prev.potential) (w := putU64 p.potential)
    (n := p.potential) (faithful_u64 h.potential) prev rfl
  exact this

theorem faithful_pairingsV0 {p : Pairings F64} (h : PairingsFit p) (prev : Pairings F64) :
    Faithful (readPairings prev) (pairingsV0 p) { p with potential := prev.potential } := by
  have := faithful_pairings_body (v := 0) h (by decide) (prev := prev.potential) (w := [])
    (n := prev.potential) (Faithful.pure _) prev rfl
  simpa [pairingsV0] using this

theorem safe_pairings (prev : Pairings F64) : Safe (readPairings prev) := by
  have hpot : ∀ v, Safe (readPotential v prev.potential) := fun v => Safe.ite safe_u64 (Safe.pure _)
  have h1 : Safe getPtPair := Safe.bind safe_u32 fun _ => Safe.bind safe_u32 fun _ => Safe.bind safe_p3 fun _ =>
    Safe.bind safe_p3 fun _ => Safe.bind safe_f fun _ => Safe.pure _
  have h2 : Safe getPtLn := Safe.bind safe_u8 fun _ => Safe.bind safe_line fun _ => Safe.bind safe_p3 fun _ =>
    Safe.pure _
  have h3 : Safe getPtPl := Safe.bind safe_u8 fun _ => Safe.bind safe_p3 fun _ => Safe.bind safe_plane fun _ =>
    Safe.bind safe_p3 fun _ => Safe.pure _
  have h4 : Safe getLnLn := Safe.bind safe_u8 fun _ => Safe.bind safe_line fun _ => Safe.bind safe_line fun _ =>
    Safe.pure _
  have h5 : Safe getPlPl := Safe.bind safe_u8 fun _ => Safe.bind safe_p3 fun _ => Safe.bind safe_plane fun _ =>
    Safe.bind safe_p3 fun _ => Safe.bind safe_plane fun _ => Safe.pure _
  exact Safe.bind safe_u8 fun _ => Safe.bind Safe.assert fun _ => Safe.bind (safe_vec h1) fun _ =>
    Safe.bind (safe_vec h2) fun _ => Safe.bind (safe_vec h3) fun _ => Safe.bind (safe_vec h4) fun _ =>
    Safe.bind (safe_vec h5) fun _ => Safe.bind (safe_vec (safe_pair safe_u64 safe_f)) fun _ =>
    Safe.bind (hpot _) fun _ => Safe.pure _

theorem readPairings_unknown (prev : Pairings F64) (v : Nat) (h1 : 1 < v) (h2 : v < 256) (rest : Bytes) :
    readPairings prev (putU8 v ++ rest) = .throw := by
  simp only [readPairings, Rd.bind, (faithful_u8 h2).1 rest, Outcome.bind]
  have : ¬ v ≤ 1 := by omega
  simp [Rd.assert, this, Rd.throw]

/-! parameters -/
theorem faithful_params_gen {p : Params} (h : ParamsFit p) (env : Bool) {v : Nat} (hv : v ≤ 2) {w1 w2 : Bytes}
    {dd : Nat} {sd : Bool × Nat} (h1 : Faithful (readDecim v) w1 dd) (h2 : Faithful (readDetails v) w2 sd) :
    Faithful (readParams env v) (paramsV0 p ++ w1 ++ w2)
      { p with
        generateDebugFiles := p.generateDebugFiles || env
        decimationDebugFiles := dd
        saveIterationDetails := sd.1
        decimationIterationDetails := sd.2
        qualityCheckpoints := Params.default.qualityCheckpoints } := by
  simp only [readParams, paramsV0, List.append_assoc, hv, if_true]
  exact Faithful.bind (faithful_u32 h.iters) <| Faithful.bind (faithful_f _) <| Faithful.bind (faithful_f _) <|
    Faithful.bind (faithful_bool _) <| Faithful.bind (faithful_str h.fmt) <| Faithful.bind (faithful_bool _) <|
    Faithful.bind h1 <| Faithful.last h2 rfl

theorem faithful_params {p : Params} (h : ParamsFit p) (env : Bool) :
    Faithful (readParams env 2) (writeParams p)
      { p with
        generateDebugFiles := p.generateDebugFiles || env
        qualityCheckpoints := Params.default.qualityCheckpoints } := by
  have := faithful_params_gen h env (v := 2) (by decide) (w1 := putU32 p.decimationDebugFiles)
    (w2 := putBool p.saveIterationDetails ++ putU32 p.decimationIterationDetails)
    (dd := p.decimationDebugFiles) (sd := (p.saveIterationDetails, p.decimationIterationDetails))
    (faithful_u32 h.decim)
    (Faithful.bind (f := fun s => getU32.bind fun n => Rd.pure (s, n)) (faithful_bool _)
      (Faithful.last (faithful_u32 h.decimDetails) rfl))
  simpa [paramsV0, writeParams, List.append_assoc] using this

theorem safe_params (env : Bool) (v : Nat) : Safe (readParams env v) := by
  refine Safe.ite ?_ Safe.throw
  exact Safe.bind safe_u32 fun _ => Safe.bind safe_f fun _ => Safe.bind safe_f fun _ => Safe.bind safe_bool fun _ =>
    Safe.bind safe_str fun _ => Safe.bind safe_bool fun _ => Safe.bind (Safe.ite safe_u32 (Safe.pure _)) fun _ =>
    Safe.bind (Safe.ite (Safe.bind safe_bool fun _ => Safe.bind safe_u32 fun _ => Safe.pure _) (Safe.pure _)) fun _ =>
    Safe.pure _

/-! weights -/
theorem faithful_pairWeights (w : PairWeights F64) : Faithful readPairWeights (writePairWeights w) w := by
  simp only [readPairWeights, writePairWeights, List.append_assoc]
  exact Faithful.bind (faithful_f _) <| Faithful.bind (faithful_f _) <| Faithful.bind (faithful_f _) <|
    Faithful.bind (faithful_f _) <| Faithful.last (faithful_f _) rfl

theorem faithful_weights {pc : Codec Pose} (hc : CodecOk pc) {w : Weights Pose} (hk : w.kernel < 256)
    (prev : Weights Pose) : Faithful (readWeights pc prev 1) (writeWeights pc w) w := by
  simp only [readWeights, writeWeights, List.append_assoc, le_refl, if_true]
  refine Faithful.bind (faithful_bool _) <| Faithful.bind (faithful_f _) <| ?_
  refine Faithful.bind (show Faithful (readKernel 1 prev.kernel) _ w.kernel from faithful_u8 hk) ?_
  refine Faithful.bind (faithful_opt (by decide) fun a _ => hc a) <| Faithful.bind (faithful_f _) ?_
  exact Faithful.bind (w := []) (Faithful.pure ()) (Faithful.last (faithful_pairWeights _) rfl)

theorem faithful_weightsV0 {pc : Codec Pose} (hc : CodecOk pc) (flag : Bool) (scale : F64) (w : Weights Pose)
    (prev : Weights Pose) :
    Faithful (readWeights pc prev 0) (weightsV0 pc flag scale w) { w with kernel := prev.kernel } := by
  simp only [readWeights, weightsV0, List.append_assoc, zero_le, if_true]
  refine Faithful.bind (faithful_bool _) <| Faithful.bind (faithful_f _) <| ?_
  refine Faithful.bind (show Faithful (readKernel 0 prev.kernel) _ prev.kernel from
    Faithful.last (f := fun _ => Rd.pure prev.kernel) (faithful_bool flag) rfl) ?_
  refine Faithful.bind (faithful_opt (by decide) fun a _ => hc a) <| Faithful.bind (faithful_f _) ?_
  exact Faithful.bind (show Faithful (readDummyScale 0) (putF scale) () from
    Faithful.last (f := fun _ => Rd.pure ()) (faithful_f _) rfl)
    (Faithful.last (faithful_pairWeights _) rfl)

/-! results -/
theorem faithful_res {pc : Codec Pdf} (hc : CodecOk pc) {r : Res Pdf} (h : ResFit r) (prev : Res Pdf) :
    Faithful (readRes pc prev) (writeRes pc r) r := by
  simp only [readRes, writeRes, List.append_assoc]
  exact Faithful.bind (faithful_u8 (by decide)) <| Faithful.assertBind rfl <| Faithful.bind (hc _) <|
    Faithful.bind (faithful_f _) <| Faithful.bind (faithful_u64 h.iters) <| Faithful.bind (faithful_u8 h.reason) <|
    Faithful.bind (faithful_f _) <| Faithful.last (faithful_pairings h.pairings _) rfl

theorem readRes_unknown (pc : Codec Pdf) (prev : Res Pdf) (v : Nat) (h1 : 0 < v) (h2 : v < 256) (rest : Bytes) :
    readRes pc prev (putU8 v ++ rest) = .throw := by
  simp only [readRes, Rd.bind, (faithful_u8 h2).1 rest, Outcome.bind]
  have : ¬ v = 0 := by omega
  simp [Rd.assert, this, Rd.throw]

/-! maps -/
theorem foldl_set_sorted {κ α : Type} [LinearOrder κ] (l : List (κ × α)) :
    ∀ (m : AMap κ α), AMap.Sorted (m ++ l) → l.foldl (fun m e => AMap.set m e.1 e.2) m = m ++ l := by
  induction l with
  | nil => intro m _; simp
  | cons e l ih =>
    intro m h
    have hlast : AMap.set m e.1 e.2 = m ++ [e] := by
      have h1 : ∀ a ∈ m, a.1 < e.1 := by
        intro a ha
        have := (List.pairwise_append.mp h).2.2 a ha e (by simp)
        exact this
      have h2 : AMap.erase m e.1 = m := by
        unfold AMap.erase
        rw [List.filter_eq_self]
        intro a ha
        simpa using (h1 a ha).ne
      unfold AMap.set
      rw [h2]
      clear h h2 ih
      induction m with
      | nil => rfl
      | cons a m ihm =>
        have : ¬ e.1 < a.1 := not_lt.mpr (h1 a (by simp)).le
        simp [AMap.insertNew, this, ihm fun b hb => h1 b (by simp [hb])]
    simp only [List.foldl_cons, hlast]
    rw [ih]
    · simp
    · simpa using h

theorem insertAll_sorted {κ α : Type} [LinearOrder κ] {m : AMap κ α} (h : AMap.Sorted m) : insertAll m = m := by
  have := foldl_set_sorted m [] (by simpa using h)
  simpa [insertAll] using this

theorem insertLayers_sorted {m : AMap Bytes L} (h : AMap.Sorted m) : insertLayers m = m := insertAll_sorted h

theorem faithful_patch (p : PlanePatch F64) : Faithful getPatch (putPatch p) p :=
  Faithful.bind (faithful_plane _) <| Faithful.last (faithful_p3 _) rfl

theorem faithful_layer {x : Ext Pose Pdf L Y} (hx : ExtOk x) (e : Bytes × L) (h : e.1.length < 2 ^ 32) :
    Faithful (getLayer x) (putLayer x e) e :=
  Faithful.bind (faithful_str h) <| Faithful.last (hx.layer _) rfl

theorem faithful_geoBody {pc : Codec Pdf} (hc : CodecOk pc) (g : Georef Pdf) :
    Faithful (getGeoBody pc) (putGeoBody pc g) g := by
  simp only [getGeoBody, putGeoBody, List.append_assoc]
  exact Faithful.bind (faithful_f _) <| Faithful.bind (faithful_f _) <| Faithful.bind (faithful_f _) <|
    Faithful.last (hc _) rfl

/-- The stand-alone georeferencing reader: a present value is read back; an absent one leaves `prev`. -/
theorem faithful_georef {pc : Codec Pdf} (hc : CodecOk pc) (g prev : Option (Georef Pdf)) :
    Faithful (readGeoref pc prev) (writeGeoref pc g) (match g with | none => prev | some g => some g) := by
  simp only [readGeoref, writeGeoref, List.append_assoc]
  refine Faithful.bind (faithful_str (by decide)) <| Faithful.assertBind rfl <|
    Faithful.bind (faithful_u8 (by decide)) ?_
  simp only [if_true]
  cases g with
  | none => exact Faithful.last (faithful_bool false) rfl
  | some g =>
    exact Faithful.bind (faithful_bool true) (Faithful.last (f := fun g => Rd.pure (some g)) (faithful_geoBody hc g) rfl)

theorem faithful_meta {x : Ext Pose Pdf L Y} (hx : ExtOk x) (y : Y) :
    Faithful (readMeta x 5) (putMetadata x y) (if x.yamlEmpty y then x.yamlCleared else y) := by
  simp only [readMeta, putMetadata, le_refl, if_true]
  cases hy : x.yamlEmpty y with
  | true =>
    simp only [if_true]
    exact Faithful.last (faithful_bool false) rfl
  | false =>
    simp only [Bool.false_eq_true, if_false]
    refine Faithful.bind (faithful_bool true) ?_
    simp only [if_true]
    refine Faithful.last (faithful_str (hx.yamlLen y)) ?_
    funext s
    simp [parseMeta, hx.yaml y hy, Rd.pure]

theorem faithful_idLabel {m : MapRec Pdf L Y} (h : MapFit m) {v : Nat} (hv : 1 ≤ v) :
    Faithful (readIdLabel v) (mapIds m) (m.id, m.label) := by
  simp only [readIdLabel, mapIds, hv, if_true]
  refine Faithful.bind (faithful_opt (by decide) fun i hi => faithful_u64 (h.id i hi)) ?_
  exact Faithful.last (faithful_opt (by decide) fun l hl => faithful_str (h.label l hl)) rfl

/-- All versions: core, then what the version has of ids, georeferencing and metadata. -/
theorem faithful_map_gen {x : Ext Pose Pdf L Y} (hx : ExtOk x) {m : MapRec Pdf L Y} (h : MapFit m) {v : Nat}
    (hv : v ≤ 5) {w1 w2 w3 : Bytes} {il : Option Nat × Option Bytes} {g : Option (Georef Pdf)} {md : Y}
    (h1 : Faithful (readIdLabel v) w1 il) (h2 : Faithful (readGeo x v) w2 g) (h3 : Faithful (readMeta x v) w3 md) :
    Faithful (readMap x v) (mapCore x m ++ w1 ++ w2 ++ w3)
      { m with id := il.1, label := il.2, georef := g, metadata := md } := by
  simp only [readMap, mapCore, hv, if_true, List.append_assoc]
  refine Faithful.bind (faithful_vec (by decide) h.n_lines fun l _ => faithful_line l) ?_
  refine Faithful.bind (faithful_u32 h.n_planes) <| Faithful.bind (faithful_many _ fun p _ => faithful_patch p) ?_
  refine Faithful.bind (faithful_u32 h.n_lines) <| Faithful.bind (faithful_many _ fun p _ => faithful_line p) ?_
  refine Faithful.bind (faithful_u32 h.n_layers) <|
    Faithful.bind (faithful_many _ fun e he => faithful_layer hx e (h.names e he)) ?_
  refine Faithful.bind h1 <| Faithful.bind h2 <| Faithful.last h3 ?_
  simp [insertLayers_sorted h.sorted]

theorem faithful_geo_new {x : Ext Pose Pdf L Y} (hx : ExtOk x) (g : Option (Georef Pdf)) {v : Nat} (hv : 4 ≤ v) :
    Faithful (readGeo x v) (writeGeoref x.pdf g) g := by
  have h1 : ¬ (2 ≤ v ∧ v < 4) := by omega
  simp only [readGeo, h1, if_false]
  refine Faithful.bind (w := []) (Faithful.pure none) ?_
  simp only [hv, if_true]
  have := faithful_georef hx.pdf g none
  cases g <;> exact this

theorem faithful_geo_v3 {x : Ext Pose Pdf L Y} (hx : ExtOk x) (g : Option (Georef Pdf)) :
    Faithful (readGeo x 3) (geoV3 x g) g := by
  simp only [readGeo, show (2 ≤ 3 ∧ 3 < 4) by decide, show ¬ 4 ≤ 3 by decide, if_true, if_false, and_self]
  have : Faithful (readOldGeo x 3) (geoV3 x g) g := by
    cases g with
    | none => exact Faithful.last (faithful_bool false) rfl
    | some g =>
      simp only [geoV3, readOldGeo, List.append_assoc]
      refine Faithful.bind (faithful_bool true) ?_
      simp only [if_true]
      exact Faithful.bind (faithful_f _) <| Faithful.bind (faithful_f _) <| Faithful.bind (faithful_f _) <|
        Faithful.last (hx.pdf _) rfl
  exact Faithful.last this rfl

theorem faithful_geo_v2 {x : Ext Pose Pdf L Y} (hx : ExtOk x) (g : Option (F64 × F64 × F64 × Pose)) :
    Faithful (readGeo x 2) (geoV2 x g) (g.map fun q => ⟨q.1, q.2.1, q.2.2.1, x.pdfOfMean q.2.2.2⟩) := by
  simp only [readGeo, show (2 ≤ 2 ∧ 2 < 4) by decide, show ¬ 4 ≤ 2 by decide, if_true, if_false, and_self]
  refine Faithful.last (f := fun g => Rd.pure g) ?_ rfl
  cases g with
  | none => exact Faithful.last (faithful_bool false) rfl
  | some g =>
    obtain ⟨la, lo, hh, p⟩ := g
    simp only [geoV2, readOldGeo, List.append_assoc]
    refine Faithful.bind (faithful_bool true) ?_
    simp only [if_true]
    refine Faithful.bind (faithful_f _) <| Faithful.bind (faithful_f _) <| Faithful.bind (faithful_f _) ?_
    refine Faithful.last (x := x.pdfOfMean p) ?_ rfl
    exact Faithful.last (f := fun p => Rd.pure (x.pdfOfMean p)) (hx.pose p) rfl

theorem faithful_map_cur {x : Ext Pose Pdf L Y} (hx : ExtOk x) {m : MapRec Pdf L Y} (h : MapFit m) :
    Faithful (readMap x 5) (writeMap x m)
      { m with metadata := if x.yamlEmpty m.metadata then x.yamlCleared else m.metadata } := by
  have := faithful_map_gen hx h (v := 5) (by decide) (faithful_idLabel h (by decide))
    (faithful_geo_new hx m.georef (by decide)) (faithful_meta hx m.metadata)
  simpa [writeMap, mapCore, mapIds, List.append_assoc] using this

/-! log records -/
theorem faithful_mapPtr {x : Ext Pose Pdf L Y} (hx : ExtOk x) {o : Option (MapRec Pdf L Y)}
    (h : ∀ m, o = some m → MapFit m) :
    Faithful (getMapPtr x) (putMapPtr x o)
      (o.map fun m => { m with metadata := if x.yamlEmpty m.metadata then x.yamlCleared else m.metadata }) := by
  cases o with
  | none => exact Faithful.last (faithful_bool false) rfl
  | some m =>
    simp only [putMapPtr, getMapPtr]
    refine Faithful.bind (faithful_bool true) ?_
    exact Faithful.last (f := fun m => Rd.pure (some m))
      (faithful_obj (by decide) (by decide) (faithful_map_cur hx (h m rfl))) rfl

theorem faithful_tpose (p : TPose) : Faithful getTPose (putTPose p) p := by
  simp only [getTPose, putTPose, List.append_assoc]
  exact Faithful.bind (faithful_f _) <| Faithful.bind (faithful_f _) <| Faithful.bind (faithful_f _) <|
    Faithful.bind (faithful_f _) <| Faithful.bind (faithful_f _) <| Faithful.last (faithful_f _) rfl

theorem faithful_iterInfo {pc : Codec Pose} (hc : CodecOk pc) (i : IterInfo Pose) (h : PairingsFit i.pairings) :
    Faithful (getIterInfo pc) (putIterInfo pc i) i := by
  simp only [getIterInfo, putIterInfo, List.append_assoc]
  exact Faithful.bind (faithful_u8 (by decide)) <| Faithful.assertBind rfl <| Faithful.bind (hc _) <|
    Faithful.last (faithful_pairings h _) rfl

theorem faithful_iterMap {pc : Codec Pose} (hc : CodecOk pc) (m : AMap Nat (IterInfo Pose)) (hs : AMap.Sorted m)
    (hl : m.length < 2 ^ 32) (h : ∀ e ∈ m, e.1 < 2 ^ 64 ∧ PairingsFit e.2.pairings) :
    Faithful (getIterMap pc) (putIterMap pc m) m := by
  refine Faithful.last (x := (m : List _)) (faithful_map (by decide) (by decide) hl fun e he =>
    ⟨faithful_u64 (h e he).1, faithful_iterInfo hc _ (h e he).2⟩) ?_
  simp [insertAll_sorted hs]

theorem faithful_vars (m : AMap Bytes F64) (hs : AMap.Sorted m)
    (hl : m.length < 2 ^ 32) (h : ∀ e ∈ m, e.1.length < 2 ^ 32) :
    Faithful getVars (putVars m) m := by
  refine Faithful.last (x := (m : List _)) (faithful_map (by decide) (by decide) hl fun e he =>
    ⟨faithful_str (h e he), faithful_f _⟩) ?_
  simp [insertAll_sorted hs]

/-- what a map becomes by writing and reading it: empty metadata comes back as a cleared node -/
def normMeta (x : Ext Pose Pdf L Y) (m : MapRec Pdf L Y) : MapRec Pdf L Y :=
  { m with metadata := if x.yamlEmpty m.metadata then x.yamlCleared else m.metadata }

theorem faithful_log {x : Ext Pose Pdf L Y} (hx : ExtOk x) {r : LogRec Pose Pdf L Y} (h : LogFit r) (env : Bool)
    (fresh : Res Pdf) :
    Faithful (readLog x env fresh 1) (writeLog x r)
      { r with
        pcGlobal := r.pcGlobal.map (normMeta x)
        pcLocal := r.pcLocal.map (normMeta x)
        icpParameters := { r.icpParameters with
          generateDebugFiles := r.icpParameters.generateDebugFiles || env
          qualityCheckpoints := Params.default.qualityCheckpoints } } := by
  simp only [readLog, writeLog, le_refl, if_true, List.append_assoc]
  refine Faithful.bind (faithful_mapPtr hx h.global) <| Faithful.bind (faithful_mapPtr hx h.local) <|
    Faithful.bind (faithful_tpose _) ?_
  refine Faithful.bind (faithful_obj (by decide) (by decide) (faithful_params h.params env)) ?_
  refine Faithful.bind (faithful_res hx.pdf h.result fresh) ?_
  refine Faithful.bind (faithful_opt (by decide) fun m hm =>
    faithful_iterMap hx.pose m (h.details m hm).1 (h.details m hm).2.1 (h.details m hm).2.2) ?_
  exact Faithful.last (show Faithful (readDynVars 1) _ _ from
    faithful_vars _ h.vars.1 h.vars.2.1 h.vars.2.2) rfl

end Serial
end Verif
