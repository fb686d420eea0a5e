import Verif.Spec.MapFile
import Verif.Props.Serial
import Verif.Lemmas.AMap
/-
C81, C82: tools that read and write map files.
-/
namespace Verif
namespace Props
open MapFile Spec Wire Serial
variable {Pose Pdf L Y : Type}

theorem mapBytes_faithful (e : Env Pose Pdf L Y) (hx : ExtOk e.toExt) (m : MapRec Pdf L Y) (h : MapFit m)
    (hm : e.yamlEmpty m.metadata = false) : Faithful (getObj clsMap (readMap e.toExt)) (mapBytes e m) m :=
  faithful_obj (by decide) (by decide) (map_roundtrip_exact e.toExt hx m h hm)

/-- A saved map loads as it was saved. -/
theorem load_saved (e : Env Pose Pdf L Y) (hx : ExtOk e.toExt) (fs : Fs) (path : String) (m : MapRec Pdf L Y)
    (h : Holds e fs path m) : loadMap e fs path = .ok (some m) := by
  obtain ⟨h1, h2, h3⟩ := h
  have := (mapBytes_faithful e hx m h1 h2).1 []
  rw [List.append_nil] at this
  simp [loadMap, h3, this]

/-- A file cut short is not loaded as some other map: it is refused. -/
theorem load_cut (e : Env Pose Pdf L Y) (hx : ExtOk e.toExt) (fs : Fs) (path : String) (m : MapRec Pdf L Y) (h : MapFit m)
    (hm : e.yamlEmpty m.metadata = false) (cut : Bytes) (hc : cut <+: mapBytes e m) (hne : cut ≠ mapBytes e m)
    (hf : fs.get path = some cut) : loadMap e fs path = .throw := by
  have := (mapBytes_faithful e hx m h hm).2 cut hc hne
  simp [loadMap, hf, this]

theorem loadUnchecked_saved (e : Env Pose Pdf L Y) (hx : ExtOk e.toExt) (fs : Fs) (path : String) (m : MapRec Pdf L Y)
    (h : Holds e fs path m) : loadUnchecked e fs path = .ok m := by
  simp [loadUnchecked, load_saved e hx fs path m h]

theorem isEmpty_false {m : MapRec Pdf L Y} (h : Filled m) : isEmpty m = false := by
  unfold isEmpty
  rcases h with h | h | h <;> simp [h]

theorem mapFit_georef {m : MapRec Pdf L Y} (h : MapFit m) (g : Option (Georef Pdf)) : MapFit { m with georef := g } :=
  ⟨h.1, h.2, h.3, h.4, h.5, h.6, h.7⟩

/-- Extraction writes the georeference of the map to the file named, and nothing else; empty maps are refused. -/
theorem georef_extract (e : Env Pose Pdf L Y) (hx : ExtOk e.toExt) (gy : GeoYaml Pdf) (inj : Bool) (fs : Fs) (mapPath geoPath : String)
    (m : MapRec Pdf L Y) (h : Holds e fs mapPath m) :
    (Filled m → e.canWrite geoPath = true → georefTool e gy true inj fs mapPath geoPath =
      ⟨[(geoPath, if e.extension geoPath = "georef" then writeGeoref e.pdf m.georef else gy.print m.georef)], .ok ()⟩) ∧
    (¬ Filled m ∨ e.canWrite geoPath = false → georefTool e gy true inj fs mapPath geoPath = ⟨[], .throw⟩) := by
  simp only [georefTool, extract, loadUnchecked_saved e hx fs mapPath m h, thenRun, if_true]
  constructor
  · intro hf hw
    simp only [isEmpty_false hf, isBinary, beq_iff_eq, writeFile, hw, if_true]
    by_cases hb : e.extension geoPath = "georef" <;> simp [hb]
  · rintro (hf | hw)
    · have : isEmpty m = true := by
        simp only [Filled, not_or, not_not] at hf
        simp [isEmpty, hf.1, hf.2.1, hf.2.2]
      simp [this]
    · by_cases hem : isEmpty m = true
      · simp [hem]
      · by_cases hb : isBinary e geoPath = true
        · simp [hem, hb, writeFile, hw]
        · simp [hem, hb, hw]

/-- Injection replaces the georeference of the map by that of the file (removes it, if the file says that there is none) and leaves all
the rest of the map as it was; no other file is written.
Part of C81: empty metadata comes back cleared; a failed save is not reported (`georef_inject_unreported`). -/
theorem georef_inject_partial (e : Env Pose Pdf L Y) (hx : ExtOk e.toExt) (hpdf : CodecOk e.pdf) (gy : GeoYaml Pdf) (fs : Fs)
    (mapPath geoPath : String) (m : MapRec Pdf L Y) (h : Holds e fs mapPath m) (hw : e.canWrite mapPath = true)
    (g : Option (Georef Pdf))
    (hg : (e.extension geoPath = "georef" ∧ fs.get geoPath = some (writeGeoref e.pdf g)) ∨
      (e.extension geoPath ≠ "georef" ∧ ∃ b, fs.get geoPath = some b ∧ gy.parse b = .ok g)) :
    let r := georefTool e gy false true fs mapPath geoPath
    r.exit = .ok () ∧ Holds e (after fs r) mapPath { m with georef := g } ∧
      ∀ p, p ≠ mapPath → (after fs r).get p = fs.get p := by
  have hr : readGeoFile e gy fs geoPath = .ok g := by
    rcases hg with ⟨h1, h2⟩ | ⟨h1, b, h2, h3⟩
    · have := (georef_roundtrip_present e.pdf hpdf g none (by cases g <;> simp)) []
      rw [List.append_nil] at this
      simp [readGeoFile, h2, isBinary, h1, this]
    · simp [readGeoFile, h2, isBinary, h1, h3]
  have : georefTool e gy false true fs mapPath geoPath = ⟨[(mapPath, mapBytes e { m with georef := g })], .ok ()⟩ := by
    simp [georefTool, inject, hr, thenRun, loadUnchecked_saved e hx fs mapPath m h, writeFile, hw]
  rw [this]
  refine ⟨rfl, ⟨mapFit_georef h.1 g, h.2.1, ?_⟩, fun p hp => ?_⟩
  · simp [after]
  · simp [after, hp]

/-- Extraction from one map followed by injection into another one: the second has the georeference of the first, and else what it
had.  (Same map: it is as before.) -/
theorem georef_transfer (e : Env Pose Pdf L Y) (hx : ExtOk e.toExt) (hpdf : CodecOk e.pdf) (gy : GeoYaml Pdf) (fs : Fs)
    (pathA pathB geoPath : String) (a b : MapRec Pdf L Y) (ha : Holds e fs pathA a) (hb : Holds e fs pathB b) (hf : Filled a)
    (hw : e.canWrite geoPath = true ∧ e.canWrite pathB = true) (hext : e.extension geoPath = "georef")
    (hne : geoPath ≠ pathA ∧ geoPath ≠ pathB) :
    let fs1 := after fs (georefTool e gy true false fs pathA geoPath)
    let r2 := georefTool e gy false true fs1 pathB geoPath
    r2.exit = .ok () ∧ Holds e (after fs1 r2) pathB { b with georef := a.georef } ∧
      ∀ p, p ≠ pathB → p ≠ geoPath → (after fs1 r2).get p = fs.get p := by
  have h1 := (georef_extract e hx gy false fs pathA geoPath a ha).1 hf hw.1
  rw [if_pos hext] at h1
  simp only [h1]
  have hb' : Holds e (after fs ⟨[(geoPath, writeGeoref e.pdf a.georef)], .ok ()⟩) pathB b :=
    ⟨hb.1, hb.2.1, by simp [after, hne.2.symm, hb.2.2]⟩
  obtain ⟨h2, h3, h4⟩ := georef_inject_partial e hx hpdf gy _ pathB geoPath b hb' hw.2 a.georef
    (Or.inl ⟨hext, by simp [after]⟩)
  refine ⟨h2, h3, fun p hp hp' => ?_⟩
  rw [h4 p hp]
  simp [after, hp']

/-- If the tool ends with an error, no file has been touched; there is no undefined behaviour if the georeference, the map and the YAML
parser have none. -/
theorem georef_error_writes_nothing (e : Env Pose Pdf L Y) (gy : GeoYaml Pdf) (a b : Bool) (fs : Fs) (mapPath geoPath : String)
    (h : (georefTool e gy a b fs mapPath geoPath).exit ≠ .ok ()) :
    after fs (georefTool e gy a b fs mapPath geoPath) = fs := by
  have hw : ∀ path by' o, (writeFile e path by' o).exit ≠ .ok () → (writeFile e path by' o).writes = [] := by
    intro path by' o
    unfold writeFile
    split <;> simp
  have ht : ∀ {α : Type} (o : Outcome α) (f : α → Run), (∀ a, (f a).exit ≠ .ok () → (f a).writes = []) →
      (thenRun o f).exit ≠ .ok () → (thenRun o f).writes = [] := by
    intro α o f hf
    cases o with
    | ok a => exact hf a
    | throw => simp [thenRun]
    | ub => simp [thenRun]
  have : (georefTool e gy a b fs mapPath geoPath).writes = [] := by
    revert h
    unfold georefTool
    split
    · refine ht _ _ fun m => ?_
      split
      · simp
      · split
        · exact hw _ _ _
        · split <;> simp
    · split
      · exact ht _ _ fun g => ht _ _ fun m => hw _ _ _
      · simp
  simp [after, this]

/-- Neither flag: refused.  Both: only the extraction is done. -/
theorem georef_flags (e : Env Pose Pdf L Y) (gy : GeoYaml Pdf) (fs : Fs) (mapPath geoPath : String) :
    georefTool e gy false false fs mapPath geoPath = ⟨[], .throw⟩ ∧
    georefTool e gy true true fs mapPath geoPath = georefTool e gy true false fs mapPath geoPath := ⟨rfl, rfl⟩

/-- Power failure at any moment of an injection: the map is the old one, the new one, or refused by the loader; it is never read as a
third map, and no other file is affected. -/
theorem georef_inject_crash (e : Env Pose Pdf L Y) (hx : ExtOk e.toExt) (hpdf : CodecOk e.pdf) (gy : GeoYaml Pdf) (fs fs' : Fs)
    (mapPath geoPath : String) (m : MapRec Pdf L Y) (h : Holds e fs mapPath m) (hw : e.canWrite mapPath = true)
    (g : Option (Georef Pdf)) (hext : e.extension geoPath = "georef") (hg : fs.get geoPath = some (writeGeoref e.pdf g))
    (hc : Crash fs (georefTool e gy false true fs mapPath geoPath) fs') :
    (loadMap e fs' mapPath = .ok (some m) ∨ loadMap e fs' mapPath = .ok (some { m with georef := g }) ∨
      loadMap e fs' mapPath = .throw) ∧ ∀ p, p ≠ mapPath → fs'.get p = fs.get p := by
  have hr : readGeoFile e gy fs geoPath = .ok g := by
    have := (georef_roundtrip_present e.pdf hpdf g none (by cases g <;> simp)) []
    rw [List.append_nil] at this
    simp [readGeoFile, hg, isBinary, hext, this]
  have hrun : georefTool e gy false true fs mapPath geoPath = ⟨[(mapPath, mapBytes e { m with georef := g })], .ok ()⟩ := by
    simp [georefTool, inject, hr, thenRun, loadUnchecked_saved e hx fs mapPath m h, writeFile, hw]
  rw [hrun] at hc
  have hnew : ∀ fs1 : Fs, loadMap e (AMap.set fs1 mapPath (mapBytes e { m with georef := g })) mapPath =
      .ok (some { m with georef := g }) := fun fs1 =>
    load_saved e hx _ mapPath _ ⟨mapFit_georef h.1 g, h.2.1, by simp⟩
  obtain ⟨done, rest, h1, h2⟩ := hc
  rcases done with _ | ⟨w, done⟩
  · rcases h2 with rfl | ⟨w, ws, cut, h3, h4, rfl⟩
    · exact ⟨Or.inl (load_saved e hx _ mapPath m h), fun _ _ => rfl⟩
    · have h5 : [(mapPath, mapBytes e { m with georef := g })] = w :: ws := by rw [← h3]; exact h1
      simp only [List.cons.injEq] at h5
      obtain ⟨rfl, -⟩ := h5
      refine ⟨?_, fun p hp => by simp [hp]⟩
      by_cases hcut : cut = mapBytes e { m with georef := g }
      · right; left; rw [hcut]; exact hnew _
      · right; right
        exact load_cut e hx _ mapPath { m with georef := g } (mapFit_georef h.1 g) h.2.1 cut h4 hcut (by simp)
  · simp only [List.cons_append, List.cons.injEq] at h1
    obtain ⟨rfl, h3⟩ := h1
    obtain ⟨hd, hr'⟩ := List.append_eq_nil_iff.1 h3.symm
    subst hd hr'
    rcases h2 with rfl | ⟨w, ws, cut, h4, -⟩
    · exact ⟨Or.inr (Or.inl (hnew _)), fun p hp => by simp [hp]⟩
    · simp at h4

/-- A map that cannot be written is not reported (unless MRPT throws): the tool ends well and nothing has been done. -/
theorem georef_inject_unreported (e : Env Pose Pdf L Y) (hx : ExtOk e.toExt) (gy : GeoYaml Pdf) (fs : Fs) (mapPath geoPath : String)
    (m : MapRec Pdf L Y) (h : Holds e fs mapPath m) (hw : e.canWrite mapPath = false) (ho : e.outThrows = false)
    (g : Option (Georef Pdf)) (hg : readGeoFile e gy fs geoPath = .ok g) :
    georefTool e gy false true fs mapPath geoPath = ⟨[], .ok ()⟩ := by
  simp [georefTool, inject, hg, thenRun, loadUnchecked_saved e hx fs mapPath m h, writeFile, hw, ho]

/-- A map file that does not exist is created, with nothing in it but the georeference (unless MRPT throws). -/
theorem georef_inject_creates (e : Env Pose Pdf L Y) (gy : GeoYaml Pdf) (fs : Fs) (mapPath geoPath : String)
    (h : fs.get mapPath = none) (hi : e.inThrows = false) (hw : e.canWrite mapPath = true) (g : Option (Georef Pdf))
    (hg : readGeoFile e gy fs geoPath = .ok g) :
    georefTool e gy false true fs mapPath geoPath = ⟨[(mapPath, mapBytes e { e.fresh with georef := g })], .ok ()⟩ := by
  simp [georefTool, inject, hg, thenRun, loadUnchecked, loadMap, h, hi, writeFile, hw]

/-! ### mm-filter -/

theorem splitOn_no_sep (d : Byte) (a : Bytes) (h : d ∉ a) : a.splitOn d = [a] := by
  have := List.splitOn_intercalate (ls := [a]) d (by simpa using h) (by simp)
  simpa [List.intercalate] using this

theorem tokenize_two (d : Byte) (a b : Bytes) (ha : d ∉ a) (hb : d ∉ b) (hane : a ≠ []) (hbne : b ≠ []) :
    tokenize d (a ++ d :: b) = [a, b] := by
  have := List.splitOn_intercalate (ls := [a, b]) d (by
    intro l hl
    simp only [List.mem_cons, List.not_mem_nil, or_false] at hl
    rcases hl with rfl | rfl <;> assumption) (by simp)
  have h1 : (a ++ d :: b).splitOn d = [a, b] := by
    rw [← this]; simp [List.intercalate, List.intersperse]
  unfold tokenize
  rw [h1]
  cases a with
  | nil => exact absurd rfl hane
  | cons _ _ => cases b with
    | nil => exact absurd rfl hbne
    | cons _ _ => rfl

/-- Renaming: the layer is found under its new name and no more under the old one; every other layer, and everything else of the map,
is as it was. -/
theorem mm_rename (e : Env Pose Pdf L Y) (hx : ExtOk e.toExt) (fs : Fs) (input output : String) (m : MapRec Pdf L Y)
    (h : Holds e fs input m) (hw : e.canWrite output = true) (old new : Bytes) (l : L) (hold : m.layers.get old = some l)
    (hnew : m.layers.get new = none) (hb : bar ∉ old ∧ bar ∉ new) (hne : old ≠ [] ∧ new ≠ []) :
    ∃ m', mmFilter e none (some (old ++ bar :: new)) fs input output = ⟨[(output, mapBytes e m')], .ok ()⟩ ∧
      (∀ n, m'.layers.get n = if n = new then some l else if n = old then none else m.layers.get n) ∧
      m' = { m with layers := m'.layers } := by
  have hf : Filled m := by
    left; intro h0; rw [h0] at hold; simp [AMap.get] at hold
  have hon : old ≠ new := by rintro rfl; rw [hold] at hnew; cases hnew
  refine ⟨{ m with layers := (m.layers.set new l).erase old }, ?_, ?_, rfl⟩
  · simp [mmFilter, loadUnchecked_saved e hx fs input m h, thenRun, isEmpty_false hf, rename,
      tokenize_two bar old new hb.1 hb.2 hne.1 hne.2, hold, hnew, writeFile, hw]
  · intro n
    simp only [AMap.get_erase, AMap.get_set]
    by_cases h1 : n = new
    · subst h1; simp [Ne.symm hon]
    · by_cases h2 : n = old
      · subst h2; simp [h1]
      · simp [h1, h2]

/-- Refused, and nothing is written: no such layer, a layer of the new name, an argument that is not two names, a map without anything
in it, a file that does not exist. -/
theorem mm_rename_refused (e : Env Pose Pdf L Y) (hx : ExtOk e.toExt) (fs : Fs) (input output : String) (m : MapRec Pdf L Y)
    (h : Holds e fs input m) (s : Bytes)
    (hbad : ¬ Filled m ∨ (∀ a b, tokenize bar s = [a, b] → m.layers.get a = none ∨ m.layers.get b ≠ none)) :
    mmFilter e none (some s) fs input output = ⟨[], .throw⟩ := by
  simp only [mmFilter, loadUnchecked_saved e hx fs input m h, thenRun]
  split
  · rfl
  · rename_i hem
    have hr : rename s m = .throw := by
      rcases hbad with hbad | hbad
      · exfalso; apply hem
        simp only [Filled, not_or, not_not] at hbad
        simp [isEmpty, hbad.1, hbad.2.1, hbad.2.2]
      · unfold rename
        split
        · rename_i a b ht
          rcases hbad a b ht with h1 | h1
          · rw [h1]
          · cases hb : AMap.get m.layers b with
            | none => exact absurd hb h1
            | some _ => cases AMap.get m.layers a <;> rfl
        · rfl
    rw [hr]

/-- With a pipeline, the file written is the map after all its filters in order; a filter that fails, or a pipeline that cannot be
read, leaves no file. -/
theorem mm_filter_result (e : Env Pose Pdf L Y) (hx : ExtOk e.toExt) (fs : Fs) (input output : String) (m : MapRec Pdf L Y)
    (h : Holds e fs input m) (hf : Filled m) (fl : Pipe Pdf L Y) (ren : Option Bytes) :
    (∀ m', applyFilters fl m = (m', false) → e.canWrite output = true →
      mmFilter e (some (.ok fl)) ren fs input output = ⟨[(output, mapBytes e m')], .ok ()⟩) ∧
    ((applyFilters fl m).2 = true ∨ e.canWrite output = false →
      mmFilter e (some (.ok fl)) ren fs input output = ⟨[], .throw⟩) ∧
    mmFilter e (some .throw) ren fs input output = ⟨[], .throw⟩ := by
  simp only [mmFilter, loadUnchecked_saved e hx fs input m h, thenRun, isEmpty_false hf]
  refine ⟨fun m' h1 hw => ?_, ?_, ?_⟩
  · simp [h1, writeFile, hw]
  · rintro (h1 | hw)
    · simp [h1]
    · simp [writeFile, hw]
  · simp

/-- The map written can be read back, and the input is not touched (if it is not the output). -/
theorem mm_filter_files (e : Env Pose Pdf L Y) (hx : ExtOk e.toExt) (fs : Fs) (input output : String) (m m' : MapRec Pdf L Y)
    (h : Holds e fs input m) (hf : Filled m) (fl : Pipe Pdf L Y) (ren : Option Bytes) (hm : applyFilters fl m = (m', false))
    (hw : e.canWrite output = true) (hfit : MapFit m') (hmeta : e.yamlEmpty m'.metadata = false) :
    let fs' := after fs (mmFilter e (some (.ok fl)) ren fs input output)
    loadMap e fs' output = .ok (some m') ∧ ∀ p, p ≠ output → fs'.get p = fs.get p := by
  rw [(mm_filter_result e hx fs input output m h hf fl ren).1 m' hm hw]
  refine ⟨load_saved e hx _ output m' ⟨hfit, hmeta, by simp [after]⟩, fun p hp => by simp [after, hp]⟩

/-- Given both a pipeline and a renaming, the second is silently ignored; given neither, the tool refuses. -/
theorem mm_filter_arguments (e : Env Pose Pdf L Y) (fs : Fs) (input output : String) (p : Outcome (Pipe Pdf L Y)) (s : Bytes) :
    mmFilter e (some p) (some s) fs input output = mmFilter e (some p) none fs input output ∧
    mmFilter e none none fs input output = ⟨[], .throw⟩ := ⟨rfl, rfl⟩

/-! ### mm2txt -/

theorem txtWriteLoop_eq (e : Env Pose Pdf L Y) (txt : L → Option Bytes) (m : MapRec Pdf L Y) (base : String) (name : Bytes → String)
    (ns : List Bytes) (done : List (String × Bytes)) :
    (∀ t : Bytes → Bytes, (∀ n ∈ ns, ∃ l, m.layers.get n = some l ∧ txt l = some (t n)) →
      txtLoop e txt m base name ns done =
        ⟨done ++ (ns.map (fun n => (base ++ "_" ++ name n ++ ".txt", t n))).filter fun p => e.canWrite p.1, .ok ()⟩) := by
  intro t
  induction ns generalizing done with
  | nil => intro _; simp [txtLoop]
  | cons n ns ih =>
    intro h
    obtain ⟨l, h1, h2⟩ := h n (List.mem_cons_self ..)
    simp only [txtLoop, h1, h2]
    rw [ih _ fun n hn => h n (List.mem_cons_of_mem _ hn)]
    cases hc : e.canWrite (base ++ "_" ++ name n ++ ".txt") <;> simp [List.filter_cons, hc]

/-- Each layer asked for (all of them if none is) is written to the file of its own name.  Files that cannot be written are left out,
and the tool does not tell (see `mm2txt_unwritten_unreported`). -/
theorem mm2txt_result (e : Env Pose Pdf L Y) (hx : ExtOk e.toExt) (txt : L → Option Bytes) (name : Bytes → String) (fs : Fs)
    (input : String) (m : MapRec Pdf L Y) (h : Holds e fs input m) (sel : Option (List Bytes))
    (t : Bytes → Bytes)
    (ht : ∀ n, (∃ ns, sel = some ns ∧ n ∈ ns) ∨ (sel = none ∧ ∃ l, m.layers.get n = some l) →
      ∃ l, m.layers.get n = some l ∧ txt l = some (t n)) :
    mm2txt e txt name sel fs input =
      ⟨((match sel with | some ns => ns | none => List.map (Prod.fst : Bytes × L → Bytes) m.layers).map
        (fun n => (e.baseName input ++ "_" ++ name n ++ ".txt", t n))).filter fun p => e.canWrite p.1, .ok ()⟩ := by
  have h0 : fs.get input ≠ none := by rw [h.2.2]; simp
  simp only [mm2txt, h0, if_false, loadUnchecked_saved e hx fs input m h, thenRun]
  rw [txtWriteLoop_eq e txt m _ name _ [] t]
  · cases sel <;> simp
  · intro n hn
    cases sel with
    | some ns => exact ht n (Or.inl ⟨ns, rfl, by simpa using hn⟩)
    | none =>
      refine ht n (Or.inr ⟨rfl, ?_⟩)
      simp only [Option.getD_none, List.mem_map] at hn
      obtain ⟨a, ha, rfl⟩ := hn
      exact ⟨a.2, (AMap.mem_iff_get m.layers h.1.sorted a.1 a.2).1 ha⟩

theorem str_append_cancel_left {a b c : String} (h : a ++ b = a ++ c) : b = c := by
  have := congrArg String.toList h
  simp only [String.toList_append, List.append_cancel_left_eq] at this
  exact String.ext this

theorem str_append_cancel_right {a b c : String} (h : b ++ a = c ++ a) : b = c := by
  have := congrArg String.toList h
  simp only [String.toList_append, List.append_cancel_right_eq] at this
  exact String.ext this

/-- No two layers go to the same file. -/
theorem mm2txt_no_clash (base a b : String) (h : base ++ "_" ++ a ++ ".txt" = base ++ "_" ++ b ++ ".txt") : a = b :=
  str_append_cancel_left (str_append_cancel_right h)

/-- A layer that does not exist, or is no cloud of points: an error; the layers before it have been written, those after it not. -/
theorem mm2txt_bad_layer (e : Env Pose Pdf L Y) (hx : ExtOk e.toExt) (txt : L → Option Bytes) (name : Bytes → String) (fs : Fs)
    (input : String) (m : MapRec Pdf L Y) (h : Holds e fs input m) (ok rest : List Bytes)
    (bad : Bytes) (t : Bytes → Bytes) (hok : ∀ n ∈ ok, ∃ l, m.layers.get n = some l ∧ txt l = some (t n))
    (hbad : m.layers.get bad = none ∨ ∃ l, m.layers.get bad = some l ∧ txt l = none) :
    mm2txt e txt name (some (ok ++ bad :: rest)) fs input =
      ⟨(ok.map (fun n => (e.baseName input ++ "_" ++ name n ++ ".txt", t n))).filter fun p => e.canWrite p.1, .throw⟩ := by
  have h0 : fs.get input ≠ none := by rw [h.2.2]; simp
  simp only [mm2txt, h0, if_false, loadUnchecked_saved e hx fs input m h, thenRun, Option.getD_some]
  suffices H : ∀ done, txtLoop e txt m (e.baseName input) name (ok ++ bad :: rest) done =
      ⟨done ++ (ok.map (fun n => (e.baseName input ++ "_" ++ name n ++ ".txt", t n))).filter fun p => e.canWrite p.1, .throw⟩ by
    simpa using H []
  induction ok with
  | nil =>
    intro done
    rcases hbad with hb | ⟨l, hb, hl⟩
    · simp [txtLoop, hb]
    · simp [txtLoop, hb, hl]
  | cons n ns ih =>
    intro done
    obtain ⟨l, h1, h2⟩ := hok n (List.mem_cons_self ..)
    simp only [List.cons_append, txtLoop, h1, h2]
    rw [ih fun n hn => hok n (List.mem_cons_of_mem _ hn)]
    cases hc : e.canWrite (e.baseName input ++ "_" ++ name n ++ ".txt") <;> simp [List.filter_cons, hc]

/-- If no file can be written at all, the tool ends well all the same. -/
theorem mm2txt_unwritten_unreported (e : Env Pose Pdf L Y) (hx : ExtOk e.toExt) (txt : L → Option Bytes) (name : Bytes → String)
    (fs : Fs) (input : String) (m : MapRec Pdf L Y) (h : Holds e fs input m) (hw : ∀ p, e.canWrite p = false)
    (hl : ∀ n l, m.layers.get n = some l → ∃ b, txt l = some b) : mm2txt e txt name none fs input = ⟨[], .ok ()⟩ := by
  classical
  have ht : ∀ n, ∃ b, ∀ l, m.layers.get n = some l → txt l = some b := by
    intro n
    cases hg : m.layers.get n with
    | none => exact ⟨[], by simp⟩
    | some l => obtain ⟨b, hb⟩ := hl n l hg; exact ⟨b, by simpa using hb⟩
  choose t ht using ht
  rw [mm2txt_result e hx txt name fs input m h none t]
  · simp [hw]
  · rintro n (⟨ns, h1, -⟩ | ⟨-, l, h1⟩)
    · cases h1
    · exact ⟨l, h1, ht n l h1⟩

/-! ### kitti2mm -/

/-- The scan is in layer "raw" whatever the option `--layer` says.
Part of C82: the option for the layer name has no effect. -/
theorem kitti2mm_result_partial (e : Env Pose Pdf L Y) (l : L) (layer : Bytes) (id : Option Nat) (label : Option Bytes) (output : String)
    (hw : e.canWrite output = true) (hfresh : e.fresh.layers = [] ∧ e.fresh.id = none ∧ e.fresh.label = none) :
    kitti2mm e (some l) layer id label output =
      ⟨[(output, mapBytes e { e.fresh with layers := [(asc "raw", l)], id := id, label := label })], .ok ()⟩ := by
  obtain ⟨h1, h2, h3⟩ := hfresh
  rcases hf : e.fresh with ⟨la, li, pl, i, lb, g, md⟩
  rw [hf] at h1 h2 h3
  simp only at h1 h2 h3
  subst h1 h2 h3
  simp only [kitti2mm, hf, writeFile, hw, if_true]
  cases id <;> cases label <;> rfl

theorem kitti2mm_refuses (e : Env Pose Pdf L Y) (c : Option L) (layer : Bytes) (id : Option Nat) (label : Option Bytes)
    (output : String) (h : c = none ∨ e.canWrite output = false) : kitti2mm e c layer id label output = ⟨[], .throw⟩ := by
  cases c with
  | none => rfl
  | some l =>
    have h := h.resolve_left (by simp)
    simp [kitti2mm, writeFile, h]

/-! ### an example: two layers, a georeference -/

def exFileEnv : Env F64 F64 F64 (Option Byte) :=
  { exExt with
    canWrite := fun _ => true
    inThrows := false
    outThrows := false
    extension := fun p => if p = "g.georef" then "georef" else "mm"
    baseName := fun p => p
    fresh := ⟨[], [], [], none, none, none, none⟩ }

def exFileFs : Fs := [("a.mm", mapBytes exFileEnv exMap)]

example : Holds exFileEnv exFileFs "a.mm" exMap ∧ Filled exMap ∧ ExtOk exFileEnv.toExt :=
  ⟨⟨exMap_fit, rfl, rfl⟩, by simp [Filled, exMap], exExt_ok⟩
example : exMap.layers.get [1] = some 5 ∧ exMap.layers.get [3] = none ∧ bar ∉ ([1] : Bytes) := by decide

end Props
end Verif
