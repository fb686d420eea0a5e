import Verif.Spec.SmApp
import Verif.Props.Sm2mm
import Verif.Props.MapFile
/-
C92: the programs sm2mm and mm-info.
-/
namespace Verif.SmApp
open Sm MapFile Wire Serial Verif.Spec Verif.Props
variable {K B O Pose Pdf L Y M : Type}

theorem section_ok {α : Type} (s : Option (Outcome (List α))) (d l : List α) : section? s d = .ok l ↔ Holding s d l := by
  unfold section? Holding
  rcases s with _ | o <;> simp [eq_comm]

theorem thenRun_ok {α : Type} (o : Outcome α) (f : α → Run) (w : List (String × Bytes)) :
    thenRun o f = ⟨w, .ok ()⟩ ↔ ∃ x, o = .ok x ∧ f x = ⟨w, .ok ()⟩ := by
  unfold thenRun
  rcases o with _ | _ | _ <;> simp

theorem thenRun_quiet {α : Type} (o : Outcome α) (f : α → Run) (h : ∀ x, (f x).exit ≠ .ok () → (f x).writes = []) :
    (thenRun o f).exit ≠ .ok () → (thenRun o f).writes = [] := by
  unfold thenRun
  rcases o with x | _ | _
  · exact h x
  · simp
  · simp

theorem build_ok (dflt : SmGen K B O M) (oc : O → B → B) (em : M) (s : Sections K B O M) (env : SmEnv K B O M) :
    build dflt oc em s = .ok env ↔ Holding s.generators [dflt] env.gens ∧ Holding s.filters [] env.filters ∧ Holding s.finalFilters [] env.finals ∧
      env.onComment = oc ∧ env.empty = em := by
  unfold build
  simp only [Outcome.bind_eq_ok, section_ok]
  constructor
  · rintro ⟨g, h1, f, h2, l, h3, h⟩
    cases h; exact ⟨h1, h2, h3, rfl, rfl⟩
  · rintro ⟨h1, h2, h3, rfl, rfl⟩
    exact ⟨_, h1, _, h2, _, h3, rfl⟩

/-- C92: sm2mm exits with 0 exactly if the input holds keyframes, the pipeline could be loaded, the verbosity level exists, the map could be
built (see C57 for how) and the output written; the only file written is then the output, with that map.
Part of C92: plugins are ignored (`sm2mm_plugins_ignored`), some read errors too (`sm2mm_read_error_ignored`). -/
theorem sm2mm_program_partial [Zero K] (e : Env Pose Pdf L Y) (dflt : SmGen K B O (MapRec Pdf L Y)) (oc : O → B → B) (buf : B)
    (rd : SmReader K O) (a : SmArgs K B O (MapRec Pdf L Y)) (w : List (String × Bytes)) :
    sm2mmMain e dflt oc buf rd a = ⟨w, .ok ()⟩ ↔
      (rd a.input).2 ≠ [] ∧ a.verbosity ≠ some false ∧ e.canWrite a.output = true ∧
      ∃ gens filters finals m, Asked dflt a.pipeline gens filters finals ∧
        sm2mm { gens := gens, filters := filters, finals := finals, onComment := oc, empty := e.fresh } buf (rd a.input).2 a.fromIndex a.toIndex [] = .ok m ∧
        w = [(a.output, mapBytes e m)] := by
  have hwr : ∀ b, writeFile e a.output b .throw = ⟨w, .ok ()⟩ ↔ e.canWrite a.output = true ∧ w = [(a.output, b)] := by
    intro b
    unfold writeFile
    by_cases hc : e.canWrite a.output = true
    · simp [hc, eq_comm]
    · cases e.outThrows <;> simp [hc]
  unfold sm2mmMain
  by_cases h0 : (rd a.input).2 = []
  · simp [h0]
  · rw [if_neg h0]
    simp only [thenRun_ok]
    constructor
    · rintro ⟨s, h1, h2⟩
      by_cases hv : a.verbosity = some false
      · rw [if_pos hv] at h2; simp at h2
      · rw [if_neg hv] at h2
        simp only [thenRun_ok, hwr] at h2
        obtain ⟨env, h3, m, h4, h5, h6⟩ := h2
        obtain ⟨g1, g2, g3, g4, g5⟩ := (build_ok ..).1 h3
        refine ⟨h0, hv, h5, env.gens, env.filters, env.finals, m, ⟨s, ?_, g1, g2, g3⟩, ?_, h6⟩
        · rcases hp : a.pipeline with _ | p
          · rw [hp] at h1; simp at h1; exact Or.inl ⟨rfl, h1.symm⟩
          · rw [hp] at h1; simp at h1; exact Or.inr (by rw [h1])
        · rw [← h4, ← g4, ← g5]
    · rintro ⟨_, hv, h5, gens, filters, finals, m, ⟨s, hs, g1, g2, g3⟩, h4, h6⟩
      refine ⟨s, ?_, ?_⟩
      · rcases hs with ⟨hp, rfl⟩ | hp <;> simp [hp]
      · rw [if_neg hv]
        simp only [thenRun_ok, hwr]
        exact ⟨_, (build_ok ..).2 ⟨g1, g2, g3, rfl, rfl⟩, m, h4, h5, h6⟩

/-- C92: if the exit code is not 0, no file has been touched. -/
theorem sm2mm_failure_writes_nothing [Zero K] (e : Env Pose Pdf L Y) (dflt : SmGen K B O (MapRec Pdf L Y)) (oc : O → B → B) (buf : B)
    (rd : SmReader K O) (a : SmArgs K B O (MapRec Pdf L Y)) (fs : Fs) (h : (sm2mmMain e dflt oc buf rd a).exit ≠ .ok ()) :
    after fs (sm2mmMain e dflt oc buf rd a) = fs := by
  have : (sm2mmMain e dflt oc buf rd a).writes = [] := by
    revert h
    unfold sm2mmMain
    split
    · simp
    · refine thenRun_quiet _ _ fun s => ?_
      split
      · simp
      · refine thenRun_quiet _ _ fun env => thenRun_quiet _ _ fun m => ?_
        unfold writeFile
        split <;> simp
  simp [after, this]

/-- C92: what sm2mm wrote is what any later tool reads, and no other file has changed. -/
theorem sm2mm_then_load [Zero K] (e : Env Pose Pdf L Y) (hx : ExtOk e.toExt) (dflt : SmGen K B O (MapRec Pdf L Y)) (oc : O → B → B) (buf : B)
    (rd : SmReader K O) (a : SmArgs K B O (MapRec Pdf L Y)) (fs : Fs) (m : MapRec Pdf L Y) (gens filters finals)
    (h1 : (rd a.input).2 ≠ []) (h2 : a.verbosity ≠ some false) (h3 : e.canWrite a.output = true) (h4 : Asked dflt a.pipeline gens filters finals)
    (h5 : sm2mm { gens := gens, filters := filters, finals := finals, onComment := oc, empty := e.fresh } buf (rd a.input).2 a.fromIndex a.toIndex [] = .ok m)
    (hfit : MapFit m) (hm : e.yamlEmpty m.metadata = false) :
    let fs' := after fs (sm2mmMain e dflt oc buf rd a)
    loadMap e fs' a.output = .ok (some m) ∧ ∀ p, p ≠ a.output → fs'.get p = fs.get p := by
  rw [(sm2mm_program_partial e dflt oc buf rd a _).2 ⟨h1, h2, h3, gens, filters, finals, m, h4, h5, rfl⟩]
  refine ⟨load_saved e hx _ _ m ⟨hfit, hm, by simp [after]⟩, fun p hp => by simp [after, hp]⟩

/-- C92: without a pipeline file, or without the section, the default generator is the only one and there are no filters; an explicitly empty
list of generators fails at the first observation. -/
theorem sm2mm_default_pipeline (dflt : SmGen K B O M) (gens filters finals) :
    Asked dflt (none : Option (Outcome (Sections K B O M))) gens filters finals ↔ gens = [dflt] ∧ filters = [] ∧ finals = [] := by
  constructor
  · rintro ⟨s, ⟨-, rfl⟩ | h, g1, g2, g3⟩
    · simpa [Holding] using And.intro g1 (And.intro g2 g3)
    · cases h
  · rintro ⟨rfl, rfl, rfl⟩
    exact ⟨{}, Or.inl ⟨rfl, rfl⟩, Or.inl ⟨rfl, rfl⟩, Or.inl ⟨rfl, rfl⟩, Or.inl ⟨rfl, rfl⟩⟩

/-- C92 (finding): the option --load-plugins has no effect: whatever is given, the plugins are not loaded, not even looked for. -/
theorem sm2mm_plugins_ignored [Zero K] (e : Env Pose Pdf L Y) (dflt : SmGen K B O (MapRec Pdf L Y)) (oc : O → B → B) (buf : B)
    (rd : SmReader K O) (a : SmArgs K B O (MapRec Pdf L Y)) (p : Option String) :
    sm2mmMain e dflt oc buf rd { a with plugins := p } = sm2mmMain e dflt oc buf rd a := rfl

/-- C92 (finding): that the input could not be read (to its end) is not noticed: only the keyframes in the object count.  A reader that answers
false but leaves keyframes, as for a truncated file, is as good as one that answers true. -/
theorem sm2mm_read_error_ignored [Zero K] (e : Env Pose Pdf L Y) (dflt : SmGen K B O (MapRec Pdf L Y)) (oc : O → B → B) (buf : B)
    (rd rd' : SmReader K O) (a : SmArgs K B O (MapRec Pdf L Y)) (h : (rd a.input).2 = (rd' a.input).2) :
    sm2mmMain e dflt oc buf rd a = sm2mmMain e dflt oc buf rd' a := by
  simp [sm2mmMain, h]

/-- C92 (finding): indices that select no keyframe are not reported: without final filters an empty map is written, with exit code 0.  `--to-index`
SIZE_MAX (what `-1` is parsed to) is such an index. -/
theorem sm2mm_nothing_selected [Zero K] (e : Env Pose Pdf L Y) (dflt : SmGen K B O (MapRec Pdf L Y)) (oc : O → B → B) (buf : B)
    (rd : SmReader K O) (a : SmArgs K B O (MapRec Pdf L Y)) (h1 : (rd a.input).2 ≠ []) (h2 : a.verbosity ≠ some false)
    (h3 : e.canWrite a.output = true) (hp : a.pipeline = none)
    (hi : (∃ f, a.fromIndex = some f ∧ (rd a.input).2.length ≤ f) ∨ a.toIndex = some (2 ^ 64 - 1) ∨
      ∃ f t, a.fromIndex = some f ∧ a.toIndex = some t ∧ t < f) :
    sm2mmMain e dflt oc buf rd a = ⟨[(a.output, mapBytes e e.fresh)], .ok ()⟩ := by
  refine (sm2mm_program_partial e dflt oc buf rd a _).2 ⟨h1, h2, h3, [dflt], [], [], e.fresh, ?_, ?_, rfl⟩
  · rw [hp]; exact (sm2mm_default_pipeline _ _ _ _).2 ⟨rfl, rfl, rfl⟩
  · have hz : nKFs (rd a.input).2.length a.toIndex - max 0 (a.fromIndex.getD 0) = 0 := by
      rcases hi with ⟨f, hf, hl⟩ | ht | ⟨f, t, hf, ht, hlt⟩
      · have : nKFs (rd a.input).2.length a.toIndex ≤ (rd a.input).2.length := by
          unfold nKFs; split
          · exact Nat.min_le_left _ _
          · exact le_refl _
        rw [hf]; simp only [Option.getD_some]; omega
      · rw [ht]; simp [nKFs]
      · have : nKFs (rd a.input).2.length a.toIndex ≤ t + 1 := by
          rw [ht]; unfold nKFs
          exact (Nat.min_le_right _ _).trans (Nat.mod_le _ _)
        rw [hf]; simp only [Option.getD_some]; omega
    simp only [sm2mm, hz, smLoop, Outcome.bind, foldOutcome]

/-- C92: mm-info prints the summary of the map in the file. -/
theorem mm_info_result (e : Env Pose Pdf L Y) (hx : ExtOk e.toExt) (summ : MapRec Pdf L Y → Bytes) (there : String → Bool) (fs : Fs) (path : String)
    (m : MapRec Pdf L Y) (h : Holds e fs path m) (ht : there path = true) : mmInfo e summ there fs path = .ok (summ m) := by
  simp [mmInfo, ht, loadUnchecked_saved e hx fs path m h]

/-- C92: a file that does not exist, or holds anything that is no map, is an error. -/
theorem mm_info_refused (e : Env Pose Pdf L Y) (summ : MapRec Pdf L Y → Bytes) (there : String → Bool) (fs : Fs) (path : String)
    (h : there path = false ∨ ∃ b, fs.get path = some b ∧ getObj clsMap (readMap e.toExt) b = .throw) : mmInfo e summ there fs path = .throw := by
  rcases h with h | ⟨b, h1, h2⟩
  · simp [mmInfo, h]
  · unfold mmInfo; split
    · simp [loadUnchecked, loadMap, h1, h2]
    · rfl

/-- C92 (finding): a file that exists but cannot be opened (permissions) is described as an empty map, unless MRPT's stream throws. -/
theorem mm_info_unreadable (e : Env Pose Pdf L Y) (summ : MapRec Pdf L Y → Bytes) (there : String → Bool) (fs : Fs) (path : String)
    (ht : there path = true) (h : fs.get path = none) (hi : e.inThrows = false) : mmInfo e summ there fs path = .ok (summ e.fresh) := by
  simp [mmInfo, ht, loadUnchecked, loadMap, h, hi]

/-! ### example: a generator that stores the observations it gets as layers, and a final filter that sets the rest -/

def exGen : SmGen ℚ Unit Nat (MapRec F64 F64 (Option Byte)) := fun _ _ o m => .ok (true, { m with layers := m.layers.set [Fin.ofNat 256 o] 5 })
def exFinal : SmFilter ℚ Unit (MapRec F64 F64 (Option Byte)) := fun _ m => .ok { exMap with layers := m.layers }
def exReader : SmReader ℚ Nat := fun f => (f == "in", if f = "in" ∨ f = "cut" then exSm else [])
def exSmArgs : SmArgs ℚ Unit Nat (MapRec F64 F64 (Option Byte)) :=
  { input := "in", output := "out.mm", pipeline := some (.ok { finalFilters := some (.ok [exFinal]) }), fromIndex := some 1, toIndex := some 1 }

example : Asked exGen exSmArgs.pipeline [exGen] [] [exFinal] :=
  ⟨_, Or.inr rfl, Or.inl ⟨rfl, rfl⟩, Or.inl ⟨rfl, rfl⟩, Or.inr rfl⟩
example : sm2mm { gens := [exGen], filters := [], finals := [exFinal], onComment := fun _ b => b, empty := exFileEnv.fresh } () (exReader "in").2 (some 1) (some 1) [] =
    .ok { exMap with layers := [([11], 5), ([12], 5)] } := by rfl
example : sm2mmMain exFileEnv exGen (fun _ b => b) () exReader exSmArgs = ⟨[("out.mm", mapBytes exFileEnv { exMap with layers := [([11], 5), ([12], 5)] })], .ok ()⟩ := by rfl
example : (sm2mmMain exFileEnv exGen (fun _ b => b) () exReader { exSmArgs with input := "none" }).exit = .throw := by rfl
example : (exReader "cut").1 = false ∧ (exReader "cut").2 = (exReader "in").2 := by simp [exReader]
example : sm2mmMain exFileEnv exGen (fun _ b => b) () exReader { exSmArgs with fromIndex := some 3, toIndex := some 2, pipeline := none } =
    ⟨[("out.mm", mapBytes exFileEnv exFileEnv.fresh)], .ok ()⟩ := by rfl

end Verif.SmApp
