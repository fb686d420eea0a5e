import Verif.Model.Sm2mm
import Verif.Model.MapFile
/-
The programs `sm2mm` and `mm-info`: /repo/apps/sm2mm/main.cpp, /repo/apps/mm-info/main.cpp.
The command line is a record (the parser TCLAP is external).  Not modelled: console output other than the summary, progress bar, lazy-load
directory.  Layers of maps are not null here, so that `contents_summary` does not throw (C90).
-/
namespace Verif
namespace SmApp
open Sm MapFile Wire Serial
variable {K B O Pose Pdf L Y : Type}

/-- A generator and a filter, as in Model/Sm2mm. -/
abbrev SmGen (K B O M : Type) := Src K B → Pose6 K → O → M → Outcome (Bool × M)
abbrev SmFilter (K B M : Type) := Option (Src K B) → M → Outcome M

/-- The sections of a pipeline file, `none` if there is no such section, and what their factory functions make of them (C48, C84). -/
structure Sections (K B O M : Type) where
  generators : Option (Outcome (List (SmGen K B O M))) := none
  filters : Option (Outcome (List (SmFilter K B M))) := none
  finalFilters : Option (Outcome (List (SmFilter K B M))) := none

/-- a section, if there is one -/
def section? {α : Type} (s : Option (Outcome (List α))) (dflt : List α) : Outcome (List α) :=
  match s with
  | some o => o
  | none => .ok dflt

/-- sm2mm.cpp:37-75: generators, filters and final filters; without a section `generators` the default generator -/
def build {M : Type} (dflt : SmGen K B O M) (onComment : O → B → B) (empty : M) (s : Sections K B O M) : Outcome (SmEnv K B O M) :=
  (section? s.generators [dflt]).bind fun g =>
  (section? s.filters []).bind fun f =>
  (section? s.finalFilters []).bind fun l => .ok { gens := g, filters := f, finals := l, onComment := onComment, empty := empty }

/-- The command line of sm2mm, main.cpp:31-85.  `pipeline`: the sections of the file given, `.throw` if it does not exist or is no YAML.
`verbosity`: `none` if not given, `some false` if it is not the name of a level.  `plugins` is never looked at. -/
structure SmArgs (K B O M : Type) where
  input : String
  output : String
  plugins : Option String := none
  pipeline : Option (Outcome (Sections K B O M)) := none
  verbosity : Option Bool := none
  fromIndex : Option Nat := none
  toIndex : Option Nat := none

/-- what `CSimpleMap::loadFromFile` does: its answer, and the keyframes in the object afterwards -/
abbrev SmReader (K O : Type) := String → Bool × List (KF K O)

/-- `main` of sm2mm, main.cpp:87-152.  The answer of `loadFromFile` is not looked at (line 96). -/
def sm2mmMain [Zero K] (e : Env Pose Pdf L Y) (dflt : SmGen K B O (MapRec Pdf L Y)) (onComment : O → B → B) (buf : B)
    (rd : SmReader K O) (a : SmArgs K B O (MapRec Pdf L Y)) : Run :=
  if (rd a.input).2 = [] then ⟨[], .throw⟩
  else thenRun (a.pipeline.getD (.ok {})) fun s =>
    if a.verbosity = some false then ⟨[], .throw⟩
    else thenRun (build dflt onComment e.fresh s) fun env =>
      thenRun (sm2mm env buf (rd a.input).2 a.fromIndex a.toIndex []) fun m =>
        writeFile e a.output (mapBytes e m) .throw

/-- `main` of mm-info, main.cpp:36-66: what is printed.  `there`: the file exists (it may be unreadable); `summ`: `contents_summary` (C90). -/
def mmInfo (e : Env Pose Pdf L Y) (summ : MapRec Pdf L Y → Bytes) (there : String → Bool) (fs : Fs) (path : String) : Outcome Bytes :=
  if there path then (loadUnchecked e fs path).bind fun m => .ok (summ m) else .throw

end SmApp
end Verif
