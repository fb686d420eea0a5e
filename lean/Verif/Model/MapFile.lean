import Verif.Model.Serial
import Verif.Model.Pipeline
import Mathlib.Data.List.SplitOn
/-
Command-line tools that read and write map files: /repo/apps/mm-georef/main.cpp, /repo/apps/mm-filter/main.cpp,
/repo/apps/mm2txt/main.cpp, /repo/apps/kitti2mm/main.cpp, and `metric_map_t::save_to_file`/`load_from_file`,
/repo/mp2p_icp_map/src/metricmap.cpp:651-677.
Files are byte strings by path; gzip is transparent.  A tool reads first and writes last: its result is the list of files it
writes, in order, and how it ends.  Not modelled: plugins, console output, the verbosity level.
-/
namespace Verif
namespace MapFile
open Wire Serial
variable {Pose Pdf L Y : Type}

abbrev Fs := AMap String Bytes

/-- What a tool does: the files written, each with its whole contents, in order, and its exit: `throw` = message and exit code 1 -/
structure Run where
  writes : List (String × Bytes)
  exit : Outcome Unit
  deriving DecidableEq

/-- The environment: is a path writable; do the constructors of MRPT's streams throw if the file cannot be opened (otherwise
`is_open()` is false); extraction of names and extensions from paths; the default constructed map. -/
structure Env (Pose Pdf L Y : Type) extends Ext Pose Pdf L Y where
  canWrite : String → Bool
  inThrows : Bool
  outThrows : Bool
  extension : String → String
  baseName : String → String
  fresh : MapRec Pdf L Y

/-- `metric_map_t::load_from_file`, metricmap.cpp:665-677, into a default constructed map; `none` = false was returned and the map
is still the default one -/
def loadMap (e : Env Pose Pdf L Y) (fs : Fs) (path : String) : Outcome (Option (MapRec Pdf L Y)) :=
  match fs.get path with
  | none => if e.inThrows then .throw else .ok none
  | some b => (getObj clsMap (readMap e.toExt) b).bind fun r => .ok (some r.1)

/-- the bytes of a saved map -/
def mapBytes (e : Env Pose Pdf L Y) (m : MapRec Pdf L Y) : Bytes := putObj clsMap 5 (writeMap e.toExt m)

/-- creating a file and writing `b` to it; `after opened`: what is done next -/
def writeFile (e : Env Pose Pdf L Y) (path : String) (b : Bytes) (whenNot : Outcome Unit) : Run :=
  if e.canWrite path then ⟨[(path, b)], .ok ()⟩
  else ⟨[], if e.outThrows then .throw else whenNot⟩

/-- `metric_map_t::empty`, metricmap.cpp:437 -/
def isEmpty (m : MapRec Pdf L Y) : Bool := m.layers.isEmpty && m.lines.isEmpty && m.planes.isEmpty

/-- continue with the value read, or end -/
def thenRun {α : Type} (o : Outcome α) (f : α → Run) : Run :=
  match o with
  | .ok a => f a
  | .throw => ⟨[], .throw⟩
  | .ub => ⟨[], .ub⟩

/-- the map in the object after `mm.load_from_file(path)`, whose answer is not looked at (mm-georef/main.cpp:82, 136,
mm-filter/main.cpp:95, mm2txt/main.cpp:48) -/
def loadUnchecked (e : Env Pose Pdf L Y) (fs : Fs) (path : String) : Outcome (MapRec Pdf L Y) :=
  (loadMap e fs path).bind fun o => .ok (o.getD e.fresh)

/-- YAML text of a georeference and back (`ToYAML`, `FromYAML` and the YAML text; see C39) -/
structure GeoYaml (Pdf : Type) where
  print : Option (Georef Pdf) → Bytes
  parse : Bytes → Outcome (Option (Georef Pdf))

/-- `is_binary_file`, mm-georef/main.cpp:35-38 -/
def isBinary (e : Env Pose Pdf L Y) (path : String) : Bool := e.extension path == "georef"

/-- `run_mm_extract`, mm-georef/main.cpp:75-110.  Binary file that cannot be opened and no exception: writing to it throws. -/
def extract (e : Env Pose Pdf L Y) (gy : GeoYaml Pdf) (fs : Fs) (mapPath geoPath : String) : Run :=
  thenRun (loadUnchecked e fs mapPath) fun m =>
  if isEmpty m then ⟨[], .throw⟩
  else if isBinary e geoPath then writeFile e geoPath (writeGeoref e.pdf m.georef) .throw
  else if e.canWrite geoPath then ⟨[(geoPath, gy.print m.georef)], .ok ()⟩
  else ⟨[], .throw⟩

/-- reading of the georeference, mm-georef/main.cpp:115-132.  A binary file that cannot be opened: an exception, from the
constructor or the reader. -/
def readGeoFile (e : Env Pose Pdf L Y) (gy : GeoYaml Pdf) (fs : Fs) (geoPath : String) : Outcome (Option (Georef Pdf)) :=
  match fs.get geoPath with
  | none => .throw
  | some b => if isBinary e geoPath then (readGeoref e.pdf none b).bind fun r => .ok r.1 else gy.parse b

/-- `run_mm_inject`, mm-georef/main.cpp:112-153: the answer of `save_to_file` is not looked at -/
def inject (e : Env Pose Pdf L Y) (gy : GeoYaml Pdf) (fs : Fs) (mapPath geoPath : String) : Run :=
  thenRun (readGeoFile e gy fs geoPath) fun g =>
  thenRun (loadUnchecked e fs mapPath) fun m =>
  writeFile e mapPath (mapBytes e { m with georef := g }) (.ok ())

/-- `run_mm_georef`, mm-georef/main.cpp:155-178 -/
def georefTool (e : Env Pose Pdf L Y) (gy : GeoYaml Pdf) (argExtract argInject : Bool) (fs : Fs) (mapPath geoPath : String) : Run :=
  if argExtract then extract e gy fs mapPath geoPath
  else if argInject then inject e gy fs mapPath geoPath
  else ⟨[], .throw⟩

/-- `mrpt::system::tokenize(s, "|", names)` (external): the non-empty pieces between bars -/
def tokenize (bar : Byte) (s : Bytes) : List Bytes := (s.splitOn bar).filter fun t => !t.isEmpty

/-- the character `|` -/
def bar : Byte := 124

/-- `--rename-layer`, mm-filter/main.cpp:120-135 -/
def rename (s : Bytes) (m : MapRec Pdf L Y) : Outcome (MapRec Pdf L Y) :=
  match tokenize bar s with
  | [old, new] =>
    match m.layers.get old, m.layers.get new with
    | some l, none => .ok { m with layers := (m.layers.set new l).erase old }
    | _, _ => .throw
  | _ => .throw

/-- The pipeline read from `--pipeline` -/
abbrev Pipe (Pdf L Y : Type) := List (Option (MapRec Pdf L Y → MapRec Pdf L Y × Bool))

/-- `run_mm_filter`, mm-filter/main.cpp:73-148.  `pipeline`: what is in the file given with `--pipeline` (`some .throw` if it does
not exist or cannot be read); both it and `renameArg` are `none` if not given. -/
def mmFilter (e : Env Pose Pdf L Y) (pipeline : Option (Outcome (Pipe Pdf L Y))) (renameArg : Option Bytes) (fs : Fs)
    (input output : String) : Run :=
  match pipeline, renameArg with
  | none, none => ⟨[], .throw⟩
  | _, _ =>
    thenRun (loadUnchecked e fs input) fun m =>
    if isEmpty m then ⟨[], .throw⟩
    else match pipeline, renameArg with
      | some p, _ => thenRun p fun fl =>
        let r := applyFilters fl m
        if r.2 then ⟨[], .throw⟩ else writeFile e output (mapBytes e r.1) .throw
      | none, some s => thenRun (rename s m) fun m' => writeFile e output (mapBytes e m') .throw
      | none, none => ⟨[], .throw⟩

/-- one layer of mm2txt, mm2txt/main.cpp:69-99; `txt`: the text of a layer that is or has a cloud of points (external) -/
def txtLoop (e : Env Pose Pdf L Y) (txt : L → Option Bytes) (m : MapRec Pdf L Y) (base : String) (name : Bytes → String) :
    List Bytes → List (String × Bytes) → Run
  | [], done => ⟨done, .ok ()⟩
  | n :: ns, done =>
    match m.layers.get n with
    | none => ⟨done, .throw⟩
    | some l => match txt l with
      | none => ⟨done, .throw⟩
      | some b =>
        let path := base ++ "_" ++ name n ++ ".txt"
        txtLoop e txt m base name ns (if e.canWrite path then done ++ [(path, b)] else done)

/-- `run_mm2txt`, mm2txt/main.cpp:38-100.  `save3D_to_text_file` and the like answer false if the file cannot be made, which is not
looked at.  `name`: the layer's name as characters. -/
def mm2txt (e : Env Pose Pdf L Y) (txt : L → Option Bytes) (name : Bytes → String) (layers : Option (List Bytes)) (fs : Fs)
    (input : String) : Run :=
  if fs.get input = none then ⟨[], .throw⟩
  else thenRun (loadUnchecked e fs input) fun m =>
    txtLoop e txt m (e.baseName input) name (layers.getD (m.layers.map (·.1))) []

/-- `main` of kitti2mm, kitti2mm/main.cpp:41-77.  `cloud`: the cloud in the file, `none` if it cannot be read.  `layer` is the option
`--layer`, which is not used. -/
def kitti2mm (e : Env Pose Pdf L Y) (cloud : Option L) (_layer : Bytes) (id : Option Nat) (label : Option Bytes) (output : String) :
    Run :=
  match cloud with
  | none => ⟨[], .throw⟩
  | some l =>
    let m := { e.fresh with layers := e.fresh.layers.set (asc "raw") l }
    let m := match id with | some i => { m with id := some i } | none => m
    let m := match label with | some s => { m with label := some s } | none => m
    writeFile e output (mapBytes e m) .throw

end MapFile
end Verif
