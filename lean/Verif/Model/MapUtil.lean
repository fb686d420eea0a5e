import Verif.Model.Outcome
import Verif.Model.AMap
import Verif.Model.Geom
import Mathlib.Data.String.Basic
import Mathlib.Data.List.SplitOn
/-
Small functions of the map library: /repo/mp2p_icp_map/src/load_plugin.cpp, pointcloud_sanity_check.cpp, load_xyz_file.cpp and
metricmap.cpp (`contents_summary`, `point_layer`, `MapToPointsMap`, `get_shared_from_this_or_clone`).
-/
namespace Verif.MapUtil

abbrev Txt := List Char

/-! ### `load_plugin` -/

/-- Files, directories and the dynamic linker.  `noload p loaded`: `dlopen(p, RTLD_NOLOAD)` is not null; `dlopen p`: loading succeeds. -/
structure Sys where
  env : Txt
  dirExists : Txt → Bool
  fileExists : Txt → Bool
  isAbsolute : Txt → Bool
  join : Txt → Txt → Txt
  noload : Txt → List Txt → Bool
  dlopen : Txt → Bool

/-- `mrpt::system::tokenize`: the nonempty pieces between separators -/
def tokens (sep : Char) (s : Txt) : List Txt := (s.splitOn sep).filter fun t => !t.isEmpty

/-- `from_env_var_to_list` with `safe_add_to_list`, load_plugin.cpp:36-66 (unix; no pattern) -/
def searchDirs (s : Sys) : List Txt := (tokens ':' s.env).filter s.dirExists

/-- The loop, load_plugin.cpp:88-96 -/
def searchIn (s : Sys) (name : Txt) : List Txt → Txt
  | [] => []
  | d :: ds => if s.fileExists (s.join d name) then s.join d name else searchIn s name ds

/-- load_plugin.cpp:72-103: the path to load -/
def resolve (s : Sys) (name : Txt) : Outcome Txt :=
  if s.isAbsolute name then (if s.fileExists name then .ok name else .throw)
  else if searchIn s name (searchDirs s) = [] then .throw else .ok (searchIn s name (searchDirs s))

/-- `load_plugin`, load_plugin.cpp:69-133 (unix); state: the libraries loaded -/
def loadPlugin (s : Sys) (loaded : List Txt) (name : Txt) : Outcome (List Txt) :=
  (resolve s name).bind fun p =>
    if s.noload p loaded then .ok loaded
    else if s.dlopen p then .ok (if p ∈ loaded then loaded else p :: loaded) else .throw

/-! ### `pointcloud_sanity_check` -/

/-- A point cloud with the lengths of its channels.  MRPT: a channel of an XYZIRT cloud is there if it is not empty; the intensity of an XYZI
cloud always is. -/
inductive Chans where
  | plain (n : Nat)
  | xyzi (n i : Nat)
  | xyzirt (n i r t : Nat)

/-- `pointcloud_sanity_check`, pointcloud_sanity_check.cpp:26-75 (messages not modelled) -/
def sane : Chans → Bool
  | .plain _ => true
  | .xyzi n i => !(i != n)
  | .xyzirt n i r t => !(i != 0 && i != n) && !(r != 0 && r != n) && !(t != 0 && t != n)

/-! ### `load_xyz_file` -/

/-- `load_xyz_file`, load_xyz_file.cpp:29-67.  `exist`: the file is there; `gunzip`: its uncompressed text, taken if the extension is `gz`
(written to a temporary file and read from there, lines 37-56); `parse`: `load3D_from_text_file`. -/
def loadXyz {K B : Type} (exist : Bool) (gz : Bool) (raw : B) (gunzip : B → B) (parse : B → List (P3 K)) : Outcome (List (P3 K)) :=
  if exist = false then .throw
  else
    let pts := parse (if gz then gunzip raw else raw)
    if pts.length > 1 then .ok pts else .throw

/-! ### `metric_map_t` -/

/-- A layer: a cloud; an occupancy voxel map (active cells, occupied voxels); an RGB voxel map; anything else.  `text` = `asString()`. -/
inductive Layer (K : Type) where
  | cloud (pts : List (P3 K)) (text : Txt)
  | voxels (active : Nat) (occ : List (P3 K)) (text : Txt)
  | voxelsRGB (active : Nat) (occ : List (P3 K)) (text : Txt)
  | other (text : Txt)
  deriving DecidableEq

def Layer.text {K : Type} : Layer K → Txt
  | .cloud _ t => t
  | .voxels _ _ t => t
  | .voxelsRGB _ _ t => t
  | .other t => t

/-- The map, with the texts of its header: id, label, georeference, and metadata if not null. -/
structure UMap (K : Type) where
  id : Option Txt := none
  label : Option Txt := none
  georef : Option Txt := none
  lines : Nat := 0
  planes : Nat := 0
  layers : AMap String (Option (Layer K)) := []
  metadata : Option Txt := none

/-- `point_layer`, metricmap.cpp:725-748 -/
def pointLayer {K : Type} (m : UMap K) (name : String) : Outcome (Option (List (P3 K))) :=
  match m.layers.get name with
  | none => .throw
  | some none => .ok none
  | some (some (.cloud p _)) => .ok (some p)
  | some (some _) => .throw

/-- `MapToPointsMap`, metricmap.cpp:750-782 (both overloads) -/
def mapToPoints {K : Type} : Layer K → Option (List (P3 K))
  | .cloud p _ => some p
  | .voxels _ o _ => some o
  | .voxelsRGB _ o _ => some o
  | .other _ => none

/-- `MapToNN` and `MapToNP`, metricmap.cpp:784-822: the map as the interface if it implements it; otherwise null or an exception -/
def mapTo {M I : Type} (cast : M → Option I) (m : M) (throwIfNot : Bool) : Outcome (Option I) :=
  match cast m with
  | some i => .ok (some i)
  | none => if throwIfNot = false then .ok none else .throw

/-- `get_shared_from_this_or_clone`, metricmap.cpp:676-723: `owner` = the shared pointer that manages the object, if there is one; otherwise a
copy is made, under a new address -/
def sharedOrClone {A : Type} (owner : Option A) (fresh : A) : A :=
  match owner with
  | some a => a
  | none => fresh

/-- `metric_map_t::empty`, metricmap.cpp:437 -/
def isEmpty {K : Type} (m : UMap K) : Bool := m.layers.isEmpty && m.lines == 0 && m.planes == 0

/-- `retAppend`, metricmap.cpp:587-594 -/
def append (ret s : Txt) : Txt := (if ret ≠ [] then ret ++ ", ".toList else ret) ++ s

/-- Number formatting used by the summary: `std::to_string` and `unitsFormat` -/
structure Fmt where
  dec : Nat → Txt
  units : Nat → Txt

/-- metricmap.cpp:563-580 -/
def header {K : Type} (m : UMap K) : Txt :=
  (match m.id with
    | some s => "id=".toList ++ s ++ " ".toList
    | none => []) ++
  (match m.label with
    | some s => "label='".toList ++ s ++ "' ".toList
    | none => []) ++ m.georef.getD []

/-- the counting loop, metricmap.cpp:605-622: points, voxels, other layers?; null pointers: `ASSERT_` -/
def count {K : Type} : List (String × Option (Layer K)) → Nat → Nat → Bool → Outcome (Nat × Nat × Bool)
  | [], p, v, o => .ok (p, v, o)
  | (_, none) :: _, _, _, _ => .throw
  | (_, some (.cloud pts _)) :: ls, p, v, o => count ls (p + pts.length) v o
  | (_, some (.voxels a _ _)) :: ls, p, v, o => count ls p (v + a) o
  | (_, some (.voxelsRGB _ _ _)) :: ls, p, v, _ => count ls p v true
  | (_, some (.other _)) :: ls, p, v, _ => count ls p v true

/-- metricmap.cpp:631-634 -/
def layerTexts {K : Type} : List (String × Option (Layer K)) → Txt
  | [] => []
  | (n, some l) :: ls => "\"".toList ++ n.toList ++ "\":".toList ++ l.text ++ " ".toList ++ layerTexts ls
  | (_, none) :: ls => layerTexts ls

/-- metricmap.cpp:624-636 -/
def layersPiece {K : Type} (f : Fmt) (m : UMap K) (p v : Nat) : Txt :=
  f.units p ++ " points, ".toList ++ f.units v ++ " voxels in ".toList ++ f.dec m.layers.length ++ " layers (".toList ++ layerTexts m.layers ++ ")".toList

/-- `contents_summary`, metricmap.cpp:557-648 -/
def summary {K : Type} (f : Fmt) (m : UMap K) : Outcome Txt :=
  if isEmpty m then .ok (header m ++ "empty".toList)
  else
    let r := header m
    let r := if m.lines ≠ 0 then append r (f.dec m.lines ++ " lines".toList) else r
    let r := if m.planes ≠ 0 then append r (f.dec m.planes ++ " planes".toList) else r
    (count m.layers 0 0 false).bind fun c =>
      let r := if c.1 ≠ 0 ∨ c.2.1 ≠ 0 ∨ c.2.2 = true then append r (layersPiece f m c.1 c.2.1) else r
      .ok (match m.metadata with
        | some t => append r ("metadata: '".toList ++ t ++ "' ".toList)
        | none => r)

end Verif.MapUtil
