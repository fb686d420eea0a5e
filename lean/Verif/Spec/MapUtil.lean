import Verif.Model.MapUtil
/-
What the small map functions should do.
-/
namespace Verif.MapUtil

/-- The file to load: the name itself if it is absolute, otherwise in the first directory of the search path, of those that exist, that has it. -/
def Found (s : Sys) (name p : Txt) : Prop :=
  (s.isAbsolute name = true ∧ s.fileExists name = true ∧ p = name) ∨
  (s.isAbsolute name = false ∧ ∃ before d after, tokens ':' s.env = before ++ d :: after ∧ s.dirExists d = true ∧ s.fileExists (s.join d name) = true ∧
    p = s.join d name ∧ ∀ e ∈ before, s.dirExists e = true → s.fileExists (s.join e name) = false)

/-- Total number of points in the clouds, and of cells in occupancy voxel maps. -/
def nPoints {K : Type} (ls : List (String × Option (Layer K))) : Nat :=
  (ls.map fun e => match e.2 with
    | some (.cloud p _) => p.length
    | _ => 0).sum
def nVoxels {K : Type} (ls : List (String × Option (Layer K))) : Nat :=
  (ls.map fun e => match e.2 with
    | some (.voxels a _ _) => a
    | _ => 0).sum
/-- There is a layer which is neither a cloud nor an occupancy voxel map. -/
def HasOther {K : Type} (ls : List (String × Option (Layer K))) : Prop :=
  ∃ e ∈ ls, (∃ a o t, e.2 = some (.voxelsRGB a o t)) ∨ ∃ t, e.2 = some (.other t)

open Classical in
/-- What the summary of a map with contents says: header, lines, planes, layers, metadata, in that order, those that apply. -/
noncomputable def pieces {K : Type} (f : Fmt) (m : UMap K) : List Txt :=
  (if header m = [] then [] else [header m]) ++
  (if m.lines = 0 then [] else [f.dec m.lines ++ " lines".toList]) ++
  (if m.planes = 0 then [] else [f.dec m.planes ++ " planes".toList]) ++
  (if nPoints m.layers = 0 ∧ nVoxels m.layers = 0 ∧ ¬ HasOther m.layers then [] else [layersPiece f m (nPoints m.layers) (nVoxels m.layers)]) ++
  (match m.metadata with
    | some t => ["metadata: '".toList ++ t ++ "' ".toList]
    | none => [])

end Verif.MapUtil
