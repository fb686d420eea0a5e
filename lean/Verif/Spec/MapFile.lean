import Verif.Model.MapFile
import Verif.Spec.SerialFormats
/-
Files after a tool has run, or while it crashed (C81, C82).
-/
namespace Verif.Spec
open Verif Verif.MapFile Verif.Wire Verif.Serial
variable {Pose Pdf L Y : Type}

/-- The files after all writes -/
def after (fs : Fs) (r : Run) : Fs := r.writes.foldl (fun fs w => fs.set w.1 w.2) fs

/-- The files if the power fails at some moment: some writes are done, one may have written only a first part of its bytes. -/
def Crash (fs : Fs) (r : Run) (fs' : Fs) : Prop :=
  ∃ done rest, r.writes = done ++ rest ∧ (fs' = done.foldl (fun fs w => fs.set w.1 w.2) fs ∨
    ∃ w ws cut, rest = w :: ws ∧ cut <+: w.2 ∧ fs' = (done.foldl (fun fs w => fs.set w.1 w.2) fs).set w.1 cut)

/-- `path` holds the map `m`, as the library saves it. -/
def Holds (e : Env Pose Pdf L Y) (fs : Fs) (path : String) (m : MapRec Pdf L Y) : Prop :=
  MapFit m ∧ e.yamlEmpty m.metadata = false ∧ fs.get path = some (mapBytes e m)

/-- A map with something in it -/
def Filled (m : MapRec Pdf L Y) : Prop := m.layers ≠ [] ∨ m.lines ≠ [] ∨ m.planes ≠ []

end Verif.Spec
