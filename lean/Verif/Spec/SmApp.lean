import Verif.Model.SmApp
import Verif.Spec.Sm2mm
import Verif.Spec.MapFile
/-
What sm2mm is expected to compute (C92).
-/
namespace Verif.SmApp
open Sm MapFile Wire Serial
variable {K B O Pose Pdf L Y M : Type}

/-- `l` is what a section holds; without the section it is `dflt`. -/
def Holding {α : Type} (s : Option (Outcome (List α))) (dflt l : List α) : Prop := (s = none ∧ l = dflt) ∨ s = some (.ok l)

/-- The pipeline a command line asks for. -/
structure Asked (dflt : SmGen K B O M) (p : Option (Outcome (Sections K B O M))) (gens : List (SmGen K B O M))
    (filters finals : List (SmFilter K B M)) : Prop where
  file : ∃ s, (p = none ∧ s = {} ∨ p = some (.ok s)) ∧ Holding s.generators [dflt] gens ∧ Holding s.filters [] filters ∧
    Holding s.finalFilters [] finals

end Verif.SmApp
