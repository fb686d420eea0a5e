import Verif.Model.FpFilters
/-
Vocabulary for the properties that hold in floating point (C99-C103).
-/
namespace Verif.Spec
open Verif Verif.Fp Verif.Flt

/-- a finite number of the format -/
def Finite (A : Arith) (v : Fl) : Prop := ∃ q, v = .fin q ∧ A.Rep v

/-- a number from 0 to 1 -/
def Unit01 (v : Fl) : Prop := ∃ q, v = .fin q ∧ 0 ≤ q ∧ q ≤ 1

/-- `a ≤ b`, none of them being not-a-number -/
def Le (a b : Fl) : Prop := a.le b = true

/-- the least of a list of values -/
def Least (l : List Fl) (a : Fl) : Prop := a ∈ l ∧ ∀ b ∈ l, Le a b

/-- the greatest of a list of values -/
def Greatest (l : List Fl) (a : Fl) : Prop := a ∈ l ∧ ∀ b ∈ l, Le b a

/-- The cloud with `f` applied to its intensities, and nothing else changed. -/
def mapI (f : Fl → Fl) (c : Cloud Fl) : Cloud Fl := { c with pts := c.pts.map fun q => { q with i := f q.i } }

/-- The cloud with `f` applied to its time stamps, and nothing else changed. -/
def mapT (f : Fl → Fl) (c : Cloud Fl) : Cloud Fl := { c with pts := c.pts.map fun q => { q with t := f q.t } }

def intensities (c : Cloud Fl) : List Fl := c.pts.map (·.i)

def stamps (c : Cloud Fl) : List Fl := c.pts.map (·.t)

end Verif.Spec
