import Verif.Model.Pairings
import Mathlib.Algebra.Field.Basic
/-
Specifications used by the theorems on `Pairings` (C11, C12, C26).  Nothing here uses the model's
functions, only its data types.
-/
namespace Verif.Spec
open Verif

/-- The point pairs whose position in the list is not listed as an outlier, in order. -/
def inliers {K : Type} (outl : List Nat) (ps : List (PtPair K)) : List (PtPair K) :=
  (ps.zipIdx.filter (fun q => decide (q.2 ∉ outl))).map (·.1)

/-- Arithmetic mean of a list of vectors, coordinate by coordinate. -/
def mean {K : Type} [Field K] (l : List (P3 K)) : P3 K :=
  ⟨(l.map (·.x)).sum / l.length, (l.map (·.y)).sum / l.length, (l.map (·.z)).sum / l.length⟩

/-- What "merged" means for two sets of pairings: one after the other, kind by kind, and the
numbers of potential pairings added. -/
structure IsMerge {K : Type} (a b c : Pairings K) : Prop where
  pt2pt : c.pt2pt = a.pt2pt ++ b.pt2pt
  pt2ln : c.pt2ln = a.pt2ln ++ b.pt2ln
  pt2pl : c.pt2pl = a.pt2pl ++ b.pt2pl
  ln2ln : c.ln2ln = a.ln2ln ++ b.ln2ln
  pl2pl : c.pl2pl = a.pl2pl ++ b.pl2pl
  potential : c.potential = a.potential + b.potential

/-- The summary string of the contents: the non-empty kinds, comma separated. -/
def summarySpec (counts : List (Nat × String)) (potential : Nat) : String :=
  let shown := (counts.filter (fun c => c.1 ≠ 0)).map (fun c => toString c.1 ++ " " ++ c.2)
  if shown = [] then "none" else ", ".intercalate shown ++ " out of " ++ toString potential

end Verif.Spec
