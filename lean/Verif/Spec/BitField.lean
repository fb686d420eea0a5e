import Verif.Model.BitField
/-
A set of flags (C17): what "marked since last initialised" means for a history of operations.
-/
namespace Verif.Spec
open Verif

/-- Point `i` was marked in history `h` and the field was not initialised after that. -/
def MarkedSince (h : List BitField.Op) (i : Nat) : Prop :=
  ∃ pre post, h = pre ++ .mark i :: post ∧ ∀ o ∈ post, ∃ j, o = .mark j

/-- How one operation changes the dense size. -/
def noteSize (acc : Option Nat) : BitField.Op → Option Nat
  | .assign n true => some n
  | .assign _ false => none
  | .mark _ => acc

/-- Number of points the field was last initialised with, if it was initialised dense last. -/
def denseSize (h : List BitField.Op) : Option Nat := h.foldl noteSize none

/-- Each `mark` of the history was in range of the size the field had then. -/
def InRange (h : List BitField.Op) : Prop :=
  ∀ pre i post, h = pre ++ .mark i :: post → ∀ n, denseSize pre = some n → i < n

/-- The same operation, forgetting which kind of storage was asked for. -/
def forgetKind : BitField.Op → BitField.Op
  | .assign n _ => .assign n true
  | .mark i => .mark i

end Verif.Spec
