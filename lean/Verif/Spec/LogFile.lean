/-
What a template of debug-file name means (C09): literal characters and placeholders.
-/
namespace Verif.Spec

/-- The five values a file name can mention. -/
inductive Field where
  | uniqueId | globalId | globalLabel | localId | localLabel
  deriving DecidableEq, Repr

/-- How the user writes each of them. -/
def Field.written : Field → List Char
  | .uniqueId => "$UNIQUE_ID".toList
  | .globalId => "$GLOBAL_ID".toList
  | .globalLabel => "$GLOBAL_LABEL".toList
  | .localId => "$LOCAL_ID".toList
  | .localLabel => "$LOCAL_LABEL".toList

/-- A piece of a template. -/
inductive Piece where
  | lit (c : Char)
  | ph (f : Field)
  deriving DecidableEq, Repr

/-- The template text. -/
def templateText (t : List Piece) : List Char :=
  t.flatMap fun | .lit c => [c] | .ph f => f.written

/-- The name it stands for. -/
def templateMeaning (value : Field → List Char) (t : List Piece) : List Char :=
  t.flatMap fun | .lit c => [c] | .ph f => value f

/-- A call that took id `v` with decimation `d` has to write its file. -/
def Selected (d v : Nat) : Prop := d ≤ 1 ∨ d ∣ v

end Verif.Spec
