import Verif.Model.MapDef
/-
What the definition of a custom map should give (C79).
-/
namespace Verif.Spec
open Verif Verif.MapDef

/-- A value allowed in a section: text, or a formula `$f{...}` with its closing brace. -/
def OkCell : Option String → Prop
  | none => False
  | some v => (∃ e, v = "$f{" ++ e ++ "}") ∨ ∀ e, v ≠ "$f{" ++ e

/-- An entry that the loader accepts -/
def OkEntry (k : String) : YVal → Prop
  | .null => True
  | .scalar _ => k = "class" ∨ k = "plugin"
  | .seq => False
  | .map m => ∀ kk v, m.get kk = some v → OkCell v

/-- The text of value `v` of the user's file: that of a formula is its current value. -/
inductive Shown (val : String → String) : String → String → Prop
  | formula (e : String) : Shown val ("$f{" ++ e ++ "}") (val e)
  | plain (v : String) (h : ∀ e, v ≠ "$f{" ++ e) : Shown val v v

end Verif.Spec
