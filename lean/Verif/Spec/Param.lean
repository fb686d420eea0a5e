import Verif.Model.Param
/-
Dynamic parameters, said from the history of calls alone.
-/
namespace Verif
namespace Param
variable {F X K : Type}

/-- the last value given to variable `x` of source `s` -/
def lastUpdate [DecidableEq X] (s : Nat) (x : X) : List (Op F X K) → Option K
  | [] => none
  | .update s' y v :: l =>
    match lastUpdate s x l with
    | some w => some w
    | none => if s' = s ∧ y = x then some v else none
  | _ :: l => lastUpdate s x l

/-- the formula mentions no variable -/
def Lang.closed (L : Lang F X K) (f : F) : Prop := L.valid f = true ∧ L.free f = []

/-- The documented protocol: one source; an object declares its parameters before it is attached; iterating the set visits
each attached parameter once. -/
structure Protocol (s : Nat) (ops : List (Op F X K)) : Prop where
  one_source : ∀ o ∈ ops, (∀ s' ob, o = .attach s' ob → s' = s) ∧ (∀ s' x v, o = .update s' x v → s' = s) ∧
    (∀ s' g, o = .realize s' g → s' = s ∧ ∀ l, (g l).Perm l)
  declare_first : ∀ pre post o f k a, ops = pre ++ .declare o f k a :: post → .attach s o ∉ pre

/-- the parameters of `o` were evaluated by a `realize` and not marked as unrealized since -/
def Realized (s o : Nat) (ops : List (Op F X K)) : Prop :=
  ∃ pre g post, ops = pre ++ .realize s g :: post ∧ .attach s o ∈ pre ∧ .unrealize o ∉ post

end Param
end Verif
