/-
Outcome of running a piece of C++ code: a value, an exception, or undefined behaviour.

Models: the three ways in which any function of the code base may end.  MRPT's `ASSERT_*`
macros and `THROW_EXCEPTION*` are `throw`; out-of-range element access, dereferencing `end()`,
an empty `std::optional` or a null pointer are `ub`.
-/
namespace Verif

/-- How a C++ computation ends. -/
inductive Outcome (α : Type) where
  | ok (a : α)
  | throw
  | ub
  deriving DecidableEq, Repr

namespace Outcome

variable {α β γ : Type}

/-- Sequencing: exceptions and undefined behaviour stop the computation. -/
@[simp] def bind (x : Outcome α) (f : α → Outcome β) : Outcome β :=
  match x with
  | ok a => f a
  | throw => throw
  | ub => ub

instance : Monad Outcome where
  pure := ok
  bind := bind

@[simp] theorem pure_def (a : α) : (pure a : Outcome α) = ok a := rfl
@[simp] theorem bind_def (x : Outcome α) (f : α → Outcome β) : (x >>= f) = x.bind f := rfl

/-- `ASSERT_(c)`. -/
def assert (c : Prop) [Decidable c] : Outcome Unit := if c then ok () else throw

@[simp] theorem assert_true {c : Prop} [Decidable c] (h : c) : assert c = ok () := by
  simp [assert, h]
@[simp] theorem assert_false {c : Prop} [Decidable c] (h : ¬ c) : assert c = throw := by
  simp [assert, h]

/-- The computation ended normally with value `a`. -/
def Returns (x : Outcome α) (a : α) : Prop := x = ok a

theorem bind_eq_ok {x : Outcome α} {f : α → Outcome β} {b : β} :
    x.bind f = ok b ↔ ∃ a, x = ok a ∧ f a = ok b := by
  cases x <;> simp [bind]

theorem bind_eq_ub {x : Outcome α} {f : α → Outcome β} :
    x.bind f = ub ↔ x = ub ∨ ∃ a, x = ok a ∧ f a = ub := by
  cases x <;> simp [bind]

theorem bind_eq_throw {x : Outcome α} {f : α → Outcome β} :
    x.bind f = throw ↔ x = throw ∨ ∃ a, x = ok a ∧ f a = throw := by
  cases x <;> simp [bind]

theorem assert_eq_ok {c : Prop} [Decidable c] {u : Unit} : assert c = ok u ↔ c := by
  unfold assert; split <;> simp [*]

theorem assert_ne_ub {c : Prop} [Decidable c] : assert c ≠ ub := by
  unfold assert; split <;> simp

/-- The computation ends normally with a value satisfying `P` (used to evaluate concrete examples). -/
def Sat (x : Outcome α) (P : α → Prop) : Prop :=
  match x with
  | ok a => P a
  | _ => False

instance (x : Outcome α) (P : α → Prop) [DecidablePred P] : Decidable (x.Sat P) := by
  unfold Sat; split <;> infer_instance

theorem sat_iff {x : Outcome α} {P : α → Prop} : x.Sat P ↔ ∃ a, x = ok a ∧ P a := by
  cases x <;> simp [Sat]

/-- Whether a computation ends with an exception (used to evaluate concrete examples). -/
def isThrow (x : Outcome α) : Bool :=
  match x with
  | throw => true
  | _ => false

theorem eq_throw_of {x : Outcome α} (h : x.isThrow = true) : x = throw := by
  cases x <;> simp_all [isThrow]

/-- Whether a computation ends in undefined behaviour (used to evaluate concrete examples). -/
def isUb (x : Outcome α) : Bool :=
  match x with
  | ub => true
  | _ => false

theorem eq_ub_of {x : Outcome α} (h : x.isUb = true) : x = ub := by
  cases x <;> simp_all [isUb]

end Outcome

/-- Run a loop body over the elements of a container, threading a state; stops at the first
exception or undefined behaviour (range-`for` loops of the code). -/
def foldOutcome {σ ι : Type} (step : σ → ι → Outcome σ) : σ → List ι → Outcome σ
  | s, [] => .ok s
  | s, i :: is => (step s i).bind fun s' => foldOutcome step s' is

end Verif
