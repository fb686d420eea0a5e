import Verif.Spec.Matchers
import Verif.Spec.Fp
/-
Specification for C105: the point matchers in the arithmetic of the machine.
-/
namespace Verif.Spec
open Verif Verif.Fp

/-- "is a number": not the special value NaN (infinities are numbers here) -/
def IsNum {A : Arith} (v : A.Num) : Prop := v ≠ A.num .nan

/-- Rounding to an integer does not go beyond an integer bound of its argument, for the integers up to `n` (up to 2^24 in `float`, 2^53 in `double`). -/
def RoundOKUpTo {A : Arith} (round : A.Num → Nat) (n : Nat) : Prop := ∀ m : Nat, m ≤ n → ∀ x : A.Num, x ≤ (m : A.Num) → round x ≤ m

/-- The squared distance between two points as a search tree computes it. -/
def sqrDistM (A : Arith) (p q : P3 A.Num) : A.Num :=
  A.add (A.add (A.mul (A.sub p.x q.x) (A.sub p.x q.x)) (A.mul (A.sub p.y q.y) (A.sub p.y q.y))) (A.mul (A.sub p.z q.z) (A.sub p.z q.z))

/-- The coordinates of `p` are numbers of the format, namely `x`, `y`, `z`. -/
def Coords {A : Arith} (p : P3 A.Num) (x y z : ℚ) : Prop :=
  (p.x = A.num (.fin x) ∧ p.y = A.num (.fin y) ∧ p.z = A.num (.fin z)) ∧ Finite A (.fin x) ∧ Finite A (.fin y) ∧ Finite A (.fin z)

end Verif.Spec
