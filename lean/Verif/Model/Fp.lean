import Mathlib.Data.Rat.Floor
import Mathlib.Data.Int.Log
import Mathlib.Order.Monotone.Basic
/-
Floating point arithmetic (IEEE 754), for the parts of the code whose behaviour depends on it: `float` and `double` of C++, i.e. the arithmetic
that /repo uses through MRPT and the compiler.  A number is a rational; rounding is a parameter with the laws that every IEEE rounding to a
given format has.  Simplifications: one zero (the sign of zero is left out: dividing by zero gives the infinity of the sign of the
numerator), one not-a-number, no traps, and each operation is rounded once, as with SSE2 or NEON without contraction of `a*b+c`.
-/
namespace Verif
namespace Fp

/-- A value of a floating point type. -/
inductive Fl where
  | fin (q : ℚ)
  | pinf
  | ninf
  | nan
  deriving DecidableEq

/-- A format with its rounding: `rnd` rounds as if there were no largest exponent, `top` is the largest finite number. -/
structure Arith where
  rnd : ℚ → ℚ
  top : ℚ
  mono : Monotone rnd
  idem : ∀ x, rnd (rnd x) = rnd x
  rnd_neg : ∀ x, rnd (-x) = -rnd x
  rnd_one : rnd 1 = 1
  rnd_top : rnd top = top
  one_le_top : 1 ≤ top

/-- Rounding of an exact result, with overflow. -/
def Arith.fl (A : Arith) (x : ℚ) : Fl :=
  if A.top < A.rnd x then .pinf else if A.rnd x < -A.top then .ninf else .fin (A.rnd x)

/-- A value of this format. -/
def Arith.Rep (A : Arith) : Fl → Prop
  | .fin q => A.fl q = .fin q
  | _ => True

def Fl.neg : Fl → Fl
  | .fin q => .fin (-q)
  | .pinf => .ninf
  | .ninf => .pinf
  | .nan => .nan

/-- `a + b` -/
def Arith.add (A : Arith) : Fl → Fl → Fl
  | .nan, _ => .nan
  | _, .nan => .nan
  | .fin a, .fin b => A.fl (a + b)
  | .pinf, .ninf => .nan
  | .ninf, .pinf => .nan
  | .pinf, _ => .pinf
  | _, .pinf => .pinf
  | .ninf, _ => .ninf
  | _, .ninf => .ninf

/-- `a - b` -/
def Arith.sub (A : Arith) (a b : Fl) : Fl := A.add a b.neg

/-- the infinity of the sign of `q`, not a number for 0 -/
def infOf (q : ℚ) : Fl := if 0 < q then .pinf else if q < 0 then .ninf else .nan

/-- `a * b` -/
def Arith.mul (A : Arith) : Fl → Fl → Fl
  | .nan, _ => .nan
  | _, .nan => .nan
  | .fin a, .fin b => A.fl (a * b)
  | .fin a, .pinf => infOf a
  | .pinf, .fin b => infOf b
  | .fin a, .ninf => (infOf a).neg
  | .ninf, .fin b => (infOf b).neg
  | .pinf, .pinf => .pinf
  | .ninf, .ninf => .pinf
  | .pinf, .ninf => .ninf
  | .ninf, .pinf => .ninf

/-- `a / b` -/
def Arith.div (A : Arith) : Fl → Fl → Fl
  | .nan, _ => .nan
  | _, .nan => .nan
  | .fin a, .fin b => if b = 0 then infOf a else A.fl (a / b)
  | .fin _, .pinf => .fin 0
  | .fin _, .ninf => .fin 0
  | .pinf, .fin b => if b < 0 then .ninf else .pinf
  | .ninf, .fin b => if b < 0 then .pinf else .ninf
  | _, _ => .nan

/-- `a < b` -/
def Fl.lt : Fl → Fl → Bool
  | .nan, _ => false
  | _, .nan => false
  | .fin a, .fin b => decide (a < b)
  | .pinf, _ => false
  | _, .ninf => false
  | .ninf, _ => true
  | .fin _, .pinf => true

/-- `a <= b` -/
def Fl.le : Fl → Fl → Bool
  | .nan, _ => false
  | _, .nan => false
  | .fin a, .fin b => decide (a ≤ b)
  | .ninf, _ => true
  | _, .pinf => true
  | _, _ => false

/-- `a == b` -/
def Fl.eq (a b : Fl) : Bool := a.le b && b.le a

/-- `std::clamp(v, lo, hi)` -/
def clampF (v lo hi : Fl) : Fl := if v.lt lo then lo else if hi.lt v then hi else v

instance : Zero Fl := ⟨.fin 0⟩

/-- The numbers of arithmetic `A`, for the models that are written for any type of numbers (evaluation of the quality, paired ratio, robust
kernels): they are run here with the arithmetic of the machine. -/
def Arith.Num (_ : Arith) : Type := Fl

/-- a value as a number of arithmetic `A`, and back -/
def Arith.num (A : Arith) (v : Fl) : A.Num := v
def Arith.val (A : Arith) (v : A.Num) : Fl := v

instance (A : Arith) : DecidableEq A.Num := inferInstanceAs (DecidableEq Fl)
instance (A : Arith) : Zero A.Num := ⟨(.fin 0 : Fl)⟩
instance (A : Arith) : Add A.Num := ⟨A.add⟩
instance (A : Arith) : Neg A.Num := ⟨Fl.neg⟩
instance (A : Arith) : Mul A.Num := ⟨A.mul⟩
instance (A : Arith) : Div A.Num := ⟨A.div⟩
instance (A : Arith) : LT A.Num := ⟨fun a b => Fl.lt a b = true⟩
instance (A : Arith) : DecidableLT A.Num := fun a b => inferInstanceAs (Decidable (Fl.lt a b = true))
instance (A : Arith) : LE A.Num := ⟨fun a b => Fl.le a b = true⟩
instance (A : Arith) : DecidableLE A.Num := fun a b => inferInstanceAs (Decidable (Fl.le a b = true))
instance (A : Arith) : One A.Num := ⟨(.fin 1 : Fl)⟩
/-- conversion of integers -/
instance (A : Arith) : NatCast A.Num := ⟨fun n => A.fl n⟩

/-! ### the binary formats, to the nearest, ties to even -/

/-- Nearest integer, halves to the even one. -/
def nearest (q : ℚ) : ℤ :=
  if q - ⌊q⌋ < 1 / 2 then ⌊q⌋ else if 1 / 2 < q - ⌊q⌋ then ⌊q⌋ + 1 else if ⌊q⌋ % 2 = 0 then ⌊q⌋ else ⌊q⌋ + 1

/-- exponent of the unit in the last place of `x`, with `p` digits and no unit below `2 ^ emin` -/
def ulpExp (p : ℕ) (emin : ℤ) (x : ℚ) : ℤ := max (Int.log 2 |x| - p + 1) emin

/-- rounding to `p` binary digits -/
def roundBin (p : ℕ) (emin : ℤ) (x : ℚ) : ℚ := nearest (x / 2 ^ ulpExp p emin x) * 2 ^ ulpExp p emin x

end Fp
end Verif
