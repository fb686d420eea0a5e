import Verif.Spec.GnShift
import Mathlib.Data.Nat.Choose.Basic
import Mathlib.Data.Nat.Factorial.Basic
import Mathlib.Algebra.BigOperators.Group.Finset.Basic
/-
Specifications for Gauss-Newton started with the rotation of the least-squares pose (C115).
-/
namespace Verif.Spec.GN
open Verif Verif.Gn
variable {K : Type} [Field K]

/-- The value at 1 of the Laguerre polynomial of degree `n`: 1, 0, -1/2, -2/3, -5/8, -7/15, -37/144, … -/
def laguerre (K : Type) [Field K] (n : Nat) : K := ∑ i ∈ Finset.range (n + 1), (-1) ^ i * (n.choose i : K) / (i.factorial : K)

/-- The pose with the rotation of `T`, whose position is off that of `T` by `c` times what `t0` is. -/
def partWay (T : Pose3 K) (t0 : P3 K) (c : K) : Pose3 K := ⟨T.R, T.t + P3.smul c (t0 - T.t)⟩

/-- The weighted sum of squared errors, linearised at `T`, is least at `T`: its gradient is zero. -/
def Balanced (E : Env K) (P : Params K) (inp : Pairings K) (T : Pose3 K) : Prop :=
  (system E P inp (uniform inp P.pairWeights.pt2pt) T).2 = 0

end Verif.Spec.GN
