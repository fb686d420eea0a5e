import Verif.Spec.ErrorTerms
import Mathlib.Analysis.Calculus.Deriv.Add
import Mathlib.Analysis.Calculus.Deriv.Mul
/-
Jacobians as directional derivatives, over the reals.
-/
namespace Verif.Spec

/-- `J` is the Jacobian of `f` at `T` with respect to the 12 entries of the pose: in every direction `D`, and for every
component, the derivative at zero of `s ↦ f (T + s D)` is `J` times the entries of `D`. -/
def IsJacobianAt {n : Nat} (f : Pose3 ℝ → Fin n → ℝ) (J : Matrix (Fin n) (Fin 12) ℝ) (T : Pose3 ℝ) : Prop :=
  ∀ (D : Pose3 ℝ) (i : Fin n),
    HasDerivAt (fun s : ℝ => f (perturb T (scalePose s D)) i) (J.mulVec (poseVec D) i) 0

end Verif.Spec
