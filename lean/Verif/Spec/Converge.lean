import Verif.Spec.GnShift
import Mathlib.Analysis.Normed.Group.Constructions
import Mathlib.Analysis.Normed.Group.Real
/-
Specifications for the speed of Gauss-Newton near an exact alignment (C116).
-/
namespace Verif.Spec.GN
open Verif Verif.Gn

/-- The largest difference between the twelve entries (nine of the rotation, three of the position) of two poses. -/
noncomputable def gap (T U : Pose3 ℝ) : ℝ := ‖poseVec T - poseVec U‖

/-- What is assumed of the exponential map: its values are rigid, and near zero the poses `T * exp(d)` agree with their linearisation up to a multiple of
the squared size of `d` (as they do for every twice differentiable map). -/
structure SecondOrderExp (E : Env ℝ) : Prop where
  rigid : ∀ d, IsRotation (E.exp d).R
  near : ∃ c > 0, ∃ r > 0, ∀ T : Pose3 ℝ, IsRotation T.R → ∀ d : Fin 6 → ℝ, ‖d‖ ≤ r →
    ‖poseVec (T.compose (E.exp d)) - poseVec T - (E.expJac T).mulVec d‖ ≤ c * ‖d‖ ^ 2

end Verif.Spec.GN
