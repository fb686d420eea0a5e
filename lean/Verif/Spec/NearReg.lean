import Verif.Spec.Converge
import Verif.Spec.EndToEnd
/-
Specifications for whole registrations from guesses near the true motion (C117).
-/
namespace Verif.Spec
open Verif Verif.Spec.GN

/-- Given pairings of the points with their true places, the solver answers, from every rigid guess within `ρ` of the true motion, with a rigid motion
whose distance to the true one is at most `C` times the square of the distance of the guess. -/
def SquaresNear (sv : Solver ℝ (Pose3 ℝ)) (tnorm : Pose3 ℝ → ℝ) (pts : List (P3 ℝ)) (T : Pose3 ℝ) (C ρ : ℝ) : Prop :=
  ∀ G : Pose3 ℝ, IsRotation G.R → gap G T ≤ ρ → ∀ prs, PairedWith pts T prs → ∀ out sc fin, sc.guess = some G →
    ∃ T', runSolvers tnorm [sv] prs out sc fin = .ok (true, ⟨T', 1⟩, fin) ∧ IsRotation T'.R ∧ gap T' T ≤ C * gap G T ^ 2

/-- The lengths of the step between two poses close to `T` are small. -/
def SmoothDiffs (ops : PoseOps ℝ (Pose3 ℝ)) (T : Pose3 ℝ) : Prop :=
  ∀ ε > 0, ∃ δ > 0, ∀ a b : Pose3 ℝ, IsRotation a.R → IsRotation b.R → gap a T ≤ δ → gap b T ≤ δ →
    (ops.logNorms (ops.sub a b)).1 < ε ∧ (ops.logNorms (ops.sub a b)).2 < ε

end Verif.Spec
