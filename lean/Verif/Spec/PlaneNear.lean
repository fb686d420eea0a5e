import Verif.Spec.PlaneReg
import Verif.Spec.NearReg
/-
Specifications for registrations with planes from guesses near the true motion (C119).
-/
namespace Verif.Spec
open Verif Verif.Spec.GN

/-- Around `T` the map answers steadily: from every pose within some distance of `T`, each local point `x` is answered with the same plane `f x`, within the threshold; its true
place is on that plane; and together the planes hold the body. -/
structure SteadyPlanes (c : PlCfg ℝ) (g : GLayer ℝ) (pts : List (P3 ℝ)) (T : Pose3 ℝ) (f : P3 ℝ → PlanePatch ℝ) : Prop where
  steady : ∃ ρ > 0, ∀ G : Pose3 ℝ, IsRotation G.R → gap G T ≤ ρ →
    (∀ x ∈ pts, ∃ d, g.nnPlane (G.composePoint x) c.thr = some (f x, d) ∧ d ≤ c.thr) ∧ g.boxesMeet (pts.map G.composePoint) (c.thr + c.eps) = true
  on : ∀ x ∈ pts, OnPlane (f x).plane (T.composePoint x)
  hold : ∀ v w : P3 ℝ, (∀ x ∈ pts, (f x).plane.n.dot (velocity T.R v w x) = 0) → v = 0 ∧ w = 0

/-- All the points are paired, in order, each with its plane; nothing else. -/
def PairedPlanes (pts : List (P3 ℝ)) (f : P3 ℝ → PlanePatch ℝ) (prs : Pairings ℝ) : Prop :=
  prs = { pt2pl := pts.map fun x => ⟨f x, x⟩, potential := pts.length }

end Verif.Spec
