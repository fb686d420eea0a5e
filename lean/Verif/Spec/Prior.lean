import Verif.Model.Prior
import Verif.Spec.Downhill
import Verif.Spec.Converge
import Mathlib.Topology.Instances.Matrix
/-
Specifications for the prior of Gauss-Newton (C120).
-/
namespace Verif.Spec.GN
open Verif Verif.Gn Matrix

/-- A matrix that can be the information of something: symmetric, and nowhere negative. -/
structure Information (Λ : Matrix (Fin 6) (Fin 6) ℝ) : Prop where
  symm : Λ.transpose = Λ
  nonneg : ∀ v : Fin 6 → ℝ, 0 ≤ v ⬝ᵥ Λ.mulVec v

/-- Information on every coordinate. -/
def Full (Λ : Matrix (Fin 6) (Fin 6) ℝ) : Prop := ∀ v : Fin 6 → ℝ, v ⬝ᵥ Λ.mulVec v = 0 → v = 0

/-- How far a pose is from what is expected: the squared error, in the metric of the information. -/
noncomputable def priorCost (L : PriorEnv ℝ) (p : PriorPdf ℝ) (T : Pose3 ℝ) : ℝ :=
  L.log (seenFrom p.mean T) ⬝ᵥ p.inf.mulVec (L.log (seenFrom p.mean T))

/-- The cost of the pairings and of the prior. -/
noncomputable def wholeCost (P : Params ℝ) (inp : Pairings ℝ) (ws : List ℝ) (L : PriorEnv ℝ) (p : PriorPdf ℝ) (T : Pose3 ℝ) : ℝ :=
  robustCost P inp ws T + priorCost L p T

/-- The matrix given as derivative of the error of the prior is its derivative, at `T`, along every motion. -/
def DerivesLog (E : Env ℝ) (L : PriorEnv ℝ) (p : PriorPdf ℝ) (T : Pose3 ℝ) : Prop :=
  ∀ (d : Fin 6 → ℝ) (i : Fin 6), HasDerivAt (fun s => L.log (seenFrom p.mean (path E T d s)) i) ((L.jac p.mean T).mulVec d i) 0

/-- Moving from `T` in direction `d`, the whole cost starts to change at the rate `v`. -/
def WholeRate (E : Env ℝ) (P : Params ℝ) (inp : Pairings ℝ) (ws : List ℝ) (L : PriorEnv ℝ) (p : PriorPdf ℝ) (T : Pose3 ℝ) (d : Fin 6 → ℝ) (v : ℝ) : Prop :=
  HasDerivAt (fun s => wholeCost P inp ws L p (path E T d s)) v 0

/-- The whole cost is stationary at `T`. -/
def WholeStationary (E : Env ℝ) (P : Params ℝ) (inp : Pairings ℝ) (ws : List ℝ) (L : PriorEnv ℝ) (p : PriorPdf ℝ) (T : Pose3 ℝ) : Prop :=
  ∀ d, WholeRate E P inp ws L p T d 0

/-- Near the mean, the error of the prior is a smooth function of the entries of the pose, zero at the mean, and the matrix given is its derivative: the
derivative with respect to the entries, times the derivative of the entries. -/
structure SmoothPrior (E : Env ℝ) (L : PriorEnv ℝ) (mean : Pose3 ℝ) where
  err : (Fin 12 → ℝ) → (Fin 6 → ℝ)
  slope : (Fin 12 → ℝ) → Matrix (Fin 6) (Fin 12) ℝ
  radius : ℝ
  curb : ℝ
  positive : 0 < radius
  curbNonneg : 0 ≤ curb
  isErr : ∀ T : Pose3 ℝ, IsRotation T.R → gap T mean ≤ radius → L.log (seenFrom mean T) = err (poseVec T)
  isSlope : ∀ T : Pose3 ℝ, IsRotation T.R → gap T mean ≤ radius → L.jac mean T = slope (poseVec T) * E.expJac T
  second : ∀ x, ‖x - poseVec mean‖ ≤ radius → ‖err x - (slope x).mulVec (x - poseVec mean)‖ ≤ curb * ‖x - poseVec mean‖ ^ 2
  continuous : ContinuousAt slope (poseVec mean)

/-- The velocities, linear and angular in the frame of the body, as one increment. -/
def twist (v w : P3 ℝ) : Fin 6 → ℝ := ![v.x, v.y, v.z, w.x, w.y, w.z]

/-- The pairings together with the prior hold the body: a motion that keeps all pairings, and of which the prior tells nothing, is none. -/
def HoldsWith (inp : Pairings ℝ) (L : PriorEnv ℝ) (p : PriorPdf ℝ) (T : Pose3 ℝ) : Prop :=
  ∀ v w : P3 ℝ, Slides inp T.R v w →
    (L.jac p.mean T).mulVec (twist v w) ⬝ᵥ p.inf.mulVec ((L.jac p.mean T).mulVec (twist v w)) = 0 → v = 0 ∧ w = 0

/-- The pairings leave no error. -/
structure NoError (inp : Pairings ℝ) (T : Pose3 ℝ) : Prop where
  pts : ∀ q ∈ inp.pt2pt, Err.pt2pt q T = 0
  lns : ∀ q ∈ inp.pt2ln, Err.pt2ln q T = 0
  pls : ∀ q ∈ inp.pt2pl, Err.pt2pl q T = 0
  nms : ∀ q ∈ inp.pl2pl, Err.pl2pl q T = 0

end Verif.Spec.GN
