import Verif.Spec.GnShift
import Mathlib.Analysis.SpecialFunctions.Log.Basic
import Mathlib.Analysis.Calculus.Deriv.Add
import Mathlib.Analysis.Calculus.Deriv.Mul
/-
Specifications for the robust cost that Gauss-Newton lowers (C114).
-/
namespace Verif.Spec.GN
open Verif Verif.Gn

/-- The loss of a squared error `s`: the error itself without a kernel; else the losses known by the names of Geman-McClure and Cauchy. -/
noncomputable def loss (kernel : RobustKernel) (c s : ℝ) : ℝ :=
  match kernel with
  | .none => s
  | .gemanMcClure => c * s / (s + c)
  | .cauchy => c ^ 2 * Real.log (1 + s / c ^ 2)

/-- The cost of placing the body at `T`: the weighted losses of all pairings of points with points, lines and planes, and of planes. -/
noncomputable def robustCost (P : Params ℝ) (inp : Pairings ℝ) (ws : List ℝ) (T : Pose3 ℝ) : ℝ :=
  ((inp.pt2pt.zip ws).map fun q => q.2 * loss P.kernel P.kernelParam (sqLen (Err.pt2pt q.1 T))).sum +
  (inp.pt2ln.map fun q => P.pairWeights.pt2ln * loss P.kernel P.kernelParam (sqLen (Err.pt2ln q T))).sum +
  (inp.pt2pl.map fun q => P.pairWeights.pt2pl * loss P.kernel P.kernelParam (sqLen (Err.pt2pl q T))).sum +
  (inp.pl2pl.map fun q => P.pairWeights.pl2pl * loss P.kernel P.kernelParam (sqLen (Err.pl2pl q T))).sum

/-- The squared errors at `U`, each with the weight it has, after the robust kernel, at `T`. -/
noncomputable def weightedSquares (P : Params ℝ) (inp : Pairings ℝ) (ws : List ℝ) (T U : Pose3 ℝ) : ℝ :=
  ((inp.pt2pt.zip ws).map fun q => robust P q.2 (Err.pt2pt q.1 T) * sqLen (Err.pt2pt q.1 U)).sum +
  (inp.pt2ln.map fun q => robust P P.pairWeights.pt2ln (Err.pt2ln q T) * sqLen (Err.pt2ln q U)).sum +
  (inp.pt2pl.map fun q => robust P P.pairWeights.pt2pl (Err.pt2pl q T) * sqLen (Err.pt2pl q U)).sum +
  (inp.pl2pl.map fun q => robust P P.pairWeights.pl2pl (Err.pl2pl q T) * sqLen (Err.pl2pl q U)).sum

/-- The motion from `T` in direction `d`: at time `s`, the pose composed with the exponential of `s d`. -/
def path (E : Env ℝ) (T : Pose3 ℝ) (d : Fin 6 → ℝ) (s : ℝ) : Pose3 ℝ := T.compose (E.exp (s • d))

/-- The matrix given as derivative of the exponential is its derivative: along every motion, and for every entry of the pose. -/
def DerivesExp (E : Env ℝ) : Prop :=
  ∀ (T : Pose3 ℝ) (d : Fin 6 → ℝ) (i : Fin 12),
    HasDerivAt (fun s => poseVec (path E T d s) i) ((E.expJac T).mulVec d i) 0

/-- The exponential of nothing is the identity. -/
def FixesZero (E : Env ℝ) : Prop := E.exp 0 = Pose3.identity

/-- Moving from `T` in direction `d`, the cost starts to change at the rate `v`. -/
def Rate (E : Env ℝ) (P : Params ℝ) (inp : Pairings ℝ) (ws : List ℝ) (T : Pose3 ℝ) (d : Fin 6 → ℝ) (v : ℝ) : Prop :=
  HasDerivAt (fun s => robustCost P inp ws (path E T d s)) v 0

/-- The cost is stationary at `T`: it changes, to first order, in no direction. -/
def Stationary (E : Env ℝ) (P : Params ℝ) (inp : Pairings ℝ) (ws : List ℝ) (T : Pose3 ℝ) : Prop :=
  ∀ d, Rate E P inp ws T d 0

end Verif.Spec.GN
