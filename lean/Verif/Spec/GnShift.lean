import Verif.Spec.GnFrame
/-
Specifications for Gauss-Newton started with the right rotation (C111).
-/
namespace Verif.Spec.GN
open Verif Verif.Gn
variable {K : Type} [Field K]

/-- Velocity of the point `l` of a body turned by `R`, when the body moves with linear velocity `v` and angular velocity `w`, both given in its own
frame. -/
def velocity (R : M3 K) (v w l : P3 K) : P3 K := R.mulVec (v + P3.cross w l)

/-- The body moves with velocities `v` and `w`, and yet every paired point stays where it is, or moves along its line or plane, and no paired
normal turns. -/
structure Slides (inp : Pairings K) (R : M3 K) (v w : P3 K) : Prop where
  pts : ∀ q ∈ inp.pt2pt, velocity R v w q.local = 0
  lns : ∀ q ∈ inp.pt2ln, ∃ s : K, velocity R v w q.ptLocal = q.lnGlobal.director.smul s
  pls : ∀ q ∈ inp.pt2pl, q.plGlobal.plane.n.dot (velocity R v w q.ptLocal) = 0
  nms : ∀ q ∈ inp.pl2pl, velocity R 0 w q.pLocal.plane.n = 0

/-- The pairings hold the body: no motion keeps all of them. -/
def Holds (inp : Pairings K) (R : M3 K) : Prop := ∀ v w : P3 K, Slides inp R v w → v = 0 ∧ w = 0

/-- The weights of the point pairs in the first iteration: those of the table, if there is one. -/
def firstWeights (P : Params K) (inp : Pairings K) : List K :=
  if inp.pointWeights = [] then uniform inp P.pairWeights.pt2pt else ExpandWeights inp.pointWeights

/-- The builds that have a definite meaning for these pairings: the serial one, with no table of weights or one which covers the points; the
parallel one, without a table, however it splits its sums. -/
inductive Sound (inp : Pairings K) : Build → Prop
  | serial : BlocksCover inp → Sound inp .serial
  | tbb {sched} : inp.pointWeights = [] → ValidSchedule inp sched → Sound inp (.tbb sched)

/-- Is it the parallel build? -/
def isParallel : Build → Bool
  | .serial => false
  | .tbb _ => true

/-- The cost which the first iteration compares with the limit. -/
def firstCost (b : Build) (E : Env K) (P : Params K) (inp : Pairings K) (T : Pose3 K) : K :=
  costPoints P inp.pt2pt (firstWeights P inp) T + costOther (isParallel b) P E inp T

/-- The linear solver solves every system that has a solution. -/
def SolvesLinear (solve : Matrix (Fin 6) (Fin 6) K → (Fin 6 → K) → (Fin 6 → K)) : Prop :=
  ∀ (H : Matrix (Fin 6) (Fin 6) K) (g : Fin 6 → K), (∃ d, H.mulVec d = g) → H.mulVec (solve H g) = g

variable [LinearOrder K]

/-- All weights in use are positive, and so is the parameter of the robust kernel, if there is one. -/
structure PositiveWeights (P : Params K) (inp : Pairings K) : Prop where
  points : ∀ w ∈ firstWeights P inp, 0 < w
  lines : 0 < P.pairWeights.pt2ln
  planes : 0 < P.pairWeights.pt2pl
  normals : 0 < P.pairWeights.pl2pl
  kernel : P.kernel = .none ∨ 0 < P.kernelParam

/-- What is assumed of the external functions: the square root is one, linear systems are solved, the derivative of `T * exp(d)` is right, and the
exponential of a pure translation is that translation. -/
structure GoodEnv (E : Env K) : Prop where
  sqrt : ∀ x, 0 ≤ x → 0 ≤ E.sqrt x ∧ E.sqrt x * E.sqrt x = x
  solve : SolvesLinear E.solve
  deriv : ∀ T, IsExpDeriv T (E.expJac T)
  shift : ∀ v : P3 K, E.exp ![v.x, v.y, v.z, 0, 0, 0] = ⟨M3.one, v⟩

end Verif.Spec.GN
