import Verif.Spec.Icp
/-
Specifications for runs cut short and continued (C122).
-/
namespace Verif.Spec
open Verif
variable {K Pose MS : Type} [LT K] [DecidableLT K] [Zero K] [Add K] [Mul K] [Div K] [Neg K]

/-- Nothing in the pipeline looks at the number of the iteration or at what was before: the matchers see the pose, the solvers the pairings and
the pose, the quality evaluators the pose and the pairings; no solver retires; there is no hook. -/
structure Memoryless (ops : PoseOps K Pose) (env : IcpEnv K Pose MS) : Prop where
  matchers : ∀ i j T, runMatchers env.matchers i T env.freshMS = runMatchers env.matchers j T env.freshMS
  solvers : ∀ prs T, ∃ a : Outcome (Bool × Sol K Pose), ∀ out sc fin, sc.guess = some T →
    runSolvers ops.tnorm env.solvers prs out sc fin = a.bind fun x => .ok (x.1, x.2, fin)
  quality : ∀ e ∈ env.quality, ∀ i j fin T prs, e.eval i fin T prs = e.eval j fin T prs
  hook : env.hook = none

/-- Two iterations with the same content, the second counted from iteration `N`. -/
structure SameEvent (N : Nat) (a b : IterEvent K Pose) : Prop where
  iter : b.iter = N + a.iter
  poseIn : b.poseIn = a.poseIn
  pairings : b.pairings = a.pairings
  solver : b.solver = a.solver
  stop : b.stop = a.stop

end Verif.Spec
