import Verif.Model.GaussNewton
/-
The prior of Gauss-Newton: optimal_tf_gauss_newton.cpp:310-341, Solver_GaussNewton.cpp:56, ICP.cpp:121.
-/
namespace Verif.Gn
variable {K : Type}

/-- The two MRPT functions which the prior term calls: `Lie::SE<3>::log`, and the derivative with respect to the second pose given by
`Lie::SE<3>::jacob_dDinvP1invP2_de1e2` for the identity as first argument (optimal_tf_gauss_newton.cpp:319, 323-333). -/
structure PriorEnv (K : Type) where
  log : Pose3 K → (Fin 6 → K)
  jac : Pose3 K → Pose3 K → Matrix (Fin 6) (Fin 6) K

/-- `CPose3DPDFGaussianInf`: mean and information matrix (`cov_inv`). -/
structure PriorPdf (K : Type) where
  mean : Pose3 K
  inf : Matrix (Fin 6) (Fin 6) K

section
variable [Field K]

/-- `A - B` of two `CPose3D`: the pose `A` seen from `B` (`CPose3D::inverseComposeFrom`). -/
def seenFrom (B A : Pose3 K) : Pose3 K := ⟨B.R.transpose.mul A.R, B.R.transpose.mulVec (A.t - B.t)⟩

/-- What the prior adds to the linear system at pose `T`, optimal_tf_gauss_newton.cpp:313-340. -/
def priorTerm (L : PriorEnv K) (p : PriorPdf K) (T : Pose3 K) : Sys K :=
  let e := L.log (seenFrom p.mean T)
  let D := L.jac p.mean T
  (D.transpose * p.inf * D, (D.transpose * p.inf).mulVec e)

/-- The parameters with the prior of the solver context (Solver_GaussNewton.cpp:56, ICP.cpp:121), if there is one. -/
def withPrior (P : Params K) (L : PriorEnv K) (p : Option (PriorPdf K)) : Params K := { P with prior := p.map (priorTerm L) }

end
end Verif.Gn
