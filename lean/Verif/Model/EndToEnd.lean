import Verif.Model.Icp
import Verif.Model.HornOlae
import Verif.Model.Matchers
import Verif.Model.PairedRatio
import Verif.Model.GaussNewton
/-
A complete registration: the ICP loop with a real matcher, a real solver and a real quality evaluator, put together
from the models of its parts (C93, C94).
-/
namespace Verif
section
variable {K : Type} [Field K] [LinearOrder K]

/-- What `Solver_Horn::impl_optimal_pose` leaves behind, Solver_Horn.cpp:45, 58 and optimal_tf_horn.cpp:206: the output is
reset to `OptimalTF_Result()` (identity pose, scale 1, OptimalTF_Result.h:32-39) at the start, and then given the pose
if there is one; the return value tells. -/
def hornAnswer (r : Option (TFResult K)) : Bool × Sol K (Pose3 K) :=
  match r with
  | none => (false, ⟨Pose3.identity, 1⟩)
  | some r => (true, ⟨r.pose, 1⟩)

/-- `Solver_Horn` as a solver object, Solver_Horn.cpp:40-61; always enabled. -/
def hornAsSolver (e : HornEnv K) (nearOne : P3 K → Bool) (ratio : K) (wp : WeightParams K) : Solver K (Pose3 K) where
  ident := 0
  untilCorr := 0
  impl sc p _ := (solverHorn e nearOne ratio wp p sc.guess).bind fun r => .ok (hornAnswer r)

/-- `Solver_OLAE` as a solver object, Solver_OLAE.cpp:46-69; it is successful whenever it does not throw,
optimal_tf_olae.cpp:356, with scale 1. -/
def olaeAsSolver (e : OlaeEnv K) (nearOne : P3 K → Bool) (ratio : K) (wp : WeightParams K) : Solver K (Pose3 K) where
  ident := 0
  untilCorr := 0
  impl sc p _ := (solverOlae e nearOne ratio wp p sc.guess).bind fun r => .ok (true, ⟨r.pose, 1⟩)

/-- `Solver_GaussNewton` as a solver object, Solver_GaussNewton.cpp:42-71: the output is reset to `OptimalTF_Result()` (scale 1) and
then given the pose; successful whenever it does not throw (optimal_tf_gauss_newton.cpp:369).  `b` is the build and, with TBB, the
split of the sums chosen at each call.  Simplification: the prior, a member of the solver context (Solver_GaussNewton.cpp:58), is the
one of `P` for all the calls. -/
def gnAsSolver (b : SolverCtx (Pose3 K) → Pairings K → Gn.Build) (E : Gn.Env K) (P : Gn.Params K) : Solver K (Pose3 K) where
  ident := 0
  untilCorr := 0
  impl sc p _ := (Gn.solver (b sc p) E P p sc.guess).bind fun r => .ok (r.ret, ⟨r.pose, 1⟩)

/-- `QualityEvaluator_PairedRatio` on the pairings of the ICP run, with weight one. -/
def pairedRatioEval (minRatio : K) : QualEval K (Pose3 K) where
  weight := 1
  eval _ _ _ prs := .ok (pairedRatio minRatio prs)

/-- A fresh `MatchState` for one global and one local layer of the given name, Matcher.h:41-47, Matcher.cpp:62-67. -/
def freshState (name : String) (nGlobal : Nat) (dense : Bool) (nLocal : Nat) : MatchState K where
  localFlags := initFlags [(name, some (nLocal, true))] []
  globalFlags := initFlags [(name, some (nGlobal, dense))] []

/-- An ICP pipeline of one distance-threshold matcher, the Horn solver and the paired-ratio evaluator, set up on a global
map with one layer and a local map with one point cloud of the same name; no hook (the setting of
/repo/mp2p_icp/tests/test-mp2p_icp_algos.cpp and of the demo pipelines). -/
def simpleIcp (c : DTCfg K) (s : Solver K (Pose3 K)) (minRatio : K) (name : String) (g : GLayer K) (nGlobal : Nat)
    (dense : Bool) (pts : List (P3 K)) : IcpEnv K (Pose3 K) (MatchState K) where
  matchers := [(PtMatcher.distanceThreshold c).toMatcher Pose3.composePoint [(name, g)] [(name, some pts)]]
  solvers := [s]
  quality := [pairedRatioEval minRatio]
  hook := none
  freshMS := freshState name nGlobal dense pts.length

/-- The same with a point-to-plane matcher (Matcher_Point2Plane.cpp) instead. -/
def planeIcp (c : PlCfg K) (s : Solver K (Pose3 K)) (minRatio : K) (name : String) (g : GLayer K) (nGlobal : Nat)
    (dense : Bool) (pts : List (P3 K)) : IcpEnv K (Pose3 K) (MatchState K) where
  matchers := [(PtMatcher.point2plane c).toMatcher Pose3.composePoint [(name, g)] [(name, some pts)]]
  solvers := [s]
  quality := [pairedRatioEval minRatio]
  hook := none
  freshMS := freshState name nGlobal dense pts.length

end
end Verif
