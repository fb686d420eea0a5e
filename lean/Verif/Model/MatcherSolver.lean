import Verif.Model.Pairings
/-
Base classes `Matcher` and `Solver`, `run_matchers`, `ICP::run_solvers`:
/repo/mp2p_icp/src/Matcher.cpp, /repo/mp2p_icp/src/Solver.cpp, /repo/mp2p_icp/src/ICP.cpp:469-479.

Concrete matchers and solvers are arbitrary functions here (`impl`).  The maps being registered are
fixed during one ICP run and are part of the closure of `impl`.  Hidden mutable state or randomness of
an implementation is covered too: each object is called at most once per ICP iteration, the iteration
number is an argument of `impl`, and all theorems quantify over all functions `impl`.
-/
namespace Verif

/-- `mrpt::keep_min(a, b)` (external): `if (b < a) a = b;` -/
def keepMin {K : Type} [LT K] [DecidableLT K] (a b : K) : K := if b < a then b else a

/-- `mrpt::keep_max(a, b)` (external): `if (b > a) a = b;` -/
def keepMax {K : Type} [LT K] [DecidableLT K] (a b : K) : K := if a < b then b else a

/-- `std::max(a, b)`: `(a < b) ? b : a` -/
def stdMax {K : Type} [LT K] [DecidableLT K] (a b : K) : K := if a < b then b else a

/-- A matcher object: Matcher.h (enabled, runFromIteration, runUpToIteration, impl_match).
`impl iter pose ms out` = (return value, updated match state, updated `out`). -/
structure Matcher (K Pose MS : Type) where
  enabled : Bool := true
  runFrom : Nat := 0
  runUpTo : Nat := 0
  impl : Nat → Pose → MS → Pairings K → Outcome (Bool × MS × Pairings K)

/-- `Matcher::match`, Matcher.cpp:35-44. -/
def Matcher.run {K Pose MS : Type} (m : Matcher K Pose MS) (iter : Nat) (pose : Pose) (ms : MS)
    (out : Pairings K) : Outcome (Bool × MS × Pairings K) :=
  if !m.enabled then .ok (false, ms, out)
  else if iter < m.runFrom then .ok (false, ms, out)
  else if m.runUpTo > 0 && iter > m.runUpTo then .ok (false, ms, out)
  else m.impl iter pose ms out

/-- Loop of `run_matchers`, Matcher.cpp:71-78 (`anyRun` only drives a warning on stderr; omitted). -/
def runMatchersLoop {K Pose MS : Type} (iter : Nat) (pose : Pose) :
    List (Matcher K Pose MS) → MS → Pairings K → Outcome (MS × Pairings K)
  | [], ms, acc => .ok (ms, acc)
  | m :: rest, ms, acc =>
    (m.run iter pose ms {}).bind fun (_, ms', pc) =>
      runMatchersLoop iter pose rest ms' (acc.pushBackCopy pc)

/-- `run_matchers`, Matcher.cpp:46-88.  `ms0` is the user-provided match state or a freshly
initialised one. -/
def runMatchers {K Pose MS : Type} (matchers : List (Matcher K Pose MS)) (iter : Nat) (pose : Pose)
    (ms0 : MS) : Outcome (MS × Pairings K) :=
  runMatchersLoop iter pose matchers ms0 {}

/-- `OptimalTF_Result`, OptimalTF_Result.h:32-39 (pose and scale; the outlier indices are not used by
the ICP loop and omitted). -/
structure Sol (K Pose : Type) where
  pose : Pose
  scale : K
  deriving DecidableEq, Repr

/-- `SolverContext`, Solver.h:43-61, without the per-solver data (threaded apart) and the prior
(constant during the run, part of the closure of `impl`). -/
structure SolverCtx (Pose : Type) where
  iter : Option Nat
  guess : Option Pose
  fromInitial : Option Pose
  lastStep : Option Pose

/-- A solver object; `ident` stands for its address (key of `perSolverPersistentData`). -/
structure Solver (K Pose : Type) where
  ident : Nat
  enabled : Bool := true
  runFrom : Nat := 0
  runUpTo : Nat := 0
  untilCorr : K
  impl : SolverCtx Pose → Pairings K → Sol K Pose → Outcome (Bool × Sol K Pose)

/-- The iteration-window test of `Solver::optimal_pose`, Solver.cpp:41-43 (skipped when the context
has no iteration number). -/
def Solver.outsideWindow {K Pose : Type} (s : Solver K Pose) (sc : SolverCtx Pose) : Bool :=
  match sc.iter with
  | some i => decide (i < s.runFrom) || (decide (s.runUpTo > 0) && decide (i > s.runUpTo))
  | none => false

/-- The step test of `Solver::optimal_pose`, Solver.cpp:52-53. -/
def SolverCtx.stepBelow {K Pose : Type} [LT K] [DecidableLT K] (tnorm : Pose → K)
    (sc : SolverCtx Pose) (thr : K) : Bool :=
  match sc.lastStep with
  | some d => decide (tnorm d < thr)
  | none => false

/-- `Solver::optimal_pose`, Solver.cpp:36-64.  `fin` = solvers having the "finished" mark in
`perSolverPersistentData`; `tnorm` = norm of the translation of a pose.
Result: (return value, solution, finished marks). -/
def Solver.optimalPose {K Pose : Type} [LT K] [DecidableLT K] [Zero K] (tnorm : Pose → K)
    (s : Solver K Pose) (pairings : Pairings K) (out : Sol K Pose) (sc : SolverCtx Pose)
    (fin : List Nat) : Outcome (Bool × Sol K Pose × List Nat) :=
  if !s.enabled then .ok (false, out, fin)
  else if s.outsideWindow sc then .ok (false, out, fin)
  else if s.untilCorr > 0 ∧ s.ident ∈ fin then .ok (false, out, fin)
  else if s.untilCorr > 0 ∧ sc.stepBelow tnorm s.untilCorr = true then
    .ok (false, out, s.ident :: fin)
  else
    (s.impl sc pairings out).bind fun (r, sol) => .ok (r, sol, fin)

/-- `ICP::run_solvers`, ICP.cpp:469-479. -/
def runSolvers {K Pose : Type} [LT K] [DecidableLT K] [Zero K] (tnorm : Pose → K) :
    List (Solver K Pose) → Pairings K → Sol K Pose → SolverCtx Pose → List Nat →
    Outcome (Bool × Sol K Pose × List Nat)
  | [], _, out, _, fin => .ok (false, out, fin)
  | s :: rest, pairings, out, sc, fin =>
    (s.optimalPose tnorm pairings out sc fin).bind fun (r, out', fin') =>
      if r then .ok (true, out', fin') else runSolvers tnorm rest pairings out' sc fin'

end Verif
