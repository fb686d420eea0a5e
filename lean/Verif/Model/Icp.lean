import Verif.Model.MatcherSolver
import Mathlib.Order.Defs.LinearOrder
/-
`ICP::align` and `ICP::evaluate_quality`: /repo/mp2p_icp/src/ICP.cpp:36-382 and 608-634.

Not modelled: profiling, debug printing, covariance (own module), the parameter sources
(`lambdaAddOwnParams`, own module), `functor_before_logging_*`, `save_log_file` (own module).
-/
namespace Verif

/-- `enum class IterTermReason`, IterTermReason.h. -/
inductive Reason where
  | undefined | noPairings | solverError | maxIterations | stalled | qualityCheckpointFailed | hookRequest
  deriving DecidableEq, Repr

/-- One quality evaluator with its weight (`QualityEvaluatorEntry`).  `eval iter final pose pairings` =
(quality, hard_discard); `final` tells the call after the loop from the checkpoint call of `iter`. -/
structure QualEval (K Pose : Type) where
  weight : K
  eval : Nat → Bool → Pose → Pairings K → Outcome (K × Bool)

section quality
variable {K Pose : Type} [LT K] [DecidableLT K] [Zero K] [Add K] [Mul K] [Div K]

/-- Loop and end of `evaluate_quality`, ICP.cpp:615-633. -/
def evaluateQualityLoop (it : Nat) (fin : Bool) (pose : Pose) (prs : Pairings K) :
    List (QualEval K Pose) → K → K → Outcome K
  | [], sumW, sumE => do
    Outcome.assert (sumW > 0)
    return sumE / sumW
  | e :: rest, sumW, sumE => do
    Outcome.assert (e.weight > 0)
    let r ← e.eval it fin pose prs
    if r.2 then return 0
    else evaluateQualityLoop it fin pose prs rest (sumW + e.weight) (sumE + e.weight * r.1)

/-- `ICP::evaluate_quality`, ICP.cpp:608-634. -/
def evaluateQuality (evs : List (QualEval K Pose)) (it : Nat) (fin : Bool) (pose : Pose)
    (prs : Pairings K) : Outcome K := do
  Outcome.assert (evs ≠ [])
  evaluateQualityLoop it fin pose prs evs 0 0

end quality

/-- Pose arithmetic used by the loop (MRPT's `CPose3D`): `sub a b` = `a ⊖ b`; `tnorm d` =
`d.translation().norm()`; `logNorms d` = the norms of the first and last three components of
`Lie::SE<3>::log(d)` (ICP.cpp:191-198). -/
structure PoseOps (K Pose : Type) where
  sub : Pose → Pose → Pose
  tnorm : Pose → K
  logNorms : Pose → K × K
  ident : Pose

/-- `Parameters` used by `align`. -/
structure IcpParams (K : Type) where
  maxIterations : Nat
  minAbsStepTrans : K
  minAbsStepRot : K
  saveIterationDetails : Bool := false
  decimationIterationDetails : Nat := 0
  generateDebugFiles : Bool := false
  /-- `std::map<uint32_t,double>`, looked up by iteration. -/
  qualityCheckpoints : List (Nat × K) := []

/-- Everything `align` calls out to. -/
structure IcpEnv (K Pose MS : Type) where
  matchers : List (Matcher K Pose MS)
  solvers : List (Solver K Pose)
  quality : List (QualEval K Pose)
  /-- user hook; `none` = not set.  The hook gets const pointers (ICP.h:205-214). -/
  hook : Option (Nat → Pairings K → Sol K Pose → Bool)
  /-- fresh `MatchState` built from the two maps at each iteration (Matcher.cpp:62-67) -/
  freshMS : MS
  globalEmpty : Bool := false
  localEmpty : Bool := false
  /-- the first matcher was attached to a parameter source by the user before the call -/
  firstMatcherAttached : Bool := false

/-- Ghost record of what happened in one iteration (not data of the program). -/
structure IterEvent (K Pose : Type) where
  iter : Nat
  poseIn : Pose
  pairings : Pairings K
  /-- answer of the solvers, if they were run -/
  solver : Option (Bool × Sol K Pose)
  /-- why the loop ended here, if it did -/
  stop : Option Reason
  deriving DecidableEq

/-- Loop state: `state`, `prev_solution`, `prev2_solution`, `lastCorrection`, `sc`, `currentLog`. -/
structure LoopState (K Pose : Type) where
  n : Nat
  sol : Sol K Pose
  pairings : Pairings K
  prev : Pose
  prev2 : Option Pose
  lastCorr : Option Pose
  fin : List Nat
  /-- `currentLog`: `none` if no log; `some details` = `iterationsDetails` entries, oldest first -/
  log : Option (List (Nat × Pose × Pairings K))
  reason : Reason
  trace : List (IterEvent K Pose)

section align
variable {K Pose MS : Type} [LT K] [DecidableLT K] [Zero K] [Add K] [Mul K] [Div K] [Neg K]

/-- `std::abs` -/
def absK (x : K) : K := if x < 0 then -x else x

/-- Increments used for the stall test, ICP.cpp:203-215 (`keep_min` on each component). -/
def stepNorms (ops : PoseOps K Pose) (cur prev : Pose) (prev2 : Option Pose) : K × K :=
  let d := ops.logNorms (ops.sub cur prev)
  match prev2 with
  | none => d
  | some q =>
    let d2 := ops.logNorms (ops.sub cur q)
    (keepMin d.1 d2.1, keepMin d.2 d2.2)

/-- Stall test, ICP.cpp:228-229. -/
def isStalled (p : IcpParams K) (d : K × K) : Bool :=
  decide (absK d.1 < p.minAbsStepTrans) && decide (absK d.2 < p.minAbsStepRot)

/-- Store iteration details, ICP.cpp:232-241: dereferences `currentLog` without a check. -/
def saveDetails (p : IcpParams K) (n : Nat) (stalled : Bool) (pose : Pose) (prs : Pairings K)
    (log : Option (List (Nat × Pose × Pairings K))) :
    Outcome (Option (List (Nat × Pose × Pairings K))) :=
  if p.saveIterationDetails &&
      (decide (p.decimationIterationDetails = 0) ||
       decide (n % p.decimationIterationDetails = 0) || stalled) then
    match log with
    | none => .ub
    | some l => .ok (some (l ++ [(n, pose, prs)]))
  else .ok log

/-- Quality checkpoint, ICP.cpp:259-283: `true` = did not pass. -/
def checkpointFails (env : IcpEnv K Pose MS) (p : IcpParams K) (n : Nat) (pose : Pose)
    (prs : Pairings K) : Outcome Bool :=
  match p.qualityCheckpoints.lookup n with
  | none => .ok false
  | some q => (evaluateQuality env.quality n false pose prs).bind fun v => .ok (decide (v < q))

/-- Iteration hook, ICP.cpp:286-303: `true` = stop requested. -/
def hookStops (env : IcpEnv K Pose MS) (n : Nat) (prs : Pairings K) (sol : Sol K Pose) : Bool :=
  match env.hook with
  | none => false
  | some h => h n prs sol

/-- Body of the ICP loop, ICP.cpp:124-308.  The second component is the reason of a `break`. -/
def icpBody (ops : PoseOps K Pose) (env : IcpEnv K Pose MS) (p : IcpParams K) (init : Pose)
    (s : LoopState K Pose) : Outcome (LoopState K Pose × Option Reason) :=
  (runMatchers env.matchers s.n s.sol.pose env.freshMS).bind fun (_, prs) =>
  if prs.isEmpty then
    .ok ({ s with pairings := prs,
                  trace := s.trace ++ [⟨s.n, s.sol.pose, prs, none, some .noPairings⟩] },
         some .noPairings)
  else
  let sc : SolverCtx Pose :=
    { iter := some s.n, guess := some s.sol.pose,
      fromInitial := some (ops.sub s.sol.pose init), lastStep := s.lastCorr }
  (runSolvers ops.tnorm env.solvers prs s.sol sc s.fin).bind fun (ok, sol, fin) =>
  if !ok then
    .ok ({ s with pairings := prs, sol := sol, fin := fin,
                  trace := s.trace ++ [⟨s.n, s.sol.pose, prs, some (false, sol), some .solverError⟩] },
         some .solverError)
  else
  let stalled := isStalled p (stepNorms ops sol.pose s.prev s.prev2)
  (saveDetails p s.n stalled sol.pose prs s.log).bind fun log =>
  let s' : LoopState K Pose :=
    { s with pairings := prs, sol := sol, fin := fin, log := log,
             lastCorr := some (ops.sub sol.pose s.prev) }
  let ev := fun r => (⟨s.n, s.sol.pose, prs, some (true, sol), r⟩ : IterEvent K Pose)
  if stalled then
    .ok ({ s' with trace := s.trace ++ [ev (some .stalled)] }, some .stalled)
  else
  (checkpointFails env p s.n sol.pose prs).bind fun bad =>
  if bad then
    .ok ({ s' with trace := s.trace ++ [ev (some .qualityCheckpointFailed)] },
         some .qualityCheckpointFailed)
  else if hookStops env s.n prs sol then
    .ok ({ s' with trace := s.trace ++ [ev (some .hookRequest)] }, some .hookRequest)
  else
    .ok ({ s' with trace := s.trace ++ [ev none], prev2 := some s.prev, prev := sol.pose }, none)

/-- The `for` loop, ICP.cpp:123-308; `fuel` = iterations left before `nIterations` reaches
`maxIterations`. -/
def icpLoop (ops : PoseOps K Pose) (env : IcpEnv K Pose MS) (p : IcpParams K) (init : Pose) :
    Nat → LoopState K Pose → Outcome (LoopState K Pose)
  | 0, s => .ok s
  | fuel + 1, s =>
    (icpBody ops env p init s).bind fun (s', brk) =>
      match brk with
      | some r => .ok { s' with reason := r }
      | none => icpLoop ops env p init fuel { s' with n := s.n + 1 }

/-- `Results` (without the covariance). -/
structure IcpResult (K Pose : Type) where
  nIterations : Nat
  reason : Reason
  pose : Pose
  scale : K
  pairings : Pairings K
  quality : K
  /-- the log record handed out, if one was made: its iteration details -/
  log : Option (List (Nat × Pose × Pairings K))
  trace : List (IterEvent K Pose)
  deriving DecidableEq

/-- `ICP::align`, ICP.cpp:36-382.  `wantsLog` = `outputDebugInfo.has_value()`; `one` = 1.0, default
scale. -/
def align (ops : PoseOps K Pose) (env : IcpEnv K Pose MS) (p : IcpParams K) (init : Pose) (one : K)
    (wantsLog : Bool) : Outcome (IcpResult K Pose) := do
  Outcome.assert (env.matchers ≠ [] ∧ env.solvers ≠ [] ∧ env.quality ≠ [])
  Outcome.assert (env.globalEmpty = false ∧ env.localEmpty = false)
  let s0 : LoopState K Pose :=
    { n := 0, sol := ⟨init, one⟩, pairings := {}, prev := init, prev2 := none, lastCorr := none,
      fin := [], log := if wantsLog || p.generateDebugFiles then some [] else none,
      reason := .undefined, trace := [] }
  let s ← icpLoop ops env p init p.maxIterations s0
  let reason := if s.n ≥ p.maxIterations then .maxIterations else s.reason
  let q ← evaluateQuality env.quality s.n true s.sol.pose s.pairings
  -- ICP.cpp:350-354: first matcher's `attachedSource()` is dereferenced; it was attached at the start
  -- of the first iteration (lambdaAddOwnParams) or by the user, otherwise it is null.
  if s.log.isSome && !(env.firstMatcherAttached || decide (p.maxIterations > 0)) then Outcome.ub
  else
  return { nIterations := s.n, reason := reason, pose := s.sol.pose, scale := s.sol.scale,
           pairings := s.pairings, quality := q, log := s.log, trace := s.trace }

end align
end Verif
