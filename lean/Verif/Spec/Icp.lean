import Verif.Model.Icp
/-
What an ICP run is, in terms of the history of its iterations (C01–C05).  `IterEvent` records, for one
iteration, the pose handed to the matchers, the pairings they returned, the answer of the solvers if
they were run, and the reason why the run ended there, if it did.
-/
namespace Verif.Spec
open Verif

variable {K Pose MS : Type}

/-- Output of the last solver run that reported success, if any. -/
def lastSolved (h : List (IterEvent K Pose)) : Option (Sol K Pose) :=
  h.reverse.findSome? fun e => match e.solver with
    | some (true, s) => some s
    | _ => none

/-- Output of the last matcher run (nothing if the matchers never ran). -/
def lastPairings (h : List (IterEvent K Pose)) : Pairings K :=
  (h.getLast?.map (·.pairings)).getD {}

/-- The pose in which iteration `k` of history `h` starts: the initial guess or the last solution. -/
def poseBefore (init : Pose) (h : List (IterEvent K Pose)) (k : Nat) : Pose :=
  ((lastSolved (h.take k)).map (·.pose)).getD init

section
variable [LT K] [DecidableLT K] [Zero K] [Add K] [Mul K] [Div K] [Neg K]

/-- The increment from pose `q` to `cur` is small in translation / in rotation. -/
def SmallT (ops : PoseOps K Pose) (p : IcpParams K) (cur q : Pose) : Prop :=
  absK (ops.logNorms (ops.sub cur q)).1 < p.minAbsStepTrans
def SmallR (ops : PoseOps K Pose) (p : IcpParams K) (cur q : Pose) : Prop :=
  absK (ops.logNorms (ops.sub cur q)).2 < p.minAbsStepRot

/-- Solution `cur` found at iteration `k` barely moved, component by component, with respect to the
pose before iteration `k` or the pose before iteration `k-1`. -/
def BarelyMoved (ops : PoseOps K Pose) (p : IcpParams K) (init : Pose)
    (h : List (IterEvent K Pose)) (k : Nat) (cur : Pose) : Prop :=
  (SmallT ops p cur (poseBefore init h k) ∨ (0 < k ∧ SmallT ops p cur (poseBefore init h (k-1)))) ∧
  (SmallR ops p cur (poseBefore init h k) ∨ (0 < k ∧ SmallR ops p cur (poseBefore init h (k-1))))

/-- The quality checkpoint of iteration `k`, if there is one, fails on this solution. -/
def CheckpointFails (env : IcpEnv K Pose MS) (p : IcpParams K) (k : Nat) (pose : Pose)
    (prs : Pairings K) : Prop :=
  ∃ q v, p.qualityCheckpoints.lookup k = some q ∧
    evaluateQuality env.quality k false pose prs = .ok v ∧ v < q

/-- The user's hook is set and requests a stop. -/
def HookStops (env : IcpEnv K Pose MS) (k : Nat) (prs : Pairings K) (sol : Sol K Pose) : Prop :=
  ∃ h, env.hook = some h ∧ h k prs sol = true

/-- History `h` is what happened: at each iteration `k` the matchers are run on the current pose and
the solvers on their result; and the run stops there exactly for the stated reason.  `B h k cur`: solution `cur` of iteration `k`
counts as stalled. -/
structure GenuineBy (B : List (IterEvent K Pose) → Nat → Pose → Prop) (env : IcpEnv K Pose MS) (p : IcpParams K) (init : Pose)
    (h : List (IterEvent K Pose)) : Prop where
  iter : ∀ (k : Nat) (e : IterEvent K Pose), h[k]? = some e → e.iter = k
  poseIn : ∀ (k : Nat) (e : IterEvent K Pose), h[k]? = some e → e.poseIn = poseBefore init h k
  matched : ∀ (k : Nat) (e : IterEvent K Pose), h[k]? = some e →
    ∃ ms, runMatchers env.matchers k e.poseIn env.freshMS = .ok (ms, e.pairings)
  /-- only the last iteration can end the run -/
  onlyLast : ∀ (k : Nat) (e : IterEvent K Pose), h[k]? = some e → k + 1 < h.length → e.stop = none
  noPairings : ∀ (k : Nat) (e : IterEvent K Pose), h[k]? = some e → (e.stop = some .noPairings ↔ e.pairings.size = 0)
  solverRun : ∀ (k : Nat) (e : IterEvent K Pose), h[k]? = some e → (e.solver = none ↔ e.pairings.size = 0)
  solverError : ∀ (k : Nat) (e : IterEvent K Pose), h[k]? = some e → (e.stop = some .solverError ↔ ∃ s, e.solver = some (false, s))
  stalled : ∀ (k : Nat) (e : IterEvent K Pose), h[k]? = some e →
    (e.stop = some .stalled ↔ ∃ s, e.solver = some (true, s) ∧ B h k s.pose)
  checkpoint : ∀ (k : Nat) (e : IterEvent K Pose), h[k]? = some e →
    (e.stop = some .qualityCheckpointFailed ↔
      ∃ s, e.solver = some (true, s) ∧ ¬ B h k s.pose ∧
        CheckpointFails env p k s.pose e.pairings)
  hook : ∀ (k : Nat) (e : IterEvent K Pose), h[k]? = some e →
    (e.stop = some .hookRequest ↔
      ∃ s, e.solver = some (true, s) ∧ ¬ B h k s.pose ∧
        ¬ CheckpointFails env p k s.pose e.pairings ∧ HookStops env k e.pairings s)
  /-- no other way to end -/
  noOther : ∀ (k : Nat) (e : IterEvent K Pose), h[k]? = some e → e.stop ≠ some .undefined ∧ e.stop ≠ some .maxIterations

/-- A history of which iterations count as stalled if they barely moved. -/
abbrev Genuine (ops : PoseOps K Pose) (env : IcpEnv K Pose MS) (p : IcpParams K) (init : Pose) (h : List (IterEvent K Pose)) : Prop :=
  GenuineBy (BarelyMoved ops p init) env p init h

/-- The last step known when iteration `k` starts: none at the first one. -/
def lastStepBefore (ops : PoseOps K Pose) (init : Pose) (h : List (IterEvent K Pose)) (k : Nat) :
    Option Pose :=
  if k = 0 then none else some (ops.sub (poseBefore init h k) (poseBefore init h (k - 1)))

/-- The solver answers of the history are those of `run_solvers`, called with: the pairings of the
iteration, the last solution as starting value, the iteration number, the current pose, the correction
so far, the last step; and with the marks of retired solvers carried along (`fins k` = marks before
iteration `k`), none at the start, `fin` at the end. -/
def SolversCalled (ops : PoseOps K Pose) (env : IcpEnv K Pose MS) (init : Pose) (one : K)
    (h : List (IterEvent K Pose)) (fin : List Nat) : Prop :=
  ∃ fins : Nat → List Nat, fins 0 = [] ∧ fins h.length = fin ∧
    ∀ (k : Nat) (e : IterEvent K Pose), h[k]? = some e → ∀ (b : Bool) (s : Sol K Pose),
      e.solver = some (b, s) →
      runSolvers ops.tnorm env.solvers e.pairings ((lastSolved (h.take k)).getD ⟨init, one⟩)
        ⟨some k, some (poseBefore init h k), some (ops.sub (poseBefore init h k) init),
          lastStepBefore ops init h k⟩ (fins k) = .ok (b, s, fins (k + 1))

/-- The iteration details that must be in the log: iteration number, solution, pairings. -/
def loggedIterations (p : IcpParams K) (h : List (IterEvent K Pose)) :
    List (Nat × Pose × Pairings K) :=
  h.filterMap fun e => match e.solver with
    | some (true, s) =>
      if p.saveIterationDetails = true ∧
         (p.decimationIterationDetails = 0 ∨ p.decimationIterationDetails ∣ e.iter ∨
          e.stop = some .stalled)
      then some (e.iter, s.pose, e.pairings) else none
    | _ => none

end
end Verif.Spec
