import Verif.Model.MatcherSolver
/-
Specifications for the gates of matchers and solvers (C07, C13, C14, C15).
-/
namespace Verif.Spec
open Verif
variable {K Pose MS : Type}

/-- Iteration `i` is inside the window `[a, b]`, where `b = 0` stands for "no upper limit". -/
def InWindow (a b i : Nat) : Prop := a ≤ i ∧ (b = 0 ∨ i ≤ b)

/-- The matchers of the list were run one after the other, each on a fresh output container, and
contributed `outs`, in the same order. -/
inductive RanInOrder (iter : Nat) (pose : Pose) :
    List (Matcher K Pose MS) → MS → List (Pairings K) → MS → Prop
  | nil (ms) : RanInOrder iter pose [] ms [] ms
  | cons {m ms b ms1 out rest outs ms2} :
      m.run iter pose ms {} = .ok (b, ms1, out) →
      RanInOrder iter pose rest ms1 outs ms2 →
      RanInOrder iter pose (m :: rest) ms (out :: outs) ms2

/-- `prs` is the concatenation of `outs`, kind by kind, with the potential counts added. -/
structure IsConcat (outs : List (Pairings K)) (prs : Pairings K) : Prop where
  pt2pt : prs.pt2pt = (outs.map (·.pt2pt)).flatten
  pt2ln : prs.pt2ln = (outs.map (·.pt2ln)).flatten
  pt2pl : prs.pt2pl = (outs.map (·.pt2pl)).flatten
  ln2ln : prs.ln2ln = (outs.map (·.ln2ln)).flatten
  pl2pl : prs.pl2pl = (outs.map (·.pl2pl)).flatten
  potential : prs.potential = (outs.map (·.potential)).sum

section
variable [LT K] [DecidableLT K] [Zero K]

/-- All the solvers of the list were asked, in order, and declined or failed; each could leave its
own output and finished marks behind for the next. -/
inductive AllDeclined (tnorm : Pose → K) (prs : Pairings K) (sc : SolverCtx Pose) :
    List (Solver K Pose) → Sol K Pose → List Nat → Sol K Pose → List Nat → Prop
  | nil (o f) : AllDeclined tnorm prs sc [] o f o f
  | cons {s o f o1 f1 rest o2 f2} :
      s.optimalPose tnorm prs o sc f = .ok (false, o1, f1) →
      AllDeclined tnorm prs sc rest o1 f1 o2 f2 →
      AllDeclined tnorm prs sc (s :: rest) o f o2 f2

/-- One call of a solver. -/
structure SolverCall (K Pose : Type) where
  solver : Solver K Pose
  pairings : Pairings K
  out : Sol K Pose
  ctx : SolverCtx Pose

/-- A sequence of solver calls within one ICP run, with their answers: the finished marks are carried
from each call to the next. -/
inductive CallHistory (tnorm : Pose → K) :
    List Nat → List (SolverCall K Pose × (Bool × Sol K Pose)) → List Nat → Prop
  | nil (f) : CallHistory tnorm f [] f
  | cons {f c b o f1 rest f2} :
      c.solver.optimalPose tnorm c.pairings c.out c.ctx f = .ok (b, o, f1) →
      CallHistory tnorm f1 rest f2 →
      CallHistory tnorm f ((c, (b, o)) :: rest) f2

/-- In this call the solver was on duty and saw a step smaller than its threshold. -/
def SawSmallStep (tnorm : Pose → K) (c : SolverCall K Pose) : Prop :=
  c.solver.enabled = true ∧
  (∀ i, c.ctx.iter = some i → InWindow c.solver.runFrom c.solver.runUpTo i) ∧
  c.solver.untilCorr > 0 ∧ ∃ d, c.ctx.lastStep = some d ∧ tnorm d < c.solver.untilCorr

end
end Verif.Spec
