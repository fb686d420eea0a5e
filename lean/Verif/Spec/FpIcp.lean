import Verif.Spec.Icp
import Verif.Model.Fp
/-
The history of an ICP run whose numbers are of any type with a comparison, e.g. those of a machine (C104).
-/
namespace Verif.Spec
open Verif

variable {K Pose MS : Type} [LT K] [DecidableLT K] [Zero K] [Add K] [Mul K] [Div K] [Neg K]

/-- A step of size `a` from the last pose and, if there is one, of size `b` from the pose before is small: the latter counts if it is less. -/
def StepSmall (thr a : K) (b : Option K) : Prop :=
  match b with
  | none => absK a < thr
  | some b => (b < a ∧ absK b < thr) ∨ (¬ b < a ∧ absK a < thr)

/-- Sizes (translation, rotation) of the step from pose `q` to `cur`. -/
def stepSize (ops : PoseOps K Pose) (cur q : Pose) : K × K := ops.logNorms (ops.sub cur q)

/-- Solution `cur` found at iteration `k` barely moved, as the machine sees it. -/
def BarelyMovedM (ops : PoseOps K Pose) (p : IcpParams K) (init : Pose) (h : List (IterEvent K Pose)) (k : Nat) (cur : Pose) : Prop :=
  StepSmall p.minAbsStepTrans (stepSize ops cur (poseBefore init h k)).1
    (if k = 0 then none else some (stepSize ops cur (poseBefore init h (k - 1))).1) ∧
  StepSmall p.minAbsStepRot (stepSize ops cur (poseBefore init h k)).2
    (if k = 0 then none else some (stepSize ops cur (poseBefore init h (k - 1))).2)

end Verif.Spec
