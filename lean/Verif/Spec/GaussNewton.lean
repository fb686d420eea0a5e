import Verif.Model.GaussNewton
import Verif.Spec.Solvers
import Verif.Spec.ErrorTerms
/-
Specification for the Gauss-Newton solver: the normal equations of the weighted least-squares problem at a pose.
-/
namespace Verif.Spec.GN
open Verif Verif.Gn
variable {K : Type} [Field K]

/-- Normal equations of one error term with weight `w`: `(w AᵀA, w Aᵀe)`, where `A` is the derivative of the error with
respect to the increment, `J` times the derivative `D` of the pose entries. -/
def term {n : Nat} (D : Matrix (Fin 12) (Fin 6) K) (w : K) (J : Matrix (Fin n) (Fin 12) K) (e : Fin n → K) : Sys K :=
  let A := J * D
  (w • (A.transpose * A), w • A.transpose.mulVec e)

/-- Weight after the robust kernel. -/
def robust {n : Nat} (P : Params K) (w : K) (e : Fin n → K) : K := w * kernelFactor P.kernel P.kernelParam (sqLen e)

/-- The point-to-point part, the pairs having the weights `ws`. -/
def pointPart (E : Env K) (P : Params K) (ps : List (PtPair K)) (ws : List K) (T : Pose3 K) : Sys K :=
  ((ps.zip ws).map fun q => term (E.expJac T) (robust P q.2 (Err.pt2pt q.1 T)) (Err.pt2ptJac q.1) (Err.pt2pt q.1 T)).sum

/-- Everything else: lines, planes and the prior. -/
def otherPart (E : Env K) (P : Params K) (inp : Pairings K) (T : Pose3 K) : Sys K :=
  (inp.pt2ln.map fun q => term (E.expJac T) (robust P P.pairWeights.pt2ln (Err.pt2ln q T)) (Err.pt2lnJac q)
    (Err.pt2ln q T)).sum +
  (inp.ln2ln.map fun q => term (E.expJac T) (robust P P.pairWeights.ln2ln (Err.ln2ln E.ln E.junkErr q T))
    (Err.ln2lnJac E.ln E.junkJac q T) (Err.ln2ln E.ln E.junkErr q T)).sum +
  (inp.pt2pl.map fun q => term (E.expJac T) (robust P P.pairWeights.pt2pl (Err.pt2pl q T)) (Err.pt2plJac q)
    (Err.pt2pl q T)).sum +
  (inp.pl2pl.map fun q => term (E.expJac T) (robust P P.pairWeights.pl2pl (Err.pl2pl q T)) (Err.pl2plJac q)
    (Err.pl2pl q T)).sum +
  (P.prior.elim 0 fun f => f T)

/-- The fresh linear system at pose `T`: the sum over all pairings, and the prior, with point weights `ws`. -/
def system (E : Env K) (P : Params K) (inp : Pairings K) (ws : List K) (T : Pose3 K) : Sys K :=
  pointPart E P inp.pt2pt ws T + otherPart E P inp T

/-- The same weight for all point pairs. -/
def uniform (inp : Pairings K) (w : K) : List K := List.replicate inp.pt2pt.length w

/-- A schedule splits both ranges completely: the sub-ranges, in order, are `0,1,…,n-1`. -/
def ValidSchedule (inp : Pairings K) (sched : Nat → RTree × RTree) : Prop :=
  ∀ k, (sched k).1.indices = List.range inp.pt2pt.length ∧ (sched k).2.indices = List.range inp.pt2pl.length

/-- Cost added by the other pairings, serial and parallel builds. -/
def costOther (tbb : Bool) (P : Params K) (E : Env K) (inp : Pairings K) (T : Pose3 K) : K :=
  (inp.pt2ln.map fun q => robust P P.pairWeights.pt2ln (Err.pt2ln q T) * robust P P.pairWeights.pt2ln (Err.pt2ln q T)
    * sqLen (Err.pt2ln q T)).sum +
  (inp.ln2ln.map fun q => robust P P.pairWeights.ln2ln (Err.ln2ln E.ln E.junkErr q T)
    * robust P P.pairWeights.ln2ln (Err.ln2ln E.ln E.junkErr q T) * sqLen (Err.ln2ln E.ln E.junkErr q T)).sum +
  (inp.pt2pl.map fun q => (if tbb then 1 else robust P P.pairWeights.pt2pl (Err.pt2pl q T))
    * robust P P.pairWeights.pt2pl (Err.pt2pl q T) * sqLen (Err.pt2pl q T)).sum +
  (inp.pl2pl.map fun q => robust P P.pairWeights.pl2pl (Err.pl2pl q T) * robust P P.pairWeights.pl2pl (Err.pl2pl q T)
    * sqLen (Err.pl2pl q T)).sum

/-- Cost of the point pairs. -/
def costPoints (P : Params K) (ps : List (PtPair K)) (ws : List K) (T : Pose3 K) : K :=
  ((ps.zip ws).map fun q => robust P q.2 (Err.pt2pt q.1 T) * sqLen (Err.pt2pt q.1 T)).sum

/-- The error `e`, with derivative `A`, linearised: weighted square after the increment `d`. -/
def linTerm {n : Nat} (D : Matrix (Fin 12) (Fin 6) K) (w : K) (J : Matrix (Fin n) (Fin 12) K) (e : Fin n → K) (d : Fin 6 → K) : K :=
  w * sqLen (e + (J * D).mulVec d)

/-- The weighted least-squares cost of all pairings linearised at `T`, after the increment `d`. -/
def linCost (E : Env K) (P : Params K) (inp : Pairings K) (ws : List K) (T : Pose3 K) (d : Fin 6 → K) : K :=
  ((inp.pt2pt.zip ws).map fun q => linTerm (E.expJac T) (robust P q.2 (Err.pt2pt q.1 T)) (Err.pt2ptJac q.1) (Err.pt2pt q.1 T) d).sum +
  ((inp.pt2ln.map fun q => linTerm (E.expJac T) (robust P P.pairWeights.pt2ln (Err.pt2ln q T)) (Err.pt2lnJac q)
    (Err.pt2ln q T) d).sum +
  (inp.ln2ln.map fun q => linTerm (E.expJac T) (robust P P.pairWeights.ln2ln (Err.ln2ln E.ln E.junkErr q T))
    (Err.ln2lnJac E.ln E.junkJac q T) (Err.ln2ln E.ln E.junkErr q T) d).sum +
  (inp.pt2pl.map fun q => linTerm (E.expJac T) (robust P P.pairWeights.pt2pl (Err.pt2pl q T)) (Err.pt2plJac q)
    (Err.pt2pl q T) d).sum +
  (inp.pl2pl.map fun q => linTerm (E.expJac T) (robust P P.pairWeights.pl2pl (Err.pl2pl q T)) (Err.pl2plJac q)
    (Err.pl2pl q T) d).sum)

end Verif.Spec.GN
