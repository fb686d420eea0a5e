import Verif.Spec.GaussNewton
import Verif.Spec.FrameFree
/-
Specifications for the Gauss-Newton solver seen from another frame (C110).
-/
namespace Verif.Spec.GN
open Verif Verif.Gn
variable {K : Type} [Field K]

/-- The line moved by `G`. -/
def movedLine (G : Pose3 K) (l : Line3 K) : Line3 K := ⟨G.composePoint l.pBase, G.R.mulVec l.director⟩

/-- The plane `n · x + d = 0` moved by `G`. -/
def movedPlane (G : Pose3 K) (p : Plane K) : Plane K := ⟨G.R.mulVec p.n, p.d - (G.R.mulVec p.n).dot G.t⟩

/-- The matrix of the cross product with `w`. -/
def crossMat (w : P3 K) : M3 K := ⟨0, -w.z, w.y, w.z, 0, -w.x, -w.y, w.x, 0⟩

/-- `D` is the derivative of the entries of `T * exp(v, w)` at zero. -/
def IsExpDeriv (T : Pose3 K) (D : Matrix (Fin 12) (Fin 6) K) : Prop :=
  ∀ v w : P3 K, D.mulVec ![v.x, v.y, v.z, w.x, w.y, w.z] = poseVec ⟨T.R.mul (crossMat w), T.R.mulVec v⟩

/-- The pairings as the solver sees them, in the order given: what is on the side of the map was moved by `G`; the indices, distances and
centroids they carry do not matter.  No line is paired with a line. -/
structure MovedInOrder (G : Pose3 K) (a b : Pairings K) : Prop where
  pt2pt : b.pt2pt.map (fun q => (q.local, q.global)) = a.pt2pt.map fun q => (q.local, G.composePoint q.global)
  pt2ln : b.pt2ln.map (fun q => (q.ptLocal, q.lnGlobal)) = a.pt2ln.map fun q => (q.ptLocal, movedLine G q.lnGlobal)
  pt2pl : b.pt2pl.map (fun q => (q.ptLocal, q.plGlobal.plane)) = a.pt2pl.map fun q => (q.ptLocal, movedPlane G q.plGlobal.plane)
  pl2pl : b.pl2pl.map (fun q => (q.pLocal.plane, q.pGlobal.plane)) = a.pl2pl.map fun q => (q.pLocal.plane, movedPlane G q.pGlobal.plane)
  noLines : a.ln2ln = [] ∧ b.ln2ln = []
  weights : b.pointWeights = a.pointWeights

/-- The same in any order; there is then no table of weights (which is by position). -/
structure MovedAnyOrder (G : Pose3 K) (a b : Pairings K) : Prop where
  pt2pt : (b.pt2pt.map fun q => (q.local, q.global)).Perm (a.pt2pt.map fun q => (q.local, G.composePoint q.global))
  pt2ln : (b.pt2ln.map fun q => (q.ptLocal, q.lnGlobal)).Perm (a.pt2ln.map fun q => (q.ptLocal, movedLine G q.lnGlobal))
  pt2pl : (b.pt2pl.map fun q => (q.ptLocal, q.plGlobal.plane)).Perm (a.pt2pl.map fun q => (q.ptLocal, movedPlane G q.plGlobal.plane))
  pl2pl : (b.pl2pl.map fun q => (q.pLocal.plane, q.pGlobal.plane)).Perm
    (a.pl2pl.map fun q => (q.pLocal.plane, movedPlane G q.pGlobal.plane))
  noLines : a.ln2ln = [] ∧ b.ln2ln = []
  noTable : a.pointWeights = [] ∧ b.pointWeights = []

/-- The same parameters, the guess and the prior moved by `G`.  (The prior's contribution is made of the difference between the current
pose and its mean, which does not depend on the frame.) -/
structure MovedParams (G : Pose3 K) (P P' : Params K) : Prop where
  guess : P'.linearizationPoint = P.linearizationPoint.map G.compose
  prior : Option.Rel (fun f f' => ∀ T, f' (G.compose T) = f T) P.prior P'.prior
  rest : P = { P' with linearizationPoint := P.linearizationPoint, prior := P.prior }

/-- The result seen from the other frame: all the poses moved, all the linear systems the same. -/
def movedRun (G : Pose3 K) (r : Run K) : Run K := ⟨G.compose r.pose, r.trace.map fun q => (G.compose q.1, q.2), r.ret⟩

/-- Two ways of doing the sums of the same build: the serial one, or two complete schedules of the parallel one. -/
inductive SameBuild (a b : Pairings K) : Build → Build → Prop
  | serial : SameBuild a b .serial .serial
  | tbb {s s'} : ValidSchedule a s → ValidSchedule b s' → SameBuild a b (.tbb s) (.tbb s')

/-- The solver is built without TBB, or with TBB and then splits its sums completely, in whatever way, at each call. -/
inductive SameBuilds (b b' : SolverCtx (Pose3 K) → Pairings K → Build) : Prop
  | serial : (∀ sc p, b sc p = .serial) → (∀ sc p, b' sc p = .serial) → SameBuilds b b'
  | tbb : (∀ sc p, ∃ s, b sc p = .tbb s ∧ ValidSchedule p s) → (∀ sc p, ∃ s, b' sc p = .tbb s ∧ ValidSchedule p s) → SameBuilds b b'

end Verif.Spec.GN
