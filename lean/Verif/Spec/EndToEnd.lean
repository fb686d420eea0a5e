import Verif.Model.EndToEnd
import Verif.Spec.Solvers
import Verif.Spec.Pairings
/-
Specifications for whole registrations (C93, C94).
-/
namespace Verif.Spec
open Verif
variable {K : Type} [Field K] [LinearOrder K]

/-- The global layer answers searches as a map with the points `gpts` should: the nearest of them, with its index and
squared distance; and its box meets that of any points one of which is within the margin of a map point. -/
structure ServesPoints (g : GLayer K) (gpts : List (P3 K)) : Prop where
  capable : g.nnCapable = true
  nonempty : g.isEmpty = false
  nearest : ∀ q, ∃ nb, g.nnSingle q = some nb ∧ gpts[nb.idx]? = some nb.pt ∧ nb.d2 = P3.distSq q nb.pt ∧
    ∀ x ∈ gpts, P3.distSq q nb.pt ≤ P3.distSq q x
  boxes : ∀ (xs : List (P3 K)) (m : K), (∃ x ∈ xs, ∃ y ∈ gpts, 0 ≤ m ∧ P3.distSq x y ≤ m * m) → g.boxesMeet xs m = true

/-- Contract of the pose arithmetic: norms are not negative, and a pose does not differ from itself. -/
structure PoseDiffs (ops : PoseOps K (Pose3 K)) : Prop where
  nonneg : ∀ d, 0 ≤ (ops.logNorms d).1 ∧ 0 ≤ (ops.logNorms d).2
  refl : ∀ T, ops.logNorms (ops.sub T T) = (0, 0)

/-- The matcher has its default options for one pairing per point: all local points are used, all weights equal, and the
threshold is a distance. -/
structure PlainMatcher (c : DTCfg K) (n : Nat) : Prop where
  ppp : c.ppp = 1
  thr : 0 < c.thr
  angDeg : 0 ≤ c.angDeg
  angSq : 0 ≤ c.angSq
  eps : 0 ≤ c.eps
  all : c.maxLocal = 0 ∨ n ≤ c.maxLocal
  noTable : c.weights = []

/-- The Horn solver has default weights: no robust kernel, no outlier detection by scale. -/
structure PlainSolver (wp : WeightParams K) : Prop where
  noKernel : wp.kernel = .none
  noScale : wp.useScaleOutlier = false
  wPt : 0 < wp.pairWeights.pt2pt
  wLn : 0 ≤ wp.pairWeights.ln2ln
  wPl : 0 ≤ wp.pairWeights.pl2pl

/-- A log is kept if iteration details are to be stored in it. -/
def LogThere (p : IcpParams K) (wantsLog : Bool) : Prop :=
  p.saveIterationDetails = true → wantsLog = true ∨ p.generateDebugFiles = true

/-- The pose `T0` is close to `T`, for the local points and the map: each local point is nearer to its true place than to
any other point of the map, and within the threshold. -/
structure CloseEnough (pts gpts : List (P3 K)) (thr : K) (T T0 : Pose3 K) : Prop where
  nearest : ∀ p ∈ pts, ∀ y ∈ gpts, y ≠ T.composePoint p →
    P3.distSq (T0.composePoint p) (T.composePoint p) < P3.distSq (T0.composePoint p) y
  within : ∀ p ∈ pts, P3.distSq (T0.composePoint p) (T.composePoint p) < thr * thr

/-- Two of the points are away from the centroid of all of them, in different directions from it. -/
def Spread (norm : P3 K → K) (eps : K) (pts : List (P3 K)) : Prop :=
  ∃ a ∈ pts, ∃ b ∈ pts, ¬ norm (a - mean pts) < eps ∧ ¬ norm (b - mean pts) < eps ∧
    P3.cross (a - mean pts) (b - mean pts) ≠ 0

/-- How badly the local points fit the map at pose `T`: sum over the local points of the squared distance to the nearest
map point, but at most the square of the threshold for each. -/
def misfit (thr : K) (gpts pts : List (P3 K)) (T : Pose3 K) : K :=
  (pts.map fun p => (gpts.map fun y => P3.distSq (T.composePoint p) y).foldr min (thr * thr)).sum

/-- The same with the limits which the matcher has at pose `T0`: the square of the threshold plus, for an angular threshold, its square
times the squared distance of the point to the origin. -/
def misfitAt (thr angSq : K) (gpts pts : List (P3 K)) (T0 T : Pose3 K) : K :=
  (pts.map fun p => (gpts.map fun y => P3.distSq (T.composePoint p) y).foldr min
    (thr * thr + angSq * P3.normSq (T0.composePoint p))).sum

/-- No pairing is (almost) at the centroid, in either map. -/
def AwayFromCentroids (norm : P3 K → K) (eps : K) (ps : List (PtPair K)) : Prop :=
  ∀ q ∈ ps, ¬ norm (q.global - mean (ps.map (·.global))) < eps ∧ ¬ norm (q.local - mean (ps.map (·.local))) < eps

/-- What the solver may lose by leaving out, when it finds the rotation, the pairs within `eps` of one of the centroids: four times
the sum over those pairs of the product of their distances to the centroids, one of which is below `eps`. -/
def nearSlack (norm : P3 K → K) (eps : K) (ps : List (PtPair K)) : K :=
  4 * ((ps.filter fun q => decide (norm (q.global - mean (ps.map (·.global))) < eps ∨
    norm (q.local - mean (ps.map (·.local))) < eps)).map fun q =>
      norm (q.global - mean (ps.map (·.global))) * norm (q.local - mean (ps.map (·.local)))).sum

/-- All local points are paired with their true places. -/
structure AllMatched (pts : List (P3 K)) (T : Pose3 K) (prs : Pairings K) : Prop where
  pairs : prs.pt2pt.map (fun q => (q.localIdx, q.local, q.global)) = pts.zipIdx.map fun x => (x.2, x.1, T.composePoint x.1)
  rest : prs = { pt2pt := prs.pt2pt, potential := pts.length }

/-- The point pairs are those of `pts` with their true places; there are no others. -/
structure PairedWith (pts : List (P3 K)) (T : Pose3 K) (prs : Pairings K) : Prop where
  pairs : prs.pt2pt.map (fun q => (q.local, q.global)) = pts.map fun x => (x, T.composePoint x)
  rest : ∃ n, prs = { pt2pt := prs.pt2pt, potential := n }

/-- Everything the exact-registration theorem assumes, but the initial guess. -/
structure ExactSetting (ops : PoseOps K (Pose3 K)) (e : HornEnv K) (wp : WeightParams K) (c : DTCfg K) (mr : K) (g : GLayer K)
    (gpts pts : List (P3 K)) (T : Pose3 K) (p : IcpParams K) : Prop where
  ops : PoseDiffs ops
  eig : ∀ N, IsTopEigen N (e.eig N)
  norm : IsNorm e.norm
  epsPos : 0 < e.eps
  solver : PlainSolver wp
  serves : ServesPoints g gpts
  matcher : PlainMatcher c pts.length
  enough : 3 ≤ pts.length
  distinct : pts.Nodup
  rot : IsRotation T.R
  there : ∀ x ∈ pts, T.composePoint x ∈ gpts
  spread : Spread e.norm e.eps pts
  ratio : mr ≤ 1
  checks : ∀ k ∈ p.qualityCheckpoints, k.2 ≤ 1
  stepT : 0 < p.minAbsStepTrans
  stepR : 0 < p.minAbsStepRot

/-- The part of that which is not about the solver. -/
structure RegSetting (ops : PoseOps K (Pose3 K)) (c : DTCfg K) (mr : K) (g : GLayer K) (gpts pts : List (P3 K)) (T : Pose3 K)
    (p : IcpParams K) : Prop where
  ops : PoseDiffs ops
  serves : ServesPoints g gpts
  matcher : PlainMatcher c pts.length
  nonempty : pts ≠ []
  distinct : pts.Nodup
  rot : IsRotation T.R
  there : ∀ x ∈ pts, T.composePoint x ∈ gpts
  ratio : mr ≤ 1
  checks : ∀ k ∈ p.qualityCheckpoints, k.2 ≤ 1
  stepT : 0 < p.minAbsStepTrans
  stepR : 0 < p.minAbsStepRot

/-- The solver, given pairings of all the points with their true places, answers with the true motion. -/
def SolvesExactly (s : Solver K (Pose3 K)) (tnorm : Pose3 K → K) (pts : List (P3 K)) (T : Pose3 K) : Prop :=
  ∀ prs, AllMatched pts T prs → ∀ out sc fin, runSolvers tnorm [s] prs out sc fin = .ok (true, ⟨T, 1⟩, fin)

/-- The same for one initial guess `T0` of the solver. -/
def SolvesFrom (s : Solver K (Pose3 K)) (tnorm : Pose3 K → K) (pts : List (P3 K)) (T T0 : Pose3 K) : Prop :=
  ∀ prs, AllMatched pts T prs → ∀ out sc fin, sc.guess = some T0 → runSolvers tnorm [s] prs out sc fin = .ok (true, ⟨T, 1⟩, fin)

/-- What the exact-registration theorem assumes of the OLAE solver: exact square roots, norms and linear solver, default
weights, points spread out, and a true rotation whose quaternion has a unique component of largest absolute value, or a `z` component that is not zero. -/
structure OlaeExact (e : OlaeEnv K) (wp : WeightParams K) (pts : List (P3 K)) (T : Pose3 K) : Prop where
  sqrt : IsSqrt e.sqrt
  solve : IsSolver e.solve
  norm : IsNorm e.norm
  epsPos : 0 < e.eps
  solver : PlainSolver wp
  spread : Spread e.norm e.eps pts
  axis : ClearAxis T.R

/-- What the theorem on the fit assumes of the pipeline. -/
structure FitSetting (ops : PoseOps K (Pose3 K)) (e : HornEnv K) (wp : WeightParams K) (c : DTCfg K) (g : GLayer K)
    (gpts pts : List (P3 K)) : Prop where
  norms : ∀ d, 0 ≤ (ops.logNorms d).1 ∧ 0 ≤ (ops.logNorms d).2
  eig : ∀ N, IsTopEigen N (e.eig N)
  norm : IsNorm e.norm
  eps : 0 ≤ e.eps
  solver : PlainSolver wp
  serves : ServesPoints g gpts
  matcher : PlainMatcher c pts.length
  many : c.allowGlobal = true

end Verif.Spec
