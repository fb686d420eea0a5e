import Verif.Model.HornOlae
import Mathlib.Algebra.BigOperators.Group.List.Basic
/-
Specifications for the closed-form solvers: rigid motions, costs, contracts of the external numerical routines.
-/
namespace Verif.Spec
variable {K : Type}

section
variable [Field K]

/-- Proper rotation matrices: orthogonal with determinant one. -/
def IsRotation (R : M3 K) : Prop := R.transpose.mul R = M3.one ∧ R.det = 1

/-- Sum of squared distances between the moved local points and their global partners. -/
def pointCost (ps : List (PtPair K)) (T : Pose3 K) : K :=
  (ps.map fun p => P3.distSq (T.composePoint p.local) p.global).sum

/-- The same, each pair with its own weight. -/
def weightedCost (ps : List (PtPair K × K)) (T : Pose3 K) : K :=
  (ps.map fun p => p.2 * P3.distSq (T.composePoint p.1.local) p.1.global).sum

/-- Weighted attitude cost: how far the rotated local vectors are from the global ones. -/
def attitudeCost (vs : List (Visited K)) (R : M3 K) : K :=
  (vs.map fun v => v.w * P3.distSq (R.mulVec v.r) v.b).sum

/-- Inner product of two 4-vectors. -/
def dot4 (a b : Quat K) : K := a.r * b.r + a.x * b.x + a.y * b.y + a.z * b.z

/-- Three points which are not on a line. -/
def NotCollinear (a b c : P3 K) : Prop := P3.cross (b - a) (c - a) ≠ 0

end

section
variable [Field K] [LinearOrder K]

/-- Contract of the symmetric eigen-solver, variational form: a unit vector maximising the quadratic form. -/
def IsTopEigen (N : Sym4 K) (v : Quat K) : Prop :=
  dot4 v v = 1 ∧ ∀ u, dot4 u (N.mulVec u) ≤ dot4 v (N.mulVec v) * dot4 u u

/-- The same contract in its usual form: a unit eigenvector whose eigenvalue is the largest one. -/
def IsTopEigenvector (N : Sym4 K) (v : Quat K) : Prop :=
  dot4 v v = 1 ∧ ∃ l, N.mulVec v = ⟨l * v.r, l * v.x, l * v.y, l * v.z⟩ ∧
    ∀ (m : K) (u : Quat K), u ≠ ⟨0, 0, 0, 0⟩ → N.mulVec u = ⟨m * u.r, m * u.x, m * u.y, m * u.z⟩ → m ≤ l

/-- The weight of each point pair: the blocks, spelled out. -/
def ExpandWeights (blocks : List (Nat × K)) : List K := blocks.flatMap fun b => List.replicate b.1 b.2

/-- The weights of the point pairs of `p`: all one when there is no table. -/
def pointWeightList (p : Pairings K) : List K :=
  if p.pointWeights = [] then List.replicate p.pt2pt.length 1 else ExpandWeights p.pointWeights

end
end Verif.Spec

namespace Verif.Spec
variable {K : Type} [Field K] [LinearOrder K]

/-- The global and local vectors of correspondence `i`: relative to the centroids for the point pairs, then the
directions of the line pairs, then the normals of the plane pairs. -/
def PairVectors (p : Pairings K) (ctLocal ctGlobal : P3 K) (i : Nat) (b r : P3 K) : Prop :=
  (∃ q, p.pt2pt[i]? = some q ∧ b = q.global - ctGlobal ∧ r = q.local - ctLocal) ∨
  (∃ j q, i = p.pt2pt.length + j ∧ p.ln2ln[j]? = some q ∧ b = q.lnGlobal.director ∧ r = q.lnLocal.director) ∨
  (∃ j q, i = p.pt2pt.length + p.ln2ln.length + j ∧ p.pl2pl[j]? = some q ∧ b = q.pGlobal.plane.n ∧
    r = q.pLocal.plane.n)

/-- Number of correspondences. -/
def numCorr (p : Pairings K) : Nat := p.pt2pt.length + p.ln2ln.length + p.pl2pl.length

/-- Total weight of the correspondences by kind. -/
def kindTotal (p : Pairings K) (w : PairWeights K) : K :=
  w.pt2pt * (p.pt2pt.length : K) + w.ln2ln * (p.ln2ln.length : K) + w.pl2pl * (p.pl2pl.length : K)

/-- `w` is the weight of correspondence `i` before the robust kernel: the weight of its kind over the total, times, for
points, the weight of its block. -/
def IsBaseWeight (p : Pairings K) (w : PairWeights K) (i : Nat) (x : K) : Prop :=
  (∃ bw, i < p.pt2pt.length ∧ (pointWeightList p)[i]? = some bw ∧ x = w.pt2pt / kindTotal p w * bw) ∨
  (p.pt2pt.length ≤ i ∧ i < p.pt2pt.length + p.ln2ln.length ∧ x = w.ln2ln / kindTotal p w) ∨
  (p.pt2pt.length + p.ln2ln.length ≤ i ∧ x = w.pl2pl / kindTotal p w)

/-- Factor of the robust kernel for squared error `e` and parameter `c`. -/
def kernelFactor (kernel : RobustKernel) (c e : K) : K :=
  match kernel with
  | .none => 1
  | .gemanMcClure => c ^ 2 / (e + c) ^ 2
  | .cauchy => c ^ 2 / (e + c ^ 2)

/-- The point pair `i` is (almost) on a centroid. -/
def OnCentroid (p : Pairings K) (ctLocal ctGlobal : P3 K) (norm : P3 K → K) (eps : K) (i : Nat) : Prop :=
  ∃ q, p.pt2pt[i]? = some q ∧ (norm (q.global - ctGlobal) < eps ∨ norm (q.local - ctLocal) < eps)

/-- The lengths of the two vectors of point pair `i` differ by more than the allowed factor. -/
def ScaleMismatch (p : Pairings K) (ctLocal ctGlobal : P3 K) (norm : P3 K → K) (thr : K) (i : Nat) : Prop :=
  ∃ q, p.pt2pt[i]? = some q ∧ thr < max (norm (q.global - ctGlobal)) (norm (q.local - ctLocal)) /
    min (norm (q.global - ctGlobal)) (norm (q.local - ctLocal))

/-- `i` is the first index of a block of weights other than the first one. -/
def StartsBlock (blocks : List (Nat × K)) (i : Nat) : Prop :=
  ∃ pre suf, pre ≠ [] ∧ blocks = pre ++ suf ∧ i = (pre.map (·.1)).sum

/-- The call `v` is the one for correspondence `i`: its vectors (unit ones for points if `unit`), and its weight: base
weight times the kernel factor of the mismatch at the estimated pose. -/
def VisitedAs (p : Pairings K) (wp : WeightParams K) (ctLocal ctGlobal : P3 K) (unit : Bool) (norm : P3 K → K)
    (i : Nat) (v : Visited K) : Prop :=
  ∃ b r bw, PairVectors p ctLocal ctGlobal i b r ∧ IsBaseWeight p wp.pairWeights i bw ∧
    v.b = (if i < p.pt2pt.length ∧ unit = true then P3.smul (1 / norm b) b else b) ∧
    v.r = (if i < p.pt2pt.length ∧ unit = true then P3.smul (1 / norm r) r else r) ∧
    (wp.kernel = .none → v.w = bw) ∧
    (wp.kernel ≠ .none → ∃ T, wp.estimate = some T ∧
      v.w = bw * kernelFactor wp.kernel wp.kernelParam (P3.distSq (T.composePoint v.r) v.b)) ∧ 0 < v.w

end Verif.Spec

namespace Verif.Spec
variable {K : Type} [Field K] [LinearOrder K]

/-- Contract of the Euclidean norm. -/
def IsNorm (norm : P3 K → K) : Prop := ∀ v, 0 ≤ norm v ∧ norm v * norm v = v.normSq

/-- Contract of the square root. -/
def IsSqrt (sqrt : K → K) : Prop := ∀ x, 0 ≤ x → sqrt x * sqrt x = x

/-- Contract of the linear solver, for regular systems only. -/
def IsSolver (solve : M3 K → P3 K → P3 K) : Prop := ∀ (M : M3 K) (v : P3 K), M.det ≠ 0 → M.mulVec (solve M v) = v

/-- Noise-free pairings: the motion `T` takes each local point, line direction and plane normal exactly to its
global partner. -/
structure NoiseFree (p : Pairings K) (T : Pose3 K) : Prop where
  rot : IsRotation T.R
  pts : ∀ q ∈ p.pt2pt, T.composePoint q.local = q.global
  lns : ∀ q ∈ p.ln2ln, T.R.mulVec q.lnLocal.director = q.lnGlobal.director
  pls : ∀ q ∈ p.pl2pl, T.R.mulVec q.pLocal.plane.n = q.pGlobal.plane.n

/-- The line directions and plane normals are unit vectors. -/
structure UnitDirections (p : Pairings K) : Prop where
  lns : ∀ q ∈ p.ln2ln, q.lnLocal.director.normSq = 1
  pls : ∀ q ∈ p.pl2pl, q.pLocal.plane.n.normSq = 1

/-- The table of block weights, if there is one, covers exactly the point pairs with non-empty blocks. -/
def BlocksCover (p : Pairings K) : Prop :=
  (∀ b ∈ p.pointWeights, 1 ≤ b.1) ∧ (p.pointWeights ≠ [] → (p.pointWeights.map (·.1)).sum = p.pt2pt.length)

/-- Two of the correspondences away from the centroids have local vectors which are not parallel. -/
def TwoDirections (p : Pairings K) (norm : P3 K → K) (eps : K) (ctLocal ctGlobal : P3 K) : Prop :=
  ∃ i j b r b' r', PairVectors p ctLocal ctGlobal i b r ∧ PairVectors p ctLocal ctGlobal j b' r' ∧
    ¬ OnCentroid p ctLocal ctGlobal norm eps i ∧ ¬ OnCentroid p ctLocal ctGlobal norm eps j ∧ P3.cross r r' ≠ 0

/-- One of four numbers is larger than the three others. -/
def UniqueMax (a b c d : K) : Prop :=
  (b < a ∧ c < a ∧ d < a) ∨ (a < b ∧ c < b ∧ d < b) ∨ (a < c ∧ b < c ∧ d < c) ∨ (a < d ∧ b < d ∧ c < d)

/-- For the rotation `R` (as unit quaternion `q`), the component of `q` of largest absolute value is unique, or `q_z` is not
zero. Up to sign `q` is unique; `4 q_r² = 1 + tr R`, `4 q_x² = 1 + R₀₀ - R₁₁ - R₂₂`, and so on. -/
def ClearAxis (R : M3 K) : Prop :=
  UniqueMax (1 + R.a00 + R.a11 + R.a22) (1 + R.a00 - R.a11 - R.a22) (1 - R.a00 + R.a11 - R.a22) (1 - R.a00 - R.a11 + R.a22) ∨
    1 - R.a00 - R.a11 + R.a22 ≠ 0

end Verif.Spec

namespace Verif.Spec
variable {K : Type} [Field K] [LinearOrder K]

/-- `x` is the point of the plane `n·x + d = 0` closest to `p`. -/
def ClosestOnPlane (pl : Plane K) (p x : P3 K) : Prop :=
  pl.n.dot x + pl.d = 0 ∧ ∀ y, pl.n.dot y + pl.d = 0 → P3.distSq x p ≤ P3.distSq y p

/-- `x` is the point of the line closest to `p`. -/
def ClosestOnLine (ln : Line3 K) (p x : P3 K) : Prop :=
  (∃ s, x = ln.pBase + P3.smul s ln.director) ∧ ∀ s, P3.distSq x p ≤ P3.distSq (ln.pBase + P3.smul s ln.director) p

/-- `c` comes from the point-to-plane pairing `q` at pose `T`: same local point, target the closest point of the plane. -/
def FromPlane (T : Pose3 K) (q : PtPlPair K) (c : PtPair K) : Prop :=
  c.local = q.ptLocal ∧ ClosestOnPlane q.plGlobal.plane (T.composePoint q.ptLocal) c.global

/-- `c` comes from the point-to-line pairing `q` at pose `T`. -/
def FromLine (T : Pose3 K) (q : PtLnPair K) (c : PtPair K) : Prop :=
  c.local = q.ptLocal ∧ ClosestOnLine q.lnGlobal (T.composePoint q.ptLocal) c.global

/-- Squared mismatch of a point pair at pose `T`. -/
def mismatch (T : Pose3 K) (c : PtPair K) : K := P3.distSq (T.composePoint c.local) c.global

/-- The plain case: points only, no weights table, no kernel, no outlier detection, nothing on the centroids. -/
structure PlainPoints (p : Pairings K) (wp : WeightParams K) : Prop where
  pt2ln : p.pt2ln = []
  pt2pl : p.pt2pl = []
  ln2ln : p.ln2ln = []
  pl2pl : p.pl2pl = []
  noTable : p.pointWeights = []
  noKernel : wp.kernel = .none
  noScale : wp.useScaleOutlier = false
  wPt : 0 < wp.pairWeights.pt2pt
  wLn : 0 ≤ wp.pairWeights.ln2ln
  wPl : 0 ≤ wp.pairWeights.pl2pl

end Verif.Spec
