import Verif.Model.PointsEigen
import Verif.Spec.Decimate
/-
What the mean, the covariance and the principal directions of points are, and how voxels are to be classified.
-/
namespace Verif
namespace Eig
open Flt Vox
variable {K X : Type} [Field K]

/-- the sum of `f` over the points -/
def over (ps : List (P3 K)) (f : P3 K → K) : K := (ps.map f).sum

/-- the centroid -/
def centroid (ps : List (P3 K)) : P3 K := ⟨over ps (·.x) / ps.length, over ps (·.y) / ps.length, over ps (·.z) / ps.length⟩

/-- sum of the squared distances to a point -/
def toPoint (ps : List (P3 K)) (q : P3 K) : K := over ps fun p => (p - q).normSq

/-- sum of the squared distances to the plane through `q` with unit normal `u` -/
def toPlane (ps : List (P3 K)) (q u : P3 K) : K := over ps fun p => u.dot (p - q) * u.dot (p - q)

/-- sum of the squared distances to the line through `q` with unit direction `w` -/
def toLine (ps : List (P3 K)) (q w : P3 K) : K := over ps fun p => (p - q).normSq - w.dot (p - q) * w.dot (p - q)

/-- the matrix is symmetric -/
def SymM (M : M3 K) : Prop := M.transpose = M

/-- The decomposition is the one of `M`: orthonormal eigenvectors, eigenvalues in increasing order. -/
structure IsEig [LinearOrder K] (M : M3 K) (d : EigDec K) : Prop where
  sorted : d.vals.1 ≤ d.vals.2.1 ∧ d.vals.2.1 ≤ d.vals.2.2
  unit : d.vecs.1.normSq = 1 ∧ d.vecs.2.1.normSq = 1 ∧ d.vecs.2.2.normSq = 1
  ortho : d.vecs.1.dot d.vecs.2.1 = 0 ∧ d.vecs.1.dot d.vecs.2.2 = 0 ∧ d.vecs.2.1.dot d.vecs.2.2 = 0
  eq0 : M.mulVec d.vecs.1 = d.vecs.1.smul d.vals.1
  eq1 : M.mulVec d.vecs.2.1 = d.vecs.2.1.smul d.vals.2.1
  eq2 : M.mulVec d.vecs.2.2 = d.vecs.2.2.smul d.vals.2.2

/-- every `d`-th element, from the first one on -/
def everyNth {α : Type} (d : Nat) (l : List α) : List α := (l.zipIdx.filter fun e => e.2 % d = 0).map (·.1)

/-- a point without its channels -/
def strip (q : FPt K) : FPt K := barePt q.x q.y q.z

variable [LinearOrder K] [FloorRing K]

/-- the points of voxel `k` -/
def vox (res : K) (pts : List (FPt K)) (k : Idx) : List (FPt K) := inVoxel res pts k

/-- mean of a voxel -/
def voxMean (res : K) (pts : List (FPt K)) (k : Idx) : P3 K := centroid ((vox res pts k).map xyz)

/-- eigendecomposition of a voxel -/
def voxEig (eig : M3 K → EigDec K) (res : K) (pts : List (FPt K)) (k : Idx) : EigDec K :=
  eig (stats ((vox res pts k).map xyz)).2.full

/-- class of a voxel -/
def voxClass (eig : M3 K → EigDec K) (p : EpParams K) (pts : List (FPt K)) (k : Idx) : VoxClass :=
  classify p (voxEig eig p.res pts k).vals

/-- the plane of a voxel is not horizontal -/
def Steep (eig : M3 K → EigDec K) (p : EpParams K) (pts : List (FPt K)) (k : Idx) : Prop :=
  |(voxEig eig p.res pts k).vecs.1.z| < 9 / 10

/-- the voxels that are looked at -/
def big (p : EpParams K) (pts : List (FPt K)) (ks : List Idx) : List Idx := ks.filter fun k => 5 ≤ (vox p.res pts k).length

/-- one plane patch for each plane voxel: through its centroid, with a normal along the direction of least spread that points to the
vehicle (the origin) -/
def PatchOf (eig : M3 K → EigDec K) (p : EpParams K) (pts : List (FPt K)) (k : Idx) (pp : PlanePatch K) : Prop :=
  pp.centroid = voxMean p.res pts k ∧
  (pp.plane.n = (voxEig eig p.res pts k).vecs.1 ∨ pp.plane.n = -(voxEig eig p.res pts k).vecs.1) ∧
  pp.plane.n.dot pp.centroid ≤ 0 ∧ pp.plane.n.dot pp.centroid + pp.plane.d = 0

/-- each occupied voxel once -/
def Voxels (res : K) (pts : List (FPt K)) (ks : List Idx) : Prop :=
  ks.Nodup ∧ ∀ k, k ∈ ks ↔ ∃ q ∈ pts, voxelKey res q = k

end Eig
end Verif
