import Verif.Model.Linalg
import Mathlib.Data.Matrix.Mul
import Mathlib.LinearAlgebra.Matrix.Notation
import Mathlib.Algebra.Order.Field.Basic
/-
Specifications for the error terms: incidence of points with lines and planes, squared distances as minima over the
points of the primitive, perturbation of the 12 entries of a pose.
-/
namespace Verif.Spec
variable {K : Type}

section
variable [Field K]

/-- The point lies on the line. -/
def OnLine (l : Line3 K) (g : P3 K) : Prop := ∃ s : K, g = l.pBase + P3.smul s l.director

/-- The point lies on the plane. -/
def OnPlane (pl : Plane K) (g : P3 K) : Prop := pl.n.dot g + pl.d = 0

/-- Squared length of an error vector. -/
def sqLen {n : Nat} (e : Fin n → K) : K := ∑ i, e i * e i

/-- The 12 entries of a pose, column by column, translation last. -/
def poseVec (T : Pose3 K) : Fin 12 → K :=
  ![T.R.a00, T.R.a10, T.R.a20, T.R.a01, T.R.a11, T.R.a21, T.R.a02, T.R.a12, T.R.a22, T.t.x, T.t.y, T.t.z]

/-- The pose whose 12 entries are those of `T` plus those of `D`. -/
def perturb (T D : Pose3 K) : Pose3 K := ⟨T.R.add D.R, T.t + D.t⟩

/-- Scaled perturbation. -/
def scalePose (s : K) (D : Pose3 K) : Pose3 K := ⟨M3.smul s D.R, P3.smul s D.t⟩

/-- `J` is the exact first-order change of `f` at `T` with no remainder: for every change of the 12 entries. -/
def ExactChange {n : Nat} (f : Pose3 K → Fin n → K) (J : Matrix (Fin n) (Fin 12) K) (T : Pose3 K) : Prop :=
  ∀ (D : Pose3 K) (i : Fin n), f (perturb T D) i = f T i + (J.mulVec (poseVec D)) i

end

/-- `m` is the least squared distance from `g` to the points satisfying `S`. -/
def IsSqDist [Field K] [LinearOrder K] (S : P3 K → Prop) (g : P3 K) (m : K) : Prop :=
  (∃ x, S x ∧ P3.distSq g x = m) ∧ ∀ x, S x → m ≤ P3.distSq g x

end Verif.Spec
