import Verif.Model.Covariance
import Mathlib.Algebra.BigOperators.Fin
import Mathlib.Algebra.Order.Field.Basic
/-
Specification of the covariance of a registration (C113).
-/
namespace Verif.Spec.CovV
open Verif Verif.Cov
variable {K : Type} [Field K]

/-- The scalar errors of all the pairings, as functions of the pose. -/
def scalarErrors (ln : Err.LnEnv K) (junk : Fin 4 → K) (p : Pairings K) : List (Pose3 K → K) :=
  p.pt2pt.flatMap (fun q => List.ofFn fun i T => Err.pt2pt q T i) ++ p.pt2ln.flatMap (fun q => List.ofFn fun i T => Err.pt2ln q T i) ++
  p.ln2ln.flatMap (fun q => List.ofFn fun i T => Err.ln2ln ln junk q T i) ++ p.pt2pl.flatMap (fun q => List.ofFn fun i T => Err.pt2pl q T i) ++
  p.pl2pl.flatMap (fun q => List.ofFn fun i T => Err.pl2pl q T i)

/-- The change of an error with parameter `j`: central difference with step `h j`. -/
def slope (pose : Six K → Pose3 K) (h : Fin 6 → K) (x : Six K) (e : Pose3 K → K) (j : Fin 6) : K :=
  (e (pose (x.bump j (h j))) - e (pose (x.bump j (-(h j))))) / (2 * h j)

/-- The information matrix: sum of the squares of the changes. -/
def information (pose : Six K → Pose3 K) (h : Fin 6 → K) (x : Six K) (L : List (Pose3 K → K)) : Fin 6 → Fin 6 → K :=
  fun i j => (L.map fun e => slope pose h x e i * slope pose h x e j).sum

/-- The errors determine the pose: in no direction do all of them stay unchanged. -/
def Determined (pose : Six K → Pose3 K) (h : Fin 6 → K) (x : Six K) (L : List (Pose3 K → K)) : Prop :=
  ∀ d : Fin 6 → K, (∀ e ∈ L, ∑ j, slope pose h x e j * d j = 0) → d = 0

/-- The quadratic form of a matrix. -/
def quad (A : Fin 6 → Fin 6 → K) (d : Fin 6 → K) : K := ∑ i, ∑ j, d i * A i j * d j

/-- `C` is the inverse of `H`. -/
def IsInverse (H C : Fin 6 → Fin 6 → K) : Prop := ∀ i j, ∑ k, H i k * C k j = if i = j then 1 else 0

/-- A covariance matrix: symmetric and positive definite. -/
structure IsCovariance [LinearOrder K] (C : Fin 6 → Fin 6 → K) : Prop where
  symm : ∀ i j, C i j = C j i
  pos : ∀ d, d ≠ 0 → 0 < quad C d

/-- What is assumed of the inverse by Cholesky decomposition: it is right for symmetric positive definite matrices. -/
def InvertsPosDef [LinearOrder K] (inv : (Fin 6 → Fin 6 → K) → Fin 6 → Fin 6 → K) : Prop :=
  ∀ H, IsCovariance H → IsInverse H (inv H)

end Verif.Spec.CovV
