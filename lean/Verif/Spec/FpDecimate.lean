import Verif.Model.FpDecimate
import Verif.Spec.Decimate
import Verif.Spec.Fp
/-
Specification for C106: voxel decimation in the arithmetic of the machine.
-/
namespace Verif.Spec
open Verif Verif.Fp Verif.Flt Verif.Vox

/-- The quotient of the coordinate by the resolution, as rounded, is a finite number whose integer part is `i`, which fits 32 bits. -/
def IdxF (A : Arith) (res x : A.Num) (i : ℤ) : Prop :=
  ∃ q, A.div x res = .fin q ∧ truncQ q = i ∧ -2 ^ 31 ≤ i ∧ i < 2 ^ 31

/-- `k` is the voxel of the point. -/
def VoxelF (A : Arith) (res : A.Num) (p : FPt A.Num) (k : Idx) : Prop :=
  IdxF A res p.x k.1 ∧ IdxF A res p.y k.2.1 ∧ IdxF A res p.z k.2.2

/-- The sum of some numbers in the order given, each addition rounded. -/
def sumF (A : Arith) : List Fl → Fl → Fl
  | [], s => s
  | x :: l, s => sumF A l (A.add s x)

/-- Their mean as computed: the sum times the rounded inverse of their number. -/
def meanF (A : Arith) (l : List Fl) : Fl := A.mul (sumF A l (.fin 0)) (A.div (.fin 1) (A.fl l.length))

/-- The mean of some points as computed. -/
def averageF (A : Arith) (v : List (FPt A.Num)) : FPt A.Num :=
  ⟨meanF A (v.map fun q => A.val q.x), meanF A (v.map fun q => A.val q.y), meanF A (v.map fun q => A.val q.z), 0, 0, 0⟩

/-- The squared distance of two points as computed. -/
def dist2F (A : Arith) (a b : FPt A.Num) : Fl :=
  A.add (A.add (A.mul (A.sub a.x b.x) (A.sub a.x b.x)) (A.mul (A.sub a.y b.y) (A.sub a.y b.y))) (A.mul (A.sub a.z b.z) (A.sub a.z b.z))

/-- `r` is a representative of the points `v` of one voxel. -/
def IsRepF (A : Arith) (meth : Method) (v : List (FPt A.Num)) (r : FPt A.Num) : Prop :=
  match meth with
  | .firstPoint => v.head? = some r
  | .randomPoint => r ∈ v
  | .closestToAverage => r ∈ v ∧ ∀ q ∈ v, (dist2F A q (averageF A v)).lt (dist2F A r (averageF A v)) = false
  | .voxelAverage => r = averageF A v

end Verif.Spec
