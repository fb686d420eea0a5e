import Verif.Model.Quadratic
import Verif.Spec.Decimate
/-
What the non-linear decimation promises.
-/
namespace Verif
namespace Quad
open Flt Vox
variable {K X : Type} [Field K] [LinearOrder K] [IsStrictOrderedRing K] [FloorRing K]

/-- The map of one coordinate: `x` beyond the reference radius, `± x² / R` within it. -/
def warp (R x : K) : K := if |x| ≤ R then (if 0 ≤ x then x ^ 2 / R else - (x ^ 2 / R)) else x

/-- The cell of a point in the non-linear lattice. -/
def cell (res R : K) (p : FPt K) : Idx :=
  (truncZ (warp R p.x / res), truncZ (warp R p.y / res), truncZ (warp R p.z / res))

/-- The indices of the cell fit 32 bits. -/
def CellOk (res R : K) (p : FPt K) : Prop :=
  res ≠ 0 ∧ Fits (truncZ (warp R p.x / res)) ∧ Fits (truncZ (warp R p.y / res)) ∧ Fits (truncZ (warp R p.z / res))

/-- The points of one cell. -/
def inCell (res R : K) (input : List (FPt K)) (k : Idx) : List (FPt K) := input.filter fun p => cell res R p = k

/-- `reps`: the position of one representative for each cell that holds a point of `input`, and nothing else, in any order. -/
def Decimated (res R : K) (meth : Method) (input reps : List (FPt K)) : Prop :=
  ∃ ks : List Idx, ks.Nodup ∧ (∀ k, k ∈ ks ↔ ∃ p ∈ input, cell res R p = k) ∧
    List.Forall₂ (fun k r => ∃ q, IsRep meth (inCell res R input k) q ∧ r = ⟨q.x, q.y, q.z, 0, 0, 0⟩) ks reps

/-- The kind of representative the flags ask for: the point closest to the average wins over the average, which wins over a
random point; the first point of the cell if no flag is set. -/
def MethodIs (p : Quad.Params K) (meth : Method) : Prop :=
  (p.closest = true → meth = .closestToAverage) ∧
  (p.closest = false → p.average = true → meth = .voxelAverage) ∧
  (p.closest = false → p.average = false → p.random = true → meth = .randomPoint) ∧
  (p.closest = false → p.average = false → p.random = false → meth = .firstPoint)

/-- A new output layer: a cloud without optional channels. -/
def plainCloud : Cloud K := { pts := [], hasI := false, hasRing := false, hasT := false }

end Quad
end Verif
