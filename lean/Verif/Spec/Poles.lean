import Verif.Model.Poles
import Verif.Spec.Decimate
/-
What the detector of poles is supposed to do.
-/
namespace Verif
namespace Pole
open Flt Vox
variable {K X : Type} [Field K] [LinearOrder K] [FloorRing K]

/-- the cell of a point in the horizontal grid -/
def cellKey (res : K) (p : FPt K) : ℤ × ℤ := (truncZ (p.x / res), truncZ (p.y / res))

/-- the points of a cell -/
def inCell (res : K) (pts : List (FPt K)) (c : ℤ × ℤ) : List (FPt K) := pts.filter fun p => cellKey res p = c

/-- the mean height of the points of a cell -/
def meanHeight (res : K) (pts : List (FPt K)) (c : ℤ × ℤ) : K :=
  ((inCell res pts c).map (·.z)).sum / (inCell res pts c).length

/-- the eight cells around a cell -/
def around (c : ℤ × ℤ) : List (ℤ × ℤ) :=
  [(c.1 - 1, c.2 - 1), (c.1 - 1, c.2), (c.1 - 1, c.2 + 1), (c.1, c.2 - 1), (c.1, c.2 + 1), (c.1 + 1, c.2 - 1), (c.1 + 1, c.2),
   (c.1 + 1, c.2 + 1)]

/-- cell `c` stands out of its occupied neighbour `d` -/
def StandsOut (p : PoleParams K) (pts : List (FPt K)) (c d : ℤ × ℤ) : Prop :=
  inCell p.grid pts d ≠ [] ∧ meanHeight p.grid pts d + p.minH < meanHeight p.grid pts c ∧
    meanHeight p.grid pts c < meanHeight p.grid pts d + p.maxH
instance (p : PoleParams K) (pts : List (FPt K)) (c d : ℤ × ℤ) : Decidable (StandsOut p pts c d) := by
  unfold StandsOut; infer_instance

/-- the cell is a pole: it stands out of enough of its neighbours -/
def IsPole (p : PoleParams K) (pts : List (FPt K)) (c : ℤ × ℤ) : Prop :=
  p.minChecks ≤ ((around c).filter fun d => StandsOut p pts c d).length
instance (p : PoleParams K) (pts : List (FPt K)) (c : ℤ × ℤ) : Decidable (IsPole p pts c) := by
  unfold IsPole; infer_instance

/-- the cell has enough points to be looked at -/
def Populated (p : PoleParams K) (pts : List (FPt K)) (c : ℤ × ℤ) : Prop := p.minPts ≤ (inCell p.grid pts c).length
instance (p : PoleParams K) (pts : List (FPt K)) (c : ℤ × ℤ) : Decidable (Populated p pts c) := by
  unfold Populated; infer_instance

/-- where a point goes; the empty name: nowhere -/
def poleTarget (p : PoleParams K) (pts : List (FPt K)) (q : FPt K) : String :=
  if ¬ Populated p pts (cellKey p.grid q) then ""
  else if IsPole p pts (cellKey p.grid q) then p.poles else p.noPoles

/-- The indices of a point's cell and of the cells around it fit 32 bits. -/
def Inside (res : K) (q : FPt K) : Prop :=
  res ≠ 0 ∧ Fits (truncZ (q.x / res) - 1) ∧ Fits (truncZ (q.x / res) + 1) ∧ Fits (truncZ (q.y / res) - 1) ∧
    Fits (truncZ (q.y / res) + 1)

/-- `P` is the list of points gone through cell by cell: the cells, in some order, each with its points in the order of the
cloud. -/
def CellByCell (res : K) (pts P : List (FPt K)) : Prop :=
  ∃ cs : List (ℤ × ℤ), cs.Nodup ∧ (∀ c, c ∈ cs ↔ ∃ q ∈ pts, cellKey res q = c) ∧ P = cs.flatMap (inCell res pts)

end Pole
end Verif
