import Verif.Model.Deskew
/-
What motion compensation means.
-/
namespace Verif
namespace Flt
variable {K X Q : Type}

/-- the point with other coordinates -/
def FPt.at (p : FPt K) (q : P3 K) : FPt K := { p with x := q.x, y := q.y, z := q.z }

/-- `m'` is `m` with `f p` appended to layer `out` (created like `new` if it did not exist) for each point `p` of `c`, in order, as
far as the class of that layer can hold the channels; all the other layers are as before. -/
def AppendedMap [Zero K] (out : String) (new : Option (Cloud K)) (c : Cloud K) (f : FPt K → FPt K) (m m' : FMap K X) : Prop :=
  ∃ c0, (m.get out = some (.pts c0) ∨ (m.get out = none ∧ new = some c0)) ∧
    m'.get out = some (.pts { c0 with pts := c0.pts ++ c.pts.map fun p => conform c0 (conform c (f p)) }) ∧
    ∀ n, n ≠ out → m'.get n = m.get n

/-- A point at the origin of the sensor. -/
def FPt.AtOrigin [Zero K] (p : FPt K) : Prop := p.x = 0 ∧ p.y = 0 ∧ p.z = 0
instance [Zero K] [DecidableEq K] (p : FPt K) : Decidable p.AtOrigin := by unfold FPt.AtOrigin; infer_instance

end Flt
end Verif
