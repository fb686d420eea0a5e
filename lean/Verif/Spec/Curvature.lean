import Verif.Model.Curvature
/-
What the curvature filter promises, without indexes of rings.
-/
namespace Verif
namespace Flt
variable {K : Type}

section
variable [Field K] [LinearOrder K]

/-- closer than `clr` in each coordinate -/
def Close (clr : K) (p q : FPt K) : Prop := |p.x - q.x| < clr ∧ |p.y - q.y| < clr ∧ |p.z - q.z| < clr

/-- `ks` are the positions in `pts` of the points of ring `r` that are kept: in increasing order; each kept point is not `Close`
to the one kept before it; each point of the ring that is not kept is `Close` to the last one kept before it. -/
def Thinned (clr : K) (pts : List (FPt K)) (r : Nat) (ks : List Nat) : Prop :=
  ks.Pairwise (· < ·) ∧
  (∀ k ∈ ks, ∃ p, pts[k]? = some p ∧ p.ring = (r : Int)) ∧
  (∀ (j : Nat) (a b : Nat) (p q : FPt K), ks[j]? = some a → ks[j + 1]? = some b → pts[a]? = some p → pts[b]? = some q → ¬ Close clr q p) ∧
  (∀ (i : Nat) (p : FPt K), pts[i]? = some p → p.ring = (r : Int) → i ∉ ks →
    ∃ (k : Nat) (q : FPt K), k ∈ ks ∧ k < i ∧ pts[k]? = some q ∧ Close clr p q ∧ ∀ k' ∈ ks, k' < i → k' ≤ k)

/-- squared distance -/
def dist2 (a b : FPt K) : K := (a.x - b.x) ^ 2 + (a.y - b.y) ^ 2 + (a.z - b.z) ^ 2
/-- squared distance to the origin -/
def range2 (a : FPt K) : K := a.x ^ 2 + a.y ^ 2 + a.z ^ 2
/-- scalar product of the steps `a → b` and `b → c` -/
def turn (a b c : FPt K) : K := (b.x - a.x) * (c.x - b.x) + (b.y - a.y) * (c.y - b.y) + (b.z - a.z) * (c.z - b.z)

/-- the three classes -/
inductive CurvClass where
  | larger | smaller | other
  deriving DecidableEq

/-- The class of `b` between its neighbours `a` and `c`: after or before a gap longer than `gap`, `larger` if nearer to the sensor
than `a`, otherwise `other`; without gap, `larger` if the cosine of the turn is below `mc` in absolute value, otherwise `smaller`. -/
def IsClass (mc gap : K) (a b c : FPt K) (k : CurvClass) : Prop :=
  if gap ^ 2 < dist2 b a ∨ gap ^ 2 < dist2 b c then k = if range2 b < range2 a then .larger else .other
  else k = if turn a b c ^ 2 < mc ^ 2 * (dist2 b a * dist2 c b) then .larger else .smaller
/-- name of the layer of a class -/
def CurvParams.name (P : CurvParams K) : CurvClass → String
  | .larger => P.larger
  | .smaller => P.smaller
  | .other => P.other

/-- label of position `j` of a ring with kept positions `idxs` -/
def LabelOk (P : CurvParams K) (pts : List (FPt K)) (idxs : List Nat) (j : Nat) (k : CurvClass) : Prop :=
  if idxs.length ≤ 3 then k = .larger
  else ∃ (a b c : Nat) (pa pb pc : FPt K),
    idxs[(j + idxs.length - 1) % idxs.length]? = some a ∧ idxs[j]? = some b ∧ idxs[(j + 1) % idxs.length]? = some c ∧
    pts[a]? = some pa ∧ pts[b]? = some pb ∧ pts[c]? = some pc ∧ IsClass P.maxCos P.maxGap pa pb pc k

/-- a square root -/
def IsSqrt (sq : K → K) : Prop := ∀ a, 0 ≤ a → 0 ≤ sq a ∧ sq a * sq a = a

end

end Flt
end Verif
