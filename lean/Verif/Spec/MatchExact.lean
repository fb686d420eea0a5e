import Verif.Spec.Matchers
/-
What the point matchers output, exactly (C18, C19, C21, C22).
-/
namespace Verif.Spec
open Verif
variable {K : Type}

open Classical in
/-- First come, first served: of a list of wished pairings, those left when each global point may be used once only and the
points of `taken` are not free. -/
noncomputable def firstCome (taken : Nat → Prop) : List (PtPair K) → List (PtPair K)
  | [] => []
  | p :: ps =>
    if taken p.globalIdx then firstCome taken ps
    else p :: firstCome (fun i => taken i ∨ i = p.globalIdx) ps

open Classical in
/-- The pairings made of those wished: all of them if global points may be matched again. -/
noncomputable def Granted (allowGlobal : Bool) (taken : Nat → Prop) (wished : List (PtPair K)) : List (PtPair K) :=
  if allowGlobal = true then wished else firstCome taken wished

/-- The neighbours reported for a point by the search the options ask for. -/
def SearchOf [Mul K] (c : DTCfg K) (g : GLayer K) (q : P3 K) : List (Nbr K) :=
  if c.ppp = 1 then (g.nnSingle q).toList
  else if c.tbb = true then g.nnRadius q (c.thr * c.thr) c.ppp else g.nnMultiple q c.ppp

open Classical in
/-- The pairings wished by the distance-threshold matcher for local point `l`: if it is eligible, those with the reported
neighbours before the first at or beyond the limit. -/
noncomputable def DtWishAt [Add K] [Mul K] [LE K] [DecidableLE K] (c : DTCfg K) (tf : P3 K → P3 K) (g : GLayer K)
    (ms : MatchState K) (lName : String) (pts : List (P3 K)) (l : Nat) : List (PtPair K) :=
  match pts[l]? with
  | none => []
  | some p =>
    if Eligible c.toPtsCfg ms lName l then
      ((SearchOf c g (tf p)).takeWhile fun nb => decide (¬ Limit c (tf p) ≤ nb.d2)).map
        fun nb => ⟨nb.idx, l, nb.pt, p, nb.d2⟩
    else []

/-- All the pairings wished by the distance-threshold matcher, in the order of the local cloud. -/
noncomputable def DtWished [Add K] [Mul K] [LE K] [DecidableLE K] (c : DTCfg K) (tf : P3 K → P3 K) (g : GLayer K)
    (ms : MatchState K) (lName : String) (pts : List (P3 K)) : List (PtPair K) :=
  (List.range pts.length).flatMap (DtWishAt c tf g ms lName pts)

/-- The flags of layer `layer` gained exactly the points of `gained`, those of other layers are as before. -/
def FlagsGained (f f' : AMap String BitField) (layer : String) (gained : Nat → Prop) : Prop :=
  ∀ l i, Flagged f' l i ↔ Flagged f l i ∨ (l = layer ∧ gained i)

/-- The order in which the local points are visited: each sampled point once; the order of the cloud unless a limit is in
force. -/
structure VisitOrder (c : PtsCfg K) (n : Nat) (order : List Nat) : Prop where
  nodup : order.Nodup
  mem : ∀ l, l ∈ order ↔ Sampled c n l
  all : c.maxLocal = 0 ∨ n ≤ c.maxLocal → order = List.range n

open Classical in
/-- For each point in the order given, if eligible, the pairing due for it, if any. -/
noncomputable def DuePerPoint {β : Type} (c : PtsCfg K) (ms : MatchState K) (lName : String) (pts : List (P3 K))
    (due : P3 K → Option β) (order : List Nat) : List β :=
  order.filterMap fun l => if Eligible c ms lName l then pts[l]?.bind due else none

/-- The points for which a pairing is made. -/
def DueAt {β : Type} (c : PtsCfg K) (ms : MatchState K) (lName : String) (pts : List (P3 K)) (due : P3 K → Option β)
    (l : Nat) : Prop := Eligible c ms lName l ∧ ∃ p b, pts[l]? = some p ∧ due p = some b

open Classical in
/-- The plane pairing due for a point: with the nearest plane, if not farther than the threshold. -/
noncomputable def DuePlane [LT K] (c : PlCfg K) (tf : P3 K → P3 K) (g : GLayer K) (p : P3 K) : Option (PtPlPair K) :=
  match g.nnPlane (tf p) c.thr with
  | none => none
  | some (pl, d) => if c.thr < d then none else some ⟨pl, p⟩

open Classical in
/-- The line pairing due for a point: if enough neighbours are left by the distance filter, and the eigenvalues of *all* the
reported neighbours are those of a line (the two smaller ones small relative to the largest), the line through their mean along
the main direction. -/
noncomputable def DueLine [LT K] [Mul K] [DecidableLT K] (c : LnCfg K) (tf : P3 K → P3 K) (g : GLayer K) (p : P3 K) :
    Option (PtLnPair K) :=
  if lnCut (c.thr * c.thr) ((g.nnMultiple (tf p) c.knn).map (·.d2)) < c.minPts then none
  else if c.eigThr * (c.eig ((g.nnMultiple (tf p) c.knn).map (·.pt))).vals.2.2
      < (c.eig ((g.nnMultiple (tf p) c.knn).map (·.pt))).vals.1 ∨
    c.eigThr * (c.eig ((g.nnMultiple (tf p) c.knn).map (·.pt))).vals.2.2
      < (c.eig ((g.nnMultiple (tf p) c.knn).map (·.pt))).vals.2.1 then none
  else some ⟨⟨(c.eig ((g.nnMultiple (tf p) c.knn).map (·.pt))).mean,
    c.unit (c.eig ((g.nnMultiple (tf p) c.knn).map (·.pt))).vecs.2.2⟩, p⟩

end Verif.Spec
