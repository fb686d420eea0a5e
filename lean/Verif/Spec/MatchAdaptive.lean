import Verif.Spec.Matchers
/-
The adaptive matcher: what it pairs, exactly (C23).  Comparisons are those of a machine: what is *not* found too far is
taken.
-/
namespace Verif.Spec
open Verif
variable {K : Type} [LT K] [DecidableLT K] [LE K] [Mul K]

/-- The candidates of a local point seen at `q`: the first ten reported neighbours within the absolute maximum. -/
def AdNear (c : AdCfg K) (g : GLayer K) (q : P3 K) : List (Nbr K) :=
  ((AdReported c g q).filter fun nb => decide (¬ c.absMax * c.absMax < nb.d2)).take 10

/-- The candidates of all local points looked at, in the order of the points; none for points not eligible. -/
structure AdNears (c : AdCfg K) (tf : P3 K → P3 K) (g : GLayer K) (ms : MatchState K) (lName : String)
    (pts : List (P3 K)) (near : List (List (Nbr K))) : Prop where
  len : ∀ l, l < near.length ↔ Sampled c.toPtsCfg pts.length l
  yes : ∀ l p, Sampled c.toPtsCfg pts.length l → pts[l]? = some p → Eligible c.toPtsCfg ms lName l →
    near[l]? = some (AdNear c g (tf p))
  no : ∀ l, Sampled c.toPtsCfg pts.length l → ¬ Eligible c.toPtsCfg ms lName l → near[l]? = some []

/-- The errors from which the limit is computed: those of the two first candidates of each point. -/
def AdErrors (near : List (List (Nbr K))) : List K := near.flatMap fun m => (m.take 2).map (·.d2)

/-- `e` is the squared distance of the nearest or second nearest reported neighbour of some point, within the
absolute maximum. -/
def AdErr (c : AdCfg K) (tf : P3 K → P3 K) (g : GLayer K) (ms : MatchState K) (lName : String)
    (pts : List (P3 K)) (e : K) : Prop :=
  ∃ l p nb, Sampled c.toPtsCfg pts.length l ∧ pts[l]? = some p ∧ Eligible c.toPtsCfg ms lName l ∧
    nb ∈ (AdReported c g (tf p)).take 2 ∧ ¬ c.absMax * c.absMax < nb.d2 ∧ nb.d2 = e

/-- `lo` and `hi` are the least and the greatest of the numbers `E`. -/
def Spans (E : K → Prop) (lo hi : K) : Prop := E lo ∧ E hi ∧ ∀ e, E e → lo ≤ e ∧ e ≤ hi

/-- The plane pairing of the local point `p` with the candidates `m`: enough candidates, flat by their eigenvalues, and
`p` (*not* moved by the pose) close to their plane. -/
def AdPlaneOf (c : AdCfg K) (p : P3 K) (m : List (Nbr K)) (b : PtPlPair K) : Prop :=
  c.detectPlanes = true ∧ c.planeMinFound ≤ m.length ∧ m ≠ [] ∧
  (c.eig (m.map (·.pt))).vals.1 < c.planeEigThr * (c.eig (m.map (·.pt))).vals.2.2 ∧
  (c.eig (m.map (·.pt))).vals.1 < c.planeEigThr * (c.eig (m.map (·.pt))).vals.2.1 ∧
  c.planeDist (c.mkPlane (c.eig (m.map (·.pt))).mean (c.eig (m.map (·.pt))).vecs.1) p < c.planeMinDist ∧
  b = ⟨⟨c.mkPlane (c.eig (m.map (·.pt))).mean (c.eig (m.map (·.pt))).vecs.1, (c.eig (m.map (·.pt))).mean⟩, p⟩

open Classical in
/-- The point pairings of local point `l`, at `p`, with the candidates `m`: among the first `maxPt2Pt` candidates, those which
may be used and are below the limit, up to the first one (not the nearest candidate) much worse than the nearest. -/
noncomputable def AdPoints (c : AdCfg K) (ms : MatchState K) (gName : String) (lim : K) (l : Nat) (p : P3 K)
    (m : List (Nbr K)) : List (PtPair K) :=
  ((((m.take c.maxPt2Pt).zipIdx).filter fun x =>
      decide ((c.allowGlobal = true ∨ ¬ Flagged ms.globalFlags gName x.1.idx) ∧ ¬ lim ≤ x.1.d2)).takeWhile fun x =>
      decide (x.2 = 0 ∨ ∀ nb0, m.head? = some nb0 → ¬ nb0.d2 * (c.first2second * c.first2second) < x.1.d2)).map
    fun x => ⟨x.1.idx, l, x.1.pt, p, x.1.d2⟩

/-- The output for each local point with the limit `lim`: a plane pairing, or else the point pairings. -/
structure AdParts (c : AdCfg K) (ms : MatchState K) (gName : String) (pts : List (P3 K)) (lim : K)
    (near : List (List (Nbr K))) (parts : List (List (PtPair K) × List (PtPlPair K))) : Prop where
  len : parts.length = near.length
  each : ∀ l m p ch, near[l]? = some m → pts[l]? = some p → parts[l]? = some ch →
    (∃ b, AdPlaneOf c p m b ∧ ch = ([], [b])) ∨ ((¬ ∃ b, AdPlaneOf c p m b) ∧ ch = (AdPoints c ms gName lim l p m, []))

end Verif.Spec
