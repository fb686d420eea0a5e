import Verif.Model.Matchers
/-
Specifications for the point matchers (C16, C18-C24).
-/
namespace Verif.Spec
open Verif
variable {K : Type}

/-- Comparisons between values of the set `S` are those of a total order (machine numbers: those which are not NaN). -/
structure TotalOn [LT K] [LE K] (S : K → Prop) : Prop where
  le_of_lt : ∀ a b, S a → S b → a < b → a ≤ b
  le_of_not_lt : ∀ a b, S a → S b → ¬ a < b → b ≤ a
  lt_of_not_le : ∀ a b, S a → S b → ¬ a ≤ b → b < a
  not_le_of_lt : ∀ a b, S a → S b → a < b → ¬ b ≤ a
  trans : ∀ a b c, S a → S b → S c → a ≤ b → b ≤ c → a ≤ c

/-- No global point and no local point is used by two entries of the record of pairings (an entry: global
layer, local layer, pairing). -/
def UsedOnce (log : List (String × String × PtPair K)) : Prop :=
  log.Pairwise fun a b =>
    (a.1, a.2.2.globalIdx) ≠ (b.1, b.2.2.globalIdx) ∧ (a.2.1, a.2.2.localIdx) ≠ (b.2.1, b.2.2.localIdx)

/-- The flag of point `i` of a layer is set. -/
def Flagged (f : AMap String BitField) (layer : String) (i : Nat) : Prop := flagAt f layer i = .ok true

/-- The flags of a layer exist and may be read for point `i`. -/
def Readable (f : AMap String BitField) (layer : String) (i : Nat) : Prop :=
  ∃ b, f.get layer = some b ∧ ∀ v, b.dense = some v → i < v.length

/-- The result of the shuffle of `m` indices is a rearrangement of them. -/
def ShuffleOK (c : PtsCfg K) : Prop := ∀ m, (c.shuffle m).Perm (List.range m)

/-- Searches return at most the number of points asked for. -/
def SearchBounded (g : GLayer K) : Prop :=
  (∀ q k, (g.nnMultiple q k).length ≤ k) ∧ ∀ q r k, (g.nnRadius q r k).length ≤ k

/-- Neighbours come in increasing order of distance. -/
def SearchSorted [LE K] (g : GLayer K) : Prop :=
  (∀ q k, (g.nnMultiple q k).Pairwise fun a b => a.d2 ≤ b.d2) ∧
  ∀ q r k, (g.nnRadius q r k).Pairwise fun a b => a.d2 ≤ b.d2

/-- Each global point a search may report has readable flags. -/
def NbrsReadable (g : GLayer K) (f : AMap String BitField) (gName : String) : Prop :=
  (∀ q nb, g.nnSingle q = some nb → Readable f gName nb.idx) ∧
  (∀ q k nb, nb ∈ g.nnMultiple q k → Readable f gName nb.idx) ∧
  ∀ q r k nb, nb ∈ g.nnRadius q r k → Readable f gName nb.idx

/-- The flags are those of the maps being matched: initialised for every point of the local cloud and every
point the global map may report. -/
structure FlagsFit (ms : MatchState K) (g : GLayer K) (gName lName : String) (n : Nat) : Prop where
  «local» : ∀ i, i < n → Readable ms.localFlags lName i
  global : NbrsReadable g ms.globalFlags gName

/-- `new` was appended to the point-to-point pairings. -/
def AddedPt (out out' : Pairings K) (new : List (PtPair K)) : Prop := out'.pt2pt = out.pt2pt ++ new

end Verif.Spec

namespace Verif.Spec
open Verif
variable {K : Type}

/-- The matcher is configured for one-to-one point matching: default options (points already matched are not
allowed) and, for the distance-threshold matcher, one pairing per point.  The plane and line matchers make
no point-to-point pairings and may have any options. -/
def OneToOne : PtMatcher K → Prop
  | .distanceThreshold c => c.ppp = 1 ∧ c.allowLocal = false ∧ c.allowGlobal = false
  | .inlierRatio c => c.allowLocal = false ∧ c.allowGlobal = false ∧ ShuffleOK c.toPtsCfg
  | .point2plane _ => True
  | .point2line _ => True
  | .adaptive _ => False

end Verif.Spec

namespace Verif.Spec
open Verif
variable {K : Type}

/-- Local layer `lName` is to be matched against global layer `gName`: identical names when there is no
weights table, listed in the table otherwise. -/
def Wanted (weights : AMap String (AMap String K)) (gName lName : String) : Prop :=
  (weights = [] ∧ lName = gName) ∨ ∃ ls, weights.get gName = some ls ∧ (ls.get lName).isSome

/-- The weight listed for a pair of layers. -/
def ListedWeight (weights : AMap String (AMap String K)) (gName lName : String) : Option K :=
  (weights.get gName).bind fun ls => ls.get lName

/-- One call of the layer-matching function: names and contents of the layers, and number of
point-to-point pairings it added. -/
structure LayerCall (K : Type) where
  gName : String
  g : GLayer K
  lName : String
  pts : List (P3 K)
  w : Option K
  n : Nat

/-- The block of weights due for a call: (number of pairings, weight), if it has a weight and made pairings. -/
def LayerCall.block (c : LayerCall K) : List (Nat × K) :=
  match c.w with
  | some w => if c.n = 0 then [] else [(c.n, w)]
  | none => []

/-- The calls were made one after the other, each on the state left by the previous one. -/
inductive LayerCalls (f : LayerFn K) :
    MatchState K × Pairings K → List (LayerCall K) → MatchState K × Pairings K → Prop
  | nil (s) : LayerCalls f s [] s
  | cons {c s r cs t} :
      f c.g c.gName c.lName c.pts s.1 s.2 = .ok r →
      r.2.pt2pt.length = s.2.pt2pt.length + c.n →
      LayerCalls f (r.1, { r.2 with pointWeights := r.2.pointWeights ++ c.block }) cs t →
      LayerCalls f s (c :: cs) t

/-- The layer function only adds point-to-point pairings and leaves the weights alone. -/
def OnlyAdds (f : LayerFn K) : Prop :=
  ∀ g gn ln pts ms out r, f g gn ln pts ms out = .ok r →
    (∃ new, r.2.pt2pt = out.pt2pt ++ new) ∧ r.2.pointWeights = out.pointWeights

/-- Settings for which a matcher's accounting can be right: at least one point pairing per point for the
adaptive matcher, shuffles being shuffles. -/
def AccCfg : PtMatcher K → Prop
  | .adaptive c => 1 ≤ c.maxPt2Pt ∧ ShuffleOK c.toPtsCfg
  | m => ShuffleOK m.base

/-- `mrpt::round` does not go beyond an integer bound of its argument. -/
def RoundOK [LE K] [NatCast K] (round : K → Nat) : Prop := ∀ (x : K) (n : Nat), x ≤ (n : K) → round x ≤ n

/-- The neighbours the distance-threshold matcher is told about for the transformed local point `q`: the
nearest one, or the `ppp` nearest (serial build), or up to `ppp` within the distance threshold (TBB
build). -/
def Reported [Mul K] (c : DTCfg K) (g : GLayer K) (q : P3 K) (nb : Nbr K) : Prop :=
  (c.ppp = 1 ∧ g.nnSingle q = some nb) ∨
  (c.ppp ≠ 1 ∧ c.tbb = false ∧ nb ∈ g.nnMultiple q c.ppp) ∨
  (c.ppp ≠ 1 ∧ c.tbb = true ∧ nb ∈ g.nnRadius q (c.thr * c.thr) c.ppp)

/-- The documented limit on the squared distance of a pairing of the (transformed) local point `q`. -/
def Limit [Add K] [Mul K] (c : DTCfg K) (q : P3 K) : K :=
  c.thr * c.thr + c.angSq * (q.x * q.x + q.y * q.y + q.z * q.z)

/-- The pairing of local point `l`, located at `p`, with the neighbour `nb`. -/
def IsPairOf (pr : PtPair K) (l : Nat) (p : P3 K) (nb : Nbr K) : Prop :=
  pr.localIdx = l ∧ pr.local = p ∧ pr.globalIdx = nb.idx ∧ pr.global = nb.pt ∧ pr.errSq = nb.d2

/-- The matcher gets to look at the points: both maps have points and their boxes meet. -/
def Overlap (c : PtsCfg K) (tf : P3 K → P3 K) (g : GLayer K) (pts : List (P3 K)) (margin : K) : Prop :=
  g.isEmpty = false ∧ pts ≠ [] ∧
  ∀ tl, transformLocal c tf pts = .ok tl → g.boxesMeet tl.xs margin = true

/-- Indices of the local points a matcher may look at. -/
def Sampled (c : PtsCfg K) (n l : Nat) : Prop := l < n ∧ (c.maxLocal = 0 ∨ l < c.maxLocal)

/-- Options and cloud sizes for which the matcher is memory-safe. -/
def SafeOptions [LE K] [NatCast K] (n : Nat) : PtMatcher K → Prop
  | .distanceThreshold c => c.maxLocal = 0 ∨ n ≤ c.maxLocal
  | .inlierRatio c => RoundOK c.round
  | .point2plane _ => True
  | .point2line _ => True
  | .adaptive _ => False

/-- The same for any type of numbers: the number of candidates to keep, as computed, is not larger than their number. -/
def SafeOptionsM [LT K] [Zero K] [Mul K] [One K] [NatCast K] (n : Nat) : PtMatcher K → Prop
  | .distanceThreshold c => c.maxLocal = 0 ∨ n ≤ c.maxLocal
  | .inlierRatio c => ∀ m : Nat, m ≤ n → 0 < c.ratio → c.ratio < 1 → c.round ((m : K) * c.ratio) ≤ m
  | .point2plane _ => True
  | .point2line _ => True
  | .adaptive _ => False

/-- The number of neighbours the adaptive matcher asks for, and the neighbours it is told about. -/
def AdReported [Mul K] (c : AdCfg K) (g : GLayer K) (q : P3 K) : List (Nbr K) :=
  if (if c.detectPlanes then c.planeSearch else c.maxPt2Pt) = 1 then (g.nnSingle q).toList
  else g.nnRadius q (c.absMax * c.absMax) (if c.detectPlanes then c.planeSearch else c.maxPt2Pt)

/-- The local point may be matched: points already matched are allowed, or this one is not. -/
def Eligible (c : PtsCfg K) (ms : MatchState K) (lName : String) (l : Nat) : Prop :=
  c.allowLocal = true ∨ ¬ Flagged ms.localFlags lName l

/-- What the adaptive matcher may produce for local point `l`: one plane pairing, or at most `maxPt2Pt` point
pairings, each with a reported neighbour, below the limit `lim` and within the absolute maximum, and (if
not the first candidate) not much worse than the first candidate. -/
structure AdaptivePart [Mul K] [LT K] [LE K] [DecidableLE K] (c : AdCfg K) (tf : P3 K → P3 K) (g : GLayer K) (pts : List (P3 K))
    (lim : K) (l : Nat) (newPt : List (PtPair K)) (newPl : List (PtPlPair K)) : Prop where
  kind : (newPt = [] ∧ c.detectPlanes = true ∧ ∃ b, newPl = [b] ∧ pts[l]? = some b.ptLocal) ∨
    (newPl = [] ∧ newPt.length ≤ c.maxPt2Pt)
  each : ∀ x ∈ newPt, x.errSq < lim ∧ ∃ p nb, pts[l]? = some p ∧ nb ∈ AdReported c g (tf p) ∧
    nb.d2 ≤ c.absMax * c.absMax ∧ IsPairOf x l p nb
  ratio : ∀ x ∈ newPt, ∀ p, pts[l]? = some p →
    ∀ nb0, ((AdReported c g (tf p)).filter fun nb => decide (nb.d2 ≤ c.absMax * c.absMax)).head? = some nb0 →
    x.errSq = nb0.d2 ∨ x.errSq ≤ nb0.d2 * (c.first2second * c.first2second)

/-- The same with comparisons as a machine makes them: what is *not* found to be too far or too bad is taken. -/
structure AdaptivePartM [Mul K] [LT K] [DecidableLT K] [LE K] (c : AdCfg K) (tf : P3 K → P3 K) (g : GLayer K) (pts : List (P3 K))
    (lim : K) (l : Nat) (newPt : List (PtPair K)) (newPl : List (PtPlPair K)) : Prop where
  kind : (newPt = [] ∧ c.detectPlanes = true ∧ ∃ b, newPl = [b] ∧ pts[l]? = some b.ptLocal) ∨
    (newPl = [] ∧ newPt.length ≤ c.maxPt2Pt)
  each : ∀ x ∈ newPt, ¬ lim ≤ x.errSq ∧ ∃ p nb, pts[l]? = some p ∧ nb ∈ AdReported c g (tf p) ∧
    ¬ c.absMax * c.absMax < nb.d2 ∧ IsPairOf x l p nb
  ratio : ∀ x ∈ newPt, ∀ p, pts[l]? = some p →
    ∀ nb0, ((AdReported c g (tf p)).filter fun nb => decide (¬ c.absMax * c.absMax < nb.d2)).head? = some nb0 →
    x.errSq = nb0.d2 ∨ ¬ nb0.d2 * (c.first2second * c.first2second) < x.errSq

/-- No neighbour found: for no eligible sampled point there is a neighbour within the absolute maximum among the
two first reported ones. -/
def NothingFound [Mul K] [LT K] (c : AdCfg K) (tf : P3 K → P3 K) (g : GLayer K) (ms : MatchState K) (lName : String)
    (pts : List (P3 K)) : Prop :=
  ∀ l p, Sampled c.toPtsCfg pts.length l → pts[l]? = some p → Eligible c.toPtsCfg ms lName l →
    ∀ nb ∈ (AdReported c g (tf p)).take 2, c.absMax * c.absMax < nb.d2

end Verif.Spec
