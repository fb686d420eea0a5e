import Verif.Model.Outcome
import Verif.Model.Linalg
import Verif.Model.Pairings
import Mathlib.Algebra.Order.Field.Basic
/-
Walk over the correspondences shared by the Horn and OLAE solvers:
/repo/mp2p_icp/src/visit_correspondences.h, /repo/mp2p_icp/include/mp2p_icp/robust_kernels.h,
/repo/mp2p_icp/include/mp2p_icp/WeightParameters.h, PairWeights.h; and the conversion of pairings,
/repo/mp2p_icp/src/pt2ln_pl_to_pt2pt.cpp.
`norm` (Euclidean norm, a square root) is a parameter so that the model can be evaluated over `ℚ`.
-/
namespace Verif

/-- `enum class RobustKernel`, robust_kernels.h:33-43. -/
inductive RobustKernel where
  | none
  | gemanMcClure
  | cauchy
  deriving DecidableEq, Repr

/-- `struct PairWeights`, PairWeights.h:30-50 (the text says "normalized to sum the unity"). -/
structure PairWeights (K : Type) where
  pt2pt : K
  pt2ln : K
  pt2pl : K
  ln2ln : K
  pl2pl : K
  deriving DecidableEq, Repr

/-- `struct WeightParameters`, WeightParameters.h:35-70. -/
structure WeightParams (K : Type) where
  useScaleOutlier : Bool
  scaleThr : K
  pairWeights : PairWeights K
  kernel : RobustKernel
  kernelParam : K
  estimate : Option (Pose3 K)
  deriving DecidableEq, Repr

variable {K : Type}

/-- `create_robust_kernel`, robust_kernels.h:57-94: the empty functor is `none`. -/
def createRobustKernel [Add K] [Mul K] [Div K] (kernel : RobustKernel) (c : K) : Option (K → K) :=
  match kernel with
  | .none => none
  | .gemanMcClure => some fun e => (c * c) / ((e + c) * (e + c))
  | .cauchy => some fun e => (c * c) / (e + c * c)

/-- One of the correspondences "stored in sequence", visit_correspondences.h:113-182: a point pair, or a pair of
directions (`b` of the global, `r` of the local primitive; line directors first, then plane normals). -/
inductive Corr (K : Type) where
  | pt (p : PtPair K)
  | ln (b r : P3 K)
  | pl (b r : P3 K)

/-- The sequence of correspondences of `Pairings`, visit_correspondences.h:47-57, 115, 159-181.
The debug-only assertions on unit norms (170-171, 181-182) are not modelled (release build). -/
def corrs (p : Pairings K) : List (Corr K) :=
  p.pt2pt.map .pt ++ p.ln2ln.map (fun l => .ln l.lnGlobal.director l.lnLocal.director) ++
    p.pl2pl.map (fun l => .pl l.pGlobal.plane.n l.pLocal.plane.n)

/-- Arguments of one call of `lambda_each_pair(bi, ri, wi)`. -/
structure Visited (K : Type) where
  b : P3 K
  r : P3 K
  w : K
  deriving DecidableEq, Repr

/-- State of the loop: remaining blocks of weights (`cur_point_block_weights` up to `end()`), start of the current
block, remaining input outliers, new outliers, visited pairs, `w_sum`. -/
structure VisitState (K : Type) where
  blocks : List (Nat × K)
  start : Nat
  outl : List Nat
  newOutl : List Nat
  visited : List (Visited K)
  wSum : K

/-- Constants of the loop. `eps` is the literal `1e-4` of line 137. -/
structure VisitCfg (K : Type) where
  wp : WeightParams K
  ctLocal : P3 K
  ctGlobal : P3 K
  normalize : Bool
  norm : P3 K → K
  eps : K
  waPoints : K
  waLines : K
  waPlanes : K

/-- Block cursor, visit_correspondences.h:122-128: `cur->first` is read first (undefined at `end()`), then the assertion
(never failing where reached), the increment by one block, and `cur->second`. Returns also the weight. -/
def blockStep (i : Nat) (blocks : List (Nat × K)) (start : Nat) : Outcome (List (Nat × K) × Nat × K) :=
  match blocks with
  | [] => .ub
  | (n, w) :: rest =>
    if start + n ≤ i then
      match rest with
      | [] => .ub
      | (n', w') :: rest' => .ok ((n', w') :: rest', i, w')
    else .ok ((n, w) :: rest, start, w)

section
variable [Field K] [LinearOrder K]

/-- Robust kernel, visit_correspondences.h:185-204. `composePoint` is applied to the *relative* vector `ri` (line 198), so
that the translation of the estimate enters. -/
def robustWeight (c : VisitCfg K) (b r : P3 K) (w : K) : Outcome K :=
  match createRobustKernel c.wp.kernel c.wp.kernelParam with
  | none => .ok w
  | some f => match c.wp.estimate with
    | none => .throw
    | some T => .ok (w * f (P3.distSq (T.composePoint r) b))

/-- Robust kernel, assertion on the weight and visit, visit_correspondences.h:185-209. -/
def visitPair (c : VisitCfg K) (b r : P3 K) (w : K) (s : VisitState K) : Outcome (VisitState K) := do
  let w ← robustWeight c b r w
  Outcome.assert (0 < w)
  return { s with visited := s.visited ++ [⟨b, r, w⟩], wSum := s.wSum + w }

/-- Body of the loop for index `i`, visit_correspondences.h:101-210. -/
def visitStep (c : VisitCfg K) (s : VisitState K) (i : Nat) (m : Corr K) : Outcome (VisitState K) :=
  if s.outl.head? = some i then
    .ok { s with outl := s.outl.tail, newOutl := s.newOutl ++ [i] }
  else
    match m with
    | .pt p => do
      let (blocks, start, bw) ← blockStep i s.blocks s.start
      let s := { s with blocks := blocks, start := start }
      let w := c.waPoints * bw
      let b := p.global - c.ctGlobal
      let r := p.local - c.ctLocal
      let bn := c.norm b
      let rn := c.norm r
      if bn < c.eps ∨ rn < c.eps then .ok s
      else
        let b' := if c.normalize then P3.smul (1 / bn) b else b
        let r' := if c.normalize then P3.smul (1 / rn) r else r
        if c.wp.useScaleOutlier = true ∧ c.wp.scaleThr < max bn rn / min bn rn then
          .ok { s with newOutl := s.newOutl ++ [i] }
        else visitPair c b' r' w s
    | .ln b r => visitPair c b r c.waLines s
    | .pl b r => visitPair c b r c.waPlanes s

/-- The loop, visit_correspondences.h:101-210. -/
def visitLoop (c : VisitCfg K) : VisitState K → Nat → List (Corr K) → Outcome (VisitState K)
  | s, _, [] => .ok s
  | s, i, m :: ms => (visitStep c s i m).bind fun s' => visitLoop c s' (i + 1) ms

/-- What the solvers see of a walk: the calls of `lambda_each_pair`, in order, `w_sum` and the updated outliers. -/
structure VisitOut (K : Type) where
  visited : List (Visited K)
  wSum : K
  outliers : List Nat
  deriving DecidableEq, Repr

/-- Normalised weights, visit_correspondences.h:75-89. -/
def visitCfg (p : Pairings K) (wp : WeightParams K) (ctLocal ctGlobal : P3 K) (normalize : Bool) (norm : P3 K → K)
    (eps : K) : VisitCfg K :=
  let w := wp.pairWeights
  let k := 1 / (w.pt2pt * (p.pt2pt.length : K) + w.ln2ln * (p.ln2ln.length : K) + w.pl2pl * (p.pl2pl.length : K))
  { wp := wp, ctLocal := ctLocal, ctGlobal := ctGlobal, normalize := normalize, norm := norm, eps := eps
    waPoints := w.pt2pt * k, waLines := w.ln2ln * k, waPlanes := w.pl2pl * k }

/-- `visit_correspondences`, visit_correspondences.h:38-223. The two lambdas cannot influence the loop, so their
argument lists are returned instead of calling them. Only `outliers.point2point` is read and written by the loop;
the other two lists come out empty (`new_outliers` is fresh) and are not represented. -/
def visitCorrespondences (p : Pairings K) (wp : WeightParams K) (ctLocal ctGlobal : P3 K) (outl : List Nat)
    (normalize : Bool) (norm : P3 K → K) (eps : K) : Outcome (VisitOut K) := do
  Outcome.assert (p.pt2ln.length = 0)
  Outcome.assert (p.pt2pl.length = 0)
  let pw := if p.pointWeights.isEmpty then [(p.pt2pt.length, (1 : K))] else p.pointWeights
  Outcome.assert (0 < wp.pairWeights.pt2pt + wp.pairWeights.ln2ln + wp.pairWeights.pl2pl)
  let c := visitCfg p wp ctLocal ctGlobal normalize norm eps
  let s ← visitLoop c ⟨pw, 0, outl, [], [], 0⟩ 0 (corrs p)
  return ⟨s.visited, s.wSum, s.newOutl⟩

/-! Conversion of point-to-line and point-to-plane pairings, pt2ln_pl_to_pt2pt.cpp -/

/-- `std::multimap<double,…>::insert`: after the elements with keys not greater. -/
def mmInsert {α : Type} (k : K) (a : α) : List (K × α) → List (K × α)
  | [] => [(k, a)]
  | e :: es => if k < e.1 then (k, a) :: e :: es else e :: mmInsert k a es

/-- Loop of `append_from_sorted`, pt2ln_pl_to_pt2pt.cpp:37-43, over the elements in decreasing order. -/
def appendSortedLoop (threshold : K) : List (K × PtPair K) → List (PtPair K) → List (PtPair K)
  | [], out => out
  | e :: es, out => if e.1 < threshold ∧ 3 ≤ out.length then out else appendSortedLoop threshold es (out ++ [e.2])

/-- `append_from_sorted`, pt2ln_pl_to_pt2pt.cpp:25-44 (`sorted` in increasing order). -/
def appendFromSorted (sorted : List (K × PtPair K)) (out : List (PtPair K)) (ratio : K) : List (PtPair K) :=
  match sorted.reverse with
  | [] => out
  | e :: es => appendSortedLoop (e.1 * ratio) (e :: es) out

/-- Pair made of a point and its projection on a plane, pt2ln_pl_to_pt2pt.cpp:62-83: `|d|` and the new pair.
`TPlane::evaluatePoint(p) = A x + B y + C z + D`. The error fields not set are given as zero. -/
def planeToPt (T : Pose3 K) (p : PtPlPair K) : K × PtPair K :=
  let ptG := T.composePoint p.ptLocal
  let n := p.plGlobal.plane.n
  let d := n.dot ptG + p.plGlobal.plane.d
  (|d|, ⟨0, 0, ptG - n.smul d, p.ptLocal, 0⟩)

/-- Pair made of a point and its projection on a line, pt2ln_pl_to_pt2pt.cpp:94-108.
`TLine3D::closestPointTo(p) = pBase + u (u·(p-pBase)) / |u|²`. -/
def lineToPt (norm : P3 K → K) (T : Pose3 K) (p : PtLnPair K) : K × PtPair K :=
  let ptG := T.composePoint p.ptLocal
  let u := p.lnGlobal.director
  let cp := p.lnGlobal.pBase + u.smul (u.dot (ptG - p.lnGlobal.pBase) / u.normSq)
  (|norm (cp - ptG)|, ⟨0, 0, cp, p.ptLocal, 0⟩)

/-- `pt2ln_pl_to_pt2pt`, pt2ln_pl_to_pt2pt.cpp:47-113. `nearOne n` is the check `ASSERT_NEAR_(|n|, 1, 1e-4)`;
`ratio` is the literal 0.25. The pairings of other kinds in `inp` are not looked at. -/
def pt2lnPlToPt2pt (norm : P3 K → K) (nearOne : P3 K → Bool) (ratio : K) (inp : Pairings K) (guess : Option (Pose3 K)) :
    Outcome (Pairings K) :=
  match guess with
  | none => .throw
  | some T =>
    if inp.pt2pl.all (fun p => nearOne p.plGlobal.plane.n) then
      let s1 := inp.pt2pl.foldl (fun m p => mmInsert (planeToPt T p).1 (planeToPt T p).2 m) []
      let out1 := appendFromSorted s1 [] ratio
      let s2 := inp.pt2ln.foldl (fun m p => mmInsert (lineToPt norm T p).1 (lineToPt norm T p).2 m) []
      .ok { pt2pt := appendFromSorted s2 out1 ratio }
    else .throw

end
end Verif
