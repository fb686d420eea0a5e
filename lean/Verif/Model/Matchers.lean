import Verif.Model.BitField
import Verif.Model.MatcherSolver
import Mathlib.Algebra.Order.Field.Basic
/-
The point matchers: /repo/mp2p_icp/src/Matcher_Points_Base.cpp, Matcher_Points_DistanceThreshold.cpp,
Matcher_Points_InlierRatio.cpp, Matcher_Point2Plane.cpp, Matcher_Point2Line.cpp, Matcher_Adaptive.cpp.

External components are parameters: nearest-neighbour and nearest-plane searches, the bounding-box
intersection test, the eigen-decomposition, the histogram confidence limit and the random shuffle.
-/
namespace Verif

/-- `MatchState` (/repo/mp2p_icp/include/mp2p_icp/Matcher.h:37-60): flags of the local and global points.
`ghost` is not in the code: it records every point-to-point pairing made, with the names of its global
and local layer, and is never read. -/
structure MatchState (K : Type) where
  localFlags : AMap String BitField := []
  globalFlags : AMap String BitField := []
  ghost : List (String × String × PtPair K) := []

/-- `point_layers.at(layer)[i]`: `std::map::at` throws when the layer has no flags. -/
def flagAt (f : AMap String BitField) (layer : String) (i : Nat) : Outcome Bool :=
  match f.get layer with
  | none => .throw
  | some b => b.get i

/-- `point_layers[layer].mark_as_set(i)`: `operator[]` creates the (sparse, empty) flags if missing. -/
def flagMark (f : AMap String BitField) (layer : String) (i : Nat) : Outcome (AMap String BitField) :=
  (((f.get layer).getD {}).mark i).bind fun b => .ok (f.set layer b)

/-- Element access `v[i]` of a `std::vector`: out of range is undefined behaviour. -/
def vecAt {α : Type} (v : List α) (i : Nat) : Outcome α :=
  match v[i]? with
  | some a => .ok a
  | none => .ub

/-- One neighbour reported by a search: index/ID, coordinates, squared distance. -/
structure Nbr (K : Type) where
  idx : Nat
  pt : P3 K
  d2 : K
  deriving DecidableEq, Repr

/-- A global layer as the matchers use it.  `nnCapable`/`planeCapable`: the conversions `MapToNN`,
`MapToNP` succeed (they throw otherwise).  `boxesMeet pts margin`: the bounding box of the map
intersects that of the transformed local points `pts`, with the given margin. -/
structure GLayer (K : Type) where
  nnCapable : Bool := true
  planeCapable : Bool := true
  isEmpty : Bool := false
  boxesMeet : List (P3 K) → K → Bool := fun _ _ => true
  nnSingle : P3 K → Option (Nbr K) := fun _ => none
  nnMultiple : P3 K → Nat → List (Nbr K) := fun _ _ => []
  nnRadius : P3 K → K → Nat → List (Nbr K) := fun _ _ _ => []
  nnPlane : P3 K → K → Option (PlanePatch K × K) := fun _ _ => none

/-- Options of the base class, Matcher_Points_Base.h:49-66.  `shuffle m` stands for the result of
`partial_shuffle` on the indices `0..m-1`. -/
structure PtsCfg (K : Type) where
  weights : AMap String (AMap String K) := []
  maxLocal : Nat := 0
  shuffle : Nat → List Nat := List.range
  allowLocal : Bool := false
  allowGlobal : Bool := false
  eps : K

/-- `TransformedLocalPointCloud`, Matcher_Points_Base.h:97-113 (the box limits are a function of the
points). -/
structure TLocal (K : Type) where
  idxs : Option (List Nat)
  xs : List (P3 K)

/-- Loop of the "random subset" branch, Matcher_Points_Base.cpp:238-243. -/
def gatherPts {K : Type} (tf : P3 K → P3 K) (pts : List (P3 K)) : List Nat → Outcome (List (P3 K))
  | [] => .ok []
  | i :: is => (vecAt pts i).bind fun p => (gatherPts tf pts is).bind fun r => .ok (tf p :: r)

/-- `transform_local_to_global`, Matcher_Points_Base.cpp:183-249.  `tf` = `localPose.composePoint`. -/
def transformLocal {K : Type} (c : PtsCfg K) (tf : P3 K → P3 K) (pts : List (P3 K)) : Outcome (TLocal K) :=
  if c.maxLocal = 0 ∨ pts.length ≤ c.maxLocal then .ok { idxs := none, xs := pts.map tf }
  else (gatherPts tf pts (c.shuffle c.maxLocal)).bind fun xs =>
    .ok { idxs := some (c.shuffle c.maxLocal), xs := xs }

/-- `localIdx = tl.idxs.has_value() ? (*tl.idxs)[i] : i`. -/
def TLocal.index {K : Type} (tl : TLocal K) (i : Nat) : Outcome Nat :=
  match tl.idxs with
  | some v => vecAt v i
  | none => .ok i

/-- `!allowMatchAlreadyMatchedPoints_ && localPairedBitField.point_layers.at(localName)[localIdx]`. -/
def skipLocal {K : Type} (c : PtsCfg K) (ms : MatchState K) (lName : String) (i : Nat) : Outcome Bool :=
  if c.allowLocal then .ok false else flagAt ms.localFlags lName i

/-- `!allowMatchAlreadyMatchedGlobalPoints_ && globalPairedBitField.point_layers.at(globalName)[i]`. -/
def skipGlobal {K : Type} (c : PtsCfg K) (ms : MatchState K) (gName : String) (i : Nat) : Outcome Bool :=
  if c.allowGlobal then .ok false else flagAt ms.globalFlags gName i

/-- Mark the local point. -/
def markLocal {K : Type} (ms : MatchState K) (lName : String) (i : Nat) : Outcome (MatchState K) :=
  (flagMark ms.localFlags lName i).bind fun f => .ok { ms with localFlags := f }

/-- Mark the global point. -/
def markGlobal {K : Type} (ms : MatchState K) (gName : String) (i : Nat) : Outcome (MatchState K) :=
  (flagMark ms.globalFlags gName i).bind fun f => .ok { ms with globalFlags := f }

/-- Append a point-to-point pairing to the output (and to the ghost record). -/
def pushPt {K : Type} (ms : MatchState K) (out : Pairings K) (gName lName : String) (p : PtPair K) :
    MatchState K × Pairings K :=
  ({ ms with ghost := ms.ghost ++ [(gName, lName, p)] }, { out with pt2pt := out.pt2pt ++ [p] })

section
variable {K : Type} [LT K] [DecidableLT K] [LE K] [DecidableLE K] [Zero K] [Add K] [Mul K] [One K] [NatCast K]

/-- The common beginning of the five `implMatchOneLayer` functions (the same text in each of them; see
Matcher_Points_DistanceThreshold.cpp:64-75, Matcher_Points_InlierRatio.cpp:55-67, Matcher_Point2Plane.cpp:54-66,
Matcher_Point2Line.cpp:57-69, Matcher_Adaptive.cpp:69-81): count the potential pairings, nothing to do for
empty maps, transform the local points, nothing to do unless the boxes meet; then `body`. -/
def layerFrame (c : PtsCfg K) (tf : P3 K → P3 K) (g : GLayer K) (pts : List (P3 K)) (potential : Nat)
    (margin : K) (ms : MatchState K) (out : Pairings K)
    (body : TLocal K → MatchState K × Pairings K → Outcome (MatchState K × Pairings K)) :
    Outcome (MatchState K × Pairings K) :=
  let out := { out with potential := out.potential + potential }
  if g.isEmpty || pts.isEmpty then .ok (ms, out)
  else (transformLocal c tf pts).bind fun tl =>
    if g.boxesMeet tl.xs margin then body tl (ms, out) else .ok (ms, out)

/-! ### Matcher_Points_DistanceThreshold -/

/-- Options of `Matcher_Points_DistanceThreshold`; `angSq` = `square(DEG2RAD(thresholdAngularDeg))`;
`tbb` = the library was built with TBB. -/
structure DTCfg (K : Type) extends PtsCfg K where
  thr : K
  angDeg : K
  angSq : K
  ppp : Nat := 1
  tbb : Bool := false

/-- Neighbours looked up for one transformed local point, Matcher_Points_DistanceThreshold.cpp:155-178
(TBB build) and 228-249 (serial build). -/
def dtSearch (c : DTCfg K) (g : GLayer K) (q : P3 K) : List (Nbr K) :=
  if c.ppp = 1 then (g.nnSingle q).toList
  else if c.tbb then g.nnRadius q (c.thr * c.thr) c.ppp
  else g.nnMultiple q c.ppp

/-- `lambdaAddPair`, lines 94-122. -/
def dtAddPair (c : DTCfg K) (gName lName : String) (pts : List (P3 K)) (localIdx : Nat)
    (s : MatchState K × Pairings K) (nb : Nbr K) : Outcome (MatchState K × Pairings K) :=
  (skipGlobal c.toPtsCfg s.1 gName nb.idx).bind fun skip =>
    if skip then .ok s
    else (vecAt pts localIdx).bind fun pl =>
      let r := pushPt s.1 s.2 gName lName ⟨nb.idx, localIdx, nb.pt, pl, nb.d2⟩
      if c.allowGlobal then .ok r
      else (markLocal r.1 lName localIdx).bind fun ms1 =>
        (markGlobal ms1 gName nb.idx).bind fun ms2 => .ok (ms2, r.2)

/-- Loop over the neighbours of a local point, lines 251-264 (serial) and 180-192 (TBB). -/
def dtNbrLoop (c : DTCfg K) (gName lName : String) (pts : List (P3 K)) (localIdx : Nat) (limit : K) :
    MatchState K × Pairings K → List (Nbr K) → Outcome (MatchState K × Pairings K)
  | s, [] => .ok s
  | s, nb :: rest =>
    if nb.d2 ≥ limit then .ok s
    else (dtAddPair c gName lName pts localIdx s nb).bind fun s' =>
      dtNbrLoop c gName lName pts localIdx limit s' rest

/-- The test of one neighbour: squared distance limit, lines 185-186 / 256-257. -/
def dtLimit (c : DTCfg K) (q : P3 K) : K := c.thr * c.thr + c.angSq * (q.x * q.x + q.y * q.y + q.z * q.z)

/-- Body of the loop over local points, lines 214-265 (serial). -/
def dtStep (c : DTCfg K) (g : GLayer K) (gName lName : String) (pts : List (P3 K)) (tl : TLocal K)
    (s : MatchState K × Pairings K) (i : Nat) : Outcome (MatchState K × Pairings K) :=
  (tl.index i).bind fun localIdx =>
    (skipLocal c.toPtsCfg s.1 lName localIdx).bind fun skip =>
      if skip then .ok s
      else (vecAt tl.xs i).bind fun q =>
        dtNbrLoop c gName lName pts localIdx (dtLimit c q) s (dtSearch c g q)

/-- `Matcher_Points_DistanceThreshold::implMatchOneLayer`, Matcher_Points_DistanceThreshold.cpp:48-269.
The loop runs `i` from 0 to the size of the *whole* local cloud (lines 88, 214).  In the TBB build the same
body is run over sub-ranges in parallel; this function is then its single-threaded schedule (the
interleavings are modelled in Model/MatcherRace.lean). -/
def dtLayer (c : DTCfg K) (tf : P3 K → P3 K) (g : GLayer K) (gName lName : String) (pts : List (P3 K))
    (ms : MatchState K) (out : Pairings K) : Outcome (MatchState K × Pairings K) := do
  Outcome.assert (c.ppp ≥ 1)
  Outcome.assert (c.thr > 0)
  Outcome.assert (c.angDeg ≥ 0)
  Outcome.assert (g.nnCapable = true)
  layerFrame c.toPtsCfg tf g pts (pts.length * c.ppp) (c.thr + c.eps) ms out fun tl s =>
    foldOutcome (dtStep c g gName lName pts tl) s (List.range pts.length)

/-! ### Matcher_Points_InlierRatio -/

/-- `std::multimap::emplace_hint(begin(), key, p)`: the new element goes before the first one whose key is
not smaller. -/
def insertLower (p : PtPair K) : List (PtPair K) → List (PtPair K)
  | [] => [p]
  | e :: es => if e.errSq < p.errSq then e :: insertLower p es else p :: e :: es

/-- Options of `Matcher_Points_InlierRatio`; `round` = `mrpt::round` on non-negative numbers. -/
structure IRCfg (K : Type) extends PtsCfg K where
  ratio : K
  round : K → Nat

/-- Body of the loop building `sortedPairings`, Matcher_Points_InlierRatio.cpp:77-112. -/
def irCandStep (c : IRCfg K) (g : GLayer K) (lName : String) (pts : List (P3 K)) (tl : TLocal K)
    (ms : MatchState K) (acc : List (PtPair K)) (i : Nat) : Outcome (List (PtPair K)) :=
  (tl.index i).bind fun localIdx =>
    (skipLocal c.toPtsCfg ms lName localIdx).bind fun skip =>
      if skip then .ok acc
      else (vecAt tl.xs i).bind fun q =>
        match g.nnSingle q with
        | none => .ok acc
        | some nb => (vecAt pts localIdx).bind fun pl =>
            .ok (insertLower ⟨nb.idx, localIdx, nb.pt, pl, nb.d2⟩ acc)

/-- Body of the output loop, Matcher_Points_InlierRatio.cpp:125-140. -/
def irKeepStep (c : IRCfg K) (gName lName : String) (s : MatchState K × Pairings K) (p : PtPair K) :
    Outcome (MatchState K × Pairings K) :=
  (skipGlobal c.toPtsCfg s.1 gName p.globalIdx).bind fun skip =>
    if skip then .ok s
    else
      let r := pushPt s.1 s.2 gName lName p
      (markLocal r.1 lName p.localIdx).bind fun ms1 =>
        (markGlobal ms1 gName p.globalIdx).bind fun ms2 => .ok (ms2, r.2)

/-- Selection and output, Matcher_Points_InlierRatio.cpp:114-140. -/
def irKeep (c : IRCfg K) (gName lName : String) (cand : List (PtPair K)) (s : MatchState K × Pairings K) :
    Outcome (MatchState K × Pairings K) :=
  if cand.length = 0 then .throw
  else if c.round ((cand.length : K) * c.ratio) > cand.length then .ub
  else foldOutcome (irKeepStep c gName lName) s (cand.take (c.round ((cand.length : K) * c.ratio)))

/-- `Matcher_Points_InlierRatio::implMatchOneLayer`, Matcher_Points_InlierRatio.cpp:41-143.  Advancing the
end iterator beyond the container is undefined behaviour. -/
def irLayer (c : IRCfg K) (tf : P3 K → P3 K) (g : GLayer K) (gName lName : String) (pts : List (P3 K))
    (ms : MatchState K) (out : Pairings K) : Outcome (MatchState K × Pairings K) := do
  Outcome.assert (c.ratio > 0)
  Outcome.assert (c.ratio < 1)
  Outcome.assert (g.nnCapable = true)
  layerFrame c.toPtsCfg tf g pts pts.length c.eps ms out fun tl s =>
    (foldOutcome (irCandStep c g lName pts tl ms) [] (List.range tl.xs.length)).bind fun cand =>
      irKeep c gName lName cand s

/-! ### Matcher_Point2Plane -/

/-- Options of `Matcher_Point2Plane`. -/
structure PlCfg (K : Type) extends PtsCfg K where
  thr : K

/-- Body of the loop, Matcher_Point2Plane.cpp:79-111. -/
def plStep (c : PlCfg K) (g : GLayer K) (lName : String) (pts : List (P3 K)) (tl : TLocal K)
    (s : MatchState K × Pairings K) (i : Nat) : Outcome (MatchState K × Pairings K) :=
  (tl.index i).bind fun localIdx =>
    (skipLocal c.toPtsCfg s.1 lName localIdx).bind fun skip =>
      if skip then .ok s
      else (vecAt tl.xs i).bind fun q =>
        match g.nnPlane q c.thr with
        | none => .ok s
        | some (pl, dist) =>
          if dist > c.thr then .ok s
          else (vecAt pts localIdx).bind fun p =>
            (markLocal s.1 lName localIdx).bind fun ms1 =>
              .ok (ms1, { s.2 with pt2pl := s.2.pt2pl ++ [⟨pl, p⟩] })

/-- `Matcher_Point2Plane::implMatchOneLayer`, Matcher_Point2Plane.cpp:41-114. -/
def plLayer (c : PlCfg K) (tf : P3 K → P3 K) (g : GLayer K) (_gName lName : String) (pts : List (P3 K))
    (ms : MatchState K) (out : Pairings K) : Outcome (MatchState K × Pairings K) := do
  Outcome.assert (g.planeCapable = true)
  layerFrame c.toPtsCfg tf g pts pts.length (c.thr + c.eps) ms out fun tl s =>
    foldOutcome (plStep c g lName pts tl) s (List.range tl.xs.length)

/-! ### Matcher_Point2Line -/

/-- Result of `estimate_points_eigen` (`PointCloudEigen`): mean, eigenvalues in increasing order and
eigenvectors. -/
structure PtsEigen (K : Type) where
  mean : P3 K
  vals : K × K × K
  vecs : P3 K × P3 K × P3 K

/-- `estimate_points_eigen`, /repo/mp2p_icp_map/src/estimate_points_eigen.cpp:27-110: throws for fewer than
three points; the decomposition itself is the parameter `eig`. -/
def estimateEigen (eig : List (P3 K) → PtsEigen K) (pts : List (P3 K)) : Outcome (PtsEigen K) :=
  if pts.length < 3 then .throw else .ok (eig pts)

/-- Options of `Matcher_Point2Line`; `unit` = `TVector3D::unitarize`. -/
structure LnCfg (K : Type) extends PtsCfg K where
  thr : K
  knn : Nat
  eigThr : K
  minPts : Nat
  eig : List (P3 K) → PtsEigen K
  unit : P3 K → P3 K

/-- The filter by distance, Matcher_Point2Line.cpp:109-127, applied to the list of squared distances: the
number of neighbours left. -/
def lnCut (thrSq : K) (ds : List K) : Nat :=
  match ds.getLast? with
  | some last => if last < thrSq then ds.length else (ds.takeWhile fun d => !decide (d > thrSq)).length
  | none => 0

/-- Body of the loop, Matcher_Point2Line.cpp:87-160.  Lines 122-123 shorten the vectors of indices and of
distances but not that of points, which is the one the line is fitted to (132-135). -/
def lnStep (c : LnCfg K) (g : GLayer K) (lName : String) (pts : List (P3 K)) (tl : TLocal K)
    (s : MatchState K × Pairings K) (i : Nat) : Outcome (MatchState K × Pairings K) :=
  (tl.index i).bind fun localIdx =>
    (skipLocal c.toPtsCfg s.1 lName localIdx).bind fun skip =>
      if skip then .ok s
      else (vecAt tl.xs i).bind fun q =>
        let nbrs := g.nnMultiple q c.knn
        let kddPts := nbrs.map (·.pt)
        let nIdxs := lnCut (c.thr * c.thr) (nbrs.map (·.d2))
        if nIdxs < c.minPts then .ok s
        else (estimateEigen c.eig kddPts).bind fun e =>
          if e.vals.1 > c.eigThr * e.vals.2.2 then .ok s
          else if e.vals.2.1 > c.eigThr * e.vals.2.2 then .ok s
          else (vecAt pts localIdx).bind fun p =>
            (markLocal s.1 lName localIdx).bind fun ms1 =>
              .ok (ms1, { s.2 with pt2ln := s.2.pt2ln ++ [⟨⟨e.mean, c.unit e.vecs.2.2⟩, p⟩] })

/-- `Matcher_Point2Line::implMatchOneLayer`, Matcher_Point2Line.cpp:46-163. -/
def lnLayer (c : LnCfg K) (tf : P3 K → P3 K) (g : GLayer K) (_gName lName : String) (pts : List (P3 K))
    (ms : MatchState K) (out : Pairings K) : Outcome (MatchState K × Pairings K) := do
  Outcome.assert (g.nnCapable = true)
  layerFrame c.toPtsCfg tf g pts pts.length (c.thr + c.eps) ms out fun tl s =>
    foldOutcome (lnStep c g lName pts tl) s (List.range tl.xs.length)

/-! ### Matcher_Adaptive -/

/-- `Matcher_Adaptive::MAX_CORRS_PER_LOCAL`, Matcher_Adaptive.h:86. -/
def maxCorrsPerLocal : Nat := 10

/-- Options of `Matcher_Adaptive`; `ciHigh lo hi errs` = upper confidence limit of the 50-bin histogram over
`[lo, hi]` of the errors; `planeDist` = absolute distance of a point to a plane given by centroid and
normal; `mkPlane` = the plane by centroid and normal. -/
structure AdCfg (K : Type) extends PtsCfg K where
  absMax : K
  first2second : K
  minCorr : K
  detectPlanes : Bool := false
  maxPt2Pt : Nat := 1
  planeSearch : Nat := 8
  planeMinFound : Nat := 4
  planeMinDist : K
  planeEigThr : K
  ciHigh : K → K → List K → K
  eig : List (P3 K) → PtsEigen K
  planeDist : Plane K → P3 K → K
  mkPlane : P3 K → P3 K → Plane K

/-- Neighbours looked up for one local point, Matcher_Adaptive.cpp:141-162. -/
def adSearch (c : AdCfg K) (g : GLayer K) (q : P3 K) : List (Nbr K) :=
  let k := if c.detectPlanes then c.planeSearch else c.maxPt2Pt
  if k = 1 then (g.nnSingle q).toList else g.nnRadius q (c.absMax * c.absMax) k

/-- State of the first loop: candidates per local index and limits of the histogram. -/
structure AdState (K : Type) where
  cand : List (List (PtPair K))
  lims : Option (K × K) := none

/-- `lambdaAddPair`, Matcher_Adaptive.cpp:106-120. -/
def adAddPair (pts : List (P3 K)) (localIdx : Nat) (nb : Nbr K) (cand : List (List (PtPair K))) :
    Outcome (List (List (PtPair K))) :=
  match cand[localIdx]? with
  | none => .throw
  | some ps =>
    if ps.length ≥ maxCorrsPerLocal then .ok cand
    else (vecAt pts localIdx).bind fun pl =>
      .ok (cand.set localIdx (ps ++ [⟨nb.idx, localIdx, nb.pt, pl, nb.d2⟩]))

/-- Update of the histogram limits, Matcher_Adaptive.cpp:170-184 (`lims` = (min, max)). -/
def adLims (k : Nat) (d2 : K) (lims : Option (K × K)) : Option (K × K) :=
  if k ≤ 1 then
    match lims with
    | some (lo, hi) => some (keepMin lo d2, keepMax hi d2)
    | none => some (d2, d2)
  else lims

/-- Loop over the neighbours, Matcher_Adaptive.cpp:164-187; `k` = position of the neighbour. -/
def adNbrLoop (c : AdCfg K) (pts : List (P3 K)) (localIdx : Nat) :
    Nat → AdState K → List (Nbr K) → Outcome (AdState K)
  | _, s, [] => .ok s
  | k, s, nb :: rest =>
    if nb.d2 > c.absMax * c.absMax then adNbrLoop c pts localIdx (k + 1) s rest
    else (adAddPair pts localIdx nb s.cand).bind fun cand' =>
      adNbrLoop c pts localIdx (k + 1) ⟨cand', adLims k nb.d2 s.lims⟩ rest

/-- Body of the first loop, Matcher_Adaptive.cpp:125-189. -/
def adCandStep (c : AdCfg K) (g : GLayer K) (lName : String) (pts : List (P3 K)) (tl : TLocal K)
    (ms : MatchState K) (s : AdState K) (i : Nat) : Outcome (AdState K) :=
  (tl.index i).bind fun localIdx =>
    (skipLocal c.toPtsCfg ms lName localIdx).bind fun skip =>
      if skip then .ok s
      else (vecAt tl.xs i).bind fun q => adNbrLoop c pts localIdx 0 s (adSearch c g q)

/-- The plane test on the candidates of one local point, Matcher_Adaptive.cpp:225-254; `some` = a plane
pairing is to be made.  The distance to the plane is taken from `mspl.at(0).local`, the local point in
*local* coordinates (line 251). -/
def adPlane (c : AdCfg K) (mspl : List (PtPair K)) : Outcome (Option (PlanePatch K)) :=
  if c.detectPlanes && decide (mspl.length ≥ c.planeMinFound) then
    (estimateEigen c.eig (mspl.map (·.global))).bind fun e =>
      if e.vals.1 < c.planeEigThr * e.vals.2.2 ∧ e.vals.1 < c.planeEigThr * e.vals.2.1 then
        match mspl with
        | [] => .throw
        | p0 :: _ =>
          if c.planeDist (c.mkPlane e.mean e.vecs.1) p0.local < c.planeMinDist then
            .ok (some ⟨c.mkPlane e.mean e.vecs.1, e.mean⟩)
          else .ok none
      else .ok none
  else .ok none

/-- Loop over the point candidates, Matcher_Adaptive.cpp:273-299: `i` = position, `e0` = error of the first
candidate; the list holds the candidates from position `i` on, at most `maxPt2Pt` altogether. -/
def adPtLoop (c : AdCfg K) (gName lName : String) (maxCorr e0 : K) :
    Nat → MatchState K × Pairings K → List (PtPair K) → Outcome (MatchState K × Pairings K)
  | _, s, [] => .ok s
  | i, s, p :: rest =>
    (skipGlobal c.toPtsCfg s.1 gName p.globalIdx).bind fun skip =>
      if skip then adPtLoop c gName lName maxCorr e0 (i + 1) s rest
      else if p.errSq ≥ maxCorr then adPtLoop c gName lName maxCorr e0 (i + 1) s rest
      else if i ≠ 0 ∧ p.errSq > e0 * (c.first2second * c.first2second) then .ok s
      else
        let r := pushPt s.1 s.2 gName lName p
        if c.allowGlobal then adPtLoop c gName lName maxCorr e0 (i + 1) r rest
        else (markLocal r.1 lName p.localIdx).bind fun ms1 =>
          adPtLoop c gName lName maxCorr e0 (i + 1) (ms1, r.2) rest

/-- Body of the second loop, Matcher_Adaptive.cpp:223-300. -/
def adOutStep (c : AdCfg K) (gName lName : String) (pts : List (P3 K)) (maxCorr : K)
    (s : MatchState K × Pairings K) (mspl : List (PtPair K)) : Outcome (MatchState K × Pairings K) :=
  (adPlane c mspl).bind fun pl =>
    match pl, mspl with
    | some patch, p0 :: _ => (vecAt pts p0.localIdx).bind fun p =>
        (markLocal s.1 lName p0.localIdx).bind fun ms1 =>
          .ok (ms1, { s.2 with pt2pl := s.2.pt2pl ++ [⟨patch, p⟩] })
    | _, [] => .ok s
    | none, p0 :: _ => adPtLoop c gName lName maxCorr p0.errSq 0 s (mspl.take c.maxPt2Pt)

/-- The adaptive limit on squared distances, Matcher_Adaptive.cpp:193-218. -/
def adMaxCorr (c : AdCfg K) (a : AdState K) (lo hi : K) : K :=
  stdMax (c.minCorr * c.minCorr)
    (c.ciHigh lo hi ((a.cand.map fun m => (m.take 2).map (·.errSq)).flatten))

/-- Histogram and second loop, Matcher_Adaptive.cpp:191-300. -/
def adOut (c : AdCfg K) (gName lName : String) (pts : List (P3 K)) (a : AdState K)
    (s : MatchState K × Pairings K) : Outcome (MatchState K × Pairings K) :=
  match a.lims with
  | none => .ub
  | some (lo, hi) => foldOutcome (adOutStep c gName lName pts (adMaxCorr c a lo hi)) s a.cand

/-- `Matcher_Adaptive::implMatchOneLayer`, Matcher_Adaptive.cpp:59-314.  Line 193 dereferences the histogram
limits, undefined behaviour when no neighbour was found. -/
def adLayer (c : AdCfg K) (tf : P3 K → P3 K) (g : GLayer K) (gName lName : String) (pts : List (P3 K))
    (ms : MatchState K) (out : Pairings K) : Outcome (MatchState K × Pairings K) := do
  Outcome.assert (g.nnCapable = true)
  layerFrame c.toPtsCfg tf g pts (pts.length * c.maxPt2Pt) c.eps ms out fun tl s =>
    (foldOutcome (adCandStep c g lName pts tl ms) ⟨List.replicate tl.xs.length [], none⟩
      (List.range tl.xs.length)).bind fun a => adOut c gName lName pts a s

/-! ### Matcher_Points_Base -/

/-- The kind of matcher, i.e. which `implMatchOneLayer`. -/
inductive PtMatcher (K : Type) where
  | distanceThreshold (c : DTCfg K)
  | inlierRatio (c : IRCfg K)
  | point2plane (c : PlCfg K)
  | point2line (c : LnCfg K)
  | adaptive (c : AdCfg K)

/-- Options of the base class. -/
def PtMatcher.base : PtMatcher K → PtsCfg K
  | .distanceThreshold c => c.toPtsCfg
  | .inlierRatio c => c.toPtsCfg
  | .point2plane c => c.toPtsCfg
  | .point2line c => c.toPtsCfg
  | .adaptive c => c.toPtsCfg

/-- The virtual call `implMatchOneLayer`. -/
def PtMatcher.layer : PtMatcher K → (P3 K → P3 K) → GLayer K → String → String → List (P3 K) →
    MatchState K → Pairings K → Outcome (MatchState K × Pairings K)
  | .distanceThreshold c => dtLayer c
  | .inlierRatio c => irLayer c
  | .point2plane c => plLayer c
  | .point2line c => lnLayer c
  | .adaptive c => adLayer c

end

/-- Local layers to match against a global layer, Matcher_Points_Base.cpp:44-65. -/
def localLayersFor {K : Type} (weights : AMap String (AMap String K)) (gName : String) :
    AMap String (Option K) :=
  if weights.isEmpty then [(gName, none)]
  else match weights.get gName with
    | none => []
    | some ls => ls.map fun kv => (kv.1, some kv.2)

/-- The function called for each pair of layers. -/
abbrev LayerFn (K : Type) := GLayer K → String → String → List (P3 K) → MatchState K → Pairings K →
  Outcome (MatchState K × Pairings K)

/-- Body of the loop over local layers, Matcher_Points_Base.cpp:67-126.  A local layer is `none` when it is
not a point cloud.  (Null layer pointers, which also throw, and the kd-tree leaf-size option, which
has no effect on results, are left out.) -/
def localLayerStep {K : Type} (f : LayerFn K) (gName : String) (g : GLayer K)
    (locals : AMap String (Option (List (P3 K)))) (s : MatchState K × Pairings K)
    (lw : String × Option K) : Outcome (MatchState K × Pairings K) :=
  match locals.get lw.1, lw.2 with
  | none, none => .ok s
  | none, some _ => .throw
  | some none, _ => .throw
  | some (some pts), w =>
    (f g gName lw.1 pts s.1 s.2).bind fun r =>
      let n := r.2.pt2pt.length - s.2.pt2pt.length
      match w with
      | none => .ok r
      | some w =>
        if r.2.pt2pt.length = s.2.pt2pt.length then .ok r
        else .ok (r.1, { r.2 with pointWeights := r.2.pointWeights ++ [(n, w)] })

/-- Body of the loop over global layers, Matcher_Points_Base.cpp:40-127. -/
def globalLayerStep {K : Type} (f : LayerFn K) (weights : AMap String (AMap String K))
    (locals : AMap String (Option (List (P3 K)))) (s : MatchState K × Pairings K)
    (gl : String × GLayer K) : Outcome (MatchState K × Pairings K) :=
  foldOutcome (localLayerStep f gl.1 gl.2 locals) s (localLayersFor weights gl.1)

/-- `Matcher_Points_Base::impl_match`, Matcher_Points_Base.cpp:30-130. -/
def pointsMatch {K : Type} (f : LayerFn K) (weights : AMap String (AMap String K))
    (globals : AMap String (GLayer K)) (locals : AMap String (Option (List (P3 K))))
    (ms : MatchState K) : Outcome (MatchState K × Pairings K) :=
  foldOutcome (globalLayerStep f weights locals) (ms, {}) globals

/-- One entry of the YAML list `pointLayerMatches`, lines 147-160. -/
structure LayerMatch (K : Type) where
  global : String
  «local» : String
  weight : Option K

/-- `Matcher_Points_Base::initialize`, the weights table, lines 136-162 (`one` = 1.0). -/
def initWeights {K : Type} (one : K) (es : List (LayerMatch K)) : AMap String (AMap String K) :=
  es.foldl (fun w e => w.set e.global (((w.get e.global).getD []).set e.local (e.weight.getD one))) []

/-- A point matcher as a `Matcher` object on given maps; `tf pose` = `pose.composePoint`. -/
def PtMatcher.toMatcher {K Pose : Type} [LT K] [DecidableLT K] [LE K] [DecidableLE K] [Zero K] [Add K] [Mul K] [One K] [NatCast K] (m : PtMatcher K)
    (tf : Pose → P3 K → P3 K) (globals : AMap String (GLayer K))
    (locals : AMap String (Option (List (P3 K)))) : Matcher K Pose (MatchState K) where
  impl _ pose ms _ :=
    (pointsMatch (m.layer (tf pose)) m.base.weights globals locals ms).bind fun r => .ok (true, r.1, r.2)

end Verif
