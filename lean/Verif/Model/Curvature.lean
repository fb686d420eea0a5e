import Verif.Model.FilterBasic
/-
`FilterCurvature`: /repo/mp2p_icp_filters/src/FilterCurvature.cpp, include/mp2p_icp_filters/FilterCurvature.h.
`sqrtf` is a parameter (`sq`).
-/
namespace Verif
namespace Flt
variable {K X : Type}

/-- `FilterCurvature::Parameters`, FilterCurvature.h:50-71 -/
structure CurvParams (K : Type) where
  inp : String
  larger : String
  smaller : String
  other : String
  maxCos : K
  clearance : K
  maxGap : K

/-- `const uint16_t nRings = 1 + *std::max_element(...)`, FilterCurvature.cpp:120: sixteen bits -/
def nRings (pts : List (FPt K)) : Nat := (1 + pts.foldl (fun a p => max a p.ring.toNat) 0) % 65536

section
variable [Field K] [LinearOrder K]

/-- `mrpt::max3(std::abs(d.x), std::abs(d.y), std::abs(d.z))`, FilterCurvature.cpp:154-156 -/
def infDist (p q : FPt K) : K := max (|p.x - q.x|) (max (|p.y - q.y|) (|p.z - q.z|))

/-- one point of the first loop, FilterCurvature.cpp:138-162 -/
def curvKeep (clr : K) (pts : List (FPt K)) (rings : List (List Nat)) (i : Nat) : Outcome (List (List Nat)) :=
  match pts[i]? with
  | none => .ub
  | some p =>
    match rings[p.ring.toNat]? with
    | none => .throw -- `.at()`
    | some trg =>
      match trg.getLast? with
      | none => .ok (rings.set p.ring.toNat (trg ++ [i]))
      | some li =>
        match pts[li]? with
        | none => .ub
        | some q => if infDist p q < clr then .ok rings else .ok (rings.set p.ring.toNat (trg ++ [i]))

/-- the first loop, FilterCurvature.cpp:138-168 -/
def curvScan (clr : K) (pts : List (FPt K)) : Nat → Nat → List (List Nat) → Outcome (List (List Nat))
  | 0, _, rings => .ok rings
  | k + 1, i, rings => (curvKeep clr pts rings i).bind fun rings => curvScan clr pts k (i + 1) rings

/-- `(a - b).sqrNorm()` -/
def sqDist (a b : FPt K) : K := (a.x - b.x) * (a.x - b.x) + (a.y - b.y) * (a.y - b.y) + (a.z - b.z) * (a.z - b.z)
/-- `a.sqrNorm()` -/
def sqNorm (a : FPt K) : K := a.x * a.x + a.y * a.y + a.z * a.z
/-- `score`: dot product of `pt - ptm1` and `ptp1 - pt`, FilterCurvature.cpp:226-231 -/
def curvDot (a b c : FPt K) : K := (b.x - a.x) * (c.x - b.x) + (b.y - a.y) * (c.y - b.y) + (b.z - a.z) * (c.z - b.z)

/-- where the point `pt` goes, FilterCurvature.cpp:207-243 -/
def curvTarget (sq : K → K) (P : CurvParams K) (ptm1 pt ptp1 : FPt K) : String :=
  if sqDist pt ptm1 > P.maxGap * P.maxGap ∨ sqDist pt ptp1 > P.maxGap * P.maxGap then
    if sqNorm pt < sqNorm ptm1 then P.larger else P.other
  else if |curvDot ptm1 pt ptp1| < P.maxCos * sq (sqDist pt ptm1) * sq (sqDist ptp1 pt) then P.larger
  else P.smaller

/-- `idxs[k]`, unchecked -/
def idxAt (idxs : List Nat) (k : Nat) : Outcome Nat :=
  match idxs[k]? with
  | some i => .ok i
  | none => .ub

/-- rings of up to three points, FilterCurvature.cpp:185-197 -/
def curvFew (P : CurvParams K) (idxs : List Nat) : Nat → Nat → FMap K X → Outcome (FMap K X)
  | 0, _, m => .ok m
  | k + 1, j, m => (idxAt idxs j).bind fun i => (pointAt m P.inp i).bind fun p =>
    curvFew P idxs k (j + 1) (insertInto m P.larger p)

/-- regular rings, FilterCurvature.cpp:200-244 -/
def curvMany (sq : K → K) (P : CurvParams K) (idxs : List Nat) : Nat → Nat → FMap K X → Outcome (FMap K X)
  | 0, _, m => .ok m
  | k + 1, j, m =>
    (idxAt idxs (if j > 0 then j - 1 else idxs.length - 1)).bind fun im1 =>
    (idxAt idxs j).bind fun i =>
    (idxAt idxs (if j < idxs.length - 1 then j + 1 else 0)).bind fun ip1 =>
    (pointAt m P.inp i).bind fun pt => (pointAt m P.inp im1).bind fun ptm1 => (pointAt m P.inp ip1).bind fun ptp1 =>
    curvMany sq P idxs k (j + 1) (insertInto m (curvTarget sq P ptm1 pt ptp1) pt)

/-- one ring, FilterCurvature.cpp:181-245 -/
def curvRing (sq : K → K) (P : CurvParams K) (idxs : List Nat) (m : FMap K X) : Outcome (FMap K X) :=
  if idxs.length ≤ 3 then curvFew P idxs idxs.length 0 m else curvMany sq P idxs idxs.length 0 m

/-- `FilterCurvature::filter`, FilterCurvature.cpp:58-251 -/
def filterCurvature (sq : K → K) (P : CurvParams K) (m : FMap K X) : Outcome (FMap K X) :=
  (pointLayer m P.inp).bind fun c =>
  (openOutputs (emptyLike c) [P.larger, P.smaller, P.other] m).bind fun m =>
  (Outcome.assert (P.larger ≠ "" ∨ P.smaller ≠ "")).bind fun _ =>
  if !c.hasRing || c.pts.isEmpty then .throw
  else if nRings c.pts = 0 then .ub -- `N / nRings`
  else
    (Outcome.assert (0 < nRings c.pts ∧ nRings c.pts < 5000)).bind fun _ =>
    (curvScan P.clearance c.pts c.pts.length 0 (List.replicate (nRings c.pts) [])).bind fun rings =>
    foldOutcome (fun m idxs => curvRing sq P idxs m) m rings
end

end Flt
end Verif
