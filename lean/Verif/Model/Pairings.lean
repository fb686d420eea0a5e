import Verif.Model.Outcome
import Verif.Model.Geom
/-
`mp2p_icp::Pairings`: /repo/mp2p_icp/include/mp2p_icp/Pairings.h and /repo/mp2p_icp/src/Pairings.cpp
-/
namespace Verif

/-- `mrpt::tfest::TMatchingPair` (fields used by mp2p_icp). -/
structure PtPair (K : Type) where
  globalIdx : Nat
  localIdx : Nat
  global : P3 K
  «local» : P3 K
  errSq : K
  deriving DecidableEq, Repr

/-- `point_line_pair_t`, Pairings.h:62-74. -/
structure PtLnPair (K : Type) where
  lnGlobal : Line3 K
  ptLocal : P3 K
  deriving DecidableEq, Repr

/-- `point_plane_pair_t` (/repo/mp2p_icp_map/include/mp2p_icp/point_plane_pair_t.h). -/
structure PtPlPair (K : Type) where
  plGlobal : PlanePatch K
  ptLocal : P3 K
  deriving DecidableEq, Repr

/-- `matched_line_t`, Pairings.h:53-59. -/
structure LnPair (K : Type) where
  lnGlobal : Line3 K
  lnLocal : Line3 K
  deriving DecidableEq, Repr

/-- `matched_plane_t`, Pairings.h:37-50. -/
structure PlPair (K : Type) where
  pGlobal : PlanePatch K
  pLocal : PlanePatch K
  deriving DecidableEq, Repr

/-- `struct Pairings`, Pairings.h:84-163 (data fields 92-111).
`potential_pairings` is `uint64_t` in the code; here an unbounded natural number. -/
structure Pairings (K : Type) where
  pt2pt : List (PtPair K) := []
  pt2ln : List (PtLnPair K) := []
  pt2pl : List (PtPlPair K) := []
  ln2ln : List (LnPair K) := []
  pl2pl : List (PlPair K) := []
  potential : Nat := 0
  pointWeights : List (Nat × K) := []
  deriving DecidableEq, Repr

namespace Pairings
variable {K : Type}

/-- `Pairings::empty`, Pairings.h:118-122. -/
def isEmpty (p : Pairings K) : Bool :=
  p.pt2pt.isEmpty && p.pl2pl.isEmpty && p.ln2ln.isEmpty && p.pt2ln.isEmpty && p.pt2pl.isEmpty

/-- `Pairings::size`, Pairings.cpp:143-147. -/
def size (p : Pairings K) : Nat :=
  p.pt2pt.length + p.pt2ln.length + p.pt2pl.length + p.ln2ln.length + p.pl2pl.length

/-- `Pairings::push_back(const Pairings&)`, Pairings.cpp:123-131: the five lists are appended and the
counter added; `point_weights` of `o` is not looked at. -/
def pushBackCopy (me o : Pairings K) : Pairings K :=
  { pt2pt := me.pt2pt ++ o.pt2pt
    pt2ln := me.pt2ln ++ o.pt2ln
    pt2pl := me.pt2pl ++ o.pt2pl
    ln2ln := me.ln2ln ++ o.ln2ln
    pl2pl := me.pl2pl ++ o.pl2pl
    potential := me.potential + o.potential
    pointWeights := me.pointWeights }

/-- `Pairings::push_back(Pairings&&)`, Pairings.cpp:133-141: like the copy overload, but the counter is
assigned (line 140), not added. -/
def pushBackMove (me o : Pairings K) : Pairings K :=
  { pt2pt := me.pt2pt ++ o.pt2pt
    pt2ln := me.pt2ln ++ o.pt2ln
    pt2pl := me.pt2pl ++ o.pt2pl
    ln2ln := me.ln2ln ++ o.ln2ln
    pl2pl := me.pl2pl ++ o.pl2pl
    potential := o.potential
    pointWeights := me.pointWeights }

/-- `append_container_size`, Pairings.cpp:149-157. -/
def appendContainerSize (n : Nat) (name ret : String) : String :=
  if n = 0 then ret
  else (if ret = "" then ret else ret ++ ", ") ++ (toString n ++ " " ++ name)

/-- `Pairings::contents_summary`, Pairings.cpp:159-174. -/
def contentsSummary (p : Pairings K) : String :=
  if p.isEmpty then "none"
  else
    let r := appendContainerSize p.pt2pt.length "point-point" ""
    let r := appendContainerSize p.pt2ln.length "point-line" r
    let r := appendContainerSize p.pt2pl.length "point-plane" r
    let r := appendContainerSize p.ln2ln.length "line-line" r
    let r := appendContainerSize p.pl2pl.length "plane-plane" r
    r ++ " out of " ++ toString p.potential

end Pairings

/-- `struct OutlierIndices`, Pairings.h:169-187 ("Indices are always assumed to be sorted"). -/
structure OutlierIndices where
  point2point : List Nat := []
  line2line : List Nat := []
  plane2plane : List Nat := []
  deriving DecidableEq, Repr

/-- Loop of `eval_centroids_robust`, Pairings.cpp:86-101: index `i`, iterator into the outliers
(the remaining outliers), and the sums `ct_global`, `ct_local`, `cnt`. -/
def centroidLoop {K : Type} [Add K] :
    Nat → List Nat → List (PtPair K) → P3 K → P3 K → Nat → P3 K × P3 K × Nat
  | _, _, [], g, l, cnt => (g, l, cnt)
  | i, outl, p :: ps, g, l, cnt =>
    match outl with
    | o :: os =>
      if i = o then centroidLoop (i + 1) os ps g l cnt
      else centroidLoop (i + 1) (o :: os) ps (g + p.global) (l + p.local) (cnt + 1)
    | [] => centroidLoop (i + 1) [] ps (g + p.global) (l + p.local) (cnt + 1)

/-- `eval_centroids_robust`, Pairings.cpp:68-110; returns `(ct_local, ct_global)`. -/
def evalCentroidsRobust {K : Type} [Add K] [Zero K] [Mul K] [Div K] [NatCast K] [One K]
    (inp : Pairings K) (outl : OutlierIndices) : Outcome (P3 K × P3 K) := do
  Outcome.assert (inp.pt2pt.length > outl.point2point.length)
  let wc : K := 1 / ((inp.pt2pt.length - outl.point2point.length : Nat) : K)
  let (g, l, cnt) := centroidLoop 0 outl.point2point inp.pt2pt 0 0 0
  Outcome.assert (cnt = inp.pt2pt.length - outl.point2point.length)
  return (l.smul wc, g.smul wc)

end Verif
