import Verif.Model.Decimate
/-
Detector of poles: /repo/mp2p_icp_filters/src/FilterPoleDetector.cpp.
Coordinates are elements of an ordered field with a floor function (the code uses `float`).
-/
namespace Verif
namespace Pole
open Flt Vox
variable {K X : Type}

/-- `FilterPoleDetector::Parameters`, FilterPoleDetector.h:49-67 -/
structure PoleParams (K : Type) where
  inp : String
  poles : String
  noPoles : String
  grid : K
  minH : K
  maxH : K
  minPts : Nat
  minChecks : Nat

/-- `load_from_yaml`, FilterPoleDetector.cpp:105-121: one output at least -/
def PoleParams.valid (p : PoleParams K) : Bool := p.poles != "" || p.noPoles != ""

section
variable [Field K] [LinearOrder K] [FloorRing K]

/-- `xy_to_index`, FilterPoleDetector.cpp:54-57, as an index with third coordinate 0 -/
def cellOf (res : K) (p : FPt K) : Outcome Idx :=
  (coord2idx res p.x).bind fun i => (coord2idx res p.y).bind fun j => .ok (i, j, 0)

/-- first pass, FilterPoleDetector.cpp:174-188.  Of the statistics of a cell only the indices of its points are kept: `sumZ` is
the sum of their heights (see `cellMean`), and `minZ`, `maxZ` are not used. -/
def cellGrid (res : K) : List (FPt K) → Nat → List (Idx × List Nat) → Outcome (List (Idx × List Nat))
  | [], _, g => .ok g
  | p :: ps, i, g => (cellOf res p).bind fun k => cellGrid res ps (i + 1) (pushIdx k i g)

/-- `GridCellData::mean()`, FilterPoleDetector.cpp:96 -/
def cellMean (pts : List (FPt K)) (l : List Nat) : Outcome K :=
  (pointsAt pts l).bind fun ps => .ok (if l.isEmpty then 0 else (ps.map (·.z)).foldl (· + ·) 0 / l.length)

/-- `operator+` of indices, FilterPoleDetector.cpp:48-51: undefined on overflow of 32 bits -/
def addIdx (k : Idx) (o : ℤ × ℤ) : Outcome Idx :=
  if (-2 ^ 31 ≤ k.1 + o.1 ∧ k.1 + o.1 < 2 ^ 31) ∧ -2 ^ 31 ≤ k.2.1 + o.2 ∧ k.2.1 + o.2 < 2 ^ 31 then
    .ok (k.1 + o.1, k.2.1 + o.2, 0)
  else .ub

/-- the offsets, FilterPoleDetector.cpp:193-196 -/
def offsets : List (ℤ × ℤ) := [(-1, -1), (-1, 0), (-1, 1), (0, -1), (0, 1), (1, -1), (1, 0), (1, 1)]

/-- one neighbour, FilterPoleDetector.cpp:204-210 -/
def checkNeighbour (p : PoleParams K) (pts : List (FPt K)) (g : List (Idx × List Nat)) (mine : K) (n : Nat) (k : Idx) :
    Outcome Nat :=
  match g.find? fun e => e.1 = k with
  | none => .ok n
  | some e => (cellMean pts e.2).bind fun its =>
      .ok (if its + p.minH < mine ∧ mine < its + p.maxH then n + 1 else n)

/-- one cell of the second pass, FilterPoleDetector.cpp:191-221 -/
def visitCell (p : PoleParams K) (pts : List (FPt K)) (g : List (Idx × List Nat)) (m : FMap K X) (e : Idx × List Nat) :
    Outcome (FMap K X) :=
  (foldOutcome (fun acc o => (addIdx e.1 o).bind fun k => .ok (acc ++ [k])) [] offsets).bind fun ks =>
  if e.2.length < p.minPts then .ok m
  else (cellMean pts e.2).bind fun mine =>
    (foldOutcome (checkNeighbour p pts g mine) 0 ks).bind fun n =>
    (pointsAt pts e.2).bind fun ps =>
    .ok (ps.foldl (fun m q => insertInto m (if p.minChecks ≤ n then p.poles else p.noPoles) q) m)

/-- `FilterPoleDetector::filter`, FilterPoleDetector.cpp:139-224.  `visit`: the order of iteration of the hash map.  The points
are read from the input cloud, to which points may only have been appended. -/
def filterPoles (p : PoleParams K) (visit : List (Idx × List Nat) → List (Idx × List Nat)) (m : FMap K X) :
    Outcome (FMap K X) :=
  (pointLayer m p.inp).bind fun c => (openOutputs (emptyLike c) [p.poles, p.noPoles] m).bind fun m =>
  (cellGrid p.grid c.pts 0 []).bind fun g => foldOutcome (visitCell p c.pts g) m (visit g)

end
end Pole
end Verif
