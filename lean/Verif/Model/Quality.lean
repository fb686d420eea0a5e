import Mathlib.Algebra.Order.Ring.Abs
import Verif.Model.MoreFilters
import Verif.Model.Decimate
/-
Quality evaluators: /repo/mp2p_icp/src/QualityEvaluator_RangeImageSimilarity.cpp, QualityEvaluator_Voxels.cpp.
Numbers are elements of an ordered field (the code uses `double`).
-/
namespace Verif
namespace Qual
open Vox
variable {K : Type} [Field K] [LinearOrder K] [IsStrictOrderedRing K] [FloorRing K]

/-! ### range images -/

/-- The simulated camera and the other parameters, QualityEvaluator_RangeImageSimilarity.h:70-78.  `sigma` is supposed not to
be zero. -/
structure RangeParams (K : Type) where
  ncols : Nat
  nrows : Nat
  cx : K
  cy : K
  fx : K
  fy : K
  sigma : K
  penalty : K

/-- External functions: the Euclidean norm and `erf(x / sqrt 2)` -/
structure RangeExt (K : Type) where
  norm : P3 K → K
  phi : K → K

/-- A range image by row and column, 0 = invalid (the entries within `nrows` × `ncols` exist) -/
abbrev Img (K : Type) := Nat → Nat → K

/-- `projectPoint` and the conversion to `int`, QualityEvaluator_RangeImageSimilarity.cpp:113-139, 164-167: column and row.
Undefined if `x` is zero or the result does not fit. -/
def pixel (c : RangeParams K) (p : P3 K) : Outcome (ℤ × ℤ) :=
  if p.x = 0 then .ub
  else
    let px := truncZ (c.cx + c.fx * (-p.y / p.x))
    let py := truncZ (c.cy + c.fy * (-p.z / p.x))
    if -2 ^ 31 ≤ px ∧ px < 2 ^ 31 ∧ -2 ^ 31 ≤ py ∧ py < 2 ^ 31 then .ok (px, py) else .ub

/-- `if (relativePose) p = relativePose->composePoint(p)`, QualityEvaluator_RangeImageSimilarity.cpp:160-161 -/
def viewed (T : Option (Pose3 K)) (p : P3 K) : P3 K :=
  match T with
  | some T => T.composePoint p
  | none => p

/-- one iteration of the loop, QualityEvaluator_RangeImageSimilarity.cpp:158-179 -/
def projStep (E : RangeExt K) (c : RangeParams K) (T : Option (Pose3 K)) (I : Img K) (p0 : P3 K) : Outcome (Img K) :=
  let p := viewed T p0
  (pixel c p).bind fun xy =>
    if xy.1 < 0 ∨ xy.2 < 0 ∨ xy.1 ≥ c.ncols ∨ xy.2 ≥ c.nrows then .ok I
    else
      let stored := I xy.2.toNat xy.1.toNat
      if stored = 0 ∨ E.norm p < stored then
        .ok fun r k => if r = xy.2.toNat ∧ k = xy.1.toNat then E.norm p else I r k
      else .ok I

/-- `projectPoints`, QualityEvaluator_RangeImageSimilarity.cpp:141-184, from image `I` on -/
def projLoop (E : RangeExt K) (c : RangeParams K) (T : Option (Pose3 K)) : List (P3 K) → Img K → Outcome (Img K)
  | [], I => .ok I
  | p :: ps, I => (projStep E c T I p).bind fun I => projLoop E c T ps I

/-- `projectPoints`, QualityEvaluator_RangeImageSimilarity.cpp:141-184 -/
def projectPoints (E : RangeExt K) (c : RangeParams K) (T : Option (Pose3 K)) (ps : List (P3 K)) : Outcome (Img K) :=
  projLoop E c T ps fun _ _ => 0

/-- `scores`, QualityEvaluator_RangeImageSimilarity.cpp:194-226, for one pixel -/
def score (E : RangeExt K) (c : RangeParams K) (r1 r2 : K) : Option K :=
  if r1 = 0 ∧ r2 = 0 then none
  else if r1 = 0 ∨ r2 = 0 then some (1 - E.phi c.penalty)
  else some (1 - E.phi |(r1 - r2) / c.sigma|)

/-- the pixels of an image in memory order (row by row) -/
def pixels (c : RangeParams K) : List (Nat × Nat) :=
  (List.range c.nrows).flatMap fun r => (List.range c.ncols).map fun k => (r, k)

/-- `scores`, QualityEvaluator_RangeImageSimilarity.cpp:194-226 -/
def scores (E : RangeExt K) (c : RangeParams K) (A B : Img K) : List K :=
  (pixels c).filterMap fun q => score E c (A q.1 q.2) (B q.1 q.2)

/-- `evaluate`, QualityEvaluator_RangeImageSimilarity.cpp:46-75, 105-108, from the points of the two raw layers; `pose` =
`localPose` (the debug output is left out) -/
def evalRange (E : RangeExt K) (c : RangeParams K) (g l : List (P3 K)) (pose : Pose3 K) : Outcome K :=
  (projectPoints E c none g).bind fun I11 =>
  (projectPoints E c (some pose) g).bind fun I12 =>
  (projectPoints E c none l).bind fun I22 =>
  (projectPoints E c (some pose.inv) l).bind fun I21 =>
  let s1 := scores E c I11 I21
  let s2 := scores E c I12 I22
  let n := s1.length + s2.length
  .ok (if 0 < n then (s2.foldl (· + ·) (s1.foldl (· + ·) 0)) / n else 0)

/-! ### voxels -/

/-- A `CVoxelMap`: the side of its voxels and their probabilities of occupation (`l2p` of the stored log-odds), in the order of
`forEachCell` -/
structure Grid (K : Type) where
  res : K
  cells : List ((ℤ × ℤ × ℤ) × K)

/-- External: `Bonxai::CoordToPos(coord, resolution)`, `Bonxai::PosToCoord(point, inv_resolution)` (given the resolution it is
the inverse of), `exp` -/
structure VoxExt (K : Type) where
  toPos : K → ℤ × ℤ × ℤ → P3 K
  toCoord : K → P3 K → ℤ × ℤ × ℤ
  exp : K → K

/-- `loss`, QualityEvaluator_Voxels.cpp:43-60 -/
def loss (x y : K) : K := 3 / 2 + x + y - 12 * x * x + 22 * x * y - 12 * y * y

/-- the accessor's `value(coord)`: the cell if observed -/
def Grid.find (g : Grid K) (k : ℤ × ℤ × ℤ) : Option K := (g.cells.find? fun e => e.1 = k).map (·.2)

/-- barely observed, QualityEvaluator_Voxels.cpp:127, 151 -/
def barely (o : K) : Prop := |o - 1 / 2| < 1 / 100
instance (o : K) : Decidable (barely o) := by unfold barely; infer_instance

/-- QualityEvaluator_Voxels.cpp:113-132: the local voxels; accumulator = (dist, dist_cells) -/
def localLoop (E : VoxExt K) (g l : Grid K) (T : Pose3 K) : List ((ℤ × ℤ × ℤ) × K) → K × Nat → K × Nat
  | [], a => a
  | (k, o) :: rest, a =>
    match g.find (E.toCoord g.res (T.composePoint (E.toPos l.res k))) with
    | none => localLoop E g l T rest a
    | some go => if barely go ∨ barely o then localLoop E g l T rest a
      else localLoop E g l T rest (a.1 + loss o go, a.2 + 1)

/-- QualityEvaluator_Voxels.cpp:137-156: the global voxels, whose position is computed with the resolution of the local map -/
def globalLoop (E : VoxExt K) (_g l : Grid K) (T : Pose3 K) : List ((ℤ × ℤ × ℤ) × K) → K × Nat → K × Nat
  | [], a => a
  | (k, o) :: rest, a =>
    match l.find (E.toCoord l.res (T.inv.composePoint (E.toPos l.res k))) with
    | none => globalLoop E _g l T rest a
    | some lo => if barely o ∨ barely lo then globalLoop E _g l T rest a
      else globalLoop E _g l T rest (a.1 + loss lo o, a.2 + 1)

/-- `evaluate`, QualityEvaluator_Voxels.cpp:63-170; `none` = the layer is missing or of another class; `scale` =
`dist2quality_scale` -/
def evalVoxels (E : VoxExt K) (scale : K) (g l : Option (Grid K)) (T : Pose3 K) : Outcome K :=
  match g, l with
  | some g, some l =>
    let a := globalLoop E g l T g.cells (localLoop E g l T l.cells (0, 0))
    .ok (if a.2 ≠ 0 then 1 / (1 + E.exp (-scale * (a.1 / a.2))) else 0)
  | _, _ => .throw

end Qual
end Verif
