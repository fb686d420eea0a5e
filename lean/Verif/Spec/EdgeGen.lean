import Verif.Model.EdgeGen
/-
What the generators of edge points are supposed to select, stated on the images themselves.
-/
namespace Verif
namespace Edge
open Flt Vox

/-- The trend of ranges around column `i`: the increase over the window of 17 differences, in 1/256 units, divided by 16. -/
def trend (ri : Nat → Nat) (i : Nat) : ℤ := 16 * ((ri (i + 8) : ℤ) - ri (i - 9))

/-- The spread of the range differences around column `i`. -/
def spread (ri : Nat → Nat) (i : Nat) : ℤ :=
  ((List.range' (i - 9 + 1) 17).map fun j =>
    (((ri j : ℤ) - ri (j - 1)) * 256 - trend ri i) * (((ri j : ℤ) - ri (j - 1)) * 256 - trend ri i)).sum / 16

/-- Column `i` of a row of a rotating scan is an edge. -/
def RotEdge (thr : ℤ) (ri : Nat → Nat) (i : Nat) : Prop :=
  spread ri i ≠ 0 ∧ thr < ((ri i : ℤ) * 256 - trend ri i) * ((ri i : ℤ) * 256 - trend ri i) / spread ri i / 65536
instance (thr : ℤ) (ri : Nat → Nat) (i : Nat) : Decidable (RotEdge thr ri i) := by unfold RotEdge; infer_instance

/-- The ranges of a row decrease over the window around column `i`. -/
def Falls (ri : Nat → Nat) (i : Nat) : Prop := ri (i + 8) < ri (i - 9)

/-- In a row of `n` decimated ranges, the last two are valid and decreasing. -/
def EndsFalling (R : Nat → Nat) (n : Nat) : Prop := R (n - 1) ≠ 0 ∧ R (n - 2) ≠ 0 ∧ R (n - 1) < R (n - 2)

/-- The spread of the second differences of a row of `n` decimated ranges. -/
def rowSpread (R : Nat → Nat) (n : Nat) : ℤ :=
  (((List.range n).map (decDiff2 R)).map fun d =>
    (d - decDiff R (n - 1) / (n - 1)) * (d - decDiff R (n - 1) / (n - 1))).sum / (n - 1)

/-- The score of a pixel: its squared second difference over the spread. -/
def score (R : Nat → Nat) (n cd : Nat) : ℤ :=
  if rowSpread R n = 0 then 0 else decDiff2 R cd * decDiff2 R cd / rowSpread R n

/-- What is found along the columns of a row, `k` flat pixels in a row having been passed: (false, column) for an edge,
(true, column) for a plane point, i.e. after each run of more than `n / 16` valid pixels that are no edges. -/
def found (thr : ℤ) (R : Nat → Nat) (n : Nat) : Nat → List Nat → List (Bool × Nat)
  | _, [] => []
  | k, c :: cs =>
    if R c = 0 then found thr R n 0 cs
    else if thr < score R n c then (false, c) :: found thr R n 0 cs
    else if n / 16 < k then (true, c) :: found thr R n 0 cs
    else found thr R n (k + 1) cs

/-- What is found in an image: row by row, (plane?, row, column). -/
def foundAll (thr : ℤ) (R : Nat → Nat → Nat) (rows n : Nat) : List (Bool × Nat × Nat) :=
  (List.range rows).flatMap fun rd => (found thr (R rd) n 0 (List.range' 1 (n - 1))).map fun e => (e.1, rd, e.2)

/-- Three consecutive valid points, the outer ones clear of the middle one, form an angle whose cosine is below the maximum, in
absolute value (the norms being positive). -/
def Corner {K : Type} [Field K] [LinearOrder K] (norm : P3 K → K) (maxCosine clearance : K) (s : RotScan K) (r i : Nat) : Prop :=
  s.range r (i - 1) ≠ 0 ∧ s.range r i ≠ 0 ∧ s.range r (i + 1) ≠ 0 ∧
  clearance ≤ norm (s.pts r i - s.pts r (i - 1)) ∧ clearance ≤ norm (s.pts r (i + 1) - s.pts r i) ∧
  |(s.pts r i - s.pts r (i - 1)).x * (s.pts r (i + 1) - s.pts r i).x +
   (s.pts r i - s.pts r (i - 1)).y * (s.pts r (i + 1) - s.pts r i).y +
   (s.pts r i - s.pts r (i - 1)).z * (s.pts r (i + 1) - s.pts r i).z| <
  maxCosine * norm (s.pts r i - s.pts r (i - 1)) * norm (s.pts r (i + 1) - s.pts r i)

end Edge
end Verif
