import Mathlib.Algebra.Order.Ring.Rat
import Mathlib.Analysis.Real.Sqrt
import Mathlib.Tactic.Ring
import Mathlib.Tactic.Linarith
import Mathlib.Tactic.FieldSimp
import Mathlib.Tactic.Positivity
import Verif.Lemmas.EdgeGen
import Verif.Lemmas.AMap
import Verif.Lemmas.Rot
import Verif.Spec.EdgeGen
/-
C73: GeneratorEdgesFromCurvature.
-/
set_option linter.unusedSectionVars false
namespace Verif
namespace Props
open Flt Vox Edge Spec Lemmas
variable {K X : Type} [Field K] [LinearOrder K]

theorem curvEdge_iff (norm : P3 K → K) (c : CurvEdgeParams K) (s : RotScan K) (r i : Nat) :
    curvEdge norm c s r i = true ↔ Corner norm c.maxCosine c.clearance s r i := by
  unfold curvEdge Corner
  split
  · rename_i h
    simp only [Bool.false_eq_true, false_iff]
    tauto
  · rename_i h
    push Not at h
    simp only []
    split
    · rename_i h'
      simp only [Bool.false_eq_true, false_iff]
      rintro ⟨-, -, -, h1, h2, -⟩
      rcases h' with h' | h'
      · exact absurd h1 (not_le.2 h')
      · exact absurd h2 (not_le.2 h')
    · rename_i h'
      push Not at h'
      simp only [decide_eq_true_eq]
      tauto

open Classical in
/-- the points of a row, column by column, at the corners -/
noncomputable def corners (norm : P3 K → K) (c : CurvEdgeParams K) (s : RotScan K) (r : Nat) : List Nat :=
  (List.range' 1 (s.cols - 2)).filter fun i => decide (Corner norm c.maxCosine c.clearance s r i)

/-- **C73 (what is selected).** For every consistent scan, the target layer becomes a cloud of exactly the corner points, row by
row and in the order of the columns, moved by the pose of the robot if there is one; what the layer held before is lost, and all
other layers are as before.
Part of C73: the layer is replaced, not appended to. -/
theorem curv_edges_result_partial (norm : P3 K → K) (c : CurvEdgeParams K) (robot : Option (Pose3 K)) (s : RotScan K) (m : FMap K X)
    (hc : s.consistent) :
    ∃ m', curvEdgesRot norm c robot s m = .ok m' ∧
      m'.get c.target = some (.pts (simpleOf ((List.range s.rows).flatMap fun r =>
        (corners norm c s r).map fun i => bare (posed robot (s.pts r i))))) ∧
      ∀ k, k ≠ c.target → m'.get k = m.get k := by
  have hcr : ∀ r, ((List.range' 1 (s.cols - 2)).filter fun i => curvEdge norm c s r i) = corners norm c s r := by
    intro r
    unfold corners
    apply List.filter_congr
    intro i _
    rw [Bool.eq_iff_iff, curvEdge_iff]
    simp
  have key : curvEdgesRot norm c robot s m = .ok (m.set c.target (.pts (simpleOf (((List.range s.rows).flatMap fun r =>
      (corners norm c s r).map fun i => (r, i)).map fun e => bare (posed robot (s.pts e.1 e.2)))))) := by
    unfold curvEdgesRot
    rw [Outcome.assert_true hc, okb]
    simp only [hcr]
  refine ⟨_, key, ?_, fun k hk => by simp [hk]⟩
  simp [List.map_flatMap, List.map_map, Function.comp_def]

/-- which columns these are: the corners that are neither the first nor the last column -/
theorem mem_corners (norm : P3 K → K) (c : CurvEdgeParams K) (s : RotScan K) (r i : Nat) :
    i ∈ corners norm c s r ↔ (1 ≤ i ∧ i + 1 < s.cols) ∧ Corner norm c.maxCosine c.clearance s r i := by
  unfold corners
  simp only [List.mem_filter, List.mem_range'_1, decide_eq_true_eq]
  constructor
  · rintro ⟨⟨h1, h2⟩, h⟩; exact ⟨⟨h1, by omega⟩, h⟩
  · rintro ⟨⟨h1, h2⟩, h⟩; exact ⟨⟨h1, by omega⟩, h⟩

/-- Inconsistent scans are refused. -/
theorem curv_edges_refuses (norm : P3 K → K) (c : CurvEdgeParams K) (robot : Option (Pose3 K)) (s : RotScan K) (m : FMap K X)
    (hc : ¬ s.consistent) : curvEdgesRot norm c robot s m = .throw := by
  unfold curvEdgesRot
  rw [Outcome.assert_false hc]; rfl

/-- the Euclidean norm -/
noncomputable def len (v : P3 ℝ) : ℝ := Real.sqrt v.normSq

/-- **C73 (meaning).** With the Euclidean norm and a positive clearance, a corner is a point where three consecutive valid
points are apart by the clearance and the cosine of the angle between the two segments is below the maximum, in absolute
value. -/
theorem corner_is_angle (maxCosine clearance : ℝ) (hcl : 0 < clearance) (s : RotScan ℝ) (r i : Nat) :
    Corner len maxCosine clearance s r i ↔
      s.range r (i - 1) ≠ 0 ∧ s.range r i ≠ 0 ∧ s.range r (i + 1) ≠ 0 ∧
      clearance ≤ len (s.pts r i - s.pts r (i - 1)) ∧ clearance ≤ len (s.pts r (i + 1) - s.pts r i) ∧
      |(s.pts r i - s.pts r (i - 1)).dot (s.pts r (i + 1) - s.pts r i) /
        (len (s.pts r i - s.pts r (i - 1)) * len (s.pts r (i + 1) - s.pts r i))| < maxCosine := by
  unfold Corner
  constructor
  · rintro ⟨a, b, c, d, e, f⟩
    refine ⟨a, b, c, d, e, ?_⟩
    have h1 := lt_of_lt_of_le hcl d
    have h2 := lt_of_lt_of_le hcl e
    rw [abs_div, abs_of_pos (mul_pos h1 h2), div_lt_iff₀ (mul_pos h1 h2), ← mul_assoc]
    exact f
  · rintro ⟨a, b, c, d, e, f⟩
    refine ⟨a, b, c, d, e, ?_⟩
    have h1 := lt_of_lt_of_le hcl d
    have h2 := lt_of_lt_of_le hcl e
    rw [abs_div, abs_of_pos (mul_pos h1 h2), div_lt_iff₀ (mul_pos h1 h2), ← mul_assoc] at f
    exact f

/-- a maximum cosine above 1 is no limit: all points that are apart pass, even those of a straight line … -/
theorem corner_all (maxCosine clearance : ℝ) (hcl : 0 < clearance) (h1 : 1 < maxCosine) (s : RotScan ℝ) (r i : Nat)
    (ha : s.range r (i - 1) ≠ 0) (hb : s.range r i ≠ 0) (hc : s.range r (i + 1) ≠ 0)
    (hd : clearance ≤ len (s.pts r i - s.pts r (i - 1))) (he : clearance ≤ len (s.pts r (i + 1) - s.pts r i)) :
    Corner len maxCosine clearance s r i := by
  refine ⟨ha, hb, hc, hd, he, ?_⟩
  set a := s.pts r i - s.pts r (i - 1) with hadef
  set b := s.pts r (i + 1) - s.pts r i with hbdef
  have p1 := lt_of_lt_of_le hcl hd
  have p2 := lt_of_lt_of_le hcl he
  have hcs : |a.dot b| ≤ len a * len b := by
    have hnn : 0 ≤ a.normSq := by simp only [P3.normSq, P3.dot]; nlinarith [mul_self_nonneg a.x, mul_self_nonneg a.y, mul_self_nonneg a.z]
    unfold len
    rw [← Real.sqrt_mul hnn]
    apply Real.abs_le_sqrt
    simp only [P3.normSq, P3.dot]
    nlinarith [sq_nonneg (a.x * b.y - a.y * b.x), sq_nonneg (a.x * b.z - a.z * b.x), sq_nonneg (a.y * b.z - a.z * b.y)]
  have : |a.x * b.x + a.y * b.y + a.z * b.z| ≤ len a * len b := hcs
  nlinarith [mul_pos p1 p2]

/-- … and with a maximum cosine of 0 or less nothing passes. -/
theorem corner_none (maxCosine clearance : ℝ) (hcl : 0 < clearance) (h1 : maxCosine ≤ 0) (s : RotScan ℝ) (r i : Nat) :
    ¬ Corner len maxCosine clearance s r i := by
  rw [corner_is_angle _ _ hcl]
  rintro ⟨-, -, -, -, -, h⟩
  exact absurd (abs_nonneg _) (not_le.2 (lt_of_lt_of_le h h1))

/-- the scan of the same scene from another frame -/
def moved (T : Pose3 K) (s : RotScan K) : RotScan K := { s with pts := fun r i => T.composePoint (s.pts r i) }

theorem sub_moved (T : Pose3 K) (a b : P3 K) : T.composePoint a - T.composePoint b = T.R.mulVec (a - b) := by
  simp only [Pose3.composePoint, M3.mulVec]
  ext <;> simp <;> ring

theorem corner_moved (norm : P3 K → K) (hN : ∀ a b : P3 K, a.normSq = b.normSq → norm a = norm b) (mc cl : K) (T : Pose3 K)
    (hT : IsRotation T.R) (s : RotScan K) (r i : Nat) :
    Corner norm mc cl (moved T s) r i ↔ Corner norm mc cl s r i := by
  unfold Corner moved
  simp only [sub_moved]
  have hd := rot_dot hT (s.pts r i - s.pts r (i - 1)) (s.pts r (i + 1) - s.pts r i)
  unfold P3.dot at hd
  rw [hd, hN _ _ (rot_normSq hT _), hN _ _ (rot_normSq hT _)]

/-- **C73 (frame independence).** Extracting the edges with a pose of the robot gives the same map as extracting them, without a
pose, from the scan moved by that pose: the selection does not depend on the frame. -/
theorem curv_edges_rigid (norm : P3 K → K) (hN : ∀ a b : P3 K, a.normSq = b.normSq → norm a = norm b) (c : CurvEdgeParams K)
    (T : Pose3 K) (hT : IsRotation T.R) (s : RotScan K) (m : FMap K X) :
    curvEdgesRot norm c (some T) s m = curvEdgesRot norm c none (moved T s) m := by
  have h : ∀ r i, curvEdge norm c (moved T s) r i = curvEdge norm c s r i := by
    intro r i
    rw [Bool.eq_iff_iff, curvEdge_iff, curvEdge_iff, corner_moved norm hN _ _ T hT]
  unfold curvEdgesRot
  simp only [h]
  rfl

/-- the scan with its columns in the opposite order -/
def reversed (s : RotScan K) : RotScan K :=
  { s with range := fun r i => s.range r (s.cols - 1 - i), pts := fun r i => s.pts r (s.cols - 1 - i) }

/-- **C73 (direction independence).** Turning the scanner the other way round selects the same points. -/
theorem corner_reversed (norm : P3 K → K) (hN : ∀ a b : P3 K, a.normSq = b.normSq → norm a = norm b) (mc cl : K)
    (s : RotScan K) (r i : Nat) (h1 : 1 ≤ i) (h2 : i + 1 < s.cols) :
    Corner norm mc cl (reversed s) r (s.cols - 1 - i) ↔ Corner norm mc cl s r i := by
  have e1 : s.cols - 1 - (s.cols - 1 - i) = i := by omega
  have e2 : s.cols - 1 - (s.cols - 1 - i - 1) = i + 1 := by omega
  have e3 : s.cols - 1 - (s.cols - 1 - i + 1) = i - 1 := by omega
  unfold Corner reversed
  simp only [e1, e2, e3]
  have n1 : norm (s.pts r i - s.pts r (i + 1)) = norm (s.pts r (i + 1) - s.pts r i) :=
    hN _ _ (by simp only [P3.normSq, P3.dot, P3.sub_x, P3.sub_y, P3.sub_z]; ring)
  have n2 : norm (s.pts r (i - 1) - s.pts r i) = norm (s.pts r i - s.pts r (i - 1)) :=
    hN _ _ (by simp only [P3.normSq, P3.dot, P3.sub_x, P3.sub_y, P3.sub_z]; ring)
  rw [n1, n2]
  have hd : (s.pts r i - s.pts r (i + 1)).x * (s.pts r (i - 1) - s.pts r i).x +
      (s.pts r i - s.pts r (i + 1)).y * (s.pts r (i - 1) - s.pts r i).y +
      (s.pts r i - s.pts r (i + 1)).z * (s.pts r (i - 1) - s.pts r i).z =
    (s.pts r i - s.pts r (i - 1)).x * (s.pts r (i + 1) - s.pts r i).x +
      (s.pts r i - s.pts r (i - 1)).y * (s.pts r (i + 1) - s.pts r i).y +
      (s.pts r i - s.pts r (i - 1)).z * (s.pts r (i + 1) - s.pts r i).z := by
    simp only [P3.sub_x, P3.sub_y, P3.sub_z]; ring
  rw [hd, mul_right_comm]
  tauto

/-- **C73 (process).** Observations of other classes or labels leave the map as it is and are not handled; a generator that is
not ready refuses. -/
theorem curv_process_skips (norm : P3 K → K) (c : CurvEdgeParams K) (robot : Option (Pose3 K)) (scan : Option (RotScan K))
    (m : FMap K X) : curvProcess norm c true false robot scan m = .ok (false, m) ∧
      ∀ acc, curvProcess norm c false acc robot scan m = .throw := by
  constructor
  · unfold curvProcess; rw [Outcome.assert_true rfl, okb]; rfl
  · intro acc; unfold curvProcess; rw [Outcome.assert_false (by simp)]; rfl

/-- **C73 (process).** Accepted observations that are no rotating scans are reported as not handled, but the target layer exists
afterwards: as it was, or else empty; if it is no point cloud the call throws. -/
theorem curv_process_other (norm : P3 K → K) (c : CurvEdgeParams K) (robot : Option (Pose3 K)) (m : FMap K X) :
    ((∃ x, m.get c.target = some (.other x)) → curvProcess norm c true true robot none m = .throw) ∧
    ((∀ x, m.get c.target ≠ some (.other x)) → ∃ m', curvProcess norm c true true robot none m = .ok (false, m') ∧
      (m'.get c.target = m.get c.target ∨ (m.get c.target = none ∧ m'.get c.target = some (.pts (simpleOf [])))) ∧
      (∃ q, m'.get c.target = some q) ∧
      ∀ k, k ≠ c.target → m'.get k = m.get k) := by
  have h0 : curvProcess norm c true true robot none m = (match m.get c.target with
      | some (.pts _) => .ok (false, m)
      | some (.other _) => .throw
      | none => .ok (false, m.set c.target (.pts simpleCloud))) := by
    unfold curvProcess; rw [Outcome.assert_true rfl, okb]; rfl
  rw [h0]
  constructor
  · rintro ⟨x, hx⟩; rw [hx]
  · intro ho
    cases hg : m.get c.target with
    | none => exact ⟨_, rfl, Or.inr ⟨rfl, by simp [simpleCloud]⟩, by simp, fun k hk => by simp [hk]⟩
    | some q =>
      cases q with
      | other x => exact absurd hg (ho x)
      | pts p => exact ⟨m, rfl, Or.inl hg, ⟨_, hg⟩, fun _ _ => rfl⟩

/-- **C73 (process).** Accepted rotating scans are handled if they are consistent, and refused otherwise. -/
theorem curv_process_scan (norm : P3 K → K) (c : CurvEdgeParams K) (robot : Option (Pose3 K)) (s : RotScan K) (m : FMap K X) :
    (s.consistent → ∃ m', curvProcess norm c true true robot (some s) m = .ok (true, m') ∧
      curvEdgesRot norm c robot s m = .ok m') ∧
    (¬ s.consistent → curvProcess norm c true true robot (some s) m = .throw) := by
  have h0 : curvProcess norm c true true robot (some s) m = (curvEdgesRot norm c robot s m).bind fun m => .ok (true, m) := by
    unfold curvProcess; rw [Outcome.assert_true rfl, okb]; rfl
  rw [h0]
  constructor
  · intro hc
    obtain ⟨m', e, -⟩ := curv_edges_result_partial norm c robot s m hc
    exact ⟨m', by rw [e, okb], e⟩
  · intro hc
    rw [curv_edges_refuses norm c robot s m hc]; rfl

/-! ### cases meeting the hypotheses -/

/-- a right angle at column 2 of 5; the norm is the 1-norm, exact on axes -/
def elbow : RotScan ℚ where
  rows := 1
  cols := 5
  ptsRows := 1
  ptsCols := 5
  riRows := 1
  riCols := 5
  range := fun _ _ => 10
  pts := fun _ i => if i ≤ 2 then ⟨i, 0, 0⟩ else ⟨2, i - 2, 0⟩

/-- `norm` on vectors parallel to an axis -/
def axisNorm (v : P3 ℚ) : ℚ := |v.x| + |v.y| + |v.z|

example : (curvEdgesRot axisNorm ⟨"edges", 1 / 2, 1 / 2⟩ none elbow ([("edges", .pts (simpleOf [barePt 7 7 7]))] : FMap ℚ Unit)).Sat
    fun m => m.get "edges" = some (.pts (simpleOf [barePt 2 0 0])) := by decide +kernel
example : elbow.consistent := by decide
/-- the same in the reals, with the Euclidean norm -/
def elbowR : RotScan ℝ where
  rows := 1
  cols := 5
  ptsRows := 1
  ptsCols := 5
  riRows := 1
  riCols := 5
  range := fun _ _ => 10
  pts := fun _ i => if i ≤ 2 then ⟨i, 0, 0⟩ else ⟨2, i - 2, 0⟩
example : Corner len (1 / 2) (1 / 2) elbowR 0 2 := by
  refine ⟨by simp [elbowR], by simp [elbowR], by simp [elbowR], ?_, ?_, ?_⟩ <;>
    norm_num [elbowR, len, P3.normSq, P3.dot]
example : ∀ a b : P3 ℝ, a.normSq = b.normSq → len a = len b := fun a b h => by unfold len; rw [h]

end Props
end Verif
