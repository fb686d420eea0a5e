import Mathlib.Algebra.Order.Ring.Rat
import Mathlib.Data.Rat.Floor
import Mathlib.Tactic.NormNum
import Mathlib.Tactic.Linarith
import Mathlib.Tactic.LinearCombination
import Mathlib.Tactic.FieldSimp
import Verif.Model.MoreFilters
import Verif.Spec.Solvers
import Verif.Lemmas.AMap
/-
C68: FilterMerge.  C69: FilterVoxelSlice.
-/
set_option linter.unusedSectionVars false
namespace Verif
namespace Props
open Flt MoreF
variable {K X : Type} [Field K] [LinearOrder K] [IsStrictOrderedRing K]

/-! ### C68 -/

/-- A point without optional channels. -/
def barePos (q : P3 K) : FPt K := ⟨q.x, q.y, q.z, 0, 0, 0⟩

/-- the inverse of a rigid motion undoes it -/
theorem inv_compose (T : Pose3 K) (h : Spec.IsRotation T.R) (q : P3 K) : T.composePoint (T.inv.composePoint q) = q := by
  have h2 : T.R.mul T.R.transpose = M3.one := by
    obtain ⟨h1, hd⟩ := h
    obtain ⟨⟨a00, a01, a02, a10, a11, a12, a20, a21, a22⟩, t⟩ := T
    simp only [M3.transpose, M3.mul, M3.one, M3.mk.injEq, M3.det] at h1 hd ⊢
    obtain ⟨e1, e2, e3, e4, e5, e6, e7, e8, e9⟩ := h1
    -- cofactors: each entry of a rotation equals its cofactor
    have c00 : a00 = a11 * a22 - a12 * a21 := by
      linear_combination (-a00) * hd + (a11 * a22 - a12 * a21) * e1 + (a12 * a20 - a10 * a22) * e2 + (a10 * a21 - a11 * a20) * e3
    have c01 : a01 = a12 * a20 - a10 * a22 := by
      linear_combination (-a01) * hd + (a11 * a22 - a12 * a21) * e4 + (a12 * a20 - a10 * a22) * e5 + (a10 * a21 - a11 * a20) * e6
    have c02 : a02 = a10 * a21 - a11 * a20 := by
      linear_combination (-a02) * hd + (a11 * a22 - a12 * a21) * e7 + (a12 * a20 - a10 * a22) * e8 + (a10 * a21 - a11 * a20) * e9
    have c10 : a10 = a02 * a21 - a01 * a22 := by
      linear_combination (-a10) * hd + (a02 * a21 - a01 * a22) * e1 + (a00 * a22 - a02 * a20) * e2 + (a01 * a20 - a00 * a21) * e3
    have c11 : a11 = a00 * a22 - a02 * a20 := by
      linear_combination (-a11) * hd + (a02 * a21 - a01 * a22) * e4 + (a00 * a22 - a02 * a20) * e5 + (a01 * a20 - a00 * a21) * e6
    have c12 : a12 = a01 * a20 - a00 * a21 := by
      linear_combination (-a12) * hd + (a02 * a21 - a01 * a22) * e7 + (a00 * a22 - a02 * a20) * e8 + (a01 * a20 - a00 * a21) * e9
    have c20 : a20 = a01 * a12 - a02 * a11 := by
      linear_combination (-a20) * hd + (a01 * a12 - a02 * a11) * e1 + (a02 * a10 - a00 * a12) * e2 + (a00 * a11 - a01 * a10) * e3
    have c21 : a21 = a02 * a10 - a00 * a12 := by
      linear_combination (-a21) * hd + (a01 * a12 - a02 * a11) * e4 + (a02 * a10 - a00 * a12) * e5 + (a00 * a11 - a01 * a10) * e6
    have c22 : a22 = a00 * a11 - a01 * a10 := by
      linear_combination (-a22) * hd + (a01 * a12 - a02 * a11) * e7 + (a02 * a10 - a00 * a12) * e8 + (a00 * a11 - a01 * a10) * e9
    refine ⟨?_, ?_, ?_, ?_, ?_, ?_, ?_, ?_, ?_⟩
    · linear_combination hd + a00 * c00 + a01 * c01 + a02 * c02
    · linear_combination a00 * c10 + a01 * c11 + a02 * c12
    · linear_combination a00 * c20 + a01 * c21 + a02 * c22
    · linear_combination a10 * c00 + a11 * c01 + a12 * c02
    · linear_combination hd + a10 * c10 + a11 * c11 + a12 * c12
    · linear_combination a10 * c20 + a11 * c21 + a12 * c22
    · linear_combination a20 * c00 + a21 * c01 + a22 * c02
    · linear_combination a20 * c10 + a21 * c11 + a22 * c12
    · linear_combination hd + a20 * c20 + a21 * c21 + a22 * c22
  have h3 : ∀ v : P3 K, T.R.mulVec (T.R.transpose.mulVec v) = v := by
    intro v
    have := congrArg (fun A : M3 K => A.mulVec v) h2
    simp only [M3.mul, M3.transpose, M3.one, M3.mulVec, P3.mk.injEq] at this ⊢
    ext <;> simp only []
    · linear_combination this.1
    · linear_combination this.2.1
    · linear_combination this.2.2
  have h4 : T.composePoint (T.inv.composePoint q) = T.R.mulVec (T.R.transpose.mulVec q) := by
    have h5 := h3 T.t
    simp only [Pose3.composePoint, Pose3.inv, M3.mulVec, M3.transpose, P3.ext_iff, P3.add_x, P3.add_y, P3.add_z, P3.neg_x,
      P3.neg_y, P3.neg_z] at h5 ⊢
    obtain ⟨g1, g2, g3⟩ := h5
    refine ⟨?_, ?_, ?_⟩
    · linear_combination -g1
    · linear_combination -g2
    · linear_combination -g3
  rw [h4, h3]

theorem identity_compose (q : P3 K) : (Pose3.identity : Pose3 K).composePoint q = q := by
  ext <;> simp [Pose3.composePoint, Pose3.identity, M3.one, M3.mulVec]

/-- **C68.** Merging into a point-cloud layer: the positions of all the input's points (or of the occupied voxels, for a voxel
map), in order, are appended to the target: as they are if the input is in the same frame, composed with the robot pose if it is
in the vehicle's frame.  All other layers stay. -/
theorem merge_into_cloud (E : MergeExt K X) (p : MergeParams K) (hr : p.realized = true) (hrot : Spec.IsRotation p.pose.R)
    (m : FMap K X) (L : Layer (Cloud K) X) (hL : m.get p.inp = some L) (pts : List (P3 K)) (hp : toPoints E L = some pts)
    (ht : p.target ≠ "") (c : Cloud K) (hc : m.get p.target = some (.pts c)) :
    ∃ m', filterMerge E p m = .ok m' ∧
      m'.get p.target = some (.pts { c with pts := c.pts ++
        (if p.inLocal then pts.map p.pose.composePoint else pts).map barePos }) ∧
      ∀ n, n ≠ p.target → m'.get n = m.get n := by
  have e1 : pts.map (Pose3.identity : Pose3 K).composePoint = pts := by
    rw [show (Pose3.identity : Pose3 K).composePoint = id from funext identity_compose, List.map_id]
  have e2 : (pts.map p.pose.inv.composePoint).map p.pose.composePoint = pts := by
    rw [List.map_map]
    conv_rhs => rw [← List.map_id pts]
    exact List.map_congr_left fun q _ => inv_compose p.pose hrot q
  refine ⟨_, by simp only [filterMerge, hr, Outcome.assert, if_true, Outcome.bind, hL, hp, ne_eq, ht, not_false_eq_true, hc]; rfl,
    ?_, fun n hn => by simp [hn]⟩
  rw [AMap.get_set, if_pos rfl]
  simp only [insertObservation, Option.some.injEq, Layer.pts.injEq, Cloud.mk.injEq, and_self, and_true]
  congr 1
  cases p.inLocal with
  | true => simp only [if_true, e1, List.map_map]; rfl
  | false =>
    simp only [Bool.false_eq_true, if_false]
    conv_rhs => rw [← e2, List.map_map]
    rfl

/-- Merging into any other kind of layer: one observation is inserted, from the robot pose, whose points put in the target's
frame (composed with the robot pose) are the input's points, or their images if they are in the vehicle's frame. -/
theorem merge_into_other (E : MergeExt K X) (p : MergeParams K) (hr : p.realized = true) (hrot : Spec.IsRotation p.pose.R)
    (m : FMap K X) (L : Layer (Cloud K) X) (hL : m.get p.inp = some L) (pts : List (P3 K)) (hp : toPoints E L = some pts)
    (ht : p.target ≠ "") (x : X) (hc : m.get p.target = some (.other x)) :
    ∃ m' obs, filterMerge E p m = .ok m' ∧
      m'.get p.target = some (.other (E.insertObs x obs p.pose)) ∧
      obs.map p.pose.composePoint = (if p.inLocal then pts.map p.pose.composePoint else pts) ∧
      ∀ n, n ≠ p.target → m'.get n = m.get n := by
  have e1 : pts.map (Pose3.identity : Pose3 K).composePoint = pts := by
    rw [show (Pose3.identity : Pose3 K).composePoint = id from funext identity_compose, List.map_id]
  have e2 : (pts.map p.pose.inv.composePoint).map p.pose.composePoint = pts := by
    rw [List.map_map]
    conv_rhs => rw [← List.map_id pts]
    exact List.map_congr_left fun q _ => inv_compose p.pose hrot q
  refine ⟨_, if p.inLocal then pts.map Pose3.identity.composePoint else pts.map p.pose.inv.composePoint,
    by simp only [filterMerge, hr, Outcome.assert, if_true, Outcome.bind, hL, hp, ne_eq, ht, not_false_eq_true, hc]; rfl,
    ?_, ?_, fun n hn => by simp [hn]⟩
  · rw [AMap.get_set, if_pos rfl]; rfl
  · cases p.inLocal with
    | true => simp only [if_true, e1]
    | false => simp only [Bool.false_eq_true, if_false, e2]

/-- It is refused exactly if a parameter is not realized, the input layer is missing or of a class without points, or the target
is missing: the target is never created. -/
theorem merge_filter_refused_iff (E : MergeExt K X) (p : MergeParams K) (m : FMap K X) :
    filterMerge E p m = .throw ↔ p.realized = false ∨ (m.get p.inp).bind (toPoints E) = none ∨ p.target = "" ∨
      m.get p.target = none := by
  unfold filterMerge
  by_cases hr : p.realized = true
  · cases hL : m.get p.inp with
    | none => simp [Outcome.assert, hr]
    | some L =>
      cases hp : toPoints E L with
      | none => simp [Outcome.assert, hr, hp]
      | some pts =>
        by_cases ht : p.target = ""
        · simp [Outcome.assert, hr, hp, ht]
        · cases hc : m.get p.target with
          | none => simp [Outcome.assert, hr, hp, ht]
          | some T => simp [Outcome.assert, hr, hp, ht]
  · have : p.realized = false := by simpa using hr
    simp [Outcome.assert, this]

/-- With the same layer as input and target, every point is there twice (the copy without its channels). -/
theorem merge_into_itself (E : MergeExt K X) (p : MergeParams K) (hr : p.realized = true) (hrot : Spec.IsRotation p.pose.R)
    (hl : p.inLocal = false) (m : FMap K X) (c : Cloud K) (ht : p.target ≠ "") (hin : p.inp = p.target)
    (hc : m.get p.target = some (.pts c)) :
    ∃ m', filterMerge E p m = .ok m' ∧ m'.get p.target = some (.pts { c with
        pts := c.pts ++ c.pts.map (fun q => (⟨q.x, q.y, q.z, 0, 0, 0⟩ : FPt K)) }) := by
  obtain ⟨m', h1, h2, -⟩ := merge_into_cloud E p hr hrot m (.pts c) (by rw [hin, hc]) _ rfl ht c hc
  refine ⟨m', h1, ?_⟩
  rw [h2, hl]
  simp [List.map_map, Function.comp_def, barePos]

/-! ### C69 -/

section
variable [FloorRing K]

/-- The voxels a slice takes are exactly those a height within the range falls in. -/
theorem slice_range (res zmin zmax : K) (hr : 0 < res) (hz : zmin ≤ zmax) (k : ℤ) :
    ¬ (k < posToCoord res zmin ∨ k > posToCoord res zmax) ↔
      ∃ z, zmin ≤ z ∧ z ≤ zmax ∧ (k : K) * res ≤ z ∧ z < (k + 1) * res := by
  have hfl : ∀ z : K, posToCoord res z ≤ k ↔ z < (k + 1) * res := by
    intro z
    unfold posToCoord
    rw [← Int.lt_add_one_iff, Int.floor_lt, mul_one_div, div_lt_iff₀ hr]
    push_cast; rfl
  have hfl2 : ∀ z : K, k ≤ posToCoord res z ↔ (k : K) * res ≤ z := by
    intro z
    unfold posToCoord
    rw [Int.le_floor, mul_one_div, le_div_iff₀ hr]
  rw [not_or, not_lt, gt_iff_lt, not_lt, hfl, hfl2]
  constructor
  · rintro ⟨h1, h2⟩
    by_cases h : (k : K) * res ≤ zmin
    · exact ⟨zmin, le_refl _, hz, h, h1⟩
    · push Not at h
      exact ⟨k * res, h.le, h2, le_refl _, by nlinarith⟩
  · rintro ⟨z, h1, h2, h3, h4⟩
    exact ⟨lt_of_le_of_lt h1 h4, h3.trans h2⟩

/-- A voxel at index `k` is touched by the height range. -/
def Touched (res zmin zmax : K) (k : ℤ) : Prop := ∃ z, zmin ≤ z ∧ z ≤ zmax ∧ (k : K) * res ≤ z ∧ z < (k + 1) * res

open Classical in
/-- **C69.** A voxel map as input: the output layer becomes a new grid map (whatever it was before), as large as the voxel map
and at the middle of the height range, updated once for each voxel touched by the range and no other, in the order of the
voxels; all other layers stay.
Part of C69: for RGB voxel maps the grid stays empty (`slice_rgb_empty`). -/
theorem slice_result_partial (E : SliceExt K X) (p : SliceParams K) (hr : p.realized = true) (hz : p.zmin ≤ p.zmax)
    (hin : p.inp ≠ "") (hout : p.out ≠ "") (m : FMap K X) (x : X) (hx : m.get p.inp = some (.other x)) (v : VMap K)
    (hv : E.asVoxels x = .voxels v) (hres : 0 < v.res) :
    ∃ m' g, filterSlice E p m = .ok m' ∧ m'.get p.out = some (.other (E.mkGrid g)) ∧
      (g.xmin = v.xmin ∧ g.xmax = v.xmax ∧ g.ymin = v.ymin ∧ g.ymax = v.ymax ∧ g.res = v.res) ∧
      g.altitude = (p.zmin + p.zmax) / 2 ∧
      g.updates = (v.cells.filter fun e => Touched v.res p.zmin p.zmax e.1.2.2).map (fun e =>
        (E.centre v.res e.1.1, E.centre v.res e.1.2.1, E.l2p e.2)) ∧
      ∀ n, n ≠ p.out → m'.get n = m.get n := by
  refine ⟨_, _, by simp only [filterSlice, hr, Outcome.assert, if_true, Outcome.bind, hx, hv, ne_eq, hin, hout, hz, ge_iff_le, not_false_eq_true]; rfl,
    by rw [AMap.get_set, if_pos rfl], ⟨rfl, rfl, rfl, rfl, rfl⟩, by simp only []; ring, ?_, fun n hn => by simp [hn]⟩
  have key : ∀ l : List ((ℤ × ℤ × ℤ) × K), sliceUpdates E p v l =
      (l.filter fun e => Touched v.res p.zmin p.zmax e.1.2.2).map (fun e =>
        (E.centre v.res e.1.1, E.centre v.res e.1.2.1, E.l2p e.2)) := by
    intro l
    induction l with
    | nil => rfl
    | cons e l ih =>
      obtain ⟨k, o⟩ := e
      rw [sliceUpdates]
      by_cases ht : Touched v.res p.zmin p.zmax k.2.2
      · have h2 := (slice_range v.res p.zmin p.zmax hres hz k.2.2).2 ht
        rw [if_neg h2, List.filter_cons_of_pos (by simpa using ht), List.map_cons, ih]
      · have h2 := fun h => ht ((slice_range v.res p.zmin p.zmax hres hz k.2.2).1 h)
        rw [if_pos (not_not.1 h2), List.filter_cons_of_neg (by simpa using ht), ih]
  exact key v.cells

/-- An RGB voxel map is accepted, but gives an empty grid without size: nothing of it is used. -/
theorem slice_rgb_empty (E : SliceExt K X) (p : SliceParams K) (hr : p.realized = true) (hz : p.zmin ≤ p.zmax)
    (hin : p.inp ≠ "") (hout : p.out ≠ "") (m : FMap K X) (x : X) (hx : m.get p.inp = some (.other x))
    (hv : E.asVoxels x = .voxelsRGB) :
    ∃ m' g, filterSlice E p m = .ok m' ∧ m'.get p.out = some (.other (E.mkGrid g)) ∧ g.updates = [] ∧ g.res = 0 := by
  exact ⟨_, _, by simp only [filterSlice, hr, Outcome.assert, if_true, Outcome.bind, hx, hv, ne_eq, hin, hout, hz, ge_iff_le,
    not_false_eq_true]; rfl, by rw [AMap.get_set, if_pos rfl], rfl, rfl⟩

/-- Everything else is refused. -/
theorem slice_refuses (E : SliceExt K X) (p : SliceParams K) (m : FMap K X)
    (h : p.realized = false ∨ p.zmax < p.zmin ∨ p.inp = "" ∨ p.out = "" ∨ m.get p.inp = none ∨
      (∃ c, m.get p.inp = some (.pts c)) ∨ ∃ x, m.get p.inp = some (.other x) ∧ E.asVoxels x = .other) :
    filterSlice E p m = .throw := by
  unfold filterSlice
  by_cases hr : p.realized = true
  swap
  · have : p.realized = false := by simpa using hr
    simp [Outcome.assert, this]
  by_cases hz : p.zmin ≤ p.zmax
  swap
  · simp [Outcome.assert, hr, hz]
  by_cases hin : p.inp = ""
  · simp [Outcome.assert, hr, hz, hin]
  simp only [Outcome.assert, hr, if_true, Outcome.bind, ge_iff_le, hz, ne_eq, hin, not_false_eq_true]
  rcases h with h | h | h | h | h | ⟨c, h⟩ | ⟨x, h, hx⟩
  · rw [hr] at h; cases h
  · exact absurd hz (not_le.2 h)
  · exact absurd h hin
  · cases hm : m.get p.inp with
    | none => rfl
    | some L => cases L with
      | pts c => rfl
      | other x =>
        cases hx : E.asVoxels x <;> simp [h, hx]
  · rw [h]
  · rw [h]
  · rw [h]; simp [hx]
end

/-! ### the hypotheses are met -/

/-- quarter turn about z, then a translation -/
def exPose : Pose3 ℚ := ⟨⟨0, -1, 0, 1, 0, 0, 0, 0, 1⟩, ⟨10, 20, 30⟩⟩
example : Spec.IsRotation exPose.R := by constructor <;> decide +kernel
def exMergeMap : FMap ℚ (List (P3 ℚ)) :=
  [("in", .pts { pts := [⟨1, 2, 3, 9, 4, 5⟩] }), ("out", .pts { pts := [⟨0, 0, 1, 1, 1, 1⟩] })]
def exMergeExt : MergeExt ℚ (List (P3 ℚ)) := ⟨some, fun x obs _ => x ++ obs⟩
example : (filterMerge exMergeExt { inp := "in", target := "out", pose := exPose } exMergeMap).Sat fun m =>
    AMap.get m "out" = some (.pts { pts := [⟨0, 0, 1, 1, 1, 1⟩, ⟨1, 2, 3, 0, 0, 0⟩] }) := by decide +kernel
example : (filterMerge exMergeExt { inp := "in", target := "out", pose := exPose, inLocal := true } exMergeMap).Sat fun m =>
    AMap.get m "out" = some (.pts { pts := [⟨0, 0, 1, 1, 1, 1⟩, ⟨8, 21, 33, 0, 0, 0⟩] }) := by decide +kernel

def exSliceExt : SliceExt ℚ (List (ℚ × ℚ × ℚ)) :=
  ⟨fun _ => .voxels ⟨1/2, [((0, 0, 0), 5), ((1, 0, 3), 6), ((2, 1, 2), 7), ((2, 1, 9), 8)], 0, 2, 0, 1⟩, (·.updates), id,
    fun r k => r * k⟩
/-- heights 1 to 1.9: indices 2 and 3 of side 0.5 -/
example : (filterSlice exSliceExt { inp := "vx", out := "gr", zmin := 1, zmax := 19/10 } [("vx", .other [])]).Sat fun m =>
    AMap.get m "gr" = some (.other [(1/2, 0, 6), (1, 1/2, 7)]) := by decide +kernel

end Props
end Verif
