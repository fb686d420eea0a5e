import Mathlib.Analysis.Real.Sqrt
import Verif.Model.AdaptiveSize
import Verif.Props.Adaptive
import Verif.Props.FpDecimate
import Verif.Props.DecimateTwice
/-!
C108: the voxel size of FilterDecimateAdaptive.
-/
set_option linter.unusedSectionVars false
namespace Verif
namespace Props
open Flt Vox Spec Fp

section
variable {K X : Type} [Field K] [LinearOrder K] [IsStrictOrderedRing K]

/-- `d` is the extent of the values `l`: the difference of two of them, and no two differ by more. -/
def IsExtent (l : List K) (d : K) : Prop := (∃ a ∈ l, ∃ b ∈ l, b - a = d) ∧ ∀ a ∈ l, ∀ b ∈ l, b - a ≤ d

theorem foldl_keepMin_spec (l : List K) (x : K) : l.foldl keepMin x ∈ x :: l ∧ ∀ a ∈ x :: l, l.foldl keepMin x ≤ a := by
  induction l generalizing x with
  | nil => simp
  | cons y l ih =>
    obtain ⟨h1, h2⟩ := ih (keepMin x y)
    have hk : keepMin x y = min x y := by
      unfold keepMin; split
      · rename_i h; rw [min_eq_right h.le]
      · rename_i h; rw [min_eq_left (not_lt.1 h)]
    rw [List.foldl_cons]
    refine ⟨?_, ?_⟩
    · rcases List.mem_cons.1 h1 with h | h
      · rw [h, hk]
        rcases min_choice x y with h | h <;> rw [h] <;> simp
      · exact List.mem_cons_of_mem _ (List.mem_cons_of_mem _ h)
    · have hm := h2 _ (List.mem_cons_self ..)
      intro a ha
      rcases List.mem_cons.1 ha with rfl | ha
      · exact hm.trans (by rw [hk]; exact min_le_left _ _)
      · rcases List.mem_cons.1 ha with rfl | ha
        · exact hm.trans (by rw [hk]; exact min_le_right _ _)
        · exact h2 _ (List.mem_cons_of_mem _ ha)

theorem foldl_keepMax_spec (l : List K) (x : K) : l.foldl keepMax x ∈ x :: l ∧ ∀ a ∈ x :: l, a ≤ l.foldl keepMax x := by
  induction l generalizing x with
  | nil => simp
  | cons y l ih =>
    obtain ⟨h1, h2⟩ := ih (keepMax x y)
    have hk : keepMax x y = max x y := by
      unfold keepMax; split
      · rename_i h; rw [max_eq_right h.le]
      · rename_i h; rw [max_eq_left (not_lt.1 h)]
    rw [List.foldl_cons]
    refine ⟨?_, ?_⟩
    · rcases List.mem_cons.1 h1 with h | h
      · rw [h, hk]
        rcases max_choice x y with h | h <;> rw [h] <;> simp
      · exact List.mem_cons_of_mem _ (List.mem_cons_of_mem _ h)
    · have hm := h2 _ (List.mem_cons_self ..)
      intro a ha
      rcases List.mem_cons.1 ha with rfl | ha
      · exact le_trans (by rw [hk]; exact le_max_left _ _) hm
      · rcases List.mem_cons.1 ha with rfl | ha
        · exact le_trans (by rw [hk]; exact le_max_right _ _) hm
        · exact h2 _ (List.mem_cons_of_mem _ ha)

theorem extent_unique {l : List K} {d e : K} (h1 : IsExtent l d) (h2 : IsExtent l e) : d = e := by
  obtain ⟨⟨a, ha, b, hb, rfl⟩, h1'⟩ := h1
  obtain ⟨⟨a', ha', b', hb', rfl⟩, h2'⟩ := h2
  exact le_antisymm (h2' a ha b hb) (h1' a' ha' b' hb')

theorem span_extent (l : List K) (h : l ≠ []) : IsExtent l ((spanOf l).2 - (spanOf l).1) := by
  cases l with
  | nil => exact absurd rfl h
  | cons x l =>
    obtain ⟨h1, h2⟩ := foldl_keepMin_spec l x
    obtain ⟨h3, h4⟩ := foldl_keepMax_spec l x
    refine ⟨⟨_, h1, _, h3, rfl⟩, fun a ha b hb => ?_⟩
    exact sub_le_sub (h4 b hb) (h2 a ha)

theorem boxSide_eq {l : List K} {d : K} (h : IsExtent l d) (minBox : K) : boxSide minBox l = max d minBox := by
  obtain ⟨⟨a, ha, -⟩, -⟩ := id h
  have := extent_unique (span_extent l (List.ne_nil_of_mem ha)) h
  unfold boxSide
  rw [this]
  unfold keepMax
  split
  · rename_i h; rw [max_eq_right h.le]
  · rename_i h; rw [max_eq_left (not_lt.1 h)]

/-- The voxel size: the diagonal of the bounding box, each side taken at least as long as the assumed minimum, by the number of voxels per dimension. -/
theorem adaptive_size (nrm : K → K → K → K) (minBox : K) (maxN : Nat) (pts : List (FPt K)) (dx dy dz : K)
    (hx : IsExtent (pts.map (·.x)) dx) (hy : IsExtent (pts.map (·.y)) dy) (hz : IsExtent (pts.map (·.z)) dz) :
    adaptiveSize nrm minBox maxN pts = nrm (max dx minBox) (max dy minBox) (max dz minBox) / maxN := by
  unfold adaptiveSize
  rw [boxSide_eq hx, boxSide_eq hy, boxSide_eq hz]

/-- Every cloud with a point has extents. -/
theorem extent_exists (f : FPt K → K) (pts : List (FPt K)) (h : pts ≠ []) : ∃ d, 0 ≤ d ∧ IsExtent (pts.map f) d := by
  have := span_extent (pts.map f) (by simpa using h)
  refine ⟨_, ?_, this⟩
  obtain ⟨a, ha⟩ := List.exists_mem_of_ne_nil _ (show pts.map f ≠ [] by simpa using h)
  have := this.2 a ha a ha
  simpa using this

/-- It depends on the shape only: moving the cloud or changing the order of its points does not change it. -/
theorem adaptive_size_invariant (nrm : K → K → K → K) (minBox : K) (maxN : Nat) (pts pts' : List (FPt K)) (tx ty tz : K)
    (h : pts'.Perm (pts.map fun q => { q with x := q.x + tx, y := q.y + ty, z := q.z + tz })) :
    adaptiveSize nrm minBox maxN pts' = adaptiveSize nrm minBox maxN pts := by
  cases pts with
  | nil => rw [List.map_nil, List.perm_nil] at h; rw [h]
  | cons p pts =>
    have key : ∀ (f : FPt K → K) (t : K), (∀ q : FPt K, f { q with x := q.x + tx, y := q.y + ty, z := q.z + tz } = f q + t) →
        ∀ d, IsExtent ((p :: pts).map f) d → IsExtent (pts'.map f) d := by
      intro f t hf d hd
      have hmem : ∀ v, v ∈ pts'.map f ↔ ∃ q ∈ p :: pts, f q + t = v := by
        intro v
        rw [(h.map f).mem_iff, List.map_map]
        simp only [List.mem_map, Function.comp_apply, hf]
      obtain ⟨⟨a, ha, b, hb, rfl⟩, h2⟩ := hd
      obtain ⟨qa, hqa, rfl⟩ := List.mem_map.1 ha
      obtain ⟨qb, hqb, rfl⟩ := List.mem_map.1 hb
      refine ⟨⟨_, (hmem _).2 ⟨qa, hqa, rfl⟩, _, (hmem _).2 ⟨qb, hqb, rfl⟩, by ring⟩, fun a ha b hb => ?_⟩
      obtain ⟨q1, h1, rfl⟩ := (hmem _).1 ha
      obtain ⟨q2, h3, rfl⟩ := (hmem _).1 hb
      have := h2 _ (List.mem_map_of_mem h1) _ (List.mem_map_of_mem h3)
      linarith
    obtain ⟨dx, -, hx⟩ := extent_exists (·.x) (p :: pts) (by simp)
    obtain ⟨dy, -, hy⟩ := extent_exists (·.y) (p :: pts) (by simp)
    obtain ⟨dz, -, hz⟩ := extent_exists (·.z) (p :: pts) (by simp)
    rw [adaptive_size nrm minBox maxN _ dx dy dz hx hy hz,
      adaptive_size nrm minBox maxN _ dx dy dz (key _ tx (fun _ => rfl) _ hx) (key _ ty (fun _ => rfl) _ hy) (key _ tz (fun _ => rfl) _ hz)]

/-- A length of vectors: no shorter than any of the components, if these are not negative. -/
def IsLength (nrm : K → K → K → K) : Prop :=
  ∀ x y z, 0 ≤ x → 0 ≤ y → 0 ≤ z → x ≤ nrm x y z ∧ y ≤ nrm x y z ∧ z ≤ nrm x y z

/-- The Euclidean length is one. -/
theorem euclid_length : IsLength fun x y z : ℝ => Real.sqrt (x ^ 2 + y ^ 2 + z ^ 2) := by
  intro x y z hx hy hz
  refine ⟨Real.le_sqrt_of_sq_le ?_, Real.le_sqrt_of_sq_le ?_, Real.le_sqrt_of_sq_le ?_⟩ <;> nlinarith [sq_nonneg x, sq_nonneg y, sq_nonneg z]

/-- The size is at least the assumed minimum by the number of voxels, and no two points are further apart along an axis than `maxN` voxels. -/
theorem size_bounds (nrm : K → K → K → K) (hn : IsLength nrm) (minBox : K) (hb : 0 < minBox) (maxN : Nat) (hN : 0 < maxN) (pts : List (FPt K))
    (hne : pts ≠ []) :
    minBox ≤ adaptiveSize nrm minBox maxN pts * maxN ∧ 0 < adaptiveSize nrm minBox maxN pts ∧
    ∀ p ∈ pts, ∀ q ∈ pts, q.x - p.x ≤ adaptiveSize nrm minBox maxN pts * maxN ∧ q.y - p.y ≤ adaptiveSize nrm minBox maxN pts * maxN ∧
      q.z - p.z ≤ adaptiveSize nrm minBox maxN pts * maxN := by
  obtain ⟨dx, _, hx⟩ := extent_exists (·.x) pts hne
  obtain ⟨dy, _, hy⟩ := extent_exists (·.y) pts hne
  obtain ⟨dz, _, hz⟩ := extent_exists (·.z) pts hne
  have hN' : (0 : K) < maxN := by exact_mod_cast hN
  rw [adaptive_size nrm minBox maxN _ dx dy dz hx hy hz, div_mul_cancel₀ _ hN'.ne']
  have nn : ∀ d : K, 0 ≤ max d minBox := fun d => hb.le.trans (le_max_right _ _)
  obtain ⟨h1, h2, h3⟩ := hn _ _ _ (nn dx) (nn dy) (nn dz)
  have hm := (le_max_right dx minBox).trans h1
  refine ⟨hm, div_pos (hb.trans_le hm) hN', fun p hp q hq => ⟨?_, ?_, ?_⟩⟩
  · exact ((hx.2 _ (List.mem_map_of_mem hp) _ (List.mem_map_of_mem hq)).trans (le_max_left _ _)).trans h1
  · exact ((hy.2 _ (List.mem_map_of_mem hp) _ (List.mem_map_of_mem hq)).trans (le_max_left _ _)).trans h2
  · exact ((hz.2 _ (List.mem_map_of_mem hp) _ (List.mem_map_of_mem hq)).trans (le_max_left _ _)).trans h3

variable [FloorRing K]

theorem truncZ_span {a b : K} (n : ℕ) (h : b - a ≤ n) : truncZ b - truncZ a ≤ n := by
  have h1 : truncZ b ≤ truncZ (a + n) := truncZ_mono' (by linarith)
  have h2 : truncZ (a + n) ≤ truncZ a + n := by
    unfold truncZ
    have hc : ⌊a + n⌋ ≤ ⌈a⌉ + n := by
      rw [Int.floor_add_natCast]
      have := Int.floor_le_ceil a
      omega
    by_cases ha : 0 ≤ a
    · have : (0 : K) ≤ a + n := by positivity
      rw [if_pos ha, if_pos this, Int.floor_add_natCast]
    · rw [if_neg ha]
      split
      · exact hc
      · rw [Int.ceil_add_natCast]
  omega

/-- Along each axis the voxels of the points differ by at most `maxN`: there are no more than `maxN + 1` of them in a row. -/
theorem adaptive_voxels_per_axis (nrm : K → K → K → K) (hn : IsLength nrm) (minBox : K) (hb : 0 < minBox) (maxN : Nat) (hN : 0 < maxN) (pts : List (FPt K))
    (vs : K) (hvs : vs = adaptiveSize nrm minBox maxN pts) :
    ∀ p ∈ pts, ∀ q ∈ pts, (voxelKey vs q).1 - (voxelKey vs p).1 ≤ maxN ∧ (voxelKey vs q).2.1 - (voxelKey vs p).2.1 ≤ maxN ∧
      (voxelKey vs q).2.2 - (voxelKey vs p).2.2 ≤ maxN := by
  intro p hp q hq
  obtain ⟨-, h0, h⟩ := size_bounds nrm hn minBox hb maxN hN pts (List.ne_nil_of_mem hp)
  rw [← hvs] at h0 h
  obtain ⟨h1, h2, h3⟩ := h p hp q hq
  have key : ∀ a b : K, b - a ≤ vs * maxN → b / vs - a / vs ≤ maxN := by
    intro a b hab
    rw [← sub_div, div_le_iff₀ h0]; linarith
  exact ⟨truncZ_span _ (key _ _ h1), truncZ_span _ (key _ _ h2), truncZ_span _ (key _ _ h3)⟩

theorem truncZ_fits {q : K} (h : |q| < 2 ^ 31) : Fits (truncZ q) := by
  rw [abs_lt] at h
  unfold Fits truncZ
  split
  · rename_i h0
    refine ⟨le_trans (by norm_num) (Int.floor_nonneg.2 h0), ?_⟩
    rw [Int.floor_lt]; push_cast; exact lt_of_lt_of_eq h.2 (by norm_num)
  · rename_i h0
    refine ⟨?_, lt_of_le_of_lt (Int.ceil_le.2 (by push_cast; exact (not_le.1 h0).le) : ⌈q⌉ ≤ 0) (by norm_num)⟩
    have : (-2 ^ 31 : ℤ) < ⌈q⌉ := by
      rw [Int.lt_ceil]; push_cast; exact lt_of_eq_of_lt (by norm_num) h.1
    exact this.le

/-- All the voxel indices fit if no coordinate is 2^31 or more times the assumed minimum side by the number of voxels (with the defaults, 10 m and 100: 200000 km). -/
theorem adaptive_in_range (nrm : K → K → K → K) (hn : IsLength nrm) (minBox : K) (hb : 0 < minBox) (maxN : Nat) (hN : 0 < maxN) (pts : List (FPt K))
    (hp : ∀ p ∈ pts, |p.x| * maxN < 2 ^ 31 * minBox ∧ |p.y| * maxN < 2 ^ 31 * minBox ∧ |p.z| * maxN < 2 ^ 31 * minBox) :
    ∀ p ∈ pts, InRange (adaptiveSize nrm minBox maxN pts) p := by
  intro p hm
  obtain ⟨h1, h0, -⟩ := size_bounds nrm hn minBox hb maxN hN pts (List.ne_nil_of_mem hm)
  have hN' : (0 : K) < maxN := by exact_mod_cast hN
  generalize adaptiveSize nrm minBox maxN pts = vs at *
  have key : ∀ a : K, |a| * maxN < 2 ^ 31 * minBox → Fits (truncZ (a / vs)) := by
    intro a ha
    apply truncZ_fits
    rw [abs_div, abs_of_pos h0, div_lt_iff₀ h0]
    have : |a| * maxN < 2 ^ 31 * vs * maxN := by nlinarith
    exact lt_of_mul_lt_mul_right this hN'.le
  obtain ⟨hx, hy, hz⟩ := hp p hm
  exact ⟨h0.ne', key _ hx, key _ hy, key _ hz⟩

/-- So are they wherever the cloud is around the origin (in its bounding box), of any size. -/
theorem adaptive_in_range_around (nrm : K → K → K → K) (hn : IsLength nrm) (minBox : K) (hb : 0 < minBox) (maxN : Nat) (hN : 0 < maxN) (hN2 : maxN < 2 ^ 31)
    (pts : List (FPt K))
    (hx : (∃ p ∈ pts, p.x ≤ 0) ∧ ∃ p ∈ pts, 0 ≤ p.x) (hy : (∃ p ∈ pts, p.y ≤ 0) ∧ ∃ p ∈ pts, 0 ≤ p.y) (hz : (∃ p ∈ pts, p.z ≤ 0) ∧ ∃ p ∈ pts, 0 ≤ p.z) :
    ∀ p ∈ pts, InRange (adaptiveSize nrm minBox maxN pts) p := by
  intro p hm
  obtain ⟨-, h0, h⟩ := size_bounds nrm hn minBox hb maxN hN pts (List.ne_nil_of_mem hm)
  have hN' : (maxN : K) < 2 ^ 31 := by exact_mod_cast hN2
  generalize adaptiveSize nrm minBox maxN pts = vs at *
  have key : ∀ (f : FPt K → K), (∀ p ∈ pts, ∀ q ∈ pts, f q - f p ≤ vs * maxN) → (∃ p ∈ pts, f p ≤ 0) → (∃ p ∈ pts, 0 ≤ f p) → Fits (truncZ (f p / vs)) := by
    rintro f hf ⟨a, ha, ha0⟩ ⟨b, hb', hb0⟩
    apply truncZ_fits
    rw [abs_div, abs_of_pos h0, div_lt_iff₀ h0]
    have h1 := hf a ha p hm
    have h2 := hf p hm b hb'
    refine lt_of_le_of_lt (b := vs * maxN) (abs_le.2 ⟨by linarith, by linarith⟩) ?_
    rw [mul_comm]; exact mul_lt_mul_of_pos_right hN' h0
  exact ⟨h0.ne', key (·.x) (fun p hp q hq => (h p hp q hq).1) hx.1 hx.2, key (·.y) (fun p hp q hq => (h p hp q hq).2.1) hy.1 hy.2,
    key (·.z) (fun p hp q hq => (h p hp q hq).2.2) hz.1 hz.2⟩

/-- One call of the filter on a cloud with a point, its coordinates not beyond the limit above, and every voxel usable (the default): it ends, without
undefined behaviour, and appends to the output points of the input, none twice, no more than wanted. -/
theorem adaptive_sized_result (p : AdParams) (hen : p.enabled = true) (hmin : p.minPer ≤ 1) (nrm : K → K → K → K) (hn : IsLength nrm) (minBox : K)
    (hb : 0 < minBox) (maxN : Nat) (hN : 0 < maxN)
    (visitM : List (Idx × List Nat) → List (Idx × List Nat)) (hv : ∀ g, (visitM g).Perm g) (rnd : Nat → Nat → Nat)
    (m : FMap K X) (c : Cloud K) (hm : m.get p.inp = some (.pts c)) (hne : c.pts ≠ []) (hout : p.out ≠ "")
    (ho : ∀ x, m.get p.out ≠ some (.other x))
    (hp : ∀ q ∈ c.pts, |q.x| * maxN < 2 ^ 31 * minBox ∧ |q.y| * maxN < 2 ^ 31 * minBox ∧ |q.z| * maxN < 2 ^ 31 * minBox) :
    ∃ fuel0, ∀ fuel, fuel0 ≤ fuel → ∃ (m' : FMap K X) (idxs : List Nat) (ps : List (FPt K)),
      filterAdaptiveSized p nrm minBox maxN visitM rnd fuel m = some (.ok m') ∧ idxs.Nodup ∧
      List.Forall₂ (fun i q => c.pts[i]? = some q) idxs ps ∧ (ps = [] ∨ sizeNow m p.out + ps.length ≤ p.want) ∧ AppendedTo p.out simpleCloud ps m m' := by
  have hpt : ptsOf m p.inp = c.pts := by unfold ptsOf; rw [hm]
  obtain ⟨f, h⟩ := adaptive_result_partial p hen (adaptiveSize nrm minBox maxN c.pts) visitM hv rnd m c hm hout ho
    (adaptive_in_range nrm hn minBox hb maxN hN c.pts hp)
  refine ⟨f, fun fuel hf => ?_⟩
  obtain ⟨q, hq⟩ := List.exists_mem_of_ne_nil _ hne
  obtain ⟨m', idxs, ps, h1, h2, h3, -, h5, h6⟩ := (h fuel hf).1 (.inl ⟨q, hq, hmin.trans (List.length_pos_iff.2 (List.ne_nil_of_mem (a := q) (by
    simp [inVoxel, hq])))⟩)
  exact ⟨m', idxs, ps, by unfold filterAdaptiveSized; rw [hpt]; exact h1, h2, h3, h5, h6⟩

/-- Without an assumed minimum a cloud whose points are all equal has voxels of size 0, and the behaviour is undefined. -/
theorem adaptive_sized_point_ub (p : AdParams) (hen : p.enabled = true) (nrm : K → K → K → K) (h0 : nrm 0 0 0 = 0) (minBox : K)
    (hb : minBox ≤ 0) (maxN : Nat) (visitM : List (Idx × List Nat) → List (Idx × List Nat)) (rnd : Nat → Nat → Nat)
    (m : FMap K X) (c : Cloud K) (hm : m.get p.inp = some (.pts c)) (q : FPt K) (hq : q ∈ c.pts) (hall : ∀ q' ∈ c.pts, q' = q) (hout : p.out ≠ "")
    (ho : ∀ x, m.get p.out ≠ some (.other x)) (fuel : Nat) :
    filterAdaptiveSized p nrm minBox maxN visitM rnd fuel m = some .ub := by
  have hpt : ptsOf m p.inp = c.pts := by unfold ptsOf; rw [hm]
  have hz : ∀ f : FPt K → K, IsExtent (c.pts.map f) 0 := by
    intro f
    refine ⟨⟨f q, List.mem_map_of_mem hq, f q, List.mem_map_of_mem hq, by ring⟩, fun a ha b hb => ?_⟩
    obtain ⟨q1, h1, rfl⟩ := List.mem_map.1 ha
    obtain ⟨q2, h2, rfl⟩ := List.mem_map.1 hb
    rw [hall q1 h1, hall q2 h2, sub_self]
  have hs : adaptiveSize nrm minBox maxN c.pts = 0 := by
    rw [adaptive_size nrm minBox maxN c.pts 0 0 0 (hz _) (hz _) (hz _), max_eq_left hb, h0, zero_div]
  obtain ⟨r, hr1, hrk⟩ := getOrCreate_ok (simpleCloud : Cloud K) m p.out (fun _ => ho)
  have hr1' : getOrCreatePointLayer (some { hasI := false, hasRing := false, hasT := false }) m p.out true = .ok r := hr1
  have hg := processMulti_ub (0 : K) c.pts 0 [] (fun h => (h q hq).1 rfl)
  unfold filterAdaptiveSized
  rw [hpt, hs]
  unfold filterAdaptive
  rw [if_neg (by simp [hen])]
  simp only [pointLayer, hm]
  rw [if_neg hout, hr1']
  simp only [hg]

/-- The name of the parameter promises at most `maxN` voxels per dimension; one more can occur (bounding box 8 × 4 × 1, diagonal 9, `maxN` = 8, voxels of 9/8:
the indices go from 0 to 8). -/
def exLongCloud : List (FPt ℚ) :=
  [⟨11/10, 0, 0, 0, 0, 0⟩, ⟨12/10, 0, 0, 0, 0, 0⟩, ⟨24/10, 0, 0, 0, 0, 0⟩, ⟨35/10, 0, 0, 0, 0, 0⟩, ⟨46/10, 0, 0, 0, 0, 0⟩, ⟨57/10, 0, 0, 0, 0, 0⟩,
   ⟨68/10, 0, 0, 0, 0, 0⟩, ⟨79/10, 4, 0, 0, 0, 0⟩, ⟨91/10, 0, 1, 0, 0, 0⟩]
theorem adaptive_one_voxel_more (nrm : ℚ → ℚ → ℚ → ℚ) (h9 : nrm 8 4 1 = 9) :
    exLongCloud.map (fun q => (voxelKey (adaptiveSize nrm 1 8 exLongCloud) q).1) = [0, 1, 2, 3, 4, 5, 6, 7, 8] := by
  have hs : adaptiveSize nrm 1 8 exLongCloud = 9 / 8 := by
    have e1 : boxSide 1 (exLongCloud.map (·.x)) = (8 : ℚ) := by decide +kernel
    have e2 : boxSide 1 (exLongCloud.map (·.y)) = (4 : ℚ) := by decide +kernel
    have e3 : boxSide 1 (exLongCloud.map (·.z)) = (1 : ℚ) := by decide +kernel
    unfold adaptiveSize
    rw [e1, e2, e3, h9]; norm_num
  rw [hs]
  decide +kernel

/-- A cloud of three points, two of them wanted. -/
example : ∃ fuel0, ∀ fuel, fuel0 ≤ fuel → ∃ (m' : FMap ℚ Unit) (idxs : List Nat) (ps : List (FPt ℚ)),
    filterAdaptiveSized { inp := "raw", out := "o", want := 2 } (fun x y z => x + y + z) 10 100 id (fun a b => a / b) fuel exAdMap = some (.ok m') ∧ idxs.Nodup ∧
    List.Forall₂ (fun i q => (ptsOf exAdMap "raw")[i]? = some q) idxs ps ∧ (ps = [] ∨ sizeNow exAdMap "o" + ps.length ≤ 2) ∧ AppendedTo "o" simpleCloud ps exAdMap m' :=
  adaptive_sized_result { inp := "raw", out := "o", want := 2 } rfl (by decide) (fun x y z => x + y + z)
    (fun x y z hx hy hz => ⟨by linarith, by linarith, by linarith⟩) 10 (by norm_num) 100 (by norm_num) id (fun _ => List.Perm.refl _) _ exAdMap
    { pts := [⟨1/2, 3/2, 0, 1, 0, 0⟩, ⟨5/2, 1/2, 7/2, 2, 0, 0⟩, ⟨3/4, 5/4, 1/2, 3, 0, 0⟩] } (by decide +kernel) (by simp) (by decide) (by
      intro x h
      have : exAdMap.get "o" = none := by decide +kernel
      rw [this] at h; cases h) (by
      intro q hq
      have : ∀ q ∈ ([⟨1/2, 3/2, 0, 1, 0, 0⟩, ⟨5/2, 1/2, 7/2, 2, 0, 0⟩, ⟨3/4, 5/4, 1/2, 3, 0, 0⟩] : List (FPt ℚ)),
          |q.x| * (100 : ℕ) < 2 ^ 31 * 10 ∧ |q.y| * (100 : ℕ) < 2 ^ 31 * 10 ∧ |q.z| * (100 : ℕ) < 2 ^ 31 * 10 := by
        simp only [List.forall_mem_cons, List.not_mem_nil, false_imp_iff, implies_true, and_true]
        norm_num [abs_of_pos]
      exact this q hq)

end

/-! ### the arithmetic of the machine -/
section
variable {X : Type}

/-- The filter in the arithmetic of the machine, with the voxels as computed: what holds without rounding (`adaptive_result_partial`) holds whatever the
rounding, as long as every point has a voxel. -/
theorem adaptive_float (A : Arith) (key : FPt A.Num → Idx) (p : AdParams) (hen : p.enabled = true)
    (nrm : A.Num → A.Num → A.Num → A.Num) (minBox : A.Num) (maxN : Nat)
    (visitM : List (Idx × List Nat) → List (Idx × List Nat)) (hv : ∀ g, (visitM g).Perm g) (rnd : Nat → Nat → Nat)
    (m : FMap A.Num X) (c : Cloud A.Num) (hm : m.get p.inp = some (.pts c)) (hout : p.out ≠ "")
    (ho : ∀ x, m.get p.out ≠ some (.other x)) (hr : ∀ q ∈ c.pts, VoxelF A (adaptiveSize nrm minBox maxN c.pts) q (key q)) :
    ∃ fuel0, ∀ fuel, fuel0 ≤ fuel →
      ((∃ q ∈ c.pts, UsableBy key p.minPer c.pts q) ∨ p.want ≤ sizeNow m p.out →
        ∃ (m' : FMap A.Num X) (idxs : List Nat) (ps : List (FPt A.Num)), filterAdaptiveSized p nrm minBox maxN visitM rnd fuel m = some (.ok m') ∧ idxs.Nodup ∧
          List.Forall₂ (fun i q => c.pts[i]? = some q) idxs ps ∧ (∀ q ∈ ps, UsableBy key p.minPer c.pts q) ∧
          (ps = [] ∨ sizeNow m p.out + ps.length ≤ p.want) ∧ AppendedTo p.out simpleCloud ps m m') ∧
      ((∀ q ∈ c.pts, ¬ UsableBy key p.minPer c.pts q) → sizeNow m p.out < p.want →
        filterAdaptiveSized p nrm minBox maxN visitM rnd fuel m = some .ub) := by
  have hpt : ptsOf m p.inp = c.pts := by unfold ptsOf; rw [hm]
  unfold filterAdaptiveSized
  rw [hpt]
  exact adaptive_result_by_partial key p hen _ visitM hv rnd m c hm hout ho fun q hq => (voxelF_iff A _ q _).2 (hr q hq)

/-- A point without a voxel makes the call undefined: -/
theorem adaptive_float_undefined (A : Arith) (p : AdParams) (hen : p.enabled = true)
    (nrm : A.Num → A.Num → A.Num → A.Num) (minBox : A.Num) (maxN : Nat)
    (visitM : List (Idx × List Nat) → List (Idx × List Nat)) (rnd : Nat → Nat → Nat)
    (m : FMap A.Num X) (c : Cloud A.Num) (hm : m.get p.inp = some (.pts c)) (hout : p.out ≠ "")
    (ho : ∀ x, m.get p.out ≠ some (.other x)) (q : FPt A.Num) (hq : q ∈ c.pts) (hr : ¬ ∃ k, VoxelF A (adaptiveSize nrm minBox maxN c.pts) q k) (fuel : Nat) :
    filterAdaptiveSized p nrm minBox maxN visitM rnd fuel m = some .ub := by
  have hpt : ptsOf m p.inp = c.pts := by unfold ptsOf; rw [hm]
  obtain ⟨r, hr1, hrk⟩ := getOrCreate_ok (simpleCloud : Cloud A.Num) m p.out (fun _ => ho)
  have hr1' : getOrCreatePointLayer (some { hasI := false, hasRing := false, hasT := false }) m p.out true = .ok r := hr1
  have hg := processMulti_ub_by (adaptiveSize nrm minBox maxN c.pts) c.pts 0 [] (fun q _ => voxelF_ne_throw A _ q) ⟨q, hq, (voxelF_ub A _ q).2 hr⟩
  unfold filterAdaptiveSized
  rw [hpt]
  unfold filterAdaptive
  rw [if_neg (by simp [hen])]
  simp only [pointLayer, hm]
  rw [if_neg hout, hr1']
  simp only [hg]

/-- for instance a point with a coordinate that is not a finite number. -/
theorem adaptive_float_not_finite (A : Arith) (p : AdParams) (hen : p.enabled = true)
    (nrm : A.Num → A.Num → A.Num → A.Num) (minBox : A.Num) (maxN : Nat)
    (visitM : List (Idx × List Nat) → List (Idx × List Nat)) (rnd : Nat → Nat → Nat)
    (m : FMap A.Num X) (c : Cloud A.Num) (hm : m.get p.inp = some (.pts c)) (hout : p.out ≠ "")
    (ho : ∀ x, m.get p.out ≠ some (.other x)) (q : FPt A.Num) (hq : q ∈ c.pts)
    (hn : ∃ v ∈ [A.val q.x, A.val q.y, A.val q.z], v = .nan ∨ v = .pinf ∨ v = .ninf) (fuel : Nat) :
    filterAdaptiveSized p nrm minBox maxN visitM rnd fuel m = some .ub :=
  adaptive_float_undefined A p hen nrm minBox maxN visitM rnd m c hm hout ho q hq (no_voxel_of_not_finite A _ q hn) fuel

/-- In single precision every point whose coordinates are at most 2147483520 times the voxel size has a voxel. -/
theorem adaptive_float_defined (r x y z : ℚ) (hr : 0 < r) (hx : |x| ≤ 2147483520 * r) (hy : |y| ≤ 2147483520 * r) (hz : |z| ≤ 2147483520 * r)
    (q : FPt binary32.Num) (ex : binary32.val q.x = .fin x) (ey : binary32.val q.y = .fin y) (ez : binary32.val q.z = .fin z) :
    ∃ k, VoxelF binary32 (binary32.num (.fin r)) q k := by
  have key : ∀ (a : ℚ) (v : binary32.Num), binary32.val v = .fin a → |a| ≤ 2147483520 * r → ∃ i, IdxF binary32 (binary32.num (.fin r)) v i := by
    intro a v e h
    obtain ⟨i, hi⟩ := (voxel_float_defined r a hr).1 h
    have e' : v = (Fl.fin a : Fl) := e
    subst e'
    exact ⟨i, (idxF_iff binary32 _ _ i).1 hi⟩
  obtain ⟨i, hi⟩ := key x q.x ex hx
  obtain ⟨j, hj⟩ := key y q.y ey hy
  obtain ⟨k, hk⟩ := key z q.z ez hz
  exact ⟨(i, j, k), hi, hj, hk⟩

/-- With `maxN` = 0, or a bounding box whose diagonal overflows, the voxel size is infinite: -/
theorem adaptive_float_infinite (A : Arith) (nrm : A.Num → A.Num → A.Num → A.Num) (minBox : A.Num) (maxN : Nat) (pts : List (FPt A.Num)) (d : Fl)
    (hd : A.val (nrm (boxSide minBox (pts.map (·.x))) (boxSide minBox (pts.map (·.y))) (boxSide minBox (pts.map (·.z)))) = d)
    (h : d = .pinf ∧ A.fl maxN ≠ .pinf ∨ (maxN = 0 ∧ Fl.lt (.fin 0) d = true)) :
    A.val (adaptiveSize nrm minBox maxN pts) = .pinf := by
  have e : A.val (adaptiveSize nrm minBox maxN pts) = A.div d (A.fl maxN) := by rw [← hd]; rfl
  rw [e]
  rcases h with ⟨rfl, h⟩ | ⟨rfl, h⟩
  · have h0 : (0 : ℚ) ≤ maxN := Nat.cast_nonneg _
    have hm := fl_mono (A := A) h0
    rw [fl_zero] at hm
    generalize A.fl (maxN : ℚ) = v at *
    cases v with
    | fin q =>
      have hq : ¬ q < 0 := by simpa [Fl.le] using hm
      simp [Arith.div, hq]
    | pinf => exact absurd rfl h
    | ninf => simp [Fl.le] at hm
    | nan => simp [Fl.le] at hm
  · rw [Nat.cast_zero, fl_zero]
    cases d with
    | fin q =>
      have hq : 0 < q := by simpa [Fl.lt] using h
      simp [Arith.div, infOf_pos hq]
    | pinf => simp [Arith.div]
    | ninf => simp [Fl.lt] at h
    | nan => simp [Fl.lt] at h

/-- and then all points with finite coordinates are in one and the same voxel. -/
theorem adaptive_float_one_voxel (A : Arith) (res : A.Num) (hres : A.val res = .pinf) (q : FPt A.Num) (x y z : ℚ)
    (ex : A.val q.x = .fin x) (ey : A.val q.y = .fin y) (ez : A.val q.z = .fin z) (k : Idx) : VoxelF A res q k ↔ k = (0, 0, 0) := by
  have key : ∀ (a : ℚ) (v : A.Num) (i : ℤ), A.val v = .fin a → (IdxF A res v i ↔ i = 0) := by
    intro a v i e
    have e' : v = (Fl.fin a : Fl) := e
    have er : res = (Fl.pinf : Fl) := hres
    subst e' er
    constructor
    · rintro ⟨q, h1, h2, -⟩
      have : A.div (.fin a) .pinf = .fin 0 := rfl
      rw [this] at h1
      injection h1 with h1
      subst h1
      rw [← h2]; decide +kernel
    · rintro rfl
      exact ⟨0, rfl, by decide +kernel, by norm_num, by norm_num⟩
  obtain ⟨k1, k2, k3⟩ := k
  unfold VoxelF
  rw [key x _ _ ex, key y _ _ ey, key z _ _ ez]
  simp

/-- In single precision: two points 10 km apart, the default number of voxels replaced by 0: both are in the one voxel, of infinite size. -/
example : binary32.val (adaptiveSize (fun x _ _ => x) (binary32.num (.fin 10)) 0
    [⟨binary32.num (.fin 0), binary32.num (.fin 0), binary32.num (.fin 0), 0, 0, 0⟩, ⟨binary32.num (.fin 10000), binary32.num (.fin 0), binary32.num (.fin 0), 0, 0, 0⟩]) = .pinf := by
  decide +kernel
end

end Props
end Verif
