import Mathlib.Algebra.Order.Ring.Rat
import Mathlib.Data.Rat.Floor
import Mathlib.Tactic.NormNum
import Verif.Lemmas.DecimateTop
/-
C49: FilterDecimateVoxels.  C50: voxel indices.
-/
set_option linter.unusedSectionVars false
namespace Verif
namespace Props
open Flt Vox
variable {K X : Type}

/-! ### C50 -/
section
variable [Field K] [LinearOrder K] [IsStrictOrderedRing K] [FloorRing K]

/-- The index of a coordinate is defined exactly if the side is not zero and the index fits 32 bits. -/
theorem coord2idx_defined_iff (res x : K) :
    (∃ i, coord2idx res x = .ok i) ↔ res ≠ 0 ∧ -2 ^ 31 ≤ truncZ (x / res) ∧ truncZ (x / res) < 2 ^ 31 := by
  constructor
  · rintro ⟨i, h⟩
    obtain ⟨h1, h2, rfl⟩ := (coord2idx_eq_ok res x i).1 h
    exact ⟨h1, h2⟩
  · rintro ⟨h1, h2⟩
    exact ⟨_, coord2idx_ok res x h1 h2⟩

/-- Where the voxels are: voxel 0 is `(-res, res)`, voxel `i > 0` is `[i·res, (i+1)·res)` and voxel `i < 0` is
`((i-1)·res, i·res]`. -/
theorem coord2idx_interval (res x : K) (hr : 0 < res) (i : ℤ) (h : coord2idx res x = .ok i) :
    (i = 0 → - res < x ∧ x < res) ∧ (0 < i → i * res ≤ x ∧ x < (i + 1) * res) ∧
    (i < 0 → (i - 1) * res < x ∧ x ≤ i * res) := by
  replace h := ((coord2idx_eq_ok res x i).1 h).2.2
  have hx : x = x / res * res := by field_simp
  generalize x / res = q at h hx
  subst hx
  unfold truncZ at h
  split at h
  · rename_i hq
    have h1 : (i : K) ≤ q := by rw [← h]; exact Int.floor_le q
    have h2 : q < i + 1 := by rw [← h]; exact Int.lt_floor_add_one q
    have h3 : 0 ≤ i := by rw [← h]; exact Int.floor_nonneg.2 hq
    refine ⟨?_, ?_, ?_⟩
    · rintro rfl
      simp only [Int.cast_zero, zero_add] at h1 h2
      constructor <;> nlinarith
    · intro _
      constructor <;> nlinarith
    · intro hi; omega
  · rename_i hq
    rw [not_le] at hq
    have h1 : q ≤ i := by rw [← h]; exact Int.le_ceil q
    have h2 : (i : K) - 1 < q := by
      have := Int.ceil_lt_add_one q
      rw [h] at this; linarith
    have h3 : i ≤ 0 := by rw [← h]; exact Int.ceil_nonpos.2 hq.le
    refine ⟨?_, ?_, ?_⟩
    · rintro rfl
      simp only [Int.cast_zero, zero_sub] at h1 h2
      constructor <;> nlinarith
    · intro hi; omega
    · intro _
      constructor <;> nlinarith

/-- Two coordinates with the same index other than 0 are less than one side apart. -/
theorem voxel_side_partial (res x y : K) (hr : 0 < res) (i : ℤ) (hi : i ≠ 0) (hx : coord2idx res x = .ok i)
    (hy : coord2idx res y = .ok i) : |x - y| < res := by
  obtain ⟨-, h1, h2⟩ := coord2idx_interval res x hr i hx
  obtain ⟨-, g1, g2⟩ := coord2idx_interval res y hr i hy
  rw [abs_lt]
  rcases lt_or_gt_of_ne hi with h | h
  · have a := h2 h; have b := g2 h
    constructor <;> nlinarith [a.1, a.2, b.1, b.2]
  · have a := h1 h; have b := g1 h
    constructor <;> nlinarith [a.1, a.2, b.1, b.2]

/-- In any voxel they are less than two sides apart, … -/
theorem voxel_double_side (res x y : K) (hr : 0 < res) (i : ℤ) (hx : coord2idx res x = .ok i)
    (hy : coord2idx res y = .ok i) : |x - y| < 2 * res := by
  by_cases hi : i = 0
  · have a := (coord2idx_interval res x hr i hx).1 hi
    have b := (coord2idx_interval res y hr i hy).1 hi
    rw [abs_lt]
    constructor <;> nlinarith [a.1, a.2, b.1, b.2]
  · have := voxel_side_partial res x y hr i hi hx hy
    linarith

/-- … and no better around the origin: for every distance below two sides there are coordinates with that distance in the same
voxel 0. -/
theorem voxel_zero_is_double (res d : K) (hr : 0 < res) (hd0 : 0 ≤ d) (hd : d < 2 * res) :
    ∃ x y, coord2idx res x = .ok 0 ∧ coord2idx res y = .ok 0 ∧ |x - y| = d := by
  have hz : Fits 0 := by constructor <;> norm_num
  have hq : d / 2 / res < 1 := by rw [div_lt_one hr]; linarith
  have hq0 : 0 ≤ d / 2 / res := by positivity
  refine ⟨d / 2, -(d / 2), ?_, ?_, ?_⟩
  · rw [coord2idx_eq_ok]
    refine ⟨hr.ne', hz, ?_⟩
    unfold truncZ
    rw [if_pos hq0, Int.floor_eq_zero_iff]
    exact ⟨hq0, hq⟩
  · rw [coord2idx_eq_ok]
    refine ⟨hr.ne', hz, ?_⟩
    unfold truncZ
    rw [neg_div]
    split
    · rename_i h
      have : d / 2 / res = 0 := le_antisymm (by linarith) hq0
      rw [this]; simp
    · rw [Int.ceil_eq_iff]
      constructor <;> norm_num <;> linarith
  · rw [show d / 2 - -(d / 2) = d by ring, abs_of_nonneg hd0]

/-- The index is monotone in the coordinate. -/
theorem coord2idx_mono (res x y : K) (hr : 0 < res) (hxy : x ≤ y) (i j : ℤ) (hx : coord2idx res x = .ok i)
    (hy : coord2idx res y = .ok j) : i ≤ j := by
  obtain ⟨-, -, rfl⟩ := (coord2idx_eq_ok res x i).1 hx
  obtain ⟨-, -, rfl⟩ := (coord2idx_eq_ok res y j).1 hy
  have h : x / res ≤ y / res := div_le_div_of_nonneg_right hxy hr.le
  unfold truncZ
  split <;> split
  · exact Int.floor_mono h
  · rename_i h1 h2; exact absurd (h1.trans h) h2
  · rename_i h1 h2
    exact (Int.ceil_nonpos.2 (not_le.1 h1).le).trans (Int.floor_nonneg.2 h2)
  · exact Int.ceil_mono h

example : coord2idx (2 : ℚ) 7 = .ok 3 ∧ coord2idx (2 : ℚ) (-7) = .ok (-3) := by constructor <;> decide +kernel
example : coord2idx (1 / 2 : ℚ) (1 / 3) = .ok 0 ∧ coord2idx (1 / 2 : ℚ) (- 1 / 3) = .ok 0 := by
  constructor <;> decide +kernel

end

/-! ### C49 -/
section
variable [Zero K] [One K] [Add K] [Sub K] [Mul K] [Div K] [NatCast K] [LT K] [DecidableLT K] [VoxelIdx K]

/-- Every input layer is a point cloud, or is missing and that is to be ignored. -/
def GoodInputs (p : DecParams K) (m : FMap K X) : Prop :=
  ∀ n ∈ p.inputs, (∃ c, m.get n = some (.pts c)) ∨ (m.get n = none ∧ p.errMissing = false)

/-- The input layers present, in order. -/
def present (p : DecParams K) (m : FMap K X) : List String := p.inputs.filter fun n => (m.get n).isSome

/-- The output layer can be opened. -/
def GoodOutput (p : DecParams K) (m : FMap K X) : Prop := p.out ≠ "" ∧ ∀ x, m.get p.out ≠ some (.other x)

/-- The inputs to be passed through undecimated, and the others. -/
def smallOnes (p : DecParams K) (m : FMap K X) : List String := (present p m).filter fun n => isSmall p m n
def bigOnes (p : DecParams K) (m : FMap K X) : List String := (present p m).filter fun n => !isSmall p m n

theorem gatherInputs_ok (e : Bool) (m : FMap K X) (ns : List String)
    (h : ∀ n ∈ ns, (∃ c, m.get n = some (.pts c)) ∨ (m.get n = none ∧ e = false)) :
    gatherInputs e m ns = .ok (ns.filter fun n => (m.get n).isSome) := by
  induction ns with
  | nil => rfl
  | cons n ns ih =>
    have ih := ih (fun k hk => h k (List.mem_cons_of_mem _ hk))
    rcases h n (List.mem_cons_self ..) with ⟨c, hc⟩ | ⟨hn, he⟩
    · rw [gatherInputs, hc]
      simp only [ih, Outcome.bind]
      rw [List.filter_cons_of_pos (by rw [hc]; rfl)]
    · rw [gatherInputs, hn]
      simp only [he, Bool.false_eq_true, if_false]
      rw [List.filter_cons_of_neg (by rw [hn]; simp), ← ih, he]

/-- the common part of what follows -/
theorem filterDecimate_unfold (p : DecParams K) (visit1 : List (Idx × FPt K) → List (Idx × FPt K))
    (visitM : List (Idx × List Nat) → List (Idx × List Nat)) (draws : Nat → Nat) (grid : GridM) (m : FMap K X)
    (hi : GoodInputs p m) (ho : GoodOutput p m) (n : String) (l : List String) (hnl : present p m = n :: l)
    (ha : 0 < p.minPts → p.out ∉ p.inputs) (fuel : Nat) (hf : ∀ n ∈ present p m, sizeNow m n < fuel) :
    ∃ m1, filterDecimate p visit1 visitM draws fuel grid m =
        some (decimateCore p visit1 visitM draws grid (bigOnes p m) m1) ∧
      AppendedTo p.out (classOf m n) (passed p.flatten ((smallOnes p m).flatMap (ptsOf m))) m m1 ∧
      (bigOnes p m).flatMap (ptsOf m1) = (bigOnes p m).flatMap (ptsOf m) ∧
      ∀ k ∈ bigOnes p m, ptsOf m1 k = ptsOf m k := by
  have hpr : ∀ k ∈ present p m, ∃ c, m.get k = some (.pts c) := by
    intro k hk
    rw [present, List.mem_filter] at hk
    rcases hi k hk.1 with h | ⟨h, -⟩
    · exact h
    · rw [h] at hk; simp at hk
  obtain ⟨r, hr, hrk⟩ : ∃ r, getOrCreatePointLayer (some (classOf m n)) m p.out false = .ok r ∧
      ∀ k, AMap.get r.2 k = if k = p.out ∧ m.get k = none then some (.pts (classOf m n)) else m.get k := by
    unfold getOrCreatePointLayer
    rw [if_neg ho.1]
    cases hg : m.get p.out with
    | none =>
      refine ⟨_, rfl, fun k => ?_⟩
      by_cases hk : k = p.out
      · subst hk; simp [hg]
      · simp [hk]
    | some L =>
      cases L with
      | other x => exact absurd hg (ho.2 x)
      | pts c =>
        refine ⟨_, rfl, fun k => ?_⟩
        rw [if_neg]
        rintro ⟨rfl, h'⟩; rw [hg] at h'; cases h'
  have hsame : ∀ k ∈ present p m, AMap.get r.2 k = m.get k := by
    intro k hk
    obtain ⟨c, hc⟩ := hpr k hk
    rw [hrk, if_neg (by rw [hc]; simp)]
  obtain ⟨m1, h1, h2⟩ := passSmall_eq p ho.1 fuel (present p m) r.2 (by
    intro k hk
    obtain ⟨c, hc⟩ := hpr k hk
    refine ⟨c, by rw [hsame k hk, hc], ?_⟩
    have := hf k hk
    simpa [sizeNow, hc] using this) (by
    intro h hh
    rw [present, List.mem_filter] at hh
    exact ha h hh.1)
  have hfil : ∀ q : Bool → Bool, ((present p m).filter fun k => q (isSmall p r.2 k)) =
      (present p m).filter fun k => q (isSmall p m k) := by
    intro q
    apply List.filter_congr
    intro k hk
    simp only [isSmall, sizeNow_congr m r.2 k (hsame k hk)]
  have e1 : ((present p m).filter fun k => !isSmall p r.2 k) = bigOnes p m := hfil _
  have e2 : ((present p m).filter fun k => isSmall p r.2 k) = smallOnes p m := hfil id
  rw [e1] at h1
  rw [e2] at h2
  have e3 : (smallOnes p m).flatMap (ptsOf r.2) = (smallOnes p m).flatMap (ptsOf m) := by
    rw [List.flatMap_def, List.flatMap_def]
    congr 1
    apply List.map_congr_left
    intro k hk
    exact ptsOf_congr m r.2 k (hsame k (List.mem_of_mem_filter hk))
  rw [e3] at h2
  have hbig : ∀ k ∈ bigOnes p m, ptsOf m1 k = ptsOf m k := by
    intro k hk
    have hkp := List.mem_of_mem_filter hk
    apply ptsOf_congr
    rw [h2]
    by_cases hko : k = p.out
    · rw [if_pos hko]
      have hmin : ¬ 0 < p.minPts := by
        intro h
        rw [present, List.mem_filter] at hkp
        exact ha h (hko ▸ hkp.1)
      have : smallOnes p m = [] := by
        unfold smallOnes
        rw [List.filter_eq_nil_iff]
        intro a _; simp [isSmall, hmin]
      rw [this]
      have : passed p.flatten (List.flatMap (ptsOf m) []) = [] := by cases p.flatten <;> rfl
      rw [this, addPts_nil, hsame k hkp]
    · rw [if_neg hko, hsame k hkp]
  refine ⟨m1, ?_, ⟨?_, ?_⟩, ?_, hbig⟩
  · have hg : gatherInputs p.errMissing m p.inputs = .ok (n :: l) := by
      rw [gatherInputs_ok _ _ _ hi]; exact congrArg _ hnl
    rw [hnl] at h1
    simp only [filterDecimate, hg, hr, h1]
  · cases hg : m.get p.out with
    | none =>
      refine ⟨classOf m n, Or.inr ⟨rfl, rfl⟩, ?_⟩
      rw [h2, if_pos rfl, hrk, if_pos ⟨rfl, hg⟩]; rfl
    | some L =>
      cases L with
      | other x => exact absurd hg (ho.2 x)
      | pts c =>
        refine ⟨c, Or.inl rfl, ?_⟩
        rw [h2, if_pos rfl, hrk, if_neg (by rw [hg]; simp), hg]; rfl
  · intro k hk
    rw [h2, if_neg hk, hrk, if_neg (fun h => hk h.1)]
  · rw [List.flatMap_def, List.flatMap_def]
    congr 1
    exact List.map_congr_left hbig

theorem appendedTo_more (out : String) (hout : out ≠ "") (e : Cloud K) (a b : List (FPt K)) (m m1 : FMap K X)
    (h : AppendedTo out e a m m1) : AppendedTo out e (a ++ b) m (b.foldl (fun m p => insertInto m out p) m1) := by
  obtain ⟨⟨c0, h1, h2⟩, h3⟩ := h
  refine ⟨⟨c0, h1, ?_⟩, fun n hn => ?_⟩
  · rw [get_appendAll _ hout, if_pos rfl, h2]
    have : ({ c0 with pts := c0.pts ++ List.map (conform c0) a } : Cloud K).hasI = c0.hasI := rfl
    simp only [addPts, List.map_append, List.append_assoc]
    rfl
  · rw [get_appendAll _ hout, if_neg hn, h3 n hn]

/-- For any numbers, `key` being the voxels.  FirstPoint: the filter ends, appends to the output layer the points of the small clouds as they are, and then one
representative per voxel occupied by a point of the others; nothing else changes.  (If small clouds are to be passed through,
the output is supposed not to be one of the inputs; see below.) -/
theorem decimate_first_by (key : FPt K → Idx) (p : DecParams K) (hp : p.method = .firstPoint)
    (visit1 : List (Idx × FPt K) → List (Idx × FPt K)) (hv : ∀ g, (visit1 g).Perm g)
    (visitM : List (Idx × List Nat) → List (Idx × List Nat)) (draws : Nat → Nat) (grid : GridM) (m : FMap K X)
    (hi : GoodInputs p m) (ho : GoodOutput p m) (n : String) (l : List String) (hnl : present p m = n :: l)
    (ha : 0 < p.minPts → p.out ∉ p.inputs)
    (hr : ∀ q ∈ (bigOnes p m).flatMap (ptsOf m), voxelOf p.res q = .ok (key q))
    (fuel : Nat) (hf : ∀ n ∈ present p m, sizeNow m n < fuel) :
    ∃ m' reps, filterDecimate p visit1 visitM draws fuel grid m = some (.ok (m', grid)) ∧
      OutputBy key (fun v r => v.head? = some r) p.flatten ((bigOnes p m).flatMap (ptsOf m)) reps ∧
      AppendedTo p.out (classOf m n) (passed p.flatten ((smallOnes p m).flatMap (ptsOf m)) ++ reps) m m' := by
  obtain ⟨m1, h1, h2, h3, -⟩ := filterDecimate_unfold p visit1 visitM draws grid m hi ho n l hnl ha fuel hf
  obtain ⟨g, hg1, hg2⟩ := processLayers_by key p.res m1 (bigOnes p m) [] [] (SInv.nil _) (by rw [h3]; exact hr)
  rw [List.nil_append, h3] at hg2
  have hperm := hv g
  obtain ⟨reps, hR1, hR2⟩ := output_of_reps key (fun v r => v.head? = some r) p.flatten ((bigOnes p m).flatMap (ptsOf m)) (visit1 g)
    ((hperm.map _).nodup_iff.2 hg2.1) (fun k => by rw [(hperm.map _).mem_iff]; exact hg2.keys k)
    (fun k r hkr => by
      have := (hg2.2 k r).1 (hperm.mem_iff.1 hkr)
      exact ⟨fun h0 => (by rw [h0] at this; cases this), this⟩) p.out m1
  refine ⟨_, reps, ?_, hR1, appendedTo_more p.out ho.1 _ _ reps m m1 h2⟩
  rw [h1]
  simp only [decimateCore, hp, if_true, hg1, Outcome.bind, hR2]

/-- For any numbers, `key` being the voxels and `rep` what a representative is.  ClosestToAverage, VoxelAverage, RandomPoint, with the default container: the same with exactly one cloud to decimate. -/
theorem decimate_multi_by (key : FPt K → Idx) (rep : List (FPt K) → FPt K → Prop) (p : DecParams K)
    (hrep : ∀ draw ps, ps ≠ [] → ∃ r, representative p.method draw ps = .ok r ∧ rep ps r) (hp : p.method ≠ .firstPoint) (htsl : p.useTsl = true)
    (visit1 : List (Idx × FPt K) → List (Idx × FPt K))
    (visitM : List (Idx × List Nat) → List (Idx × List Nat)) (hv : ∀ g, (visitM g).Perm g)
    (draws : Nat → Nat) (grid : GridM) (m : FMap K X)
    (hi : GoodInputs p m) (ho : GoodOutput p m) (n : String) (l : List String) (hnl : present p m = n :: l)
    (ha : 0 < p.minPts → p.out ∉ p.inputs) (b : String) (hb : bigOnes p m = [b])
    (hr : ∀ q ∈ ptsOf m b, voxelOf p.res q = .ok (key q))
    (fuel : Nat) (hf : ∀ n ∈ present p m, sizeNow m n < fuel) :
    ∃ m' reps grid', filterDecimate p visit1 visitM draws fuel grid m = some (.ok (m', grid')) ∧
      OutputBy key rep p.flatten (ptsOf m b) reps ∧
      AppendedTo p.out (classOf m n) (passed p.flatten ((smallOnes p m).flatMap (ptsOf m)) ++ reps) m m' := by
  obtain ⟨m1, h1, h2, -, h3⟩ := filterDecimate_unfold p visit1 visitM draws grid m hi ho n l hnl ha fuel hf
  have h3 := h3 b (by rw [hb]; simp)
  obtain ⟨g, hg1, hg2⟩ := processMulti_by key p.res (keyAt key (ptsOf m b)) (ptsOf m b) 0 [] (MInv.nil _) hr (by
    intro j hj
    simp [keyAt, List.getElem?_eq_getElem hj])
  rw [Nat.zero_add] at hg2
  have hperm := hv g
  obtain ⟨rs, hrs, hk, hrep'⟩ := representatives_by key rep p.method draws (ptsOf m b) (visitM g)
    (fun k l hkl => (hg2.2 k l).1 (hperm.mem_iff.1 hkl)) hrep 0
  obtain ⟨reps, hR1, hR2⟩ := output_of_reps key rep p.flatten (ptsOf m b) rs
    (by rw [hk, (hperm.map _).nodup_iff]; exact hg2.1)
    (fun k => by
      rw [hk, (hperm.map _).mem_iff]
      constructor
      · intro h
        obtain ⟨⟨k', l'⟩, he, rfl⟩ := List.mem_map.1 h
        obtain ⟨q1, q2⟩ := (hg2.2 k' l').1 he
        obtain ⟨i, hi⟩ := List.exists_mem_of_ne_nil _ q1
        rw [q2, List.mem_filter, List.mem_range] at hi
        have hlt : i < (ptsOf m b).length := hi.1
        refine ⟨(ptsOf m b)[i], List.getElem_mem hlt, ?_⟩
        have := hi.2
        simpa [keyAt, List.getElem?_eq_getElem hlt] using this
      · rintro ⟨q, hq, rfl⟩
        obtain ⟨i, hi, rfl⟩ := List.mem_iff_getElem.1 hq
        refine List.mem_map.2 ⟨(_, (List.range (ptsOf m b).length).filter fun j => keyAt key (ptsOf m b) j =
          key (ptsOf m b)[i]), (hg2.2 _ _).2 ⟨?_, rfl⟩, rfl⟩
        apply List.ne_nil_of_mem (a := i)
        rw [List.mem_filter, List.mem_range]
        exact ⟨hi, by simp [keyAt, List.getElem?_eq_getElem hi]⟩) hrep' p.out m1
  refine ⟨_, reps, { grid.clear true with robin := g }, ?_, hR1, appendedTo_more p.out ho.1 _ _ reps m m1 h2⟩
  rw [h1, hb]
  simp only [decimateCore, hp, if_false, htsl, GridM.clear, if_true, h3, hg1, Outcome.bind, GridM.content, hrs, hR2]

/-- With the other container (`use_tsl_robin_map: false`) and a method other than FirstPoint, nothing is ever output for the
decimated cloud, whatever it holds and whatever happened before: the points are put in one container and read from the other. -/
theorem decimate_std_map_outputs_nothing (p : DecParams K) (hp : p.method ≠ .firstPoint) (htsl : p.useTsl = false)
    (visit1 : List (Idx × FPt K) → List (Idx × FPt K))
    (visitM : List (Idx × List Nat) → List (Idx × List Nat)) (hv : ∀ g, (visitM g).Perm g)
    (draws : Nat → Nat) (grid : GridM) (m : FMap K X)
    (hi : GoodInputs p m) (ho : GoodOutput p m) (n : String) (l : List String) (hnl : present p m = n :: l)
    (ha : 0 < p.minPts → p.out ∉ p.inputs) (fuel : Nat) (hf : ∀ n ∈ present p m, sizeNow m n < fuel)
    (m' : FMap K X) (grid' : GridM)
    (h : filterDecimate p visit1 visitM draws fuel grid m = some (.ok (m', grid'))) :
    AppendedTo p.out (classOf m n) (passed p.flatten ((smallOnes p m).flatMap (ptsOf m))) m m' := by
  obtain ⟨m1, h1, h2, -, -⟩ := filterDecimate_unfold p visit1 visitM draws grid m hi ho n l hnl ha fuel hf
  rw [h1] at h
  have hv0 : visitM [] = [] := List.perm_nil.1 (hv [])
  simp only [decimateCore, hp, if_false, htsl, Option.some.injEq] at h
  split at h
  · simp only [GridM.clear, Bool.false_eq_true, if_false, GridM.content, Outcome.bind_eq_ok, hv0, representatives,
      Outcome.ok.injEq, Prod.mk.injEq] at h
    obtain ⟨g, -, rs, hrs, h, -⟩ := h
    subst hrs
    rw [← h]
    simpa [collect] using h2
  · cases h

/-- A method other than FirstPoint needs exactly one cloud left to decimate: in particular one small input cloud, which
should just pass through, is an error. -/
theorem decimate_multi_small_throws (p : DecParams K) (hp : p.method ≠ .firstPoint)
    (visit1 : List (Idx × FPt K) → List (Idx × FPt K))
    (visitM : List (Idx × List Nat) → List (Idx × List Nat)) (draws : Nat → Nat) (grid : GridM) (m : FMap K X)
    (hi : GoodInputs p m) (ho : GoodOutput p m) (n : String) (l : List String) (hnl : present p m = n :: l)
    (ha : 0 < p.minPts → p.out ∉ p.inputs) (hb : (bigOnes p m).length ≠ 1)
    (fuel : Nat) (hf : ∀ n ∈ present p m, sizeNow m n < fuel) :
    filterDecimate p visit1 visitM draws fuel grid m = some .throw := by
  obtain ⟨m1, h1, -, -, -⟩ := filterDecimate_unfold p visit1 visitM draws grid m hi ho n l hnl ha fuel hf
  rw [h1]
  simp only [decimateCore, hp, if_false]
  split
  · rename_i k hk; rw [hk] at hb; exact absurd rfl hb
  · rfl

/-- A point whose voxel index does not fit (or a zero side) makes the behaviour undefined. -/
theorem decimate_ub_by (p : DecParams K) (hp : p.method = .firstPoint)
    (visit1 : List (Idx × FPt K) → List (Idx × FPt K))
    (visitM : List (Idx × List Nat) → List (Idx × List Nat)) (draws : Nat → Nat) (grid : GridM) (m : FMap K X)
    (hi : GoodInputs p m) (ho : GoodOutput p m) (n : String) (hin : p.inputs = [n])
    (hmin : p.minPts = 0) (q : FPt K) (hq : q ∈ ptsOf m n) (hr : voxelOf p.res q = .ub)
    (h0 : ∀ q ∈ ptsOf m n, voxelOf p.res q ≠ .throw) (fuel : Nat)
    (hf : sizeNow m n < fuel) :
    filterDecimate p visit1 visitM draws fuel grid m = some .ub := by
  have hpres : present p m = [n] := by
    unfold present
    rw [hin]
    rcases hi n (by rw [hin]; simp) with ⟨c, hc⟩ | ⟨h0, -⟩
    · simp [hc]
    · simp [ptsOf, h0] at hq
  obtain ⟨m1, h1, -, -, h3⟩ := filterDecimate_unfold p visit1 visitM draws grid m hi ho n [] hpres (by omega) fuel (by
    rw [hpres]; simpa using hf)
  have hb : bigOnes p m = [n] := by unfold bigOnes; rw [hpres]; simp [isSmall, hmin]
  rw [h1, hb]
  simp only [decimateCore, hp, if_true, processLayers]
  rw [h3 n (by rw [hb]; simp), processSingle_ub _ _ _ h0 ⟨q, hq, hr⟩]
  rfl

/-- If a small non-empty cloud is both input and output, the filter never ends. -/
theorem decimate_small_in_place_never_ends (p : DecParams K)
    (visit1 : List (Idx × FPt K) → List (Idx × FPt K))
    (visitM : List (Idx × List Nat) → List (Idx × List Nat)) (draws : Nat → Nat) (grid : GridM) (m : FMap K X)
    (c : Cloud K) (hc : m.get p.out = some (.pts c)) (hin : p.inputs = [p.out]) (hout : p.out ≠ "")
    (hmin : c.pts.length ≤ p.minPts) (hne : c.pts ≠ []) (fuel : Nat) :
    filterDecimate p visit1 visitM draws fuel grid m = none := by
  have hg : gatherInputs p.errMissing m p.inputs = .ok [p.out] := by
    rw [hin]; simp [gatherInputs, hc]
  have hl : 0 < c.pts.length := List.length_pos_iff.2 hne
  have hcr : getOrCreatePointLayer (some (classOf m p.out)) m p.out false = .ok (some c, m) := by
    unfold getOrCreatePointLayer
    rw [if_neg hout, hc]
  have hs : sizeNow m p.out = c.pts.length := by simp [sizeNow, hc]
  simp only [filterDecimate, hg, hcr, passSmall]
  rw [if_pos ⟨by omega, by omega⟩, passLive_none p.out hout p.flatten c fuel 0 m hc hl]

/-- With `error_on_missing_input_layer`, a missing input is an exception, and so is (in either case) an input which is not a point
cloud, or no input at all; the map is left as it was. -/
theorem decimate_missing_input (p : DecParams K) (visit1 : List (Idx × FPt K) → List (Idx × FPt K))
    (visitM : List (Idx × List Nat) → List (Idx × List Nat)) (draws : Nat → Nat) (grid : GridM) (m : FMap K X) (fuel : Nat)
    (h : (p.errMissing = true ∧ ∃ n ∈ p.inputs, m.get n = none) ∨ (∃ n ∈ p.inputs, ∃ x, m.get n = some (.other x)) ∨
      ∀ n ∈ p.inputs, m.get n = none) : filterDecimate p visit1 visitM draws fuel grid m = some .throw := by
  have key : ∀ ns : List String, ((p.errMissing = true ∧ ∃ n ∈ ns, m.get n = none) ∨
      (∃ n ∈ ns, ∃ x, m.get n = some (.other x))) → gatherInputs p.errMissing m ns = .throw := by
    intro ns
    induction ns with
    | nil => simp
    | cons n ns ih =>
      intro h
      rw [gatherInputs]
      cases hg : m.get n with
      | none =>
        simp only []
        split
        · rfl
        · rename_i he
          apply ih
          rcases h with ⟨h, -⟩ | ⟨k, hk, x, hx⟩
          · exact absurd h he
          · rcases List.mem_cons.1 hk with rfl | hk
            · rw [hg] at hx; cases hx
            · exact Or.inr ⟨k, hk, x, hx⟩
      | some L =>
        cases L with
        | other x => rfl
        | pts c =>
          simp only []
          rw [ih]
          · rfl
          · rcases h with ⟨h, k, hk, hn⟩ | ⟨k, hk, x, hx⟩
            · rcases List.mem_cons.1 hk with rfl | hk
              · rw [hg] at hn; cases hn
              · exact Or.inl ⟨h, k, hk, hn⟩
            · rcases List.mem_cons.1 hk with rfl | hk
              · rw [hg] at hx; cases hx
              · exact Or.inr ⟨k, hk, x, hx⟩
  have h' : gatherInputs p.errMissing m p.inputs = .throw ∨ gatherInputs p.errMissing m p.inputs = .ok [] := by
    rcases h with h | h | h
    · exact Or.inl (key _ (Or.inl h))
    · exact Or.inl (key _ (Or.inr h))
    · cases he : p.errMissing with
      | true =>
        rcases hl : p.inputs with _ | ⟨n, l⟩
        · exact Or.inr rfl
        · rw [← he, ← hl]
          exact Or.inl (key _ (Or.inl ⟨he, n, by rw [hl]; exact List.mem_cons_self .., h n (by rw [hl]; exact List.mem_cons_self ..)⟩))
      | false =>
        refine Or.inr ?_
        rw [gatherInputs_ok false m p.inputs fun n hn => Or.inr ⟨h n hn, rfl⟩, List.filter_eq_nil_iff.2]
        intro n hn
        rw [h n hn]; simp
  unfold filterDecimate
  rcases h' with h' | h' <;> rw [h']

/-- Without it, missing inputs are as if they had not been listed. -/
theorem decimate_ignores_missing (p : DecParams K) (hp : p.errMissing = false)
    (visit1 : List (Idx × FPt K) → List (Idx × FPt K))
    (visitM : List (Idx × List Nat) → List (Idx × List Nat)) (draws : Nat → Nat) (grid : GridM) (m : FMap K X) (fuel : Nat) :
    filterDecimate p visit1 visitM draws fuel grid m =
      filterDecimate { p with inputs := present p m } visit1 visitM draws fuel grid m := by
  have key : ∀ ns : List String, gatherInputs false m ns = gatherInputs false m (ns.filter fun n => (m.get n).isSome) := by
    intro ns
    induction ns with
    | nil => rfl
    | cons n ns ih =>
      cases hg : m.get n with
      | none => rw [List.filter_cons_of_neg (by rw [hg]; simp), gatherInputs, hg, ← ih]; rfl
      | some L => rw [List.filter_cons_of_pos (by rw [hg]; simp), gatherInputs, gatherInputs, hg, ← ih]
  have hs : ∀ (l : List String) (m' : FMap K X),
      passSmall { p with inputs := present p m } fuel l m' = passSmall p fuel l m' := by
    intro l
    induction l with
    | nil => intro m'; rfl
    | cons n l ih => intro m'; simp only [passSmall, ih]
  have hc : ∀ (l : List String) (m' : FMap K X),
      decimateCore { p with inputs := present p m } visit1 visitM draws grid l m' =
        decimateCore p visit1 visitM draws grid l m' := by
    intro l m'
    unfold decimateCore
    rfl
  unfold filterDecimate
  simp only [hs, hc]
  rw [hp, key p.inputs]
  rfl

end

section
variable [Field K] [LinearOrder K] [IsStrictOrderedRing K] [FloorRing K]

/-- FirstPoint: the filter ends, appends to the output layer the points of the small clouds as they are, and then one
representative per voxel occupied by a point of the others; nothing else changes.  (If small clouds are to be passed through,
the output is supposed not to be one of the inputs; see below.) -/
theorem decimate_first_partial (p : DecParams K) (hp : p.method = .firstPoint)
    (visit1 : List (Idx × FPt K) → List (Idx × FPt K)) (hv : ∀ g, (visit1 g).Perm g)
    (visitM : List (Idx × List Nat) → List (Idx × List Nat)) (draws : Nat → Nat) (grid : GridM) (m : FMap K X)
    (hi : GoodInputs p m) (ho : GoodOutput p m) (n : String) (l : List String) (hnl : present p m = n :: l)
    (ha : 0 < p.minPts → p.out ∉ p.inputs)
    (hr : ∀ q ∈ (bigOnes p m).flatMap (ptsOf m), InRange p.res q)
    (fuel : Nat) (hf : ∀ n ∈ present p m, sizeNow m n < fuel) :
    ∃ m' reps, filterDecimate p visit1 visitM draws fuel grid m = some (.ok (m', grid)) ∧
      Output p.res p.method p.flatten ((bigOnes p m).flatMap (ptsOf m)) reps ∧
      AppendedTo p.out (classOf m n) (passed p.flatten ((smallOnes p m).flatMap (ptsOf m)) ++ reps) m m' := by
  obtain ⟨m', reps, h1, h2, h3⟩ := decimate_first_by (voxelKey p.res) p hp visit1 hv visitM draws grid m hi ho n l hnl ha
    (fun q hq => voxelOf_ok _ _ (hr q hq)) fuel hf
  refine ⟨m', reps, h1, ?_, h3⟩
  rw [hp]
  cases hf : p.flatten <;> rw [hf] at h2 <;> exact h2

/-- ClosestToAverage, VoxelAverage, RandomPoint, with the default container: the same with exactly one cloud to decimate. -/
theorem decimate_multi_partial (p : DecParams K) (hp : p.method ≠ .firstPoint) (htsl : p.useTsl = true)
    (visit1 : List (Idx × FPt K) → List (Idx × FPt K))
    (visitM : List (Idx × List Nat) → List (Idx × List Nat)) (hv : ∀ g, (visitM g).Perm g)
    (draws : Nat → Nat) (grid : GridM) (m : FMap K X)
    (hi : GoodInputs p m) (ho : GoodOutput p m) (n : String) (l : List String) (hnl : present p m = n :: l)
    (ha : 0 < p.minPts → p.out ∉ p.inputs) (b : String) (hb : bigOnes p m = [b])
    (hr : ∀ q ∈ ptsOf m b, InRange p.res q)
    (fuel : Nat) (hf : ∀ n ∈ present p m, sizeNow m n < fuel) :
    ∃ m' reps grid', filterDecimate p visit1 visitM draws fuel grid m = some (.ok (m', grid')) ∧
      Output p.res p.method p.flatten (ptsOf m b) reps ∧
      AppendedTo p.out (classOf m n) (passed p.flatten ((smallOnes p m).flatMap (ptsOf m)) ++ reps) m m' := by
  obtain ⟨m', reps, grid', h1, h2, h3⟩ := decimate_multi_by (voxelKey p.res) (IsRep p.method) p
    (fun draw ps h => representative_ok p.method draw ps h) hp htsl visit1 visitM hv draws grid m hi ho n l hnl ha b hb
    (fun q hq => voxelOf_ok _ _ (hr q hq)) fuel hf
  refine ⟨m', reps, grid', h1, ?_, h3⟩
  cases hf : p.flatten <;> rw [hf] at h2 <;> exact h2

/-- A point whose voxel index does not fit (or a zero side) makes the behaviour undefined. -/
theorem decimate_ub (p : DecParams K) (hp : p.method = .firstPoint)
    (visit1 : List (Idx × FPt K) → List (Idx × FPt K))
    (visitM : List (Idx × List Nat) → List (Idx × List Nat)) (draws : Nat → Nat) (grid : GridM) (m : FMap K X)
    (hi : GoodInputs p m) (ho : GoodOutput p m) (n : String) (hin : p.inputs = [n])
    (hmin : p.minPts = 0) (q : FPt K) (hq : q ∈ ptsOf m n) (hr : ¬ InRange p.res q) (fuel : Nat)
    (hf : sizeNow m n < fuel) :
    filterDecimate p visit1 visitM draws fuel grid m = some .ub :=
  decimate_ub_by p hp visit1 visitM draws grid m hi ho n hin hmin q hq (voxelOf_ub _ _ hr)
    (fun q _ => voxelOf_ne_throw _ q) fuel hf
end

/-! ### the hypotheses are met -/

/-- four points, two of them in one voxel of side 1, and two in one column -/
def exVox : FMap ℚ Unit :=
  [("raw", .pts { pts := [⟨1/2, 3/2, 0, 1, 0, 0⟩, ⟨5/2, 1/2, 7/2, 2, 0, 0⟩, ⟨3/4, 5/4, 1/2, 3, 0, 0⟩, ⟨1/2, 3/2, 9, 4, 0, 0⟩] })]
def exDec (meth : Method) (f : Option ℚ) (tsl : Bool) : DecParams ℚ :=
  { inputs := ["raw"], out := "dec", res := 1, method := meth, flatten := f, useTsl := tsl }

example : (filterDecimate (exDec .firstPoint none true) id id (fun _ => 0) 9 {} exVox).map (·.Sat fun r =>
    AMap.get r.1 "dec" = some (.pts { pts := [⟨1/2, 3/2, 0, 1, 0, 0⟩, ⟨5/2, 1/2, 7/2, 2, 0, 0⟩, ⟨1/2, 3/2, 9, 4, 0, 0⟩] })) =
      some True := by
  simp only [Option.map_eq_some_iff, eq_iff_iff, iff_true]
  exact ⟨_, rfl, by decide +kernel⟩
example : (filterDecimate (exDec .voxelAverage none true) id id (fun _ => 0) 9 {} exVox).map (·.Sat fun r =>
    AMap.get r.1 "dec" = some (.pts { pts := [⟨5/8, 11/8, 1/4, 0, 0, 0⟩, ⟨5/2, 1/2, 7/2, 0, 0, 0⟩, ⟨1/2, 3/2, 9, 0, 0, 0⟩] })) =
      some True := by
  simp only [Option.map_eq_some_iff, eq_iff_iff, iff_true]
  exact ⟨_, rfl, by decide +kernel⟩
example : (filterDecimate (exDec .randomPoint (some 5) true) List.reverse List.reverse (fun _ => 3) 9 {} exVox).map (·.Sat fun r =>
    AMap.get r.1 "dec" = some (.pts { pts := [⟨1/2, 3/2, 5, 0, 0, 0⟩, ⟨5/2, 1/2, 5, 0, 0, 0⟩] })) = some True := by
  simp only [Option.map_eq_some_iff, eq_iff_iff, iff_true]
  exact ⟨_, rfl, by decide +kernel⟩
/-- the same with the other container: nothing -/
example : (filterDecimate (exDec .voxelAverage none false) id id (fun _ => 0) 9 {} exVox).map (·.Sat fun r =>
    AMap.get r.1 "dec" = some (.pts { pts := [] })) = some True := by
  simp only [Option.map_eq_some_iff, eq_iff_iff, iff_true]
  exact ⟨_, rfl, by decide +kernel⟩

/-- one input missing: an exception or not, as asked -/
example : filterDecimate { exDec .firstPoint none true with inputs := ["raw", "no"], errMissing := true } id id (fun _ => 0) 9 {}
    exVox = some .throw :=
  decimate_missing_input _ _ _ _ _ _ _ (Or.inl ⟨rfl, "no", by decide, by decide +kernel⟩)
example : (filterDecimate { exDec .firstPoint none true with inputs := ["raw", "no"], errMissing := false } id id (fun _ => 0) 9 {}
    exVox).map (·.Sat fun r => AMap.get r.1 "dec" =
      some (.pts { pts := [⟨1/2, 3/2, 0, 1, 0, 0⟩, ⟨5/2, 1/2, 7/2, 2, 0, 0⟩, ⟨1/2, 3/2, 9, 4, 0, 0⟩] })) = some True := by
  simp only [Option.map_eq_some_iff, eq_iff_iff, iff_true]
  exact ⟨_, rfl, by decide +kernel⟩

theorem exVox_inRange : ∀ q ∈ ptsOf exVox "raw", InRange (1 : ℚ) q := by
  have h : ∀ q ∈ ptsOf exVox "raw", (1 : ℚ) ≠ 0 ∧
      ((-2 ^ 31 ≤ truncZ (q.x / 1) ∧ truncZ (q.x / 1) < 2 ^ 31) ∧ (-2 ^ 31 ≤ truncZ (q.y / 1) ∧ truncZ (q.y / 1) < 2 ^ 31) ∧
        (-2 ^ 31 ≤ truncZ (q.z / 1) ∧ truncZ (q.z / 1) < 2 ^ 31)) := by decide +kernel
  exact h

example (meth : Method) (f : Option ℚ) : GoodInputs (exDec meth f true) exVox ∧ GoodOutput (exDec meth f true) exVox ∧
    present (exDec meth f true) exVox = ["raw"] ∧ bigOnes (exDec meth f true) exVox = ["raw"] := by
  refine ⟨?_, ?_, ?_, ?_⟩
  · intro n hn
    simp only [exDec, List.mem_singleton] at hn
    subst hn
    exact Or.inl ⟨_, rfl⟩
  · exact ⟨by simp [exDec], fun x h => by simp [exVox, exDec, AMap.get] at h⟩
  · simp [present, exDec, exVox, AMap.get]
  · simp [bigOnes, present, exDec, exVox, AMap.get, isSmall]

end Props
end Verif
