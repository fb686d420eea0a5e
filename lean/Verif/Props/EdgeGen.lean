import Mathlib.Algebra.Order.Ring.Rat
import Mathlib.Tactic.NormNum
import Mathlib.Tactic.IntervalCases
import Verif.Lemmas.EdgeGen
import Verif.Lemmas.AMap
import Verif.Spec.EdgeGen
import Verif.Props.MoreFilters
/-
C72: GeneratorEdgesFromRangeImage.  C73: GeneratorEdgesFromCurvature.
-/
set_option linter.unusedSectionVars false
namespace Verif
namespace Props
open Flt Vox Edge
variable {K X : Type} [Field K]

/-! ### C72, rotating scans -/

theorem rotEdge_ok (thr : ℤ) (ri : Nat → Nat) (hr : ∀ i, ri i < 2 ^ 16) (n i : Nat) (h1 : 9 ≤ i) (h2 : i + 8 < n)
    (hf : ¬ Falls ri i) : rotEdge thr ri (rowDiff ri n) i = .ok (decide (RotEdge thr ri i)) := by
  have hlen : (((rowDiff ri n).drop (i - 8)).take 17).length = 17 := by
    simp [rowDiff]; omega
  have hsum := window_sum ri n i h1 h2
  have hs0 : 0 ≤ (((rowDiff ri n).drop (i - 8)).take 17).sum := by
    rw [hsum]
    have : (ri (i - 9) : ℤ) ≤ ri (i + 8) := by exact_mod_cast not_lt.1 hf
    nlinarith
  have hst := calcStats_ok _ (2 ^ 24) (by norm_num) (window_le ri hr n i h1 h2) (by omega) (by omega) hs0
  rw [hsum, hlen, window_eq ri n i h1 h2] at hst
  have ht : ((ri (i + 8) : ℤ) - ri (i - 9)) * 256 / (((17 : Nat) : ℤ) - 1) = trend ri i := by
    unfold trend; push_cast; omega
  rw [ht, List.map_map] at hst
  have hsp : ((List.range' (i - 9 + 1) 17).map
      ((fun d => (d - trend ri i) * (d - trend ri i)) ∘ fun j => ((ri j : ℤ) - ri (j - 1)) * 256)).sum / (((17 : Nat) : ℤ) - 1) =
      spread ri i := by
    unfold spread; rfl
  rw [hsp] at hst
  unfold rotEdge
  rw [if_pos (by simp [rowDiff]; exact h2), window_eq ri n i h1 h2, hst, okb]
  by_cases hv : spread ri i = 0
  · rw [if_pos hv]; simp [RotEdge, hv]
  · simp only []
    rw [if_neg hv]
    have hi : (ri i : ℤ) < 2 ^ 16 := by exact_mod_cast hr i
    have ha : (ri (i + 8) : ℤ) < 2 ^ 16 := by exact_mod_cast hr _
    have hb : (ri (i - 9) : ℤ) < 2 ^ 16 := by exact_mod_cast hr _
    rw [sqDiff_ok _ _ (2 ^ 26) (by unfold trend; rw [abs_le]; constructor <;> omega) (by norm_num), okb,
      Int.tdiv_eq_ediv_of_nonneg (mul_self_nonneg _)]
    simp [RotEdge, hv]

theorem rotEdge_ub (thr : ℤ) (ri : Nat → Nat) (hr : ∀ i, ri i < 2 ^ 16) (n i : Nat) (h1 : 9 ≤ i) (h2 : i + 8 < n)
    (hf : Falls ri i) : rotEdge thr ri (rowDiff ri n) i = .ub := by
  have hlen : (((rowDiff ri n).drop (i - 8)).take 17).length = 17 := by
    simp [rowDiff]; omega
  have hsum := window_sum ri n i h1 h2
  have hs0 : (((rowDiff ri n).drop (i - 8)).take 17).sum < 0 := by
    rw [hsum]
    have : (ri (i + 8) : ℤ) < ri (i - 9) := by exact_mod_cast hf
    nlinarith
  unfold rotEdge
  rw [if_pos (by simp [rowDiff]; exact h2), calcStats_ub _ (fun d hd =>
    le_trans (window_le ri hr n i h1 h2 d hd) (by norm_num)) (by omega) (by omega) hs0]
  rfl

theorem rotEdge_no_throw (thr : ℤ) (ri : Nat → Nat) (hr : ∀ i, ri i < 2 ^ 16) (n i : Nat) (h1 : 9 ≤ i) :
    rotEdge thr ri (rowDiff ri n) i ≠ .throw := by
  by_cases h2 : i + 8 < n
  · by_cases hf : Falls ri i
    · rw [rotEdge_ub thr ri hr n i h1 h2 hf]; simp
    · rw [rotEdge_ok thr ri hr n i h1 h2 hf]; simp
  · unfold rotEdge
    rw [if_neg (by simp [rowDiff]; omega)]; simp

theorem mem_rotCols (n i : Nat) (h8 : 8 ≤ n) (hn : n < 2 ^ 32) : i ∈ rotCols n ↔ 9 ≤ i ∧ i + 8 < n := by
  unfold rotCols
  have : (n + 2 ^ 32 - 8) % 2 ^ 32 = n - 8 := by omega
  rw [this, List.mem_range'_1]; omega

/-- **C72 (rotating scans, what is selected).** For consistent scans of at least 8 columns, with 16-bit ranges that decrease
over no window, the target layer becomes a cloud of exactly the edge points, row by row, moved by the pose of the robot; all
other layers are as before.  The former contents of the target layer are lost. -/
theorem range_edges_rot_result_partial (thr : ℤ) (target : String) (robot : Option (Pose3 K)) (s : RotScan K) (m : FMap K X)
    (hc : s.consistent) (h8 : 8 ≤ s.cols) (hn : s.cols < 2 ^ 32) (hr : ∀ r i, s.range r i < 2 ^ 16)
    (hf : ∀ r i, r < s.rows → 9 ≤ i → i + 8 < s.cols → ¬ Falls (s.range r) i) :
    ∃ m', rangeEdgesRot thr target robot s m = .ok m' ∧
      m'.get target = some (.pts (simpleOf (((List.range s.rows).flatMap fun r =>
        ((List.range' 9 (s.cols - 17)).filter fun i => decide (RotEdge thr (s.range r) i)).map fun i =>
          bare (posed robot (s.pts r i)))))) ∧
      ∀ k, k ≠ target → m'.get k = m.get k := by
  have hrow : ∀ acc, ∀ r ∈ List.range s.rows, rotRow thr s acc r = .ok (acc ++
      ((rotCols s.cols).filter fun i => decide (RotEdge thr (s.range r) i)).map fun i => (r, i)) := by
    intro acc r hrm
    unfold rotRow
    refine fold_filter _ (fun i => decide (RotEdge thr (s.range r) i)) (fun i => (r, i)) _ (fun i hi => ?_) acc
    have := (mem_rotCols s.cols i h8 hn).1 hi
    exact rotEdge_ok thr _ (hr r) _ i this.1 this.2 (hf r i (List.mem_range.1 hrm) this.1 this.2)
  have hcols : rotCols s.cols = List.range' 9 (s.cols - 17) := by
    unfold rotCols
    rw [show (s.cols + 2 ^ 32 - 8) % 2 ^ 32 - 9 = s.cols - 17 by omega]
  have key : rangeEdgesRot thr target robot s m = .ok (m.set target (.pts (simpleOf (((List.range s.rows).flatMap fun r =>
      ((rotCols s.cols).filter fun i => decide (RotEdge thr (s.range r) i)).map fun i => (r, i)).map
        fun e => bare (posed robot (s.pts e.1 e.2)))))) := by
    unfold rangeEdgesRot
    rw [Outcome.assert_true hc, okb, fold_append _ _ _ hrow, okb, List.nil_append]
  refine ⟨_, key, ?_, fun k hk => by simp [hk]⟩
  rw [hcols]
  simp [List.map_flatMap, List.map_map, Function.comp_def]

/-- **C72 (finding).** If the ranges decrease over one window of one row — nearer on one side than on the other — the behaviour
is undefined: the sum of the differences is negative, is divided as an unsigned number, and the squares overflow. -/
theorem range_edges_rot_falling_ub (thr : ℤ) (target : String) (robot : Option (Pose3 K)) (s : RotScan K) (m : FMap K X)
    (hc : s.consistent) (h8 : 8 ≤ s.cols) (hn : s.cols < 2 ^ 32) (hr : ∀ r i, s.range r i < 2 ^ 16) (r i : Nat)
    (hrr : r < s.rows) (h9 : 9 ≤ i) (hi : i + 8 < s.cols) (hf : Falls (s.range r) i) :
    rangeEdgesRot thr target robot s m = .ub := by
  unfold rangeEdgesRot
  rw [Outcome.assert_true hc, okb, fold_ub _ _ _ r (List.mem_range.2 hrr)]
  · rfl
  · intro acc
    unfold rotRow
    refine fold_ub _ _ (fun acc j hj => ?_) i ((mem_rotCols _ _ h8 hn).2 ⟨h9, hi⟩) (fun acc => ?_) acc
    · have := rotEdge_no_throw thr _ (hr r) s.cols j ((mem_rotCols _ _ h8 hn).1 hj).1
      cases h : rotEdge thr (s.range r) (rowDiff (s.range r) s.cols) j <;> simp_all
    · rw [rotEdge_ub thr _ (hr r) _ i h9 hi hf]; rfl
  · intro acc q _
    unfold rotRow
    refine fold_no_throw _ _ (fun acc j hj => ?_) acc
    have := rotEdge_no_throw thr _ (hr q) s.cols j ((mem_rotCols _ _ h8 hn).1 hj).1
    cases h : rotEdge thr (s.range q) (rowDiff (s.range q) s.cols) j <;> simp_all

/-- **C72 (finding).** Scans of fewer than 8 columns: the bound of the loop wraps around, and the differences are read out of
bounds. -/
theorem range_edges_rot_narrow_ub (thr : ℤ) (target : String) (robot : Option (Pose3 K)) (s : RotScan K) (m : FMap K X)
    (hc : s.consistent) (h8 : s.cols < 8) : rangeEdgesRot thr target robot s m = .ub := by
  have hcons := hc
  obtain ⟨h1, h2, h3, h4, -⟩ := hc
  have hrow : rotRow thr s [] 0 = .ub := by
    unfold rotRow
    have hcols : ∃ t, rotCols s.cols = 9 :: t := by
      refine ⟨List.range' 10 ((s.cols + 2 ^ 32 - 8) % 2 ^ 32 - 10), ?_⟩
      unfold rotCols
      rw [show (s.cols + 2 ^ 32 - 8) % 2 ^ 32 - 9 = (s.cols + 2 ^ 32 - 8) % 2 ^ 32 - 10 + 1 by omega, List.range'_succ]
    obtain ⟨t, ht⟩ := hcols
    rw [ht]
    have : rotEdge thr (s.range 0) (rowDiff (s.range 0) s.cols) 9 = .ub := by
      unfold rotEdge
      rw [if_neg (by simp [rowDiff]; omega)]
    exact fold_head_ub _ _ _ _ (by rw [this, ubb])
  have hrange : ∃ t, List.range s.rows = 0 :: t := by
    obtain ⟨k, hk⟩ : ∃ k, s.rows = k + 1 := ⟨s.rows - 1, by omega⟩
    rw [hk, List.range_succ_eq_map]; exact ⟨_, rfl⟩
  obtain ⟨t, ht⟩ := hrange
  unfold rangeEdgesRot
  rw [Outcome.assert_true hcons, okb, ht, fold_head_ub _ _ _ _ hrow, ubb]

/-- Scans whose matrices are missing or of other sizes are refused. -/
theorem range_edges_rot_refuses (thr : ℤ) (target : String) (robot : Option (Pose3 K)) (s : RotScan K) (m : FMap K X)
    (hc : ¬ s.consistent) : rangeEdgesRot thr target robot s m = .throw := by
  unfold rangeEdgesRot
  rw [Outcome.assert_false hc]; rfl

/-! ### C72, depth images -/

theorem rowStats_ok (R : Nat → Nat) (hr : ∀ i, R i < 2 ^ 16) (n : Nat) (h2 : 2 ≤ n) (hn : n ≤ 900)
    (hf : ¬ EndsFalling R n) :
    calcStats ((List.range n).map (decDiff2 R)) = .ok (decDiff R (n - 1) / (n - 1), rowSpread R n) := by
  have hlen : ((List.range n).map (decDiff2 R)).length = n := by simp
  have hsum : ((List.range n).map (decDiff2 R)).sum = decDiff R (n - 1) := by
    have := dec_sum R (n - 1)
    rwa [show n - 1 + 1 = n by omega] at this
  have hle : ∀ d ∈ (List.range n).map (decDiff2 R), |d| ≤ 2 ^ 25 := by
    intro d hd
    obtain ⟨j, -, rfl⟩ := List.mem_map.1 hd
    exact decDiff2_le R hr j
  have h0 : 0 ≤ decDiff R (n - 1) := by
    unfold decDiff
    split
    · exact le_rfl
    · rename_i h
      push Not at h
      rw [show n - 1 - 1 = n - 2 by omega] at h ⊢
      have : ¬ R (n - 1) < R (n - 2) := fun hlt => hf ⟨h.2.1, h.2.2, hlt⟩
      have : (R (n - 2) : ℤ) ≤ R (n - 1) := by exact_mod_cast not_lt.1 this
      nlinarith
  have := calcStats_ok _ (2 ^ 25) le_rfl hle (by omega) (by omega) (by rw [hsum]; exact h0)
  rw [this, hsum, hlen]
  rfl

theorem rowStats_ub (R : Nat → Nat) (hr : ∀ i, R i < 2 ^ 16) (n : Nat) (h3 : 3 ≤ n) (hn : n ≤ 2 ^ 20)
    (hf : EndsFalling R n) : calcStats ((List.range n).map (decDiff2 R)) = .ub := by
  have hsum : ((List.range n).map (decDiff2 R)).sum = decDiff R (n - 1) := by
    have := dec_sum R (n - 1)
    rwa [show n - 1 + 1 = n by omega] at this
  apply calcStats_ub
  · intro d hd
    obtain ⟨j, -, rfl⟩ := List.mem_map.1 hd
    exact decDiff2_le R hr j
  · simpa using h3
  · simpa using hn
  · rw [hsum]
    unfold decDiff
    obtain ⟨ha, hb, hlt⟩ := hf
    rw [show n - 1 - 1 = n - 2 by omega, if_neg (by push Not; exact ⟨by omega, ha, hb⟩)]
    have : (R (n - 1) : ℤ) < R (n - 2) := by exact_mod_cast hlt
    nlinarith

theorem score_ok (R : Nat → Nat) (hr : ∀ i, R i < 2 ^ 16) (n cd : Nat) :
    (if rowSpread R n ≠ 0 then (i64 (decDiff2 R cd * decDiff2 R cd)).bind fun q => .ok (q.tdiv (rowSpread R n)) else .ok 0) =
      .ok (Edge.score R n cd) := by
  unfold Edge.score
  by_cases h : rowSpread R n = 0
  · rw [if_neg (by simpa using h), if_pos h]
  · rw [if_pos h, if_neg h]
    have h1 := abs_le.1 (decDiff2_le R hr cd)
    rw [i64_ok (by nlinarith) (by nlinarith), okb, Int.tdiv_eq_ediv_of_nonneg (mul_self_nonneg _)]

/-- both kinds of findings have a cloud to go to -/
def HaveOutputs (e p : Bool) (fs : List (Bool × Nat)) : Prop :=
  (e = true ∨ ∀ f ∈ fs, f.1 ≠ false) ∧ (p = true ∨ ∀ f ∈ fs, f.1 ≠ true)

theorem scanCols_spec (thr : ℤ) (e p : Bool) (rd n : Nat) (R : Nat → Nat) (hr : ∀ i, R i < 2 ^ 16) (len a k : Nat)
    (hk : k ≤ a) (ins : List (Bool × Nat × Nat)) :
    (HaveOutputs e p (found thr R n k (List.range' a len)) → ∃ st,
      foldOutcome (scanCol thr e p (n / 16) rd R (rowSpread R n)) ⟨if k = 0 then none else some (a - k), ins⟩
        (List.range' a len) = .ok st ∧
      st.ins = ins ++ (found thr R n k (List.range' a len)).map fun f => (f.1, rd, f.2)) ∧
    (¬ HaveOutputs e p (found thr R n k (List.range' a len)) →
      foldOutcome (scanCol thr e p (n / 16) rd R (rowSpread R n)) ⟨if k = 0 then none else some (a - k), ins⟩
        (List.range' a len) = .ub) := by
  induction len generalizing a k ins with
  | zero =>
    simp only [List.range'_zero, found, foldOutcome, List.map_nil, List.append_nil]
    refine ⟨fun _ => ⟨_, rfl, rfl⟩, fun h => absurd ⟨Or.inr (by simp), Or.inr (by simp)⟩ h⟩
  | succ len ih =>
    rw [List.range'_succ]
    simp only [found, foldOutcome]
    have i0 := fun ins => ih (a + 1) 0 (by omega) ins
    rw [if_pos rfl] at i0
    by_cases h0 : R a = 0
    · rw [if_pos h0]
      have : scanCol thr e p (n / 16) rd R (rowSpread R n) ⟨if k = 0 then none else some (a - k), ins⟩ a = .ok ⟨none, ins⟩ := by
        unfold scanCol; rw [if_pos h0]
      rw [this, okb]
      exact i0 ins
    · rw [if_neg h0]
      have hs : ∀ st : ColState, scanCol thr e p (n / 16) rd R (rowSpread R n) st a =
          (if thr < Edge.score R n a then if e then .ok ⟨none, st.ins ++ [(false, rd, a)]⟩ else .ub
           else if n / 16 < a - st.start.getD a then
             if p then .ok ⟨none, st.ins ++ [(true, rd, a)]⟩ else .ub
           else .ok { st with start := some (st.start.getD a) }) := by
        intro st
        unfold scanCol
        rw [if_neg h0, score_ok R hr n a, okb]
      rw [hs]
      by_cases ht : thr < Edge.score R n a
      · rw [if_pos ht, if_pos ht]
        cases he : e with
        | true =>
          rw [if_pos rfl, okb]
          subst he
          have hh : HaveOutputs true p ((false, a) :: found thr R n 0 (List.range' (a + 1) len)) ↔
              HaveOutputs true p (found thr R n 0 (List.range' (a + 1) len)) := by
            simp [HaveOutputs]
          rw [hh]
          refine ⟨fun h => ?_, fun h => (i0 _).2 h⟩
          obtain ⟨st, h1, h2⟩ := (i0 (ins ++ [(false, rd, a)])).1 h
          exact ⟨st, h1, by rw [h2]; simp⟩
        | false =>
          rw [if_neg (by simp)]
          refine ⟨fun h => ?_, fun _ => rfl⟩
          rcases h.1 with h | h
          · cases h
          · exact absurd rfl (h _ (List.mem_cons_self ..))
      · rw [if_neg ht, if_neg ht]
        have hstart : a - (if k = 0 then none else some (a - k)).getD a = k := by
          split
          · simp; omega
          · simp; omega
        simp only [hstart]
        by_cases hk' : n / 16 < k
        · rw [if_pos hk', if_pos hk']
          cases hp : p with
          | true =>
            rw [if_pos rfl, okb]
            subst hp
            have hh : HaveOutputs e true ((true, a) :: found thr R n 0 (List.range' (a + 1) len)) ↔
                HaveOutputs e true (found thr R n 0 (List.range' (a + 1) len)) := by
              simp [HaveOutputs]
            rw [hh]
            refine ⟨fun h => ?_, fun h => (i0 _).2 h⟩
            obtain ⟨st, h1, h2⟩ := (i0 (ins ++ [(true, rd, a)])).1 h
            exact ⟨st, h1, by rw [h2]; simp⟩
          | false =>
            rw [if_neg (by simp)]
            refine ⟨fun h => ?_, fun _ => rfl⟩
            rcases h.2 with h | h
            · cases h
            · exact absurd rfl (h _ (List.mem_cons_self ..))
        · rw [if_neg hk', if_neg hk', okb]
          have i1 := ih (a + 1) (k + 1) (by omega) ins
          rw [if_neg (by omega)] at i1
          have : (if k = 0 then none else some (a - k)).getD a = a + 1 - (k + 1) := by
            split
            · simp; omega
            · simp
          rw [this]
          exact i1

theorem scanRow_spec (thr : ℤ) (e p : Bool) (n : Nat) (h2 : 2 ≤ n) (hn : n ≤ 900) (R : Nat → Nat → Nat)
    (hr : ∀ r i, R r i < 2 ^ 16) (rd : Nat) (hf : ¬ EndsFalling (R rd) n) (ins : List (Bool × Nat × Nat)) :
    (HaveOutputs e p (found thr (R rd) n 0 (List.range' 1 (n - 1))) →
      scanRow thr e p n R ins rd =
        .ok (ins ++ (found thr (R rd) n 0 (List.range' 1 (n - 1))).map fun f => (f.1, rd, f.2))) ∧
    (¬ HaveOutputs e p (found thr (R rd) n 0 (List.range' 1 (n - 1))) → scanRow thr e p n R ins rd = .ub) := by
  have hs := scanCols_spec thr e p rd n (R rd) (hr rd) (n - 1) 1 0 (by omega) ins
  rw [if_pos rfl] at hs
  unfold scanRow
  rw [rowStats_ok (R rd) (hr rd) n h2 hn hf, okb]
  refine ⟨fun h => ?_, fun h => ?_⟩
  · obtain ⟨st, h1, h3⟩ := hs.1 h
    simp only []
    rw [h1, okb, h3]
  · simp only []
    rw [hs.2 h, ubb]

/-- A depth image fit for the statistics: a row of blocks is at least 2 and at most 900 wide, and does not end falling. -/
structure GoodImage (o : Rgbd K) : Prop where
  has : o.hasRange = true
  lut : o.lutSizes = (o.rows * o.cols, o.rows * o.cols, o.rows * o.cols)
  ranges : ∀ r c, o.range r c < 2 ^ 16
  wide : 2 ≤ o.cols / 8
  narrow : o.cols / 8 ≤ 900
  level : ∀ rd, rd < o.rows / 8 → ¬ EndsFalling (blockMean o.range rd) (o.cols / 8)

/-- the edges and the plane points found in a depth image -/
def imageFound (thr : ℤ) (o : Rgbd K) : List (Bool × Nat × Nat) := foundAll thr (blockMean o.range) (o.rows / 8) (o.cols / 8)

theorem scanRows_spec (thr : ℤ) (e p : Bool) (o : Rgbd K) (h : GoodImage o) :
    (((e = true ∨ ∀ f ∈ imageFound thr o, f.1 ≠ false) ∧ (p = true ∨ ∀ f ∈ imageFound thr o, f.1 ≠ true)) →
      foldOutcome (scanRow thr e p (o.cols / 8) (blockMean o.range)) [] (List.range (o.rows / 8)) =
        .ok (imageFound thr o)) ∧
    (¬ ((e = true ∨ ∀ f ∈ imageFound thr o, f.1 ≠ false) ∧ (p = true ∨ ∀ f ∈ imageFound thr o, f.1 ≠ true)) →
      foldOutcome (scanRow thr e p (o.cols / 8) (blockMean o.range)) [] (List.range (o.rows / 8)) = .ub) := by
  have hrow := fun rd (hrd : rd < o.rows / 8) ins => scanRow_spec thr e p (o.cols / 8) h.wide h.narrow (blockMean o.range)
    (blockMean_lt o.range h.ranges) rd (h.level rd hrd) ins
  have hmem : ∀ (b : Bool) rd c, rd < o.rows / 8 →
      (b, c) ∈ found thr (blockMean o.range rd) (o.cols / 8) 0 (List.range' 1 (o.cols / 8 - 1)) →
      (b, rd, c) ∈ imageFound thr o := fun b rd c hrd hc =>
    List.mem_flatMap.2 ⟨rd, List.mem_range.2 hrd, List.mem_map.2 ⟨(b, c), hc, rfl⟩⟩
  constructor
  · rintro ⟨he, hp⟩
    have := fold_append (scanRow thr e p (o.cols / 8) (blockMean o.range)) (fun rd =>
      (found thr (blockMean o.range rd) (o.cols / 8) 0 (List.range' 1 (o.cols / 8 - 1))).map fun f => (f.1, rd, f.2))
      (List.range (o.rows / 8)) (fun ins rd hrd => (hrow rd (List.mem_range.1 hrd) ins).1 ⟨?_, ?_⟩) []
    · rw [this]; rfl
    · rcases he with he | he
      · exact Or.inl he
      · exact Or.inr fun f hf => he _ (hmem f.1 rd f.2 (List.mem_range.1 hrd) hf)
    · rcases hp with hp | hp
      · exact Or.inl hp
      · exact Or.inr fun f hf => hp _ (hmem f.1 rd f.2 (List.mem_range.1 hrd) hf)
  · intro hno
    have : ∃ rd, rd < o.rows / 8 ∧
        ¬ HaveOutputs e p (found thr (blockMean o.range rd) (o.cols / 8) 0 (List.range' 1 (o.cols / 8 - 1))) := by
      by_contra hall
      push Not at hall
      apply hno
      constructor
      · by_cases he : e = true
        · exact Or.inl he
        · refine Or.inr fun f hf => ?_
          obtain ⟨rd, hrd, hf⟩ := List.mem_flatMap.1 hf
          obtain ⟨q, hq, rfl⟩ := List.mem_map.1 hf
          rcases (hall rd (List.mem_range.1 hrd)).1 with h' | h'
          · exact absurd h' he
          · exact h' q hq
      · by_cases hp : p = true
        · exact Or.inl hp
        · refine Or.inr fun f hf => ?_
          obtain ⟨rd, hrd, hf⟩ := List.mem_flatMap.1 hf
          obtain ⟨q, hq, rfl⟩ := List.mem_map.1 hf
          rcases (hall rd (List.mem_range.1 hrd)).2 with h' | h'
          · exact absurd h' hp
          · exact h' q hq
    obtain ⟨rd, hrd, hbad⟩ := this
    refine fold_ub _ _ (fun ins q hq => ?_) rd (List.mem_range.2 hrd) (fun ins => (hrow rd hrd ins).2 hbad) []
    by_cases hg : HaveOutputs e p (found thr (blockMean o.range q) (o.cols / 8) 0 (List.range' 1 (o.cols / 8 - 1)))
    · rw [(hrow q (List.mem_range.1 hq) ins).1 hg]; simp
    · rw [(hrow q (List.mem_range.1 hq) ins).2 hg]; simp

/-- The clouds the two layers hold at the start (created if new). -/
theorem open_simple (m : FMap K X) (name : String) (hne : name ≠ "") (ho : ∀ x, m.get name ≠ some (.other x)) :
    ∃ c0 m1, getOrCreatePointLayer (some (simpleCloud : Cloud K)) m name true = .ok (some c0, m1) ∧
      (m.get name = some (.pts c0) ∨ (m.get name = none ∧ c0 = simpleCloud)) ∧ AMap.get m1 name = some (.pts c0) ∧
      ∀ k, k ≠ name → AMap.get m1 k = m.get k := by
  unfold getOrCreatePointLayer
  rw [if_neg hne]
  cases hg : m.get name with
  | none => exact ⟨simpleCloud, _, rfl, Or.inr ⟨rfl, rfl⟩, by simp, fun k hk => by simp [hk]⟩
  | some L =>
    cases L with
    | other x => exact absurd hg (ho x)
    | pts c => exact ⟨c, m, rfl, Or.inl rfl, hg, fun _ _ => rfl⟩

/-- the findings `fs` of a depth image appended to a cloud -/
def withFound (o : Rgbd K) (robot : Option (Pose3 K)) (c : Cloud K) (fs : List (Bool × Nat × Nat)) : Cloud K :=
  { c with pts := c.pts ++ fs.map fun f => conform c (bare (unproject o robot f.2.1 f.2.2)) }

/-- the cloud in a layer, or a new one -/
def StartsAs (m : FMap K X) (name : String) (c : Cloud K) : Prop :=
  m.get name = some (.pts c) ∨ (m.get name = none ∧ c = simpleCloud)

theorem edges3D_core (null : X) (thr : ℤ) (target planes : String) (robot : Option (Pose3 K)) (o : Rgbd K) (m : FMap K X)
    (h : GoodImage o) (r1 r2 : Option (Cloud K) × FMap K X)
    (e1 : getOrCreatePointLayer (some (simpleCloud : Cloud K)) m target true = .ok r1)
    (e2 : getOrCreatePointLayer (some (simpleCloud : Cloud K)) r1.2 planes true = .ok r2)
    (hne : target ≠ "" ∨ planes ≠ "") :
    (((target ≠ "" ∨ ∀ f ∈ imageFound thr o, f.1 ≠ false) ∧ (planes ≠ "" ∨ ∀ f ∈ imageFound thr o, f.1 ≠ true)) →
      rangeEdges3D null thr target planes robot o m =
        (let full := withFound o robot (r1.1.getD simpleCloud)
          ((imageFound thr o).filter fun e => !e.1 || decide (planes = target))
         let m3 := if target ≠ "" then r2.2.set target (.pts full) else r2.2
         .ok (if planes ≠ "" then m3.set planes (if target ≠ "" then .pts full else .other null) else m3))) ∧
    (¬ ((target ≠ "" ∨ ∀ f ∈ imageFound thr o, f.1 ≠ false) ∧ (planes ≠ "" ∨ ∀ f ∈ imageFound thr o, f.1 ≠ true)) →
      rangeEdges3D null thr target planes robot o m = .ub) := by
  obtain ⟨l1, l2⟩ := Prod.mk.inj h.lut
  obtain ⟨l2, l3⟩ := Prod.mk.inj l2
  have hrows := scanRows_spec thr (decide (target ≠ "")) (decide (planes ≠ "")) o h
  rw [decide_eq_true_iff, decide_eq_true_iff] at hrows
  unfold rangeEdges3D
  rw [e1, okb, e2, okb, Outcome.assert_true hne, okb, Outcome.assert_true h.has, okb,
      Outcome.assert_true ⟨l1.symm, l2.symm, l3.symm⟩, okb]
  constructor
  · intro hh
    rw [hrows.1 hh, okb]
    simp only [withFound, List.map_map, Function.comp_def]
  · intro hh
    rw [hrows.2 hh, ubb]

/-- **C72 (finding).** With a layer for the plane points: that layer is replaced by the one of the edges (whatever it held
before), and the plane points found are in no layer of the resulting map.  The edge points found are appended to the target
layer, and the layers with other names are as before. -/
theorem range_edges_3d_planes_lost (null : X) (thr : ℤ) (target planes : String) (robot : Option (Pose3 K)) (o : Rgbd K)
    (m : FMap K X) (h : GoodImage o) (ht : target ≠ "") (hp : planes ≠ "") (hne : planes ≠ target)
    (hot : ∀ x, m.get target ≠ some (.other x)) (hop : ∀ x, m.get planes ≠ some (.other x)) :
    ∃ m' c0, rangeEdges3D null thr target planes robot o m = .ok m' ∧ StartsAs m target c0 ∧
      m'.get target = some (.pts (withFound o robot c0 ((imageFound thr o).filter fun f => f.1 = false))) ∧
      m'.get planes = m'.get target ∧
      ∀ k, k ≠ target → k ≠ planes → m'.get k = m.get k := by
  obtain ⟨c0, m1, e1, hc0, h1, k1⟩ := open_simple m target ht hot
  obtain ⟨c1, m2, e2, hc1, h2, k2⟩ := open_simple m1 planes hp (by rw [k1 _ hne]; exact hop)
  have key := (edges3D_core null thr target planes robot o m h _ _ e1 e2 (Or.inl ht)).1 ⟨Or.inl ht, Or.inl hp⟩
  simp only [if_pos ht, if_pos hp, Option.getD_some] at key
  refine ⟨_, c0, key, hc0, ?_, ?_, ?_⟩
  · simp [hne, Ne.symm hne]
  · simp [hne, Ne.symm hne]
  · intro k hk hk'
    simp [hk, hk', k1, k2]

/-- With the same layer for both kinds of points, all that is found is appended to it, in the order of the image. -/
theorem range_edges_3d_same_layer (null : X) (thr : ℤ) (target : String) (robot : Option (Pose3 K)) (o : Rgbd K)
    (m : FMap K X) (h : GoodImage o) (ht : target ≠ "") (hot : ∀ x, m.get target ≠ some (.other x)) :
    ∃ m' c0, rangeEdges3D null thr target target robot o m = .ok m' ∧ StartsAs m target c0 ∧
      m'.get target = some (.pts (withFound o robot c0 (imageFound thr o))) ∧
      ∀ k, k ≠ target → m'.get k = m.get k := by
  obtain ⟨c0, m1, e1, hc0, h1, k1⟩ := open_simple m target ht hot
  obtain ⟨c1, m2, e2, hc1, h2, k2⟩ := open_simple m1 target ht (by rw [h1]; simp)
  have key := (edges3D_core null thr target target robot o m h _ _ e1 e2 (Or.inl ht)).1 ⟨Or.inl ht, Or.inl ht⟩
  simp only [if_pos ht, Option.getD_some] at key
  refine ⟨_, c0, key, hc0, ?_, ?_⟩
  · simp
  · intro k hk
    simp [hk, k1, k2]

/-- **C72 (finding).** The layer of the plane points may be left empty "if not needed"; the generator then works if the image
has no plane point, and dereferences a null pointer if it has one. -/
theorem range_edges_3d_no_planes_layer (null : X) (thr : ℤ) (target : String) (robot : Option (Pose3 K)) (o : Rgbd K)
    (m : FMap K X) (h : GoodImage o) (ht : target ≠ "") (hot : ∀ x, m.get target ≠ some (.other x)) :
    ((∀ f ∈ imageFound thr o, f.1 = false) →
      ∃ m' c0, rangeEdges3D null thr target "" robot o m = .ok m' ∧ StartsAs m target c0 ∧
        m'.get target = some (.pts (withFound o robot c0 (imageFound thr o))) ∧ ∀ k, k ≠ target → m'.get k = m.get k) ∧
    ((∃ f ∈ imageFound thr o, f.1 = true) → rangeEdges3D null thr target "" robot o m = .ub) := by
  obtain ⟨c0, m1, e1, hc0, h1, k1⟩ := open_simple m target ht hot
  have e2 : getOrCreatePointLayer (some (simpleCloud : Cloud K)) m1 "" true = .ok (none, m1) := by
    unfold getOrCreatePointLayer; rw [if_pos rfl]; rfl
  have key := edges3D_core null thr target "" robot o m h _ _ e1 e2 (Or.inl ht)
  constructor
  · intro hno
    have k := key.1 ⟨Or.inl ht, Or.inr fun f hf => by rw [hno f hf]; simp⟩
    simp only [if_pos ht, Option.getD_some] at k
    rw [if_neg (by simp)] at k
    refine ⟨_, c0, k, hc0, ?_, fun k hk => by simp [hk, k1]⟩
    have : (imageFound thr o).filter (fun e => !e.1 || decide ("" = target)) = imageFound thr o :=
      List.filter_eq_self.2 fun f hf => by simp [hno f hf]
    rw [this]; simp
  · rintro ⟨f, hf, hb⟩
    refine key.2 fun hh => ?_
    rcases hh.2 with hh | hh
    · exact hh rfl
    · exact hh f hf hb

/-- **C72 (finding).** Without a target layer: an edge found is a null dereference; with none, the layer of the planes is left a
null pointer. -/
theorem range_edges_3d_no_target (null : X) (thr : ℤ) (planes : String) (robot : Option (Pose3 K)) (o : Rgbd K)
    (m : FMap K X) (h : GoodImage o) (hp : planes ≠ "") (hop : ∀ x, m.get planes ≠ some (.other x)) :
    ((∀ f ∈ imageFound thr o, f.1 = true) →
      ∃ m', rangeEdges3D null thr "" planes robot o m = .ok m' ∧ m'.get planes = some (.other null)) ∧
    ((∃ f ∈ imageFound thr o, f.1 = false) → rangeEdges3D null thr "" planes robot o m = .ub) := by
  obtain ⟨c0, m1, e2, hc0, h1, k1⟩ := open_simple m planes hp hop
  have e1 : getOrCreatePointLayer (some (simpleCloud : Cloud K)) m "" true = .ok (none, m) := by
    unfold getOrCreatePointLayer; rw [if_pos rfl]; rfl
  have key := edges3D_core null thr "" planes robot o m h _ _ e1 e2 (Or.inr hp)
  constructor
  · intro hno
    have k := key.1 ⟨Or.inr fun f hf => by rw [hno f hf]; simp, Or.inl hp⟩
    simp only [if_pos hp] at k
    rw [if_neg (by simp), if_neg (by simp)] at k
    exact ⟨_, k, by simp⟩
  · rintro ⟨f, hf, hb⟩
    refine key.2 fun hh => ?_
    rcases hh.1 with hh | hh
    · exact hh rfl
    · exact hh f hf hb

theorem scanCol_no_throw (thr : ℤ) (e p : Bool) (ms rd : Nat) (R : Nat → Nat) (hr : ∀ i, R i < 2 ^ 16) (n : Nat) (st : ColState)
    (cd : Nat) : scanCol thr e p ms rd R (rowSpread R n) st cd ≠ .throw := by
  unfold scanCol
  rw [score_ok R hr n cd, okb]
  split
  · simp
  · split
    · split <;> simp
    · simp only []
      split
      · split <;> simp
      · simp

/-- **C72 (finding).** If the last two blocks of one row of blocks are valid and the last one is nearer, the behaviour is
undefined, whatever the names of the layers. -/
theorem range_edges_3d_falling_ub (null : X) (thr : ℤ) (target planes : String) (robot : Option (Pose3 K)) (o : Rgbd K)
    (m : FMap K X) (hne : target ≠ "" ∨ planes ≠ "")
    (hot : ∀ x, m.get target ≠ some (.other x)) (hop : ∀ x, m.get planes ≠ some (.other x)) (has : o.hasRange = true)
    (lut : o.lutSizes = (o.rows * o.cols, o.rows * o.cols, o.rows * o.cols)) (ranges : ∀ r c, o.range r c < 2 ^ 16)
    (wide : 3 ≤ o.cols / 8) (narrow : o.cols / 8 ≤ 900) (rd : Nat) (hrd : rd < o.rows / 8)
    (hf : EndsFalling (blockMean o.range rd) (o.cols / 8)) : rangeEdges3D null thr target planes robot o m = .ub := by
  have hop1 : ∀ (m : FMap K X) name, (∀ x, m.get name ≠ some (.other x)) →
      ∃ r, getOrCreatePointLayer (some (simpleCloud : Cloud K)) m name true = .ok r ∧
        ∀ k, (∀ x, m.get k ≠ some (.other x)) → ∀ x, AMap.get r.2 k ≠ some (.other x) := by
    intro m name ho
    by_cases hn : name = ""
    · refine ⟨(none, m), ?_, fun k hk => hk⟩
      unfold getOrCreatePointLayer; rw [if_pos hn]; rfl
    · obtain ⟨c0, m1, e1, -, h1, k1⟩ := open_simple m name hn ho
      refine ⟨_, e1, fun k hk x => ?_⟩
      by_cases hkn : k = name
      · rw [hkn]; simp only []; rw [h1]; simp
      · simp only []; rw [k1 k hkn]; exact hk x
  obtain ⟨r1, e1, q1⟩ := hop1 m target hot
  obtain ⟨r2, e2, -⟩ := hop1 r1.2 planes (q1 planes hop)
  obtain ⟨l1, l2⟩ := Prod.mk.inj lut
  obtain ⟨l2, l3⟩ := Prod.mk.inj l2
  have hrr := blockMean_lt o.range ranges
  unfold rangeEdges3D
  rw [e1, okb, e2, okb, Outcome.assert_true hne, okb, Outcome.assert_true has, okb,
      Outcome.assert_true ⟨l1.symm, l2.symm, l3.symm⟩, okb, fold_ub _ _ _ rd (List.mem_range.2 hrd), ubb]
  · intro ins
    unfold scanRow
    rw [rowStats_ub _ (hrr rd) _ wide (by omega) hf, ubb]
  · intro ins q _
    unfold scanRow
    by_cases hq : EndsFalling (blockMean o.range q) (o.cols / 8)
    · rw [rowStats_ub _ (hrr q) _ wide (by omega) hq, ubb]; simp
    · rw [rowStats_ok _ (hrr q) _ (by omega) narrow hq, okb]
      have := fold_no_throw (scanCol thr (decide (target ≠ "")) (decide (planes ≠ "")) (o.cols / 8 / 16) q
        (blockMean o.range q) (rowSpread (blockMean o.range q) (o.cols / 8))) (List.range' 1 (o.cols / 8 - 1))
        (fun s i _ => scanCol_no_throw thr _ _ _ _ _ (hrr q) _ s i) ⟨none, ins⟩
      simp only []
      cases hcase : foldOutcome (scanCol thr (decide (target ≠ "")) (decide (planes ≠ "")) (o.cols / 8 / 16) q
        (blockMean o.range q) (rowSpread (blockMean o.range q) (o.cols / 8))) ⟨none, ins⟩ (List.range' 1 (o.cols / 8 - 1)) with
      | ok a => rw [okb]; simp
      | throw => exact absurd hcase this
      | ub => rw [ubb]; simp

/-- Depth images are refused without a layer to write to, without ranges, with other look-up tables than for their size, and if
they have a row of blocks but at most one column of them. -/
theorem range_edges_3d_refuses (null : X) (thr : ℤ) (target planes : String) (robot : Option (Pose3 K)) (o : Rgbd K)
    (m : FMap K X) (h : (target = "" ∧ planes = "") ∨ o.hasRange = false ∨
      o.lutSizes ≠ (o.rows * o.cols, o.rows * o.cols, o.rows * o.cols) ∨ (o.cols < 16 ∧ 8 ≤ o.rows)) :
    rangeEdges3D null thr target planes robot o m = .throw := by
  have hnt : ∀ (m : FMap K X) name, getOrCreatePointLayer (some (simpleCloud : Cloud K)) m name true = .throw ∨
      ∃ r, getOrCreatePointLayer (some (simpleCloud : Cloud K)) m name true = .ok r := by
    intro m name
    unfold getOrCreatePointLayer
    split
    · exact Or.inr ⟨_, rfl⟩
    · split
      · exact Or.inr ⟨_, rfl⟩
      · exact Or.inl rfl
      · exact Or.inr ⟨_, rfl⟩
  unfold rangeEdges3D
  rcases hnt m target with e1 | ⟨r1, e1⟩
  · rw [e1]; rfl
  rw [e1, okb]
  rcases hnt r1.2 planes with e2 | ⟨r2, e2⟩
  · rw [e2]; rfl
  rw [e2, okb]
  by_cases h1 : target ≠ "" ∨ planes ≠ ""
  · rw [Outcome.assert_true h1, okb]
    by_cases h2 : o.hasRange = true
    · rw [Outcome.assert_true h2, okb]
      by_cases h3 : o.rows * o.cols = o.lutSizes.1 ∧ o.rows * o.cols = o.lutSizes.2.1 ∧ o.rows * o.cols = o.lutSizes.2.2
      · rw [Outcome.assert_true h3, okb]
        have h4 : o.cols < 16 ∧ 8 ≤ o.rows := by
          rcases h with h | h | h | h
          · rcases h1 with h1 | h1
            · exact absurd h.1 h1
            · exact absurd h.2 h1
          · rw [h] at h2; cases h2
          · exact absurd (Prod.ext h3.1.symm (Prod.ext h3.2.1.symm h3.2.2.symm)) h
          · exact h
        have hrange : ∃ t, List.range (o.rows / 8) = 0 :: t := by
          obtain ⟨k, hk⟩ : ∃ k, o.rows / 8 = k + 1 := ⟨o.rows / 8 - 1, by omega⟩
          rw [hk, List.range_succ_eq_map]; exact ⟨_, rfl⟩
        obtain ⟨t, ht⟩ := hrange
        have : scanRow thr (decide (target ≠ "")) (decide (planes ≠ "")) (o.cols / 8) (blockMean o.range) [] 0 = .throw := by
          unfold scanRow calcStats
          rw [Outcome.assert_false (by simp; omega)]; rfl
        rw [ht, foldOutcome, this]; rfl
      · rw [Outcome.assert_false h3]; rfl
    · rw [Outcome.assert_false h2]; rfl
  · rw [Outcome.assert_false h1]; rfl

/-! ### C72, what the score of rotating scans means -/

/-- a row with a single step of height `h` at column `c` -/
def stepRow (a h c : Nat) (i : Nat) : Nat := if i < c then a else a + h

theorem step_trend (a h c i : Nat) (h9 : 9 ≤ i) (h1 : i - 8 ≤ c) (h2 : c ≤ i + 8) : trend (stepRow a h c) i = 16 * h := by
  unfold trend stepRow
  rw [if_neg (by omega), if_pos (by omega)]; push_cast; ring

theorem step_spread (a h c i : Nat) (h9 : 9 ≤ i) (h1 : i - 8 ≤ c) (h2 : c ≤ i + 8) :
    spread (stepRow a h c) i = 3856 * (h * h) := by
  unfold spread
  rw [step_trend a h c i h9 h1 h2]
  have hdiff : ∀ j, 1 ≤ j → (((stepRow a h c j : Nat) : ℤ) - (stepRow a h c (j - 1) : Nat)) * 256 = if j = c then 256 * (h : ℤ) else 0 := by
    intro j hj
    unfold stepRow
    by_cases hc : j = c
    · rw [if_neg (by omega), if_pos (by omega), if_pos hc]; push_cast; ring
    · rw [if_neg hc]
      by_cases hlt : j < c
      · rw [if_pos hlt, if_pos (by omega)]; ring
      · rw [if_neg hlt, if_neg (by omega)]; ring
  have hm : ((List.range' (i - 9 + 1) 17).map fun j =>
      ((((stepRow a h c j : Nat) : ℤ) - (stepRow a h c (j - 1) : Nat)) * 256 - 16 * h) *
      ((((stepRow a h c j : Nat) : ℤ) - (stepRow a h c (j - 1) : Nat)) * 256 - 16 * h)) =
      (List.range' (i - 9 + 1) 17).map fun j => ((if j = c then 256 * (h : ℤ) else 0) - 16 * h) *
        ((if j = c then 256 * (h : ℤ) else 0) - 16 * h) := by
    apply List.map_congr_left
    intro j hj
    rw [List.mem_range'_1] at hj
    rw [hdiff j (by omega)]
  rw [hm]
  obtain ⟨t, ht⟩ : ∃ t, c = (i - 9 + 1) + t := ⟨c - (i - 9 + 1), by omega⟩
  have ht17 : t < 17 := by omega
  generalize i - 9 + 1 = k at *
  subst ht
  have hs : ((List.range' k 17).map fun j => ((if j = k + t then 256 * (h : ℤ) else 0) - 16 * h) *
        ((if j = k + t then 256 * (h : ℤ) else 0) - 16 * h)).sum = 16 * (3856 * ((h : ℤ) * h)) := by
    interval_cases t <;> simp [List.range'_succ, Nat.add_assoc] <;> ring
  rw [hs]; omega

/-- **C72 (finding).** The score divides by the spread of the differences, so that the larger a step is, the less of an edge it
is: with the default threshold, no step higher than 1/206 of the range is ever found … -/
theorem range_edges_rot_misses_steps (a h c i : Nat) (h9 : 9 ≤ i) (h1 : i - 8 ≤ c) (h2 : c ≤ i + 8)
    (hbig : stepRow a h c i < 206 * h) : ¬ RotEdge 10 (stepRow a h c) i := by
  unfold RotEdge
  rw [step_trend a h c i h9 h1 h2, step_spread a h c i h9 h1 h2]
  rintro ⟨h0, hs⟩
  have hr : h ≤ stepRow a h c i ∨ stepRow a h c i = a := by unfold stepRow; split <;> omega
  generalize hR : stepRow a h c i = R at *
  have hb : (R : ℤ) < 206 * h := by exact_mod_cast hbig
  have hh : (0 : ℤ) < h := by
    have : (0 : ℤ) ≤ R := by positivity
    omega
  have hpos : (0 : ℤ) < 3856 * (h * h) := by positivity
  have h3 : (11 : ℤ) ≤ (R * 256 - 16 * h) * (R * 256 - 16 * h) / (3856 * (h * h)) / 65536 := by omega
  rw [Int.le_ediv_iff_mul_le (by norm_num), Int.le_ediv_iff_mul_le hpos] at h3
  have hR0 : (0 : ℤ) ≤ R := by positivity
  nlinarith

/-- … while the smallest possible step of one unit, at a range of 207 units or more, always is. -/
theorem range_edges_rot_finds_noise (a c i : Nat) (h9 : 9 ≤ i) (h1 : i - 8 ≤ c) (h2 : c ≤ i + 8) (ha : 207 ≤ a) :
    RotEdge 10 (stepRow a 1 c) i := by
  unfold RotEdge
  rw [step_trend a 1 c i h9 h1 h2, step_spread a 1 c i h9 h1 h2]
  refine ⟨by norm_num, ?_⟩
  have hr : 207 ≤ stepRow a 1 c i := by unfold stepRow; split <;> omega
  generalize stepRow a 1 c i = R at *
  have hR : (207 : ℤ) ≤ R := by exact_mod_cast hr
  have : (11 : ℤ) ≤ ((R : ℤ) * 256 - 16 * (1 : Nat)) * (R * 256 - 16 * (1 : Nat)) / (3856 * ((1 : Nat) * (1 : Nat))) / 65536 := by
    rw [Int.le_ediv_iff_mul_le (by norm_num), Int.le_ediv_iff_mul_le (by norm_num)]
    push_cast
    nlinarith
  omega

/-- Without any difference of ranges over the window there is no edge. -/
theorem range_edges_rot_flat (thr : ℤ) (a i : Nat) : ¬ RotEdge thr (fun _ => a) i := by
  unfold RotEdge
  rintro ⟨h, -⟩
  apply h
  unfold spread trend
  simp

/-! ### cases meeting the hypotheses -/

/-- A wall with a step: 20 columns, ranges 1000, then 1001 from column 12 on; one row. -/
def stepScan : RotScan ℚ where
  rows := 1
  cols := 20
  ptsRows := 1
  ptsCols := 20
  riRows := 1
  riCols := 20
  range := fun _ i => if i < 12 then 1000 else 1001
  pts := fun r i => ⟨r, i, 0⟩

/-- the edge points of the step: columns 9 to 11; the step of 50 units has none -/
example : (rangeEdgesRot 10 "edges" none stepScan ([("edges", .pts (simpleOf [barePt 7 7 7])), ("raw", .other ())] : FMap ℚ Unit)).Sat
    fun m => m.get "edges" = some (.pts (simpleOf [barePt 0 9 0, barePt 0 10 0, barePt 0 11 0])) ∧ m.get "raw" = some (.other ()) := by
  decide +kernel
example : (rangeEdgesRot 10 "edges" none { stepScan with range := fun _ i => if i < 12 then 1000 else 1050 } ([] : FMap ℚ Unit)).Sat
    fun m => m.get "edges" = some (.pts (simpleOf [])) := by
  decide +kernel
example : stepScan.consistent ∧ 8 ≤ stepScan.cols ∧ stepScan.cols < 2 ^ 32 := by decide
example : ∀ r i, r < stepScan.rows → 9 ≤ i → i + 8 < stepScan.cols → ¬ Falls (stepScan.range r) i := by
  intro r i _ h9 hi
  simp only [Falls, stepScan] at *
  split <;> split <;> omega
example : ∀ r i, stepScan.range r i < 2 ^ 16 := by
  intro r i
  simp only [stepScan]
  split <;> norm_num
/-- the same step seen from the other side falls -/
def fallScan : RotScan ℚ := { stepScan with range := fun _ i => if i < 12 then 1001 else 1000 }
example : Falls (fallScan.range 0) 9 := by simp [Falls, fallScan]
example : rangeEdgesRot 100 "edges" none fallScan ([] : FMap ℚ Unit) = .ub := Outcome.eq_ub_of (by decide +kernel)
/-- a depth image of 8 × 32 pixels: blocks at 100, 100, 90 and 95: a plane point at the third block and an edge at the fourth -/
def depthImage : Rgbd ℚ where
  hasRange := true
  rows := 8
  cols := 32
  range := fun _ c => if c < 16 then 100 else if c < 24 then 90 else 95
  lutSizes := (256, 256, 256)
  lut := fun _ => ⟨1, 0, 0⟩
  trans := ⟨0, 0, 1⟩
  units := 1

example : GoodImage depthImage where
  has := rfl
  lut := rfl
  ranges := by intro r c; simp only [depthImage]; split <;> [skip; split] <;> norm_num
  wide := by decide
  narrow := by decide
  level := by
    intro rd hrd
    have : rd = 0 := by simp only [depthImage] at hrd; omega
    subst this
    unfold EndsFalling
    decide +kernel
example : imageFound 1 depthImage = [(true, 0, 2), (false, 0, 3)] := by decide +kernel
example : (rangeEdges3D () 1 "edges" "planes" none depthImage ([] : FMap ℚ Unit)).Sat fun m =>
    m.get "edges" = some (.pts (simpleOf [barePt 95 0 1])) ∧ m.get "planes" = m.get "edges" := by decide +kernel
example : rangeEdges3D () 1 "edges" "" none depthImage ([] : FMap ℚ Unit) = .ub := Outcome.eq_ub_of (by decide +kernel)
/-- the same, seen in a mirror, ends falling -/
example : EndsFalling (blockMean (fun _ c => if c < 8 then 95 else if c < 16 then 90 else if c < 24 then 100 else 95) 0) 4 := by
  refine ⟨by decide +kernel, by decide +kernel, by decide +kernel⟩

end Props
end Verif
