import Mathlib.Tactic.Linarith
import Mathlib.Tactic.Ring
import Mathlib.Tactic.Positivity
import Mathlib.Tactic.NormNum
import Mathlib.Algebra.BigOperators.Group.List.Basic
import Mathlib.Algebra.Order.BigOperators.Group.List
import Verif.Model.EdgeGen
/-
Lemmas about the fixed-point statistics and the loops of the generators of edge points.
-/
namespace Verif
namespace Edge

theorem okb {α β : Type} (a : α) (f : α → Outcome β) : (Outcome.ok a).bind f = f a := rfl
theorem ubb {α β : Type} (f : α → Outcome β) : (Outcome.ub : Outcome α).bind f = .ub := rfl

theorem i64_ok {z : ℤ} (h1 : -2 ^ 63 ≤ z) (h2 : z < 2 ^ 63) : i64 z = .ok z := if_pos ⟨h1, h2⟩
theorem i64_ub {z : ℤ} (h : 2 ^ 63 ≤ z) : i64 z = .ub := if_neg (by omega)

theorem fold_sum (B : ℤ) (data : List ℤ) (hd : ∀ d ∈ data, |d| ≤ B) (a : ℤ) (h : |a| + B * data.length < 2 ^ 63) :
    foldOutcome (fun s d => i64 (s + d)) a data = .ok (a + data.sum) := by
  induction data generalizing a with
  | nil => simp [foldOutcome]
  | cons d l ih =>
    have h1 := hd d (List.mem_cons_self ..)
    have hB : 0 ≤ B := le_trans (abs_nonneg d) h1
    have h2 : |a + d| ≤ |a| + |d| := abs_add_le a d
    rw [List.length_cons] at h
    push_cast at h
    have h5 : 0 ≤ B * (l.length : ℤ) := by positivity
    have h3 := abs_le.1 (le_refl |a + d|)
    have e : i64 (a + d) = .ok (a + d) := i64_ok (by nlinarith) (by nlinarith)
    simp only [foldOutcome, e, Outcome.bind]
    rw [ih (fun x hx => hd x (List.mem_cons_of_mem _ hx)) (a + d) (by nlinarith), List.sum_cons, add_assoc]

theorem sqDiff_ok (d m C : ℤ) (h : |d - m| ≤ C) (hC : C * C < 2 ^ 63) : sqDiff d m = .ok ((d - m) * (d - m)) := by
  have h0 := abs_nonneg (d - m)
  have h1 : |d - m| * |d - m| ≤ C * C := by nlinarith
  have h2 : |d - m| < 2 ^ 63 := by nlinarith
  unfold sqDiff
  rw [i64_ok (by linarith) h2]
  simp only [Outcome.bind]
  rw [abs_mul_abs_self] at h1 ⊢
  exact i64_ok (by nlinarith [mul_self_nonneg (d - m)]) (by linarith)

theorem fold_sq (C m : ℤ) (data : List ℤ) (hd : ∀ d ∈ data, |d - m| ≤ C) (a : ℤ) (ha : 0 ≤ a) (hCC : C * C < 2 ^ 63)
    (h : a + C * C * data.length < 2 ^ 63) :
    foldOutcome (fun s d => (sqDiff d m).bind fun q => i64 (s + q)) a data =
      .ok (a + (data.map fun d => (d - m) * (d - m)).sum) := by
  induction data generalizing a with
  | nil => simp [foldOutcome]
  | cons d l ih =>
    have h1 := hd d (List.mem_cons_self ..)
    have h0 := abs_nonneg (d - m)
    have hs : (d - m) * (d - m) ≤ C * C := by
      rw [← abs_mul_abs_self]; nlinarith
    have hs0 := mul_self_nonneg (d - m)
    rw [List.length_cons] at h
    push_cast at h
    have hl : 0 ≤ C * C * (l.length : ℤ) := mul_nonneg (mul_self_nonneg C) (by positivity)
    have e : i64 (a + (d - m) * (d - m)) = .ok (a + (d - m) * (d - m)) := i64_ok (by linarith) (by nlinarith)
    simp only [foldOutcome, sqDiff_ok d m C h1 hCC, e, okb]
    rw [ih (fun x hx => hd x (List.mem_cons_of_mem _ hx)) _ (by linarith) (by nlinarith)]
    rw [List.map_cons, List.sum_cons, add_assoc]

theorem divMixed_nonneg (a n : ℤ) (h0 : 0 ≤ a) (h1 : a < 2 ^ 63) (hn : 0 < n) : divMixed a n = a / n := by
  unfold divMixed
  have e : a % 2 ^ 64 = a := Int.emod_eq_of_lt h0 (by linarith)
  rw [e]
  have : a / n ≤ a := Int.ediv_le_self n h0
  simp only []
  rw [if_pos (by linarith)]

theorem sum_le (B : ℤ) (l : List ℤ) (h : ∀ d ∈ l, |d| ≤ B) : -(B * l.length) ≤ l.sum ∧ l.sum ≤ B * l.length := by
  induction l with
  | nil => simp
  | cons d l ih =>
    have h1 := abs_le.1 (h d (List.mem_cons_self ..))
    have h2 := ih fun x hx => h x (List.mem_cons_of_mem _ hx)
    rw [List.sum_cons, List.length_cons]; push_cast
    constructor <;> nlinarith

/-- The statistics of samples whose sum is not negative. -/
theorem calcStats_ok (data : List ℤ) (B : ℤ) (hB : B ≤ 2 ^ 25) (hd : ∀ d ∈ data, |d| ≤ B) (h2 : 2 ≤ data.length)
    (hn : data.length ≤ 900) (hs : 0 ≤ data.sum) :
    calcStats data = .ok (data.sum / (data.length - 1),
      (data.map fun d => (d - data.sum / (data.length - 1)) * (d - data.sum / (data.length - 1))).sum / (data.length - 1)) := by
  have hn' : (data.length : ℤ) ≤ 900 := by exact_mod_cast hn
  have h2' : (2 : ℤ) ≤ data.length := by exact_mod_cast h2
  have hpos : (0 : ℤ) < data.length - 1 := by linarith
  obtain ⟨-, hsB⟩ := sum_le B data hd
  have hB0 : 0 ≤ B := by
    cases data with
    | nil => simp at h2
    | cons a l => exact le_trans (abs_nonneg a) (hd a (List.mem_cons_self ..))
  have hs63 : data.sum < 2 ^ 63 := by nlinarith
  unfold calcStats
  rw [Outcome.assert_true (by omega), okb]
  rw [fold_sum B data hd 0 (by rw [abs_zero]; nlinarith), zero_add, okb]
  simp only []
  rw [divMixed_nonneg _ _ hs hs63 hpos]
  generalize hm : data.sum / ((data.length : ℤ) - 1) = m
  have hm0 : 0 ≤ m := by rw [← hm]; exact Int.ediv_nonneg hs hpos.le
  have hm1 : m ≤ 2 * B := by
    rw [← hm]
    apply Int.ediv_le_of_le_mul hpos
    nlinarith
  have hdm : ∀ d ∈ data, |d - m| ≤ 3 * B := by
    intro d hx
    have := abs_le.1 (hd d hx)
    rw [abs_le]; constructor <;> linarith
  have hBB : B * B ≤ 2 ^ 50 := by nlinarith
  have hBn : B * B * data.length ≤ 2 ^ 50 * 900 := by
    have : 0 ≤ B * B := mul_self_nonneg B
    nlinarith
  rw [fold_sq (3 * B) m data hdm 0 le_rfl (by nlinarith) (by nlinarith)]
  rw [okb, zero_add, divMixed_nonneg]
  · apply List.sum_nonneg
    intro x hx
    obtain ⟨d, -, rfl⟩ := List.mem_map.1 hx
    exact mul_self_nonneg _
  · have : ∀ l : List ℤ, (∀ d ∈ l, |d - m| ≤ 3 * B) → (l.map fun d => (d - m) * (d - m)).sum ≤ 9 * (B * B) * l.length := by
      intro l hl
      induction l with
      | nil => simp
      | cons d l ih =>
        have h1 := hl d (List.mem_cons_self ..)
        have hq : (d - m) * (d - m) ≤ 9 * (B * B) := by
          rw [← abs_mul_abs_self]; nlinarith [abs_nonneg (d - m)]
        have h3 := ih fun x hx => hl x (List.mem_cons_of_mem _ hx)
        rw [List.map_cons, List.sum_cons, List.length_cons]; push_cast; nlinarith
    have := this data hdm
    nlinarith
  · exact hpos

/-- Samples, three or more, whose sum is negative: the sum is taken for an unsigned number, and the square of the distance to
the "mean" overflows. -/
theorem calcStats_ub (data : List ℤ) (hd : ∀ d ∈ data, |d| ≤ 2 ^ 25) (h2 : 3 ≤ data.length) (hn : data.length ≤ 2 ^ 20)
    (hs : data.sum < 0) : calcStats data = .ub := by
  have hn' : (data.length : ℤ) ≤ 2 ^ 20 := by exact_mod_cast hn
  have h2' : (3 : ℤ) ≤ data.length := by exact_mod_cast h2
  obtain ⟨hsB, -⟩ := sum_le (2 ^ 25) data hd
  unfold calcStats
  rw [Outcome.assert_true (by omega), okb]
  rw [fold_sum (2 ^ 25) data hd 0 (by rw [abs_zero]; nlinarith), zero_add, okb]
  simp only []
  have hdiv : 2 ^ 43 ≤ divMixed data.sum ((data.length : ℤ) - 1) := by
    unfold divMixed
    have e : data.sum % 2 ^ 64 = data.sum + 2 ^ 64 := by
      rw [← Int.add_emod_right]
      exact Int.emod_eq_of_lt (by nlinarith) (by linarith)
    rw [e]
    simp only []
    have hq : (data.sum + 2 ^ 64) / ((data.length : ℤ) - 1) < 2 ^ 63 := by
      apply Int.ediv_lt_of_lt_mul (by linarith)
      nlinarith
    rw [if_pos hq]
    rw [Int.le_ediv_iff_mul_le (by linarith)]
    nlinarith
  generalize divMixed data.sum ((data.length : ℤ) - 1) = m at hdiv
  cases data with
  | nil => simp at h2
  | cons d l =>
    have h1 := abs_le.1 (hd d (List.mem_cons_self ..))
    have habs : 2 ^ 42 ≤ |d - m| := by
      rw [abs_sub_comm, le_abs]; left; linarith
    have : sqDiff d m = .ub := by
      unfold sqDiff
      by_cases hb : |d - m| < 2 ^ 63
      · rw [i64_ok (by linarith) hb]
        simp only [Outcome.bind]
        exact i64_ub (by nlinarith)
      · rw [i64_ub (by linarith)]; rfl
    simp only [foldOutcome, this, ubb]

/-! ### loops -/

theorem fold_filter {ι α : Type} (f : ι → Outcome Bool) (b : ι → Bool) (g : ι → α) (l : List ι) (h : ∀ i ∈ l, f i = .ok (b i))
    (acc : List α) :
    foldOutcome (fun acc i => (f i).bind fun b => .ok (if b then acc ++ [g i] else acc)) acc l =
      .ok (acc ++ (l.filter b).map g) := by
  induction l generalizing acc with
  | nil => simp [foldOutcome]
  | cons i l ih =>
    have e := h i (List.mem_cons_self ..)
    have ih := ih fun x hx => h x (List.mem_cons_of_mem _ hx)
    simp only [foldOutcome, e, okb]
    rw [ih]
    by_cases hb : b i = true
    · rw [List.filter_cons_of_pos hb, List.map_cons, if_pos hb, List.append_assoc]; rfl
    · rw [List.filter_cons_of_neg hb, if_neg hb]

theorem fold_append {ι α : Type} (f : List α → ι → Outcome (List α)) (g : ι → List α) (l : List ι)
    (h : ∀ acc, ∀ i ∈ l, f acc i = .ok (acc ++ g i)) (acc : List α) : foldOutcome f acc l = .ok (acc ++ l.flatMap g) := by
  induction l generalizing acc with
  | nil => simp [foldOutcome]
  | cons i l ih =>
    simp only [foldOutcome, h acc i (List.mem_cons_self ..), Outcome.bind]
    rw [ih (fun acc x hx => h acc x (List.mem_cons_of_mem _ hx)), List.flatMap_cons, List.append_assoc]

theorem fold_no_throw {σ ι : Type} (f : σ → ι → Outcome σ) (l : List ι) (h : ∀ s, ∀ i ∈ l, f s i ≠ .throw) (s : σ) :
    foldOutcome f s l ≠ .throw := by
  induction l generalizing s with
  | nil => simp [foldOutcome]
  | cons i l ih =>
    simp only [foldOutcome]
    have := h s i (List.mem_cons_self ..)
    cases hf : f s i with
    | ok a => simpa only [Outcome.bind] using ih (fun s x hx => h s x (List.mem_cons_of_mem _ hx)) a
    | throw => exact absurd hf this
    | ub => simp

theorem fold_ub {σ ι : Type} (f : σ → ι → Outcome σ) (l : List ι) (h : ∀ s, ∀ i ∈ l, f s i ≠ .throw) (x : ι) (hx : x ∈ l)
    (hub : ∀ s, f s x = .ub) (s : σ) : foldOutcome f s l = .ub := by
  induction l generalizing s with
  | nil => cases hx
  | cons i l ih =>
    simp only [foldOutcome]
    rcases List.mem_cons.1 hx with rfl | hx
    · rw [hub]; rfl
    · cases hf : f s i with
      | ok a => simpa only [Outcome.bind] using ih (fun s y hy => h s y (List.mem_cons_of_mem _ hy)) hx a
      | throw => exact absurd hf (h s i (List.mem_cons_self ..))
      | ub => rfl

/-! ### telescoping sums -/

theorem fold_head_ub {σ ι : Type} (f : σ → ι → Outcome σ) (x : ι) (l : List ι) (s : σ) (h : f s x = .ub) :
    foldOutcome f s (x :: l) = .ub := by
  rw [foldOutcome, h]; rfl

theorem telescope (f : Nat → ℤ) (s k : Nat) :
    ((List.range' (s + 1) k).map fun j => (f j - f (j - 1)) * 256).sum = (f (s + k) - f s) * 256 := by
  induction k with
  | zero => simp
  | succ k ih =>
    rw [List.range'_concat, List.map_append, List.sum_append, ih]
    have e : s + 1 + 1 * k - 1 = s + k := by omega
    simp only [List.map_cons, List.map_nil, List.sum_cons, List.sum_nil, add_zero, e]
    rw [show s + 1 + 1 * k = s + (k + 1) by omega]
    ring

theorem window_eq (ri : Nat → Nat) (n i : Nat) (h1 : 9 ≤ i) (h2 : i + 8 < n) :
    ((rowDiff ri n).drop (i - 8)).take 17 =
      (List.range' (i - 9 + 1) 17).map fun j => (((ri j : ℤ)) - ri (j - 1)) * 256 := by
  apply List.ext_getElem?
  intro k
  rw [List.getElem?_take, List.getElem?_drop, List.getElem?_map]
  by_cases hk : k < 17
  · rw [if_pos hk]
    simp only [rowDiff]
    rw [List.getElem?_map, List.getElem?_range (by omega), List.getElem?_range' (by omega)]
    simp only [Option.map_some]
    rw [if_neg (by omega), show i - 9 + 1 + 1 * k = i - 8 + k by omega]
  · rw [if_neg hk, List.getElem?_eq_none (by simp; omega)]; rfl

theorem window_sum (ri : Nat → Nat) (n i : Nat) (h1 : 9 ≤ i) (h2 : i + 8 < n) :
    (((rowDiff ri n).drop (i - 8)).take 17).sum = ((ri (i + 8) : ℤ) - ri (i - 9)) * 256 := by
  rw [window_eq ri n i h1 h2, telescope (fun j => (ri j : ℤ)) (i - 9) 17]
  rw [show i - 9 + 17 = i + 8 by omega]

theorem window_le (ri : Nat → Nat) (hr : ∀ i, ri i < 2 ^ 16) (n i : Nat) (h1 : 9 ≤ i) (h2 : i + 8 < n) :
    ∀ d ∈ ((rowDiff ri n).drop (i - 8)).take 17, |d| ≤ 2 ^ 24 := by
  rw [window_eq ri n i h1 h2]
  intro d hd
  obtain ⟨j, -, rfl⟩ := List.mem_map.1 hd
  have h1 : (ri j : ℤ) < 2 ^ 16 := by exact_mod_cast hr j
  have h2 : (ri (j - 1) : ℤ) < 2 ^ 16 := by exact_mod_cast hr (j - 1)
  rw [abs_le]; constructor <;> omega

theorem decDiff_le (R : Nat → Nat) (hr : ∀ i, R i < 2 ^ 16) (i : Nat) : |decDiff R i| ≤ 2 ^ 24 := by
  unfold decDiff
  split
  · norm_num
  · have h1 : (R i : ℤ) < 2 ^ 16 := by exact_mod_cast hr i
    have h2 : (R (i - 1) : ℤ) < 2 ^ 16 := by exact_mod_cast hr (i - 1)
    rw [abs_le]; constructor <;> omega

theorem decDiff2_le (R : Nat → Nat) (hr : ∀ i, R i < 2 ^ 16) (i : Nat) : |decDiff2 R i| ≤ 2 ^ 25 := by
  unfold decDiff2
  split
  · norm_num
  · have h1 := abs_le.1 (decDiff_le R hr i)
    have h2 := abs_le.1 (decDiff_le R hr (i - 1))
    rw [abs_le]; constructor <;> linarith

/-- the second differences of a row add up to the last of the first ones -/
theorem dec_sum (R : Nat → Nat) (n : Nat) : ((List.range (n + 1)).map (decDiff2 R)).sum = decDiff R n := by
  induction n with
  | zero => simp [decDiff2, decDiff]
  | succ n ih =>
    rw [List.range_succ, List.map_append, List.sum_append, ih]
    simp [decDiff2]

theorem blockMean_lt (range : Nat → Nat → Nat) (h : ∀ r c, range r c < 2 ^ 16) (rd cd : Nat) :
    blockMean range rd cd < 2 ^ 16 := by
  unfold blockMean
  simp only []
  split
  · norm_num
  · rename_i hne
    rw [Nat.div_lt_iff_lt_mul (by omega)]
    have : ∀ l : List Nat, l ≠ [] → (∀ x ∈ l, x < 2 ^ 16) → l.sum < 2 ^ 16 * l.length := by
      intro l hl hx
      induction l with
      | nil => exact absurd rfl hl
      | cons a l ih =>
        have ha := hx a (List.mem_cons_self ..)
        rw [List.sum_cons, List.length_cons]
        by_cases hl' : l = []
        · subst hl'; simpa using ha
        · have := ih hl' fun x hx' => hx x (List.mem_cons_of_mem _ hx')
          omega
    apply this
    · intro h0; rw [h0] at hne; simp at hne
    · intro x hx
      have := (List.mem_filter.1 hx).1
      obtain ⟨i, -, hi⟩ := List.mem_flatMap.1 this
      obtain ⟨j, -, rfl⟩ := List.mem_map.1 hi
      exact h _ _

end Edge
end Verif
