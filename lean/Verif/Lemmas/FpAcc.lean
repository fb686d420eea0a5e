import Verif.Lemmas.FpNorm
import Mathlib.Tactic.GCongr
/-! Accuracy of the rounding of binary formats, and of normalised intensities. -/
namespace Verif
namespace Fp
open Spec

/-- The standard model of rounding: relative error `u`, or absolute error `η` of underflow. -/
def Accurate (A : Arith) (u η : ℚ) : Prop := ∀ x, |A.rnd x - x| ≤ u * |x| + η

theorem nearest_err (q : ℚ) : |(nearest q : ℚ) - q| ≤ 1 / 2 := by
  have h1 := Int.floor_le q
  have h2 := Int.lt_floor_add_one q
  unfold nearest
  split_ifs <;> push_cast <;> rw [abs_le] <;> constructor <;> linarith

theorem roundBin_err (p : ℕ) (emin : ℤ) (x : ℚ) :
    |roundBin p emin x - x| ≤ (2 : ℚ) ^ (-(p : ℤ)) * |x| + 2 ^ (emin - 1) := by
  have hpos := two_zpow_pos (ulpExp p emin x)
  have h1 := nearest_err (x / 2 ^ ulpExp p emin x)
  have h2 : |roundBin p emin x - x| ≤ 1 / 2 * 2 ^ ulpExp p emin x := by
    have : roundBin p emin x - x = (nearest (x / 2 ^ ulpExp p emin x) - x / 2 ^ ulpExp p emin x) * 2 ^ ulpExp p emin x := by
      unfold roundBin; field_simp
    rw [this, abs_mul, abs_of_pos hpos]
    exact mul_le_mul_of_nonneg_right h1 hpos.le
  have hn1 : 0 ≤ (2 : ℚ) ^ (-(p : ℤ)) * |x| := mul_nonneg (two_zpow_pos _).le (abs_nonneg x)
  have hn2 := two_zpow_pos (emin - 1)
  have hhalf : ∀ k : ℤ, 1 / 2 * (2 : ℚ) ^ k = 2 ^ (k - 1) := by
    intro k; rw [zpow_sub_one₀ (by norm_num)]; ring
  rw [hhalf] at h2
  rcases le_total (Int.log 2 |x| - p + 1) emin with h | h
  · have he : ulpExp p emin x = emin := by unfold ulpExp; omega
    rw [he] at h2
    linarith
  · have he : ulpExp p emin x = Int.log 2 |x| - p + 1 := by unfold ulpExp; omega
    rw [he] at h2
    by_cases hx : x = 0
    · subst hx; rw [roundBin_zero]; simp; positivity
    · have h3 : (2 : ℚ) ^ Int.log 2 |x| ≤ |x| := by exact_mod_cast Int.zpow_log_le_self (by norm_num) (abs_pos.2 hx)
      have h4 : (2 : ℚ) ^ (Int.log 2 |x| - p + 1 - 1) = 2 ^ (-(p : ℤ)) * 2 ^ Int.log 2 |x| := by
        rw [← zpow_add₀ (by norm_num)]; congr 1; omega
      rw [h4] at h2
      have := mul_le_mul_of_nonneg_left h3 (two_zpow_pos (-(p : ℤ))).le
      linarith

theorem binary32_accurate : Accurate binary32 (1 / 2 ^ 24) (1 / 2 ^ 150) := by
  intro x
  have := roundBin_err 24 (-149) x
  refine le_trans this (le_of_eq ?_)
  norm_num [zpow_neg]

theorem binary64_accurate : Accurate binary64 (1 / 2 ^ 53) (1 / 2 ^ 1075) := by
  intro x
  have := roundBin_err 53 (-1074) x
  refine le_trans this (le_of_eq ?_)
  rw [show (-1074 : ℤ) - 1 = -((1075 : ℕ) : ℤ) by norm_num, zpow_neg, zpow_neg, zpow_natCast, zpow_natCast, one_div, one_div]

theorem clampF_close (q x e : ℚ) (h0 : 0 ≤ x) (h1 : x ≤ 1) (h : |q - x| ≤ e) :
    ∃ r, clampF (.fin q) (.fin 0) (.fin 1) = .fin r ∧ |r - x| ≤ e := by
  rw [abs_le] at h
  unfold clampF
  simp only [Fl.lt, decide_eq_true_eq]
  split_ifs
  · exact ⟨0, rfl, by rw [abs_le]; constructor <;> linarith⟩
  · exact ⟨1, rfl, by rw [abs_le]; constructor <;> linarith⟩
  · exact ⟨q, rfl, by rw [abs_le]; exact h⟩

theorem prod_up (x u : ℚ) (hx0 : 0 ≤ x) (hx1 : x ≤ 1) (hu0 : 0 < u) (hu : u ≤ 1 / 16) :
    (x + 2 * u) * ((1 + 2 * u) * (1 + 3 * u)) ≤ x + 9 * u := by
  have h8 : u * u ≤ 1 / 16 * u := mul_le_mul_of_nonneg_right hu hu0.le
  have h5 : (1 + 2 * u) * (1 + 3 * u) ≤ 1 + 43 / 8 * u := by linarith
  have h6 := mul_le_mul_of_nonneg_left h5 (show 0 ≤ x + 2 * u by linarith)
  have h7 : x * u ≤ u := by simpa using mul_le_mul_of_nonneg_right hx1 hu0.le
  linarith

theorem prod_down (x u : ℚ) (hx1 : x ≤ 1) (hxu : 2 * u ≤ x) (hu0 : 0 < u) :
    x - 8 * u ≤ (x - 2 * u) * ((1 - 2 * u) * (1 - 2 * u)) := by
  have h8 : 0 ≤ u * u := mul_nonneg hu0.le hu0.le
  have h5 : 1 - 4 * u ≤ (1 - 2 * u) * (1 - 2 * u) := by linarith
  have h6 := mul_le_mul_of_nonneg_left h5 (show 0 ≤ x - 2 * u by linarith)
  have h7 : x * u ≤ u := by simpa using mul_le_mul_of_nonneg_right hx1 hu0.le
  linarith

theorem inv_up (u w δ : ℚ) (hu0 : 0 < u) (hu : u ≤ 1 / 16) (hwp : 0 < w) (hδp : 0 < δ) (hδ1 : w - 2 * (u * w) ≤ δ) :
    1 / δ ≤ (1 + 3 * u) / w := by
  rw [div_le_div_iff₀ hδp hwp]
  have h3 : (1 + 3 * u) * (w - 2 * (u * w)) ≤ (1 + 3 * u) * δ := mul_le_mul_of_nonneg_left hδ1 (by linarith)
  have h4 : (0 : ℚ) ≤ (u * (1 - 6 * u)) * w := mul_nonneg (mul_nonneg hu0.le (by linarith)) hwp.le
  have h5 : (1 + 3 * u) * (w - 2 * (u * w)) = w + (u * (1 - 6 * u)) * w := by ring
  linarith

theorem inv_down (u w δ : ℚ) (hu0 : 0 < u) (hu : u ≤ 1 / 16) (hwp : 0 < w) (hδp : 0 < δ) (hδ2 : δ ≤ w + 2 * (u * w)) :
    (1 - 2 * u) / w ≤ 1 / δ := by
  rw [div_le_div_iff₀ hwp hδp]
  have h3 : (1 - 2 * u) * δ ≤ (1 - 2 * u) * (w + 2 * (u * w)) := mul_le_mul_of_nonneg_left hδ2 (by linarith)
  have h4 : (0 : ℚ) ≤ (u * u) * w := by positivity
  have h5 : (1 - 2 * u) * (w + 2 * (u * w)) = w - 4 * ((u * u) * w) := by ring
  linarith

theorem normValueF_close (A : Arith) (u η lo hi i : ℚ) (hA : Accurate A u η) (hu0 : 0 < u) (hu : u ≤ 1 / 16) (hη : 0 ≤ η)
    (h1 : lo ≤ i) (h2 : i ≤ hi) (hlt : lo < hi) (hη1 : η ≤ u) (hη2 : η ≤ u * (hi - lo)) (hη3 : 2 * η * (hi - lo) ≤ u)
    (ht : 2 ≤ A.top) (ht1 : 2 * (hi - lo) ≤ A.top) (ht2 : 2 ≤ A.top * (hi - lo)) :
    ∃ q, normValueF A (.fin lo, .fin hi) (.fin i) = .fin q ∧ |q - (i - lo) / (hi - lo)| ≤ 12 * u := by
  set w := hi - lo with hw
  have hwp : 0 < w := by linarith
  set d := i - lo with hd
  have hd0 : 0 ≤ d := by linarith
  have hdw : d ≤ w := by linarith
  -- the width
  have eδ := hA w
  rw [abs_of_pos hwp, abs_le] at eδ
  set δ := A.rnd w with hδ
  have huw : 0 < u * w := mul_pos hu0 hwp
  have huw' : u * w ≤ 1 / 16 * w := mul_le_mul_of_nonneg_right hu hwp.le
  have hδ1 : w - 2 * (u * w) ≤ δ := by linarith
  have hδ2 : δ ≤ w + 2 * (u * w) := by linarith
  have hδp : 0 < δ := by linarith
  -- the difference
  have ea := hA d
  rw [abs_of_nonneg hd0, abs_le] at ea
  set a := A.rnd d with ha
  have ha0 : 0 ≤ a := by rw [← rnd_zero A]; exact A.mono hd0
  have had : a ≤ δ := A.mono hdw
  have hud : u * d ≤ u * w := mul_le_mul_of_nonneg_left hdw hu0.le
  have ha1 : d - 2 * (u * w) ≤ a := by linarith
  have ha2 : a ≤ d + 2 * (u * w) := by linarith
  -- the inverse
  have ev := hA (1 / δ)
  have hip : 0 < 1 / δ := by positivity
  rw [abs_of_pos hip, abs_le] at ev
  set v := A.rnd (1 / δ) with hv
  have hηδ : η ≤ u * (1 / δ) := by
    rw [mul_one_div, le_div_iff₀ hδp]
    have : η * δ ≤ η * (2 * w) := mul_le_mul_of_nonneg_left (by linarith) hη
    linarith
  have hv1 : (1 - 2 * u) * (1 / δ) ≤ v := by linarith
  have hv2 : v ≤ (1 + 2 * u) * (1 / δ) := by linarith
  have hv0 : 0 ≤ v := by rw [← rnd_zero A]; exact A.mono hip.le
  -- bounds of the exact product in terms of d / w
  set x := d / w with hx
  have hx0 : 0 ≤ x := div_nonneg hd0 hwp.le
  have hx1 : x ≤ 1 := (div_le_one hwp).2 hdw
  have hdx : d = x * w := by rw [hx]; field_simp
  have hinv1 : 1 / δ ≤ (1 + 3 * u) / w := inv_up u w δ hu0 hu hwp hδp hδ1
  have hinv2 : (1 - 2 * u) / w ≤ 1 / δ := inv_down u w δ hu0 hu hwp hδp hδ2
  have hprod2 : a * v ≤ x + 9 * u := by
    have hvw : v ≤ (1 + 2 * u) * ((1 + 3 * u) / w) := le_trans hv2 (mul_le_mul_of_nonneg_left hinv1 (by linarith))
    have h3 : a * v ≤ (d + 2 * (u * w)) * ((1 + 2 * u) * ((1 + 3 * u) / w)) :=
      mul_le_mul ha2 hvw hv0 (by linarith)
    have h4 : (d + 2 * (u * w)) * ((1 + 2 * u) * ((1 + 3 * u) / w)) = (x + 2 * u) * ((1 + 2 * u) * (1 + 3 * u)) := by
      rw [hdx]; field_simp
    rw [h4] at h3
    exact h3.trans (prod_up x u hx0 hx1 hu0 hu)
  have hprod1 : x - 8 * u ≤ a * v := by
    by_cases hxu : x ≤ 8 * u
    · have := mul_nonneg ha0 hv0
      linarith
    · have hvw : (1 - 2 * u) * ((1 - 2 * u) / w) ≤ v := le_trans (mul_le_mul_of_nonneg_left hinv2 (by linarith)) hv1
      have hdp : 0 ≤ d - 2 * (u * w) := by
        rw [hdx]
        have : 0 ≤ (x - 2 * u) * w := mul_nonneg (by linarith) hwp.le
        linarith
      have h3 : (d - 2 * (u * w)) * ((1 - 2 * u) * ((1 - 2 * u) / w)) ≤ a * v :=
        mul_le_mul ha1 hvw (mul_nonneg (by linarith) (div_nonneg (by linarith) hwp.le)) ha0
      have h4 : (d - 2 * (u * w)) * ((1 - 2 * u) * ((1 - 2 * u) / w)) = (x - 2 * u) * ((1 - 2 * u) * (1 - 2 * u)) := by
        rw [hdx]; field_simp
      rw [h4] at h3
      exact (prod_down x u hx1 (by linarith) hu0).trans h3
  -- the last rounding
  have hav0 : 0 ≤ a * v := mul_nonneg ha0 hv0
  have er := hA (a * v)
  rw [abs_of_nonneg hav0] at er
  have hav3 : u * (a * v) ≤ 25 / 16 * u := by
    have : a * v ≤ 25 / 16 := by linarith
    have := mul_le_mul_of_nonneg_left this hu0.le
    linarith
  set r := A.rnd (a * v) with hr
  have er' := abs_le.1 er
  have hclose : |r - x| ≤ 12 * u := by rw [abs_le]; constructor <;> linarith
  -- nothing overflows
  have hr2 : r ≤ 2 := by linarith [(abs_le.1 hclose).2]
  have hr0 : 0 ≤ r := by rw [← rnd_zero A]; exact A.mono hav0
  have f1 : A.fl w = .fin δ := (fl_fin_iff A).2 ⟨rfl, by linarith, by linarith⟩
  have f2 : A.fl d = .fin a := (fl_fin_iff A).2 ⟨rfl, by linarith, by linarith⟩
  have hvt : v ≤ A.top := by
    have h3 : v ≤ (1 + 2 * u) * ((1 + 3 * u) / w) := le_trans hv2 (mul_le_mul_of_nonneg_left hinv1 (by linarith))
    have h4 : (1 + 2 * u) * ((1 + 3 * u) / w) ≤ 2 / w := by
      rw [← mul_div_assoc]
      refine div_le_div_of_nonneg_right ?_ hwp.le
      have h8 : u * u ≤ 1 / 16 * u := mul_le_mul_of_nonneg_right hu hu0.le
      linarith
    have h5 : 2 / w ≤ A.top := by rw [div_le_iff₀ hwp]; exact ht2
    linarith
  have f3 : A.fl (1 / δ) = .fin v := (fl_fin_iff A).2 ⟨rfl, by linarith, hvt⟩
  have f4 : A.fl (a * v) = .fin r := (fl_fin_iff A).2 ⟨rfl, by linarith, by linarith⟩
  have hne : (Fl.fin δ).eq (.fin 0) = false := by
    rw [Bool.eq_false_iff]; intro hc
    have := eq_zero_iff.1 hc
    simp only [Fl.fin.injEq] at this; linarith
  obtain ⟨q, hq, hqe⟩ := clampF_close r x (12 * u) hx0 hx1 hclose
  refine ⟨q, ?_, hqe⟩
  unfold normValueF normDelta
  dsimp only
  rw [sub_fin, sub_fin, f1, f2, hne]
  simp only [Bool.false_eq_true, if_false, Arith.div, if_neg hδp.ne', f3, Arith.mul, f4]
  exact hq

/-- Sums and differences of numbers of the format have a relative error only: they do not underflow. -/
def AddAccurate (A : Arith) (u : ℚ) : Prop := ∀ a b, A.rnd a = a → A.rnd b = b → |A.rnd (a + b) - (a + b)| ≤ u * |a + b|

theorem roundBin_grid (p : ℕ) (emin : ℤ) (x : ℚ) (h : roundBin p emin x = x) : ∃ n : ℤ, x = n * (2 : ℚ) ^ emin := by
  obtain ⟨m, hm⟩ := zpow_int (k := ulpExp p emin x - emin) (by unfold ulpExp; omega)
  refine ⟨nearest (x / 2 ^ ulpExp p emin x) * m, ?_⟩
  nth_rewrite 1 [← h]
  unfold roundBin
  push_cast
  rw [← hm, mul_assoc, ← zpow_add₀ (by norm_num)]
  congr 2; omega

theorem roundBin_add (p : ℕ) (emin : ℤ) (a b : ℚ) (ha : roundBin p emin a = a) (hb : roundBin p emin b = b) :
    |roundBin p emin (a + b) - (a + b)| ≤ (2 : ℚ) ^ (-(p : ℤ)) * |a + b| := by
  obtain ⟨n, hn⟩ := roundBin_grid p emin a ha
  obtain ⟨m, hm⟩ := roundBin_grid p emin b hb
  have hs : a + b = ((n + m : ℤ) : ℚ) * 2 ^ emin := by rw [hn, hm]; push_cast; ring
  have hn1 : 0 ≤ (2 : ℚ) ^ (-(p : ℤ)) * |a + b| := mul_nonneg (two_zpow_pos _).le (abs_nonneg _)
  by_cases h0 : a + b = 0
  · rw [h0, roundBin_zero]; simp
  rcases le_total (Int.log 2 |a + b| - p + 1) emin with h | h
  · have he : ulpExp p emin (a + b) = emin := by unfold ulpExp; omega
    rw [roundBin_mult p emin (a + b) (n + m) (by rw [he]; exact hs), sub_self, abs_zero]
    exact hn1
  · have hpos := two_zpow_pos (ulpExp p emin (a + b))
    have h1 := nearest_err ((a + b) / 2 ^ ulpExp p emin (a + b))
    have h2 : |roundBin p emin (a + b) - (a + b)| ≤ 1 / 2 * 2 ^ ulpExp p emin (a + b) := by
      have : roundBin p emin (a + b) - (a + b) =
          (nearest ((a + b) / 2 ^ ulpExp p emin (a + b)) - (a + b) / 2 ^ ulpExp p emin (a + b)) * 2 ^ ulpExp p emin (a + b) := by
        unfold roundBin; field_simp
      rw [this, abs_mul, abs_of_pos hpos]
      exact mul_le_mul_of_nonneg_right h1 hpos.le
    have he : ulpExp p emin (a + b) = Int.log 2 |a + b| - p + 1 := by unfold ulpExp; omega
    have h3 : (2 : ℚ) ^ Int.log 2 |a + b| ≤ |a + b| := by exact_mod_cast Int.zpow_log_le_self (by norm_num) (abs_pos.2 h0)
    have h4 : 1 / 2 * (2 : ℚ) ^ (Int.log 2 |a + b| - p + 1) = 2 ^ (-(p : ℤ)) * 2 ^ Int.log 2 |a + b| := by
      rw [zpow_add_one₀ (by norm_num), sub_eq_add_neg, zpow_add₀ (by norm_num)]; ring
    rw [he, h4] at h2
    exact h2.trans (mul_le_mul_of_nonneg_left h3 (two_zpow_pos _).le)

theorem binary32_add_accurate : AddAccurate binary32 (1 / 2 ^ 24) := by
  intro a b ha hb
  refine le_trans (roundBin_add 24 (-149) a b ha hb) (le_of_eq ?_)
  norm_num [zpow_neg]

/-- one coordinate of the squared norm: difference, then square -/
theorem sq_coord (A : Arith) (u η x c : ℚ) (hA : Accurate A u η) (hS : AddAccurate A u) (hx : A.rnd x = x) (hc : A.rnd c = c)
    (hu0 : 0 ≤ u) (hu1 : u ≤ 1) :
    (1 - u) ^ 3 * (x - c) ^ 2 - η ≤ A.rnd (A.rnd (x - c) * A.rnd (x - c)) ∧
      A.rnd (A.rnd (x - c) * A.rnd (x - c)) ≤ (1 + u) ^ 3 * (x - c) ^ 2 + η := by
  have h1 := hS x (-c) hx (by rw [A.rnd_neg, hc])
  rw [← sub_eq_add_neg] at h1
  set d := x - c with hd
  set e := A.rnd d with he
  have hsq1 : e ^ 2 ≤ (1 + u) ^ 2 * d ^ 2 := by
    have : |e| ≤ (1 + u) * |d| := by
      have := abs_sub_abs_le_abs_sub e d; linarith
    have h2 := pow_le_pow_left₀ (abs_nonneg e) this 2
    rw [mul_pow, sq_abs, sq_abs] at h2; exact h2
  have hsq2 : (1 - u) ^ 2 * d ^ 2 ≤ e ^ 2 := by
    have : (1 - u) * |d| ≤ |e| := by
      have := abs_sub_abs_le_abs_sub d e
      rw [abs_sub_comm d e] at this; linarith
    have h2 := pow_le_pow_left₀ (mul_nonneg (by linarith) (abs_nonneg d)) this 2
    rw [mul_pow, sq_abs, sq_abs] at h2; exact h2
  have h3 := hA (e * e)
  rw [← sq, abs_of_nonneg (sq_nonneg e), abs_le] at h3
  rw [← sq]
  have h4 := mul_le_mul_of_nonneg_left hsq1 (show 0 ≤ 1 + u by linarith)
  have h5 := mul_le_mul_of_nonneg_left hsq2 (show 0 ≤ 1 - u by linarith)
  constructor
  · have e3 : (1 - u) ^ 3 * d ^ 2 = (1 - u) * ((1 - u) ^ 2 * d ^ 2) := by ring
    rw [e3]; linarith
  · have e3 : (1 + u) ^ 3 * d ^ 2 = (1 + u) * ((1 + u) ^ 2 * d ^ 2) := by ring
    rw [e3]; linarith

theorem pow5_up (u : ℚ) (hu0 : 0 ≤ u) (hu : u ≤ 1 / 64) : (1 + u) ^ 5 ≤ 1 + 6 * u := by
  have h1 : (1 + u) ^ 2 ≤ 1 + 129 / 64 * u := by nlinarith
  have h2 : (1 + u) ^ 4 ≤ 1 + 33 / 8 * u := by
    have : (1 + u) ^ 4 = (1 + u) ^ 2 * (1 + u) ^ 2 := by ring
    rw [this]
    have h3 := mul_le_mul h1 h1 (by positivity) (by linarith)
    nlinarith
  have : (1 + u) ^ 5 = (1 + u) ^ 4 * (1 + u) := by ring
  rw [this]
  have h3 := mul_le_mul_of_nonneg_right h2 (show 0 ≤ 1 + u by linarith)
  nlinarith

theorem pow5_down (u : ℚ) (hu0 : 0 ≤ u) (hu : u ≤ 1 / 64) : 1 - 5 * u ≤ (1 - u) ^ 5 := by
  have := one_add_mul_le_pow (show (-2 : ℚ) ≤ -u by linarith) 5
  have e : (1 + -u) ^ 5 = (1 - u) ^ 5 := by ring
  rw [e] at this
  push_cast at this
  linarith

theorem pow2_up (u : ℚ) (hu0 : 0 ≤ u) (hu : u ≤ 1 / 64) : (1 + u) ^ 2 ≤ 4 / 3 := by nlinarith

theorem pow2_down (u : ℚ) (hu0 : 0 ≤ u) (hu : u ≤ 1 / 64) : (1 - u) ^ 2 ≤ 1 := by nlinarith

/-- The squared norm as computed, if nothing overflows. -/
theorem sqr_norm_close (A : Arith) (u η x y z a b c : ℚ) (hA : Accurate A u η) (hS : AddAccurate A u) (hu0 : 0 ≤ u) (hu : u ≤ 1 / 64) (hη : 0 ≤ η)
    (hx : A.rnd x = x) (hy : A.rnd y = y) (hz : A.rnd z = z) (ha : A.rnd a = a) (hb : A.rnd b = b) (hc : A.rnd c = c)
    (p q r s t : ℚ) (hp : p = A.rnd (A.rnd (x - a) * A.rnd (x - a))) (hq : q = A.rnd (A.rnd (y - b) * A.rnd (y - b)))
    (hr : r = A.rnd (A.rnd (z - c) * A.rnd (z - c))) (hs : s = A.rnd (p + q)) (ht : t = A.rnd (s + r)) :
    (1 - 5 * u) * ((x - a) ^ 2 + (y - b) ^ 2 + (z - c) ^ 2) - 4 * η ≤ t ∧ t ≤ (1 + 6 * u) * ((x - a) ^ 2 + (y - b) ^ 2 + (z - c) ^ 2) + 4 * η := by
  have c1 := sq_coord A u η x a hA hS hx ha hu0 (by linarith)
  have c2 := sq_coord A u η y b hA hS hy hb hu0 (by linarith)
  have c3 := sq_coord A u η z c hA hS hz hc hu0 (by linarith)
  rw [← hp] at c1; rw [← hq] at c2; rw [← hr] at c3
  have hnn : ∀ w : ℚ, 0 ≤ A.rnd (w * w) := by
    intro w; rw [← rnd_zero A]; exact A.mono (mul_self_nonneg w)
  have p0 : 0 ≤ p := by rw [hp]; exact hnn _
  have q0 : 0 ≤ q := by rw [hq]; exact hnn _
  have r0 : 0 ≤ r := by rw [hr]; exact hnn _
  have s0 : 0 ≤ s := by rw [hs, ← rnd_zero A]; exact A.mono (by linarith)
  have f1 := hS p q (by rw [hp, A.idem]) (by rw [hq, A.idem])
  rw [← hs, abs_of_nonneg (show 0 ≤ p + q by linarith), abs_le] at f1
  have f2 := hS s r (by rw [hs, A.idem]) (by rw [hr, A.idem])
  rw [← ht, abs_of_nonneg (show 0 ≤ s + r by linarith), abs_le] at f2
  set S := (x - a) ^ 2 + (y - b) ^ 2 + (z - c) ^ 2 with hSd
  have hS0 : 0 ≤ S := by positivity
  clear_value S
  have sum1 : (1 - u) ^ 3 * S - 3 * η ≤ p + q + r := by rw [hSd]; linarith [c1.1, c2.1, c3.1]
  have sum2 : p + q + r ≤ (1 + u) ^ 3 * S + 3 * η := by rw [hSd]; linarith [c1.2, c2.2, c3.2]
  have g1 : (1 - u) ^ 2 * (p + q + r) ≤ t := by
    have h1 : (1 - u) * ((1 - u) * (p + q) + (1 - u) * r) ≤ (1 - u) * (s + r) := by
      refine mul_le_mul_of_nonneg_left ?_ (by linarith)
      have : 0 ≤ u * r := mul_nonneg hu0 r0
      linarith [f1.1]
    have e : (1 - u) ^ 2 * (p + q + r) = (1 - u) * ((1 - u) * (p + q) + (1 - u) * r) := by ring
    rw [e]; linarith [f2.1]
  have g2 : t ≤ (1 + u) ^ 2 * (p + q + r) := by
    have h1 : (1 + u) * (s + r) ≤ (1 + u) * ((1 + u) * (p + q) + (1 + u) * r) := by
      refine mul_le_mul_of_nonneg_left ?_ (by linarith)
      have : 0 ≤ u * r := mul_nonneg hu0 r0
      linarith [f1.2]
    have e : (1 + u) ^ 2 * (p + q + r) = (1 + u) * ((1 + u) * (p + q) + (1 + u) * r) := by ring
    rw [e]; linarith [f2.2]
  constructor
  · have h1 := mul_le_mul_of_nonneg_left sum1 (sq_nonneg (1 - u))
    have h2 := mul_le_mul_of_nonneg_right (pow5_down u hu0 hu) hS0
    have e : (1 - u) ^ 2 * ((1 - u) ^ 3 * S - 3 * η) = (1 - u) ^ 5 * S - 3 * ((1 - u) ^ 2 * η) := by ring
    have h3 : (1 - u) ^ 2 * η ≤ 1 * η := mul_le_mul_of_nonneg_right (pow2_down u hu0 hu) hη
    linarith
  · have h1 := mul_le_mul_of_nonneg_left sum2 (sq_nonneg (1 + u))
    have h2 := mul_le_mul_of_nonneg_right (pow5_up u hu0 hu) hS0
    have e : (1 + u) ^ 2 * ((1 + u) ^ 3 * S + 3 * η) = (1 + u) ^ 5 * S + 3 * ((1 + u) ^ 2 * η) := by ring
    have h3 : (1 + u) ^ 2 * η ≤ 4 / 3 * η := mul_le_mul_of_nonneg_right (pow2_up u hu0 hu) hη
    linarith

end Fp
end Verif
