import Verif.Model.Fp
import Mathlib.Tactic.Linarith
import Mathlib.Tactic.Ring
import Mathlib.Tactic.FieldSimp
import Mathlib.Tactic.Positivity
import Mathlib.Tactic.NormNum
import Mathlib.Algebra.Order.Field.Power
namespace Verif
namespace Fp

theorem nearest_mono : Monotone nearest := by
  intro x y h
  have hf : ⌊x⌋ ≤ ⌊y⌋ := Int.floor_le_floor h
  rcases hf.lt_or_eq with hlt | heq
  · have h1 : nearest x ≤ ⌊x⌋ + 1 := by unfold nearest; split_ifs <;> omega
    have h2 : ⌊y⌋ ≤ nearest y := by unfold nearest; split_ifs <;> omega
    omega
  · unfold nearest
    rw [← heq]
    split_ifs <;> first | omega | (exfalso; linarith)

theorem nearest_int (n : ℤ) : nearest n = n := by
  unfold nearest
  rw [Int.floor_intCast, if_pos (by norm_num)]

theorem nearest_neg (x : ℚ) : nearest (-x) = -nearest x := by
  by_cases hx : x = ⌊x⌋
  · rw [hx, nearest_int, show (-(⌊x⌋ : ℚ)) = ((-⌊x⌋ : ℤ) : ℚ) by push_cast; ring, nearest_int]
  · have h1 : ⌊-x⌋ = -⌊x⌋ - 1 := by
      rw [Int.floor_eq_iff]
      have h2 := Int.floor_le x
      have h3 := Int.lt_floor_add_one x
      have h4 : (⌊x⌋ : ℚ) < x := lt_of_le_of_ne h2 (Ne.symm hx)
      push_cast
      constructor <;> linarith
    have hc : ((⌊-x⌋ : ℤ) : ℚ) = -⌊x⌋ - 1 := by rw [h1]; push_cast; ring
    unfold nearest
    rw [hc, h1]
    split_ifs <;> first | omega | (exfalso; linarith)

theorem two_zpow_pos (k : ℤ) : (0 : ℚ) < 2 ^ k := zpow_pos (by norm_num) k

theorem zpow_int {k : ℤ} (h : 0 ≤ k) : ∃ n : ℤ, (2 : ℚ) ^ k = n := by
  obtain ⟨m, rfl⟩ := Int.eq_ofNat_of_zero_le h
  exact ⟨2 ^ m, by push_cast; exact zpow_natCast 2 m⟩

theorem roundBin_neg (p : ℕ) (emin : ℤ) (x : ℚ) : roundBin p emin (-x) = -roundBin p emin x := by
  have h : ulpExp p emin (-x) = ulpExp p emin x := by unfold ulpExp; rw [abs_neg]
  unfold roundBin
  rw [h, neg_div, nearest_neg]
  push_cast
  ring

theorem roundBin_zero (p : ℕ) (emin : ℤ) : roundBin p emin 0 = 0 := by
  unfold roundBin
  rw [zero_div, show (0 : ℚ) = ((0 : ℤ) : ℚ) by norm_num, nearest_int]
  norm_num

/-- a multiple of the unit is not rounded -/
theorem roundBin_mult (p : ℕ) (emin : ℤ) (x : ℚ) (n : ℤ) (h : x = n * 2 ^ ulpExp p emin x) : roundBin p emin x = x := by
  unfold roundBin
  have : x / 2 ^ ulpExp p emin x = n := by
    rw [div_eq_iff (two_zpow_pos _).ne']; exact h
  rw [this, nearest_int]; exact h.symm

/-- Powers of two from the smallest unit on are numbers of the format. -/
theorem le_round_of_pow (p : ℕ) (emin k : ℤ) (x : ℚ) (hk : ulpExp p emin x ≤ k) (h : (2 : ℚ) ^ k ≤ x) :
    2 ^ k ≤ roundBin p emin x := by
  obtain ⟨n, hn⟩ := zpow_int (k := k - ulpExp p emin x) (by omega)
  have he : (2 : ℚ) ^ k = n * 2 ^ ulpExp p emin x := by
    rw [← hn, ← zpow_add₀ (by norm_num)]; congr 1; omega
  unfold roundBin
  rw [he]
  refine mul_le_mul_of_nonneg_right ?_ (two_zpow_pos _).le
  have : n ≤ nearest (x / 2 ^ ulpExp p emin x) := by
    rw [← nearest_int n]
    refine nearest_mono ?_
    rw [le_div_iff₀ (two_zpow_pos _), ← he]; exact h
  exact_mod_cast this

theorem round_le_of_pow (p : ℕ) (emin k : ℤ) (x : ℚ) (hk : ulpExp p emin x ≤ k) (h : x ≤ (2 : ℚ) ^ k) :
    roundBin p emin x ≤ 2 ^ k := by
  obtain ⟨n, hn⟩ := zpow_int (k := k - ulpExp p emin x) (by omega)
  have he : (2 : ℚ) ^ k = n * 2 ^ ulpExp p emin x := by
    rw [← hn, ← zpow_add₀ (by norm_num)]; congr 1; omega
  unfold roundBin
  rw [he]
  refine mul_le_mul_of_nonneg_right ?_ (two_zpow_pos _).le
  have : nearest (x / 2 ^ ulpExp p emin x) ≤ n := by
    rw [← nearest_int n]
    refine nearest_mono ?_
    rw [div_le_iff₀ (two_zpow_pos _), ← he]; exact h
  exact_mod_cast this

theorem roundBin_nonneg (p : ℕ) (emin : ℤ) (x : ℚ) (h : 0 ≤ x) : 0 ≤ roundBin p emin x := by
  unfold roundBin
  refine mul_nonneg ?_ (two_zpow_pos _).le
  have : nearest ((0 : ℤ) : ℚ) ≤ nearest (x / 2 ^ ulpExp p emin x) := nearest_mono (by
    push_cast; exact div_nonneg h (two_zpow_pos _).le)
  rw [nearest_int] at this
  exact_mod_cast this

theorem roundBin_mono_pos (p : ℕ) (hp : 1 ≤ p) (emin : ℤ) (x y : ℚ) (hx : 0 < x) (h : x ≤ y) :
    roundBin p emin x ≤ roundBin p emin y := by
  have hy : 0 < y := lt_of_lt_of_le hx h
  have hlog : Int.log 2 x ≤ Int.log 2 y := Int.log_mono_right hx h
  have ex : ulpExp p emin x = max (Int.log 2 x - p + 1) emin := by unfold ulpExp; rw [abs_of_pos hx]
  have ey : ulpExp p emin y = max (Int.log 2 y - p + 1) emin := by unfold ulpExp; rw [abs_of_pos hy]
  have hle : ulpExp p emin x ≤ ulpExp p emin y := by rw [ex, ey]; omega
  rcases hle.lt_or_eq with hlt | heq
  · have h1 : ulpExp p emin y = Int.log 2 y - p + 1 := by omega
    have h2 : Int.log 2 x + 1 ≤ Int.log 2 y := by omega
    have h3 : (2 : ℚ) ^ Int.log 2 y ≤ y := by exact_mod_cast Int.zpow_log_le_self (by norm_num) hy
    have h4 : x < (2 : ℚ) ^ (Int.log 2 x + 1) := by exact_mod_cast Int.lt_zpow_succ_log_self (by norm_num) x
    have h5 : (2 : ℚ) ^ (Int.log 2 x + 1) ≤ 2 ^ Int.log 2 y := zpow_le_zpow_right₀ (by norm_num) h2
    exact le_trans (round_le_of_pow p emin (Int.log 2 y) x (by omega) (by linarith))
      (le_round_of_pow p emin (Int.log 2 y) y (by omega) h3)
  · unfold roundBin
    rw [← heq]
    refine mul_le_mul_of_nonneg_right ?_ (two_zpow_pos _).le
    exact_mod_cast nearest_mono (div_le_div_of_nonneg_right h (two_zpow_pos _).le)

theorem roundBin_mono (p : ℕ) (hp : 1 ≤ p) (emin : ℤ) : Monotone (roundBin p emin) := by
  intro x y h
  rcases lt_trichotomy x 0 with hx | hx | hx
  · rcases lt_or_ge y 0 with hy | hy
    · have := roundBin_mono_pos p hp emin (-y) (-x) (by linarith) (by linarith)
      rw [roundBin_neg, roundBin_neg] at this
      linarith
    · have h1 := roundBin_nonneg p emin (-x) (by linarith)
      rw [roundBin_neg] at h1
      have h2 := roundBin_nonneg p emin y hy
      linarith
  · subst hx
    rw [roundBin_zero]
    exact roundBin_nonneg p emin y h
  · exact roundBin_mono_pos p hp emin x y hx h

theorem roundBin_idem_pos (p : ℕ) (hp : 1 ≤ p) (emin : ℤ) (x : ℚ) (hx : 0 < x) :
    roundBin p emin (roundBin p emin x) = roundBin p emin x := by
  set e := ulpExp p emin x with he
  set n := nearest (x / 2 ^ e) with hn
  have hr : roundBin p emin x = n * 2 ^ e := rfl
  have ex : e = max (Int.log 2 x - p + 1) emin := by rw [he]; unfold ulpExp; rw [abs_of_pos hx]
  have hr0 := roundBin_nonneg p emin x hx.le
  rcases hr0.lt_or_eq with hr1 | hr1
  · have hle : roundBin p emin x ≤ 2 ^ (e + p) := by
      refine round_le_of_pow p emin (e + p) x (by omega) ?_
      have h4 : x < (2 : ℚ) ^ (Int.log 2 x + 1) := by exact_mod_cast Int.lt_zpow_succ_log_self (by norm_num) x
      exact h4.le.trans (zpow_le_zpow_right₀ (by norm_num) (by omega))
    have er : ulpExp p emin (roundBin p emin x) = max (Int.log 2 (roundBin p emin x) - p + 1) emin := by
      unfold ulpExp; rw [abs_of_pos hr1]
    rcases hle.lt_or_eq with hlt | heq
    · have hl : Int.log 2 (roundBin p emin x) < e + p := by
        have h3 : (2 : ℚ) ^ Int.log 2 (roundBin p emin x) ≤ roundBin p emin x := by exact_mod_cast Int.zpow_log_le_self (by norm_num) hr1
        exact (zpow_lt_zpow_iff_right₀ (by norm_num : (1 : ℚ) < 2)).1 (lt_of_le_of_lt h3 hlt)
      have h5 : ulpExp p emin (roundBin p emin x) ≤ e := by omega
      obtain ⟨m, hm⟩ := zpow_int (k := e - ulpExp p emin (roundBin p emin x)) (by omega)
      refine roundBin_mult p emin _ (n * m) ?_
      push_cast
      rw [← hm, mul_assoc, ← zpow_add₀ (by norm_num), hr]
      congr 2; omega
    · have hl : Int.log 2 (roundBin p emin x) = e + p := by
        rw [heq]
        have := Int.log_zpow (R := ℚ) (b := 2) (by norm_num) (e + p)
        exact_mod_cast this
      have h5 : ulpExp p emin (roundBin p emin x) ≤ e + p := by omega
      obtain ⟨m, hm⟩ := zpow_int (k := e + p - ulpExp p emin (roundBin p emin x)) (by omega)
      refine roundBin_mult p emin _ m ?_
      rw [← hm, ← zpow_add₀ (by norm_num), heq]
      congr 1; rw [← heq]; omega
  · rw [← hr1, roundBin_zero]

theorem roundBin_idem (p : ℕ) (hp : 1 ≤ p) (emin : ℤ) (x : ℚ) :
    roundBin p emin (roundBin p emin x) = roundBin p emin x := by
  rcases lt_trichotomy x 0 with hx | hx | hx
  · have := roundBin_idem_pos p hp emin (-x) (by linarith)
    rw [roundBin_neg, roundBin_neg] at this
    linarith
  · subst hx; rw [roundBin_zero, roundBin_zero]
  · exact roundBin_idem_pos p hp emin x hx

theorem roundBin_one (p : ℕ) (hp : 1 ≤ p) (emin : ℤ) (he : emin ≤ 0) : roundBin p emin 1 = 1 := by
  have e1 : ulpExp p emin 1 = max (0 - (p : ℤ) + 1) emin := by unfold ulpExp; rw [abs_one, Int.log_one_right]
  obtain ⟨n, hn⟩ := zpow_int (k := - ulpExp p emin 1) (by omega)
  refine roundBin_mult p emin 1 n ?_
  rw [← hn, ← zpow_add₀ (by norm_num)]
  simp

/-- A binary format with rounding to nearest. -/
def binary (p : ℕ) (hp : 1 ≤ p) (emin : ℤ) (he : emin ≤ 0) (top : ℚ) (hr : roundBin p emin top = top) (ht : 1 ≤ top) : Arith where
  rnd := roundBin p emin
  top := top
  mono := roundBin_mono p hp emin
  idem := roundBin_idem p hp emin
  rnd_neg := roundBin_neg p emin
  rnd_one := roundBin_one p hp emin he
  rnd_top := hr
  one_le_top := ht

/-- `float` -/
def binary32 : Arith := binary 24 (by norm_num) (-149) (by norm_num) (2 ^ 104 * (2 ^ 24 - 1)) (by decide +kernel)
  (by norm_num)

/-- `double` -/
def binary64 : Arith := binary 53 (by norm_num) (-1074) (by norm_num) (2 ^ 971 * (2 ^ 53 - 1))
  (by decide +kernel) (one_le_mul_of_one_le_of_one_le (one_le_pow₀ (by norm_num)) (by norm_num))

/-! ### laws of any arithmetic -/

variable (A : Arith)

theorem rnd_zero : A.rnd 0 = 0 := by
  have := A.rnd_neg 0
  rw [neg_zero] at this
  linarith

theorem top_pos : 0 < A.top := lt_of_lt_of_le one_pos A.one_le_top

theorem fl_zero : A.fl 0 = .fin 0 := by
  have := top_pos A
  unfold Arith.fl
  rw [rnd_zero, if_neg (by linarith), if_neg (by linarith)]

theorem fl_one : A.fl 1 = .fin 1 := by
  have := A.one_le_top
  unfold Arith.fl
  rw [A.rnd_one, if_neg (by linarith), if_neg (by linarith)]

theorem fl_ne_nan (x : ℚ) : A.fl x ≠ .nan := by unfold Arith.fl; split_ifs <;> simp

theorem fl_fin_iff {x q : ℚ} : A.fl x = .fin q ↔ A.rnd x = q ∧ -A.top ≤ A.rnd x ∧ A.rnd x ≤ A.top := by
  unfold Arith.fl
  split_ifs with h1 h2
  · simp only [reduceCtorEq, false_iff]; rintro ⟨-, -, h⟩; linarith
  · simp only [reduceCtorEq, false_iff]; rintro ⟨-, h, -⟩; linarith
  · simp only [Fl.fin.injEq]
    exact ⟨fun h => ⟨h, by linarith, by linarith⟩, fun h => h.1⟩

theorem fl_mono {x y : ℚ} (h : x ≤ y) : (A.fl x).le (A.fl y) = true := by
  have hm := A.mono h
  have := top_pos A
  unfold Arith.fl
  split_ifs <;> simp_all [Fl.le] <;> linarith

theorem fl_neg (x : ℚ) : A.fl (-x) = (A.fl x).neg := by
  have := top_pos A
  unfold Arith.fl
  rw [A.rnd_neg]
  split_ifs <;> simp_all [Fl.neg] <;> linarith

theorem le_refl' {a : Fl} (h : a ≠ .nan) : a.le a = true := by cases a <;> simp_all [Fl.le]

theorem le_trans' {a b c : Fl} (h1 : a.le b = true) (h2 : b.le c = true) : a.le c = true := by
  cases a <;> cases b <;> cases c <;> simp_all [Fl.le] <;> linarith

theorem le_antisymm' {a b : Fl} (h1 : a.le b = true) (h2 : b.le a = true) : a = b := by
  cases a <;> cases b <;> simp_all [Fl.le] ; linarith

theorem le_total' {a b : Fl} (ha : a ≠ .nan) (hb : b ≠ .nan) : a.le b = true ∨ b.le a = true := by
  cases a <;> cases b <;> simp_all [Fl.le]; exact le_total _ _

theorem lt_iff {a b : Fl} : a.lt b = true ↔ a.le b = true ∧ b.le a = false := by
  cases a <;> cases b <;> simp [Fl.le, Fl.lt]
  intro h; linarith

theorem not_lt_iff {a b : Fl} (ha : a ≠ .nan) (hb : b ≠ .nan) : a.lt b = false ↔ b.le a = true := by
  cases a <;> cases b <;> simp_all [Fl.le, Fl.lt]

theorem le_ne_nan {a b : Fl} (h : a.le b = true) : a ≠ .nan ∧ b ≠ .nan := by
  cases a <;> cases b <;> simp_all [Fl.le]

theorem eq_zero_iff {a : Fl} : a.eq (.fin 0) = true ↔ a = .fin 0 := by
  unfold Fl.eq
  rw [Bool.and_eq_true]
  constructor
  · rintro ⟨h1, h2⟩; exact le_antisymm' h1 h2
  · rintro rfl; simp [Fl.le]

theorem add_mono {a b c : Fl} (h : a.le b = true) (h1 : A.add a c ≠ .nan) (h2 : A.add b c ≠ .nan) :
    (A.add a c).le (A.add b c) = true := by
  cases a <;> cases b <;> cases c <;> simp_all [Fl.le, Arith.add]
  · exact fl_mono A (by linarith)
  · split <;> simp_all

theorem sub_mono {a b c : Fl} (h : a.le b = true) (h1 : A.sub a c ≠ .nan) (h2 : A.sub b c ≠ .nan) :
    (A.sub a c).le (A.sub b c) = true := add_mono A h h1 h2

theorem infOf_pos {q : ℚ} (h : 0 < q) : infOf q = .pinf := if_pos h

theorem infOf_ne_nan {q : ℚ} (h : infOf q ≠ .nan) : q ≠ 0 := by
  rintro rfl; exact h (by decide +kernel)

theorem infOf_cases {q : ℚ} (h : infOf q ≠ .nan) : (0 < q ∧ infOf q = .pinf) ∨ (q < 0 ∧ infOf q = .ninf) := by
  rcases lt_trichotomy q 0 with h1 | h1 | h1
  · exact .inr ⟨h1, by unfold infOf; rw [if_neg (by linarith), if_pos h1]⟩
  · exact absurd h1 (infOf_ne_nan h)
  · exact .inl ⟨h1, if_pos h1⟩

theorem infOf_mono {p q : ℚ} (h : p ≤ q) (hp : infOf p ≠ .nan) (hq : infOf q ≠ .nan) : (infOf p).le (infOf q) = true := by
  rcases infOf_cases hp with ⟨h1, h2⟩ | ⟨h1, h2⟩ <;> rcases infOf_cases hq with ⟨h3, h4⟩ | ⟨h3, h4⟩ <;> rw [h2, h4] <;>
    first | rfl | (exfalso; linarith)

theorem le_pinf {a : Fl} (h : a ≠ .nan) : a.le .pinf = true := by cases a <;> simp_all [Fl.le]

theorem ninf_le {a : Fl} (h : a ≠ .nan) : Fl.le .ninf a = true := by cases a <;> simp_all [Fl.le]

theorem infOf_zero : infOf 0 = .nan := by decide +kernel

theorem mul_mono {a b c : Fl} (h : a.le b = true) (hc : Fl.le (.fin 0) c = true) (h1 : A.mul a c ≠ .nan) (h2 : A.mul b c ≠ .nan) :
    (A.mul a c).le (A.mul b c) = true := by
  cases c with
  | nan => simp [Fl.le] at hc
  | ninf => simp [Fl.le] at hc
  | fin c =>
    have hc' : 0 ≤ c := by simpa [Fl.le] using hc
    rcases hc'.lt_or_eq with hp | hp
    · have hi := infOf_pos hp
      cases a <;> cases b <;> simp only [Fl.le, Arith.mul, hi, Fl.neg, decide_eq_true_eq, Bool.false_eq_true] at h ⊢
      · exact fl_mono A (mul_le_mul_of_nonneg_right h hc')
      · exact le_pinf (fl_ne_nan A _)
      · exact ninf_le (fl_ne_nan A _)
    · subst hp
      cases a <;> cases b <;> simp only [Fl.le, Arith.mul, infOf_zero, Fl.neg, decide_eq_true_eq, Bool.false_eq_true, ne_eq,
        not_true_eq_false] at h h1 h2 ⊢
      exact fl_mono A (mul_le_mul_of_nonneg_right h hc')
  | pinf =>
    cases a <;> cases b <;> simp only [Fl.le, Arith.mul, decide_eq_true_eq, Bool.false_eq_true, ne_eq] at h h1 h2 ⊢
    · exact infOf_mono h h1 h2
    · exact le_pinf h1

theorem neg_le_neg' {a b : Fl} (h : a.le b = true) : b.neg.le a.neg = true := by
  cases a <;> cases b <;> simp_all [Fl.le, Fl.neg]

end Fp
end Verif
