import Verif.Lemmas.FpAcc
import Verif.Props.FpTime
/-!
C102: voxel indices in floating point.
-/
namespace Verif
namespace Props
open Spec Fp

theorem coord2idxF_ok {A : Arith} {res x : Fl} {i : ℤ} :
    coord2idxF A res x = .ok i ↔ ∃ q, A.div x res = .fin q ∧ -2147483648 ≤ truncQ q ∧ truncQ q ≤ 2147483647 ∧ truncQ q = i := by
  unfold coord2idxF
  cases A.div x res with
  | fin q =>
    simp only [Fl.fin.injEq, exists_eq_left']
    split_ifs with h
    · simp only [Outcome.ok.injEq]; tauto
    · simp only [reduceCtorEq, false_iff]; tauto
  | pinf => simp
  | ninf => simp
  | nan => simp

theorem truncQ_mono {a b : ℚ} (h : a ≤ b) : truncQ a ≤ truncQ b := by
  unfold truncQ
  split_ifs with h1 h2 h2
  · exact Int.floor_le_floor h
  · exact absurd (le_trans h1 h) h2
  · have h3 : ⌈a⌉ ≤ 0 := Int.ceil_le.2 (by push_cast; linarith)
    have h4 : 0 ≤ ⌊b⌋ := Int.floor_nonneg.2 h2
    omega
  · exact Int.ceil_le_ceil h

theorem truncQ_neg (a : ℚ) : truncQ (-a) = -truncQ a := by
  unfold truncQ
  rcases lt_trichotomy a 0 with h | h | h
  · rw [if_pos (by linarith), if_neg (by linarith), Int.floor_neg]
  · subst h; simp
  · rw [if_neg (by linarith), if_pos h.le, Int.ceil_neg]

theorem truncQ_int (n : ℤ) : truncQ n = n := by unfold truncQ; simp

/-- Coordinates that are not finite numbers, and a resolution of 0, have no voxel: the conversion is undefined behaviour. -/
theorem voxel_float_undefined (A : Arith) (res x : Fl) (h : x = .nan ∨ x = .pinf ∨ x = .ninf ∨ res = .nan ∨ res = .fin 0) :
    coord2idxF A res x = .ub := by
  have : ∀ q, A.div x res ≠ .fin q := by
    intro q
    rcases h with rfl | rfl | rfl | rfl | rfl
    · cases res <;> simp [Arith.div]
    · cases res <;> simp [Arith.div]; split_ifs <;> simp
    · cases res <;> simp [Arith.div]; split_ifs <;> simp
    · cases x <;> simp [Arith.div]
    · cases x <;> simp [Arith.div, infOf]; split_ifs <;> simp
  unfold coord2idxF
  cases hd : A.div x res with
  | fin q => exact absurd hd (this q)
  | pinf => rfl
  | ninf => rfl
  | nan => rfl

theorem div_fin_fl (A : Arith) {x r : ℚ} (hr : 0 < r) : A.div (.fin x) (.fin r) = A.fl (x / r) := by
  simp only [Arith.div, if_neg hr.ne']

/-- The index does not decrease along an axis. -/
theorem voxel_float_monotone (A : Arith) (r x y : ℚ) (hr : 0 < r) (hxy : x ≤ y) (i j : ℤ)
    (hi : coord2idxF A (.fin r) (.fin x) = .ok i) (hj : coord2idxF A (.fin r) (.fin y) = .ok j) : i ≤ j := by
  obtain ⟨q, h1, -, -, rfl⟩ := coord2idxF_ok.1 hi
  obtain ⟨p, h2, -, -, rfl⟩ := coord2idxF_ok.1 hj
  rw [div_fin_fl A hr] at h1 h2
  have h3 := fl_mono A (show x / r ≤ y / r from div_le_div_of_nonneg_right hxy hr.le)
  rw [h1, h2] at h3
  exact truncQ_mono (by simpa [Fl.le] using h3)

/-- The grid is symmetric about the origin. -/
theorem voxel_float_symmetric (A : Arith) (r x : ℚ) (hr : 0 < r) (i : ℤ) (h : coord2idxF A (.fin r) (.fin x) = .ok i) (hi : i ≠ -2147483648) :
    coord2idxF A (.fin r) (.fin (-x)) = .ok (-i) := by
  obtain ⟨q, h1, h2, h3, rfl⟩ := coord2idxF_ok.1 h
  refine coord2idxF_ok.2 ⟨-q, ?_, ?_, ?_, truncQ_neg q⟩
  · rw [div_fin_fl A hr] at h1 ⊢
    rw [neg_div, fl_neg, h1]; rfl
  · rw [truncQ_neg]; omega
  · rw [truncQ_neg]; omega

theorem truncQ_close {a b : ℚ} (h : truncQ a = truncQ b) : |a - b| < 2 ∧ (truncQ a ≠ 0 → |a - b| < 1) := by
  have fa := Int.floor_le a
  have fb := Int.floor_le b
  have fa' := Int.lt_floor_add_one a
  have fb' := Int.lt_floor_add_one b
  have ca := Int.le_ceil a
  have cb := Int.le_ceil b
  have ca' := Int.ceil_lt_add_one a
  have cb' := Int.ceil_lt_add_one b
  unfold truncQ at h ⊢
  split_ifs at h ⊢ with h1 h2 h2
  · have : ((⌊a⌋ : ℤ) : ℚ) = ⌊b⌋ := by rw [h]
    refine ⟨by rw [abs_lt]; constructor <;> linarith, fun _ => by rw [abs_lt]; constructor <;> linarith⟩
  · have e1 : 0 ≤ ⌊a⌋ := Int.floor_nonneg.2 h1
    have e2 : ⌈b⌉ ≤ 0 := Int.ceil_le.2 (by push_cast; linarith)
    have e3 : ⌊a⌋ = 0 := by omega
    have e4 : ⌈b⌉ = 0 := by omega
    rw [e3] at fa'; rw [e4] at cb'
    push_cast at fa' cb'
    refine ⟨by rw [abs_lt]; constructor <;> linarith, fun h0 => absurd e3 h0⟩
  · have e1 : 0 ≤ ⌊b⌋ := Int.floor_nonneg.2 h2
    have e2 : ⌈a⌉ ≤ 0 := Int.ceil_le.2 (by push_cast; linarith)
    have e3 : ⌈a⌉ = 0 := by omega
    have e4 : ⌊b⌋ = 0 := by omega
    rw [e4] at fb'; rw [e3] at ca'
    push_cast at fb' ca'
    refine ⟨by rw [abs_lt]; constructor <;> linarith, fun h0 => absurd e3 h0⟩
  · have : ((⌈a⌉ : ℤ) : ℚ) = ⌈b⌉ := by rw [h]
    refine ⟨by rw [abs_lt]; constructor <;> linarith, fun _ => by rw [abs_lt]; constructor <;> linarith⟩

/-- Two coordinates with the same index are closer than twice the resolution, and closer than the resolution if the index is not 0, but for the rounding of the two
quotients. -/
theorem voxel_float_side (A : Arith) (u η : ℚ) (hA : Accurate A u η) (r x y : ℚ) (hr : 0 < r) (i : ℤ)
    (hx : coord2idxF A (.fin r) (.fin x) = .ok i) (hy : coord2idxF A (.fin r) (.fin y) = .ok i) :
    |x - y| < 2 * r + (u * (|x| + |y|) + 2 * η * r) ∧ (i ≠ 0 → |x - y| < r + (u * (|x| + |y|) + 2 * η * r)) := by
  obtain ⟨q, h1, -, -, e1⟩ := coord2idxF_ok.1 hx
  obtain ⟨p, h2, -, -, e2⟩ := coord2idxF_ok.1 hy
  rw [div_fin_fl A hr] at h1 h2
  have a1 := hA (x / r)
  have a2 := hA (y / r)
  rw [((fl_fin_iff A).1 h1).1, abs_div, abs_of_pos hr] at a1
  rw [((fl_fin_iff A).1 h2).1, abs_div, abs_of_pos hr] at a2
  have hc := truncQ_close (e1.trans e2.symm)
  have key : |x - y| ≤ r * |q - p| + (u * (|x| + |y|) + 2 * η * r) := by
    have e : x - y = r * (q - p) - r * (q - x / r) + r * (p - y / r) := by field_simp; ring
    have b1 : |r * (q - x / r)| ≤ u * |x| + η * r := by
      rw [abs_mul, abs_of_pos hr]
      have := mul_le_mul_of_nonneg_left a1 hr.le
      have e3 : r * (u * (|x| / r) + η) = u * |x| + η * r := by field_simp
      rw [e3] at this; exact this
    have b2 : |r * (p - y / r)| ≤ u * |y| + η * r := by
      rw [abs_mul, abs_of_pos hr]
      have := mul_le_mul_of_nonneg_left a2 hr.le
      have e3 : r * (u * (|y| / r) + η) = u * |y| + η * r := by field_simp
      rw [e3] at this; exact this
    have b3 : |r * (q - p)| = r * |q - p| := by rw [abs_mul, abs_of_pos hr]
    rw [e]
    have t1 := abs_add_le (r * (q - p) - r * (q - x / r)) (r * (p - y / r))
    have t2 := abs_sub (r * (q - p)) (r * (q - x / r))
    linarith
  refine ⟨?_, fun h0 => ?_⟩
  · have := mul_lt_mul_of_pos_left hc.1 hr
    linarith
  · have := mul_lt_mul_of_pos_left (hc.2 (by rw [e1]; exact h0)) hr
    linarith

/-- integers up to 2^24 are `float`s -/
theorem binary32_int (n : ℤ) (h : |n| ≤ 16777216) : binary32.rnd n = n := by
  rcases h.lt_or_eq with h | h
  · have := roundBin_exact 24 (-149) 0 n (by norm_num) (by
      rw [zpow_zero, mul_one, ← Int.cast_abs]
      norm_num
      exact_mod_cast h)
    rw [zpow_zero, mul_one] at this
    exact this
  · rcases abs_eq (by norm_num) |>.1 h with rfl | rfl <;> decide +kernel

theorem binary32_limit : binary32.rnd (2147483520 : ℚ) = 2147483520 := by decide +kernel

/-- In `float`, with a positive resolution: every coordinate of at most 2^31 - 128 resolutions has a voxel, none of 2^31 or more has one. -/
theorem voxel_float_defined (r x : ℚ) (hr : 0 < r) :
    (|x| ≤ 2147483520 * r → ∃ i, coord2idxF binary32 (.fin r) (.fin x) = .ok i) ∧
    (2147483648 * r ≤ x → coord2idxF binary32 (.fin r) (.fin x) = .ub) := by
  have ht : binary32.top = 2 ^ 104 * (2 ^ 24 - 1) := rfl
  constructor
  · intro h
    rw [abs_le] at h
    have h1 : x / r ≤ 2147483520 := by rw [div_le_iff₀ hr]; exact h.2
    have h2 : -2147483520 ≤ x / r := by rw [le_div_iff₀ hr]; linarith
    have r1 := binary32.mono h1
    have r2 := binary32.mono h2
    rw [binary32_limit] at r1
    rw [binary32.rnd_neg, binary32_limit] at r2
    have e : binary32.fl (x / r) = .fin (binary32.rnd (x / r)) := (fl_fin_iff _).2 ⟨rfl, by rw [ht]; norm_num; linarith, by rw [ht]; norm_num; linarith⟩
    refine ⟨_, coord2idxF_ok.2 ⟨_, (div_fin_fl _ hr).trans e, ?_, ?_, rfl⟩⟩
    · have := truncQ_mono r2
      rw [show (-2147483520 : ℚ) = ((-2147483520 : ℤ) : ℚ) by norm_num, truncQ_int] at this
      omega
    · have := truncQ_mono r1
      rw [show (2147483520 : ℚ) = ((2147483520 : ℤ) : ℚ) by norm_num, truncQ_int] at this
      omega
  · intro h
    have h1 : 2147483648 ≤ x / r := by rw [le_div_iff₀ hr]; exact h
    have r1 := binary32.mono h1
    rw [show binary32.rnd (2147483648 : ℚ) = 2147483648 by decide +kernel] at r1
    unfold coord2idxF
    rw [div_fin_fl _ hr]
    cases hf : binary32.fl (x / r) with
    | fin q =>
      rw [← ((fl_fin_iff _).1 hf).1]
      have := truncQ_mono r1
      rw [show (2147483648 : ℚ) = ((2147483648 : ℤ) : ℚ) by norm_num, truncQ_int] at this
      simp only
      rw [if_neg (by omega)]
    | pinf => rfl
    | ninf => rfl
    | nan => rfl

/-- In `float`, up to 2^24 - 1 resolutions from the origin: the index is the exact one or, in absolute value, one more; one more only for a coordinate within one rounding of the
far side of its voxel. -/
theorem voxel_float_exact (r x : ℚ) (hr : 0 < r) (hx : 0 ≤ x) (hn : x < 16777215 * r) :
    ∃ i, coord2idxF binary32 (.fin r) (.fin x) = .ok i ∧ (i = ⌊x / r⌋ ∨
      (i = ⌊x / r⌋ + 1 ∧ ((⌊x / r⌋ : ℚ) + 1) * r - x ≤ x / 2 ^ 24 + r / 2 ^ 150)) := by
  obtain ⟨i, hi⟩ := (voxel_float_defined r x hr).1 (by rw [abs_of_nonneg hx]; linarith)
  refine ⟨i, hi, ?_⟩
  obtain ⟨q, h1, -, -, e1⟩ := coord2idxF_ok.1 hi
  rw [div_fin_fl _ hr] at h1
  have hq := ((fl_fin_iff _).1 h1).1
  have hd : 0 ≤ x / r := div_nonneg hx hr.le
  have hd' : x / r < 16777215 := by rw [div_lt_iff₀ hr]; exact hn
  have hf0 : 0 ≤ ⌊x / r⌋ := Int.floor_nonneg.2 hd
  have hf1 : ⌊x / r⌋ < 16777215 := Int.floor_lt.2 (by push_cast; exact hd')
  have l1 := binary32.mono (Int.floor_le (x / r))
  rw [binary32_int _ (by rw [abs_of_nonneg hf0]; omega), hq] at l1
  have l2 := binary32.mono (Int.lt_floor_add_one (x / r)).le
  rw [show ((⌊x / r⌋ : ℤ) : ℚ) + 1 = ((⌊x / r⌋ + 1 : ℤ) : ℚ) by push_cast; ring, binary32_int _ (by rw [abs_of_nonneg (by omega)]; omega), hq] at l2
  have t1 := truncQ_mono l1
  have t2 := truncQ_mono l2
  rw [truncQ_int, e1] at t1 t2
  rcases (show i = ⌊x / r⌋ ∨ i = ⌊x / r⌋ + 1 by omega) with h | h
  · exact .inl h
  · refine .inr ⟨h, ?_⟩
    have hqe : q = ((⌊x / r⌋ + 1 : ℤ) : ℚ) := by
      refine le_antisymm l2 ?_
      have hq0 : 0 ≤ q := le_trans (by exact_mod_cast hf0) l1
      have : truncQ q = ⌊q⌋ := if_pos hq0
      rw [this, h] at e1
      rw [← e1]
      exact Int.floor_le q
    have a := binary32_accurate (x / r)
    rw [hq, hqe, abs_of_nonneg hd] at a
    have a2 := (abs_le.1 a).2
    push_cast at a2
    have a3 := mul_le_mul_of_nonneg_right a2 hr.le
    have e3 : ((⌊x / r⌋ : ℚ) + 1 - x / r) * r = ((⌊x / r⌋ : ℚ) + 1) * r - x := by field_simp
    have e4 : (1 / 2 ^ 24 * (x / r) + 1 / 2 ^ 150) * r = x / 2 ^ 24 + r / 2 ^ 150 := by field_simp
    rw [e3, e4] at a3
    exact a3

/-- It does happen: the `float` next to 0.2 is a little more than 0.2, so that 1 is a little less than 5 resolutions; yet 1 is put into voxel 5. -/
theorem voxel_float_rounds_up : Finite binary32 (.fin (13421773 / 67108864)) ∧ binary32.fl (1 / 5) = .fin (13421773 / 67108864) ∧
    ⌊(1 : ℚ) / (13421773 / 67108864)⌋ = 4 ∧ coord2idxF binary32 (.fin (13421773 / 67108864)) (.fin 1) = .ok 5 :=
  ⟨⟨_, rfl, by unfold Arith.Rep; decide +kernel⟩, by decide +kernel, by decide +kernel, coord2idxF_ok.2 ⟨5, by decide +kernel, by decide +kernel, by decide +kernel, by decide +kernel⟩⟩

/-! ### examples -/

example : (coord2idxF binary32 (.fin (13421773 / 67108864)) (.fin (-13 / 2))).Sat fun i => i = -32 := by decide +kernel
example : coord2idxF binary32 (.fin (1 / 4)) (.fin (2 ^ 29)) = .ub := Outcome.eq_ub_of (by decide +kernel)
example : coord2idxF binary32 (.fin (1 / 4)) .nan = .ub := voxel_float_undefined _ _ _ (.inl rfl)

end Props
end Verif
