import Verif.Lemmas.FpList
/-! The value of a normalised intensity, in floating point. -/
namespace Verif
namespace Fp
open Spec

theorem clampF_nan_iff (v : Fl) : clampF v (.fin 0) (.fin 1) = .nan ↔ v = .nan := by
  unfold clampF
  cases v with
  | fin q => split_ifs <;> simp
  | pinf => simp [Fl.lt]
  | ninf => simp [Fl.lt]
  | nan => simp [Fl.lt]

theorem clampF_unit (v : Fl) : Unit01 (clampF v (.fin 0) (.fin 1)) ∨ clampF v (.fin 0) (.fin 1) = .nan := by
  cases v with
  | fin q =>
    left
    unfold clampF
    simp only [Fl.lt, decide_eq_true_eq]
    split_ifs with h1 h2
    · exact ⟨0, rfl, le_rfl, zero_le_one⟩
    · exact ⟨1, rfl, zero_le_one, le_rfl⟩
    · exact ⟨q, rfl, by linarith, by linarith⟩
  | pinf => exact .inl ⟨1, by simp [clampF, Fl.lt], zero_le_one, le_rfl⟩
  | ninf => exact .inl ⟨0, by simp [clampF, Fl.lt], le_rfl, zero_le_one⟩
  | nan => exact .inr ((clampF_nan_iff _).2 rfl)

theorem clampF_mono {a b : Fl} (h : a.le b = true) : (clampF a (.fin 0) (.fin 1)).le (clampF b (.fin 0) (.fin 1)) = true := by
  unfold clampF
  cases a <;> cases b <;> simp only [Fl.le, Fl.lt, decide_eq_true_eq, Bool.false_eq_true, if_false, if_true] at h ⊢ <;>
    (try split_ifs) <;> (try simp [Fl.le]) <;> linarith

theorem sub_fin (A : Arith) (a b : ℚ) : A.sub (.fin a) (.fin b) = A.fl (a - b) := by
  simp only [Arith.sub, Fl.neg, Arith.add, sub_eq_add_neg]

theorem fl_nonneg (A : Arith) {x : ℚ} (h : 0 ≤ x) : (∃ q, 0 ≤ q ∧ A.fl x = .fin q ∧ A.rnd x = q) ∨ A.fl x = .pinf := by
  have h1 : 0 ≤ A.rnd x := by rw [← rnd_zero A]; exact A.mono h
  have := top_pos A
  unfold Arith.fl
  rw [if_neg (show ¬ A.rnd x < -A.top by linarith)]
  by_cases h2 : A.top < A.rnd x
  · exact .inr (if_pos h2)
  · exact .inl ⟨_, h1, if_neg h2, rfl⟩

/-- the width of the range and its inverse as they come out of the machine -/
theorem normDelta_cases (A : Arith) (lo hi : ℚ) (h : lo ≤ hi) :
    (A.sub (.fin hi) (.fin lo) = .pinf ∧ A.div (.fin 1) (normDelta A (.fin lo, .fin hi)) = .fin 0) ∨
    (A.sub (.fin hi) (.fin lo) = .fin 0 ∧ A.div (.fin 1) (normDelta A (.fin lo, .fin hi)) = .fin 1) ∨
    (∃ d, 0 < d ∧ A.sub (.fin hi) (.fin lo) = .fin d ∧ A.div (.fin 1) (normDelta A (.fin lo, .fin hi)) = A.fl (1 / d)) := by
  rw [show A.sub (.fin hi) (.fin lo) = A.fl (hi - lo) from sub_fin A hi lo]
  rcases fl_nonneg A (show 0 ≤ hi - lo by linarith) with ⟨d, hd, he, -⟩ | he
  · rcases hd.lt_or_eq with hp | hp
    · right; right
      refine ⟨d, hp, he, ?_⟩
      have : (Fl.fin d).eq (.fin 0) = false := by
        rw [Bool.eq_false_iff]; intro hc
        have := eq_zero_iff.1 hc
        simp only [Fl.fin.injEq] at this; linarith
      simp only [normDelta, sub_fin, he, this, Arith.div, if_neg hp.ne', Bool.false_eq_true, if_false]
    · right; left
      subst hp
      refine ⟨he, ?_⟩
      have : (Fl.fin 0).eq (.fin 0) = true := eq_zero_iff.2 rfl
      simp only [normDelta, sub_fin, he, this, if_true, Arith.div, if_neg one_ne_zero, div_one, fl_one]
  · left
    refine ⟨he, ?_⟩
    have : Fl.pinf.eq (.fin 0) = false := rfl
    simp only [normDelta, sub_fin, he, this, Arith.div, Bool.false_eq_true, if_false]

theorem inv_nonneg (A : Arith) (lo hi : ℚ) (h : lo ≤ hi) :
    Fl.le (.fin 0) (A.div (.fin 1) (normDelta A (.fin lo, .fin hi))) = true := by
  rcases normDelta_cases A lo hi h with ⟨-, h2⟩ | ⟨-, h2⟩ | ⟨d, hd, -, h2⟩
  · rw [h2]; simp [Fl.le]
  · rw [h2]; simp [Fl.le]
  · rw [h2, ← fl_zero A]; exact fl_mono A (by positivity)

/-- The values keep their order, whatever the range is. -/
theorem normValueF_mono (A : Arith) (lo hi i j : ℚ) (h : lo ≤ hi) (hij : i ≤ j)
    (hi' : normValueF A (.fin lo, .fin hi) (.fin i) ≠ .nan) (hj' : normValueF A (.fin lo, .fin hi) (.fin j) ≠ .nan) :
    (normValueF A (.fin lo, .fin hi) (.fin i)).le (normValueF A (.fin lo, .fin hi) (.fin j)) = true := by
  unfold normValueF at hi' hj' ⊢
  rw [ne_eq, clampF_nan_iff] at hi' hj'
  refine clampF_mono (mul_mono A ?_ (inv_nonneg A lo hi h) hi' hj')
  dsimp only
  rw [sub_fin, sub_fin]
  exact fl_mono A (by linarith)

/-- the smallest gives 0 or is not a number -/
theorem normValueF_lo (A : Arith) (lo hi : ℚ) (h : lo ≤ hi) :
    normValueF A (.fin lo, .fin hi) (.fin lo) = .fin 0 ∨ normValueF A (.fin lo, .fin hi) (.fin lo) = .nan := by
  unfold normValueF
  dsimp only
  rw [sub_fin, sub_self, fl_zero]
  rcases normDelta_cases A lo hi h with ⟨-, h2⟩ | ⟨-, h2⟩ | ⟨d, hd, -, h2⟩
  · rw [h2]; simp [Arith.mul, fl_zero, clampF, Fl.lt]
  · rw [h2]; simp [Arith.mul, fl_zero, clampF, Fl.lt]
  · rw [h2]
    rcases fl_nonneg A (show 0 ≤ 1 / d by positivity) with ⟨v, hv, he, -⟩ | he
    · rw [he]; simp [Arith.mul, fl_zero, clampF, Fl.lt]
    · rw [he]; simp [Arith.mul, infOf_zero, clampF, Fl.lt]

/-- The results are numbers as long as neither the width of the range nor its inverse overflows. -/
theorem normValueF_number (A : Arith) (lo hi i : ℚ) (h1 : lo ≤ i) (h2 : i ≤ hi) (hw : A.sub (.fin hi) (.fin lo) ≠ .pinf)
    (hv : A.sub (.fin hi) (.fin lo) = .fin 0 ∨ A.div (.fin 1) (A.sub (.fin hi) (.fin lo)) ≠ .pinf) :
    normValueF A (.fin lo, .fin hi) (.fin i) ≠ .nan := by
  unfold normValueF
  rw [ne_eq, clampF_nan_iff]
  dsimp only
  rw [sub_fin]
  have hle : (A.fl (i - lo)).le (A.fl (hi - lo)) = true := fl_mono A (by linarith)
  rw [← sub_fin A hi lo] at hle
  have hnn := fl_nonneg A (show 0 ≤ i - lo by linarith)
  rcases normDelta_cases A lo hi (by linarith) with ⟨h3, -⟩ | ⟨h3, h4⟩ | ⟨d, hd, h3, h4⟩
  · exact absurd h3 hw
  · rw [h4]
    rcases hnn with ⟨q, -, he, -⟩ | he
    · rw [he]; exact fl_ne_nan A _
    · rw [he, h3] at hle; simp [Fl.le] at hle
  · rw [h4]
    have h5 : A.fl (1 / d) ≠ .pinf := by
      rcases hv with hv | hv
      · rw [h3] at hv; simp only [Fl.fin.injEq] at hv; linarith
      · rw [h3] at hv
        simpa only [Arith.div, if_neg hd.ne'] using hv
    rcases fl_nonneg A (show 0 ≤ 1 / d by positivity) with ⟨v, hv, he, -⟩ | he
    · rw [he]
      rcases hnn with ⟨q, -, he', -⟩ | he'
      · rw [he']; exact fl_ne_nan A _
      · rw [he', h3] at hle; simp [Fl.le] at hle
    · exact absurd he h5

theorem normValueF_hi_nan (A : Arith) (lo hi : ℚ) (h : lo ≤ hi) (hw : A.sub (.fin hi) (.fin lo) = .pinf) :
    normValueF A (.fin lo, .fin hi) (.fin hi) = .nan := by
  unfold normValueF
  rw [clampF_nan_iff]
  dsimp only
  rcases normDelta_cases A lo hi h with ⟨h3, h4⟩ | ⟨h3, h4⟩ | ⟨d, hd, h3, h4⟩
  · rw [h4, hw]; exact infOf_zero
  · rw [h3] at hw; simp at hw
  · rw [h3] at hw; simp at hw

theorem normValueF_lo_nan (A : Arith) (lo hi : ℚ) (h : lo ≤ hi) (hw : A.sub (.fin hi) (.fin lo) ≠ .fin 0)
    (hv : A.div (.fin 1) (A.sub (.fin hi) (.fin lo)) = .pinf) :
    normValueF A (.fin lo, .fin hi) (.fin lo) = .nan := by
  unfold normValueF
  rw [clampF_nan_iff]
  dsimp only
  rw [sub_fin A lo lo, sub_self, fl_zero]
  rcases normDelta_cases A lo hi h with ⟨h3, h4⟩ | ⟨h3, h4⟩ | ⟨d, hd, h3, h4⟩
  · rw [h3] at hv; simp [Arith.div] at hv
  · exact absurd h3 hw
  · rw [h3] at hv
    have h5 : A.fl (1 / d) = .pinf := by simpa only [Arith.div, if_neg hd.ne'] using hv
    rw [h4, h5]; exact infOf_zero

end Fp
end Verif
