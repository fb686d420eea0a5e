import Verif.Spec.Fp
import Verif.Lemmas.Fp
/-!
The arithmetic of the machine is that of IEEE 754: when the result is not a number, an infinity, and what it is otherwise.  (Part of C99–C106.)
-/
namespace Verif
namespace Props
open Spec Fp

/-- an infinity -/
def IsInf (v : Fl) : Prop := v = .pinf ∨ v = .ninf

/-- the sign of a value: -1, 0 or 1 -/
def signOf : Fl → ℤ
  | .ninf => -1
  | .pinf => 1
  | .nan => 0
  | .fin q => if 0 < q then 1 else if q < 0 then -1 else 0

/-- Sums: not a number exactly if an operand is not, or they are infinities of different signs; otherwise an infinite operand gives itself. -/
theorem float_add_special (A : Arith) (a b : Fl) :
    (A.add a b = .nan ↔ a = .nan ∨ b = .nan ∨ (IsInf a ∧ IsInf b ∧ a ≠ b)) ∧
    (A.add a b ≠ .nan → IsInf a → A.add a b = a) ∧ (A.add a b ≠ .nan → IsInf b → A.add a b = b) := by
  cases a <;> cases b <;> simp [Arith.add, IsInf, fl_ne_nan]

/-- Products: not a number exactly if an operand is not, or one is infinite and the other 0; otherwise with an infinite operand the infinity whose sign is the product of
the signs. -/
theorem float_mul_special (A : Arith) (a b : Fl) :
    (A.mul a b = .nan ↔ a = .nan ∨ b = .nan ∨ (IsInf a ∧ b = .fin 0) ∨ (a = .fin 0 ∧ IsInf b)) ∧
    (A.mul a b ≠ .nan → IsInf a ∨ IsInf b → IsInf (A.mul a b) ∧ signOf (A.mul a b) = signOf a * signOf b) := by
  have key : ∀ q : ℚ, q = 0 ∨ (0 < q ∧ q ≠ 0 ∧ ¬ q < 0) ∨ (q < 0 ∧ q ≠ 0 ∧ ¬ 0 < q) := by
    intro q
    rcases lt_trichotomy q 0 with h | h | h
    · exact .inr (.inr ⟨h, h.ne, h.le.not_gt⟩)
    · exact .inl h
    · exact .inr (.inl ⟨h, h.ne', h.le.not_gt⟩)
  cases a with
  | fin p =>
    cases b with
    | fin q => simp [Arith.mul, IsInf, fl_ne_nan]
    | nan => simp [Arith.mul]
    | pinf => rcases key p with rfl | ⟨h1, h2, h3⟩ | ⟨h1, h2, h3⟩ <;> simp only [Arith.mul, infOf, IsInf, signOf, if_pos, *] <;> simp [*]
    | ninf => rcases key p with rfl | ⟨h1, h2, h3⟩ | ⟨h1, h2, h3⟩ <;> simp only [Arith.mul, infOf, IsInf, signOf, Fl.neg, if_pos, *] <;> simp [*]
  | nan => simp [Arith.mul]
  | pinf =>
    cases b with
    | fin p => rcases key p with rfl | ⟨h1, h2, h3⟩ | ⟨h1, h2, h3⟩ <;> simp only [Arith.mul, infOf, IsInf, signOf, if_pos, *] <;> simp [*]
    | nan => simp [Arith.mul]
    | pinf => simp [Arith.mul, IsInf, signOf]
    | ninf => simp [Arith.mul, IsInf, signOf]
  | ninf =>
    cases b with
    | fin p => rcases key p with rfl | ⟨h1, h2, h3⟩ | ⟨h1, h2, h3⟩ <;> simp only [Arith.mul, infOf, IsInf, signOf, Fl.neg, if_pos, *] <;> simp [*]
    | nan => simp [Arith.mul]
    | pinf => simp [Arith.mul, IsInf, signOf]
    | ninf => simp [Arith.mul, IsInf, signOf]

/-- Quotients: not a number exactly if an operand is not, both are 0 or both infinite; a finite number by an infinity is 0; a number by 0 is infinite. -/
theorem float_div_special (A : Arith) (a b : Fl) :
    (A.div a b = .nan ↔ a = .nan ∨ b = .nan ∨ (a = .fin 0 ∧ b = .fin 0) ∨ (IsInf a ∧ IsInf b)) ∧
    (∀ q, a = .fin q → IsInf b → A.div a b = .fin 0) ∧
    (∀ q, a = .fin q → q ≠ 0 → b = .fin 0 → IsInf (A.div a b) ∧ signOf (A.div a b) = signOf a) ∧
    (∀ q, IsInf a → b = .fin q → q ≠ 0 → IsInf (A.div a b) ∧ signOf (A.div a b) = signOf a * signOf b) := by
  have key : ∀ q : ℚ, q = 0 ∨ (0 < q ∧ q ≠ 0 ∧ ¬ q < 0) ∨ (q < 0 ∧ q ≠ 0 ∧ ¬ 0 < q) := by
    intro q
    rcases lt_trichotomy q 0 with h | h | h
    · exact .inr (.inr ⟨h, h.ne, h.le.not_gt⟩)
    · exact .inl h
    · exact .inr (.inl ⟨h, h.ne', h.le.not_gt⟩)
  cases a with
  | fin p =>
    cases b with
    | fin q =>
      by_cases hq : q = 0
      · subst hq
        rcases key p with rfl | ⟨h1, h2, h3⟩ | ⟨h1, h2, h3⟩ <;> simp only [Arith.div, infOf, IsInf, signOf, if_pos, *] <;> simp [*]
      · simp [Arith.div, hq, fl_ne_nan, IsInf]
    | nan => simp [Arith.div, IsInf]
    | pinf => simp [Arith.div, IsInf]
    | ninf => simp [Arith.div, IsInf]
  | nan => simp [Arith.div, IsInf]
  | pinf =>
    cases b with
    | fin p => rcases key p with rfl | ⟨h1, h2, h3⟩ | ⟨h1, h2, h3⟩ <;> simp only [Arith.div, IsInf, signOf, if_pos, *] <;> simp [*]
    | nan => simp [Arith.div, IsInf]
    | pinf => simp [Arith.div, IsInf]
    | ninf => simp [Arith.div, IsInf]
  | ninf =>
    cases b with
    | fin p => rcases key p with rfl | ⟨h1, h2, h3⟩ | ⟨h1, h2, h3⟩ <;> simp only [Arith.div, IsInf, signOf, if_pos, *] <;> simp [*]
    | nan => simp [Arith.div, IsInf]
    | pinf => simp [Arith.div, IsInf]
    | ninf => simp [Arith.div, IsInf]

/-- `v` is the exact result `x` rounded: finite if the rounded number is in range, an infinity of its sign if not. -/
def Rounded (A : Arith) (x : ℚ) (v : Fl) : Prop :=
  (|A.rnd x| ≤ A.top ∧ v = .fin (A.rnd x)) ∨ (A.top < |A.rnd x| ∧ v = if 0 < x then .pinf else .ninf)

theorem fl_rounded (A : Arith) (x : ℚ) : Rounded A x (A.fl x) := by
  unfold Rounded Arith.fl
  have ht := top_pos A
  have pos : 0 < x → 0 ≤ A.rnd x := fun h => by have := A.mono h.le; rwa [rnd_zero] at this
  have neg : ¬ 0 < x → A.rnd x ≤ 0 := fun h => by have := A.mono (not_lt.1 h); rwa [rnd_zero] at this
  by_cases h1 : A.top < A.rnd x
  · right
    rw [if_pos h1]
    refine ⟨h1.trans_le (le_abs_self _), ?_⟩
    by_cases hx : 0 < x
    · rw [if_pos hx]
    · exact absurd (neg hx) (by linarith)
  · rw [if_neg h1]
    by_cases h2 : A.rnd x < -A.top
    · right
      rw [if_pos h2]
      refine ⟨by have := neg_le_abs (A.rnd x); linarith, ?_⟩
      by_cases hx : 0 < x
      · exact absurd (pos hx) (by linarith)
      · rw [if_neg hx]
    · left
      rw [if_neg h2]
      exact ⟨abs_le.2 ⟨not_lt.1 h2, not_lt.1 h1⟩, rfl⟩

/-- With finite operands the four operations give the exact result, rounded. -/
theorem float_ops_rounded (A : Arith) (a b : ℚ) :
    Rounded A (a + b) (A.add (.fin a) (.fin b)) ∧ Rounded A (a - b) (A.sub (.fin a) (.fin b)) ∧
    Rounded A (a * b) (A.mul (.fin a) (.fin b)) ∧ (b ≠ 0 → Rounded A (a / b) (A.div (.fin a) (.fin b))) := by
  refine ⟨fl_rounded A _, ?_, fl_rounded A _, fun h => ?_⟩
  · have : A.sub (.fin a) (.fin b) = A.fl (a - b) := by rw [sub_eq_add_neg]; rfl
    rw [this]; exact fl_rounded A _
  · have : A.div (.fin a) (.fin b) = A.fl (a / b) := by simp only [Arith.div, if_neg h]
    rw [this]; exact fl_rounded A _

/-- Comparisons are those of the extended reals, and false with a value that is not a number. -/
theorem float_compare (a b : Fl) :
    (a = .nan ∨ b = .nan → a.lt b = false ∧ a.le b = false ∧ a.eq b = false) ∧
    (a ≠ .nan → b ≠ .nan → (a.lt b = true ↔ a.le b = true ∧ a ≠ b) ∧ (a.le b = true ∨ b.le a = true) ∧ (a.eq b = true ↔ a = b)) ∧
    (∀ p q : ℚ, Fl.le (.fin p) (.fin q) = true ↔ p ≤ q) ∧ (b ≠ .nan → Fl.le .ninf b = true ∧ Fl.le b .pinf = true) := by
  refine ⟨?_, ?_, by simp [Fl.le], ?_⟩
  · rintro (rfl | rfl)
    · cases b <;> simp [Fl.lt, Fl.le, Fl.eq]
    · cases a <;> simp [Fl.lt, Fl.le, Fl.eq]
  · intro ha hb
    refine ⟨?_, le_total' ha hb, ?_⟩
    · cases a <;> cases b <;> simp_all [Fl.lt, Fl.le]
      exact lt_iff_le_and_ne
    · unfold Fl.eq
      rw [Bool.and_eq_true]
      exact ⟨fun h => le_antisymm' h.1 h.2, by rintro rfl; exact ⟨le_refl' ha, le_refl' ha⟩⟩
  · intro h
    exact ⟨ninf_le h, le_pinf h⟩

example : Rounded binary32 (1 / 3) (binary32.div (.fin 1) (.fin 3)) := (float_ops_rounded binary32 1 3).2.2.2 (by norm_num)
example : binary32.sub .pinf .pinf = .nan := (float_add_special binary32 .pinf (Fl.neg .pinf)).1.2 (.inr (.inr ⟨.inl rfl, .inr rfl, by simp [Fl.neg]⟩))

end Props
end Verif
