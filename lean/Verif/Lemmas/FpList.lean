import Verif.Lemmas.Fp
import Verif.Spec.Fp
/-! The extremes of a list, as the loops of the filters find them. -/
namespace Verif
namespace Fp
open Spec

theorem foldMin_some (l : List Fl) (a : Fl) (ha : a ≠ .nan) :
    ∃ b, l.foldl optMinF (some a) = some b ∧ b ≠ .nan ∧ (b = a ∨ b ∈ l) ∧ b.le a = true ∧ ∀ c ∈ l, c ≠ .nan → b.le c = true := by
  induction l generalizing a with
  | nil => exact ⟨a, rfl, ha, .inl rfl, le_refl' ha, by simp⟩
  | cons v l ih =>
    rw [List.foldl_cons]
    by_cases hv : v.lt a = true
    · have e : optMinF (some a) v = some v := by simp [optMinF, hv]
      have hvn : v ≠ .nan := by rintro rfl; simp [Fl.lt] at hv
      obtain ⟨b, h1, h2, h3, h4, h5⟩ := ih v hvn
      refine ⟨b, by rw [e]; exact h1, h2, .inr ?_, le_trans' h4 (lt_iff.1 hv).1, ?_⟩
      · rcases h3 with h | h
        · rw [h]; exact List.mem_cons_self ..
        · exact List.mem_cons_of_mem _ h
      · intro c hc hcn
        rcases List.mem_cons.1 hc with rfl | hc
        · exact h4
        · exact h5 c hc hcn
    · have e : optMinF (some a) v = some a := by simp [optMinF, hv]
      obtain ⟨b, h1, h2, h3, h4, h5⟩ := ih a ha
      refine ⟨b, by rw [e]; exact h1, h2, ?_, h4, ?_⟩
      · rcases h3 with h | h
        · exact .inl h
        · exact .inr (List.mem_cons_of_mem _ h)
      · intro c hc hcn
        rcases List.mem_cons.1 hc with rfl | hc
        · exact le_trans' h4 ((not_lt_iff hcn ha).1 (by simpa using hv))
        · exact h5 c hc hcn

theorem foldMax_some (l : List Fl) (a : Fl) (ha : a ≠ .nan) :
    ∃ b, l.foldl optMaxF (some a) = some b ∧ b ≠ .nan ∧ (b = a ∨ b ∈ l) ∧ a.le b = true ∧ ∀ c ∈ l, c ≠ .nan → c.le b = true := by
  induction l generalizing a with
  | nil => exact ⟨a, rfl, ha, .inl rfl, le_refl' ha, by simp⟩
  | cons v l ih =>
    rw [List.foldl_cons]
    by_cases hv : a.lt v = true
    · have e : optMaxF (some a) v = some v := by simp [optMaxF, hv]
      have hvn : v ≠ .nan := by rintro rfl; cases a <;> simp [Fl.lt] at hv
      obtain ⟨b, h1, h2, h3, h4, h5⟩ := ih v hvn
      refine ⟨b, by rw [e]; exact h1, h2, .inr ?_, le_trans' (lt_iff.1 hv).1 h4, ?_⟩
      · rcases h3 with h | h
        · rw [h]; exact List.mem_cons_self ..
        · exact List.mem_cons_of_mem _ h
      · intro c hc hcn
        rcases List.mem_cons.1 hc with rfl | hc
        · exact h4
        · exact h5 c hc hcn
    · have e : optMaxF (some a) v = some a := by simp [optMaxF, hv]
      obtain ⟨b, h1, h2, h3, h4, h5⟩ := ih a ha
      refine ⟨b, by rw [e]; exact h1, h2, ?_, h4, ?_⟩
      · rcases h3 with h | h
        · exact .inl h
        · exact .inr (List.mem_cons_of_mem _ h)
      · intro c hc hcn
        rcases List.mem_cons.1 hc with rfl | hc
        · exact le_trans' ((not_lt_iff ha hcn).1 (by simpa using hv)) h4
        · exact h5 c hc hcn

/-- The loops find the extremes of a list of values that are all numbers (or infinite). -/
theorem fold_extremes (l : List Fl) (hne : l ≠ []) (h : ∀ v ∈ l, v ≠ .nan) :
    ∃ lo hi, l.foldl optMinF none = some lo ∧ l.foldl optMaxF none = some hi ∧ Least l lo ∧ Greatest l hi := by
  cases l with
  | nil => exact absurd rfl hne
  | cons a l =>
    have ha := h a (List.mem_cons_self ..)
    obtain ⟨b, h1, -, h3, h4, h5⟩ := foldMin_some l a ha
    obtain ⟨b', h1', -, h3', h4', h5'⟩ := foldMax_some l a ha
    refine ⟨b, b', h1, h1', ⟨?_, ?_⟩, ⟨?_, ?_⟩⟩
    · rcases h3 with h | h
      · rw [h]; exact List.mem_cons_self ..
      · exact List.mem_cons_of_mem _ h
    · intro c hc
      rcases List.mem_cons.1 hc with rfl | hc
      · exact h4
      · exact h5 c hc (h c (List.mem_cons_of_mem _ hc))
    · rcases h3' with h | h
      · rw [h]; exact List.mem_cons_self ..
      · exact List.mem_cons_of_mem _ h
    · intro c hc
      rcases List.mem_cons.1 hc with rfl | hc
      · exact h4'
      · exact h5' c hc (h c (List.mem_cons_of_mem _ hc))

theorem optMin_nan (l : List Fl) : l.foldl optMinF (some .nan) = some .nan := by
  induction l with
  | nil => rfl
  | cons v l ih =>
    have : optMinF (some .nan) v = some .nan := by simp only [optMinF]; cases v <;> simp [Fl.lt]
    rw [List.foldl_cons, this, ih]

theorem optMax_nan (l : List Fl) : l.foldl optMaxF (some .nan) = some .nan := by
  induction l with
  | nil => rfl
  | cons v l ih =>
    have : optMaxF (some .nan) v = some .nan := by simp [optMaxF, Fl.lt]
    rw [List.foldl_cons, this, ih]

theorem optMin_skip (o : Fl) : optMinF (some o) .nan = some o := by simp [optMinF, Fl.lt]

theorem optMax_skip (o : Fl) : optMaxF (some o) .nan = some o := by
  have : o.lt .nan = false := by cases o <;> rfl
  simp [optMaxF, this]

theorem foldMin_filter (l : List Fl) (a : Fl) :
    l.foldl optMinF (some a) = (l.filter (· ≠ .nan)).foldl optMinF (some a) := by
  induction l generalizing a with
  | nil => rfl
  | cons v l ih =>
    by_cases hv : v = .nan
    · subst hv
      rw [List.foldl_cons, optMin_skip, ih]; simp
    · rw [List.filter_cons_of_pos (by simp [hv]), List.foldl_cons, List.foldl_cons]
      have : ∃ b, optMinF (some a) v = some b := by unfold optMinF; dsimp only; split_ifs <;> exact ⟨_, rfl⟩
      obtain ⟨b, hb⟩ := this
      rw [hb, ih]

theorem foldMax_filter (l : List Fl) (a : Fl) :
    l.foldl optMaxF (some a) = (l.filter (· ≠ .nan)).foldl optMaxF (some a) := by
  induction l generalizing a with
  | nil => rfl
  | cons v l ih =>
    by_cases hv : v = .nan
    · subst hv
      rw [List.foldl_cons, optMax_skip, ih]; simp
    · rw [List.filter_cons_of_pos (by simp [hv]), List.foldl_cons, List.foldl_cons]
      have : ∃ b, optMaxF (some a) v = some b := by unfold optMaxF; dsimp only; split_ifs <;> exact ⟨_, rfl⟩
      obtain ⟨b, hb⟩ := this
      rw [hb, ih]

end Fp
end Verif
