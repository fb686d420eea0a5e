import Mathlib.Tactic.Ring
import Mathlib.Tactic.Linarith
import Mathlib.Data.List.Induction
import Verif.Lemmas.AMap
import Verif.Spec.Velocity
set_option linter.unusedSimpArgs false
set_option linter.unusedSectionVars false
namespace Verif
namespace Vel
variable {K V P : Type} [Field K] [LinearOrder K]

theorem run_append (b : Buf K V) (a c : List (Op K V)) : b.run (a ++ c) = (b.run a).run c := by
  simp [Buf.run]
theorem run_snoc (b : Buf K V) (a : List (Op K V)) (o : Op K V) : b.run (a ++ [o]) = (b.run a).apply o := by
  simp [Buf.run]

theorem apply_window (b : Buf K V) (o : Op K V) : (b.apply o).maxWindow = b.maxWindow := by cases o <;> rfl
theorem run_window (b : Buf K V) (ops : List (Op K V)) : (b.run ops).maxWindow = b.maxWindow := by
  induction ops using List.reverseRecOn with
  | nil => rfl
  | append_singleton l o ih => rw [run_snoc, apply_window, ih]

theorem apply_sorted (b : Buf K V) (o : Op K V) (h : AMap.Sorted b.lin ∧ AMap.Sorted b.ang) :
    AMap.Sorted (b.apply o).lin ∧ AMap.Sorted (b.apply o).ang := by
  cases o with
  | lin t v => exact ⟨(AMap.sorted_set _ t v h.1).filter _, h.2.filter _⟩
  | ang t v => exact ⟨h.1.filter _, (AMap.sorted_set _ t v h.2).filter _⟩
  | ref t => exact h
  | clear => exact ⟨List.Pairwise.nil, List.Pairwise.nil⟩
theorem run_sorted (b : Buf K V) (ops : List (Op K V)) (h : AMap.Sorted b.lin ∧ AMap.Sorted b.ang) :
    AMap.Sorted (b.run ops).lin ∧ AMap.Sorted (b.run ops).ang := by
  induction ops using List.reverseRecOn with
  | nil => exact h
  | append_singleton l o ih => rw [run_snoc]; exact apply_sorted _ _ ih

theorem addTimes_append (a c : List (Op K V)) : addTimes (a ++ c) = addTimes a ++ addTimes c := by
  simp [addTimes]

/-! ### what is held: linear -/

theorem linDue_nil (w : K) (t : K) (v : V) : ¬ LinDue w ([] : List (Op K V)) t v := by
  rintro ⟨pre, post, h, _⟩; simp at h

/-- splitting off the last call -/
theorem snoc_split {α : Type} {l pre post : List α} {o x : α} (h : l ++ [o] = pre ++ x :: post) :
    (post = [] ∧ l = pre ∧ o = x) ∨ ∃ post', post = post' ++ [o] ∧ l = pre ++ x :: post' := by
  rcases List.eq_nil_or_concat post with rfl | ⟨post', y, rfl⟩
  · left
    have := List.append_inj' h rfl
    simp at this
    exact ⟨rfl, this.1, this.2⟩
  · right
    rw [List.concat_eq_append] at h ⊢
    have h' : l ++ [o] = (pre ++ x :: post') ++ [y] := by simpa using h
    have := List.append_inj' h' rfl
    simp at this
    exact ⟨post', by rw [this.2], this.1⟩

theorem linDue_snoc (w : K) (l : List (Op K V)) (o : Op K V) (t : K) (v : V) :
    LinDue w (l ++ [o]) t v ↔
      (o = .lin t v ∧ t - t ≤ w) ∨
      (LinDue w l t v ∧ o ≠ .clear ∧ (∀ v', o ≠ .lin t v') ∧ ∀ now, o.addTime? = some now → now - t ≤ w) := by
  constructor
  · rintro ⟨pre, post, h, h1, h2, h0, h3⟩
    rcases snoc_split h with ⟨rfl, rfl, rfl⟩ | ⟨post', rfl, rfl⟩
    · exact .inl ⟨rfl, h0⟩
    · refine .inr ⟨⟨pre, post', rfl, fun o ho => h1 o (by simp [ho]), fun v' hv => h2 v' (by simp [hv]), h0,
        fun now hn => h3 now (by simp [addTimes_append, hn])⟩, h1 o (by simp), fun v' hv => h2 v' (by simp [hv]), ?_⟩
      intro now hn
      exact h3 now (by simp [addTimes, hn])
  · rintro (⟨rfl, h0⟩ | ⟨⟨pre, post, rfl, h1, h2, h0, h3⟩, ho, hv, hn⟩)
    · exact ⟨l, [], rfl, by simp, by simp, h0, by simp [addTimes]⟩
    · refine ⟨pre, post ++ [o], by simp, ?_, ?_, h0, ?_⟩
      · intro q hq
        rcases List.mem_append.mp hq with hq | hq
        · exact h1 q hq
        · simp at hq; subst hq; exact ho
      · intro v' hq
        rcases List.mem_append.mp hq with hq | hq
        · exact h2 v' hq
        · simp at hq; exact hv v' hq.symm
      · intro now hq
        rw [addTimes_append] at hq
        rcases List.mem_append.mp hq with hq | hq
        · exact h3 now hq
        · simp only [addTimes, List.filterMap_cons, List.filterMap_nil] at hq
          cases ht : o.addTime? with
          | none => simp [ht] at hq
          | some u => simp [ht] at hq; subst hq; exact hn _ ht

theorem mem_lin_iff (b : Buf K V) (hb : b.lin = []) (ops : List (Op K V)) (t : K) (v : V) :
    (t, v) ∈ (b.run ops).lin ↔ LinDue b.maxWindow ops t v := by
  induction ops using List.reverseRecOn with
  | nil => simp [Buf.run, hb, linDue_nil]
  | append_singleton l o ih =>
    rw [run_snoc, linDue_snoc, ← ih]
    have hw := run_window b l
    cases o with
    | lin s u =>
      simp only [Buf.apply, Buf.addLinear, Buf.deleteOld, List.mem_filter, AMap.mem_set, hw]
      constructor
      · rintro ⟨h | h, hf⟩
        · simp only [Prod.mk.injEq] at h
          obtain ⟨rfl, rfl⟩ := h
          left
          exact ⟨rfl, by simpa using hf⟩
        · right
          refine ⟨h.1, by simp, ?_, ?_⟩
          · intro v' hv'; simp at hv'; exact h.2 hv'.1.symm
          · intro now hn; simp [Op.addTime?] at hn; subst hn; simpa using hf
      · rintro (⟨h, h0⟩ | ⟨h, _, h2, h3⟩)
        · simp at h; obtain ⟨rfl, rfl⟩ := h; exact ⟨.inl rfl, by simpa using h0⟩
        · refine ⟨.inr ⟨h, ?_⟩, ?_⟩
          · intro hts; exact h2 u (by rw [hts])
          · simpa using h3 s rfl
    | ang s u =>
      simp only [Buf.apply, Buf.addAngular, Buf.deleteOld, List.mem_filter, hw]
      constructor
      · rintro ⟨h, hf⟩
        exact .inr ⟨h, by simp, by simp, by intro now hn; simp [Op.addTime?] at hn; subst hn; simpa using hf⟩
      · rintro (⟨h, _⟩ | ⟨h, _, _, h3⟩)
        · simp at h
        · exact ⟨h, by simpa using h3 s rfl⟩
    | ref s =>
      simp [Buf.apply, Buf.setRef, Op.addTime?]
    | clear => simp [Buf.apply, Buf.clear]

/-! ### what is held: angular -/

theorem angDue_nil (w : K) (t : K) (v : V) : ¬ AngDue w ([] : List (Op K V)) t v := by
  rintro ⟨pre, post, h, _⟩; simp at h

theorem angDue_snoc (w : K) (l : List (Op K V)) (o : Op K V) (t : K) (v : V) :
    AngDue w (l ++ [o]) t v ↔
      (o = .ang t v ∧ t - t ≤ w) ∨
      (AngDue w l t v ∧ o ≠ .clear ∧ (∀ v', o ≠ .ang t v') ∧ ∀ now, o.addTime? = some now → now - t ≤ w) := by
  constructor
  · rintro ⟨pre, post, h, h1, h2, h0, h3⟩
    rcases snoc_split h with ⟨rfl, rfl, rfl⟩ | ⟨post', rfl, rfl⟩
    · exact .inl ⟨rfl, h0⟩
    · refine .inr ⟨⟨pre, post', rfl, fun o ho => h1 o (by simp [ho]), fun v' hv => h2 v' (by simp [hv]), h0,
        fun now hn => h3 now (by simp [addTimes_append, hn])⟩, h1 o (by simp), fun v' hv => h2 v' (by simp [hv]), ?_⟩
      intro now hn
      exact h3 now (by simp [addTimes, hn])
  · rintro (⟨rfl, h0⟩ | ⟨⟨pre, post, rfl, h1, h2, h0, h3⟩, ho, hv, hn⟩)
    · exact ⟨l, [], rfl, by simp, by simp, h0, by simp [addTimes]⟩
    · refine ⟨pre, post ++ [o], by simp, ?_, ?_, h0, ?_⟩
      · intro q hq
        rcases List.mem_append.mp hq with hq | hq
        · exact h1 q hq
        · simp at hq; subst hq; exact ho
      · intro v' hq
        rcases List.mem_append.mp hq with hq | hq
        · exact h2 v' hq
        · simp at hq; exact hv v' hq.symm
      · intro now hq
        rw [addTimes_append] at hq
        rcases List.mem_append.mp hq with hq | hq
        · exact h3 now hq
        · simp only [addTimes, List.filterMap_cons, List.filterMap_nil] at hq
          cases ht : o.addTime? with
          | none => simp [ht] at hq
          | some u => simp [ht] at hq; subst hq; exact hn _ ht

theorem mem_ang_iff (b : Buf K V) (hb : b.ang = []) (ops : List (Op K V)) (t : K) (v : V) :
    (t, v) ∈ (b.run ops).ang ↔ AngDue b.maxWindow ops t v := by
  induction ops using List.reverseRecOn with
  | nil => simp [Buf.run, hb, angDue_nil]
  | append_singleton l o ih =>
    rw [run_snoc, angDue_snoc, ← ih]
    have hw := run_window b l
    cases o with
    | ang s u =>
      simp only [Buf.apply, Buf.addAngular, Buf.deleteOld, List.mem_filter, AMap.mem_set, hw]
      constructor
      · rintro ⟨h | h, hf⟩
        · simp only [Prod.mk.injEq] at h
          obtain ⟨rfl, rfl⟩ := h
          left
          exact ⟨rfl, by simpa using hf⟩
        · right
          refine ⟨h.1, by simp, ?_, ?_⟩
          · intro v' hv'; simp at hv'; exact h.2 hv'.1.symm
          · intro now hn; simp [Op.addTime?] at hn; subst hn; simpa using hf
      · rintro (⟨h, h0⟩ | ⟨h, _, h2, h3⟩)
        · simp at h; obtain ⟨rfl, rfl⟩ := h; exact ⟨.inl rfl, by simpa using h0⟩
        · refine ⟨.inr ⟨h, ?_⟩, ?_⟩
          · intro hts; exact h2 u (by rw [hts])
          · simpa using h3 s rfl
    | lin s u =>
      simp only [Buf.apply, Buf.addLinear, Buf.deleteOld, List.mem_filter, hw]
      constructor
      · rintro ⟨h, hf⟩
        exact .inr ⟨h, by simp, by simp, by intro now hn; simp [Op.addTime?] at hn; subst hn; simpa using hf⟩
      · rintro (⟨h, _⟩ | ⟨h, _, _, h3⟩)
        · simp at h
        · exact ⟨h, by simpa using h3 s rfl⟩
    | ref s =>
      simp [Buf.apply, Buf.setRef, Op.addTime?]
    | clear => simp [Buf.apply, Buf.clear]

/-! ### the closest stamp -/
variable [IsStrictOrderedRing K]

theorem closest_fold (x : K) (m : List (K × V)) : ∀ b0 : K,
    let r := m.foldl (fun best e => if |e.1 - x| < |best - x| then e.1 else best) b0
    (r = b0 ∨ ∃ e ∈ m, r = e.1) ∧ |r - x| ≤ |b0 - x| ∧ ∀ e ∈ m, |r - x| ≤ |e.1 - x| := by
  induction m with
  | nil => intro b0; simp
  | cons e m ih =>
    intro b0
    simp only [List.foldl_cons]
    by_cases h : |e.1 - x| < |b0 - x|
    · simp only [h, if_true]
      obtain ⟨h1, h2, h3⟩ := ih e.1
      refine ⟨?_, h2.trans h.le, ?_⟩
      · rcases h1 with h1 | ⟨e', he, h1⟩
        · exact .inr ⟨e, by simp, h1⟩
        · exact .inr ⟨e', by simp [he], h1⟩
      · intro e' he'
        rcases List.mem_cons.mp he' with rfl | he'
        · exact h2
        · exact h3 e' he'
    · simp only [h, if_false]
      obtain ⟨h1, h2, h3⟩ := ih b0
      refine ⟨?_, h2, ?_⟩
      · rcases h1 with h1 | ⟨e', he, h1⟩
        · exact .inl h1
        · exact .inr ⟨e', by simp [he], h1⟩
      · intro e' he'
        rcases List.mem_cons.mp he' with rfl | he'
        · exact h2.trans (not_lt.mp h)
        · exact h3 e' he'

theorem findClosest_some (m : AMap K V) (x t : K) (h : findClosest m x = some t) :
    (∃ v, (t, v) ∈ m) ∧ ∀ e ∈ m, |t - x| ≤ |e.1 - x| := by
  cases m with
  | nil => simp [findClosest] at h
  | cons e m =>
    simp only [findClosest, Option.some.injEq] at h
    obtain ⟨h1, h2, h3⟩ := closest_fold x m e.1
    simp only [h] at h1 h2 h3
    refine ⟨?_, ?_⟩
    · rcases h1 with rfl | ⟨e', he', rfl⟩
      · exact ⟨e.2, by simp⟩
      · exact ⟨e'.2, by simp [he']⟩
    · intro e' he'
      rcases List.mem_cons.mp he' with rfl | he'
      · exact h2
      · exact h3 e' he'

theorem findClosestTol_none (m : AMap K V) (x tol : K) :
    findClosestTol m x tol = none ↔ ∀ e ∈ m, tol < |e.1 - x| := by
  unfold findClosestTol
  cases h : findClosest m x with
  | none =>
    cases m with
    | nil => simp
    | cons e m => simp [findClosest] at h
  | some t =>
    obtain ⟨⟨v, hv⟩, hmin⟩ := findClosest_some m x t h
    simp only [gt_iff_lt, ite_eq_left_iff, not_lt, reduceCtorEq, imp_false, not_le]
    constructor
    · intro ht e he; exact lt_of_lt_of_le ht (hmin e he)
    · intro hall; exact hall _ hv

theorem findClosestTol_some (m : AMap K V) (x tol t : K) (h : findClosestTol m x tol = some t) :
    (∃ v, (t, v) ∈ m) ∧ |t - x| ≤ tol ∧ ∀ e ∈ m, |t - x| ≤ |e.1 - x| := by
  unfold findClosestTol at h
  cases hc : findClosest m x with
  | none => simp [hc] at h
  | some u =>
    simp only [hc] at h
    split at h
    · simp at h
    · rename_i hle
      simp at h; subst h
      obtain ⟨h1, h2⟩ := findClosest_some m x _ hc
      exact ⟨h1, not_lt.mp hle, h2⟩

end Vel
end Verif
