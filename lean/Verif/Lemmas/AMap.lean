import Verif.Model.AMap
import Mathlib.Order.Basic
namespace Verif.AMap
variable {κ α : Type} [LinearOrder κ]

@[simp] theorem get_nil (k : κ) : get ([] : AMap κ α) k = none := rfl

theorem get_cons (e : κ × α) (m : AMap κ α) (k : κ) :
    get (e :: m) k = if e.1 = k then some e.2 else get m k := by
  unfold get
  by_cases h : e.1 = k <;> simp [h]

theorem get_erase (m : AMap κ α) (k j : κ) : (m.erase k).get j = if j = k then none else m.get j := by
  induction m with
  | nil => simp [erase]
  | cons e m ih =>
    have : erase (e :: m) k = if e.1 = k then erase m k else e :: erase m k := by
      unfold erase
      by_cases h : e.1 = k <;> simp [h]
    rw [this]
    by_cases h : e.1 = k
    · rw [if_pos h, ih, get_cons]
      by_cases hj : j = k
      · simp [hj]
      · rw [if_neg hj, if_neg hj, if_neg (by rw [h]; exact fun hc => hj hc.symm)]
    · rw [if_neg h, get_cons, get_cons, ih]
      by_cases hj : j = k
      · subst hj; simp [h]
      · simp [hj]

theorem get_insertNew (m : AMap κ α) (k : κ) (v : α) (j : κ) (hk : m.get k = none) :
    (insertNew k v m).get j = if j = k then some v else m.get j := by
  induction m with
  | nil => simp [insertNew, get_cons, eq_comm]
  | cons e m ih =>
    rw [get_cons] at hk
    by_cases he : e.1 = k
    · simp [he] at hk
    · rw [if_neg he] at hk
      unfold insertNew
      split
      · rw [get_cons]; simp only [eq_comm]
      · rw [get_cons, get_cons, ih hk]
        by_cases hj : j = k
        · subst hj; simp [he]
        · simp [hj]

@[simp] theorem get_set (m : AMap κ α) (k : κ) (v : α) (j : κ) :
    (m.set k v).get j = if j = k then some v else m.get j := by
  unfold set
  rw [get_insertNew _ _ _ _ (by rw [get_erase]; simp), get_erase]
  by_cases hj : j = k <;> simp [hj]

theorem mem_erase (m : AMap κ α) (k : κ) (e : κ × α) : e ∈ m.erase k ↔ e ∈ m ∧ e.1 ≠ k := by
  unfold erase; simp [List.mem_filter]

theorem mem_insertNew (m : AMap κ α) (k : κ) (v : α) (e : κ × α) :
    e ∈ insertNew k v m ↔ e = (k, v) ∨ e ∈ m := by
  induction m with
  | nil => simp [insertNew]
  | cons a m ih =>
    unfold insertNew
    split
    · simp
    · simp only [List.mem_cons, ih]
      constructor
      · rintro (h | h | h) <;> simp [h]
      · rintro (h | h | h) <;> simp [h]

theorem mem_set (m : AMap κ α) (k : κ) (v : α) (e : κ × α) :
    e ∈ m.set k v ↔ e = (k, v) ∨ (e ∈ m ∧ e.1 ≠ k) := by
  unfold set; rw [mem_insertNew, mem_erase]

theorem sorted_erase (m : AMap κ α) (k : κ) (h : m.Sorted) : (m.erase k).Sorted :=
  List.Pairwise.filter _ h

theorem sorted_insertNew (m : AMap κ α) (k : κ) (v : α) (h : m.Sorted) (hk : ∀ e ∈ m, e.1 ≠ k) :
    (insertNew k v m).Sorted := by
  induction m with
  | nil => simp [insertNew, Sorted]
  | cons a m ih =>
    unfold Sorted at h ih ⊢
    rw [List.pairwise_cons] at h
    unfold insertNew
    split
    · rename_i hlt
      rw [List.pairwise_cons, List.pairwise_cons]
      refine ⟨?_, h⟩
      intro b hb
      rcases List.mem_cons.mp hb with rfl | hb
      · exact hlt
      · exact lt_trans hlt (h.1 b hb)
    · rename_i hlt
      rw [List.pairwise_cons]
      refine ⟨?_, ih h.2 (fun e he => hk e (List.mem_cons_of_mem _ he))⟩
      intro b hb
      rw [mem_insertNew] at hb
      rcases hb with rfl | hb
      · exact lt_of_le_of_ne (not_lt.mp hlt) (hk a (by simp))
      · exact h.1 b hb

theorem sorted_set (m : AMap κ α) (k : κ) (v : α) (h : m.Sorted) : (m.set k v).Sorted :=
  sorted_insertNew _ _ _ (sorted_erase m k h) fun e he => ((mem_erase m k e).mp he).2

theorem get_eq_some_of_mem (m : AMap κ α) (h : m.Sorted) (k : κ) (v : α) (hm : (k, v) ∈ m) :
    m.get k = some v := by
  induction m with
  | nil => simp at hm
  | cons e m ih =>
    unfold Sorted at h
    rw [List.pairwise_cons] at h
    rw [get_cons]
    rcases List.mem_cons.mp hm with rfl | hm
    · simp
    · rw [if_neg (ne_of_lt (h.1 _ hm)), ih h.2 hm]

theorem mem_of_get (m : AMap κ α) (k : κ) (v : α) (hm : m.get k = some v) : (k, v) ∈ m := by
  induction m with
  | nil => simp at hm
  | cons e m ih =>
    rw [get_cons] at hm
    split at hm
    · rename_i h; cases hm; subst h; simp
    · exact List.mem_cons_of_mem _ (ih hm)

theorem mem_iff_get (m : AMap κ α) (h : m.Sorted) (k : κ) (v : α) : (k, v) ∈ m ↔ m.get k = some v :=
  ⟨get_eq_some_of_mem m h k v, mem_of_get m k v⟩

theorem get_none_iff (m : AMap κ α) (k : κ) : m.get k = none ↔ ∀ e ∈ m, e.1 ≠ k := by
  induction m with
  | nil => simp
  | cons e m ih =>
    rw [get_cons]
    by_cases h : e.1 = k
    · simp [h]
    · simp [h, ih]

theorem get_filter (m : AMap κ α) (hm : m.Sorted) (p : κ × α → Bool) (k : κ) :
    get (m.filter p) k = match m.get k with
      | some v => if p (k, v) then some v else none
      | none => none := by
  have hs : Sorted (m.filter p) := List.Pairwise.filter _ hm
  cases h : m.get k with
  | none =>
    simp only
    rw [get_none_iff] at h ⊢
    intro e he; exact h e (List.mem_filter.mp he).1
  | some v =>
    simp only
    split
    · rename_i hp
      exact get_eq_some_of_mem _ hs k v (List.mem_filter.mpr ⟨mem_of_get m k v h, hp⟩)
    · rename_i hp
      rw [get_none_iff]
      rintro ⟨k', v'⟩ he rfl
      have hm' := List.mem_filter.mp he
      have := get_eq_some_of_mem m hm k' v' hm'.1
      rw [h] at this; cases this
      exact hp hm'.2

/-- two sorted maps with the same lookups are equal -/
theorem ext_of_get (m n : AMap κ α) (hm : m.Sorted) (hn : n.Sorted) (h : ∀ k, m.get k = n.get k) :
    m = n := by
  induction m generalizing n with
  | nil =>
    cases n with
    | nil => rfl
    | cons e n => have := h e.1; rw [get_cons] at this; simp at this
  | cons a m ih =>
    cases n with
    | nil => have := h a.1; rw [get_cons] at this; simp at this
    | cons b n =>
      unfold Sorted at hm hn
      rw [List.pairwise_cons] at hm hn
      have hab : a.1 = b.1 := by
        rcases lt_trichotomy a.1 b.1 with hlt | heq | hgt
        · have := h a.1
          rw [get_cons, if_pos rfl, get_cons, if_neg (ne_of_gt hlt)] at this
          have hmem := mem_of_get n a.1 a.2 this.symm
          exact absurd (hn.1 _ hmem) (not_lt.mpr hlt.le)
        · exact heq
        · have := h b.1
          rw [get_cons, if_neg (ne_of_gt hgt), get_cons, if_pos rfl] at this
          have hmem := mem_of_get m b.1 b.2 this
          exact absurd (hm.1 _ hmem) (not_lt.mpr hgt.le)
      have hv : a.2 = b.2 := by
        have := h a.1
        rw [get_cons, if_pos rfl, get_cons, if_pos hab.symm] at this
        exact Option.some.inj this
      have : a = b := Prod.ext hab hv
      subst this
      rw [ih n hm.2 hn.2]
      intro k
      have hk := h k
      rw [get_cons, get_cons] at hk
      by_cases hak : a.1 = k
      · subst hak
        have h1 : get m a.1 = none := (get_none_iff m a.1).mpr fun e he => ne_of_gt (hm.1 e he)
        have h2 : get n a.1 = none := (get_none_iff n a.1).mpr fun e he => ne_of_gt (hn.1 e he)
        rw [h1, h2]
      · rw [if_neg hak, if_neg hak] at hk; exact hk

end Verif.AMap
