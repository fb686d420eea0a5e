import Verif.Spec.BitField
import Verif.Lemmas.AMap
import Mathlib.Data.List.Induction
import Mathlib.Data.List.Forall2
namespace Verif.Lemmas
open Verif Verif.Spec

theorem denseSize_snoc_mark (h : List BitField.Op) (i : Nat) : denseSize (h ++ [.mark i]) = denseSize h := by
  unfold denseSize; rw [List.foldl_append]; rfl

theorem denseSize_snoc_assign (h : List BitField.Op) (n : Nat) (d : Bool) :
    denseSize (h ++ [.assign n d]) = if d then some n else none := by
  unfold denseSize; rw [List.foldl_append]; cases d <;> rfl

theorem marked_snoc_mark (h : List BitField.Op) (i j : Nat) :
    MarkedSince (h ++ [.mark j]) i ↔ i = j ∨ MarkedSince h i := by
  constructor
  · rintro ⟨pre, post, he, hp⟩
    rcases List.eq_nil_or_concat post with rfl | ⟨post', o, rfl⟩
    · left
      have := List.append_inj' (t₁ := [BitField.Op.mark j]) (t₂ := [.mark i]) he rfl
      simpa using this.2.symm
    · right
      have he' : h ++ [.mark j] = (pre ++ .mark i :: post') ++ [o] := by rw [he]; simp
      have := List.append_inj' he' rfl
      exact ⟨pre, post', this.1, fun o' ho' => hp o' (by simp [ho'])⟩
  · rintro (rfl | ⟨pre, post, rfl, hp⟩)
    · exact ⟨h, [], rfl, by simp⟩
    · refine ⟨pre, post ++ [.mark j], by simp, ?_⟩
      intro o ho
      rcases List.mem_append.mp ho with ho | ho
      · exact hp o ho
      · simp at ho; exact ⟨j, ho⟩

theorem marked_snoc_assign (h : List BitField.Op) (i n : Nat) (d : Bool) :
    ¬ MarkedSince (h ++ [.assign n d]) i := by
  rintro ⟨pre, post, he, hp⟩
  rcases List.eq_nil_or_concat post with rfl | ⟨post', o, rfl⟩
  · have := List.append_inj' (t₁ := [BitField.Op.assign n d]) (t₂ := [.mark i]) he rfl
    simp at this
  · have he' : h ++ [.assign n d] = (pre ++ .mark i :: post') ++ [o] := by rw [he]; simp
    have := List.append_inj' he' rfl
    obtain ⟨j, hj⟩ := hp o (by simp)
    rw [hj] at this
    simp at this

theorem not_marked_nil (i : Nat) : ¬ MarkedSince [] i := by
  rintro ⟨pre, post, he, -⟩
  simp at he

theorem marked_forgetKind (h : List BitField.Op) (i : Nat) :
    MarkedSince (h.map forgetKind) i ↔ MarkedSince h i := by
  induction h using List.reverseRecOn with
  | nil => rfl
  | append_singleton h o ih =>
    rw [List.map_append]
    cases o with
    | assign n d =>
      simp only [List.map_cons, List.map_nil, forgetKind]
      exact iff_of_false (marked_snoc_assign _ _ _ _) (marked_snoc_assign _ _ _ _)
    | mark j =>
      simp only [List.map_cons, List.map_nil, forgetKind]
      rw [marked_snoc_mark, marked_snoc_mark, ih]

theorem inRange_nil : InRange [] := by
  intro pre i post h; simp at h

theorem inRange_snoc (h : List BitField.Op) (o : BitField.Op) :
    InRange (h ++ [o]) ↔ InRange h ∧ ∀ i, o = .mark i → ∀ n, denseSize h = some n → i < n := by
  constructor
  · intro hr
    refine ⟨?_, ?_⟩
    · intro pre i post he n hn
      exact hr pre i (post ++ [o]) (by rw [he]; simp) n hn
    · rintro i rfl n hn
      exact hr h i [] rfl n hn
  · rintro ⟨hr, ho⟩ pre i post he n hn
    rcases List.eq_nil_or_concat post with rfl | ⟨post', o', rfl⟩
    · have := List.append_inj' he rfl
      obtain ⟨rfl, h2⟩ := this
      exact ho i (by simpa using h2) n hn
    · have he' : h ++ [o] = (pre ++ .mark i :: post') ++ [o'] := by rw [he]; simp
      exact hr pre i post' (List.append_inj' he' rfl).1 n hn

theorem run_append (b : BitField) (h h' : List BitField.Op) :
    b.run (h ++ h') = (b.run h).bind fun b' => b'.run h' := by
  induction h generalizing b with
  | nil => rfl
  | cons o h ih =>
    simp only [List.cons_append, BitField.run]
    cases b.step o with
    | ok b' => simp only [Outcome.bind]; exact ih b'
    | throw => rfl
    | ub => rfl

/-- representation invariant against the history -/
def Repr (h : List BitField.Op) (b : BitField) : Prop :=
  match b.dense with
  | some v => denseSize h = some v.length ∧ ∀ i, i < v.length → (v[i]? = some true ↔ MarkedSince h i)
  | none => denseSize h = none ∧ ∀ i, (i ∈ b.sparse ↔ MarkedSince h i)

theorem inRange_prefix (h h' : List BitField.Op) (hr : InRange (h ++ h')) : InRange h := by
  intro pre i post he n hn
  exact hr pre i (post ++ h') (by rw [he]; simp) n hn

theorem run_repr_snoc (h : List BitField.Op) (o : BitField.Op) (b : BitField) (hb : Repr h b)
    (hr : InRange (h ++ [o])) : ∃ b', b.step o = .ok b' ∧ Repr (h ++ [o]) b' := by
  cases o with
  | assign n d =>
    refine ⟨_, rfl, ?_⟩
    unfold Repr BitField.assign
    cases d with
    | true =>
      simp only [if_true, List.length_replicate]
      refine ⟨by rw [denseSize_snoc_assign]; rfl, ?_⟩
      intro i hi
      simp [List.getElem?_replicate, marked_snoc_assign]
    | false =>
      simp only [Bool.false_eq_true, if_false]
      refine ⟨by rw [denseSize_snoc_assign]; rfl, ?_⟩
      intro i
      simp [marked_snoc_assign]
  | mark j =>
    unfold Repr at hb
    cases hd : b.dense with
    | some v =>
      rw [hd] at hb
      have hj : j < v.length := hr h j [] rfl _ hb.1
      refine ⟨{ b with dense := some (v.set j true) }, by simp [BitField.step, BitField.mark, hd, hj], ?_⟩
      unfold Repr
      simp only [List.length_set]
      refine ⟨by rw [denseSize_snoc_mark]; exact hb.1, ?_⟩
      intro i hi
      rw [marked_snoc_mark, List.getElem?_set]
      by_cases hij : j = i
      · subst hij; simp [hj]
      · rw [if_neg hij, hb.2 i hi]
        constructor
        · exact Or.inr
        · rintro (h1 | h1)
          · exact absurd h1.symm hij
          · exact h1
    | none =>
      rw [hd] at hb
      refine ⟨{ b with sparse := if j ∈ b.sparse then b.sparse else j :: b.sparse },
        by simp [BitField.step, BitField.mark, hd], ?_⟩
      unfold Repr
      simp only [hd]
      refine ⟨by rw [denseSize_snoc_mark]; exact hb.1, ?_⟩
      intro i
      rw [marked_snoc_mark, ← hb.2 i]
      split
      · constructor
        · exact Or.inr
        · rintro (rfl | h1)
          · assumption
          · exact h1
      · simp

theorem run_repr (h : List BitField.Op) (hr : InRange h) :
    ∃ b, BitField.run {} h = .ok b ∧ Repr h b := by
  induction h using List.reverseRecOn with
  | nil =>
    refine ⟨{}, rfl, rfl, ?_⟩
    intro i
    simp only [List.not_mem_nil, false_iff]
    rintro ⟨pre, post, he, -⟩
    simp at he
  | append_singleton h o ih =>
    obtain ⟨b, hb, hrep⟩ := ih (inRange_prefix h [o] hr)
    obtain ⟨b', hb', hrep'⟩ := run_repr_snoc h o b hrep hr
    refine ⟨b', ?_, hrep'⟩
    rw [run_append, hb]
    simp [BitField.run, hb']

theorem initFlagsLoop_get (layers : AMap String LayerInfo) (f : AMap String BitField) (k : String)
    (hs : layers.Sorted) :
    (initFlagsLoop layers f).get k = match layers.get k with
      | some (some (n, d)) => some (((f.get k).getD {}).assign n d)
      | _ => f.get k := by
  induction layers generalizing f with
  | nil => rfl
  | cons e ls ih =>
    obtain ⟨name, info⟩ := e
    unfold AMap.Sorted at hs
    rw [List.pairwise_cons] at hs
    have hnone : AMap.get ls name = none := (AMap.get_none_iff ls name).mpr fun e he => ne_of_gt (hs.1 e he)
    rw [AMap.get_cons]
    cases info with
    | none =>
      unfold initFlagsLoop
      rw [ih f hs.2]
      by_cases hk : name = k
      · subst hk; simp [hnone]
      · simp [hk]
    | some nd =>
      obtain ⟨n, d⟩ := nd
      unfold initFlagsLoop
      rw [ih _ hs.2, AMap.get_set]
      by_cases hk : name = k
      · subst hk; simp [hnone]
      · rw [if_neg hk]
        have : ¬ k = name := fun h => hk h.symm
        simp [this]

theorem initFlagsLoop_sorted (layers : AMap String LayerInfo) (f : AMap String BitField)
    (hf : f.Sorted) : (initFlagsLoop layers f).Sorted := by
  induction layers generalizing f with
  | nil => exact hf
  | cons e ls ih =>
    obtain ⟨name, info⟩ := e
    cases info with
    | none => exact ih f hf
    | some nd => exact ih _ (AMap.sorted_set _ _ _ hf)

end Verif.Lemmas
