import Verif.Lemmas.BitField
/-
Property C17: the already-paired flags behave as a set of points.
-/
namespace Verif.Props
open Verif Verif.Spec

/-- C17: after any history of initialisations and (in-range) marks, no undefined behaviour occurred, and
reading the flag of any in-range point gives `true` iff it was marked since the last initialisation —
whether storage is dense or sparse. -/
theorem flags_are_a_set (h : List BitField.Op) (hr : InRange h) :
    ∃ b, BitField.run {} h = .ok b ∧
      ∀ i, (∀ n, denseSize h = some n → i < n) → ∃ x, b.get i = .ok x ∧ (x = true ↔ MarkedSince h i) := by
  obtain ⟨b, hb, hrep⟩ := Lemmas.run_repr h hr
  refine ⟨b, hb, ?_⟩
  intro i hi
  unfold Lemmas.Repr at hrep
  unfold BitField.get
  cases hd : b.dense with
  | some v =>
    rw [hd] at hrep
    have hlt := hi _ hrep.1
    have := hrep.2 i hlt
    have hv := List.getElem?_eq_getElem hlt
    rw [hv] at this
    refine ⟨v[i], by simp only [hv], by simpa using this⟩
  | none =>
    rw [hd] at hrep
    exact ⟨decide (i ∈ b.sparse), rfl, by simpa using hrep.2 i⟩

/-- C17: dense and sparse storage cannot be told apart: the same history, with storage kinds changed at
will, gives the same readings (for points in range of the dense one). -/
theorem flags_dense_sparse_same (h h' : List BitField.Op)
    (hsame : h.map forgetKind = h'.map forgetKind)
    (hr : InRange h) (hr' : InRange h') (b b' : BitField)
    (hb : BitField.run {} h = .ok b) (hb' : BitField.run {} h' = .ok b') (i : Nat)
    (hi : ∀ n, denseSize h = some n → i < n) (hi' : ∀ n, denseSize h' = some n → i < n) :
    b.get i = b'.get i := by
  have hm : ∀ i, MarkedSince h i ↔ MarkedSince h' i := by
    intro i
    rw [← Lemmas.marked_forgetKind h, ← Lemmas.marked_forgetKind h', hsame]
  obtain ⟨b1, h1, hx⟩ := flags_are_a_set h hr
  obtain ⟨b2, h2, hx'⟩ := flags_are_a_set h' hr'
  rw [hb] at h1; cases h1
  rw [hb'] at h2; cases h2
  obtain ⟨x, hx1, hx2⟩ := hx i hi
  obtain ⟨y, hy1, hy2⟩ := hx' i hi'
  rw [hx1, hy1]
  congr 1
  rw [Bool.eq_iff_iff, hx2, hy2, hm]

/-- C17: reading or marking out of range of dense storage is undefined behaviour, and only that. -/
theorem flags_ub_iff (b : BitField) (i : Nat) :
    (b.get i = .ub ↔ ∃ v, b.dense = some v ∧ v.length ≤ i) ∧
    (b.mark i = .ub ↔ ∃ v, b.dense = some v ∧ v.length ≤ i) := by
  unfold BitField.get BitField.mark
  cases hd : b.dense with
  | none => simp
  | some v =>
    simp only [Option.some.injEq, exists_eq_left']
    constructor
    · by_cases hi : i < v.length
      · simp [List.getElem?_eq_getElem hi, hi]
      · simp only [not_lt] at hi
        simp [hi]
    · by_cases hi : i < v.length
      · simp [hi]
      · simp only [not_lt] at hi
        simp [hi]

/-- C17, per layer: `initialize_from` clears the flags of each layer on which neighbours can be searched,
giving it the size of the layer, and forgets layers no longer in the map.  (A layer present but not
searchable keeps its old flags; no matcher reads them.) -/
theorem initialize_flags (layers : AMap String LayerInfo) (f : AMap String BitField)
    (hs : layers.Sorted) (hf : f.Sorted) (name : String) :
    (layers.get name = none → (initFlags layers f).get name = none) ∧
    (∀ n d, layers.get name = some (some (n, d)) →
      (initFlags layers f).get name = some (if d = true then ⟨some (List.replicate n false), []⟩ else ⟨none, []⟩)) ∧
    (layers.get name = some none → (initFlags layers f).get name = f.get name) := by
  have hg := Lemmas.initFlagsLoop_get layers f name hs
  unfold initFlags
  rw [AMap.get_filter _ (Lemmas.initFlagsLoop_sorted layers f hf), hg]
  refine ⟨?_, ?_, ?_⟩
  · intro h
    rw [h]
    simp only
    cases f.get name with
    | none => rfl
    | some v => simp [h]
  · intro n d h
    rw [h]
    simp [h, BitField.assign]
  · intro h
    rw [h]
    simp only
    cases f.get name with
    | none => rfl
    | some v => simp [h]

example : InRange [.assign 5 true, .mark 4, .assign 3 false, .mark 70, .assign 2 true, .mark 1] ∧
    MarkedSince [.assign 5 true, .mark 4, .assign 2 true, .mark 1] 1 := by
  constructor
  · refine (Lemmas.inRange_snoc [.assign 5 true, .mark 4, .assign 3 false, .mark 70, .assign 2 true] _).mpr ⟨?_, ?_⟩
    · refine (Lemmas.inRange_snoc [.assign 5 true, .mark 4, .assign 3 false, .mark 70] _).mpr ⟨?_, by simp⟩
      refine (Lemmas.inRange_snoc [.assign 5 true, .mark 4, .assign 3 false] _).mpr ⟨?_, by simp [denseSize, noteSize]⟩
      refine (Lemmas.inRange_snoc [.assign 5 true, .mark 4] _).mpr ⟨?_, by simp⟩
      refine (Lemmas.inRange_snoc [.assign 5 true] _).mpr ⟨?_, by simp [denseSize, noteSize]⟩
      exact (Lemmas.inRange_snoc [] _).mpr ⟨Lemmas.inRange_nil, by simp⟩
    · simp [denseSize, noteSize]
  · exact ⟨[.assign 5 true, .mark 4, .assign 2 true], [], rfl, by simp⟩

end Verif.Props
