import Verif.Spec.Matchers
import Verif.Lemmas.AMap
import Mathlib.Data.List.Range
import Mathlib.Data.List.Nodup
import Mathlib.Tactic.Linarith
/-
Lemmas on flags, loops and the one-layer matchers.
-/
namespace Verif.Lemmas
open Verif Verif.Spec
variable {K : Type}

section fold
variable {σ ι : Type}

theorem fold_rel {step : σ → ι → Outcome σ} (R : σ → σ → Prop) (hrefl : ∀ s, R s s)
    (htrans : ∀ a b c, R a b → R b c → R a c) (hstep : ∀ s i s', step s i = .ok s' → R s s')
    (l : List ι) (s s' : σ) (h : foldOutcome step s l = .ok s') : R s s' := by
  induction l generalizing s with
  | nil => simp only [foldOutcome, Outcome.ok.injEq] at h; subst h; exact hrefl _
  | cons i l ih =>
    simp only [foldOutcome, Outcome.bind_eq_ok] at h
    obtain ⟨a, ha, hb⟩ := h
    exact htrans _ _ _ (hstep _ _ _ ha) (ih _ hb)

theorem fold_inv {step : σ → ι → Outcome σ} (P : σ → Prop) (l : List ι)
    (hstep : ∀ s i s', i ∈ l → P s → step s i = .ok s' → P s')
    (s s' : σ) (h : foldOutcome step s l = .ok s') (hP : P s) : P s' := by
  induction l generalizing s with
  | nil => simp only [foldOutcome, Outcome.ok.injEq] at h; subst h; exact hP
  | cons i l ih =>
    simp only [foldOutcome, Outcome.bind_eq_ok] at h
    obtain ⟨a, ha, hb⟩ := h
    exact ih (fun s i s' hi => hstep s i s' (List.mem_cons_of_mem _ hi)) _ hb
      (hstep _ _ _ List.mem_cons_self hP ha)

theorem fold_append (step : σ → ι → Outcome σ) (s : σ) (l l' : List ι) :
    foldOutcome step s (l ++ l') = (foldOutcome step s l).bind fun s' => foldOutcome step s' l' := by
  induction l generalizing s with
  | nil => rfl
  | cons i l ih =>
    simp only [List.cons_append, foldOutcome]
    cases step s i <;> simp [ih]

theorem fold_ok {step : σ → ι → Outcome σ} (P : σ → Prop) (l : List ι)
    (hstep : ∀ s i, i ∈ l → P s → ∃ s', step s i = .ok s' ∧ P s')
    (s : σ) (hP : P s) : ∃ s', foldOutcome step s l = .ok s' ∧ P s' := by
  induction l generalizing s with
  | nil => exact ⟨s, rfl, hP⟩
  | cons i l ih =>
    obtain ⟨s1, h1, hP1⟩ := hstep s i List.mem_cons_self hP
    obtain ⟨s2, h2, hP2⟩ := ih (fun s i hi => hstep s i (List.mem_cons_of_mem _ hi)) s1 hP1
    exact ⟨s2, by simp [foldOutcome, h1, h2], hP2⟩

end fold

/-! ### flags -/

theorem get_mark_self {b b' : BitField} {i : Nat} (h : b.mark i = .ok b') : b'.get i = .ok true := by
  unfold BitField.mark at h
  cases hd : b.dense with
  | none =>
    rw [hd] at h
    simp only [Outcome.ok.injEq] at h
    subst h
    simp only [BitField.get, hd]
    split <;> simp_all
  | some v =>
    rw [hd] at h
    by_cases hlt : i < v.length
    · simp only [hlt, if_true, Outcome.ok.injEq] at h
      subst h
      simp [BitField.get, hlt]
    · simp [hlt] at h

theorem get_mark_other {b b' : BitField} {i j : Nat} (h : b.mark i = .ok b') (hij : j ≠ i) :
    b'.get j = b.get j := by
  unfold BitField.mark at h
  cases hd : b.dense with
  | none =>
    rw [hd] at h
    simp only [Outcome.ok.injEq] at h
    subst h
    simp only [BitField.get, hd]
    split <;> simp_all
  | some v =>
    rw [hd] at h
    by_cases hlt : i < v.length
    · simp only [hlt, if_true, Outcome.ok.injEq] at h
      subst h
      simp [BitField.get, hd, List.getElem?_set, Ne.symm hij]
    · simp [hlt] at h

theorem flagMark_self {f f' : AMap String BitField} {l : String} {i : Nat} (h : flagMark f l i = .ok f') :
    Flagged f' l i := by
  simp only [flagMark, Outcome.bind_eq_ok, Outcome.ok.injEq] at h
  obtain ⟨b, hb, rfl⟩ := h
  simp [Flagged, flagAt, get_mark_self hb]

theorem flagMark_mono {f f' : AMap String BitField} {l : String} {i : Nat} (h : flagMark f l i = .ok f')
    {l' : String} {j : Nat} (hf : Flagged f l' j) : Flagged f' l' j := by
  have h0 := h
  simp only [flagMark, Outcome.bind_eq_ok, Outcome.ok.injEq] at h
  obtain ⟨b, hb, rfl⟩ := h
  by_cases hl : l' = l
  · subst hl
    by_cases hj : j = i
    · subst hj; exact flagMark_self h0
    · simp only [Flagged, flagAt, AMap.get_set, if_true]
      rw [get_mark_other hb hj]
      unfold Flagged flagAt at hf
      cases hg : f.get l' with
      | none => simp [hg] at hf
      | some b0 => simpa [hg] using hf
  · simpa [Flagged, flagAt, hl] using hf

theorem flagMark_inv {f f' : AMap String BitField} {l : String} {i : Nat} (h : flagMark f l i = .ok f')
    {l' : String} {j : Nat} (hf : Flagged f' l' j) : Flagged f l' j ∨ (l' = l ∧ j = i) := by
  simp only [flagMark, Outcome.bind_eq_ok, Outcome.ok.injEq] at h
  obtain ⟨b, hb, rfl⟩ := h
  by_cases hl : l' = l
  · subst hl
    by_cases hj : j = i
    · exact Or.inr ⟨rfl, hj⟩
    · left
      simp only [Flagged, flagAt, AMap.get_set, if_true] at hf
      rw [get_mark_other hb hj] at hf
      unfold Flagged flagAt
      cases hg : f.get l' with
      | none => simp [hg, BitField.get] at hf
      | some b0 => simpa [hg] using hf
  · left; simpa [Flagged, flagAt, hl] using hf

theorem mark_dense {b b' : BitField} {i : Nat} (h : b.mark i = .ok b') :
    (∀ v', b'.dense = some v' → ∃ v, b.dense = some v ∧ v.length = v'.length) := by
  unfold BitField.mark at h
  cases hd : b.dense with
  | none =>
    rw [hd] at h
    simp only [Outcome.ok.injEq] at h
    subst h
    intro v' h'; simp [hd] at h'
  | some v =>
    rw [hd] at h
    by_cases hlt : i < v.length
    · simp only [hlt, if_true, Outcome.ok.injEq] at h
      subst h
      intro v' h'
      simp only [Option.some.injEq] at h'
      subst h'
      exact ⟨v, rfl, by simp⟩
    · simp [hlt] at h

theorem readable_mark {f f' : AMap String BitField} {l : String} {i : Nat} (h : flagMark f l i = .ok f')
    {l' : String} {j : Nat} (hf : Readable f l' j) : Readable f' l' j := by
  simp only [flagMark, Outcome.bind_eq_ok, Outcome.ok.injEq] at h
  obtain ⟨b, hb, rfl⟩ := h
  obtain ⟨b0, hb0, hr⟩ := hf
  by_cases hl : l' = l
  · subst hl
    rw [hb0] at hb
    refine ⟨b, by simp, ?_⟩
    intro v' hv'
    obtain ⟨v, hv, hlen⟩ := mark_dense hb v' hv'
    rw [← hlen]; exact hr v (by simpa using hv)
  · exact ⟨b0, by simp [hl, hb0], hr⟩

theorem readable_read {f : AMap String BitField} {l : String} {i : Nat} (h : Readable f l i) :
    ∃ x, flagAt f l i = .ok x := by
  obtain ⟨b, hb, hr⟩ := h
  have h1 : flagAt f l i = b.get i := by simp [flagAt, hb]
  rw [h1]
  unfold BitField.get
  cases hd : b.dense with
  | none => exact ⟨decide (i ∈ b.sparse), rfl⟩
  | some v =>
    have := hr v hd
    exact ⟨v[i], by simp [List.getElem?_eq_getElem this]⟩

theorem readable_markable {f : AMap String BitField} {l : String} {i : Nat} (h : Readable f l i) :
    ∃ f', flagMark f l i = .ok f' := by
  obtain ⟨b, hb, hr⟩ := h
  unfold flagMark BitField.mark
  rw [hb]
  cases hd : b.dense with
  | none => simp [hd]
  | some v => simp [hr v hd, hd]

theorem vecAt_ok {α : Type} {v : List α} {i : Nat} {a : α} : vecAt v i = .ok a ↔ v[i]? = some a := by
  unfold vecAt; cases h : v[i]? <;> simp

theorem vecAt_lt {α : Type} (v : List α) (i : Nat) (h : i < v.length) : vecAt v i = .ok v[i] := by
  rw [vecAt_ok]; exact List.getElem?_eq_getElem h

theorem markLocal_ok {ms ms' : MatchState K} {l : String} {i : Nat} (h : markLocal ms l i = .ok ms') :
    flagMark ms.localFlags l i = .ok ms'.localFlags ∧ ms'.globalFlags = ms.globalFlags ∧
    ms'.ghost = ms.ghost := by
  simp only [markLocal, Outcome.bind_eq_ok, Outcome.ok.injEq] at h
  obtain ⟨f, hf, rfl⟩ := h
  exact ⟨hf, rfl, rfl⟩

theorem markGlobal_ok {ms ms' : MatchState K} {l : String} {i : Nat} (h : markGlobal ms l i = .ok ms') :
    flagMark ms.globalFlags l i = .ok ms'.globalFlags ∧ ms'.localFlags = ms.localFlags ∧
    ms'.ghost = ms.ghost := by
  simp only [markGlobal, Outcome.bind_eq_ok, Outcome.ok.injEq] at h
  obtain ⟨f, hf, rfl⟩ := h
  exact ⟨hf, rfl, rfl⟩

/-! ### transform_local_to_global -/

theorem gatherPts_ok (tf : P3 K → P3 K) (pts : List (P3 K)) (is : List Nat) (r : List (P3 K)) :
    gatherPts tf pts is = .ok r ↔
      List.Forall₂ (fun i q => ∃ p, pts[i]? = some p ∧ q = tf p) is r := by
  induction is generalizing r with
  | nil => simp [gatherPts, eq_comm]
  | cons i is ih =>
    simp only [gatherPts, Outcome.bind_eq_ok, Outcome.ok.injEq, vecAt_ok]
    constructor
    · rintro ⟨p, hp, r', hr', rfl⟩
      exact .cons ⟨p, hp, rfl⟩ ((ih _).mp hr')
    · rintro h
      cases h with
      | cons h1 h2 =>
        obtain ⟨p, hp, rfl⟩ := h1
        exact ⟨p, hp, _, (ih _).mpr h2, rfl⟩

theorem gatherPts_lt (tf : P3 K → P3 K) (pts : List (P3 K)) (is : List Nat) (h : ∀ i ∈ is, i < pts.length) :
    ∃ r, gatherPts tf pts is = .ok r := by
  induction is with
  | nil => exact ⟨[], rfl⟩
  | cons i is ih =>
    obtain ⟨r, hr⟩ := ih fun i hi => h i (List.mem_cons_of_mem _ hi)
    have hi := h i List.mem_cons_self
    exact ⟨tf pts[i] :: r, by simp [gatherPts, vecAt_lt _ _ hi, hr]⟩

/-- What `transformLocal` gives: position `i` of the transformed points is point `index i`. -/
structure TLGood (tf : P3 K → P3 K) (pts : List (P3 K)) (tl : TLocal K) : Prop where
  idx : ∀ i l q, tl.index i = .ok l → tl.xs[i]? = some q → ∃ p, pts[l]? = some p ∧ q = tf p
  inj : ∀ i j l, i < tl.xs.length → j < tl.xs.length → tl.index i = .ok l → tl.index j = .ok l → i = j
  tot : ∀ i, i < tl.xs.length → ∃ l, tl.index i = .ok l ∧ l < pts.length ∧ l < tl.xs.length
  le : tl.xs.length ≤ pts.length

theorem transformLocal_good (c : PtsCfg K) (hs : ShuffleOK c) (tf : P3 K → P3 K) (pts : List (P3 K)) :
    ∃ tl, transformLocal c tf pts = .ok tl ∧ TLGood tf pts tl ∧
      ((c.maxLocal = 0 ∨ pts.length ≤ c.maxLocal) → tl.idxs = none ∧ tl.xs = pts.map tf) ∧
      (¬ (c.maxLocal = 0 ∨ pts.length ≤ c.maxLocal) →
        tl.idxs = some (c.shuffle c.maxLocal) ∧ tl.xs.length = c.maxLocal) := by
  unfold transformLocal
  by_cases hc : c.maxLocal = 0 ∨ pts.length ≤ c.maxLocal
  · refine ⟨{ idxs := none, xs := pts.map tf }, by simp [hc], ?_, fun _ => ⟨rfl, rfl⟩, fun h => (h hc).elim⟩
    constructor
    · intro i l q hi hq
      simp only [TLocal.index, Outcome.ok.injEq] at hi
      subst hi
      simp only [List.getElem?_map, Option.map_eq_some_iff] at hq
      obtain ⟨p, hp, rfl⟩ := hq
      exact ⟨p, hp, rfl⟩
    · intro i j l _ _ hi hj
      simp only [TLocal.index, Outcome.ok.injEq] at hi hj
      omega
    · intro i hi
      simp only [List.length_map] at hi
      exact ⟨i, rfl, hi, by simpa using hi⟩
    · simp
  · have hperm := hs c.maxLocal
    have hlt : ∀ i ∈ c.shuffle c.maxLocal, i < pts.length := by
      intro i hi
      have := (hperm.mem_iff).mp hi
      rw [List.mem_range] at this
      omega
    obtain ⟨r, hr⟩ := gatherPts_lt tf pts _ hlt
    have hr' := (gatherPts_ok _ _ _ _).mp hr
    have hlen : r.length = c.maxLocal := by
      rw [← hr'.length_eq, hperm.length_eq, List.length_range]
    refine ⟨{ idxs := some (c.shuffle c.maxLocal), xs := r }, by simp [hc, hr], ?_, fun h => (hc h).elim,
      fun _ => ⟨rfl, hlen⟩⟩
    have hnd : (c.shuffle c.maxLocal).Nodup := hperm.nodup_iff.mpr List.nodup_range
    constructor
    · intro i l q hi hq
      simp only [TLocal.index, vecAt_ok] at hi
      have h2 := List.forall₂_iff_get.mp hr'
      obtain ⟨hi1, hi2⟩ := List.getElem?_eq_some_iff.mp hi
      obtain ⟨hq1, hq2⟩ := List.getElem?_eq_some_iff.mp hq
      obtain ⟨p, hp1, hp2⟩ := h2.2 i hi1 hq1
      simp only [List.get_eq_getElem] at hp1 hp2
      rw [hi2] at hp1; rw [hq2] at hp2
      exact ⟨p, hp1, hp2⟩
    · intro i j l _ _ hi hj
      simp only [TLocal.index, vecAt_ok] at hi hj
      obtain ⟨hi1, hi2⟩ := List.getElem?_eq_some_iff.mp hi
      obtain ⟨hj1, hj2⟩ := List.getElem?_eq_some_iff.mp hj
      exact (List.Nodup.getElem_inj_iff hnd).mp (hi2.trans hj2.symm)
    · intro i hi
      have hi' : i < (c.shuffle c.maxLocal).length := by rw [hr'.length_eq]; exact hi
      refine ⟨(c.shuffle c.maxLocal)[i], ?_, hlt _ (List.getElem_mem _), ?_⟩
      · simp only [TLocal.index]; exact vecAt_lt _ _ hi'
      · have := (hperm.mem_iff).mp (List.getElem_mem hi')
        rw [List.mem_range] at this
        simp only [hlen]; exact this
    · simp only [hlen]; omega

end Verif.Lemmas
