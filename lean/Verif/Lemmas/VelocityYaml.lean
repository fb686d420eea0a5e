import Mathlib.Tactic.FieldSimp
import Mathlib.Tactic.NormNum
import Mathlib.Tactic.Positivity
import Verif.Lemmas.Velocity
/-
Lemmas on the YAML form of the velocity buffer.
-/
namespace Verif
namespace Vel
variable {K V T : Type} [Field K] [LinearOrder K] [IsStrictOrderedRing K] [FloorRing K]

theorem stampOf_inj {a b : Int} (h : (stampOf a : K) = stampOf b) : a = b := by
  unfold stampOf at h
  have h9 : (10 ^ 9 : K) ≠ 0 := by positivity
  rw [div_left_inj' h9] at h
  exact_mod_cast h

theorem stampOf_key (t : K) : stampOf (stampKey t) = printed t := rfl

theorem printed_whole {t : K} (h : WholeNs t) : printed t = t := by
  obtain ⟨n, rfl⟩ := h
  have h9 : (10 ^ 9 : K) ≠ 0 := by positivity
  unfold printed
  rw [div_mul_cancel₀ _ h9, round_intCast]

theorem round_mono' {a b : K} (h : a ≤ b) : round a ≤ round b := by
  rw [round_eq, round_eq]; exact Int.floor_le_floor (by linarith)

theorem printed_mono {a b : K} (h : a ≤ b) : printed a ≤ printed b := by
  unfold printed
  have h9 : (0 : K) < 10 ^ 9 := by positivity
  have : round (a * 10 ^ 9) ≤ round (b * 10 ^ 9) := round_mono' (mul_le_mul_of_nonneg_right h h9.le)
  exact div_le_div_of_nonneg_right (by exact_mod_cast this) h9.le

/-- value of a key after assigning all entries of a list: the last one with that key -/
theorem get_foldl_set {κ α β : Type} [LinearOrder κ] (k : β → κ) (g : β → α) (l : List β) : ∀ (m : AMap κ α) (x : κ),
    AMap.get (l.foldl (fun m e => AMap.set m (k e) (g e)) m) x =
      match l.reverse.find? (fun e => k e = x) with
      | some e => some (g e)
      | none => AMap.get m x := by
  induction l with
  | nil => intro m x; rfl
  | cons e l ih =>
    intro m x
    rw [List.foldl_cons, ih, List.reverse_cons, List.find?_append]
    cases h : l.reverse.find? (fun e => k e = x) with
    | some e' => rfl
    | none =>
      simp only [Option.none_or, AMap.get_set, List.find?_cons, List.find?_nil]
      by_cases hk : k e = x
      · simp [hk]
      · rw [if_neg (fun h => hk h.symm)]; simp [hk]

theorem sorted_foldl_set {κ α β : Type} [LinearOrder κ] (k : β → κ) (g : β → α) (l : List β) : ∀ (m : AMap κ α),
    AMap.Sorted m → AMap.Sorted (l.foldl (fun m e => AMap.set m (k e) (g e)) m) := by
  induction l with
  | nil => intro m h; exact h
  | cons e l ih => intro m h; exact ih _ (AMap.sorted_set _ _ _ h)

theorem restoreLoop_eq (fmt : V → T) (parse : T → Outcome V) (y : List (Int × T)) :
    ∀ acc : AMap K V, (∀ e ∈ y, ∃ v, parse e.2 = .ok v) →
    ∃ r, restoreLoop parse acc y = .ok r ∧
      ∀ (dflt : V), r = y.foldl (fun m e => AMap.set m (stampOf e.1) (match parse e.2 with | .ok v => v | _ => dflt)) acc := by
  induction y with
  | nil => intro acc _; exact ⟨acc, rfl, fun _ => rfl⟩
  | cons e y ih =>
    intro acc h
    obtain ⟨v, hv⟩ := h e (by simp)
    obtain ⟨r, h1, h2⟩ := ih (AMap.set acc (stampOf e.1) v) fun e he => h e (by simp [he])
    refine ⟨r, ?_, fun d => ?_⟩
    · simp only [restoreLoop, hv, Outcome.bind]; exact h1
    · rw [List.foldl_cons, hv]; exact h2 d

/-- writing and reading one sample table: each printed time holds the value of its latest sample -/
theorem restore_dump (fmt : V → T) (parse : T → Outcome V) (q : V → V)
    (hp : ∀ v, parse (fmt v) = .ok (q v)) (m : AMap K V) (hs : AMap.Sorted m) :
    ∃ r : AMap K V, restore parse (dump fmt m) = .ok r ∧ AMap.Sorted r ∧ ∀ κ w, (κ, w) ∈ r ↔
      ∃ t v, (t, v) ∈ m ∧ w = q v ∧ printed t = κ ∧ ∀ e ∈ m, printed e.1 = κ → e.1 ≤ t := by
  unfold dump
  cases m with
  | nil => exact ⟨[], rfl, List.Pairwise.nil, by simp⟩
  | cons e0 m0 =>
    rw [if_neg (by simp)]
    generalize hm : e0 :: m0 = m at *
    set y : AMap Int T := m.foldl (fun y e => AMap.set y (stampKey e.1) (fmt e.2)) [] with hy
    have hys : AMap.Sorted y := sorted_foldl_set _ _ _ _ List.Pairwise.nil
    have hyget : ∀ k, AMap.get y k = match m.reverse.find? (fun e => stampKey e.1 = k) with
        | some e => some (fmt e.2) | none => none := by
      intro k
      rw [hy, get_foldl_set (fun e : K × V => stampKey e.1) (fun e => fmt e.2) m [] k]
      cases m.reverse.find? (fun e => stampKey e.1 = k) <;> rfl
    have hypar : ∀ e ∈ y, ∃ v, parse e.2 = .ok v := by
      rintro ⟨k, s⟩ he
      have := AMap.get_eq_some_of_mem _ hys _ _ he
      rw [hyget] at this
      split at this
      · simp only [Option.some.injEq] at this; exact ⟨_, by rw [← this]; exact hp _⟩
      · simp at this
    obtain ⟨r, h1, h2⟩ := restoreLoop_eq (K := K) fmt parse y [] hypar
    have h3 := h2 e0.2
    refine ⟨r, h1, ?_, ?_⟩
    · rw [h3]; exact sorted_foldl_set _ _ _ _ List.Pairwise.nil
    intro κ w
    have hrs : AMap.Sorted r := by rw [h3]; exact sorted_foldl_set _ _ _ _ List.Pairwise.nil
    -- the latest sample with a given printed time
    have hlast : ∀ t v, (t, v) ∈ m → (∀ e ∈ m, printed e.1 = printed t → e.1 ≤ t) →
        m.reverse.find? (fun e => stampKey e.1 = stampKey t) = some (t, v) := by
      intro t v hmem hmax
      cases hf : m.reverse.find? (fun e => stampKey e.1 = stampKey t) with
      | none =>
        rw [List.find?_eq_none] at hf
        have := hf (t, v) (by simpa using hmem)
        simp at this
      | some e =>
        rw [List.find?_eq_some_iff_append] at hf
        obtain ⟨hk, as, bs, hap, hnot⟩ := hf
        simp at hk
        have hrev : m.reverse.Pairwise (fun a b => b.1 < a.1) := by rw [List.pairwise_reverse]; exact hs
        have hem : e ∈ m := by rw [← List.mem_reverse, hap]; simp
        have hle : e.1 ≤ t := hmax e hem (by unfold printed; unfold stampKey at hk; rw [hk])
        have hin : (t, v) ∈ m.reverse := by simpa using hmem
        rw [hap, List.mem_append, List.mem_cons] at hin
        rcases hin with hin | hin | hin
        · have := hnot _ hin; simp at this
        · rw [hin]
        · rw [hap, List.pairwise_append, List.pairwise_cons] at hrev
          have := hrev.2.1.1 _ hin
          exact absurd this (not_lt.mpr hle)
    constructor
    · intro hmem
      have hg := AMap.get_eq_some_of_mem _ hrs _ _ hmem
      rw [h3, get_foldl_set] at hg
      split at hg
      · rename_i ey hey
        rw [List.find?_eq_some_iff_append] at hey
        obtain ⟨hk, as, bs, hap, _⟩ := hey
        simp at hk
        have heym : ey ∈ y := by rw [← List.mem_reverse, hap]; simp
        have := AMap.get_eq_some_of_mem _ hys ey.1 ey.2 heym
        rw [hyget] at this
        split at this
        · rename_i em hem
          rw [List.find?_eq_some_iff_append] at hem
          obtain ⟨hkm, as', bs', hap', hnot'⟩ := hem
          simp at hkm
          simp only [Option.some.injEq] at this
          rw [← this, hp] at hg
          simp only [Option.some.injEq] at hg
          have hrev : m.reverse.Pairwise (fun a b => b.1 < a.1) := by rw [List.pairwise_reverse]; exact hs
          refine ⟨em.1, em.2, ?_, hg.symm, ?_, ?_⟩
          · rw [← List.mem_reverse, hap']; simp
          · rw [← stampOf_key, hkm, hk]
          · intro e he hpe
            have hin : e ∈ m.reverse := by simpa using he
            rw [hap', List.mem_append, List.mem_cons] at hin
            rcases hin with hin | hin | hin
            · have h5 := hnot' _ hin
              have : stampKey e.1 = ey.1 := stampOf_inj (K := K) (by rw [stampOf_key, hpe, hk])
              simp [this] at h5
            · rw [hin]
            · rw [hap', List.pairwise_append, List.pairwise_cons] at hrev
              exact (hrev.2.1.1 _ hin).le
        · simp at this
      · simp at hg
    · rintro ⟨t, v, htm, rfl, rfl, hmax⟩
      apply AMap.mem_of_get
      have hfy := hlast t v htm hmax
      have hgy : AMap.get y (stampKey t) = some (fmt v) := by rw [hyget, hfy]
      rw [h3, get_foldl_set]
      cases hf : y.reverse.find? (fun e => (stampOf e.1 : K) = printed t) with
      | none =>
        rw [List.find?_eq_none] at hf
        have := hf _ (by rw [List.mem_reverse]; exact AMap.mem_of_get _ _ _ hgy)
        simp [stampOf_key] at this
      | some ey =>
        have hk := List.find?_some hf
        simp at hk
        have hke : ey.1 = stampKey t := stampOf_inj (K := K) (by rw [hk, stampOf_key])
        have hem : ey ∈ y := by rw [← List.mem_reverse]; exact List.mem_of_find?_eq_some hf
        have := AMap.get_eq_some_of_mem _ hys ey.1 ey.2 hem
        rw [hke, hgy] at this
        simp only [Option.some.injEq] at this
        simp only [← this, hp]

/-- whole-nanosecond times: the table comes back exactly -/
theorem restore_dump_whole (fmt : V → T) (parse : T → Outcome V) (q : V → V)
    (hp : ∀ v, parse (fmt v) = .ok (q v)) (m : AMap K V) (hs : AMap.Sorted m) (hw : ∀ e ∈ m, WholeNs e.1 ∧ q e.2 = e.2) : restore parse (dump fmt m) = .ok m := by
  obtain ⟨r, h1, h2, h3⟩ := restore_dump fmt parse q hp m hs
  rw [h1]
  congr 1
  apply AMap.ext_of_get _ _ h2 hs
  intro k
  apply Option.ext
  intro v
  rw [← AMap.mem_iff_get _ h2, ← AMap.mem_iff_get _ hs, h3]
  constructor
  · rintro ⟨t, v, ht, rfl, rfl, _⟩
    rwa [printed_whole (hw _ ht).1, (hw _ ht).2]
  · intro hk
    refine ⟨k, v, hk, (hw _ hk).2.symm, printed_whole (hw _ hk).1, fun e he hpe => ?_⟩
    rw [printed_whole (hw _ he).1] at hpe
    exact hpe.le

end Vel
end Verif
