import Mathlib.Tactic.Linarith
import Mathlib.Tactic.Ring
import Mathlib.Tactic.FieldSimp
import Mathlib.Tactic.Positivity
import Verif.Lemmas.FilterBasic
set_option linter.unusedSectionVars false
namespace Verif
namespace Flt
variable {K X : Type} [Field K] [LinearOrder K] [IsStrictOrderedRing K]

theorem optMin_some (a v : K) : optMin (some a) v = some (min a v) := by
  simp only [optMin]
  split
  · rename_i h; rw [min_eq_right h.le]
  · rename_i h; rw [min_eq_left (not_lt.1 h)]
theorem optMax_some (a v : K) : optMax (some a) v = some (max a v) := by
  simp only [optMax]
  split
  · rename_i h; rw [max_eq_right (le_of_lt h)]
  · rename_i h; rw [max_eq_left (not_lt.1 h)]

theorem foldl_optMin (l : List K) (a : K) : ∃ lo, l.foldl optMin (some a) = some lo ∧ lo ∈ a :: l ∧ ∀ v ∈ a :: l, lo ≤ v := by
  induction l generalizing a with
  | nil => exact ⟨a, rfl, by simp, by simp⟩
  | cons x l ih =>
    obtain ⟨lo, h1, h2, h3⟩ := ih (min a x)
    refine ⟨lo, by rw [List.foldl_cons, optMin_some, h1], ?_, ?_⟩
    · rcases List.mem_cons.1 h2 with rfl | h
      · rcases min_choice a x with h | h <;> rw [h] <;> simp
      · simp [h]
    · have := h3 (min a x) (by simp)
      intro v hv
      rcases List.mem_cons.1 hv with rfl | hv
      · exact this.trans (min_le_left ..)
      · rcases List.mem_cons.1 hv with rfl | hv
        · exact this.trans (min_le_right ..)
        · exact h3 v (List.mem_cons_of_mem _ hv)
theorem foldl_optMax (l : List K) (a : K) : ∃ hi, l.foldl optMax (some a) = some hi ∧ hi ∈ a :: l ∧ ∀ v ∈ a :: l, v ≤ hi := by
  induction l generalizing a with
  | nil => exact ⟨a, rfl, by simp, by simp⟩
  | cons x l ih =>
    obtain ⟨lo, h1, h2, h3⟩ := ih (max a x)
    refine ⟨lo, by rw [List.foldl_cons, optMax_some, h1], ?_, ?_⟩
    · rcases List.mem_cons.1 h2 with rfl | h
      · rcases max_choice a x with h | h <;> rw [h] <;> simp
      · simp [h]
    · have := h3 (max a x) (by simp)
      intro v hv
      rcases List.mem_cons.1 hv with rfl | hv
      · exact (le_max_left ..).trans this
      · rcases List.mem_cons.1 hv with rfl | hv
        · exact (le_max_right ..).trans this
        · exact h3 v (List.mem_cons_of_mem _ hv)

theorem range_of_ne (l : List K) (h : l ≠ []) :
    ∃ lo hi, l.foldl optMin none = some lo ∧ l.foldl optMax none = some hi ∧ IsRange l lo hi := by
  cases l with
  | nil => exact absurd rfl h
  | cons a l =>
    obtain ⟨lo, h1, h2, h3⟩ := foldl_optMin l a
    obtain ⟨hi, g1, g2, g3⟩ := foldl_optMax l a
    exact ⟨lo, hi, h1, g1, h2, g2, fun v hv => ⟨h3 v hv, g3 v hv⟩⟩

theorem IsRange.unique {l : List K} {a b c d : K} (h : IsRange l a b) (g : IsRange l c d) : a = c ∧ b = d :=
  ⟨le_antisymm (h.2.2 _ g.1).1 (g.2.2 _ h.1).1, le_antisymm (g.2.2 _ h.2.1).2 (h.2.2 _ g.2.1).2⟩

theorem clamp01_mem (v : K) : 0 ≤ clamp01 v ∧ clamp01 v ≤ 1 := by
  unfold clamp01
  split
  · exact ⟨le_rfl, zero_le_one⟩
  · rename_i h
    split
    · exact ⟨zero_le_one, le_rfl⟩
    · rename_i h'; exact ⟨not_lt.1 h, not_lt.1 h'⟩

theorem clamp01_mono {v w : K} (h : v ≤ w) : clamp01 v ≤ clamp01 w := by
  by_cases h1 : v < 0
  · have : clamp01 v = 0 := if_pos h1
    rw [this]; exact (clamp01_mem w).1
  · by_cases h2 : 1 < w
    · have : clamp01 w = 1 := by
        unfold clamp01; rw [if_neg (by linarith), if_pos h2]
      rw [this]; exact (clamp01_mem v).2
    · unfold clamp01
      rw [if_neg h1, if_neg (by linarith : ¬ 1 < v), if_neg (by linarith : ¬ w < 0), if_neg h2]; exact h

theorem clamp01_id {v : K} (h0 : 0 ≤ v) (h1 : v ≤ 1) : clamp01 v = v := by
  unfold clamp01; rw [if_neg (not_lt.2 h0), if_neg (not_lt.2 h1)]

theorem normValue_mem (r : K × K) (i : K) : 0 ≤ normValue r i ∧ normValue r i ≤ 1 := clamp01_mem _

theorem normValue_mono (r : K × K) (hr : r.1 ≤ r.2) {i j : K} (h : i ≤ j) : normValue r i ≤ normValue r j := by
  simp only [normValue]
  apply clamp01_mono
  apply mul_le_mul_of_nonneg_right (by linarith)
  split
  · norm_num
  · have : 0 ≤ r.2 - r.1 := by linarith
    positivity

theorem normValue_anti (r : K × K) (hr : r.2 < r.1) {i j : K} (h : i ≤ j) : normValue r j ≤ normValue r i := by
  simp only [normValue]
  apply clamp01_mono
  have h0 : r.2 - r.1 < 0 := by linarith
  rw [if_neg h0.ne]
  have : 1 / (r.2 - r.1) ≤ 0 := by
    rw [one_div]; exact (inv_lt_zero.2 h0).le
  exact mul_le_mul_of_nonpos_right (by linarith) this

theorem normValue_inside (r : K × K) (hr : r.1 < r.2) (i : K) (h1 : r.1 ≤ i) (h2 : i ≤ r.2) :
    normValue r i = (i - r.1) / (r.2 - r.1) := by
  have h0 : 0 < r.2 - r.1 := by linarith
  simp only [normValue]
  rw [if_neg h0.ne', mul_one_div]
  apply clamp01_id
  · exact div_nonneg (by linarith) h0.le
  · rw [div_le_one h0]; linarith

theorem normValue_degenerate (r : K × K) (hr : r.1 = r.2) (i : K) (h1 : i = r.1) : normValue r i = 0 := by
  simp [normValue, hr, h1, clamp01]

/-- the result of the range computation, without a fixed range -/
theorem normRange_free (p : NormParams K) (hp : ¬ 0 < p.fixedMax) (mem : NormMem K) (is : List K) (hne : is ≠ [])
    (seen : List K) (hmem : mem.Of seen) :
    ∃ a b mem', normRange p mem is = .ok ((a, b), mem') ∧
      (if p.remember then IsRange (seen ++ is) a b ∧ mem' = ⟨some a, some b⟩ else IsRange is a b ∧ mem' = mem) := by
  obtain ⟨lo, hi, h1, h2, h3⟩ := range_of_ne is hne
  unfold normRange
  rw [if_neg hp, h1, h2]
  by_cases hr : p.remember = true
  · simp only [hr, if_true]
    rcases hmem with ⟨hs, ha, hb⟩ | ⟨a, b, ha, hb, hR⟩
    · subst hs
      refine ⟨lo, hi, ⟨some lo, some hi⟩, ?_, by simpa using h3, rfl⟩
      simp [ha, hb, optMin, optMax]
    · refine ⟨min a lo, max b hi, ⟨some (min a lo), some (max b hi)⟩, ?_, ⟨?_, ?_, ?_⟩, rfl⟩
      · simp only [ha, hb, optMin_some, optMax_some]
      · rcases min_choice a lo with h | h <;> rw [h, List.mem_append]
        · exact Or.inl hR.1
        · exact Or.inr h3.1
      · rcases max_choice b hi with h | h <;> rw [h, List.mem_append]
        · exact Or.inl hR.2.1
        · exact Or.inr h3.2.1
      · intro v hv
        rcases List.mem_append.1 hv with hv | hv
        · have := hR.2.2 v hv; exact ⟨(min_le_left ..).trans this.1, this.2.trans (le_max_left ..)⟩
        · have := h3.2.2 v hv; exact ⟨(min_le_right ..).trans this.1, this.2.trans (le_max_right ..)⟩
  · simp only [hr]
    exact ⟨lo, hi, mem, rfl, h3, rfl⟩

theorem normRange_fixed (p : NormParams K) (hp : 0 < p.fixedMax) (mem : NormMem K) (is : List K) :
    normRange p mem is = .ok ((p.fixedMin, p.fixedMax), mem) := by
  unfold normRange; rw [if_pos hp]


theorem filterNormalize_eq (p : NormParams K) (mem : NormMem K) (m : FMap K X) :
    filterNormalize p mem m = match m.get p.layer with
      | some (.pts c) => if c.hasI = true ∧ c.pts ≠ [] then
          (normRange p mem (c.pts.map (·.i))).bind fun r => .ok (m.set p.layer (.pts (mapI (normValue r.1) c)), r.2)
        else .throw
      | _ => .throw := by
  unfold filterNormalize pointLayer
  cases hg : m.get p.layer with
  | none => rfl
  | some l =>
    cases l with
    | other x => rfl
    | pts c =>
      by_cases h : c.hasI = true ∧ c.pts ≠ []
      · simp only [Outcome.bind, Outcome.assert]
        rw [if_pos (by simpa using h), if_pos h]; rfl
      · simp only [Outcome.bind, Outcome.assert]
        rw [if_neg h, if_neg (by simpa using h)]

theorem mapI_I (f : K → K) (c : Cloud K) : (mapI f c).pts.map (·.i) = (c.pts.map (·.i)).map f := by
  simp [mapI, List.map_map, Function.comp_def]


theorem filterTimestamps_ok (p : TsParams K) (ref : Option K) (m : FMap K X) (c : Cloud K)
    (hm : m.get p.layer = some (.pts c)) (hT : c.hasT = true) (lo hi : K) (hR : IsRange (c.pts.map (·.t)) lo hi) :
    filterTimestamps p ref m =
      .ok (m.set p.layer (.pts (mapT (adjustValues p lo hi).1 c)), ref.map (· + (adjustValues p lo hi).2)) := by
  have hne : c.pts.map (·.t) ≠ [] := by intro h; have := hR.1; rw [h] at this; cases this
  obtain ⟨lo', hi', h1, h2, h3⟩ := range_of_ne _ hne
  obtain ⟨rfl, rfl⟩ := hR.unique h3
  have : c.pts.isEmpty = false := by cases hc : c.pts <;> simp_all
  simp [filterTimestamps, pointLayer, hm, Outcome.bind, this, hT, h1, h2, mapT]

end Flt
end Verif
