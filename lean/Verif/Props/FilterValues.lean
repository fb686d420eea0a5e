import Mathlib.Algebra.Order.Ring.Rat
import Mathlib.Tactic.NormNum
import Verif.Lemmas.FilterValues
/-
C47: FilterNormalizeIntensity.  C48: FilterAdjustTimestamps.
-/
set_option linter.unusedSectionVars false
namespace Verif
namespace Props
open Flt
variable {K X : Type} [Field K] [LinearOrder K] [IsStrictOrderedRing K]

/-- One call, any memory reachable from the values `seen`: on a cloud with intensities the filter succeeds, changes the
intensities of that layer by a function `f` and nothing else; all results are in `[0,1]`; `f` preserves the order unless a
fixed range is given upside down. -/
theorem normalize_result_partial (p : NormParams K) (mem : NormMem K) (seen : List K) (hmem : mem.Of seen) (m : FMap K X)
    (c : Cloud K) (hm : m.get p.layer = some (.pts c)) (hI : c.hasI = true) (hne : c.pts ≠ []) :
    ∃ f m' mem', filterNormalize p mem m = .ok (m', mem') ∧ m'.get p.layer = some (.pts (mapI f c)) ∧
      (∀ n, n ≠ p.layer → m'.get n = m.get n) ∧ (∀ i, 0 ≤ f i ∧ f i ≤ 1) ∧
      ((0 < p.fixedMax → p.fixedMin ≤ p.fixedMax) → ∀ i j, i ≤ j → f i ≤ f j) := by
  by_cases hp : 0 < p.fixedMax
  · refine ⟨normValue (p.fixedMin, p.fixedMax), m.set p.layer (.pts (mapI (normValue (p.fixedMin, p.fixedMax)) c)), mem,
      ?_, by simp, fun n hn => by simp [hn], normValue_mem _, fun h i j hij => normValue_mono _ (h hp) hij⟩
    rw [filterNormalize_eq, hm]
    simp [hI, hne, normRange_fixed p hp]
  · obtain ⟨a, b, mem', h1, h2⟩ := normRange_free p hp mem (c.pts.map (·.i)) (by simpa using hne) seen hmem
    refine ⟨normValue (a, b), m.set p.layer (.pts (mapI (normValue (a, b)) c)), mem', ?_, by simp,
      fun n hn => by simp [hn], normValue_mem _, fun _ i j hij => normValue_mono _ ?_ hij⟩
    · rw [filterNormalize_eq, hm]
      simp [hI, hne, h1]
    · split at h2
      · exact (h2.1.2.2 _ h2.1.1).2
      · exact (h2.1.2.2 _ h2.1.1).2

/-- Without a fixed range the values are mapped affinely from the range of this cloud (with memory: of all the clouds since the
first one) to `[0,1]`; a range of one value goes to 0. -/
theorem normalize_affine (p : NormParams K) (hp : p.fixedMax ≤ 0) (mem : NormMem K) (seen : List K) (hmem : mem.Of seen)
    (m : FMap K X) (c : Cloud K) (hm : m.get p.layer = some (.pts c)) (hI : c.hasI = true)
    (a b : K) (hR : IsRange (if p.remember then seen ++ c.pts.map (·.i) else c.pts.map (·.i)) a b) (hne : c.pts ≠ []) :
    ∃ m' mem', filterNormalize p mem m = .ok (m', mem') ∧
      m'.get p.layer = some (.pts (mapI (fun i => if a < b then (i - a) / (b - a) else 0) c)) ∧
      mem'.Of (if p.remember then seen ++ c.pts.map (·.i) else seen) := by
  obtain ⟨a', b', mem', h1, h2⟩ := normRange_free p (not_lt.2 hp) mem (c.pts.map (·.i)) (by simpa using hne) seen hmem
  have hab : a' = a ∧ b' = b ∧ mem'.Of (if p.remember then seen ++ c.pts.map (·.i) else seen) := by
    split at h2 <;> rename_i hr
    · rw [if_pos hr] at hR ⊢
      obtain ⟨rfl, rfl⟩ := h2.1.unique hR
      exact ⟨rfl, rfl, Or.inr ⟨_, _, by rw [h2.2], by rw [h2.2], hR⟩⟩
    · rw [if_neg hr] at hR ⊢
      obtain ⟨rfl, rfl⟩ := h2.1.unique hR
      exact ⟨rfl, rfl, h2.2 ▸ hmem⟩
  obtain ⟨rfl, rfl, hof⟩ := hab
  have hin : ∀ i ∈ c.pts.map (·.i), a' ≤ i ∧ i ≤ b' := by
    intro i hi
    apply hR.2.2
    split
    · exact List.mem_append_right _ hi
    · exact hi
  refine ⟨m.set p.layer (.pts (mapI (normValue (a', b')) c)), mem', ?_, ?_, hof⟩
  · rw [filterNormalize_eq, hm]
    simp [hI, hne, h1]
  · simp only [AMap.get_set, if_true, Option.some.injEq, Layer.pts.injEq, mapI, Cloud.mk.injEq, and_self, and_true]
    apply List.map_congr_left
    intro q hq
    obtain ⟨h3, h4⟩ := hin q.i (List.mem_map_of_mem hq)
    by_cases hlt : a' < b'
    · rw [if_pos hlt, normValue_inside (a', b') hlt _ h3 h4]
    · have e : a' = b' := le_antisymm (h3.trans h4) (not_lt.1 hlt)
      rw [if_neg hlt, normValue_degenerate (a', b') e _ (le_antisymm (e ▸ h4) h3)]

/-- In every other case the filter throws (the layer is missing, is no cloud, has no intensities or no points). -/
theorem normalize_throws (p : NormParams K) (mem : NormMem K) (m : FMap K X)
    (h : ∀ c, m.get p.layer = some (.pts c) → c.hasI = false ∨ c.pts = []) : filterNormalize p mem m = .throw := by
  rw [filterNormalize_eq]
  split
  · rename_i c hc
    rw [if_neg]
    rintro ⟨h1, h2⟩
    rcases h c hc with h | h
    · rw [h1] at h; cases h
    · exact h2 h
  · rfl

/-- Over any history of calls the remembered range is exactly the range of all the intensities the filter was given since its
creation (it remembers and no fixed range is set). -/
theorem normalize_history (p : NormParams K) (hp : p.fixedMax ≤ 0) (hr : p.remember = true) (ms : List (FMap K X))
    (mem : NormMem K) (seen : List K) (hmem : mem.Of seen) :
    (normHistory p mem ms).Of (seen ++ ms.flatMap (intensities p)) := by
  induction ms generalizing mem seen with
  | nil => simpa [normHistory] using hmem
  | cons m ms ih =>
    rw [List.flatMap_cons, ← List.append_assoc]
    by_cases h : ∀ c, m.get p.layer = some (.pts c) → c.hasI = false ∨ c.pts = []
    · have e : intensities p m = [] := by
        unfold intensities
        split
        · rename_i c hc
          rcases h c hc with h | h <;> simp [h]
        · rfl
      rw [e, List.append_nil]
      simp only [normHistory, normalize_throws p mem m h]
      exact ih mem seen hmem
    · simp only [not_forall, not_or, Bool.not_eq_false] at h
      obtain ⟨c, hc, hI, hne⟩ := h
      obtain ⟨a, b, mem', h1, h2⟩ := normRange_free p (not_lt.2 hp) mem (c.pts.map (·.i)) (by simpa using hne) seen hmem
      rw [if_pos hr] at h2
      obtain ⟨m', mem'', h3, -, h4⟩ := normalize_affine p hp mem seen hmem m c hc hI a b (by rw [if_pos hr]; exact h2.1) hne
      rw [if_pos hr] at h4
      have e : intensities p m = c.pts.map (·.i) := by simp [intensities, hc, hI]
      simp only [normHistory, h3]
      rw [e]
      exact ih mem'' _ h4

/-- So the remembered range only grows: what it covers, it covers after any further calls. -/
theorem normalize_memory_grows (p : NormParams K) (hp : p.fixedMax ≤ 0) (hr : p.remember = true) (ms : List (FMap K X))
    (mem : NormMem K) (seen : List K) (hmem : mem.Of seen) (v : K) (hv : mem.Covers v) :
    (normHistory p mem ms).Covers v := by
  have h := normalize_history p hp hr ms mem seen hmem
  obtain ⟨a, b, ha, hb, h1, h2⟩ := hv
  rcases hmem with ⟨-, h0, -⟩ | ⟨a', b', ha', hb', hR⟩
  · rw [ha] at h0; cases h0
  · rw [ha] at ha'; rw [hb] at hb'
    obtain rfl : a = a' := by simpa using ha'
    obtain rfl : b = b' := by simpa using hb'
    rcases h with ⟨h, -, -⟩ | ⟨x, y, hx, hy, hR'⟩
    · have := List.mem_append_left (ms.flatMap (intensities p)) hR.1
      rw [h] at this; cases this
    · exact ⟨x, y, hx, hy, (hR'.2.2 a (List.mem_append_left _ hR.1)).1.trans h1,
        h2.trans (hR'.2.2 b (List.mem_append_left _ hR.2.1)).2⟩

/-- The memory is not touched when a fixed range is set, or when the filter does not remember. -/
theorem normalize_memory_unused (p : NormParams K) (h : 0 < p.fixedMax ∨ p.remember = false) (mem mem' : NormMem K)
    (m m' : FMap K X) (hf : filterNormalize p mem m = .ok (m', mem')) : mem' = mem := by
  rw [filterNormalize_eq] at hf
  split at hf
  · split at hf
    · simp only [Outcome.bind_eq_ok, Outcome.ok.injEq, Prod.mk.injEq] at hf
      obtain ⟨r, hr, -, rfl⟩ := hf
      by_cases hp : 0 < p.fixedMax
      · rw [normRange_fixed p hp] at hr
        simp only [Outcome.ok.injEq] at hr
        rw [← hr]
      · have h : p.remember = false := h.resolve_left hp
        unfold normRange at hr
        rw [if_neg hp] at hr
        simp only [h] at hr
        split at hr
        · simp only [Bool.false_eq_true, if_false, Outcome.ok.injEq] at hr
          rw [← hr]
        · cases hr
    · cases hf
  · cases hf

/-- A fixed range given upside down reverses the order. -/
theorem normalize_fixed_reversed (p : NormParams K) (hp : 0 < p.fixedMax) (hrev : p.fixedMax < p.fixedMin)
    (mem : NormMem K) (m : FMap K X) (c : Cloud K) (hm : m.get p.layer = some (.pts c)) (hI : c.hasI = true)
    (hne : c.pts ≠ []) :
    ∃ f m' mem', filterNormalize p mem m = .ok (m', mem') ∧ m'.get p.layer = some (.pts (mapI f c)) ∧
      ∀ i j, i ≤ j → f j ≤ f i := by
  refine ⟨normValue (p.fixedMin, p.fixedMax), m.set p.layer (.pts (mapI (normValue (p.fixedMin, p.fixedMax)) c)), mem,
      ?_, by simp, fun i j hij => normValue_anti _ hrev hij⟩
  rw [filterNormalize_eq, hm]
  simp [hI, hne, normRange_fixed p hp]

/-- With a fixed range: values in the range are mapped affinely, below it to 0 and above it to 1; a range of one value is
a step of width one above it. -/
theorem normalize_fixed (p : NormParams K) (hp : 0 < p.fixedMax) (hle : p.fixedMin ≤ p.fixedMax)
    (mem : NormMem K) (m : FMap K X) (c : Cloud K) (hm : m.get p.layer = some (.pts c)) (hI : c.hasI = true)
    (hne : c.pts ≠ []) :
    ∃ f m', filterNormalize p mem m = .ok (m', mem) ∧ m'.get p.layer = some (.pts (mapI f c)) ∧
      (∀ i, i ≤ p.fixedMin → f i = 0) ∧ (∀ i, p.fixedMin < p.fixedMax → p.fixedMax ≤ i → f i = 1) ∧
      (∀ i, p.fixedMin < p.fixedMax → p.fixedMin ≤ i → i ≤ p.fixedMax → f i = (i - p.fixedMin) / (p.fixedMax - p.fixedMin)) ∧
      (p.fixedMin = p.fixedMax → ∀ i, p.fixedMin ≤ i → f i = min 1 (i - p.fixedMin)) := by
  refine ⟨normValue (p.fixedMin, p.fixedMax), m.set p.layer (.pts (mapI (normValue (p.fixedMin, p.fixedMax)) c)),
      ?_, by simp, ?_, ?_, fun i hlt h1 h2 => normValue_inside _ hlt _ h1 h2, ?_⟩
  · rw [filterNormalize_eq, hm]
    simp [hI, hne, normRange_fixed p hp]
  · intro i hi
    have hc : ∀ v : K, v ≤ 0 → clamp01 v = 0 := by
      intro v hv
      unfold clamp01
      split
      · rfl
      · rename_i h
        rw [if_neg (not_lt.2 (hv.trans zero_le_one))]
        exact le_antisymm hv (not_lt.1 h)
    refine hc _ (mul_nonpos_of_nonpos_of_nonneg (sub_nonpos.2 hi) (one_div_nonneg.2 ?_))
    split
    · exact zero_le_one
    · exact sub_nonneg.2 hle
  · intro i hlt hi
    unfold normValue clamp01
    have hd : p.fixedMax - p.fixedMin ≠ 0 := (sub_pos.2 hlt).ne'
    simp only [if_neg hd]
    have : 1 ≤ (i - p.fixedMin) * (1 / (p.fixedMax - p.fixedMin)) := by
      rw [mul_one_div, le_div_iff₀ (sub_pos.2 hlt), one_mul]
      exact sub_le_sub_right hi _
    rw [if_neg (not_lt.2 (zero_le_one.trans this))]
    split
    · rfl
    · rename_i h; exact le_antisymm (not_lt.1 h) this
  · intro he i hi
    unfold normValue clamp01
    have : p.fixedMax - p.fixedMin = 0 := by rw [he]; exact sub_self _
    simp only [if_pos this, div_one, mul_one]
    rw [if_neg (not_lt.2 (sub_nonneg.2 hi))]
    split
    · rename_i h; exact (min_eq_left h.le).symm
    · rename_i h; exact (min_eq_right (not_lt.1 h)).symm

example : (filterNormalize (K := ℚ) (X := Unit) ⟨"a", true, 0, 0⟩ ⟨some 0, some 4⟩
    [("a", .pts { pts := [⟨0, 0, 0, 2, 0, 0⟩, ⟨0, 0, 0, 8, 0, 0⟩] })]).Sat fun r =>
      AMap.get r.1 "a" = some (.pts { pts := [⟨0, 0, 0, 1/4, 0, 0⟩, ⟨0, 0, 0, 1, 0, 0⟩] }) ∧ r.2.hi = some 8 := by
  decide +kernel
example : (⟨some 0, some 4⟩ : NormMem ℚ).Of [4, 0, 1] := by
  refine Or.inr ⟨0, 4, rfl, rfl, by simp, by simp, ?_⟩
  intro v hv
  simp only [List.mem_cons, List.not_mem_nil, or_false] at hv
  rcases hv with rfl | rfl | rfl <;> norm_num
/-- A "fixed" range whose maximum is not positive is taken as no fixed range. -/
example : (filterNormalize (K := ℚ) (X := Unit) ⟨"a", false, -10, -1⟩ {}
    [("a", .pts { pts := [⟨0, 0, 0, -2, 0, 0⟩, ⟨0, 0, 0, -4, 0, 0⟩] })]).Sat fun r =>
      AMap.get r.1 "a" = some (.pts { pts := [⟨0, 0, 0, 1, 0, 0⟩, ⟨0, 0, 0, 0, 0, 0⟩] }) := by
  decide +kernel

/-! ### FilterAdjustTimestamps -/

/-- MiddleIsZero and EarliestIsZero: every stamp is shifted by the same `dt`, and the reference time of the attached source by
`dt` the other way, so that reference + stamp is kept; only that layer changes. -/
theorem adjust_shifts (p : TsParams K) (hmeth : p.method ≠ .normalize) (ref : Option K) (m : FMap K X) (c : Cloud K)
    (hm : m.get p.layer = some (.pts c)) (hT : c.hasT = true) (lo hi : K) (hR : IsRange (c.pts.map (·.t)) lo hi) :
    ∃ dt m', filterTimestamps p ref m = .ok (m', ref.map (· + dt)) ∧
      m'.get p.layer = some (.pts (mapT (· - dt) c)) ∧ (∀ n, n ≠ p.layer → m'.get n = m.get n) ∧
      dt = (if p.method = .middleIsZero then (lo + hi) / 2 else lo) + p.offset := by
  refine ⟨(adjustValues p lo hi).2, _, filterTimestamps_ok p ref m c hm hT lo hi hR, ?_, fun n hn => by simp [hn], ?_⟩
  · simp only [AMap.get_set, if_true, Option.some.injEq, Layer.pts.injEq]
    unfold adjustValues
    cases h : p.method <;> simp_all
  · unfold adjustValues
    cases h : p.method
    · simp; ring
    · simp
    · exact absurd h hmeth

/-- After MiddleIsZero (EarliestIsZero) the middle (the earliest stamp) is minus the offset. -/
theorem adjust_zero (p : TsParams K) (ref : Option K) (m : FMap K X) (c : Cloud K)
    (hm : m.get p.layer = some (.pts c)) (hT : c.hasT = true) (lo hi : K) (hR : IsRange (c.pts.map (·.t)) lo hi) :
    ∃ m' ref' c' lo' hi', filterTimestamps p ref m = .ok (m', ref') ∧ m'.get p.layer = some (.pts c') ∧
      IsRange (c'.pts.map (·.t)) lo' hi' ∧
      (p.method = .middleIsZero → (lo' + hi') / 2 = - p.offset ∧ hi' - lo' = hi - lo) ∧
      (p.method = .earliestIsZero → lo' = - p.offset ∧ hi' - lo' = hi - lo) ∧
      (p.method = .normalize → lo' = p.offset ∧ hi' = (if lo < hi then 1 else 0) + p.offset ∧ ref' = ref) := by
  have hle : lo ≤ hi := (hR.2.2 lo hR.1).2
  let f := (adjustValues p lo hi).1
  have hf : ∀ x y, x ≤ y → f x ≤ f y := by
    intro x y hxy
    simp only [f, adjustValues]
    cases p.method
    · simp only []; linarith
    · simp only []; linarith
    · simp only []
      have : (0 : K) ≤ if hi ≠ lo then 1 / (hi - lo) else 1 := by
        split
        · have : 0 ≤ hi - lo := by linarith
          positivity
        · norm_num
      have := mul_le_mul_of_nonneg_right (by linarith : x - lo ≤ y - lo) this
      linarith
  refine ⟨_, _, mapT f c, f lo, f hi, filterTimestamps_ok p ref m c hm hT lo hi hR, by simp [f], ?_, ?_, ?_, ?_⟩
  · have e : (mapT f c).pts.map (·.t) = (c.pts.map (·.t)).map f := by
      simp [mapT, List.map_map, Function.comp_def]
    rw [e]
    refine ⟨List.mem_map_of_mem hR.1, List.mem_map_of_mem hR.2.1, ?_⟩
    intro v hv
    obtain ⟨w, hw, rfl⟩ := List.mem_map.1 hv
    obtain ⟨h1, h2⟩ := hR.2.2 w hw
    exact ⟨hf _ _ h1, hf _ _ h2⟩
  · intro h
    simp only [f, adjustValues, h]
    constructor <;> ring
  · intro h
    simp only [f, adjustValues, h]
    constructor <;> ring
  · intro h
    simp only [f, adjustValues, h, sub_self, zero_mul, zero_add, add_zero, true_and]
    refine ⟨?_, by cases ref <;> rfl⟩
    by_cases h1 : lo < hi
    · have h0 : hi - lo ≠ 0 := by intro h; linarith
      rw [if_pos h1, if_pos h1.ne', mul_one_div, div_self h0]
    · have : hi = lo := le_antisymm (not_lt.1 h1) hle
      simp [this]

/-- Normalize is affine: each stamp goes to its relative position in the range, plus the offset. -/
theorem adjust_normalize (p : TsParams K) (hmeth : p.method = .normalize) (ref : Option K) (m : FMap K X) (c : Cloud K)
    (hm : m.get p.layer = some (.pts c)) (hT : c.hasT = true) (lo hi : K) (hR : IsRange (c.pts.map (·.t)) lo hi) :
    ∃ m', filterTimestamps p ref m = .ok (m', ref) ∧ (∀ n, n ≠ p.layer → m'.get n = m.get n) ∧
      m'.get p.layer = some (.pts (mapT (fun t => (if lo < hi then (t - lo) / (hi - lo) else 0) + p.offset) c)) := by
  have hle : lo ≤ hi := (hR.2.2 lo hR.1).2
  refine ⟨m.set p.layer (.pts (mapT (adjustValues p lo hi).1 c)), ?_, fun n hn => ?_, ?_⟩
  · rw [filterTimestamps_ok p ref m c hm hT lo hi hR]
    simp only [adjustValues, hmeth, add_zero, Outcome.ok.injEq, Prod.mk.injEq, true_and]
    cases ref <;> rfl
  · simp [hn]
  · simp only [AMap.get_set, if_true, Option.some.injEq, Layer.pts.injEq, mapT, Cloud.mk.injEq, and_self, and_true]
    apply List.map_congr_left
    intro q hq
    obtain ⟨h1, h2⟩ := hR.2.2 q.t (List.mem_map_of_mem hq)
    simp only [adjustValues, hmeth]
    by_cases h : lo < hi
    · rw [if_pos h, if_pos h.ne', mul_one_div]
    · have e : hi = lo := le_antisymm (not_lt.1 h) hle
      have e2 : q.t = lo := le_antisymm (e ▸ h2) h1
      simp [e, e2]

/-- Nothing to do: an empty cloud, or one without stamps if this is to be ignored; an error otherwise. -/
theorem adjust_skips (p : TsParams K) (ref : Option K) (m : FMap K X) (c : Cloud K) (hm : m.get p.layer = some (.pts c))
    (h : c.pts = [] ∨ c.hasT = false) :
    filterTimestamps p ref m = if c.pts = [] ∨ p.silent = true then .ok (m, ref) else .throw := by
  simp only [filterTimestamps, pointLayer, hm, Outcome.bind]
  by_cases h1 : c.pts = []
  · simp [h1]
  · have h2 := h.resolve_left h1
    cases hs : p.silent <;> simp [h1, h2]

/-- "Absolute" stamps of a layer, the reference time being `r`. -/
def absStamps (r : K) (m : FMap K X) (n : String) : List K :=
  match m.get n with
  | some (.pts c) => c.pts.map fun q => r + q.t
  | _ => []

/-- One adjustment by MiddleIsZero or EarliestIsZero keeps reference + stamp of the layer it adjusts. -/
theorem adjust_keeps_absolute (p : TsParams K) (hmeth : p.method ≠ .normalize) (r : K) (m : FMap K X) (c : Cloud K)
    (hm : m.get p.layer = some (.pts c)) (hT : c.hasT = true) (lo hi : K) (hR : IsRange (c.pts.map (·.t)) lo hi) :
    ∃ m' r', filterTimestamps p (some r) m = .ok (m', some r') ∧ absStamps r' m' p.layer = absStamps r m p.layer := by
  obtain ⟨dt, m', h1, h2, -, -⟩ := adjust_shifts p hmeth (some r) m c hm hT lo hi hR
  refine ⟨m', r + dt, h1, ?_⟩
  simp only [absStamps, h2, hm, mapT, List.map_map]
  apply List.map_congr_left
  intro q _
  simp only [Function.comp_apply]; ring

/-- But the reference time is shared: every other layer is left with stamps that are off by the shift. -/
theorem adjust_moves_other_layers (p : TsParams K) (hmeth : p.method ≠ .normalize) (r : K) (m : FMap K X) (c : Cloud K)
    (hm : m.get p.layer = some (.pts c)) (hT : c.hasT = true) (lo hi : K) (hR : IsRange (c.pts.map (·.t)) lo hi)
    (n : String) (hn : n ≠ p.layer) :
    ∃ m' r' dt, filterTimestamps p (some r) m = .ok (m', some r') ∧
      dt = (if p.method = .middleIsZero then (lo + hi) / 2 else lo) + p.offset ∧
      absStamps r' m' n = (absStamps r m n).map (· + dt) := by
  obtain ⟨dt, m', h1, -, h3, h4⟩ := adjust_shifts p hmeth (some r) m c hm hT lo hi hR
  refine ⟨m', r + dt, dt, h1, h4, ?_⟩
  simp only [absStamps, h3 n hn]
  split
  · rw [List.map_map]
    apply List.map_congr_left
    intro q _
    simp only [Function.comp_apply]; ring
  · rfl

def exTs : FMap ℚ Unit :=
  [("a", .pts { pts := [⟨0, 0, 0, 0, 0, 3⟩, ⟨0, 0, 0, 0, 0, 5⟩] }), ("b", .pts { pts := [⟨0, 0, 0, 0, 0, 7⟩] })]

example : (filterTimestamps ⟨"a", .middleIsZero, false, 1⟩ (some 100) exTs).Sat fun r =>
    AMap.get r.1 "a" = some (.pts { pts := [⟨0, 0, 0, 0, 0, -2⟩, ⟨0, 0, 0, 0, 0, 0⟩] }) ∧ r.2 = some 105 := by
  decide +kernel
example : IsRange [(3 : ℚ), 5] 3 5 := by
  refine ⟨by simp, by simp, ?_⟩
  intro v hv
  simp only [List.mem_cons, List.not_mem_nil, or_false] at hv
  rcases hv with rfl | rfl <;> norm_num
/-- Adjusting one layer after the other, as with one filter per layer: the first layer's absolute stamps are wrong at the end
(103 and 105 in the beginning). -/
example : (filterTimestamps ⟨"a", .earliestIsZero, false, 0⟩ (some 100) exTs).Sat fun r =>
    r.2 = some 103 ∧ (filterTimestamps ⟨"b", .earliestIsZero, false, 0⟩ r.2 r.1).Sat fun r' =>
      r'.2 = some 110 ∧ absStamps 110 r'.1 "a" = [110, 112] ∧ absStamps 100 exTs "a" = [103, 105] := by
  decide +kernel

end Props
end Verif
