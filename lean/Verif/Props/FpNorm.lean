import Verif.Lemmas.FpNorm
import Verif.Lemmas.FpAcc
import Verif.Lemmas.AMap
/-!
C99: normalisation of intensities in floating point, for every format, rounding and cloud.
-/
namespace Verif
namespace Props
open Spec Fp Flt
variable {X : Type}

theorem finite_ne_nan {A : Arith} {v : Fl} (h : Finite A v) : v ≠ .nan := by
  obtain ⟨q, rfl, -⟩ := h; simp

theorem filterNormalizeF_eq (A : Arith) (p : NormParams Fl) (mem : NormMem Fl) (m : FMap Fl X) (c : Cloud Fl)
    (hm : m.get p.layer = some (.pts c)) (hI : c.hasI = true) (hne : c.pts ≠ []) :
    filterNormalizeF A p mem m = (normRangeF A p mem (intensities c)).bind fun r =>
      .ok (m.set p.layer (.pts (mapI (normValueF A r.1) c)), r.2) := by
  have h1 : pointLayer m p.layer = .ok c := by unfold pointLayer; rw [hm]
  have h2 : Outcome.assert (c.hasI = true ∧ c.pts ≠ []) = .ok () := Outcome.assert_true ⟨hI, hne⟩
  unfold filterNormalizeF
  rw [h1]
  simp only [Outcome.bind]
  rw [h2]
  rfl

/-- Whatever the intensities (numbers, infinite or not), the options and the memory: each result is a number from 0 to 1 or not a number, and
nothing but the intensities changes. -/
theorem norm_float_range (A : Arith) (p : NormParams Fl) (mem mem' : NormMem Fl) (m m' : FMap Fl X)
    (h : filterNormalizeF A p mem m = .ok (m', mem')) :
    ∃ c f, m.get p.layer = some (.pts c) ∧ m' = m.set p.layer (.pts (mapI f c)) ∧ ∀ v, Unit01 (f v) ∨ f v = .nan := by
  unfold filterNormalizeF at h
  obtain ⟨c, hc, h⟩ := Outcome.bind_eq_ok.1 h
  obtain ⟨-, -, h⟩ := Outcome.bind_eq_ok.1 h
  obtain ⟨r, -, h⟩ := Outcome.bind_eq_ok.1 h
  refine ⟨c, normValueF A r.1, ?_, ?_, fun v => clampF_unit _⟩
  · unfold pointLayer at hc
    split at hc
    · rename_i h1; rw [h1, Outcome.ok.inj hc]
    · cases hc
  · have := Outcome.ok.inj h
    rw [Prod.mk.injEq] at this
    exact this.1.symm

/-- A cloud whose intensities are finite, normalised to its own range: one monotone function is applied to all of them, giving numbers
from 0 to 1, the smallest one giving 0; unless the width of the range, or the inverse of the width, is beyond the largest number: exactly
then some result is not a number. -/
theorem norm_float (A : Arith) (p : NormParams Fl) (mem : NormMem Fl) (m : FMap Fl X) (c : Cloud Fl)
    (hfix : Fl.lt (.fin 0) p.fixedMax = false) (hrem : p.remember = false)
    (hm : m.get p.layer = some (.pts c)) (hI : c.hasI = true) (hne : c.pts ≠ []) (hfin : ∀ v ∈ intensities c, Finite A v) :
    ∃ f lo hi, filterNormalizeF A p mem m = .ok (m.set p.layer (.pts (mapI f c)), mem) ∧
      Least (intensities c) lo ∧ Greatest (intensities c) hi ∧
      (∀ v ∈ intensities c, Unit01 (f v) ∨ f v = .nan) ∧
      (∀ v ∈ intensities c, ∀ w ∈ intensities c, Le v w → f v ≠ .nan → f w ≠ .nan → Le (f v) (f w)) ∧
      (f lo = .fin 0 ∨ f lo = .nan) ∧
      ((∃ v ∈ intensities c, f v = .nan) ↔
        A.sub hi lo = .pinf ∨ (A.sub hi lo ≠ .fin 0 ∧ A.div (.fin 1) (A.sub hi lo) = .pinf)) := by
  have hnl : intensities c ≠ [] := by unfold intensities; simpa using hne
  obtain ⟨lo, hi, h1, h2, hlo, hhi⟩ := fold_extremes (intensities c) hnl fun v hv => finite_ne_nan (hfin v hv)
  have hr : normRangeF A p mem (intensities c) = .ok ((lo, hi), mem) := by
    unfold normRangeF
    rw [show (Fl.lt 0 p.fixedMax) = false from hfix, h1, h2]
    simp [hrem]
  obtain ⟨l, rfl, -⟩ := hfin lo hlo.1
  obtain ⟨h, rfl, -⟩ := hfin hi hhi.1
  have hlh : l ≤ h := by simpa [Le, Fl.le] using hlo.2 _ hhi.1
  refine ⟨normValueF A (.fin l, .fin h), .fin l, .fin h, ?_, hlo, hhi, fun v _ => clampF_unit _, ?_, normValueF_lo A l h hlh, ?_, ?_⟩
  · rw [filterNormalizeF_eq A p mem m c hm hI hne, hr]; rfl
  · intro v hv w hw hvw n1 n2
    obtain ⟨v, rfl, -⟩ := hfin v hv
    obtain ⟨w, rfl, -⟩ := hfin w hw
    exact normValueF_mono A l h v w hlh (by simpa [Le, Fl.le] using hvw) n1 n2
  · rintro ⟨v, hv, hn⟩
    by_contra hc
    push Not at hc
    have h3 := hlo.2 v hv
    have h4 := hhi.2 v hv
    obtain ⟨v, rfl, -⟩ := hfin v hv
    refine normValueF_number A l h v (by simpa [Le, Fl.le] using h3) (by simpa [Le, Fl.le] using h4) hc.1 ?_ hn
    by_cases h5 : A.sub (.fin h) (.fin l) = .fin 0
    · exact .inl h5
    · exact .inr (hc.2 h5)
  · rintro (h3 | ⟨h3, h4⟩)
    · exact ⟨_, hhi.1, normValueF_hi_nan A l h hlh h3⟩
    · exact ⟨_, hlo.1, normValueF_lo_nan A l h hlh h3 h4⟩

/-- The same with the remembered range: if the range so far is finite, numbers from 0 to 1 in the same order result, unless the width of
the range or its inverse overflows; the memory grows by the range of the cloud. -/
theorem norm_float_memory (A : Arith) (p : NormParams Fl) (mem : NormMem Fl) (m : FMap Fl X) (c : Cloud Fl)
    (hfix : Fl.lt (.fin 0) p.fixedMax = false) (hrem : p.remember = true)
    (hm : m.get p.layer = some (.pts c)) (hI : c.hasI = true) (hne : c.pts ≠ []) (hfin : ∀ v ∈ intensities c, Finite A v)
    (a b : Fl) (hmem : mem = { lo := some a, hi := some b }) (ha : Finite A a) (hb : Finite A b) :
    ∃ f lo hi, filterNormalizeF A p mem m = .ok (m.set p.layer (.pts (mapI f c)), { lo := some lo, hi := some hi }) ∧
      Least (a :: intensities c) lo ∧ Greatest (b :: intensities c) hi ∧
      (∀ v ∈ intensities c, ∀ w ∈ intensities c, Le v w → f v ≠ .nan → f w ≠ .nan → Le (f v) (f w)) ∧
      (A.sub hi lo ≠ .pinf → (A.sub hi lo = .fin 0 ∨ A.div (.fin 1) (A.sub hi lo) ≠ .pinf) →
        ∀ v ∈ intensities c, Unit01 (f v)) := by
  have hnl : intensities c ≠ [] := by unfold intensities; simpa using hne
  obtain ⟨lo, hi, h1, h2, hlo, hhi⟩ := fold_extremes (intensities c) hnl fun v hv => finite_ne_nan (hfin v hv)
  subst hmem
  have hmin : ∃ lo', optMinF (some a) lo = some lo' ∧ Finite A lo' ∧ Least (a :: intensities c) lo' := by
    by_cases h : lo.lt a = true
    · refine ⟨lo, by simp [optMinF, h], hfin _ hlo.1, List.mem_cons_of_mem _ hlo.1, fun b hb => ?_⟩
      rcases List.mem_cons.1 hb with rfl | hb
      · exact (lt_iff.1 h).1
      · exact hlo.2 b hb
    · refine ⟨a, by simp [optMinF, h], ha, List.mem_cons_self .., fun b hb => ?_⟩
      rcases List.mem_cons.1 hb with rfl | hb
      · exact le_refl' (finite_ne_nan ha)
      · exact le_trans' ((not_lt_iff (finite_ne_nan (hfin _ hlo.1)) (finite_ne_nan ha)).1 (by simpa using h)) (hlo.2 b hb)
  have hmax : ∃ hi', optMaxF (some b) hi = some hi' ∧ Finite A hi' ∧ Greatest (b :: intensities c) hi' := by
    by_cases h : b.lt hi = true
    · refine ⟨hi, by simp [optMaxF, h], hfin _ hhi.1, List.mem_cons_of_mem _ hhi.1, fun b hb => ?_⟩
      rcases List.mem_cons.1 hb with rfl | hb
      · exact (lt_iff.1 h).1
      · exact hhi.2 b hb
    · refine ⟨b, by simp [optMaxF, h], hb, List.mem_cons_self .., fun d hd => ?_⟩
      rcases List.mem_cons.1 hd with rfl | hd
      · exact le_refl' (finite_ne_nan hb)
      · exact le_trans' (hhi.2 d hd) ((not_lt_iff (finite_ne_nan hb) (finite_ne_nan (hfin _ hhi.1))).1 (by simpa using h))
  obtain ⟨lo', e1, fl1, l1⟩ := hmin
  obtain ⟨hi', e2, fl2, g2⟩ := hmax
  have hr : normRangeF A p { lo := some a, hi := some b } (intensities c) = .ok ((lo', hi'), { lo := some lo', hi := some hi' }) := by
    unfold normRangeF
    rw [show (Fl.lt 0 p.fixedMax) = false from hfix, h1, h2]
    simp [hrem, e1, e2]
  obtain ⟨l, rfl, -⟩ := fl1
  obtain ⟨h, rfl, -⟩ := fl2
  have hlh : l ≤ h := by
    have h3 := l1.2 _ (List.mem_cons_of_mem _ hlo.1)
    have h4 := g2.2 _ (List.mem_cons_of_mem _ hlo.1)
    simpa [Fl.le] using le_trans' h3 h4
  refine ⟨normValueF A (.fin l, .fin h), .fin l, .fin h, ?_, l1, g2, ?_, ?_⟩
  · rw [filterNormalizeF_eq A p _ m c hm hI hne, hr]; rfl
  · intro v hv w hw hvw n1 n2
    obtain ⟨v, rfl, -⟩ := hfin v hv
    obtain ⟨w, rfl, -⟩ := hfin w hw
    exact normValueF_mono A l h v w hlh (by simpa [Le, Fl.le] using hvw) n1 n2
  · intro hw hv v hvm
    have h3 := l1.2 _ (List.mem_cons_of_mem _ hvm)
    have h4 := g2.2 _ (List.mem_cons_of_mem _ hvm)
    obtain ⟨v, rfl, -⟩ := hfin v hvm
    have := normValueF_number A l h v (by simpa [Le, Fl.le] using h3) (by simpa [Le, Fl.le] using h4) hw hv
    rcases clampF_unit (A.mul (A.sub (.fin v) (.fin l)) (A.div (.fin 1) (normDelta A (.fin l, .fin h)))) with h5 | h5
    · exact h5
    · exact absurd h5 this

theorem normValueF_nan_lo (A : Arith) (hi v : Fl) : normValueF A (.nan, hi) v = .nan := by
  unfold normValueF
  rw [clampF_nan_iff]
  dsimp only
  have : A.sub v .nan = .nan := by cases v <;> rfl
  rw [this]; rfl

/-- If the first intensity is not a number, no result is. -/
theorem norm_float_first_nan (A : Arith) (p : NormParams Fl) (mem : NormMem Fl) (m : FMap Fl X) (c : Cloud Fl)
    (hfix : Fl.lt (.fin 0) p.fixedMax = false) (hrem : p.remember = false)
    (hm : m.get p.layer = some (.pts c)) (hI : c.hasI = true) (hn : (intensities c).head? = some .nan) :
    filterNormalizeF A p mem m = .ok (m.set p.layer (.pts (mapI (fun _ => .nan) c)), mem) := by
  have hne : c.pts ≠ [] := by rintro h; simp [intensities, h] at hn
  rw [filterNormalizeF_eq A p mem m c hm hI hne]
  cases hl : intensities c with
  | nil => rw [hl] at hn; simp at hn
  | cons a l =>
    rw [hl] at hn
    simp only [List.head?_cons, Option.some.injEq] at hn
    subst hn
    have hr : normRangeF A p mem (.nan :: l) = .ok ((.nan, .nan), mem) := by
      unfold normRangeF
      rw [show (Fl.lt 0 p.fixedMax) = false from hfix, List.foldl_cons, List.foldl_cons]
      rw [show optMinF none Fl.nan = some .nan from rfl, show optMaxF none Fl.nan = some .nan from rfl, optMin_nan, optMax_nan]
      simp [hrem]
    rw [hr]
    simp only [Outcome.bind]
    rw [show normValueF A (.nan, .nan) = fun _ => .nan from funext fun v => normValueF_nan_lo A _ v]

/-- Values that are not numbers, elsewhere than in front, do no harm: the others come out as if those points were not there. -/
theorem norm_float_later_nan (A : Arith) (p : NormParams Fl) (mem : NormMem Fl) (m : FMap Fl X) (c : Cloud Fl)
    (hfix : Fl.lt (.fin 0) p.fixedMax = false) (hrem : p.remember = false)
    (hm : m.get p.layer = some (.pts c)) (hI : c.hasI = true) (v : Fl) (hv : (intensities c).head? = some v) (hvn : v ≠ .nan) :
    ∃ f, f .nan = .nan ∧
      filterNormalizeF A p mem m = .ok (m.set p.layer (.pts (mapI f c)), mem) ∧
      filterNormalizeF A p mem (m.set p.layer (.pts { c with pts := c.pts.filter (·.i ≠ .nan) })) =
        .ok ((m.set p.layer (.pts { c with pts := c.pts.filter (·.i ≠ .nan) })).set p.layer
          (.pts (mapI f { c with pts := c.pts.filter (·.i ≠ .nan) })), mem) := by
  cases hp : c.pts with
  | nil => simp [intensities, hp] at hv
  | cons q l =>
    have hqv : q.i = v := by simpa [intensities, hp] using hv
    set c' : Cloud Fl := { c with pts := c.pts.filter (·.i ≠ .nan) } with hc'
    have hint : intensities c = v :: (l.map (·.i)) := by simp [intensities, hp, hqv]
    have hint' : intensities c' = v :: ((l.map (·.i)).filter (· ≠ .nan)) := by
      simp only [intensities, hc', hp]
      rw [List.filter_cons_of_pos (by simp [hqv, hvn]), List.map_cons, hqv, List.filter_map]
      rfl
    have hne : c.pts ≠ [] := by simp [hp]
    have hne' : c'.pts ≠ [] := by
      intro h
      have : intensities c' = [] := by simp [intensities, h]
      rw [this] at hint'; cases hint'
    have hr : normRangeF A p mem (intensities c) = normRangeF A p mem (intensities c') := by
      unfold normRangeF
      rw [hint, hint']
      simp only [List.foldl_cons]
      rw [show optMinF none v = some v from rfl, show optMaxF none v = some v from rfl, foldMin_filter (l.map (·.i)),
        foldMax_filter (l.map (·.i))]
    have hm' : (m.set p.layer (.pts c')).get p.layer = some (.pts c') := by
      rw [AMap.get_set, if_pos rfl]
    obtain ⟨lo, h1, -⟩ := foldMin_some (l.map (·.i)) v hvn
    obtain ⟨hi, h2, -⟩ := foldMax_some (l.map (·.i)) v hvn
    have hrr : normRangeF A p mem (intensities c) = .ok ((lo, hi), mem) := by
      unfold normRangeF
      rw [hint, show (Fl.lt 0 p.fixedMax) = false from hfix, List.foldl_cons, List.foldl_cons,
        show optMinF none v = some v from rfl, show optMaxF none v = some v from rfl, h1, h2]
      simp [hrem]
    refine ⟨normValueF A (lo, hi), ?_, ?_, ?_⟩
    · unfold normValueF
      rw [clampF_nan_iff]
      cases lo <;> rfl
    · rw [filterNormalizeF_eq A p mem m c hm hI hne, hrr]; rfl
    · have e := filterNormalizeF_eq A p mem _ c' hm' hI hne'
      rw [← hr, hrr] at e
      simp only [hc', hp] at e ⊢
      exact e

/-- a history of calls of one filter object -/
inductive NormRuns (A : Arith) (p : NormParams Fl) : NormMem Fl → NormMem Fl → Prop
  | none (mem) : NormRuns A p mem mem
  | call (mem mem' mem'' : NormMem Fl) (m m' : FMap Fl Unit) (h : NormRuns A p mem mem')
      (hc : filterNormalizeF A p mem' m = .ok (m', mem'')) : NormRuns A p mem mem''

theorem optMinF_nan (v : Fl) : optMinF (some .nan) v = some .nan := by
  have := optMin_nan [v]
  simpa using this

/-- With the remembered range, one cloud whose first intensity is not a number, as the first cloud, spoils all the later ones: no intensity
of any cloud normalised by that object is a number any more. -/
theorem norm_float_memory_spoiled (A : Arith) (p : NormParams Fl) (m0 m0' : FMap Fl Unit) (mem0 : NormMem Fl) (c0 : Cloud Fl)
    (hfix : Fl.lt (.fin 0) p.fixedMax = false) (hrem : p.remember = true)
    (hm0 : m0.get p.layer = some (.pts c0)) (hn : (intensities c0).head? = some .nan)
    (h0 : filterNormalizeF A p {} m0 = .ok (m0', mem0))
    (mem : NormMem Fl) (hruns : NormRuns A p mem0 mem) (m m' : FMap Fl Unit) (mem' : NormMem Fl) (c : Cloud Fl)
    (hm : m.get p.layer = some (.pts c)) (h : filterNormalizeF A p mem m = .ok (m', mem')) :
    m' = m.set p.layer (.pts (mapI (fun _ => .nan) c)) := by
  have key : ∀ (mem mem' : NormMem Fl) (m m' : FMap Fl Unit), mem.lo = some .nan → filterNormalizeF A p mem m = .ok (m', mem') →
      mem'.lo = some .nan ∧ ∀ c, m.get p.layer = some (.pts c) → m' = m.set p.layer (.pts (mapI (fun _ => .nan) c)) := by
    intro mem mem' m m' hl h
    unfold filterNormalizeF at h
    obtain ⟨c, hc, h⟩ := Outcome.bind_eq_ok.1 h
    obtain ⟨-, -, h⟩ := Outcome.bind_eq_ok.1 h
    obtain ⟨r, hr, h⟩ := Outcome.bind_eq_ok.1 h
    have hrr : r.1.1 = .nan ∧ r.2.lo = some .nan := by
      unfold normRangeF at hr
      rw [show (Fl.lt 0 p.fixedMax) = false from hfix] at hr
      simp only [Bool.false_eq_true, if_false, hrem, if_true] at hr
      split at hr
      · rw [hl] at hr
        simp only [optMinF_nan] at hr
        split at hr
        · rename_i h1 h2
          have := Outcome.ok.inj hr
          rw [← this]
          exact ⟨(Option.some.inj h1).symm, rfl⟩
        · cases hr
      · cases hr
    have h' := Outcome.ok.inj h
    rw [Prod.mk.injEq] at h'
    refine ⟨by rw [← h'.2]; exact hrr.2, fun c2 hc2 => ?_⟩
    unfold pointLayer at hc
    rw [hc2] at hc
    have hcc := Outcome.ok.inj hc
    subst hcc
    rw [← h'.1]
    have : normValueF A r.1 = fun _ => .nan := funext fun v => by
      rw [show r.1 = (r.1.1, r.1.2) from rfl, hrr.1]; exact normValueF_nan_lo A _ v
    rw [this]; rfl
  have hm0l : mem0.lo = some .nan := by
    unfold filterNormalizeF at h0
    obtain ⟨c, hc, h0⟩ := Outcome.bind_eq_ok.1 h0
    obtain ⟨-, -, h0⟩ := Outcome.bind_eq_ok.1 h0
    obtain ⟨r, hr, h0⟩ := Outcome.bind_eq_ok.1 h0
    unfold pointLayer at hc
    rw [hm0] at hc
    have hcc := Outcome.ok.inj hc
    subst hcc
    cases hl : c0.pts.map (·.i) with
    | nil => rw [show intensities c0 = c0.pts.map (·.i) from rfl, hl] at hn; simp at hn
    | cons a l =>
      rw [show intensities c0 = c0.pts.map (·.i) from rfl, hl] at hn
      simp only [List.head?_cons, Option.some.injEq] at hn
      subst hn
      rw [hl] at hr
      unfold normRangeF at hr
      rw [show (Fl.lt 0 p.fixedMax) = false from hfix, List.foldl_cons, List.foldl_cons,
        show optMinF none Fl.nan = some .nan from rfl, show optMaxF none Fl.nan = some .nan from rfl, optMin_nan, optMax_nan] at hr
      simp only [Bool.false_eq_true, if_false, hrem, if_true] at hr
      have e1 : optMinF none Fl.nan = some .nan := rfl
      have e2 : optMaxF none Fl.nan = some .nan := rfl
      simp only [e1, e2] at hr
      have := Outcome.ok.inj hr
      have h' := Outcome.ok.inj h0
      rw [Prod.mk.injEq] at h'
      rw [← h'.2, ← this]
  have hall : mem.lo = some .nan := by
    clear h hm
    induction hruns with
    | none => exact hm0l
    | call mem' mem'' m m' _ hc ih => exact (key _ _ _ _ ih hc).1
  exact (key mem mem' m m' hall h).2 c hm

/-! ### the machine's `float` -/

/-- How far the intensities are from the exact ones in `float`: at most 12 units of 2^-24, if the range of the intensities is from 2^-126
to 2^125 wide (outside of it nothing is known). -/
theorem norm_float_accuracy (p : NormParams Fl) (mem : NormMem Fl) (m : FMap Fl X) (c : Cloud Fl)
    (hfix : Fl.lt (.fin 0) p.fixedMax = false) (hrem : p.remember = false)
    (hm : m.get p.layer = some (.pts c)) (hI : c.hasI = true) (hne : c.pts ≠ [])
    (lo hi : ℚ) (hfin : ∀ v ∈ intensities c, Finite binary32 v) (hlo : Least (intensities c) (.fin lo))
    (hhi : Greatest (intensities c) (.fin hi)) (hw1 : 1 / 2 ^ 126 ≤ hi - lo) (hw2 : hi - lo ≤ 2 ^ 125) :
    ∃ f, filterNormalizeF binary32 p mem m = .ok (m.set p.layer (.pts (mapI f c)), mem) ∧
      ∀ v, .fin v ∈ intensities c → ∃ q, f (.fin v) = .fin q ∧ |q - (v - lo) / (hi - lo)| ≤ 12 * (1 / 2 ^ 24) := by
  have hnl : intensities c ≠ [] := by unfold intensities; simpa using hne
  obtain ⟨lo', hi', h1, h2, hlo', hhi'⟩ := fold_extremes (intensities c) hnl fun v hv => finite_ne_nan (hfin v hv)
  have e1 : lo' = .fin lo := le_antisymm' (hlo'.2 _ hlo.1) (hlo.2 _ hlo'.1)
  have e2 : hi' = .fin hi := le_antisymm' (hhi.2 _ hhi'.1) (hhi'.2 _ hhi.1)
  subst e1 e2
  have hr : normRangeF binary32 p mem (intensities c) = .ok ((.fin lo, .fin hi), mem) := by
    unfold normRangeF
    rw [show (Fl.lt 0 p.fixedMax) = false from hfix, h1, h2]
    simp [hrem]
  refine ⟨normValueF binary32 (.fin lo, .fin hi), ?_, ?_⟩
  · rw [filterNormalizeF_eq binary32 p mem m c hm hI hne, hr]; rfl
  · intro v hv
    have b1 : lo ≤ v := by simpa [Le, Fl.le] using hlo.2 _ hv
    have b2 : v ≤ hi := by simpa [Le, Fl.le] using hhi.2 _ hv
    have ht : binary32.top = 2 ^ 104 * (2 ^ 24 - 1) := rfl
    norm_num at hw1 hw2
    refine normValueF_close binary32 (1 / 2 ^ 24) (1 / 2 ^ 150) lo hi v binary32_accurate (by norm_num) (by norm_num) (by norm_num)
      b1 b2 (by linarith) (by norm_num) ?_ ?_ ?_ ?_ ?_ <;> (try rw [ht]) <;> norm_num <;> linarith

/-- The largest intensity does not always give 1: with intensities from 0 to 41 it gives `1 - 2 ^ (-24)`. -/
theorem norm_float_max_not_one :
    normValueF binary32 (.fin 0, .fin 41) (.fin 41) = .fin (1 - 1 / 2 ^ 24) := by decide +kernel

/-- Two intensities a smallest number apart: the smaller one is not a number afterwards. -/
theorem norm_float_tiny_range :
    normValueF binary32 (.fin 0, .fin (1 / 2 ^ 149)) (.fin 0) = .nan ∧
    normValueF binary32 (.fin (-(2 ^ 127)), .fin (2 ^ 127)) (.fin (2 ^ 127)) = .nan := by
  constructor <;> decide +kernel

/-! ### examples -/

def fpCloud (l : List Fl) : Cloud Fl := { pts := l.map fun v => ⟨.fin 0, .fin 0, .fin 0, v, 0, .fin 0⟩ }
def fpMap (l : List Fl) : FMap Fl Unit := [("raw", .pts (fpCloud l))]
def fpNorm : NormParams Fl := { layer := "raw", remember := false, fixedMin := .fin 0, fixedMax := .fin 0 }

example : ∀ v ∈ intensities (fpCloud [.fin 3, .fin 41, .fin 0]), Finite binary32 v := by
  intro v hv
  simp only [intensities, fpCloud, List.map_cons, List.map_nil, List.mem_cons, List.not_mem_nil, or_false] at hv
  rcases hv with rfl | rfl | rfl
  · exact ⟨_, rfl, by unfold Arith.Rep; decide +kernel⟩
  · exact ⟨_, rfl, by unfold Arith.Rep; decide +kernel⟩
  · exact ⟨_, rfl, by unfold Arith.Rep; decide +kernel⟩
example : (filterNormalizeF binary32 fpNorm {} (fpMap [.fin 3, .fin 41, .fin 0])).Sat fun r =>
    (AMap.get r.1 "raw").isSome = true := by decide +kernel
/-- a spoiled object exists -/
example : (filterNormalizeF binary32 { fpNorm with remember := true } {} (fpMap [.nan, .fin 1])).Sat fun r =>
    r.2.lo = some .nan := by decide +kernel

/-- the least and the greatest intensity of that cloud, and the width of their range: what the accuracy asks for -/
example : Least (intensities (fpCloud [.fin 3, .fin 41, .fin 0])) (.fin 0) ∧ Greatest (intensities (fpCloud [.fin 3, .fin 41, .fin 0])) (.fin 41) ∧
    (1 : ℚ) / 2 ^ 126 ≤ 41 - 0 ∧ (41 : ℚ) - 0 ≤ 2 ^ 125 := by
  refine ⟨⟨by simp [intensities, fpCloud], fun b hb => ?_⟩, ⟨by simp [intensities, fpCloud], fun b hb => ?_⟩, by norm_num, by norm_num⟩ <;>
  · simp only [intensities, fpCloud, List.map_cons, List.map_nil, List.mem_cons, List.not_mem_nil, or_false] at hb
    rcases hb with rfl | rfl | rfl <;> · unfold Le; decide +kernel

end Props
end Verif
