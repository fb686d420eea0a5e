import Verif.Lemmas.FpAcc
import Verif.Lemmas.AMap
import Verif.Props.FpNorm
/-!
C100: adjustment of the time stamps in floating point, for every format, rounding and cloud.
-/
namespace Verif
namespace Props
open Spec Fp Flt
variable {X : Type}

theorem filterTimestampsF_eq (A D : Arith) (p : TsParams Fl) (ref : Option Fl) (m : FMap Fl X) (c : Cloud Fl)
    (hm : m.get p.layer = some (.pts c)) (hT : c.hasT = true) (hne : c.pts ≠ []) (lo hi : Fl)
    (h1 : (stamps c).foldl optMinF none = some lo) (h2 : (stamps c).foldl optMaxF none = some hi) :
    filterTimestampsF A D p ref m =
      .ok (m.set p.layer (.pts (mapT (adjustValuesF A p lo hi).1 c)), ref.map (D.add · (adjustValuesF A p lo hi).2)) := by
  unfold stamps at h1 h2
  have he : c.pts.isEmpty = false := by simpa using hne
  simp [filterTimestampsF, pointLayer, hm, Outcome.bind, he, hT, h1, h2, mapT]

theorem sub_ne_nan (A : Arith) (q : ℚ) {d : Fl} (h : d ≠ .nan) : A.sub (.fin q) d ≠ .nan := by
  cases d with
  | fin d => rw [sub_fin]; exact fl_ne_nan A _
  | pinf => simp [Arith.sub, Fl.neg, Arith.add]
  | ninf => simp [Arith.sub, Fl.neg, Arith.add]
  | nan => exact absurd rfl h

theorem add_fin_ne_nan (A : Arith) (q : ℚ) {d : Fl} (h : d ≠ .nan) : A.add d (.fin q) ≠ .nan := by
  cases d <;> simp_all [Arith.add, fl_ne_nan]

theorem conv_fin_ne_nan (A : Arith) (q : ℚ) : A.conv (.fin q) ≠ .nan := fl_ne_nan A q

theorem add_ne_nan_of_fin (A : Arith) (q : ℚ) {d : Fl} (h : d ≠ .nan) : A.add (.fin q) d ≠ .nan := by
  cases d <;> simp_all [Arith.add, fl_ne_nan]

theorem half_sum_ne_nan (A : Arith) (a b : ℚ) : A.mul (.fin (1 / 2)) (A.add (.fin a) (.fin b)) ≠ .nan := by
  have h : A.add (.fin a) (.fin b) ≠ .nan := fl_ne_nan A _
  cases hs : A.add (.fin a) (.fin b) with
  | fin s => exact fl_ne_nan A _
  | pinf => rw [Arith.mul, infOf_pos (by norm_num)]; simp
  | ninf => rw [Arith.mul, infOf_pos (by norm_num)]; simp [Fl.neg]
  | nan => exact absurd hs h

/-- Shifting methods, in floating point: one number `dt`, the same for all points, is taken from every stamp and added to the reference
time; for `EarliestIsZero` it is the smallest stamp plus the offset, for `MiddleIsZero` half the sum of the smallest and the largest, plus the
offset, as the machine computes them; no stamp becomes not-a-number, and no two stamps change their order. -/
theorem stamps_float_shift (A D : Arith) (p : TsParams Fl) (ref : Option Fl) (m : FMap Fl X) (c : Cloud Fl) (off o : ℚ)
    (hoff : p.offset = .fin off) (ho : A.fl off = .fin o) (hmeth : p.method ≠ .normalize)
    (hm : m.get p.layer = some (.pts c)) (hT : c.hasT = true) (hne : c.pts ≠ []) (hfin : ∀ v ∈ stamps c, Finite A v) :
    ∃ lo hi dt, Least (stamps c) lo ∧ Greatest (stamps c) hi ∧ dt ≠ .nan ∧
      filterTimestampsF A D p ref m = .ok (m.set p.layer (.pts (mapT (A.sub · dt) c)), ref.map (D.add · dt)) ∧
      (p.method = .earliestIsZero → dt = A.add lo (.fin o)) ∧
      (p.method = .middleIsZero → dt = A.add (A.mul (.fin (1 / 2)) (A.add hi lo)) (.fin o)) ∧
      (∀ v ∈ stamps c, A.sub v dt ≠ .nan) ∧
      ∀ v ∈ stamps c, ∀ w ∈ stamps c, Le v w → Le (A.sub v dt) (A.sub w dt) := by
  have hnl : stamps c ≠ [] := by unfold stamps; simpa using hne
  obtain ⟨lo, hi, h1, h2, hlo, hhi⟩ := fold_extremes (stamps c) hnl fun v hv => finite_ne_nan (hfin v hv)
  have hc : A.conv (.fin off) = .fin o := ho
  have hdt : (adjustValuesF A p lo hi).2 ≠ .nan := by
    obtain ⟨l, rfl, -⟩ := hfin lo hlo.1
    obtain ⟨h, rfl, -⟩ := hfin hi hhi.1
    cases hp : p.method
    · simp only [adjustValuesF, hp, hoff, hc]; exact add_fin_ne_nan A o (half_sum_ne_nan A h l)
    · simp only [adjustValuesF, hp, hoff, hc]; exact add_fin_ne_nan A o (by simp)
    · exact absurd hp hmeth
  refine ⟨lo, hi, (adjustValuesF A p lo hi).2, hlo, hhi, hdt, ?_, ?_, ?_, ?_, ?_⟩
  · rw [filterTimestampsF_eq A D p ref m c hm hT hne lo hi h1 h2]
    cases hp : p.method
    · simp only [adjustValuesF, hp]
    · simp only [adjustValuesF, hp]
    · exact absurd hp hmeth
  · intro hp; simp only [adjustValuesF, hp, hoff, hc]
  · intro hp; simp only [adjustValuesF, hp, hoff, hc]
  · intro v hv
    obtain ⟨v, rfl, -⟩ := hfin v hv
    exact sub_ne_nan A v hdt
  · intro v hv w hw hvw
    obtain ⟨v, rfl, -⟩ := hfin v hv
    obtain ⟨w, rfl, -⟩ := hfin w hw
    exact sub_mono A hvw (sub_ne_nan A v hdt) (sub_ne_nan A w hdt)

/-- `EarliestIsZero` without an offset: the smallest stamp becomes exactly 0, the others are not negative, and the reference time moves by the
smallest stamp. -/
theorem stamps_float_earliest (A D : Arith) (p : TsParams Fl) (ref : Option Fl) (m : FMap Fl X) (c : Cloud Fl)
    (hoff : p.offset = .fin 0) (hmeth : p.method = .earliestIsZero)
    (hm : m.get p.layer = some (.pts c)) (hT : c.hasT = true) (hne : c.pts ≠ []) (hfin : ∀ v ∈ stamps c, Finite A v) :
    ∃ lo f, Least (stamps c) lo ∧
      filterTimestampsF A D p ref m = .ok (m.set p.layer (.pts (mapT f c)), ref.map (D.add · lo)) ∧
      f lo = .fin 0 ∧ (∀ v ∈ stamps c, Le (.fin 0) (f v)) ∧ ∀ v ∈ stamps c, ∀ w ∈ stamps c, Le v w → Le (f v) (f w) := by
  obtain ⟨lo, hi, dt, hlo, -, -, h, h1, -, -, h3⟩ := stamps_float_shift A D p ref m c 0 0 hoff (fl_zero A) (by rw [hmeth]; simp)
    hm hT hne hfin
  have hl := hfin lo hlo.1
  obtain ⟨l, rfl, hrep⟩ := hl
  have e : dt = .fin l := by
    rw [h1 hmeth]
    show A.fl (l + 0) = _
    rw [add_zero]; exact hrep
  subst e
  have h0 : A.sub (.fin l) (.fin l) = .fin 0 := by rw [sub_fin, sub_self, fl_zero]
  refine ⟨.fin l, (A.sub · (.fin l)), hlo, h, h0, fun v hv => ?_, h3⟩
  have := h3 _ hlo.1 v hv (hlo.2 v hv)
  rw [h0] at this
  exact this

/-- The value computed by `Normalize`. -/
theorem normalize_value (A : Arith) (p : TsParams Fl) (o : Fl) (lo hi t : ℚ) (hoff : A.conv p.offset = o) (hmeth : p.method = .normalize)
    (hne : lo ≠ hi) : (adjustValuesF A p (.fin lo) (.fin hi)).1 (.fin t) =
      A.add (A.mul (A.fl (t - lo)) (A.div (.fin 1) (A.fl (hi - lo)))) o := by
  have h : (Fl.fin hi).eq (.fin lo) = false := by
    rw [Bool.eq_false_iff]
    intro hc
    unfold Fl.eq at hc
    simp only [Fl.le, Bool.and_eq_true, decide_eq_true_eq] at hc
    exact hne (le_antisymm hc.2 hc.1)
  simp only [adjustValuesF, hmeth, hoff, h, sub_fin, Bool.false_eq_true, if_false]

theorem inv_width_nonneg (A : Arith) (w : ℚ) (h : 0 ≤ w) : Fl.le (.fin 0) (A.div (.fin 1) (A.fl w)) = true := by
  rcases fl_nonneg A h with ⟨d, hd, he, -⟩ | he
  · rw [he]
    rcases hd.lt_or_eq with hp | hp
    · simp only [Arith.div, if_neg hp.ne']
      rw [← fl_zero A]; exact fl_mono A (by positivity)
    · subst hp; simp [Arith.div, infOf, Fl.le]
  · rw [he]; simp [Arith.div, Fl.le]

/-- `Normalize` with stamps that are not all the same: the reference time is left alone (0 is added to it); stamps keep their order as long as they are
numbers; if neither the width of the range overflows nor its inverse does, all of them are numbers and the smallest becomes exactly the offset. -/
theorem stamps_float_normalize (A D : Arith) (p : TsParams Fl) (ref : Option Fl) (m : FMap Fl X) (c : Cloud Fl) (off o : ℚ)
    (hoff : p.offset = .fin off) (ho : A.fl off = .fin o) (hmeth : p.method = .normalize)
    (hm : m.get p.layer = some (.pts c)) (hT : c.hasT = true) (hne : c.pts ≠ []) (hfin : ∀ v ∈ stamps c, Finite A v)
    (lo hi : ℚ) (hlo : Least (stamps c) (.fin lo)) (hhi : Greatest (stamps c) (.fin hi)) (hlh : lo ≠ hi) :
    ∃ f, filterTimestampsF A D p ref m = .ok (m.set p.layer (.pts (mapT f c)), ref.map (D.add · (.fin 0))) ∧
      (∀ v ∈ stamps c, ∀ w ∈ stamps c, Le v w → f v ≠ .nan → f w ≠ .nan → Le (f v) (f w)) ∧
      (∀ d, A.fl (hi - lo) = .fin d → d ≠ 0 → A.fl (1 / d) ≠ .pinf → (∀ v ∈ stamps c, f v ≠ .nan) ∧ f (.fin lo) = .fin o) := by
  have hnl : stamps c ≠ [] := by unfold stamps; simpa using hne
  obtain ⟨lo', hi', h1, h2, hlo', hhi'⟩ := fold_extremes (stamps c) hnl fun v hv => finite_ne_nan (hfin v hv)
  have e1 : lo' = .fin lo := le_antisymm' (hlo'.2 _ hlo.1) (hlo.2 _ hlo'.1)
  have e2 : hi' = .fin hi := le_antisymm' (hhi.2 _ hhi'.1) (hhi'.2 _ hhi.1)
  subst e1 e2
  have hle : lo ≤ hi := by simpa [Le, Fl.le] using hlo.2 _ hhi.1
  have hc : A.conv p.offset = .fin o := by rw [hoff]; exact ho
  have hval := fun t => normalize_value A p (.fin o) lo hi t hc hmeth hlh
  refine ⟨(adjustValuesF A p (.fin lo) (.fin hi)).1, ?_, ?_, ?_⟩
  · rw [filterTimestampsF_eq A D p ref m c hm hT hne _ _ h1 h2]
    simp only [adjustValuesF, hmeth]
  · intro v hv w hw hvw n1 n2
    obtain ⟨v, rfl, -⟩ := hfin v hv
    obtain ⟨w, rfl, -⟩ := hfin w hw
    rw [hval] at n1 n2 ⊢
    rw [hval]
    have hvw' : v ≤ w := by simpa [Le, Fl.le] using hvw
    refine add_mono A (mul_mono A (fl_mono A (by linarith)) (inv_width_nonneg A _ (by linarith)) ?_ ?_) n1 n2
    · intro hn; rw [hn] at n1; exact n1 rfl
    · intro hn; rw [hn] at n2; exact n2 rfl
  · intro d hd hd0 hi1
    have hdiv : A.div (.fin 1) (A.fl (hi - lo)) = A.fl (1 / d) := by rw [hd]; simp only [Arith.div, if_neg hd0]
    have hdp : 0 ≤ d := by
      rcases fl_nonneg A (show 0 ≤ hi - lo by linarith) with ⟨d', hd', he, -⟩ | he
      · rw [hd] at he; simp only [Fl.fin.injEq] at he; rw [he]; exact hd'
      · rw [hd] at he; simp at he
    rcases fl_nonneg A (show 0 ≤ 1 / d by positivity) with ⟨v, -, hv, -⟩ | hv
    · refine ⟨fun t ht => ?_, ?_⟩
      · have b2 := hhi.2 _ ht
        have b1 := hlo.2 _ ht
        obtain ⟨t, rfl, -⟩ := hfin t ht
        have b1' : lo ≤ t := by simpa [Le, Fl.le] using b1
        have b2' : t ≤ hi := by simpa [Le, Fl.le] using b2
        rw [hval, hdiv, hv]
        have hm := fl_mono A (show t - lo ≤ hi - lo by linarith)
        rcases fl_nonneg A (show 0 ≤ t - lo by linarith) with ⟨q, -, he, -⟩ | he
        · rw [he]
          exact add_fin_ne_nan A o (fl_ne_nan A _)
        · rw [he, hd] at hm; simp [Fl.le] at hm
      · rw [hval, hdiv, hv, sub_self, fl_zero]
        have hrep : A.fl o = .fin o := by
          obtain ⟨r1, r2, r3⟩ := (fl_fin_iff A).1 ho
          exact (fl_fin_iff A).2 ⟨by rw [← r1, A.idem], by rw [← r1, A.idem]; exact r2, by rw [← r1, A.idem]; exact r3⟩
        show A.add (A.fl (0 * v)) (.fin o) = _
        rw [zero_mul, fl_zero]
        show A.fl (0 + o) = _
        rw [zero_add, hrep]
    · exact absurd hv hi1

/-- The time of each point, reference time plus stamp, after one of the shifting methods: off by no more than one rounding of the stamp and one of the
reference time. -/
theorem stamps_float_absolute (A D : Arith) (uA ηA uD ηD : ℚ) (hA : Accurate A uA ηA) (hD : Accurate D uD ηD)
    (r v dt r' t : ℚ) (hr : D.add (.fin r) (.fin dt) = .fin r') (ht : A.sub (.fin v) (.fin dt) = .fin t) :
    |(r' + t) - (r + v)| ≤ uA * |v - dt| + ηA + (uD * |r + dt| + ηD) := by
  have h1 := hA (v - dt)
  have h2 := hD (r + dt)
  rw [sub_fin] at ht
  have e1 := ((fl_fin_iff A).1 ht).1
  have e2 := ((fl_fin_iff D).1 hr).1
  rw [e1] at h1
  rw [e2] at h2
  have : (r' + t) - (r + v) = (t - (v - dt)) + (r' - (r + dt)) := by ring
  rw [this]
  exact (abs_add_le _ _).trans (add_le_add h1 h2)

/-- With `float` stamps, a `double` reference time of less than 2^31 seconds and stamps that end up within 2 seconds of zero: the time of no
point moves by more than a microsecond, whatever cloud is given and whichever shifting method is used. -/
theorem stamps_float_microsecond (p : TsParams Fl) (r : ℚ) (m : FMap Fl X) (c : Cloud Fl) (off o : ℚ)
    (hoff : p.offset = .fin off) (ho : binary32.fl off = .fin o) (hmeth : p.method ≠ .normalize)
    (hm : m.get p.layer = some (.pts c)) (hT : c.hasT = true) (hne : c.pts ≠ []) (hfin : ∀ v ∈ stamps c, Finite binary32 v)
    (m' : FMap Fl X) (r' : ℚ) (h : filterTimestampsF binary32 binary64 p (some (.fin r)) m = .ok (m', some (.fin r')))
    (hr : |r'| ≤ 2 ^ 31) :
    ∃ f, m' = m.set p.layer (.pts (mapT f c)) ∧
      ∀ v t, .fin v ∈ stamps c → f (.fin v) = .fin t → |t| ≤ 2 → |(r' + t) - (r + v)| ≤ 1 / 1000000 := by
  obtain ⟨lo, hi, dt, hlo, hhi, hdt, h0, -, -, -, -⟩ := stamps_float_shift binary32 binary64 p (some (.fin r)) m c off o hoff ho hmeth hm hT hne hfin
  rw [h0] at h
  have h' := Outcome.ok.inj h
  rw [Prod.mk.injEq] at h'
  refine ⟨(binary32.sub · dt), h'.1.symm, ?_⟩
  intro v t hv ht htb
  have hr' : binary64.add (.fin r) dt = .fin r' := by simpa using h'.2
  cases dt with
  | pinf => simp [Arith.add] at hr'
  | ninf => simp [Arith.add] at hr'
  | nan => exact absurd rfl hdt
  | fin dt =>
    have h1 := binary32_accurate (v - dt)
    have h2 := binary64_accurate (r + dt)
    have ht' : binary32.sub (.fin v) (.fin dt) = .fin t := ht
    have h3 := stamps_float_absolute binary32 binary64 _ _ _ _ binary32_accurate binary64_accurate r v dt r' t hr' ht'
    rw [sub_fin] at ht'
    have e1 := ((fl_fin_iff binary32).1 ht').1
    have e2 := ((fl_fin_iff binary64).1 hr').1
    rw [e1] at h1
    rw [e2] at h2
    have a1 : |v - dt| ≤ |t| + |t - (v - dt)| := by
      have := abs_sub_abs_le_abs_sub (v - dt) t
      rw [abs_sub_comm (v - dt) t] at this; linarith
    have a2 : |r + dt| ≤ |r'| + |r' - (r + dt)| := by
      have := abs_sub_abs_le_abs_sub (r + dt) r'
      rw [abs_sub_comm] at this; linarith
    have hη : (1 : ℚ) / 2 ^ 1075 ≤ 1 / 2 ^ 100 := one_div_le_one_div_of_le (by norm_num) (pow_le_pow_right₀ (by norm_num) (by norm_num))
    generalize (1 : ℚ) / 2 ^ 1075 = η at h2 h3 hη
    norm_num at h1 h2 h3 hη hr htb ⊢
    linarith

/-- Stamps on a grid of the format are shifted without any rounding, if their range is not wider than the digits of the format can hold: all stamps
multiples of `2 ^ k`, and less than `2 ^ (k + p)` from first to last. -/
theorem roundBin_exact (p : ℕ) (emin k n : ℤ) (hk : emin ≤ k) (h : |(n : ℚ) * 2 ^ k| < 2 ^ (k + p)) : roundBin p emin (n * 2 ^ k) = n * 2 ^ k := by
  by_cases h0 : (n : ℚ) * 2 ^ k = 0
  · rw [h0, roundBin_zero]
  · have hl : Int.log 2 |(n : ℚ) * 2 ^ k| < k + p := by
      have h3 : (2 : ℚ) ^ Int.log 2 |(n : ℚ) * 2 ^ k| ≤ |(n : ℚ) * 2 ^ k| := by
        exact_mod_cast Int.zpow_log_le_self (by norm_num) (abs_pos.2 h0)
      exact (zpow_lt_zpow_iff_right₀ (by norm_num : (1 : ℚ) < 2)).1 (lt_of_le_of_lt h3 h)
    have h5 : ulpExp p emin ((n : ℚ) * 2 ^ k) ≤ k := by unfold ulpExp; omega
    obtain ⟨m, hm⟩ := zpow_int (k := k - ulpExp p emin ((n : ℚ) * 2 ^ k)) (by omega)
    refine roundBin_mult p emin _ (n * m) ?_
    push_cast
    rw [← hm, mul_assoc, ← zpow_add₀ (by norm_num)]
    congr 2; omega

/-- `EarliestIsZero` without an offset, in `float`: if the stamps are whole multiples of a unit `2 ^ k` (e.g. of the `float` spacing at the largest of them) and the
scan lasts less than 2^24 units, then nothing is rounded: each stamp becomes exactly its distance from the first. -/
theorem stamps_float_exact (D : Arith) (p : TsParams Fl) (ref : Option Fl) (m : FMap Fl X) (c : Cloud Fl)
    (hoff : p.offset = .fin 0) (hmeth : p.method = .earliestIsZero)
    (hm : m.get p.layer = some (.pts c)) (hT : c.hasT = true) (hne : c.pts ≠ []) (hfin : ∀ v ∈ stamps c, Finite binary32 v)
    (k : ℤ) (hk : -149 ≤ k) (hgrid : ∀ v : ℚ, .fin v ∈ stamps c → ∃ n : ℤ, v = (n : ℚ) * 2 ^ k)
    (lo hi : ℚ) (hlo : Least (stamps c) (.fin lo)) (hhi : Greatest (stamps c) (.fin hi)) (hw : hi - lo < 2 ^ (k + 24)) (hw' : hi - lo ≤ binary32.top) :
    ∃ f, filterTimestampsF binary32 D p ref m = .ok (m.set p.layer (.pts (mapT f c)), ref.map (D.add · (.fin lo))) ∧
      ∀ v, .fin v ∈ stamps c → f (.fin v) = .fin (v - lo) := by
  obtain ⟨lo', hi', dt, hlo', -, -, h, h1, -, -, h3⟩ := stamps_float_shift binary32 D p ref m c 0 0 hoff (fl_zero _) (by rw [hmeth]; simp)
    hm hT hne hfin
  have e1 : lo' = .fin lo := le_antisymm' (hlo'.2 _ hlo.1) (hlo.2 _ hlo'.1)
  subst e1
  obtain ⟨l, hl, hrep⟩ := hfin _ hlo.1
  have e : dt = .fin lo := by
    rw [h1 hmeth]
    show binary32.fl (lo + 0) = _
    rw [add_zero]; exact hrep
  subst e
  refine ⟨(binary32.sub · (.fin lo)), h, fun v hv => ?_⟩
  have b1 : lo ≤ v := by simpa [Le, Fl.le] using hlo.2 _ hv
  have b2 : v ≤ hi := by simpa [Le, Fl.le] using hhi.2 _ hv
  obtain ⟨a, rfl⟩ := hgrid v hv
  obtain ⟨b, rfl⟩ := hgrid lo hlo.1
  show binary32.sub _ _ = _
  rw [sub_fin, fl_fin_iff]
  have hx : (a : ℚ) * 2 ^ k - b * 2 ^ k = ((a - b : ℤ) : ℚ) * 2 ^ k := by push_cast; ring
  have hrnd : binary32.rnd ((a : ℚ) * 2 ^ k - b * 2 ^ k) = (a : ℚ) * 2 ^ k - b * 2 ^ k := by
    rw [hx]
    refine roundBin_exact 24 (-149) k (a - b) hk ?_
    rw [← hx, abs_of_nonneg (by linarith)]
    refine lt_of_le_of_lt ?_ hw
    linarith
  rw [hrnd]
  have := top_pos binary32
  exact ⟨rfl, by linarith, by linarith⟩

/-- If the first stamp is not a number, no stamp is afterwards, and with a shifting method neither is the reference time. -/
theorem stamps_float_first_nan (A D : Arith) (p : TsParams Fl) (ref : Option Fl) (m : FMap Fl X) (c : Cloud Fl)
    (hm : m.get p.layer = some (.pts c)) (hT : c.hasT = true) (hn : (stamps c).head? = some .nan) :
    ∃ ref', filterTimestampsF A D p ref m = .ok (m.set p.layer (.pts (mapT (fun _ => .nan) c)), ref') ∧
      (p.method ≠ .normalize → ref' = ref.map fun _ => .nan) ∧ (p.method = .normalize → ref' = ref.map (D.add · (.fin 0))) := by
  have hne : c.pts ≠ [] := by rintro h; simp [stamps, h] at hn
  cases hl : stamps c with
  | nil => rw [hl] at hn; simp at hn
  | cons a l =>
    rw [hl] at hn
    simp only [List.head?_cons, Option.some.injEq] at hn
    subst hn
    have h1 : (stamps c).foldl optMinF none = some .nan := by rw [hl]; exact optMin_nan l
    have h2 : (stamps c).foldl optMaxF none = some .nan := by rw [hl]; exact optMax_nan l
    have hs : ∀ t, A.sub t .nan = .nan := by intro t; cases t <;> rfl
    have ha : ∀ t, D.add t .nan = .nan := by intro t; cases t <;> rfl
    refine ⟨ref.map (D.add · (adjustValuesF A p .nan .nan).2), (filterTimestampsF_eq A D p ref m c hm hT hne .nan .nan h1 h2).trans ?_, ?_, ?_⟩
    · have : (adjustValuesF A p .nan .nan).1 = fun _ => .nan := by
        funext t
        cases hp : p.method <;> simp only [adjustValuesF, hp]
        · exact hs t
        · exact hs t
        · rw [hs]; rfl
      rw [this]
    · intro hp
      have : (adjustValuesF A p .nan .nan).2 = .nan := by
        cases hq : p.method
        · simp only [adjustValuesF, hq]; rfl
        · simp only [adjustValuesF, hq]; rfl
        · exact absurd hq hp
      rw [this]; simp only [ha]
    · intro hp
      simp only [adjustValuesF, hp]

/-- Stamps that are not numbers, elsewhere than in front, do no harm: the others come out as if those points were not there. -/
theorem stamps_float_later_nan (A D : Arith) (p : TsParams Fl) (ref : Option Fl) (m : FMap Fl X) (c c' : Cloud Fl)
    (hm : m.get p.layer = some (.pts c)) (hT : c.hasT = true) (v : Fl) (hv : (stamps c).head? = some v) (hvn : v ≠ .nan)
    (hc' : c' = { c with pts := c.pts.filter (·.t ≠ .nan) }) :
    ∃ f ref', f .nan = .nan ∧
      filterTimestampsF A D p ref m = .ok (m.set p.layer (.pts (mapT f c)), ref') ∧
      filterTimestampsF A D p ref (m.set p.layer (.pts c')) = .ok ((m.set p.layer (.pts c')).set p.layer (.pts (mapT f c')), ref') := by
  cases hp : c.pts with
  | nil => simp [stamps, hp] at hv
  | cons q l =>
    have hqv : q.t = v := by simpa [stamps, hp] using hv
    have hint : stamps c = v :: (l.map (·.t)) := by simp [stamps, hp, hqv]
    have hint' : stamps c' = v :: ((l.map (·.t)).filter (· ≠ .nan)) := by
      simp only [stamps, hc', hp]
      rw [List.filter_cons_of_pos (by simp [hqv, hvn]), List.map_cons, hqv, List.filter_map]
      rfl
    have hne : c.pts ≠ [] := by simp [hp]
    have hne' : c'.pts ≠ [] := by
      intro h
      have : stamps c' = [] := by simp [stamps, h]
      rw [this] at hint'; cases hint'
    have hT' : c'.hasT = true := by rw [hc']; exact hT
    have hm' : (m.set p.layer (.pts c')).get p.layer = some (.pts c') := by rw [AMap.get_set, if_pos rfl]
    obtain ⟨lo, h1, hlo, -⟩ := foldMin_some (l.map (·.t)) v hvn
    obtain ⟨hi, h2, hhi, -⟩ := foldMax_some (l.map (·.t)) v hvn
    have a1 : (stamps c).foldl optMinF none = some lo := by rw [hint]; exact h1
    have a2 : (stamps c).foldl optMaxF none = some hi := by rw [hint]; exact h2
    have b1 : (stamps c').foldl optMinF none = some lo := by rw [hint']; exact (foldMin_filter _ _).symm.trans h1
    have b2 : (stamps c').foldl optMaxF none = some hi := by rw [hint']; exact (foldMax_filter _ _).symm.trans h2
    refine ⟨(adjustValuesF A p lo hi).1, _, ?_, filterTimestampsF_eq A D p ref m c hm hT hne lo hi a1 a2,
      filterTimestampsF_eq A D p ref _ c' hm' hT' hne' lo hi b1 b2⟩
    cases hq : p.method <;> simp only [adjustValuesF, hq] <;> first | rfl | (cases lo <;> rfl)

/-! ### examples -/

def fpTs (l : List Fl) : Cloud Fl := { pts := l.map fun v => ⟨.fin 0, .fin 0, .fin 0, .fin 0, 0, v⟩ }
def fpTsMap (l : List Fl) : FMap Fl Unit := [("raw", .pts (fpTs l))]
def fpTsP (me : TsMethod) : TsParams Fl := { layer := "raw", method := me, silent := false, offset := .fin 0 }

/-- `MiddleIsZero` in `float` with stamps whose sum overflows: every stamp becomes minus infinity. -/
theorem stamps_float_middle_overflow (D : Arith) (ref : Option Fl) :
    (filterTimestampsF binary32 D (fpTsP .middleIsZero) ref (fpTsMap [.fin (2 ^ 127), .fin (3 * 2 ^ 126), .fin (2 ^ 127)])).Sat fun r =>
      r = (fpTsMap [.ninf, .ninf, .ninf], ref.map (D.add · .pinf)) := by
  have e : (stamps (fpTs [.fin (2 ^ 127), .fin (3 * 2 ^ 126), .fin (2 ^ 127)])).foldl optMinF none = some (.fin (2 ^ 127)) := by decide +kernel
  have e' : (stamps (fpTs [.fin (2 ^ 127), .fin (3 * 2 ^ 126), .fin (2 ^ 127)])).foldl optMaxF none = some (.fin (3 * 2 ^ 126)) := by decide +kernel
  have h := filterTimestampsF_eq binary32 D (fpTsP .middleIsZero) ref (fpTsMap [.fin (2 ^ 127), .fin (3 * 2 ^ 126), .fin (2 ^ 127)])
    (fpTs [.fin (2 ^ 127), .fin (3 * 2 ^ 126), .fin (2 ^ 127)]) rfl rfl (by simp [fpTs]) _ _ e e'
  rw [h]
  have e2 : (adjustValuesF binary32 (fpTsP .middleIsZero) (.fin (2 ^ 127)) (.fin (3 * 2 ^ 126))).2 = .pinf := by decide +kernel
  rw [e2]
  show _ = _
  have e3 : (fpTsMap [.fin (2 ^ 127), .fin (3 * 2 ^ 126), .fin (2 ^ 127)]).set (fpTsP .middleIsZero).layer
      (.pts (mapT (adjustValuesF binary32 (fpTsP .middleIsZero) (.fin (2 ^ 127)) (.fin (3 * 2 ^ 126))).1
        (fpTs [.fin (2 ^ 127), .fin (3 * 2 ^ 126), .fin (2 ^ 127)]))) = fpTsMap [.ninf, .ninf, .ninf] := by decide +kernel
  rw [e3]

/-- stamps 0.1 s apart from 1.5 s on, as the machine has them -/
def fpStamps : List Fl := [binary32.fl (3 / 2), binary32.fl (8 / 5), binary32.fl (17 / 10)]

example : ∀ v ∈ stamps (fpTs fpStamps), Finite binary32 v := by
  intro v hv
  simp only [stamps, fpTs, fpStamps, List.map_cons, List.map_nil, List.mem_cons, List.not_mem_nil, or_false] at hv
  rcases hv with rfl | rfl | rfl
  · rw [show binary32.fl (3 / 2) = .fin (binary32.rnd (3 / 2)) by decide +kernel]
    exact ⟨_, rfl, by unfold Arith.Rep; decide +kernel⟩
  · rw [show binary32.fl (8 / 5) = .fin (binary32.rnd (8 / 5)) by decide +kernel]
    exact ⟨_, rfl, by unfold Arith.Rep; decide +kernel⟩
  · rw [show binary32.fl (17 / 10) = .fin (binary32.rnd (17 / 10)) by decide +kernel]
    exact ⟨_, rfl, by unfold Arith.Rep; decide +kernel⟩
/-- a call as in `stamps_float_microsecond`: reference time in seconds since 1970 -/
example : (filterTimestampsF binary32 binary64 (fpTsP .earliestIsZero) (some (.fin 1700000000)) (fpTsMap fpStamps)).Sat fun r =>
    r.2 = some (.fin (1700000000 + 3 / 2)) := by decide +kernel
/-- a grid as in `stamps_float_exact` -/
example : ∃ n : ℤ, binary32.rnd (8 / 5) = n * (2 : ℚ) ^ (-23 : ℤ) := ⟨13421773, by decide +kernel⟩
example : (filterTimestampsF binary32 binary64 (fpTsP .earliestIsZero) none (fpTsMap fpStamps)).Sat fun r =>
    r.1 = fpTsMap [.fin 0, .fin (binary32.rnd (8 / 5) - 3 / 2), .fin (binary32.rnd (17 / 10) - 3 / 2)] := by decide +kernel

end Props
end Verif
