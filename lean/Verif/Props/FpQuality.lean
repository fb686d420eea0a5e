import Verif.Lemmas.FpAcc
import Verif.Props.FpTime
import Verif.Model.Icp
import Verif.Model.PairedRatio
import Verif.Model.Visit
/-!
C101: quality, paired ratio and robust kernels in floating point.  The models are those of C06, C16 and C30 (`Model/Icp.lean`,
`Model/PairedRatio.lean`, `Model/Visit.lean`), run with the arithmetic of `double`.
-/
namespace Verif
namespace Props
open Spec Fp
variable {Pose : Type}

/-! ### lemmas -/

theorem add_nonneg' (A : Arith) {a b : Fl} (ha : Le (.fin 0) a) (hb : Le (.fin 0) b) : Le (.fin 0) (A.add a b) := by
  unfold Le at *
  cases a <;> cases b <;> simp only [Fl.le, Arith.add, decide_eq_true_eq, Bool.false_eq_true] at ha hb ⊢
  rw [← fl_zero A]; exact fl_mono A (by linarith)

theorem add_le_add' (A : Arith) {a b c d : Fl} (ha : Le (.fin 0) a) (hc : Le (.fin 0) c) (h1 : Le a b) (h2 : Le c d) :
    Le (A.add a c) (A.add b d) := by
  unfold Le at *
  cases a <;> cases b <;> cases c <;> cases d <;>
    simp only [Fl.le, Arith.add, decide_eq_true_eq, Bool.false_eq_true] at ha hc h1 h2 ⊢
  · exact fl_mono A (by linarith)
  all_goals exact le_pinf (fl_ne_nan A _)

theorem mul_unit_nonneg (A : Arith) {w : ℚ} (hw : 0 ≤ w) {v : Fl} (hv : Unit01 v) : Le (.fin 0) (A.mul (.fin w) v) := by
  obtain ⟨q, rfl, h0, -⟩ := hv
  unfold Le
  rw [← fl_zero A]
  exact fl_mono A (mul_nonneg hw h0)

theorem mul_unit_le (A : Arith) {w : ℚ} (hw : 0 ≤ w) (hr : A.Rep (.fin w)) {v : Fl} (hv : Unit01 v) :
    Le (A.mul (.fin w) v) (.fin w) := by
  obtain ⟨q, rfl, -, h1⟩ := hv
  unfold Le
  have h : A.fl w = .fin w := hr
  have h2 := fl_mono A (show w * q ≤ w by nlinarith)
  rw [h] at h2
  exact h2

theorem div_unit (A : Arith) {e s : Fl} (h0 : Le (.fin 0) e) (h1 : Le e s) (hs : Fl.lt (.fin 0) s = true) :
    Unit01 (A.div e s) ∨ (A.div e s = .nan ∧ s = .pinf ∧ e = .pinf) := by
  unfold Le at *
  cases s with
  | nan => simp [Fl.lt] at hs
  | ninf => simp [Fl.lt] at hs
  | pinf =>
    cases e with
    | fin e => exact .inl ⟨0, rfl, le_rfl, zero_le_one⟩
    | pinf => exact .inr ⟨rfl, rfl, rfl⟩
    | ninf => simp [Fl.le] at h0
    | nan => simp [Fl.le] at h0
  | fin s =>
    cases e with
    | fin e =>
      left
      simp only [Fl.le, Fl.lt, decide_eq_true_eq] at h0 h1 hs
      have ha : 0 ≤ e / s := div_nonneg h0 hs.le
      have hb : e / s ≤ 1 := (div_le_one hs).2 h1
      have hr0 : 0 ≤ A.rnd (e / s) := by rw [← rnd_zero A]; exact A.mono ha
      have hr1 : A.rnd (e / s) ≤ 1 := by rw [← A.rnd_one]; exact A.mono hb
      have ht := A.one_le_top
      refine ⟨A.rnd (e / s), ?_, hr0, hr1⟩
      simp only [Arith.div, if_neg hs.ne']
      exact (fl_fin_iff A).2 ⟨rfl, by linarith, by linarith⟩
    | pinf => simp [Fl.le] at h1
    | ninf => simp [Fl.le] at h0
    | nan => simp [Fl.le] at h0

theorem div_self' (A : Arith) {s : ℚ} (hs : 0 < s) : A.div (.fin s) (.fin s) = .fin 1 := by
  simp only [Arith.div, if_neg hs.ne', div_self hs.ne', fl_one]

theorem div_mono_num (A : Arith) {a b s : Fl} (h : Le a b) (ha : Le (.fin 0) a) (hs : Fl.lt (.fin 0) s = true) (hb : A.div b s ≠ .nan) :
    Le (A.div a s) (A.div b s) := by
  unfold Le at *
  cases s with
  | nan => simp [Fl.lt] at hs
  | ninf => simp [Fl.lt] at hs
  | pinf =>
    cases a <;> cases b <;> simp_all [Fl.le, Arith.div]
  | fin s =>
    have hs' : 0 < s := by simpa [Fl.lt] using hs
    cases a <;> cases b <;> simp only [Fl.le, Arith.div, if_neg hs'.ne', if_neg (not_lt.2 hs'.le), decide_eq_true_eq, Bool.false_eq_true] at h ha ⊢
    · exact fl_mono A (div_le_div_of_nonneg_right h hs'.le)
    · exact le_pinf (fl_ne_nan A _)

/-- A larger divisor gives no larger quotient. -/
theorem div_anti (A : Arith) {s : ℚ} {x y : Fl} (hs : 0 ≤ s) (hx : Fl.lt (.fin 0) x = true) (h : Le x y) :
    Le (A.div (.fin s) y) (A.div (.fin s) x) := by
  unfold Le at *
  cases x <;> cases y <;> simp only [Fl.le, Fl.lt, decide_eq_true_eq, Bool.false_eq_true] at h hx
  · rename_i a b
    simp only [Arith.div, if_neg hx.ne', if_neg (lt_of_lt_of_le hx h).ne']
    exact fl_mono A (div_le_div_of_nonneg_left hs hx h)
  · rename_i a
    simp only [Arith.div, if_neg hx.ne']
    rw [← fl_zero A]; exact fl_mono A (div_nonneg hs hx.le)
  · simp [Arith.div, Fl.le]

theorem A_mono_one (A : Arith) {x n : ℚ} (h : 1 ≤ x) (hn : A.fl x = .fin n) : 1 ≤ n := by
  have := A.mono h
  rw [A.rnd_one, ((fl_fin_iff A).1 hn).1] at this
  exact this

/-! ### evaluate_quality -/

/-- what the machine gets when it adds up the weights -/
def weightSum (D : Arith) (evs : List (QualEval D.Num Pose)) (w0 : Fl) : Fl := evs.foldl (fun s e => D.add s e.weight) w0

theorem loop_unit (D : Arith) (it : Nat) (fin : Bool) (pose : Pose) (prs : Pairings D.Num) :
    ∀ (evs : List (QualEval D.Num Pose)) (sW sE : Fl) (v : D.Num),
      (∀ e ∈ evs, Finite D e.weight) → (∀ e ∈ evs, ∀ r, e.eval it fin pose prs = .ok r → Unit01 r.1) →
      Le (.fin 0) sE → Le sE sW → evaluateQualityLoop it fin pose prs evs (sW : D.Num) (sE : D.Num) = .ok v →
      Unit01 v ∨ ((v : Fl) = .nan ∧ weightSum D evs sW = .pinf)
  | [], sW, sE, v, _, _, h0, h1, h => by
    simp only [evaluateQualityLoop, Outcome.bind_def, Outcome.pure_def, Outcome.bind_eq_ok, Outcome.assert_eq_ok, exists_const] at h
    obtain ⟨hw, h⟩ := h
    have hv := Outcome.ok.inj h
    rw [← hv]
    rcases div_unit D h0 h1 hw with h2 | ⟨h2, h3, -⟩
    · exact .inl h2
    · exact .inr ⟨h2, h3⟩
  | e :: evs, sW, sE, v, hf, hq, h0, h1, h => by
    simp only [evaluateQualityLoop, Outcome.bind_def, Outcome.pure_def, Outcome.bind_eq_ok, Outcome.assert_eq_ok, exists_const] at h
    obtain ⟨hw, r, hr, h⟩ := h
    have hu := hq e (List.mem_cons_self ..) r hr
    obtain ⟨w, hwe, hrep⟩ := hf e (List.mem_cons_self ..)
    split_ifs at h with hb
    · have hv := Outcome.ok.inj h
      rw [← hv]
      exact .inl ⟨0, rfl, le_rfl, zero_le_one⟩
    · have hw0 : 0 < w := by
        have : Fl.lt (.fin 0) e.weight = true := hw
        rw [hwe] at this; simpa [Fl.lt] using this
      rw [hwe] at hrep
      have hm0 : Le (.fin 0) (D.mul e.weight r.1) := by rw [hwe]; exact mul_unit_nonneg D hw0.le hu
      have hm1 : Le (D.mul e.weight r.1) e.weight := by rw [hwe]; exact mul_unit_le D hw0.le hrep hu
      exact loop_unit D it fin pose prs evs (D.add sW e.weight) (D.add sE (D.mul e.weight r.1)) v
        (fun e he => hf e (List.mem_cons_of_mem _ he)) (fun e he => hq e (List.mem_cons_of_mem _ he))
        (add_nonneg' D h0 hm0) (add_le_add' D h0 hm0 h1 hm1) h

/-- If every evaluator answers with a number from 0 to 1, so is the quality, in spite of all roundings, unless the sum of the weights overflows. -/
theorem quality_float_range (D : Arith) (evs : List (QualEval D.Num Pose)) (it : Nat) (fin : Bool) (pose : Pose) (prs : Pairings D.Num)
    (hf : ∀ e ∈ evs, Finite D e.weight) (hq : ∀ e ∈ evs, ∀ r, e.eval it fin pose prs = .ok r → Unit01 r.1)
    (v : D.Num) (h : evaluateQuality evs it fin pose prs = .ok v) :
    Unit01 v ∨ ((v : Fl) = .nan ∧ weightSum D evs (.fin 0) = .pinf) := by
  unfold evaluateQuality at h
  simp only [Outcome.bind_def, Outcome.bind_eq_ok, Outcome.assert_eq_ok, exists_const] at h
  exact loop_unit D it fin pose prs evs (.fin 0) (.fin 0) v hf hq (by simp [Le, Fl.le]) (by simp [Le, Fl.le]) h.2

theorem loop_ones (D : Arith) (it : Nat) (fin : Bool) (pose : Pose) (prs : Pairings D.Num) :
    ∀ (evs : List (QualEval D.Num Pose)) (s : Fl) (v : D.Num),
      (∀ e ∈ evs, Finite D e.weight) → (∀ e ∈ evs, e.eval it fin pose prs = .ok ((.fin 1 : Fl), false)) →
      evaluateQualityLoop it fin pose prs evs (s : D.Num) (s : D.Num) = .ok v → weightSum D evs s ≠ .pinf → (v : Fl) = .fin 1
  | [], s, v, _, _, h, hs => by
    simp only [evaluateQualityLoop, Outcome.bind_def, Outcome.pure_def, Outcome.bind_eq_ok, Outcome.assert_eq_ok, exists_const] at h
    obtain ⟨hw, h⟩ := h
    have hv := Outcome.ok.inj h
    rw [← hv]
    have hw' : Fl.lt (.fin 0) s = true := hw
    cases s with
    | fin s => exact div_self' D (by simpa [Fl.lt] using hw')
    | pinf => exact absurd rfl hs
    | ninf => simp [Fl.lt] at hw'
    | nan => simp [Fl.lt] at hw'
  | e :: evs, s, v, hf, hq, h, hs => by
    simp only [evaluateQualityLoop, Outcome.bind_def, Outcome.pure_def, Outcome.bind_eq_ok, Outcome.assert_eq_ok, exists_const] at h
    obtain ⟨hw, r, hr, h⟩ := h
    rw [hq e (List.mem_cons_self ..)] at hr
    have hr' := Outcome.ok.inj hr
    subst hr'
    simp only [Bool.false_eq_true, if_false] at h
    obtain ⟨w, hwe, hrep⟩ := hf e (List.mem_cons_self ..)
    have e1 : D.mul e.weight (.fin 1) = e.weight := by
      rw [hwe] at hrep ⊢
      show D.fl (w * 1) = _
      rw [mul_one]; exact hrep
    have h' : evaluateQualityLoop it fin pose prs evs (D.add s e.weight : D.Num) (D.add s (D.mul e.weight (.fin 1)) : D.Num) = .ok v := h
    rw [e1] at h'
    exact loop_ones D it fin pose prs evs (D.add s e.weight) v (fun e he => hf e (List.mem_cons_of_mem _ he))
      (fun e he => hq e (List.mem_cons_of_mem _ he)) h' hs

/-- If every evaluator answers exactly 1, the quality is exactly 1, whatever the weights are (unless their sum overflows). -/
theorem quality_float_one (D : Arith) (evs : List (QualEval D.Num Pose)) (it : Nat) (fin : Bool) (pose : Pose) (prs : Pairings D.Num)
    (hf : ∀ e ∈ evs, Finite D e.weight) (hq : ∀ e ∈ evs, e.eval it fin pose prs = .ok ((.fin 1 : Fl), false))
    (hs : weightSum D evs (.fin 0) ≠ .pinf) (v : D.Num) (h : evaluateQuality evs it fin pose prs = .ok v) : (v : Fl) = .fin 1 := by
  unfold evaluateQuality at h
  simp only [Outcome.bind_def, Outcome.bind_eq_ok, Outcome.assert_eq_ok, exists_const] at h
  exact loop_ones D it fin pose prs evs (.fin 0) v hf hq h.2 hs

theorem loop_mono (D : Arith) (it it' : Nat) (fin fin' : Bool) (pose pose' : Pose) (prs prs' : Pairings D.Num) :
    ∀ (evs : List (QualEval D.Num Pose)) (sW sE sE' : Fl) (v v' : D.Num),
      (∀ e ∈ evs, Finite D e.weight) →
      (∀ e ∈ evs, ∃ q q' : Fl, e.eval it fin pose prs = .ok (q, false) ∧ e.eval it' fin' pose' prs' = .ok (q', false) ∧
        Unit01 q ∧ Unit01 q' ∧ Le q q') →
      Le (.fin 0) sE → Le sE sE' →
      evaluateQualityLoop it fin pose prs evs (sW : D.Num) (sE : D.Num) = .ok v →
      evaluateQualityLoop it' fin' pose' prs' evs (sW : D.Num) (sE' : D.Num) = .ok v' → (v' : Fl) ≠ .nan → Le v v'
  | [], sW, sE, sE', v, v', _, _, h0, h1, h, h', hn => by
    simp only [evaluateQualityLoop, Outcome.bind_def, Outcome.pure_def, Outcome.bind_eq_ok, Outcome.assert_eq_ok, exists_const] at h h'
    obtain ⟨hw, h⟩ := h
    obtain ⟨-, h'⟩ := h'
    have hv := Outcome.ok.inj h
    have hv' := Outcome.ok.inj h'
    rw [← hv'] at hn
    rw [← hv, ← hv']
    exact div_mono_num D h1 h0 hw hn
  | e :: evs, sW, sE, sE', v, v', hf, hq, h0, h1, h, h', hn => by
    simp only [evaluateQualityLoop, Outcome.bind_def, Outcome.pure_def, Outcome.bind_eq_ok, Outcome.assert_eq_ok, exists_const] at h h'
    obtain ⟨hw, r, hr, h⟩ := h
    obtain ⟨-, r', hr', h'⟩ := h'
    obtain ⟨q, q', e1, e2, u1, u2, hle⟩ := hq e (List.mem_cons_self ..)
    rw [e1] at hr
    rw [e2] at hr'
    have a1 := Outcome.ok.inj hr
    have a2 := Outcome.ok.inj hr'
    subst a1 a2
    simp only [Bool.false_eq_true, if_false] at h h'
    obtain ⟨w, hwe, hrep⟩ := hf e (List.mem_cons_self ..)
    have hw0 : 0 < w := by
      have : Fl.lt (.fin 0) e.weight = true := hw
      rw [hwe] at this; simpa [Fl.lt] using this
    have m0 : Le (.fin 0) (D.mul e.weight q) := by rw [hwe]; exact mul_unit_nonneg D hw0.le u1
    have m1 : Le (D.mul e.weight q) (D.mul e.weight q') := by
      obtain ⟨x, rfl, -, -⟩ := u1
      obtain ⟨y, rfl, -, -⟩ := u2
      rw [hwe]
      have : x ≤ y := by simpa [Le, Fl.le] using hle
      exact fl_mono D (mul_le_mul_of_nonneg_left this hw0.le)
    exact loop_mono D it it' fin fin' pose pose' prs prs' evs (D.add sW e.weight) (D.add sE (D.mul e.weight q)) (D.add sE' (D.mul e.weight q')) v v'
      (fun e he => hf e (List.mem_cons_of_mem _ he)) (fun e he => hq e (List.mem_cons_of_mem _ he))
      (add_nonneg' D h0 m0) (add_le_add' D h0 m0 h1 m1) h h' hn

/-- Of two registrations judged by the same evaluators, without hard discards, one which no evaluator finds worse gets no smaller quality: rounding never
turns the order around. -/
theorem quality_float_monotone (D : Arith) (evs : List (QualEval D.Num Pose)) (it it' : Nat) (fin fin' : Bool) (pose pose' : Pose)
    (prs prs' : Pairings D.Num) (hf : ∀ e ∈ evs, Finite D e.weight)
    (hq : ∀ e ∈ evs, ∃ q q' : Fl, e.eval it fin pose prs = .ok (q, false) ∧ e.eval it' fin' pose' prs' = .ok (q', false) ∧
      Unit01 q ∧ Unit01 q' ∧ Le q q')
    (v v' : D.Num) (h : evaluateQuality evs it fin pose prs = .ok v) (h' : evaluateQuality evs it' fin' pose' prs' = .ok v')
    (hn : (v' : Fl) ≠ .nan) : Le v v' := by
  unfold evaluateQuality at h h'
  simp only [Outcome.bind_def, Outcome.bind_eq_ok, Outcome.assert_eq_ok, exists_const] at h h'
  exact loop_mono D it it' fin fin' pose pose' prs prs' evs (.fin 0) (.fin 0) (.fin 0) v v' hf hq (by simp [Le, Fl.le])
    (by simp [Le, Fl.le]) h.2 h'.2 hn

/-- One evaluator of weight 1: the quality is its answer, without rounding. -/
theorem quality_float_single (D : Arith) (e : QualEval D.Num Pose) (it : Nat) (fin : Bool) (pose : Pose) (prs : Pairings D.Num)
    (hw : (e.weight : Fl) = .fin 1) (q : D.Num) (hq : Finite D q) (he : e.eval it fin pose prs = .ok (q, false)) :
    evaluateQuality [e] it fin pose prs = .ok q := by
  obtain ⟨x, hx, hrep⟩ := hq
  have hrep' : D.fl x = .fin x := by rw [hx] at hrep; exact hrep
  have h1 : (0 : D.Num) < e.weight := by
    show Fl.lt (.fin 0) e.weight = true
    rw [hw]; simp [Fl.lt]
  have a1 : (0 + e.weight : D.Num) = e.weight := by
    show D.add (.fin 0) e.weight = _
    rw [hw]
    show D.fl (0 + 1) = _
    rw [zero_add, fl_one]
  have a2 : (0 + e.weight * q : D.Num) = q := by
    show D.add (.fin 0) (D.mul e.weight q) = q
    rw [hw, hx]
    show D.add (.fin 0) (D.fl (1 * x)) = _
    rw [one_mul, hrep']
    show D.fl (0 + x) = _
    rw [zero_add, hrep']
  have a3 : (q / e.weight : D.Num) = q := by
    show D.div q e.weight = q
    rw [hw, hx]
    simp only [Arith.div, if_neg one_ne_zero, div_one, hrep']
  simp only [evaluateQuality, evaluateQualityLoop, Outcome.bind_def, Outcome.pure_def]
  rw [Outcome.assert_true (by simp)]
  simp only [Outcome.bind]
  rw [Outcome.assert_true h1, he]
  simp only [Outcome.bind, Bool.false_eq_true, if_false]
  rw [a1, a2, Outcome.assert_true h1]
  simp only [Outcome.bind]
  rw [a3]

/-! ### the paired ratio -/

/-- With no more pairings than potential pairings the paired ratio is a number from 0 to 1, 0 without potential pairings, exactly 1 if all were paired, and
more pairings give no smaller ratio; "hard discard" if and only if the ratio as computed is below the limit. -/
theorem paired_ratio_float (D : Arith) (minRatio : D.Num) (p : Pairings D.Num) (hle : p.size ≤ p.potential)
    (n : ℚ) (hn : D.fl (p.potential : ℚ) = .fin n) :
    Unit01 (pairedRatio minRatio p).1 ∧ (p.potential = 0 → ((pairedRatio minRatio p).1 : Fl) = .fin 0) ∧
    (p.potential ≠ 0 → p.size = p.potential → ((pairedRatio minRatio p).1 : Fl) = .fin 1) ∧
    (∀ p' : Pairings D.Num, p'.potential = p.potential → p'.size ≤ p.size → Le (pairedRatio minRatio p').1 (pairedRatio minRatio p).1) ∧
    ((pairedRatio minRatio p).2 = true ↔ Fl.lt (pairedRatio minRatio p).1 minRatio = true) := by
  have hlt : (pairedRatio minRatio p).2 = true ↔ Fl.lt (pairedRatio minRatio p).1 minRatio = true := by
    unfold pairedRatio
    exact decide_eq_true_iff
  by_cases h0 : p.potential = 0
  · have e : ((pairedRatio minRatio p).1 : Fl) = .fin 0 := by
      show (if p.potential = 0 then (0 : D.Num) else _) = _
      rw [if_pos h0]; rfl
    refine ⟨⟨0, e, le_rfl, zero_le_one⟩, fun _ => e, fun h => absurd h0 h, fun p' hp _ => ?_, hlt⟩
    have e' : ((pairedRatio minRatio p').1 : Fl) = .fin 0 := by
      show (if p'.potential = 0 then (0 : D.Num) else _) = _
      rw [if_pos (by rw [hp]; exact h0)]; rfl
    rw [e, e']; simp [Le, Fl.le]
  · have hval : ∀ p' : Pairings D.Num, p'.potential = p.potential → ((pairedRatio minRatio p').1 : Fl) = D.div (D.fl (p'.size : ℚ)) (.fin n) := by
      intro p' hp
      show (if p'.potential = 0 then (0 : D.Num) else _) = _
      rw [if_neg (by rw [hp]; exact h0), hp]
      show D.div _ (D.fl (p.potential : ℚ)) = _
      rw [hn]; rfl
    have hpos : 1 ≤ n := by
      have h1 : (1 : ℚ) ≤ p.potential := by exact_mod_cast Nat.one_le_iff_ne_zero.2 h0
      have h2 := A_mono_one D h1 hn
      exact h2
    have hnn : ∀ k : ℕ, Le (.fin 0) (D.fl (k : ℚ)) := by
      intro k; unfold Le; rw [← fl_zero D]; exact fl_mono D (by positivity)
    have hs : Fl.lt (.fin 0) (.fin n) = true := by simp [Fl.lt]; linarith
    have hsz : Le (D.fl (p.size : ℚ)) (.fin n) := by
      unfold Le; rw [← hn]; exact fl_mono D (by exact_mod_cast hle)
    have hu : Unit01 (pairedRatio minRatio p).1 := by
      rw [hval p rfl]
      rcases div_unit D (hnn _) hsz hs with h | ⟨-, h, -⟩
      · exact h
      · cases h
    refine ⟨hu, fun h => absurd h h0, fun _ h => ?_, fun p' hp hsp => ?_, hlt⟩
    · rw [hval p rfl, h, hn]; exact div_self' D (by linarith)
    · rw [hval p rfl, hval p' hp]
      refine div_mono_num D (fl_mono D (by exact_mod_cast hsp)) (hnn _) hs ?_
      rw [hval p rfl] at hu
      obtain ⟨q, hq, -⟩ := hu
      rw [hq]; simp

/-! ### the robust kernels -/

theorem add_pos_le (A : Arith) {e : Fl} {s : ℚ} (he : Le (.fin 0) e) (hr : A.fl s = .fin s) : Le (.fin s) (A.add e (.fin s)) := by
  unfold Le at *
  cases e with
  | fin q =>
    have h2 := fl_mono A (show s ≤ q + s by have : 0 ≤ q := by simpa [Fl.le] using he
                                            linarith)
    rw [hr] at h2; exact h2
  | pinf => rfl
  | ninf => simp [Fl.le] at he
  | nan => simp [Fl.le] at he

theorem add_le_add_right' (A : Arith) {a b : Fl} {s : ℚ} (ha : Le (.fin 0) a) (h : Le a b) : Le (A.add a (.fin s)) (A.add b (.fin s)) := by
  refine add_mono A h ?_ ?_
  · exact add_fin_ne_nan A s (le_ne_nan h).1
  · exact add_fin_ne_nan A s (le_ne_nan h).2

theorem sq_mono (A : Arith) {a b : Fl} (ha : Le (.fin 0) a) (h : Le a b) : Le (A.mul a a) (A.mul b b) := by
  unfold Le at *
  cases a <;> cases b <;> simp only [Fl.le, Arith.mul, decide_eq_true_eq, Bool.false_eq_true] at ha h ⊢
  · exact fl_mono A (by nlinarith)
  · exact le_pinf (fl_ne_nan A _)

/-- Robust kernels as the machine computes them, for a positive parameter whose square neither overflows nor becomes 0: exactly 1 for a zero error; for
every other squared error that is not negative, also an infinite one, a number from 0 to 1; a larger error gives no larger factor. -/
theorem kernel_float (D : Arith) (k : RobustKernel) (c : D.Num) (f : D.Num → D.Num) (hk : createRobustKernel k c = some f)
    (cq s : ℚ) (hc : (c : Fl) = .fin cq) (hrep : Finite D c) (hpos : 0 < cq) (hs : D.fl (cq * cq) = .fin s) (hs0 : s ≠ 0) :
    (f 0 : Fl) = .fin 1 ∧ (∀ e : D.Num, Le (.fin 0) e → Unit01 (f e)) ∧
    ∀ e e' : D.Num, Le (.fin 0) e → Le e e' → Le (f e') (f e) := by
  have hcc : D.mul c c = .fin s := by rw [hc]; exact hs
  have hsp : 0 < s := by
    rcases fl_nonneg D (show 0 ≤ cq * cq by positivity) with ⟨q, hq, he, -⟩ | he
    · rw [hs] at he; simp only [Fl.fin.injEq] at he; rw [he] at hs0 ⊢; exact lt_of_le_of_ne hq (Ne.symm hs0)
    · rw [hs] at he; cases he
  have hrc : D.fl cq = .fin cq := by
    obtain ⟨q, hq, hr⟩ := hrep
    rw [hc] at hr; exact hr
  have hrs : D.fl s = .fin s := by
    obtain ⟨r1, r2, r3⟩ := (fl_fin_iff D).1 hs
    exact (fl_fin_iff D).2 ⟨by rw [← r1, D.idem], by rw [← r1, D.idem]; exact r2, by rw [← r1, D.idem]; exact r3⟩
  -- both kernels are `s` over an increasing function that is at least `s`
  have key : ∃ g : Fl → Fl, (∀ e : D.Num, (f e : Fl) = D.div (.fin s) (g e)) ∧ g (.fin 0) = .fin s ∧ (∀ e, Le (.fin 0) e → Le (.fin s) (g e)) ∧
      ∀ e e', Le (.fin 0) e → Le e e' → Le (g e) (g e') := by
    cases k with
    | none => cases hk
    | gemanMcClure =>
      simp only [createRobustKernel, Option.some.injEq] at hk
      refine ⟨fun e => D.mul (D.add e c) (D.add e c), ?_, ?_, ?_, ?_⟩
      · intro e
        rw [← hk]
        show D.div (D.mul c c) _ = _
        rw [hcc]; rfl
      · have : D.add (.fin 0) c = .fin cq := by
          rw [hc]
          show D.fl (0 + cq) = _
          rw [zero_add, hrc]
        show D.mul (D.add (.fin 0) c) (D.add (.fin 0) c) = _
        rw [this]; exact hs
      · intro e he
        have h1 : Le (.fin cq) (D.add e c) := by rw [hc]; exact add_pos_le D he hrc
        have h2 := sq_mono D (show Le (.fin 0) (.fin cq) by simp [Le, Fl.le]; linarith) h1
        have h3 : D.mul (.fin cq) (.fin cq) = .fin s := hs
        rw [h3] at h2; exact h2
      · intro e e' he hee
        have h0 : Le (.fin cq) (D.add e c) := by rw [hc]; exact add_pos_le D he hrc
        have h1 : Le (D.add e c) (D.add e' c) := by rw [hc]; exact add_le_add_right' D he hee
        exact sq_mono D (le_trans' (show Fl.le (.fin 0) (.fin cq) = true by simp [Fl.le]; linarith) h0) h1
    | cauchy =>
      simp only [createRobustKernel, Option.some.injEq] at hk
      refine ⟨fun e => D.add e (.fin s), ?_, ?_, ?_, ?_⟩
      · intro e
        rw [← hk]
        show D.div (D.mul c c) (D.add e (D.mul c c)) = _
        rw [hcc]
      · show D.fl (0 + s) = _
        rw [zero_add, hrs]
      · intro e he; exact add_pos_le D he hrs
      · intro e e' he hee; exact add_le_add_right' D he hee
  obtain ⟨g, g1, g2, g3, g4⟩ := key
  have hlt : ∀ x, Le (.fin s) x → Fl.lt (.fin 0) x = true := by
    intro x hx
    cases x with
    | fin q => have : s ≤ q := by simpa [Le, Fl.le] using hx
               simp [Fl.lt]; linarith
    | pinf => rfl
    | ninf => simp [Le, Fl.le] at hx
    | nan => simp [Le, Fl.le] at hx
  refine ⟨?_, ?_, ?_⟩
  · rw [g1]
    show D.div (.fin s) (g (.fin 0)) = _
    rw [g2]; exact div_self' D hsp
  · intro e he
    rw [g1]
    rcases div_unit D (show Le (.fin 0) (.fin s) by simp [Le, Fl.le]; linarith) (g3 e he) (hlt _ (g3 e he)) with h | ⟨-, -, h⟩
    · exact h
    · cases h
  · intro e e' he hee
    rw [g1, g1]
    exact div_anti D hsp.le (hlt _ (g3 e he)) (g4 e e' he hee)

/-- Where the machine departs from exact arithmetic (C30: the factor is never 0): in `double`, with parameter 1, a squared error of 2^600 gets the factor 0
with the Geman-McClure kernel; with a parameter of 2^-600, whose square becomes 0, a zero error gets not-a-number. -/
theorem kernel_float_zero_nan :
    (createRobustKernel .gemanMcClure (binary64.num (.fin 1))).map (fun f => f (binary64.num (.fin (2 ^ 600)))) = some (binary64.num (.fin 0)) ∧
    (createRobustKernel .cauchy (binary64.num (.fin (1 / 2 ^ 600)))).map (fun f => f (binary64.num (.fin 0))) = some (binary64.num (.nan)) := by
  constructor <;> decide +kernel

/-! ### examples -/

def fpEvals : List (QualEval binary64.Num Unit) :=
  [⟨binary64.num (.fin 3), fun _ _ _ _ => .ok (binary64.num (binary64.fl (1 / 3)), false)⟩, ⟨binary64.num (binary64.fl (1 / 10)), fun _ _ _ p => .ok (pairedRatio (binary64.num (.fin 0)) p)⟩]
example : (evaluateQuality fpEvals 0 true () {}).Sat fun v => (Fl.lt (.fin 0) (binary64.val v) && Fl.lt (binary64.val v) (.fin 1)) = true := by decide +kernel
example : weightSum binary64 fpEvals (.fin 0) ≠ .pinf := by decide +kernel
/-- 5 of 7 -/
example : binary64.fl ((7 : ℕ) : ℚ) = .fin 7 := by decide +kernel
example : Finite binary64 (.fin (1 / 2)) ∧ binary64.fl (1 / 2 * (1 / 2)) = .fin (1 / 4) :=
  ⟨⟨_, rfl, by unfold Arith.Rep; decide +kernel⟩, by decide +kernel⟩

end Props
end Verif
