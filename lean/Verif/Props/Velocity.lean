import Mathlib.Algebra.Order.Ring.Rat
import Mathlib.Data.Rat.Floor
import Mathlib.Algebra.Order.Archimedean.Basic
import Verif.Lemmas.VelocityTop
import Verif.Lemmas.VelocityYaml
/-
C40, C41, C42: the local velocity buffer.
-/
set_option linter.unusedSectionVars false
namespace Verif
namespace Props
open Vel
variable {K V P T : Type} [Field K] [LinearOrder K] [IsStrictOrderedRing K]

/-! ### C41 -/

/-- After any history of calls on a fresh buffer, the samples held are exactly the ones due: inserted, not replaced, not
cleared, and never found older than the window by a later insertion. -/
theorem velocity_held_exactly (b : Buf K V) (hl : b.lin = []) (ha : b.ang = []) (ops : List (Op K V)) (t : K) (v : V) :
    ((t, v) ∈ (b.run ops).lin ↔ LinDue b.maxWindow ops t v) ∧
    ((t, v) ∈ (b.run ops).ang ↔ AngDue b.maxWindow ops t v) :=
  ⟨mem_lin_iff b hl ops t v, mem_ang_iff b ha ops t v⟩

/-- At most one sample per time stamp. -/
theorem velocity_one_per_stamp (b : Buf K V) (hl : b.lin = []) (ha : b.ang = []) (ops : List (Op K V)) (t : K) (v w : V) :
    ((t, v) ∈ (b.run ops).lin → (t, w) ∈ (b.run ops).lin → v = w) ∧
    ((t, v) ∈ (b.run ops).ang → (t, w) ∈ (b.run ops).ang → v = w) := by
  have h := run_sorted b ops (by rw [hl, ha]; exact ⟨List.Pairwise.nil, List.Pairwise.nil⟩)
  constructor
  · intro h1 h2
    have e1 := AMap.get_eq_some_of_mem _ h.1 _ _ h1
    rw [AMap.get_eq_some_of_mem _ h.1 _ _ h2] at e1
    simpa using e1.symm
  · intro h1 h2
    have e1 := AMap.get_eq_some_of_mem _ h.2 _ _ h1
    rw [AMap.get_eq_some_of_mem _ h.2 _ _ h2] at e1
    simpa using e1.symm

/-- Insertions with non-decreasing times and no clearing: held is exactly what was inserted last at its stamp and is no
older than the window with respect to the last insertion (of either kind). -/
theorem velocity_window_in_order (b : Buf K V) (hl : b.lin = []) (ha : b.ang = []) (ops : List (Op K V))
    (hc : ∀ o ∈ ops, o ≠ .clear) (hmono : (addTimes ops).Pairwise (· ≤ ·)) (last : K)
    (hlast : (addTimes ops).getLast? = some last) (t : K) (v : V) :
    ((t, v) ∈ (b.run ops).lin ↔
      (∃ pre post, ops = pre ++ .lin t v :: post ∧ ∀ v', Op.lin t v' ∉ post) ∧ last - t ≤ b.maxWindow) ∧
    ((t, v) ∈ (b.run ops).ang ↔
      (∃ pre post, ops = pre ++ .ang t v :: post ∧ ∀ v', Op.ang t v' ∉ post) ∧ last - t ≤ b.maxWindow) := by
  rw [mem_lin_iff b hl, mem_ang_iff b ha]
  have hmem : last ∈ addTimes ops := List.mem_of_getLast? hlast
  -- the last insertion is the latest
  have hmax : ∀ x ∈ addTimes ops, x ≤ last := by
    intro x hx
    obtain ⟨l, hl⟩ : ∃ l, addTimes ops = l ++ [last] := by
      rw [List.getLast?_eq_some_iff] at hlast
      exact hlast
    rw [hl, List.pairwise_append] at hmono
    rw [hl, List.mem_append, List.mem_singleton] at hx
    rcases hx with hx | hx
    · exact hmono.2.2 x hx last (by simp)
    · exact hx.le
  -- it is in the tail after any inserting call, or it is that call's own time
  have hpost : ∀ (pre post : List (Op K V)) (o : Op K V) (s : K), ops = pre ++ o :: post → o.addTime? = some s →
      last ∈ addTimes post ∨ last = s := by
    intro pre post o s ho hs
    rw [ho, addTimes, List.filterMap_append, List.filterMap_cons, hs] at hlast
    cases hp : addTimes post with
    | nil =>
      right
      simp only [addTimes] at hp
      simpa [hp] using hlast.symm
    | cons x xs =>
      left
      have : (List.filterMap Op.addTime? post) = x :: xs := hp
      rw [this, List.getLast?_append_of_ne_nil _ (by simp), List.getLast?_cons_cons] at hlast
      exact List.mem_of_getLast? hlast
  constructor
  · constructor
    · rintro ⟨pre, post, h, _, h2, h0, h3⟩
      refine ⟨⟨pre, post, h, h2⟩, ?_⟩
      rcases hpost pre post _ t h rfl with hp | hp
      · exact h3 _ hp
      · rw [hp]; exact h0
    · rintro ⟨⟨pre, post, h, h2⟩, h3⟩
      have ht : t ∈ addTimes ops := by rw [h]; simp [addTimes, Op.addTime?]
      refine ⟨pre, post, h, fun o ho => hc o (by rw [h]; simp [ho]), h2, by linarith [hmax t ht], fun now hn => ?_⟩
      have : now ∈ addTimes ops := by
        rw [h, addTimes, List.filterMap_append, List.mem_append]; right
        rw [List.filterMap_cons]; simp only [Op.addTime?]
        exact List.mem_cons_of_mem _ hn
      linarith [hmax now this]
  · constructor
    · rintro ⟨pre, post, h, _, h2, h0, h3⟩
      refine ⟨⟨pre, post, h, h2⟩, ?_⟩
      rcases hpost pre post _ t h rfl with hp | hp
      · exact h3 _ hp
      · rw [hp]; exact h0
    · rintro ⟨⟨pre, post, h, h2⟩, h3⟩
      have ht : t ∈ addTimes ops := by rw [h]; simp [addTimes, Op.addTime?]
      refine ⟨pre, post, h, fun o ho => hc o (by rw [h]; simp [ho]), h2, by linarith [hmax t ht], fun now hn => ?_⟩
      have : now ∈ addTimes ops := by
        rw [h, addTimes, List.filterMap_append, List.mem_append]; right
        rw [List.filterMap_cons]; simp only [Op.addTime?]
        exact List.mem_cons_of_mem _ hn
      linarith [hmax now this]

/-- A history with a replaced sample and an expired one. -/
def sampleOps : List (Op Rat Nat) := [.ang 0 1, .lin 0 7, .ang 1 2, .ang 1 3, .ref 5, .lin 2 8]
example : (addTimes sampleOps).Pairwise (· ≤ ·) ∧ (∀ o ∈ sampleOps, ¬ (o matches .clear)) ∧
    (addTimes sampleOps).getLast? = some 2 ∧
    ((⟨3/2, 1/10, [], [], 0⟩ : Buf Rat Nat).run sampleOps).ang = [(1, 3)] ∧
    ((⟨3/2, 1/10, [], [], 0⟩ : Buf Rat Nat).run sampleOps).lin = [(2, 8)] := by decide +kernel

/-! ### C42 -/

/-- The reconstruction always ends: with enough steps allowed, its result no longer depends on their number. -/
theorem reconstruct_terminates [Archimedean K] (e : IntegEnv K V P) (he : e.Ok) (b : Buf K V) (hb : AMap.Sorted b.ang)
    (half : K) : ∃ N r, ∀ k, N ≤ k → reconstruct e k b half = some r :=
  reconstruct_total e he b hb half

/-- The trajectory is empty exactly when no angular sample lies within the tolerance of the reference time. -/
theorem reconstruct_empty_iff (e : IntegEnv K V P) (he : e.Ok) (fuel : Nat) (b : Buf K V) (hb : AMap.Sorted b.ang)
    (half : K) (r : Outcome (AMap K P)) (h : reconstruct e fuel b half = some r) :
    r = .ok [] ↔ ∀ s ∈ b.ang, b.tol < |s.1 - b.refTime| := by
  rw [← findClosestTol_none]
  rcases reconstruct_spec e he fuel b hb half r h with ⟨h1, h2⟩ | ⟨ref, h1, h2⟩
  · simp [h1, h2]
  · rw [h1]
    simp only [reduceCtorEq, iff_false]
    rintro rfl
    rcases h2 with ⟨h2, _⟩ | ⟨traj, h2, _, h3, _⟩
    · simp at h2
    · simp only [Outcome.ok.injEq] at h2
      rw [← h2] at h3
      simp at h3

/-- Otherwise there is a closest sample `ref`; the pose at relative time zero is the identity, and, for samples at least
`eps` apart, every instant of the half span on each side that the samples reach has a pose within one integration
step. -/
theorem reconstruct_covers_partial (e : IntegEnv K V P) (he : e.Ok) (fuel : Nat) (b : Buf K V) (hb : AMap.Sorted b.ang)
    (half : K) (traj : AMap K P) (h : reconstruct e fuel b half = some (.ok traj)) (hne : traj ≠ []) :
    ∃ ref, (∃ w, (ref, w) ∈ b.ang) ∧ (∀ s ∈ b.ang, |ref - b.refTime| ≤ |s.1 - b.refTime|) ∧ |ref - b.refTime| ≤ b.tol ∧
      AMap.get traj 0 = some e.one ∧
      (Spaced e.eps b.ang → ∀ τ, -half < τ → τ < half → (∃ s ∈ b.ang, s.1 - ref ≤ τ) →
        ∃ κ p, AMap.get traj κ = some p ∧ |κ - τ| ≤ e.step) := by
  rcases reconstruct_spec e he fuel b hb half _ h with ⟨_, h2⟩ | ⟨ref, h1, h2⟩
  · simp only [Outcome.ok.injEq] at h2; exact absurd h2 hne
  · rcases h2 with ⟨h2, _⟩ | ⟨traj', h2, _, h3, h4⟩
    · simp at h2
    · simp only [Outcome.ok.injEq] at h2
      subst h2
      obtain ⟨ha, hb, hc⟩ := findClosestTol_some _ _ _ _ h1
      exact ⟨ref, ha, hc, hb, h3, h4⟩

/-- The defect: when a sample is close enough to the reference, the end of the buffer is dereferenced exactly when no
sample lies half a span after the reference sample. -/
theorem reconstruct_past_end_iff (e : IntegEnv K V P) (he : e.Ok) (fuel : Nat) (b : Buf K V) (hb : AMap.Sorted b.ang)
    (half : K) (r : Outcome (AMap K P)) (h : reconstruct e fuel b half = some r) :
    r = .ub ↔ ∃ ref, findClosestTol b.ang b.refTime b.tol = some ref ∧ ∀ s ∈ b.ang, s.1 - ref < half := by
  rcases reconstruct_spec e he fuel b hb half r h with ⟨h1, h2⟩ | ⟨ref, h1, h2⟩
  · simp [h1, h2]
  · rw [h1]
    rcases h2 with ⟨h2, h3⟩ | ⟨traj, h2, ⟨x, hx, h3⟩, _⟩
    · simpa [h2] using h3
    · rw [h2]
      simp only [reduceCtorEq, Option.some.injEq, exists_eq_left', false_iff, not_forall]
      exact ⟨x, hx, by linarith⟩

/-- With one and the same rate in all samples, every pose is the rate integrated from the reference, if cutting the
gaps into steps leaves no remainder too small to be integrated. -/
theorem reconstruct_constant_rate_partial (e : IntegEnv K V P) (he : e.Ok) (w : V) (ha : e.Additive w) (fuel : Nat)
    (b : Buf K V) (hb : AMap.Sorted b.ang) (half : K) (traj : AMap K P) (hw : ∀ s ∈ b.ang, s.2 = w)
    (hnt : b.ang.IsChain fun s s' => NoTiny e (s'.1 - s.1)) (h : reconstruct e fuel b half = some (.ok traj)) :
    ∀ κ p, AMap.get traj κ = some p → p = e.integ e.one w κ :=
  reconstruct_exact e he w ha fuel b hb half traj hw hnt h

/-- rotations about one axis, by their angle; the two constants scaled up -/
def envQ : IntegEnv Rat Rat Rat := ⟨0, fun p w dt => p + w * dt, 1/10, 1/10000⟩

example : envQ.Ok ∧ ∀ w, envQ.Additive w := by
  refine ⟨by unfold IntegEnv.Ok; decide +kernel, fun w => ⟨fun p a b => ?_, fun p => ?_⟩⟩
  · show p + w * a + w * b = p + w * (a + b); ring
  · show p + w * 0 = p; ring

/-- A run that succeeds: samples at -0.2, 0, 0.2; half span 0.15. -/
def bufOk : Buf Rat Rat := ⟨1, 1/100, [], [(-1/5, 2), (0, 2), (1/5, 2)], 1/200⟩
example : AMap.Sorted bufOk.ang ∧ Spaced envQ.eps bufOk.ang ∧
    reconstruct envQ 10 bufOk (15/100) = some (.ok [(-1/5, -2/5), (-1/10, -1/5), (0, 0), (1/10, 1/5), (1/5, 2/5)]) := by
  refine ⟨?_, ?_, ?_⟩
  · unfold AMap.Sorted; decide +kernel
  · unfold Spaced; decide +kernel
  · decide +kernel
example : bufOk.ang.IsChain fun s s' => NoTiny envQ (s'.1 - s.1) := by
  have key : ∀ g : Rat, g = 1/5 → NoTiny envQ g := by
    rintro _ rfl n hn
    simp only [envQ] at hn ⊢
    match n with
    | 0 => norm_num
    | 1 => norm_num
    | n + 2 => exfalso; push_cast at hn; have : (0 : Rat) ≤ n := Nat.cast_nonneg n; linarith
  simp only [bufOk, List.isChain_cons_cons, List.isChain_singleton, and_true]
  exact ⟨key _ (by norm_num), key _ (by norm_num)⟩

/-- The usual situation of live data, the newest sample being the reference: the end is dereferenced. -/
theorem reconstruct_past_end_example :
    reconstruct envQ 10 (⟨1, 1/100, [], [(-1/5, 2), (0, 2)], 0⟩ : Buf Rat Rat) (15/100) = some .ub := by
  decide +kernel

/-! ### C40 -/
variable [FloorRing K]

/-- What comes back in general, `q` being the rounding of a vector by its text form: every printed time holds the value of
the latest sample printed so. The receiver's former contents do not matter. -/
theorem velocity_yaml_result (fmt : V → T) (parse : T → Outcome V) (q : V → V) (hp : ∀ v, parse (fmt v) = .ok (q v))
    (b b0 : Buf K V) (hl : AMap.Sorted b.lin) (ha : AMap.Sorted b.ang) :
    ∃ r, Vel.fromYAML parse b0 (Vel.toYAML fmt b) = .ok r ∧
      r.maxWindow = b.maxWindow ∧ r.tol = b.tol ∧ r.refTime = b.refTime ∧
      (∀ κ w, (κ, w) ∈ r.lin ↔ ∃ t v, (t, v) ∈ b.lin ∧ w = q v ∧ printed t = κ ∧
        ∀ s ∈ b.lin, printed s.1 = κ → s.1 ≤ t) ∧
      (∀ κ w, (κ, w) ∈ r.ang ↔ ∃ t v, (t, v) ∈ b.ang ∧ w = q v ∧ printed t = κ ∧
        ∀ s ∈ b.ang, printed s.1 = κ → s.1 ≤ t) := by
  obtain ⟨l, hl1, _, hl3⟩ := restore_dump fmt parse q hp b.lin hl
  obtain ⟨a, ha1, _, ha3⟩ := restore_dump fmt parse q hp b.ang ha
  obtain ⟨r, hr, e1, e2, e3, e4, e5⟩ : ∃ r, Vel.fromYAML parse b0 (Vel.toYAML fmt b) = .ok r ∧
      r.maxWindow = b.maxWindow ∧ r.tol = b.tol ∧ r.refTime = b.refTime ∧ r.lin = l ∧ r.ang = a := by
    simp only [Vel.fromYAML, Vel.toYAML, hl1, ha1, Outcome.bind, loadParams]
    exact ⟨_, rfl, rfl, rfl, rfl, rfl, rfl⟩
  exact ⟨r, hr, e1, e2, e3, by rw [e4]; exact hl3, by rw [e5]; exact ha3⟩

/-- Samples at whole nanoseconds whose vectors survive their text form come back exactly, into any buffer. -/
theorem velocity_yaml_roundtrip_partial (fmt : V → T) (parse : T → Outcome V) (q : V → V)
    (hp : ∀ v, parse (fmt v) = .ok (q v)) (b b0 : Buf K V) (hl : AMap.Sorted b.lin) (ha : AMap.Sorted b.ang)
    (hw : ∀ s, s ∈ b.lin ∨ s ∈ b.ang → WholeNs s.1 ∧ q s.2 = s.2) :
    Vel.fromYAML parse b0 (Vel.toYAML fmt b) = .ok b := by
  simp only [Vel.fromYAML, Vel.toYAML, Outcome.bind, loadParams,
    restore_dump_whole fmt parse q hp b.lin hl fun e he => hw e (.inl he),
    restore_dump_whole fmt parse q hp b.ang ha fun e he => hw e (.inr he)]

/-- The state of any history on a fresh buffer is sorted, as the theorems above ask. -/
theorem velocity_history_sorted (b : Buf K V) (hl : b.lin = []) (ha : b.ang = []) (ops : List (Op K V)) :
    AMap.Sorted (b.run ops).lin ∧ AMap.Sorted (b.run ops).ang :=
  run_sorted b ops (by rw [hl, ha]; exact ⟨List.Pairwise.nil, List.Pairwise.nil⟩)

/-- The full claim fails: two samples less than a nanosecond apart become one. -/
theorem velocity_yaml_loses_samples :
    ∃ b : Buf Rat Nat, AMap.Sorted b.ang ∧ b.ang.length = 2 ∧ ∀ b0,
      ∃ r, Vel.fromYAML (T := Nat) (fun v => .ok v) b0 (Vel.toYAML (fun v => v) b) = .ok r ∧ r.ang.length = 1 := by
  refine ⟨⟨1, 1, [], [(1, 3), (1 + 1 / 10 ^ 10, 4)], 0⟩, ?_, rfl, fun b0 => ⟨⟨1, 1, [], [(1, 4)], 0⟩, ?_, rfl⟩⟩
  · unfold AMap.Sorted; decide +kernel
  · have hl : dump (fun v : Nat => v) ([(1, 3), (1 + 1 / 10 ^ 10, 4)] : AMap Rat Nat) = some [(10 ^ 9, 4)] := by
      decide +kernel
    have h0 : dump (fun v : Nat => v) ([] : AMap Rat Nat) = none := rfl
    simp only [Vel.fromYAML, Vel.toYAML, hl, h0, loadParams, restore, restoreLoop, Outcome.bind]
    have : AMap.set ([] : AMap Rat Nat) (stampOf (10 ^ 9)) 4 = [(1, 4)] := by decide +kernel
    rw [this]

/-- A document without a section leaves the receiver's part as it was. -/
theorem velocity_yaml_missing_sections (parse : T → Outcome V) (b0 : Buf K V) (d : YDoc K T) :
    (d.state = none → d.params = none → Vel.fromYAML parse b0 d = .ok b0) ∧
    (d.state = none → ∀ p, d.params = some p →
      Vel.fromYAML parse b0 d = .ok { b0 with maxWindow := p.1, tol := p.2 }) := by
  constructor
  · intro h1 h2; simp [Vel.fromYAML, h1, h2, loadParams]
  · intro h1 p h2; simp [Vel.fromYAML, h1, h2, loadParams]

example : WholeNs (5/4 : Rat) ∧ WholeNs (0.123456789 : Rat) :=
  ⟨⟨1250000000, by norm_num⟩, ⟨123456789, by norm_num⟩⟩
end Props
end Verif
