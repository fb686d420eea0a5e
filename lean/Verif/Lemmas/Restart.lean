import Verif.Spec.Restart
import Verif.Lemmas.Icp
/-
Lemmas for C122.
-/
namespace Verif.Lemmas.Restart
open Verif Verif.Spec Verif.Lemmas

section
variable {K Pose MS : Type} [LT K] [DecidableLT K] [Zero K] [Add K] [Mul K] [Div K] [Neg K]

/-- The loop does not look at the limit itself. -/
theorem loop_limit (ops : PoseOps K Pose) (env : IcpEnv K Pose MS) (p : IcpParams K) (M : Nat) (init : Pose) :
    ∀ (n : Nat) (s : LoopState K Pose), icpLoop ops env { p with maxIterations := M } init n s = icpLoop ops env p init n s := by
  intro n
  induction n with
  | zero => intro s; rfl
  | succ n ih =>
    intro s
    have hb : icpBody ops env { p with maxIterations := M } init s = icpBody ops env p init s := rfl
    simp only [icpLoop, hb, ih]

/-- What an iteration leaves alone. -/
theorem body_keeps {ops : PoseOps K Pose} {env : IcpEnv K Pose MS} {p : IcpParams K} {init : Pose} {s s' : LoopState K Pose} {brk : Option Reason}
    (h : icpBody ops env p init s = .ok (s', brk)) : s'.n = s.n ∧ s'.reason = s.reason ∧ ∃ e, s'.trace = s.trace ++ [e] ∧ e.stop = brk := by
  unfold icpBody at h
  obtain ⟨⟨ms, prs⟩, -, h⟩ := Outcome.bind_eq_ok.mp h
  simp only at h
  split at h
  · cases h; exact ⟨rfl, rfl, _, rfl, rfl⟩
  obtain ⟨⟨ok, sol, fin⟩, -, h⟩ := Outcome.bind_eq_ok.mp h
  simp only at h
  split at h
  · cases h; exact ⟨rfl, rfl, _, rfl, rfl⟩
  obtain ⟨log, -, h⟩ := Outcome.bind_eq_ok.mp h
  split at h
  · cases h; exact ⟨rfl, rfl, _, rfl, rfl⟩
  obtain ⟨bad, -, h⟩ := Outcome.bind_eq_ok.mp h
  split at h
  · cases h; exact ⟨rfl, rfl, _, rfl, rfl⟩
  split at h
  · cases h; exact ⟨rfl, rfl, _, rfl, rfl⟩
  · cases h; exact ⟨rfl, rfl, _, rfl, rfl⟩

/-- After an iteration that does not end the loop the last pose is remembered. -/
theorem body_prev {ops : PoseOps K Pose} {env : IcpEnv K Pose MS} {p : IcpParams K} {init : Pose} {s s' : LoopState K Pose}
    (h : icpBody ops env p init s = .ok (s', none)) : s'.prev = s'.sol.pose := by
  unfold icpBody at h
  obtain ⟨⟨ms, prs⟩, -, h⟩ := Outcome.bind_eq_ok.mp h
  simp only at h
  split at h
  · cases h
  obtain ⟨⟨ok, sol, fin⟩, -, h⟩ := Outcome.bind_eq_ok.mp h
  simp only at h
  split at h
  · cases h
  obtain ⟨log, -, h⟩ := Outcome.bind_eq_ok.mp h
  split at h
  · cases h
  obtain ⟨bad, -, h⟩ := Outcome.bind_eq_ok.mp h
  split at h
  · cases h
  split at h
  · cases h
  · cases h; rfl

/-- Without `saveIterationDetails` the log is left as it is. -/
theorem loop_log {ops : PoseOps K Pose} {env : IcpEnv K Pose MS} {p : IcpParams K} {init : Pose} (hd : p.saveIterationDetails = false) :
    ∀ (n : Nat) {s s' : LoopState K Pose}, icpLoop ops env p init n s = .ok s' → s'.log = s.log := by
  have body : ∀ {s s' : LoopState K Pose} {brk : Option Reason}, icpBody ops env p init s = .ok (s', brk) → s'.log = s.log := by
    intro s s' brk h
    unfold icpBody at h
    obtain ⟨⟨ms, prs⟩, -, h⟩ := Outcome.bind_eq_ok.mp h
    simp only at h
    split at h
    · cases h; rfl
    obtain ⟨⟨ok, sol, fin⟩, -, h⟩ := Outcome.bind_eq_ok.mp h
    simp only at h
    split at h
    · cases h; rfl
    obtain ⟨log, hl, h⟩ := Outcome.bind_eq_ok.mp h
    have hl : log = s.log := by
      simp only [saveDetails, hd, Bool.false_and, Bool.false_eq_true, if_false, Outcome.ok.injEq] at hl
      exact hl.symm
    split at h
    · cases h; exact hl
    obtain ⟨bad, -, h⟩ := Outcome.bind_eq_ok.mp h
    split at h
    · cases h; exact hl
    split at h
    · cases h; exact hl
    · cases h; exact hl
  intro n
  induction n with
  | zero => intro s s' h; cases h; rfl
  | succ n ih =>
    intro s s' h
    simp only [icpLoop] at h
    obtain ⟨⟨s1, brk⟩, hb, h⟩ := Outcome.bind_eq_ok.mp h
    cases brk with
    | some r =>
      simp only [Outcome.ok.injEq] at h
      subst h
      have := body hb
      exact this
    | none =>
      have h1 := ih h
      have h2 := body hb
      exact h1.trans h2

theorem loop_counts {ops : PoseOps K Pose} {env : IcpEnv K Pose MS} {p : IcpParams K} {init : Pose} :
    ∀ (n : Nat) {s s' : LoopState K Pose}, icpLoop ops env p init n s = .ok s' →
      s'.n ≤ s.n + n ∧ s'.trace.length ≤ s.trace.length + n ∧ s.trace <+: s'.trace ∧
      (s'.n = s.n + n → s'.reason = s.reason ∧ s'.trace.length = s.trace.length + n ∧ (s.prev = s.sol.pose → s'.prev = s'.sol.pose)) := by
  intro n
  induction n with
  | zero => intro s s' h; cases h; exact ⟨le_rfl, le_rfl, List.prefix_refl _, fun _ => ⟨rfl, rfl, id⟩⟩
  | succ n ih =>
    intro s s' h
    simp only [icpLoop] at h
    obtain ⟨⟨s1, brk⟩, hb, h⟩ := Outcome.bind_eq_ok.mp h
    obtain ⟨h1, h2, e, h3, -⟩ := body_keeps hb
    have h4 : s1.trace.length = s.trace.length + 1 := by rw [h3]; simp
    cases brk with
    | some r =>
      simp only [Outcome.ok.injEq] at h
      subst h
      refine ⟨by simp only [h1]; omega, by simp only [h4]; omega, ?_, fun hc => by simp only [h1] at hc; omega⟩
      simp only [h3]; exact List.prefix_append _ _
    | none =>
      simp only at h
      obtain ⟨i1, i4, i2, i3⟩ := ih h
      simp only at i1 i2 i3 i4
      refine ⟨by omega, by omega, (List.prefix_append s.trace [e]).trans (h3 ▸ i2), fun hc => ?_⟩
      obtain ⟨j1, j2, j3⟩ := i3 (by omega)
      exact ⟨j1.trans h2, by omega, fun _ => j3 (body_prev hb)⟩

theorem loop_reason {ops : PoseOps K Pose} {env : IcpEnv K Pose MS} {p : IcpParams K} {init : Pose} :
    ∀ (n : Nat) {s s' : LoopState K Pose}, s.reason ≠ .maxIterations → icpLoop ops env p init n s = .ok s' → s'.reason ≠ .maxIterations := by
  have body : ∀ {s s' : LoopState K Pose}, icpBody ops env p init s ≠ .ok (s', some .maxIterations) := by
    intro s s' h
    unfold icpBody at h
    obtain ⟨⟨ms, prs⟩, -, h⟩ := Outcome.bind_eq_ok.mp h
    simp only at h
    split at h
    · cases h
    obtain ⟨⟨ok, sol, fin⟩, -, h⟩ := Outcome.bind_eq_ok.mp h
    simp only at h
    split at h
    · cases h
    obtain ⟨log, hl, h⟩ := Outcome.bind_eq_ok.mp h
    split at h
    · cases h
    obtain ⟨bad, -, h⟩ := Outcome.bind_eq_ok.mp h
    split at h
    · cases h
    split at h
    · cases h
    · cases h
  intro n
  induction n with
  | zero => intro s s' hr h; cases h; exact hr
  | succ n ih =>
    intro s s' hr h
    simp only [icpLoop] at h
    obtain ⟨⟨s1, brk⟩, hb, h⟩ := Outcome.bind_eq_ok.mp h
    cases brk with
    | some r =>
      simp only [Outcome.ok.injEq] at h
      subst h
      intro hr'
      simp only at hr'
      subst hr'
      exact body hb
    | none =>
      exact ih (by simp only; rw [(body_keeps hb).2.1]; exact hr) h

/-- Where the loop of `align` starts. -/
def startState (p : IcpParams K) (init : Pose) (one : K) (w : Bool) : LoopState K Pose :=
  { n := 0, sol := ⟨init, one⟩, pairings := {}, prev := init, prev2 := none, lastCorr := none,
    fin := [], log := if w || p.generateDebugFiles then some [] else none, reason := .undefined, trace := [] }

theorem align_ok {ops : PoseOps K Pose} {env : IcpEnv K Pose MS} {p : IcpParams K} {init : Pose} {one : K} {w : Bool} {r : IcpResult K Pose}
    (h : align ops env p init one w = .ok r) :
    ∃ s, (env.matchers ≠ [] ∧ env.solvers ≠ [] ∧ env.quality ≠ []) ∧ (env.globalEmpty = false ∧ env.localEmpty = false) ∧
      icpLoop ops env p init p.maxIterations (startState p init one w) = .ok s ∧
      ∃ q, evaluateQuality env.quality s.n true s.sol.pose s.pairings = .ok q ∧
        (s.log.isSome = true → env.firstMatcherAttached = true ∨ 0 < p.maxIterations) ∧
        r = ⟨s.n, if s.n ≥ p.maxIterations then .maxIterations else s.reason, s.sol.pose, s.sol.scale, s.pairings, q, s.log, s.trace⟩ := by
  unfold align at h
  simp only [Outcome.bind_def, Outcome.bind_eq_ok, Outcome.assert_eq_ok] at h
  obtain ⟨_, h1, _, h2, s, hs, q, hq, h⟩ := h
  split at h
  · cases h
  · rename_i hc
    simp only [Outcome.pure_def, Outcome.ok.injEq] at h
    refine ⟨s, h1, h2, hs, q, hq, fun hl => ?_, h.symm⟩
    by_contra hno
    rw [not_or] at hno
    apply hc
    rw [hl]
    simp [hno.1]
    omega

theorem align_of {ops : PoseOps K Pose} {env : IcpEnv K Pose MS} {p : IcpParams K} {init : Pose} {one : K} {w : Bool} {s : LoopState K Pose} {q : K}
    (a1 : env.matchers ≠ [] ∧ env.solvers ≠ [] ∧ env.quality ≠ []) (a2 : env.globalEmpty = false ∧ env.localEmpty = false)
    (hl : icpLoop ops env p init p.maxIterations (startState p init one w) = .ok s)
    (hq : evaluateQuality env.quality s.n true s.sol.pose s.pairings = .ok q)
    (hlog : s.log.isSome = true → env.firstMatcherAttached = true ∨ 0 < p.maxIterations) :
    align ops env p init one w =
      .ok ⟨s.n, if s.n ≥ p.maxIterations then .maxIterations else s.reason, s.sol.pose, s.sol.scale, s.pairings, q, s.log, s.trace⟩ := by
  unfold align
  simp only [Outcome.bind_def, Outcome.bind_eq_ok, Outcome.assert_eq_ok]
  refine ⟨(), a1, (), a2, s, hl, q, hq, ?_⟩
  rw [if_neg]
  · rfl
  · intro hc
    simp only [Bool.and_eq_true, Bool.not_eq_true', Bool.or_eq_false_iff, decide_eq_false_iff_not] at hc
    rcases hlog hc.1 with h | h
    · rw [h] at hc; exact absurd hc.2.1 (by simp)
    · exact hc.2.2 h

/-- A loop with a larger limit is the loop with the smaller one, and, if that was not left, what follows. -/
theorem loop_split (ops : PoseOps K Pose) (env : IcpEnv K Pose MS) (p : IcpParams K) (init : Pose) (m : Nat) :
    ∀ (n : Nat) (s : LoopState K Pose), icpLoop ops env p init (n + m) s =
      (icpLoop ops env p init n s).bind fun s' => if s'.n = s.n + n then icpLoop ops env p init m s' else .ok s' := by
  intro n
  induction n with
  | zero => intro s; simp [icpLoop, Outcome.bind]
  | succ n ih =>
    intro s
    have e : n + 1 + m = n + m + 1 := by omega
    rw [e]
    simp only [icpLoop]
    cases hb : icpBody ops env p init s with
    | throw => rfl
    | ub => rfl
    | ok x =>
      obtain ⟨s1, brk⟩ := x
      obtain ⟨h1, -⟩ := body_keeps hb
      cases brk with
      | some r =>
        simp only [Outcome.bind]
        rw [if_neg (by simp only [h1]; omega)]
      | none =>
        simp only [Outcome.bind]
        rw [ih]
        cases icpLoop ops env p init n { s1 with n := s.n + 1 } with
        | throw => rfl
        | ub => rfl
        | ok s2 =>
          simp only [Outcome.bind]
          have : s.n + 1 + n = s.n + (n + 1) := by omega
          rw [this]

end

section
variable {K Pose MS : Type} [Field K] [LinearOrder K] [IsStrictOrderedRing K]

/-- The state of the second run, started at the pose of the first after `N` iterations, and that of the long run, at the same point. -/
structure Alike (N : Nat) (t0 : List (IterEvent K Pose)) (s2 s : LoopState K Pose) : Prop where
  n : s.n = N + s2.n
  pose : s.sol.pose = s2.sol.pose
  prev : s.prev = s2.prev
  log : s.log = s2.log
  reason : s.reason = s2.reason
  trace : ∃ t, s.trace = t0 ++ t ∧ List.Forall₂ (SameEvent N) s2.trace t

variable {ops : PoseOps K Pose} {env : IcpEnv K Pose MS} {p : IcpParams K} {init init2 : Pose} {N : Nat} {t0 : List (IterEvent K Pose)}

omit [IsStrictOrderedRing K] in
/-- One iteration, if both runs decide alike whether they stall. -/
theorem body_alike (hm : Memoryless ops env) (hd : p.saveIterationDetails = false) (hc : p.qualityCheckpoints = []) {s2 s s' : LoopState K Pose}
    {brk : Option Reason} (ha : Alike N t0 s2 s)
    (hst : ∀ sol, isStalled p (stepNorms ops sol s.prev s.prev2) = isStalled p (stepNorms ops sol s2.prev s2.prev2) ∨
      (brk ≠ some .stalled ∧ (isStalled p (stepNorms ops sol s2.prev s2.prev2) = true → isStalled p (stepNorms ops sol s.prev s.prev2) = true)))
    (h : icpBody ops env p init s = .ok (s', brk)) :
    ∃ s2', icpBody ops env p init2 s2 = .ok (s2', brk) ∧ Alike N t0 s2' s' ∧ s'.pairings = s2'.pairings ∧
      (brk = none → s'.prev2 = s2'.prev2) ∧ (s'.sol.scale = s2'.sol.scale ∨ (brk = some .noPairings ∧ s'.sol = s.sol ∧ s2'.sol = s2.sol)) := by
  obtain ⟨t, ht, hts⟩ := ha.trace
  have snoc : ∀ {a b : IterEvent K Pose} {u u2 : List (IterEvent K Pose)}, u = s.trace ++ [b] → u2 = s2.trace ++ [a] → SameEvent N a b →
      ∃ t, u = t0 ++ t ∧ List.Forall₂ (SameEvent N) u2 t := by
    intro a b u u2 hu hu2 hab
    refine ⟨t ++ [b], by rw [hu, ht, List.append_assoc], ?_⟩
    rw [hu2]
    exact List.rel_append hts (List.Forall₂.cons hab .nil)
  unfold icpBody at h ⊢
  obtain ⟨⟨ms, prs⟩, hrm, h⟩ := Outcome.bind_eq_ok.mp h
  rw [hm.matchers s.n s2.n, ha.pose] at hrm
  rw [hrm]
  simp only [Outcome.bind] at h ⊢
  by_cases he : prs.isEmpty = true
  · rw [if_pos he] at h ⊢
    cases h
    exact ⟨_, rfl, ⟨ha.n, ha.pose, ha.prev, ha.log, ha.reason,
      snoc rfl rfl ⟨ha.n, ha.pose, rfl, rfl, rfl⟩⟩, rfl, (fun hb => nomatch hb), Or.inr ⟨rfl, rfl, rfl⟩⟩
  rw [if_neg he] at h ⊢
  obtain ⟨a, hsa⟩ := hm.solvers prs s2.sol.pose
  rw [hsa _ _ _ (by simp [ha.pose])] at h
  rw [hsa _ _ _ rfl]
  cases a with
  | throw => simp [Outcome.bind] at h
  | ub => simp [Outcome.bind] at h
  | ok x =>
  obtain ⟨ok, sol⟩ := x
  simp only [Outcome.bind] at h ⊢
  by_cases hok : (!ok) = true
  · rw [if_pos hok] at h ⊢
    cases h
    exact ⟨_, rfl, ⟨ha.n, rfl, ha.prev, ha.log, ha.reason,
      snoc rfl rfl ⟨ha.n, ha.pose, rfl, rfl, rfl⟩⟩, rfl, (fun hb => nomatch hb), Or.inl rfl⟩
  rw [if_neg hok] at h ⊢
  have hsd : ∀ n st T q l, saveDetails p n st T q l = (.ok l : Outcome (Option (List (Nat × Pose × Pairings K)))) := by
    intro n st T q l; simp [saveDetails, hd]
  have hck : ∀ n T q, checkpointFails env p n T q = .ok false := by intro n T q; simp [checkpointFails, hc]
  have hhk : ∀ n q sl, hookStops env n q sl = false := by intro n q sl; simp [hookStops, hm.hook]
  simp only [hsd, hck, hhk, Bool.false_eq_true, if_false] at h ⊢
  by_cases hsn : isStalled p (stepNorms ops sol.pose s.prev s.prev2) = true
  · rw [if_pos hsn] at h
    cases h
    have h2 : isStalled p (stepNorms ops sol.pose s2.prev s2.prev2) = true := by
      rcases hst sol.pose with h1 | ⟨h1, -⟩
      · rw [← h1]; exact hsn
      · exact absurd rfl h1
    rw [if_pos h2]
    exact ⟨_, rfl, ⟨ha.n, rfl, ha.prev, ha.log, ha.reason,
      snoc rfl rfl ⟨ha.n, ha.pose, rfl, rfl, rfl⟩⟩, rfl, (fun hb => nomatch hb), Or.inl rfl⟩
  · rw [if_neg hsn] at h
    cases h
    have h2 : ¬ isStalled p (stepNorms ops sol.pose s2.prev s2.prev2) = true := by
      rcases hst sol.pose with h1 | ⟨-, h1⟩
      · rw [← h1]; exact hsn
      · exact fun h => hsn (h1 h)
    rw [if_neg h2]
    exact ⟨_, rfl, ⟨ha.n, rfl, rfl, ha.log, ha.reason,
      snoc rfl rfl ⟨ha.n, ha.pose, rfl, rfl, rfl⟩⟩, rfl, (fun _ => by simp only [ha.prev]), Or.inl rfl⟩

/-- The loop, once both remember the same pose before the last. -/
theorem loop_alike (hm : Memoryless ops env) (hd : p.saveIterationDetails = false) (hc : p.qualityCheckpoints = []) :
    ∀ (m : Nat) {s2 s s' : LoopState K Pose}, Alike N t0 s2 s → s.prev2 = s2.prev2 → s.pairings = s2.pairings → s.sol.scale = s2.sol.scale →
      icpLoop ops env p init m s = .ok s' →
      ∃ s2', icpLoop ops env p init2 m s2 = .ok s2' ∧ Alike N t0 s2' s' ∧ s'.pairings = s2'.pairings ∧ s'.sol.scale = s2'.sol.scale := by
  intro m
  induction m with
  | zero => intro s2 s s' ha _ hp hs h; cases h; exact ⟨s2, rfl, ha, hp, hs⟩
  | succ m ih =>
    intro s2 s s' ha h2 hp hs h
    simp only [icpLoop] at h ⊢
    obtain ⟨⟨s1, brk⟩, hb, h⟩ := Outcome.bind_eq_ok.mp h
    obtain ⟨s21, hb2, ha1, hp1, hpr, hsc0⟩ := body_alike (init2 := init2) hm hd hc ha (fun sol => Or.inl (by rw [ha.prev, h2])) hb
    have hsc : s1.sol.scale = s21.sol.scale := by
      rcases hsc0 with hsc | ⟨-, e1, e2⟩
      · exact hsc
      · rw [e1, e2]; exact hs
    rw [hb2]
    simp only [Outcome.bind]
    obtain ⟨c1, -⟩ := body_keeps hb
    obtain ⟨c2, -⟩ := body_keeps hb2
    cases brk with
    | some r =>
      simp only [Outcome.ok.injEq] at h
      subst h
      exact ⟨_, rfl, ⟨ha1.n, ha1.pose, ha1.prev, ha1.log, rfl, ha1.trace⟩, hp1, hsc⟩
    | none =>
      simp only at h ⊢
      have hA : Alike N t0 { s21 with n := s2.n + 1 } { s1 with n := s.n + 1 } :=
        ⟨(show s.n + 1 = N + (s2.n + 1) by have := ha.n; omega), ha1.pose, ha1.prev, ha1.log, ha1.reason, ha1.trace⟩
      exact ih hA (hpr rfl) hp1 hsc h

omit [IsStrictOrderedRing K] in
theorem quality_alike {evs : List (QualEval K Pose)} (h : ∀ e ∈ evs, ∀ i j fin T prs, e.eval i fin T prs = e.eval j fin T prs) (i j : Nat) (fin : Bool)
    (T : Pose) (prs : Pairings K) : evaluateQuality evs i fin T prs = evaluateQuality evs j fin T prs := by
  have key : ∀ (l : List (QualEval K Pose)), (∀ e ∈ l, ∀ i j fin T prs, e.eval i fin T prs = e.eval j fin T prs) → ∀ a b,
      evaluateQualityLoop i fin T prs l a b = evaluateQualityLoop j fin T prs l a b := by
    intro l
    induction l with
    | nil => intro _ a b; rfl
    | cons e l ih =>
      intro hl a b
      simp only [evaluateQualityLoop]
      rw [hl e (by simp) i j]
      simp only [ih (fun e he => hl e (List.mem_cons_of_mem _ he))]
  simp only [evaluateQuality, key evs h]

/-- Not stalled with two poses to look back at, not stalled with one. -/
theorem stall_less (hops : ∀ d, 0 ≤ (ops.logNorms d).1 ∧ 0 ≤ (ops.logNorms d).2) (cur prev : Pose) (q : Option Pose)
    (h : isStalled p (stepNorms ops cur prev none) = true) : isStalled p (stepNorms ops cur prev q) = true := by
  cases q with
  | none => exact h
  | some q =>
    obtain ⟨h1, h2⟩ := Bool.and_eq_true_iff.mp h
    exact Bool.and_eq_true_iff.mpr ⟨decide_eq_true ((keepMin_abs_lt (hops _).1 (hops _).1).mpr (Or.inl (of_decide_eq_true h1))),
      decide_eq_true ((keepMin_abs_lt (hops _).2 (hops _).2).mpr (Or.inl (of_decide_eq_true h2)))⟩

end
end Verif.Lemmas.Restart
