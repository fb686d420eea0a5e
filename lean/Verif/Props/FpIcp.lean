import Verif.Lemmas.IcpThread
import Verif.Lemmas.FpNorm
import Verif.Spec.FpIcp
import Verif.Spec.Fp
/-
C104: an ICP run in the arithmetic of the machine.  The theorems `icp_machine_*` assume nothing at all about the numbers: any type with any
comparison, so `double` with its not-a-number in particular; the theorems `icp_float_*` are about machine numbers.
-/
namespace Verif.Props
open Verif Verif.Spec Verif.Fp

section any
variable {K Pose MS : Type} [LT K] [DecidableLT K] [Zero K] [Add K] [Mul K] [Div K] [Neg K]

theorem keepMin_small (thr a b : K) : absK (keepMin a b) < thr ↔ StepSmall thr a (some b) := by
  unfold keepMin StepSmall
  by_cases h : b < a <;> simp [h]

theorem stallRuleM (ops : PoseOps K Pose) (p : IcpParams K) (init : Pose) : Lemmas.StallRule ops p init (BarelyMovedM ops p init) where
  rule h cur := by
    unfold isStalled stepNorms BarelyMovedM stepSize
    by_cases hl : h.length = 0
    · simp [hl, StepSmall]
    · simp only [hl, if_false, Bool.and_eq_true, decide_eq_true_eq, keepMin_small]
  app h e k hk c := by
    unfold BarelyMovedM
    rw [Lemmas.poseBefore_append_lt init h e k hk, Lemmas.poseBefore_append_lt init h e (k - 1) (by omega)]

/-- Whatever the numbers are: the run does at most `maxIterations` iterations; the reason is `MaxIterations` exactly if that many were done,
otherwise it is that of the one decision to stop, taken at the last iteration, and the history is what happened. -/
theorem icp_machine_stops (ops : PoseOps K Pose) (env : IcpEnv K Pose MS) (p : IcpParams K) (init : Pose) (one : K) (wantsLog : Bool)
    (r : IcpResult K Pose) (h : align ops env p init one wantsLog = .ok r) :
    GenuineBy (BarelyMovedM ops p init) env p init r.trace ∧
    r.trace.length ≤ p.maxIterations ∧ r.nIterations ≤ p.maxIterations ∧
    (r.reason = .maxIterations ↔ r.nIterations = p.maxIterations) ∧ r.reason ≠ .undefined ∧
    (r.reason ≠ .maxIterations →
      r.trace.length = r.nIterations + 1 ∧ ∃ e, r.trace.getLast? = some e ∧ e.stop = some r.reason) ∧
    (r.reason = .maxIterations → r.trace.length = p.maxIterations ∧ ∀ e ∈ r.trace, e.stop = none) := by
  obtain ⟨hg, -, -, -, hcase⟩ := Lemmas.align_spec ops env p init one wantsLog (stallRuleM ops p init) r h
  refine ⟨hg, ?_⟩
  rcases hcase with ⟨hr, hn, hl, hall, -⟩ | ⟨hn, hl, e, he, hs, -⟩
  · refine ⟨by omega, by omega, by simp [hr, hn], by simp [hr], by simp [hr], fun _ => ⟨hl, hall⟩⟩
  · have hk : r.trace[r.trace.length - 1]? = some e := by
      rw [← List.getLast?_eq_getElem?]; exact he
    have hno := hg.noOther _ e hk
    rw [hs] at hno
    have h1 : r.reason ≠ .undefined := fun hc => hno.1 (by rw [hc])
    have h2 : r.reason ≠ .maxIterations := fun hc => hno.2 (by rw [hc])
    refine ⟨by omega, by omega, ?_, h1, fun _ => ⟨hl, e, he, hs⟩, fun hc => absurd hc h2⟩
    constructor
    · intro hc; exact absurd hc h2
    · intro hc; omega

/-- Whatever the numbers are: the pairings returned are those of the last matcher run; unless a solver failed, the pose returned is the
last solution (the initial guess if there was none); the quality is that of this pose and these pairings; the log has the iterations asked for; and
the solvers were called with the right data. -/
theorem icp_machine_result (ops : PoseOps K Pose) (env : IcpEnv K Pose MS) (p : IcpParams K) (init : Pose) (one : K) (wantsLog : Bool)
    (r : IcpResult K Pose) (h : align ops env p init one wantsLog = .ok r) :
    r.pairings = lastPairings r.trace ∧
    (r.reason ≠ .solverError → (⟨r.pose, r.scale⟩ : Sol K Pose) = (lastSolved r.trace).getD ⟨init, one⟩) ∧
    evaluateQuality env.quality r.nIterations true r.pose r.pairings = .ok r.quality ∧
    (r.log = if wantsLog = true ∨ p.generateDebugFiles = true then some (loggedIterations p r.trace) else none) ∧
    ∃ fin, SolversCalled ops env init one r.trace fin := by
  have hc := Lemmas.align_called ops env p init one wantsLog (stallRuleM ops p init) r h
  obtain ⟨hg, hp, hlog, hq, hcase⟩ := Lemmas.align_spec ops env p init one wantsLog (stallRuleM ops p init) r h
  refine ⟨hp, fun hne => ?_, hq, by simpa using hlog, hc⟩
  rcases hcase with ⟨-, -, -, -, hsol⟩ | ⟨-, hl, e, he, hs, hsol | ⟨b, hb⟩⟩
  · exact hsol
  · exact hsol.2
  · have hk : r.trace[r.trace.length - 1]? = some e := by
      rw [← List.getLast?_eq_getElem?]; exact he
    cases b with
    | false =>
      exact absurd ((hg.solverError _ e hk).mpr ⟨_, hb⟩) (by rw [hs]; simpa using hne)
    | true =>
      obtain ⟨l, hl'⟩ := List.getLast?_eq_some_iff.mp he
      rw [hl', Lemmas.lastSolved_append, hb]; rfl

end any

section machine
variable {Pose MS : Type} (D : Arith)

theorem num_lt_nan_right (a : D.Num) : ¬ a < D.num .nan := by
  intro h
  have : Fl.lt a .nan = true := h
  cases a <;> simp [Fl.lt] at this

theorem num_lt_nan_left (a : D.Num) : ¬ D.num .nan < a := by
  intro h
  have : Fl.lt .nan a = true := h
  simp [Fl.lt] at this

theorem absK_nan : absK (D.num .nan) = D.num .nan := by
  unfold absK
  rw [if_neg (num_lt_nan_left D _)]

/-- In machine numbers that are not negative and not "not a number", the stall test is what C03 says: small with respect to the last pose or to the one
before, in translation and in rotation each. -/
theorem icp_float_stall (ops : PoseOps D.Num Pose) (p : IcpParams D.Num) (init : Pose) (h : List (IterEvent D.Num Pose)) (k : Nat) (cur : Pose)
    (hn : ∀ d, Le (.fin 0) (ops.logNorms d).1 ∧ Le (.fin 0) (ops.logNorms d).2) :
    BarelyMovedM ops p init h k cur ↔ BarelyMoved ops p init h k cur := by
  have key : ∀ (t a b : D.Num), Le (.fin 0) a → Le (.fin 0) b → (StepSmall t a (some b) ↔ absK a < t ∨ absK b < t) := by
    intro t a b ha hb
    have e1 : absK a = a := by
      unfold absK
      rw [if_neg]
      intro hc
      have hc' : Fl.lt a (.fin 0) = true := hc
      have ha' : Fl.le (.fin 0) a = true := ha
      cases a <;> simp [Fl.lt, Fl.le] at hc' ha'
      linarith
    have e2 : absK b = b := by
      unfold absK
      rw [if_neg]
      intro hc
      have hc' : Fl.lt b (.fin 0) = true := hc
      have hb' : Fl.le (.fin 0) b = true := hb
      cases b <;> simp [Fl.lt, Fl.le] at hc' hb'
      linarith
    unfold StepSmall
    simp only [e1, e2]
    have trans : ∀ x y z : D.Num, Le (.fin 0) x → Le (.fin 0) y → x < y → y < z → x < z := by
      intro x y z hx hy h1 h2
      have h1' : Fl.lt x y = true := h1
      have h2' : Fl.lt y z = true := h2
      have : Fl.lt x z = true := by
        cases x <;> cases y <;> cases z <;> simp [Fl.lt] at h1' h2' ⊢
        linarith
      exact this
    have trans' : ∀ x y z : D.Num, Le (.fin 0) x → Le (.fin 0) y → ¬ x < y → x < z → y < z := by
      intro x y z hx hy h1 h2
      have hx' : Fl.le (.fin 0) x = true := hx
      have hy' : Fl.le (.fin 0) y = true := hy
      have h1' : ¬ Fl.lt x y = true := h1
      have h2' : Fl.lt x z = true := h2
      have : Fl.lt y z = true := by
        cases x <;> cases y <;> cases z <;> simp [Fl.lt, Fl.le] at h1' h2' hx' hy' ⊢
        linarith
      exact this
    constructor
    · rintro (⟨-, h⟩ | ⟨-, h⟩)
      · exact .inr h
      · exact .inl h
    · intro h'
      by_cases hba : b < a
      · left
        refine ⟨hba, ?_⟩
        rcases h' with h' | h'
        · exact trans b a t hb ha hba h'
        · exact h'
      · right
        refine ⟨hba, ?_⟩
        rcases h' with h' | h'
        · exact h'
        · exact trans' b a t hb ha hba h'
  unfold BarelyMovedM BarelyMoved SmallT SmallR stepSize
  by_cases hk : k = 0
  · subst hk; simp [StepSmall]
  · simp only [hk, if_false, show 0 < k from by omega, true_and]
    rw [key _ _ _ (hn _).1 (hn _).1, key _ _ _ (hn _).2 (hn _).2]

/-- A solution whose step from the last pose is not a number, in translation or in rotation, never counts as stalled. -/
theorem icp_float_nan_step (ops : PoseOps D.Num Pose) (env : IcpEnv D.Num Pose MS) (p : IcpParams D.Num) (init : Pose) (one : D.Num) (wantsLog : Bool)
    (r : IcpResult D.Num Pose) (h : align ops env p init one wantsLog = .ok r)
    (k : Nat) (e : IterEvent D.Num Pose) (s : Sol D.Num Pose) (hk : r.trace[k]? = some e) (hs : e.solver = some (true, s))
    (hnan : (stepSize ops s.pose (poseBefore init r.trace k)).1 = D.num .nan ∨ (stepSize ops s.pose (poseBefore init r.trace k)).2 = D.num .nan) :
    e.stop ≠ some .stalled := by
  obtain ⟨hg, -⟩ := icp_machine_stops ops env p init one wantsLog r h
  intro hst
  obtain ⟨s', hs', hb⟩ := (hg.stalled k e hk).mp hst
  rw [hs] at hs'
  obtain rfl : s = s' := by simpa using hs'
  have key : ∀ (t : D.Num) (b : Option D.Num), ¬ StepSmall t (D.num .nan) b := by
    intro t b
    cases b with
    | none => simp only [StepSmall, absK_nan]; exact num_lt_nan_left D _
    | some b =>
      simp only [StepSmall, absK_nan]
      rintro (⟨h1, -⟩ | ⟨-, h1⟩)
      · exact num_lt_nan_right D _ h1
      · exact num_lt_nan_left D _ h1
  rcases hnan with hn | hn
  · exact key _ _ (hn ▸ hb.1)
  · exact key _ _ (hn ▸ hb.2)

/-- A quality that is not a number passes every checkpoint, and so does any quality a limit that is not a number. -/
theorem icp_float_nan_checkpoint (env : IcpEnv D.Num Pose MS) (p : IcpParams D.Num) (k : Nat) (pose : Pose) (prs : Pairings D.Num)
    (h : evaluateQuality env.quality k false pose prs = .ok (D.num .nan) ∨ p.qualityCheckpoints.lookup k = some (D.num .nan)) :
    ¬ CheckpointFails env p k pose prs := by
  rintro ⟨q, v, hq, hv, hlt⟩
  rcases h with h | h
  · rw [h] at hv
    obtain rfl := Outcome.ok.inj hv
    exact num_lt_nan_left D _ hlt
  · rw [h] at hq
    obtain rfl : D.num .nan = q := by simpa using hq
    exact num_lt_nan_right D _ hlt

/-- So if all the solvers ever answer are poses a step of not-a-number away, the matchers always find something and nobody asks to stop, all
iterations are done. -/
theorem icp_float_nan_runs_on (ops : PoseOps D.Num Pose) (env : IcpEnv D.Num Pose MS) (p : IcpParams D.Num) (init : Pose) (one : D.Num) (wantsLog : Bool)
    (r : IcpResult D.Num Pose) (h : align ops env p init one wantsLog = .ok r) (hhook : env.hook = none)
    (hall : ∀ (k : Nat) (e : IterEvent D.Num Pose), r.trace[k]? = some e → e.pairings.size ≠ 0 ∧
      ∃ s, e.solver = some (true, s) ∧ (stepSize ops s.pose (poseBefore init r.trace k)).1 = D.num .nan ∧
        (p.qualityCheckpoints.lookup k = none ∨ evaluateQuality env.quality k false s.pose e.pairings = .ok (D.num .nan))) :
    r.reason = .maxIterations ∧ r.nIterations = p.maxIterations := by
  obtain ⟨hg, -, -, hiff, hund, hlast, -⟩ := icp_machine_stops ops env p init one wantsLog r h
  suffices hr : r.reason = .maxIterations from ⟨hr, hiff.mp hr⟩
  by_contra hr
  obtain ⟨hl, e, he, hst⟩ := hlast hr
  have hk : r.trace[r.nIterations]? = some e := by rw [← he, List.getLast?_eq_getElem?, hl]; rfl
  obtain ⟨hsz, s, hs, hnan, hcp⟩ := hall _ e hk
  cases hre : r.reason with
  | undefined => exact hund hre
  | maxIterations => exact hr hre
  | noPairings => exact hsz ((hg.noPairings _ e hk).mp (by rw [hst, hre]))
  | solverError =>
    obtain ⟨s', hs'⟩ := (hg.solverError _ e hk).mp (by rw [hst, hre])
    rw [hs] at hs'; simp at hs'
  | stalled => exact icp_float_nan_step D ops env p init one wantsLog r h _ e s hk hs (.inl hnan) (by rw [hst, hre])
  | qualityCheckpointFailed =>
    obtain ⟨s', hs', -, hf⟩ := (hg.checkpoint _ e hk).mp (by rw [hst, hre])
    rw [hs] at hs'
    obtain rfl : s = s' := by simpa using hs'
    rcases hcp with hcp | hcp
    · obtain ⟨q, v, hq, -⟩ := hf
      rw [hcp] at hq; cases hq
    · exact icp_float_nan_checkpoint D env p _ _ _ (.inl hcp) hf
  | hookRequest =>
    obtain ⟨s', -, -, -, hh, hh', -⟩ := (hg.hook _ e hk).mp (by rw [hst, hre])
    rw [hhook] at hh'; cases hh'

theorem add_nan_right (x : D.Num) : x + D.num .nan = D.num .nan := by
  show D.add x .nan = .nan
  cases x <;> rfl

theorem add_nan_left (x : D.Num) : D.num .nan + x = D.num .nan := by
  show D.add .nan x = .nan
  cases x <;> rfl

theorem mul_nan_right (x : D.Num) : x * D.num .nan = D.num .nan := by
  show D.mul x .nan = .nan
  cases x <;> rfl

theorem loop_nan (it : Nat) (fin : Bool) (pose : Pose) (prs : Pairings D.Num) :
    ∀ (evs : List (QualEval D.Num Pose)) (sW sE v : D.Num),
      (∀ e ∈ evs, ∃ q, e.eval it fin pose prs = .ok (q, false)) →
      (sE = D.num .nan ∨ ∃ e ∈ evs, e.eval it fin pose prs = .ok (D.num .nan, false)) →
      evaluateQualityLoop it fin pose prs evs sW sE = .ok v → v = D.num .nan
  | [], sW, sE, v, _, hn, h => by
    simp only [evaluateQualityLoop, Outcome.bind_def, Outcome.pure_def, Outcome.bind_eq_ok, Outcome.assert_eq_ok, exists_const] at h
    obtain ⟨-, h⟩ := h
    have hv := Outcome.ok.inj h
    rcases hn with hn | ⟨e, he, -⟩
    · rw [← hv, hn]
      show D.div .nan sW = .nan
      cases sW <;> rfl
    · cases he
  | e :: evs, sW, sE, v, hq, hn, h => by
    simp only [evaluateQualityLoop, Outcome.bind_def, Outcome.pure_def, Outcome.bind_eq_ok, Outcome.assert_eq_ok, exists_const] at h
    obtain ⟨-, r, hr, h⟩ := h
    obtain ⟨q, hqe⟩ := hq e (List.mem_cons_self ..)
    rw [hqe] at hr
    obtain rfl := Outcome.ok.inj hr
    simp only [Bool.false_eq_true, if_false] at h
    refine loop_nan it fin pose prs evs _ _ v (fun e' he' => hq e' (List.mem_cons_of_mem _ he')) ?_ h
    rcases hn with hn | ⟨e', he', hne⟩
    · left; rw [hn, add_nan_left]
    · rcases List.mem_cons.mp he' with rfl | he'
      · left
        rw [hqe] at hne
        have : q = D.num .nan := congrArg Prod.fst (Outcome.ok.inj hne)
        rw [this, mul_nan_right, add_nan_right]
      · exact .inr ⟨e', he', hne⟩

/-- One evaluator whose answer is not a number makes the quality not a number (unless some evaluator discards the registration). -/
theorem icp_float_nan_quality (evs : List (QualEval D.Num Pose)) (it : Nat) (fin : Bool) (pose : Pose) (prs : Pairings D.Num)
    (hq : ∀ e ∈ evs, ∃ q, e.eval it fin pose prs = .ok (q, false))
    (hn : ∃ e ∈ evs, e.eval it fin pose prs = .ok (D.num .nan, false)) (v : D.Num)
    (h : evaluateQuality evs it fin pose prs = .ok v) : v = D.num .nan := by
  simp only [evaluateQuality, Outcome.bind_def, Outcome.bind_eq_ok, Outcome.assert_eq_ok, exists_const] at h
  exact loop_nan D it fin pose prs evs _ _ v hq (.inr hn) h.2

end machine

/-! ### a run -/

/-- toy poses in `double`: (translation, rotation) -/
def fpOps : PoseOps binary64.Num (Fl × Fl) where
  sub a b := (binary64.sub a.1 b.1, binary64.sub a.2 b.2)
  tnorm a := absK (K := binary64.Num) a.1
  logNorms a := (absK (K := binary64.Num) a.1, absK (K := binary64.Num) a.2)
  ident := (.fin 0, .fin 0)

/-- a solver that answers one and the same pose -/
def fpEnv (answer : Fl × Fl) : IcpEnv binary64.Num (Fl × Fl) Unit :=
  { matchers := [{ impl := fun _ _ ms out => .ok (true, ms, { out with pt2pt := [⟨0, 0, ⟨0, 0, 0⟩, ⟨0, 0, 0⟩, 0⟩], potential := 1 }) }],
    solvers := [{ ident := 0, untilCorr := binary64.num (.fin 0), impl := fun _ _ _ => .ok (true, ⟨answer, binary64.num (.fin 1)⟩) }],
    quality := [⟨binary64.num (.fin 1), fun _ _ _ _ => .ok (binary64.num (.fin 1), false)⟩], hook := none, freshMS := () }

def fpIcpP : IcpParams binary64.Num := { maxIterations := 5, minAbsStepTrans := binary64.num (.fin 1), minAbsStepRot := binary64.num (.fin 1) }

/-- A solver that answers not-a-number: all iterations are done, and that pose is returned with the best quality. -/
theorem icp_float_nan_returned :
    ∃ r, align fpOps (fpEnv (.nan, .fin 0)) fpIcpP (.fin 0, .fin 0) (binary64.num (.fin 1)) false = .ok r ∧
      r.reason = .maxIterations ∧ r.nIterations = 5 ∧ r.pose = (.nan, .fin 0) ∧ binary64.val r.quality = .fin 1 :=
  Outcome.sat_iff.mp (by decide +kernel)

/-- a run that ends for its own reasons -/
example : ∃ r, align fpOps (fpEnv (.fin 7, .fin 0)) fpIcpP (.fin 0, .fin 0) (binary64.num (.fin 1)) false = .ok r ∧
      r.reason = .stalled ∧ r.nIterations = 1 :=
  Outcome.sat_iff.mp (by decide +kernel)

end Verif.Props
