import Verif.Lemmas.IcpThread
/-
Properties C01–C07 on `ICP::align`, `ICP::evaluate_quality`, `ICP::run_solvers`.

Throughout, `r.trace` is the history of the run (one `IterEvent` per iteration started) and
`Spec.Genuine` says that this history is what really happened: matchers called on the right pose, solvers
called on their pairings, stop decisions exactly as stated.
`NormsNonneg` is the only assumption on pose arithmetic: norms are not negative.
-/
namespace Verif.Props
open Verif Verif.Spec

variable {K Pose MS : Type} [Field K] [LinearOrder K] [IsStrictOrderedRing K]

/-- The two norms computed from a pose difference are non-negative (they are Euclidean norms). -/
def NormsNonneg (ops : PoseOps K Pose) : Prop := ∀ d, 0 ≤ (ops.logNorms d).1 ∧ 0 ≤ (ops.logNorms d).2

/-! ### C01 -/

/-- C01: the run does at most `maxIterations` iterations (matcher runs), `nIterations` does not exceed
`maxIterations`, the reason is `MaxIterations` iff `nIterations = maxIterations`, and otherwise it is the
reason of the one `break` taken, at the last iteration; the reason is never left undefined. -/
theorem align_stops_and_reports (ops : PoseOps K Pose) (hops : NormsNonneg ops) (env : IcpEnv K Pose MS)
    (p : IcpParams K) (init : Pose) (one : K) (wantsLog : Bool) (r : IcpResult K Pose)
    (h : align ops env p init one wantsLog = .ok r) :
    Genuine ops env p init r.trace ∧
    r.trace.length ≤ p.maxIterations ∧
    r.nIterations ≤ p.maxIterations ∧
    (r.reason = .maxIterations ↔ r.nIterations = p.maxIterations) ∧
    r.reason ≠ .undefined ∧
    (r.reason ≠ .maxIterations →
      r.trace.length = r.nIterations + 1 ∧ ∃ e, r.trace.getLast? = some e ∧ e.stop = some r.reason) ∧
    (r.reason = .maxIterations → r.trace.length = p.maxIterations ∧ ∀ e ∈ r.trace, e.stop = none) := by
  obtain ⟨hg, -, -, -, hcase⟩ := Lemmas.align_spec ops env p init one wantsLog (Lemmas.stallRule ops p init hops) r h
  refine ⟨hg, ?_⟩
  rcases hcase with ⟨hr, hn, hl, hall, -⟩ | ⟨hn, hl, e, he, hs, -⟩
  · refine ⟨by omega, by omega, by simp [hr, hn], by simp [hr], by simp [hr], fun _ => ⟨hl, hall⟩⟩
  · have hk : r.trace[r.trace.length - 1]? = some e := by
      rw [← List.getLast?_eq_getElem?]; exact he
    have hno := hg.noOther _ e hk
    rw [hs] at hno
    have h1 : r.reason ≠ .undefined := fun hc => hno.1 (by rw [hc])
    have h2 : r.reason ≠ .maxIterations := fun hc => hno.2 (by rw [hc])
    refine ⟨by omega, by omega, ?_, h1, fun _ => ⟨hl, e, he, hs⟩, fun hc => absurd hc h2⟩
    constructor
    · intro hc; exact absurd hc h2
    · intro hc; omega

/-! ### C02 -/

/-- C02: unless a solver failed, the pose and scale returned are those of the last solver run that
reported success (initial guess and unit scale if there was none), and the pairings returned are the
output of the last matcher run.

Partial: says nothing of the pose after a solver failure; see `align_solverError_returns_failed_output`
and `align_solverError_loses_estimate`. -/
theorem align_returns_last_solution_partial (ops : PoseOps K Pose) (hops : NormsNonneg ops)
    (env : IcpEnv K Pose MS) (p : IcpParams K) (init : Pose) (one : K) (wantsLog : Bool)
    (r : IcpResult K Pose) (h : align ops env p init one wantsLog = .ok r) :
    r.pairings = lastPairings r.trace ∧
    (r.reason ≠ .solverError →
      (⟨r.pose, r.scale⟩ : Sol K Pose) = (lastSolved r.trace).getD ⟨init, one⟩) := by
  obtain ⟨hg, hp, -, -, hcase⟩ := Lemmas.align_spec ops env p init one wantsLog (Lemmas.stallRule ops p init hops) r h
  refine ⟨hp, fun hne => ?_⟩
  rcases hcase with ⟨-, -, -, -, hsol⟩ | ⟨-, hl, e, he, hs, hsol | ⟨b, hb⟩⟩
  · exact hsol
  · exact hsol.2
  · have hk : r.trace[r.trace.length - 1]? = some e := by
      rw [← List.getLast?_eq_getElem?]; exact he
    cases b with
    | false =>
      exact absurd ((hg.solverError _ e hk).mpr ⟨_, hb⟩) (by rw [hs]; simpa using hne)
    | true =>
      obtain ⟨l, hl'⟩ := List.getLast?_eq_some_iff.mp he
      rw [hl', Lemmas.lastSolved_append, hb]; rfl

/-- C02, what happens after a solver failure: the pose returned is whatever the failing solvers left in
their output argument at the last iteration. -/
theorem align_solverError_returns_failed_output (ops : PoseOps K Pose) (hops : NormsNonneg ops)
    (env : IcpEnv K Pose MS) (p : IcpParams K) (init : Pose) (one : K) (wantsLog : Bool)
    (r : IcpResult K Pose) (h : align ops env p init one wantsLog = .ok r)
    (hr : r.reason = .solverError) :
    ∃ e, r.trace.getLast? = some e ∧ e.solver = some (false, ⟨r.pose, r.scale⟩) := by
  obtain ⟨hg, -, -, -, hcase⟩ := Lemmas.align_spec ops env p init one wantsLog (Lemmas.stallRule ops p init hops) r h
  rcases hcase with ⟨hm, -⟩ | ⟨-, hl, e, he, hs, hsol⟩
  · rw [hr] at hm; cases hm
  · have hk : r.trace[r.trace.length - 1]? = some e := by
      rw [← List.getLast?_eq_getElem?]; exact he
    obtain ⟨s, hs'⟩ := (hg.solverError _ e hk).mp (by rw [hs, hr])
    refine ⟨e, he, ?_⟩
    rcases hsol with ⟨hn, -⟩ | ⟨b, hb⟩
    · rw [hs'] at hn; cases hn
    · rw [hb] at hs'; cases hs'; exact hb

/-- C02, C07, C15: each solver answer in the history is that of `run_solvers` on the pairings just found,
starting from the last solution, with the right iteration number, pose, last step, and with the
retirement marks carried from each iteration to the next. -/
theorem align_solver_calls (ops : PoseOps K Pose) (hops : NormsNonneg ops) (env : IcpEnv K Pose MS)
    (p : IcpParams K) (init : Pose) (one : K) (wantsLog : Bool) (r : IcpResult K Pose)
    (h : align ops env p init one wantsLog = .ok r) :
    ∃ fin, SolversCalled ops env init one r.trace fin :=
  Lemmas.align_called ops env p init one wantsLog (Lemmas.stallRule ops p init hops) r h

/-- C06: the quality reported is the one evaluated on the returned pose and pairings. -/
theorem align_reports_final_quality (ops : PoseOps K Pose) (hops : NormsNonneg ops)
    (env : IcpEnv K Pose MS) (p : IcpParams K) (init : Pose) (one : K) (wantsLog : Bool)
    (r : IcpResult K Pose) (h : align ops env p init one wantsLog = .ok r) :
    evaluateQuality env.quality r.nIterations true r.pose r.pairings = .ok r.quality :=
  (Lemmas.align_spec ops env p init one wantsLog (Lemmas.stallRule ops p init hops) r h).2.2.2.1

/-! ### Toy registrations used as witnesses -/

/-- Planar toy poses: (translation, rotation), componentwise. -/
def toyOps : PoseOps Rat (Rat × Rat) where
  sub a b := (a.1 - b.1, a.2 - b.2)
  tnorm a := absK a.1
  logNorms a := (absK a.1, absK a.2)
  ident := (0, 0)

theorem toyOps_nonneg : NormsNonneg toyOps := by
  intro d
  exact ⟨by rw [show (toyOps.logNorms d).1 = absK d.1 from rfl, Lemmas.absK_eq]; exact abs_nonneg _,
    by rw [show (toyOps.logNorms d).2 = absK d.2 from rfl, Lemmas.absK_eq]; exact abs_nonneg _⟩

/-- A matcher finding one pairing at each iteration below `upTo`, none later. -/
def toyMatcher (upTo : Nat) : Matcher Rat (Rat × Rat) Unit :=
  { impl := fun it _ ms out => .ok (true, ms, if it < upTo then
      { out with pt2pt := [⟨0, 0, ⟨0, 0, 0⟩, ⟨1, 0, 0⟩, 1⟩], potential := 3 } else out) }

/-- A solver answering the `i`-th pose of a list at iteration `i`.  Past the end of the list it behaves
like `Solver_Horn` on too few pairings (Solver_Horn.cpp, `out = OptimalTF_Result()` and then
optimal_tf_horn.cpp:93-97 returning false): the output is reset to the identity and it fails. -/
def toySolver (answers : List (Rat × Rat)) : Solver Rat (Rat × Rat) :=
  { ident := 0, untilCorr := 0, impl := fun sc _ _ =>
      match answers[sc.iter.getD 0]? with
      | some a => .ok (true, ⟨a, 1⟩)
      | none => .ok (false, ⟨toyOps.ident, 1⟩) }

/-- An evaluator always answering 1/2. -/
def toyQuality : QualEval Rat (Rat × Rat) := ⟨2, fun _ _ _ _ => .ok (1/2, false)⟩

/-- A toy registration problem. -/
def toyEnv (upTo : Nat) (answers : List (Rat × Rat)) : IcpEnv Rat (Rat × Rat) Unit :=
  { matchers := [toyMatcher upTo], solvers := [toySolver answers], quality := [toyQuality],
    hook := none, freshMS := () }

/-- Non-vacuity of the theorems on `align`: a run of three iterations that stalls. -/
example : ∃ r, align toyOps (toyEnv 100 [(5, 5), (7, 7), (7, 7)])
      { maxIterations := 40, minAbsStepTrans := 1, minAbsStepRot := 1, saveIterationDetails := true,
        decimationIterationDetails := 2 } (0, 0) 1 true = .ok r ∧
    r.reason = .stalled ∧ r.nIterations = 2 ∧ r.pose = (7, 7) ∧ r.quality = 1/2 ∧
    (r.log.map (·.map (·.1))) = some [0, 2] :=
  Outcome.sat_iff.mp (by decide +kernel)

/-- Non-vacuity: maximum number of iterations, checkpoint failure, hook request, no pairings. -/
example : ∃ r, align toyOps (toyEnv 100 [(5, 5), (7, 7), (9, 9)])
      { maxIterations := 3, minAbsStepTrans := 1, minAbsStepRot := 1 } (0, 0) 1 false = .ok r ∧
    r.reason = .maxIterations ∧ r.nIterations = 3 ∧ r.pose = (9, 9) :=
  Outcome.sat_iff.mp (by decide +kernel)
example : ∃ r, align toyOps (toyEnv 100 [(5, 5), (7, 7), (9, 9)])
      { maxIterations := 30, minAbsStepTrans := 1, minAbsStepRot := 1,
        qualityCheckpoints := [(0, 1/4), (1, 3/4)] } (0, 0) 1 false = .ok r ∧
    r.reason = .qualityCheckpointFailed ∧ r.nIterations = 1 ∧ r.pose = (7, 7) :=
  Outcome.sat_iff.mp (by decide +kernel)
example : ∃ r, align toyOps { toyEnv 100 [(5, 5), (7, 7), (9, 9)] with hook := some fun i _ _ => i == 1 }
      { maxIterations := 30, minAbsStepTrans := 1, minAbsStepRot := 1 } (0, 0) 1 false = .ok r ∧
    r.reason = .hookRequest ∧ r.nIterations = 1 ∧ r.pose = (7, 7) :=
  Outcome.sat_iff.mp (by decide +kernel)
example : ∃ r, align toyOps (toyEnv 2 [(5, 5), (7, 7), (9, 9)])
      { maxIterations := 30, minAbsStepTrans := 1, minAbsStepRot := 1 } (0, 0) 1 false = .ok r ∧
    r.reason = .noPairings ∧ r.nIterations = 2 ∧ r.pose = (7, 7) ∧ r.pairings.size = 0 :=
  Outcome.sat_iff.mp (by decide +kernel)

/-- C02, negative: after a solver failure the pose returned need not be the last good solution (here the
run found (5,5), then the solver failed and reset its output), nor the initial guess. -/
theorem align_solverError_loses_estimate :
    ∃ r, align toyOps (toyEnv 100 [(5, 5)])
        { maxIterations := 40, minAbsStepTrans := 1, minAbsStepRot := 1 } (3, 3) 1 false = .ok r ∧
      r.reason = .solverError ∧ lastSolved r.trace = some ⟨(5, 5), 1⟩ ∧ r.pose = (0, 0) :=
  Outcome.sat_iff.mp (by decide +kernel)

/-! ### C03 -/

/-- C03, negative: `Stalled` is reported although neither the step from the previous solution nor the
one from the solution before it is small in both translation and rotation. -/
theorem align_stall_mixes_references :
    let p : IcpParams Rat := { maxIterations := 40, minAbsStepTrans := 1, minAbsStepRot := 1 }
    ∃ r, align toyOps (toyEnv 100 [(5, 5), (5, 0)]) p (0, 0) 1 false = .ok r ∧
      r.reason = .stalled ∧ r.nIterations = 1 ∧
      ¬ (SmallT toyOps p r.pose (poseBefore (0, 0) r.trace 1) ∧
         SmallR toyOps p r.pose (poseBefore (0, 0) r.trace 1)) ∧
      ¬ (SmallT toyOps p r.pose (poseBefore (0, 0) r.trace 0) ∧
         SmallR toyOps p r.pose (poseBefore (0, 0) r.trace 0)) := by
  unfold SmallT SmallR
  exact Outcome.sat_iff.mp (by decide +kernel)

/-- C03: `Stalled` is reported iff the last solution barely moved, in translation and in rotation, with
respect to the previous or (component by component) the one-before-previous pose; and this was so at no
earlier iteration.

Partial: the two components may be small with respect to different poses, see
`align_stall_mixes_references`. -/
theorem align_stalled_iff_partial (ops : PoseOps K Pose) (hops : NormsNonneg ops)
    (env : IcpEnv K Pose MS) (p : IcpParams K) (init : Pose) (one : K) (wantsLog : Bool)
    (r : IcpResult K Pose) (h : align ops env p init one wantsLog = .ok r) :
    (r.reason = .stalled → BarelyMoved ops p init r.trace r.nIterations r.pose) ∧
    (∀ k e s, r.trace[k]? = some e → e.solver = some (true, s) →
      BarelyMoved ops p init r.trace k s.pose →
      r.reason = .stalled ∧ k = r.nIterations ∧ s.pose = r.pose) := by
  obtain ⟨hg, -, -, -, hcase⟩ := Lemmas.align_spec ops env p init one wantsLog (Lemmas.stallRule ops p init hops) r h
  constructor
  · intro hr
    rcases hcase with ⟨hm, -⟩ | ⟨-, hl, e, he, hs, hsol⟩
    · rw [hr] at hm; cases hm
    · have hk : r.trace[r.trace.length - 1]? = some e := by
        rw [← List.getLast?_eq_getElem?]; exact he
      obtain ⟨s, hs', hbm⟩ := (hg.stalled _ e hk).mp (by rw [hs, hr])
      have : r.trace.length - 1 = r.nIterations := by omega
      rw [this] at hbm
      rcases hsol with ⟨hn, -⟩ | ⟨b, hb⟩
      · rw [hs'] at hn; cases hn
      · rw [hb] at hs'; cases hs'; exact hbm
  · intro k e s hk hs hbm
    have hst := (hg.stalled k e hk).mpr ⟨s, hs, hbm⟩
    have hkl : k < r.trace.length := by
      by_contra hc
      rw [List.getElem?_eq_none (by omega)] at hk; cases hk
    have hlast : k + 1 = r.trace.length := by
      by_contra hc
      have := hg.onlyLast k e hk (by omega)
      rw [this] at hst; cases hst
    rcases hcase with ⟨-, -, -, hall, -⟩ | ⟨-, hl, e', he', hs', hsol⟩
    · have := hall e (List.mem_of_getElem? hk)
      rw [this] at hst; cases hst
    · have hk' : r.trace[r.trace.length - 1]? = some e' := by
        rw [← List.getLast?_eq_getElem?]; exact he'
      have : r.trace.length - 1 = k := by omega
      rw [this, hk] at hk'
      cases hk'
      rw [hst] at hs'
      refine ⟨by simpa using hs'.symm, by omega, ?_⟩
      rcases hsol with ⟨hn, -⟩ | ⟨b, hb⟩
      · rw [hs] at hn; cases hn
      · rw [hb] at hs; cases hs; rfl

/-! ### C04 -/

/-- C04: if iteration `k` finds a solution without stalling and its quality checkpoint fails, the run
ends there with `QualityCheckpointFailed`; and conversely. -/
theorem align_checkpoint_iff (ops : PoseOps K Pose) (hops : NormsNonneg ops)
    (env : IcpEnv K Pose MS) (p : IcpParams K) (init : Pose) (one : K) (wantsLog : Bool)
    (r : IcpResult K Pose) (h : align ops env p init one wantsLog = .ok r) :
    (r.reason = .qualityCheckpointFailed →
      CheckpointFails env p r.nIterations r.pose r.pairings) ∧
    (∀ k e s, r.trace[k]? = some e → e.solver = some (true, s) →
      ¬ BarelyMoved ops p init r.trace k s.pose → CheckpointFails env p k s.pose e.pairings →
      r.reason = .qualityCheckpointFailed ∧ k = r.nIterations ∧ s.pose = r.pose ∧
        e.pairings = r.pairings) :=
  Lemmas.align_checkpoint ops env p init one wantsLog (Lemmas.stallRule ops p init hops) r h

/-- C04: if iteration `k` finds a solution, neither stalls nor fails its checkpoint, and the hook
requests a stop, the run ends there with `HookRequest` and that solution is returned; and conversely. -/
theorem align_hook_iff (ops : PoseOps K Pose) (hops : NormsNonneg ops)
    (env : IcpEnv K Pose MS) (p : IcpParams K) (init : Pose) (one : K) (wantsLog : Bool)
    (r : IcpResult K Pose) (h : align ops env p init one wantsLog = .ok r) :
    (r.reason = .hookRequest → HookStops env r.nIterations r.pairings ⟨r.pose, r.scale⟩) ∧
    (∀ k e s, r.trace[k]? = some e → e.solver = some (true, s) →
      ¬ BarelyMoved ops p init r.trace k s.pose → ¬ CheckpointFails env p k s.pose e.pairings →
      HookStops env k e.pairings s →
      r.reason = .hookRequest ∧ k = r.nIterations ∧ s = ⟨r.pose, r.scale⟩ ∧ e.pairings = r.pairings) :=
  Lemmas.align_hook ops env p init one wantsLog (Lemmas.stallRule ops p init hops) r h

/-! ### C05 -/

/-- C05: when a log is recorded, its iteration details are exactly those of the solved iterations
selected by the decimation rule or at which the run stalled. -/
theorem align_log_contents (ops : PoseOps K Pose) (hops : NormsNonneg ops)
    (env : IcpEnv K Pose MS) (p : IcpParams K) (init : Pose) (one : K) (wantsLog : Bool)
    (r : IcpResult K Pose) (h : align ops env p init one wantsLog = .ok r) :
    r.log = if wantsLog = true ∨ p.generateDebugFiles = true then some (loggedIterations p r.trace)
      else none := by
  obtain ⟨-, -, hlog, -⟩ := Lemmas.align_spec ops env p init one wantsLog (Lemmas.stallRule ops p init hops) r h
  simpa [Bool.or_eq_true] using hlog

/-- C05: no undefined behaviour when a log is recorded or no details are asked for, and at least one
iteration is allowed — provided the matchers, solvers and evaluators have none. -/
theorem align_no_ub_partial (ops : PoseOps K Pose) (env : IcpEnv K Pose MS) (p : IcpParams K) (init : Pose)
    (one : K) (wantsLog : Bool)
    (hm : ∀ n pose, runMatchers env.matchers n pose env.freshMS ≠ .ub)
    (hs : ∀ prs out sc fin, runSolvers ops.tnorm env.solvers prs out sc fin ≠ .ub)
    (hq : ∀ n b pose prs, evaluateQuality env.quality n b pose prs ≠ .ub)
    (hlog : p.saveIterationDetails = true → wantsLog = true ∨ p.generateDebugFiles = true)
    (hmax : 0 < p.maxIterations) :
    align ops env p init one wantsLog ≠ .ub :=
  Lemmas.align_no_ub ops env p init one wantsLog hm hs hq hlog hmax

/-- C05, negative: asking for iteration details without a log is undefined behaviour as soon as the first
iteration finds a solution, for every environment. -/
theorem align_details_without_log_ub (ops : PoseOps K Pose) (env : IcpEnv K Pose MS) (p : IcpParams K)
    (init : Pose) (one : K)
    (hne : env.matchers ≠ [] ∧ env.solvers ≠ [] ∧ env.quality ≠ [])
    (hmap : env.globalEmpty = false ∧ env.localEmpty = false)
    (hd : p.saveIterationDetails = true) (hg : p.generateDebugFiles = false)
    (hmax : 0 < p.maxIterations)
    (ms : MS) (prs : Pairings K) (hm : runMatchers env.matchers 0 init env.freshMS = .ok (ms, prs))
    (hsz : prs.size ≠ 0) (sol : Sol K Pose) (fin : List Nat)
    (hs : runSolvers ops.tnorm env.solvers prs ⟨init, one⟩
      ⟨some 0, some init, some (ops.sub init init), none⟩ [] = .ok (true, sol, fin)) :
    align ops env p init one false = .ub :=
  Lemmas.align_details_ub ops env p init one hne hmap hd hg hmax ms prs hm hsz sol fin hs

/-- C05, negative: with `maxIterations = 0`, a log requested and matchers not attached to any parameter
source, a null pointer is dereferenced. -/
theorem align_zero_iterations_log_ub (ops : PoseOps K Pose) (env : IcpEnv K Pose MS) (p : IcpParams K)
    (init : Pose) (one : K)
    (hne : env.matchers ≠ [] ∧ env.solvers ≠ [] ∧ env.quality ≠ [])
    (hmap : env.globalEmpty = false ∧ env.localEmpty = false)
    (hmax : p.maxIterations = 0) (hatt : env.firstMatcherAttached = false)
    (v : K) (hq : evaluateQuality env.quality 0 true init {} = .ok v) :
    align ops env p init one true = .ub := by
  simp [align, hmap, Outcome.assert, hmax, icpLoop, hatt, hq, hne]

end Verif.Props
