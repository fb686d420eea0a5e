import Verif.Lemmas.Restart
import Verif.Props.Icp
import Verif.Lemmas.EndToEnd
/-
C122: the limit on the number of iterations only cuts a run short, and a run cut short can be continued by another call started at the pose it
returned, unless the long run comes to rest at that very iteration by looking back at the pose before the last, which the second call cannot
know.
-/
namespace Verif.Props
open Verif Verif.Spec Verif.Lemmas.Restart

section
variable {K Pose MS : Type} [Field K] [LinearOrder K] [IsStrictOrderedRing K]

omit [IsStrictOrderedRing K] in
/-- C122: whatever the pipeline, the run with the smaller limit does the first iterations of the run with the larger one, and it is the same run
altogether, with the same result, unless it was the limit that ended it. -/
theorem limit_only_cuts (ops : PoseOps K Pose) (env : IcpEnv K Pose MS) (p : IcpParams K) (init : Pose) (one : K) (w : Bool) {M : Nat}
    (hM : p.maxIterations ≤ M) {r1 : IcpResult K Pose} (h1 : align ops env p init one w = .ok r1) :
    (r1.reason ≠ .maxIterations → align ops env { p with maxIterations := M } init one w = .ok r1) ∧
    ∀ r2, align ops env { p with maxIterations := M } init one w = .ok r2 → r1.trace = r2.trace.take p.maxIterations := by
  obtain ⟨k, rfl⟩ := Nat.exists_eq_add_of_le hM
  obtain ⟨s, a1, a2, hl, q, hq, hlog, hr⟩ := align_ok h1
  obtain ⟨c1, c2, c3, c4⟩ := loop_counts _ hl
  simp only [startState, Nat.zero_add, List.length_nil] at c1 c2 c4
  have hsplit : icpLoop ops env { p with maxIterations := p.maxIterations + k } init (p.maxIterations + k) (startState p init one w) =
      if s.n = p.maxIterations then icpLoop ops env p init k s else .ok s := by
    rw [loop_limit, loop_split, hl]
    simp [Outcome.bind, startState]
  constructor
  · intro hne
    have hn : ¬ s.n ≥ p.maxIterations := by
      intro hc
      rw [hr] at hne
      simp only [if_pos hc, ne_eq, not_true_eq_false] at hne
    have hs : icpLoop ops env { p with maxIterations := p.maxIterations + k } init (p.maxIterations + k) (startState p init one w) = .ok s := by
      rw [hsplit, if_neg (by omega)]
    refine (align_of a1 a2 hs hq ?_).trans ?_
    · intro hsl
      rcases hlog hsl with h | h
      · exact Or.inl h
      · right; simp only; omega
    · rw [hr]
      simp only
      rw [if_neg hn, if_neg (by omega)]
  · intro r2 h2
    obtain ⟨s', -, -, hl', q', -, -, hr'⟩ := align_ok h2
    have hl' : icpLoop ops env { p with maxIterations := p.maxIterations + k } init (p.maxIterations + k) (startState p init one w) = .ok s' := hl'
    rw [hsplit] at hl'
    rw [hr, hr']
    simp only
    by_cases hn : s.n = p.maxIterations
    · rw [if_pos hn] at hl'
      obtain ⟨-, -, ⟨t, ht⟩, -⟩ := loop_counts _ hl'
      rw [← ht, ← (c4 hn).2.1, List.take_left]
    · rw [if_neg hn] at hl'
      cases hl'
      rw [List.take_of_length_le (by omega)]

/-- C122: let nothing in the pipeline look at the number of the iteration or at what was before.  A call that ends at its limit of `N`
iterations, and another started at the pose it returned, with a limit of `M`, together do what one call with a limit of `N + M` does: the same
iterations, one by one, the same pose, pairings, quality and reason, and the numbers of iterations add up; the scale too is the same, unless
nothing at all was paired from the second call on.  The only exception: the long run stalls exactly at the first iteration after the `N`-th. -/
theorem run_continued {ops : PoseOps K Pose} (hops : NormsNonneg ops) {env : IcpEnv K Pose MS} (hm : Memoryless ops env) {p : IcpParams K}
    (hd : p.saveIterationDetails = false) (hc : p.qualityCheckpoints = []) {M : Nat} (hM : 0 < M) {init : Pose} {one : K} {w : Bool}
    {r1 r : IcpResult K Pose} (h1 : align ops env p init one w = .ok r1) (hmax : r1.reason = .maxIterations)
    (h : align ops env { p with maxIterations := p.maxIterations + M } init one w = .ok r)
    (hns : ∀ ev, r.trace[p.maxIterations]? = some ev → ev.stop ≠ some .stalled) :
    ∃ r2, align ops env { p with maxIterations := M } r1.pose one w = .ok r2 ∧
      r2.pose = r.pose ∧ r2.pairings = r.pairings ∧ r2.quality = r.quality ∧ r2.reason = r.reason ∧ r2.log = r.log ∧
      r.nIterations = p.maxIterations + r2.nIterations ∧
      (∃ t, r.trace = r1.trace ++ t ∧ List.Forall₂ (SameEvent p.maxIterations) r2.trace t) ∧
      (r2.scale = r.scale ∨ (r.reason = .noPairings ∧ r.scale = r1.scale ∧ r2.scale = one)) := by
  obtain ⟨s, a1, a2, hl, q1, hq1, hlog1, hr1⟩ := align_ok h1
  obtain ⟨s', -, -, hl', q, hq, hlog, hr⟩ := align_ok h
  have hl' : icpLoop ops env { p with maxIterations := p.maxIterations + M } init (p.maxIterations + M) (startState p init one w) = .ok s' := hl'
  obtain ⟨c1, c2, c3, c4⟩ := loop_counts _ hl
  simp only [startState, Nat.zero_add, List.length_nil] at c1 c2 c4
  have hsn : s.n = p.maxIterations := by
    have hc2 : s.reason ≠ .maxIterations := loop_reason _ (by simp [startState]) hl
    rw [hr1] at hmax
    simp only at hmax
    split at hmax
    · omega
    · exact absurd hmax hc2
  obtain ⟨d1, d2, d3⟩ := c4 hsn
  have d3 : s.prev = s.sol.pose := d3 trivial
  rw [loop_limit, loop_split, hl] at hl'
  simp only [Outcome.bind, startState, Nat.zero_add, hsn, if_true] at hl'
  obtain ⟨m, rfl⟩ : ∃ m, M = m + 1 := ⟨M - 1, by omega⟩
  let s0 : LoopState K Pose := startState { p with maxIterations := m + 1 } s.sol.pose one w
  have ha : Alike p.maxIterations s.trace s0 s :=
    ⟨hsn, rfl, d3, (loop_log (s := startState p init one w) hd _ hl).trans rfl, d1, [], (List.append_nil _).symm, .nil⟩
  have hmain : ∃ s2', icpLoop ops env p s.sol.pose (m + 1) s0 = .ok s2' ∧ Alike p.maxIterations s.trace s2' s' ∧
      s'.pairings = s2'.pairings ∧ (s2'.sol.scale = s'.sol.scale ∨
        (s'.n < p.maxIterations + (m + 1) ∧ s'.reason = .noPairings ∧ s'.sol.scale = s.sol.scale ∧ s2'.sol.scale = one)) := by
    have hl2 := hl'
    simp only [icpLoop] at hl2 ⊢
    obtain ⟨⟨sb, brk⟩, hb, hl2⟩ := Outcome.bind_eq_ok.mp hl2
    obtain ⟨k1, -, e, k2, k3⟩ := body_keeps hb
    have hbrk : brk ≠ some .stalled := by
      rw [← k3]
      refine hns e ?_
      have hpre : sb.trace <+: s'.trace := by
        cases brk with
        | some rr => simp only [Outcome.ok.injEq] at hl2; rw [← hl2]
        | none => exact (loop_counts _ hl2).2.2.1
      obtain ⟨t, ht⟩ := hpre
      rw [hr]
      simp only
      rw [← ht, k2, List.append_assoc, ← d2, List.getElem?_append_right le_rfl]
      simp
    obtain ⟨s2b, hb2, hab, hpb, hvb, hsb⟩ := body_alike (init2 := s.sol.pose) hm hd hc ha (fun sol => Or.inr ⟨hbrk, fun hst => by
      have hst : isStalled p (stepNorms ops sol s.sol.pose none) = true := hst
      rw [d3]
      exact stall_less hops sol s.sol.pose s.prev2 hst⟩) hb
    obtain ⟨j1, -⟩ := body_keeps hb2
    rw [hb2]
    simp only [Outcome.bind]
    cases brk with
    | some rr =>
      simp only [Outcome.ok.injEq] at hl2
      subst hl2
      refine ⟨_, rfl, ⟨hab.n, hab.pose, hab.prev, hab.log, rfl, hab.trace⟩, hpb, ?_⟩
      rcases hsb with hsb | ⟨e1, e2, e3⟩
      · exact Or.inl hsb.symm
      · cases e1
        refine Or.inr ⟨by simp only [k1, hsn]; omega, rfl, by simp only [e2], ?_⟩
        simp only [e3]; rfl
    | none =>
      simp only at hl2 ⊢
      have hA : Alike p.maxIterations s.trace { s2b with n := s0.n + 1 } { sb with n := s.n + 1 } :=
        ⟨(show s.n + 1 = p.maxIterations + (0 + 1) by omega), hab.pose, hab.prev, hab.log, hab.reason, hab.trace⟩
      have hsc : sb.sol.scale = s2b.sol.scale := by
        rcases hsb with hsb | ⟨e1, -⟩
        · exact hsb
        · cases e1
      obtain ⟨s2', h2', hA', hp', hs'⟩ := loop_alike (init2 := s.sol.pose) hm hd hc m hA (hvb rfl) hpb hsc hl2
      exact ⟨s2', h2', hA', hp', Or.inl hs'.symm⟩
  obtain ⟨s2', h2, hA, hp, hs⟩ := hmain
  have hpose1 : r1.pose = s.sol.pose := by rw [hr1]
  have hscale1 : r1.scale = s.sol.scale := by rw [hr1]
  have htr1 : r1.trace = s.trace := by rw [hr1]
  have hq2 : evaluateQuality env.quality s2'.n true s2'.sol.pose s2'.pairings = .ok q := by
    rw [← hA.pose, ← hp, quality_alike hm.quality s2'.n s'.n]; exact hq
  have hl2 : icpLoop ops env { p with maxIterations := m + 1 } s.sol.pose (m + 1) (startState { p with maxIterations := m + 1 } s.sol.pose one w) =
      .ok s2' := by rw [loop_limit]; exact h2
  have h3 := align_of (p := { p with maxIterations := m + 1 }) a1 a2 hl2 hq2 (fun _ => Or.inr (Nat.succ_pos m))
  have hn := hA.n
  refine ⟨_, by rw [hpose1]; exact h3, ?_, ?_, ?_, ?_, ?_, ?_, ?_, ?_⟩
  · rw [hr]; exact hA.pose.symm
  · rw [hr]; exact hp.symm
  · rw [hr]
  · rw [hr]
    simp only
    by_cases hx : s2'.n ≥ m + 1
    · rw [if_pos hx, if_pos (by omega)]
    · rw [if_neg hx, if_neg (by omega)]; exact hA.reason.symm
  · rw [hr]; exact hA.log.symm
  · rw [hr]; exact hn
  · rw [hr, htr1]; exact hA.trace
  · rw [hr, hscale1]
    rcases hs with hs | ⟨x1, x2, x3, x4⟩
    · exact Or.inl hs
    · refine Or.inr ⟨?_, x3, x4⟩
      simp only
      rw [if_neg (by omega)]; exact x2

end

/-! ### Cases -/

/-- A matcher that always finds the same pairing. -/
def sameMatcher : Matcher Rat (Rat × Rat) Unit :=
  { impl := fun _ _ ms out => .ok (true, ms, { out with pt2pt := [⟨0, 0, ⟨0, 0, 0⟩, ⟨1, 0, 0⟩, 1⟩], potential := 3 }) }

/-- A solver that answers a function of the pose it is given. -/
def stepSolver (f : Rat → Rat) : Solver Rat (Rat × Rat) :=
  { ident := 0, untilCorr := 0, impl := fun sc _ _ =>
      match sc.guess with
      | some g => .ok (true, ⟨(f g.1, g.2), 1⟩)
      | none => .ok (false, ⟨toyOps.ident, 1⟩) }

def stepEnv (f : Rat → Rat) : IcpEnv Rat (Rat × Rat) Unit :=
  { matchers := [sameMatcher], solvers := [stepSolver f], quality := [toyQuality], hook := none, freshMS := () }

theorem step_memoryless (f : Rat → Rat) : Memoryless toyOps (stepEnv f) where
  matchers i j T := by simp [runMatchers, runMatchersLoop, stepEnv, sameMatcher, Matcher.run]
  solvers prs T := by
    refine ⟨.ok (true, ⟨(f T.1, T.2), 1⟩), fun out sc fin hg => ?_⟩
    have hwin : (stepSolver f).outsideWindow sc = false := by
      unfold Solver.outsideWindow
      cases sc.iter <;> simp [stepSolver]
    simp only [stepEnv, runSolvers, Solver.optimalPose, hwin]
    simp [stepSolver, hg, Outcome.bind]
  quality e he i j fin T prs := by
    simp only [stepEnv, List.mem_singleton] at he
    subst he; rfl
  hook := rfl

/-- A run that halves the distance to 1 at each iteration: three iterations, then as many as needed, is the one run. -/
example : ∃ r1 r2 r, align toyOps (stepEnv fun x => (x + 1) / 2) { maxIterations := 3, minAbsStepTrans := 1/100, minAbsStepRot := 1/10 } (0, 0) 1 false
      = .ok r1 ∧ r1.reason = .maxIterations ∧ r1.pose = (7/8, 0) ∧
    align toyOps (stepEnv fun x => (x + 1) / 2) { maxIterations := 3 + 20, minAbsStepTrans := 1/100, minAbsStepRot := 1/10 } (0, 0) 1 false = .ok r ∧
    align toyOps (stepEnv fun x => (x + 1) / 2) { maxIterations := 20, minAbsStepTrans := 1/100, minAbsStepRot := 1/10 } r1.pose 1 false = .ok r2 ∧
    (∀ ev, r.trace[3]? = some ev → ev.stop ≠ some .stalled) ∧ r.reason = .stalled ∧ r.nIterations = 3 + r2.nIterations ∧ r2.nIterations = 3 ∧
    r2.pose = r.pose := by
  have h : (align toyOps (stepEnv fun x => (x + 1) / 2) { maxIterations := 3, minAbsStepTrans := 1/100, minAbsStepRot := 1/10 } (0, 0) 1 false).Sat
      fun r1 => r1.reason = .maxIterations ∧ r1.pose = (7/8, 0) := by decide +kernel
  have h' : (align toyOps (stepEnv fun x => (x + 1) / 2) { maxIterations := 3 + 20, minAbsStepTrans := 1/100, minAbsStepRot := 1/10 } (0, 0) 1 false).Sat
      fun r => (∀ ev ∈ r.trace[3]?, ev.stop ≠ some .stalled) ∧ r.reason = .stalled ∧ r.nIterations = 6 := by decide +kernel
  obtain ⟨r1, e1, f1, f2⟩ := Outcome.sat_iff.mp h
  obtain ⟨r, e, g1, g2, g3⟩ := Outcome.sat_iff.mp h'
  obtain ⟨r2, k1, k2, -, -, -, -, k3, -⟩ := run_continued (p := { maxIterations := 3, minAbsStepTrans := 1/100, minAbsStepRot := 1/10 })
    toyOps_nonneg (step_memoryless _) rfl rfl (M := 20) (by omega) e1 f1 e (fun ev hev => g1 ev hev)
  refine ⟨r1, r2, r, e1, f1, f2, e, k1, fun ev hev => g1 ev hev, g2, k3, ?_, k2⟩
  have k3 : r.nIterations = 3 + r2.nIterations := k3
  omega

/-- C122, the exception is needed: a solver that jumps between two poses.  One call stalls at its second iteration, back at the initial pose;
cut after the first and continued, it stalls only an iteration later and returns the other pose. -/
theorem continued_differs : ∃ r1 r r2,
    align toyOps (stepEnv fun x => 1 - x) { maxIterations := 1, minAbsStepTrans := 1/100, minAbsStepRot := 1/10 } (0, 0) 1 false = .ok r1 ∧
    r1.reason = .maxIterations ∧
    align toyOps (stepEnv fun x => 1 - x) { maxIterations := 10, minAbsStepTrans := 1/100, minAbsStepRot := 1/10 } (0, 0) 1 false = .ok r ∧
    r.reason = .stalled ∧ r.pose = (0, 0) ∧
    align toyOps (stepEnv fun x => 1 - x) { maxIterations := 9, minAbsStepTrans := 1/100, minAbsStepRot := 1/10 } r1.pose 1 false = .ok r2 ∧
    r2.reason = .stalled ∧ r2.pose = (1, 0) := by
  have h : (align toyOps (stepEnv fun x => 1 - x) { maxIterations := 1, minAbsStepTrans := 1/100, minAbsStepRot := 1/10 } (0, 0) 1 false).Sat
      fun r1 => r1.reason = .maxIterations ∧ r1.pose = (1, 0) := by decide +kernel
  have h' : (align toyOps (stepEnv fun x => 1 - x) { maxIterations := 10, minAbsStepTrans := 1/100, minAbsStepRot := 1/10 } (0, 0) 1 false).Sat
      fun r => r.reason = .stalled ∧ r.pose = (0, 0) := by decide +kernel
  have h'' : (align toyOps (stepEnv fun x => 1 - x) { maxIterations := 9, minAbsStepTrans := 1/100, minAbsStepRot := 1/10 } (1, 0) 1 false).Sat
      fun r => r.reason = .stalled ∧ r.pose = (1, 0) := by decide +kernel
  obtain ⟨r1, e1, f1, f2⟩ := Outcome.sat_iff.mp h
  obtain ⟨r, e, g1, g2⟩ := Outcome.sat_iff.mp h'
  obtain ⟨r2, k, k1, k2⟩ := Outcome.sat_iff.mp h''
  exact ⟨r1, r, r2, e1, f1, e, g1, g2, by rw [f2]; exact k, k1, k2⟩

section
variable {K : Type} [Field K] [LinearOrder K] [IsStrictOrderedRing K]

/-- C122: the pipeline of `Matcher_Points_DistanceThreshold` and `Solver_Horn` with the ratio of pairings as quality has no memory. -/
theorem simple_memoryless (ops : PoseOps K (Pose3 K)) (c : DTCfg K) (e : HornEnv K) (nearOne : P3 K → Bool) (ratio : K) (wp : WeightParams K)
    (mr : K) (name : String) (g : GLayer K) (ng : Nat) (dense : Bool) (pts : List (P3 K)) :
    Memoryless ops (simpleIcp c (hornAsSolver e nearOne ratio wp) mr name g ng dense pts) where
  matchers i j T := by simp [runMatchers, runMatchersLoop, simpleIcp, PtMatcher.toMatcher, Matcher.run]
  solvers prs T := by
    refine ⟨(solverHorn e nearOne ratio wp prs (some T)).bind fun r => .ok (hornAnswer r), fun out sc fin hg => ?_⟩
    have hwin : (hornAsSolver e nearOne ratio wp).outsideWindow sc = false := by
      unfold Solver.outsideWindow
      cases sc.iter <;> simp [hornAsSolver]
    simp only [simpleIcp, runSolvers, Solver.optimalPose, hwin]
    simp only [hornAsSolver, Bool.not_true, Bool.false_eq_true, if_false, gt_iff_lt, lt_irrefl, false_and, hg]
    cases solverHorn e nearOne ratio wp prs (some T) with
    | ub => rfl
    | throw => rfl
    | ok r => cases r <;> simp [hornAnswer, Outcome.bind]
  quality e he i j fin T prs := by
    simp only [simpleIcp, List.mem_singleton] at he
    subst he; rfl
  hook := rfl

end
end Verif.Props
