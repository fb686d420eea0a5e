import Verif.Lemmas.Icp
namespace Verif.Lemmas
open Verif Verif.Spec
variable {K Pose MS : Type} [LT K] [DecidableLT K] [Zero K] [Add K] [Mul K] [Div K] [Neg K]
  {B : List (IterEvent K Pose) → Nat → Pose → Prop}

omit [LT K] [DecidableLT K] [Zero K] [Add K] [Mul K] [Div K] [Neg K] in
theorem lastStepBefore_append (ops : PoseOps K Pose) (init : Pose) (h : List (IterEvent K Pose))
    (e : IterEvent K Pose) (k : Nat) (hk : k ≤ h.length) :
    lastStepBefore ops init (h ++ [e]) k = lastStepBefore ops init h k := by
  unfold lastStepBefore
  rw [poseBefore_append_lt init h e k hk, poseBefore_append_lt init h e (k-1) (by omega)]

theorem called_append (ops : PoseOps K Pose) (env : IcpEnv K Pose MS) (init : Pose) (one : K)
    (h : List (IterEvent K Pose)) (fin fin' : List Nat) (e : IterEvent K Pose)
    (hc : SolversCalled ops env init one h fin)
    (he : ∀ (b : Bool) (s : Sol K Pose), e.solver = some (b, s) →
      runSolvers ops.tnorm env.solvers e.pairings ((lastSolved h).getD ⟨init, one⟩)
        ⟨some h.length, some (poseBefore init h h.length), some (ops.sub (poseBefore init h h.length) init),
          lastStepBefore ops init h h.length⟩ fin = .ok (b, s, fin')) :
    SolversCalled ops env init one (h ++ [e]) fin' := by
  obtain ⟨fins, h0, hl, hall⟩ := hc
  refine ⟨fun k => if k = h.length + 1 then fin' else fins k, ?_, ?_, ?_⟩
  · simp [h0]
  · simp
  · intro k e' hk b s hs
    have hkl : k ≤ h.length := by
      by_contra hcon
      rw [List.getElem?_eq_none (by simp; omega)] at hk; cases hk
    rw [poseBefore_append_lt _ _ _ _ hkl, lastStepBefore_append _ _ _ _ _ hkl,
      List.take_append_of_le_length hkl]
    by_cases hlt : k < h.length
    · rw [List.getElem?_append_left hlt] at hk
      have := hall k e' hk b s hs
      simp only
      rw [if_neg (by omega), if_neg (by omega)]
      exact this
    · have : k = h.length := by omega
      subst this
      simp at hk
      subst hk
      have h2 := he b s hs
      rw [List.take_length]
      simpa [hl] using h2

theorem body_called (ops : PoseOps K Pose) (env : IcpEnv K Pose MS) (p : IcpParams K) (init : Pose)
    (one : K) (hasLog : Bool)
    (s : LoopState K Pose) (hI : LInv B env p init one hasLog s)
    (hc : SolversCalled ops env init one s.trace s.fin)
    (hlc : s.lastCorr = lastStepBefore ops init s.trace s.trace.length)
    (s' : LoopState K Pose) (brk : Option Reason)
    (hb : icpBody ops env p init s = .ok (s', brk)) :
    SolversCalled ops env init one s'.trace s'.fin ∧
    (brk = none → s'.lastCorr = lastStepBefore ops init s'.trace s'.trace.length) := by
  have hsolpose : s.sol.pose = poseBefore init s.trace s.trace.length := by
    rw [poseBefore_length init one, ← hI.sol]
  unfold icpBody at hb
  rw [Outcome.bind_eq_ok] at hb
  obtain ⟨⟨ms, prs⟩, hm, hb⟩ := hb
  simp only at hb
  split at hb
  · simp only [Outcome.ok.injEq, Prod.mk.injEq] at hb
    obtain ⟨rfl, rfl⟩ := hb
    exact ⟨called_append ops env init one _ _ _ _ hc (by simp), by simp⟩
  · rw [Outcome.bind_eq_ok] at hb
    obtain ⟨⟨okb, sol, fin⟩, hsv, hb⟩ := hb
    rw [hI.n, hlc, hI.sol, ← poseBefore_length init one] at hsv
    simp only at hb
    cases okb with
    | false =>
      simp only [Bool.not_false, if_true, Outcome.ok.injEq, Prod.mk.injEq] at hb
      obtain ⟨rfl, rfl⟩ := hb
      refine ⟨called_append ops env init one _ _ _ _ hc ?_, by simp⟩
      intro b s1 hs1
      cases hs1
      exact hsv
    | true =>
      simp only [Bool.not_true, Bool.false_eq_true, if_false] at hb
      rw [Outcome.bind_eq_ok] at hb
      obtain ⟨log, hlog, hb⟩ := hb
      have key : ∀ r, SolversCalled ops env init one
          (s.trace ++ [⟨s.n, s.sol.pose, prs, some (true, sol), r⟩]) fin := by
        intro r
        refine called_append ops env init one _ _ _ _ hc ?_
        intro b s1 hs1
        cases hs1
        exact hsv
      split at hb
      · simp only [Outcome.ok.injEq, Prod.mk.injEq] at hb
        obtain ⟨rfl, rfl⟩ := hb
        exact ⟨key _, by simp⟩
      · rw [Outcome.bind_eq_ok] at hb
        obtain ⟨bad, hbad, hb⟩ := hb
        split at hb
        · simp only [Outcome.ok.injEq, Prod.mk.injEq] at hb
          obtain ⟨rfl, rfl⟩ := hb
          exact ⟨key _, by simp⟩
        · split at hb
          · simp only [Outcome.ok.injEq, Prod.mk.injEq] at hb
            obtain ⟨rfl, rfl⟩ := hb
            exact ⟨key _, by simp⟩
          · simp only [Outcome.ok.injEq, Prod.mk.injEq] at hb
            obtain ⟨rfl, rfl⟩ := hb
            refine ⟨key _, fun _ => ?_⟩
            simp only [lastStepBefore, List.length_append, List.length_cons, List.length_nil]
            rw [if_neg (by omega)]
            have h1 := poseBefore_length init one (s.trace ++ [⟨s.n, s.sol.pose, prs, some (true, sol), none⟩])
            rw [lastSolved_append] at h1
            simp only [List.length_append, List.length_cons, List.length_nil, Option.getD_some] at h1
            rw [h1, hI.prev, hsolpose]
            congr 2
            rw [Nat.add_sub_cancel, poseBefore_append_lt _ _ _ _ (by omega)]

theorem loop_called (ops : PoseOps K Pose) (env : IcpEnv K Pose MS) (p : IcpParams K) (init : Pose)
    (one : K) (hasLog : Bool)
    (hops : StallRule ops p init B)
    (fuel : Nat) (s : LoopState K Pose) (hI : LInv B env p init one hasLog s)
    (hc : SolversCalled ops env init one s.trace s.fin)
    (hlc : s.lastCorr = lastStepBefore ops init s.trace s.trace.length)
    (s' : LoopState K Pose) (hb : icpLoop ops env p init fuel s = .ok s') :
    SolversCalled ops env init one s'.trace s'.fin := by
  induction fuel generalizing s with
  | zero => simp [icpLoop] at hb; subst hb; exact hc
  | succ fuel ih =>
    rw [icpLoop, Outcome.bind_eq_ok] at hb
    obtain ⟨⟨s1, brk⟩, h1, hb⟩ := hb
    obtain ⟨hn, hnone, hsome⟩ := body_spec ops env p init one hasLog hops s hI s1 brk h1
    obtain ⟨hcal, hl⟩ := body_called ops env p init one hasLog s hI hc hlc s1 brk h1
    cases brk with
    | none => exact ih _ (hnone rfl) hcal (hl rfl) hb
    | some r =>
      simp only [Outcome.ok.injEq] at hb
      subst hb
      exact hcal

theorem align_called (ops : PoseOps K Pose) (env : IcpEnv K Pose MS) (p : IcpParams K) (init : Pose)
    (one : K) (wantsLog : Bool)
    (hops : StallRule ops p init B)
    (r : IcpResult K Pose) (h : align ops env p init one wantsLog = .ok r) :
    ∃ fin, SolversCalled ops env init one r.trace fin := by
  unfold align at h
  simp only [Outcome.bind_def, Outcome.bind_eq_ok, Outcome.assert_eq_ok] at h
  obtain ⟨_, _, _, _, s, hs, q, hq, h⟩ := h
  split at h
  · cases h
  · simp only [Outcome.pure_def, Outcome.ok.injEq] at h
    subst h
    exact ⟨_, loop_called ops env p init one (wantsLog || p.generateDebugFiles) hops p.maxIterations _
      (init_inv (B := B) env p init one (wantsLog || p.generateDebugFiles))
      ⟨fun _ => [], rfl, rfl, by simp⟩ rfl s hs⟩

end Verif.Lemmas
