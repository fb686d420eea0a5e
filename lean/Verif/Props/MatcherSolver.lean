import Verif.Spec.MatcherSolver
import Verif.Model.PairedRatio
import Verif.Lemmas.MatcherSolver
import Mathlib.Algebra.Order.Field.Basic
/-
Properties C06 (quality), C07 (first solver wins), C13 (concatenation), C14 (windows), C15 (retirement),
C16 (paired ratio).
-/
namespace Verif.Props
open Verif Verif.Spec
variable {K Pose MS : Type}

/-! ### C07 -/
section
variable [LT K] [DecidableLT K] [Zero K]

/-- C07: success iff some solver succeeds after all the previous ones declined; the answer is that
solver's, and the solvers after it play no role. -/
theorem runSolvers_first_wins (tnorm : Pose → K) (solvers : List (Solver K Pose)) (prs : Pairings K)
    (out : Sol K Pose) (sc : SolverCtx Pose) (fin : List Nat) (sol : Sol K Pose) (fin' : List Nat) :
    runSolvers tnorm solvers prs out sc fin = .ok (true, sol, fin') ↔
    ∃ pre s post o1 f1, solvers = pre ++ s :: post ∧ AllDeclined tnorm prs sc pre out fin o1 f1 ∧
      s.optimalPose tnorm prs o1 sc f1 = .ok (true, sol, fin') :=
  Lemmas.runSolvers_true tnorm solvers prs out sc fin sol fin'

/-- C07: failure iff all of them decline or fail. -/
theorem runSolvers_fails_iff (tnorm : Pose → K) (solvers : List (Solver K Pose)) (prs : Pairings K)
    (out : Sol K Pose) (sc : SolverCtx Pose) (fin : List Nat) (sol : Sol K Pose) (fin' : List Nat) :
    runSolvers tnorm solvers prs out sc fin = .ok (false, sol, fin') ↔
    AllDeclined tnorm prs sc solvers out fin sol fin' :=
  Lemmas.runSolvers_false tnorm solvers prs out sc fin sol fin'

/-- C07: the solvers after the first one that succeeds are not run: they could even be replaced. -/
theorem runSolvers_rest_irrelevant (tnorm : Pose → K) (pre post post' : List (Solver K Pose))
    (s : Solver K Pose) (prs : Pairings K) (out : Sol K Pose) (sc : SolverCtx Pose) (fin : List Nat)
    (o1 : Sol K Pose) (f1 : List Nat) (sol : Sol K Pose) (fin' : List Nat)
    (h : AllDeclined tnorm prs sc pre out fin o1 f1)
    (hs : s.optimalPose tnorm prs o1 sc f1 = .ok (true, sol, fin')) :
    runSolvers tnorm (pre ++ s :: post) prs out sc fin =
      runSolvers tnorm (pre ++ s :: post') prs out sc fin := by
  rw [(runSolvers_first_wins ..).mpr ⟨pre, s, post, o1, f1, rfl, h, hs⟩,
    (runSolvers_first_wins ..).mpr ⟨pre, s, post', o1, f1, rfl, h, hs⟩]

end

/-- A pair of toy solvers: the first always fails, the second answers. -/
example : runSolvers (K := Int) (Pose := Int) (fun x => x)
    [{ ident := 0, untilCorr := 0, impl := fun _ _ o => .ok (false, o) },
     { ident := 1, untilCorr := 0, impl := fun _ _ _ => .ok (true, ⟨5, 1⟩) },
     { ident := 2, untilCorr := 0, impl := fun _ _ _ => .ub }]
    {} ⟨0, 1⟩ ⟨some 0, none, none, none⟩ [] = .ok (true, ⟨5, 1⟩, []) := by decide

/-! ### C13 -/

/-- C13: `run_matchers` runs the matchers in order and returns the concatenation of what they add.
Partial: the per-layer weights (`point_weights`) are not concatenated, see `runMatchers_drops_weights`. -/
theorem runMatchers_concatenates_partial (matchers : List (Matcher K Pose MS)) (iter : Nat) (pose : Pose)
    (ms0 ms1 : MS) (prs : Pairings K) (h : runMatchers matchers iter pose ms0 = .ok (ms1, prs)) :
    ∃ outs, RanInOrder iter pose matchers ms0 outs ms1 ∧ IsConcat outs prs :=
  Lemmas.runMatchers_concat matchers iter pose ms0 ms1 prs h

/-- C13, converse: whenever the matchers can be run, that concatenation is what is returned. -/
theorem runMatchers_total (matchers : List (Matcher K Pose MS)) (iter : Nat) (pose : Pose)
    (ms0 ms1 : MS) (outs : List (Pairings K)) (h : RanInOrder iter pose matchers ms0 outs ms1) :
    ∃ prs, runMatchers matchers iter pose ms0 = .ok (ms1, prs) ∧ IsConcat outs prs :=
  Lemmas.runMatchers_total matchers iter pose ms0 ms1 outs h

/-- C13, negative: the weights of the point pairings are always lost, whatever the matchers report. -/
theorem runMatchers_drops_weights (matchers : List (Matcher K Pose MS)) (iter : Nat) (pose : Pose)
    (ms0 ms1 : MS) (prs : Pairings K) (h : runMatchers matchers iter pose ms0 = .ok (ms1, prs)) :
    prs.pointWeights = [] :=
  Lemmas.runMatchers_weights matchers iter pose ms0 ms1 prs h

/-- A matcher reporting one weighted pairing, used in examples. -/
def oneWeightedMatcher : Matcher Int Int Unit :=
  { impl := fun _ _ ms _ => .ok (true, ms,
      { pt2pt := [⟨0, 0, ⟨0, 0, 0⟩, ⟨1, 0, 0⟩, 1⟩], potential := 3, pointWeights := [(1, 7)] }) }

example : runMatchers [oneWeightedMatcher, oneWeightedMatcher] 0 (0 : Int) () =
    .ok ((), { pt2pt := [⟨0, 0, ⟨0, 0, 0⟩, ⟨1, 0, 0⟩, 1⟩, ⟨0, 0, ⟨0, 0, 0⟩, ⟨1, 0, 0⟩, 1⟩],
               potential := 6, pointWeights := [] }) := by decide

/-! ### C14 -/

/-- C14: a matcher runs iff it is enabled and the iteration is in its window; otherwise it leaves
everything as it was. -/
theorem matcher_runs_iff_inWindow (m : Matcher K Pose MS) (iter : Nat) (pose : Pose) (ms : MS)
    (out : Pairings K) :
    (m.enabled = true ∧ InWindow m.runFrom m.runUpTo iter →
      m.run iter pose ms out = m.impl iter pose ms out) ∧
    (¬ (m.enabled = true ∧ InWindow m.runFrom m.runUpTo iter) →
      m.run iter pose ms out = .ok (false, ms, out)) :=
  Lemmas.matcher_window m iter pose ms out

/-- C14: a solver called within ICP (so, with an iteration number) and not subject to the
translation-correction rule runs iff it is enabled and the iteration is in its window; otherwise it
reports no solution and leaves everything as it was. -/
theorem solver_runs_iff_inWindow [LT K] [DecidableLT K] [Zero K] (tnorm : Pose → K) (s : Solver K Pose)
    (prs : Pairings K) (out : Sol K Pose) (sc : SolverCtx Pose) (fin : List Nat) (i : Nat)
    (hi : sc.iter = some i) :
    (s.enabled = true ∧ InWindow s.runFrom s.runUpTo i → ¬ s.untilCorr > 0 →
      s.optimalPose tnorm prs out sc fin = (s.impl sc prs out).bind fun (b, o) => .ok (b, o, fin)) ∧
    (¬ (s.enabled = true ∧ InWindow s.runFrom s.runUpTo i) →
      s.optimalPose tnorm prs out sc fin = .ok (false, out, fin)) :=
  Lemmas.solver_window tnorm s prs out sc fin i hi

example : InWindow 2 5 3 ∧ ¬ InWindow 2 5 6 ∧ InWindow 2 0 600 ∧ ¬ InWindow 2 0 1 := by
  simp [InWindow]

/-! ### C15 -/
section
variable [LT K] [DecidableLT K] [Zero K]

/-- C15: once a solver saw a small enough step, each later call of it in the same run is declined, with
its output untouched, whatever happens in between. -/
theorem solver_retired_for_good (tnorm : Pose → K) (f f' : List Nat)
    (before between after : List (SolverCall K Pose × (Bool × Sol K Pose)))
    (c c' : SolverCall K Pose) (a a' : Bool × Sol K Pose)
    (h : CallHistory tnorm f (before ++ (c, a) :: between ++ (c', a') :: after) f')
    (hsaw : SawSmallStep tnorm c) (hsame : c'.solver = c.solver) :
    a' = (false, c'.out) :=
  Lemmas.solver_retired tnorm f f' before between after c c' a a' h hsaw hsame

/-- C15, converse: a solver on duty which never saw a small enough step in the run so far is not
declined: its answer is that of its implementation. -/
theorem solver_not_retired_early (tnorm : Pose → K)
    (before : List (SolverCall K Pose × (Bool × Sol K Pose)))
    (c : SolverCall K Pose) (a : Bool × Sol K Pose) (f' : List Nat)
    (h : CallHistory tnorm [] (before ++ [(c, a)]) f')
    (hen : c.solver.enabled = true)
    (hwin : ∀ i, c.ctx.iter = some i → InWindow c.solver.runFrom c.solver.runUpTo i)
    (hnot : ∀ q ∈ before, q.1.solver.ident = c.solver.ident → ¬ SawSmallStep tnorm q.1)
    (hnow : ¬ SawSmallStep tnorm c) :
    c.solver.impl c.ctx c.pairings c.out = .ok a :=
  Lemmas.solver_not_early tnorm before c a f' h hen hwin hnot hnow

end

example : CallHistory (K := Int) (Pose := Int) (fun x => x) []
    [(⟨{ ident := 0, untilCorr := 3, impl := fun _ _ _ => .ok (true, ⟨9, 1⟩) }, {}, ⟨4, 1⟩,
        ⟨some 0, none, none, none⟩⟩, (true, ⟨9, 1⟩)),
     (⟨{ ident := 0, untilCorr := 3, impl := fun _ _ _ => .ok (true, ⟨9, 1⟩) }, {}, ⟨9, 1⟩,
        ⟨some 1, none, none, some 2⟩⟩, (false, ⟨9, 1⟩)),
     (⟨{ ident := 0, untilCorr := 3, impl := fun _ _ _ => .ok (true, ⟨9, 1⟩) }, {}, ⟨8, 1⟩,
        ⟨some 2, none, none, some 100⟩⟩, (false, ⟨8, 1⟩))] [0] :=
  .cons (f1 := []) (by rfl) (.cons (f1 := [0]) (by rfl) (.cons (f1 := [0]) (by rfl) (.nil _)))

/-! ### C06 -/
section
variable [Field K] [LinearOrder K] [IsStrictOrderedRing K]

/-- C06: no evaluators, or a weight which is not positive before any hard discard: an exception. -/
theorem quality_refuses_bad_weights (evs : List (QualEval K Pose)) (it : Nat) (fin : Bool) (pose : Pose)
    (prs : Pairings K) :
    (evs = [] → evaluateQuality evs it fin pose prs = .throw) ∧
    (∀ pre e post, evs = pre ++ e :: post → ¬ 0 < e.weight →
      (∀ e' ∈ pre, 0 < e'.weight ∧ ∃ q, e'.eval it fin pose prs = .ok (q, false)) →
      evaluateQuality evs it fin pose prs = .throw) :=
  Lemmas.quality_refuses evs it fin pose prs

/-- C06: a hard discard gives exactly zero, whatever the other evaluators say. -/
theorem quality_hard_discard (evs : List (QualEval K Pose)) (it : Nat) (fin : Bool) (pose : Pose)
    (prs : Pairings K) (pre post : List (QualEval K Pose)) (e : QualEval K Pose)
    (hevs : evs = pre ++ e :: post)
    (hpre : ∀ e' ∈ pre, 0 < e'.weight ∧ ∃ q, e'.eval it fin pose prs = .ok (q, false))
    (hw : 0 < e.weight) (q : K) (he : e.eval it fin pose prs = .ok (q, true)) :
    evaluateQuality evs it fin pose prs = .ok 0 :=
  Lemmas.quality_discard evs it fin pose prs pre post e hevs hpre hw q he

/-- C06: without hard discard the result is the weighted average. -/
theorem quality_weighted_average (evs : List (QualEval K Pose)) (it : Nat) (fin : Bool) (pose : Pose)
    (prs : Pairings K) (hne : evs ≠ []) (hw : ∀ e ∈ evs, 0 < e.weight) (qs : QualEval K Pose → K)
    (hq : ∀ e ∈ evs, e.eval it fin pose prs = .ok (qs e, false)) :
    evaluateQuality evs it fin pose prs =
      .ok ((evs.map fun e => e.weight * qs e).sum / (evs.map fun e => e.weight).sum) :=
  Lemmas.quality_average evs it fin pose prs hne hw qs hq

/-- C06: if each evaluator's answer is in `[lo, hi]`, with `lo ≤ 0 ≤ hi`, so is the overall quality; with
`lo = 0`, `hi = 1` this is the range `[0,1]`.  (Zero has to be in the range because of hard discards.) -/
theorem quality_in_range (evs : List (QualEval K Pose)) (it : Nat) (fin : Bool) (pose : Pose)
    (prs : Pairings K) (lo hi v : K) (hlo : lo ≤ 0) (hhi : 0 ≤ hi)
    (hq : ∀ e ∈ evs, ∀ q b, e.eval it fin pose prs = .ok (q, b) → lo ≤ q ∧ q ≤ hi)
    (h : evaluateQuality evs it fin pose prs = .ok v) : lo ≤ v ∧ v ≤ hi :=
  Lemmas.quality_range evs it fin pose prs lo hi v hlo hhi hq h

/-- C06: without hard discard the quality lies between the smallest and the greatest of the evaluators' answers. -/
theorem quality_between (evs : List (QualEval K Pose)) (it : Nat) (fin : Bool) (pose : Pose)
    (prs : Pairings K) (lo hi v : K)
    (hq : ∀ e ∈ evs, ∃ q, e.eval it fin pose prs = .ok (q, false) ∧ lo ≤ q ∧ q ≤ hi)
    (h : evaluateQuality evs it fin pose prs = .ok v) : lo ≤ v ∧ v ≤ hi := by
  simp only [evaluateQuality, Outcome.bind_def, Outcome.bind_eq_ok, Outcome.assert_eq_ok, exists_const] at h
  have key : ∀ (evs : List (QualEval K Pose)) (sw se : K),
      (∀ e ∈ evs, ∃ q, e.eval it fin pose prs = .ok (q, false) ∧ lo ≤ q ∧ q ≤ hi) →
      lo * sw ≤ se → se ≤ hi * sw → evaluateQualityLoop it fin pose prs evs sw se = .ok v → lo ≤ v ∧ v ≤ hi := by
    intro evs
    induction evs with
    | nil =>
      intro sw se _ h1 h2 h
      simp only [evaluateQualityLoop, Outcome.bind_def, Outcome.bind_eq_ok, Outcome.assert_eq_ok] at h
      obtain ⟨_, hp, h⟩ := h
      simp at h
      subst h
      exact ⟨(le_div_iff₀ hp).mpr h1, (div_le_iff₀ hp).mpr h2⟩
    | cons e evs ih =>
      intro sw se hq h1 h2 h
      simp only [evaluateQualityLoop, Outcome.bind_def, Outcome.bind_eq_ok, Outcome.assert_eq_ok] at h
      obtain ⟨_, hp, ⟨q, b⟩, he, h⟩ := h
      obtain ⟨q', he', hl, hu⟩ := hq e List.mem_cons_self
      rw [he'] at he
      obtain ⟨rfl, rfl⟩ := Prod.mk.inj (Outcome.ok.inj he)
      rw [if_neg (by simp)] at h
      refine ih _ _ (fun x hx => hq x (List.mem_cons_of_mem _ hx)) ?_ ?_ h
      · have := mul_le_mul_of_nonneg_left hl hp.le
        rw [mul_add]; linarith [mul_comm lo e.weight]
      · have := mul_le_mul_of_nonneg_left hu hp.le
        rw [mul_add]; linarith [mul_comm hi e.weight]
  exact key evs 0 0 hq (by simp) (by simp) h.2

example : evaluateQuality (K := Rat) (Pose := Unit)
    [⟨1, fun _ _ _ _ => .ok (1/2, false)⟩, ⟨3, fun _ _ _ _ => .ok (1, false)⟩] 0 true () {} =
    .ok (7/8) := by decide +kernel

/-! ### C16 -/

/-- C16: if there are no more pairings than potential pairings, the paired ratio is in `[0,1]`, zero when
nothing could be paired; and hard discard is exactly "below the minimum". -/
theorem pairedRatio_in_range (minRatio : K) (p : Pairings K) (h : p.size ≤ p.potential) :
    0 ≤ (pairedRatio minRatio p).1 ∧ (pairedRatio minRatio p).1 ≤ 1 ∧
    (p.potential = 0 → (pairedRatio minRatio p).1 = 0) ∧
    (p.potential ≠ 0 → (pairedRatio minRatio p).1 * p.potential = p.size) ∧
    ((pairedRatio minRatio p).2 = true ↔ (pairedRatio minRatio p).1 < minRatio) :=
  Lemmas.pairedRatio_range minRatio p h

/-- C16: the accounting `#pairings ≤ #potential` is kept by running matchers which keep it. -/
theorem runMatchers_accounting (matchers : List (Matcher K Pose MS)) (iter : Nat) (pose : Pose)
    (ms0 ms1 : MS) (prs : Pairings K)
    (hm : ∀ m ∈ matchers, ∀ ms b ms' out, m.impl iter pose ms {} = .ok (b, ms', out) →
      out.size ≤ out.potential)
    (h : runMatchers matchers iter pose ms0 = .ok (ms1, prs)) : prs.size ≤ prs.potential :=
  Lemmas.runMatchers_acc matchers iter pose ms0 ms1 prs hm h

example : pairedRatio (K := Rat) (1/5) { pt2pt := [⟨0, 0, ⟨0, 0, 0⟩, ⟨1, 0, 0⟩, 1⟩], potential := 4 } =
    (1/4, false) := by decide +kernel

end
end Verif.Props
