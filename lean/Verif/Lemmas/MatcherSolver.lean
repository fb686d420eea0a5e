import Verif.Spec.MatcherSolver
import Verif.Spec.Pairings
import Verif.Model.PairedRatio
import Mathlib.Algebra.Order.Field.Basic
import Mathlib.Algebra.BigOperators.Group.List.Basic
import Mathlib.Tactic.Linarith
import Mathlib.Tactic.Ring
import Mathlib.Tactic.FieldSimp
import Mathlib.Tactic.Positivity
namespace Verif.Lemmas
open Verif Verif.Spec
variable {K Pose MS : Type}

section
variable [LT K] [DecidableLT K] [Zero K]

theorem runSolvers_false (tnorm : Pose → K) (solvers : List (Solver K Pose)) (prs : Pairings K)
    (out : Sol K Pose) (sc : SolverCtx Pose) (fin : List Nat) (sol : Sol K Pose) (fin' : List Nat) :
    runSolvers tnorm solvers prs out sc fin = .ok (false, sol, fin') ↔
    AllDeclined tnorm prs sc solvers out fin sol fin' := by
  induction solvers generalizing out fin with
  | nil =>
    constructor
    · intro h; simp [runSolvers] at h; obtain ⟨rfl, rfl⟩ := h; exact .nil _ _
    · intro h; cases h; rfl
  | cons s rest ih =>
    rw [runSolvers, Outcome.bind_eq_ok]
    constructor
    · rintro ⟨⟨r, o1, f1⟩, h1, h2⟩
      cases r with
      | true => simp at h2
      | false => exact .cons h1 ((ih o1 f1).mp (by simpa using h2))
    · intro h
      cases h with
      | cons h1 h2 => exact ⟨_, h1, by simpa using (ih _ _).mpr h2⟩

theorem runSolvers_true (tnorm : Pose → K) (solvers : List (Solver K Pose)) (prs : Pairings K)
    (out : Sol K Pose) (sc : SolverCtx Pose) (fin : List Nat) (sol : Sol K Pose) (fin' : List Nat) :
    runSolvers tnorm solvers prs out sc fin = .ok (true, sol, fin') ↔
    ∃ pre s post o1 f1, solvers = pre ++ s :: post ∧ AllDeclined tnorm prs sc pre out fin o1 f1 ∧
      s.optimalPose tnorm prs o1 sc f1 = .ok (true, sol, fin') := by
  induction solvers generalizing out fin with
  | nil => simp [runSolvers]
  | cons s rest ih =>
    rw [runSolvers, Outcome.bind_eq_ok]
    constructor
    · rintro ⟨⟨r, o1, f1⟩, h1, h2⟩
      cases r with
      | true =>
        simp at h2
        obtain ⟨rfl, rfl⟩ := h2
        exact ⟨[], s, rest, out, fin, rfl, .nil _ _, h1⟩
      | false =>
        obtain ⟨pre, s', post, o2, f2, rfl, hd, hs⟩ := (ih o1 f1).mp (by simpa using h2)
        exact ⟨s :: pre, s', post, o2, f2, rfl, .cons h1 hd, hs⟩
    · rintro ⟨pre, s', post, o2, f2, heq, hd, hs⟩
      cases pre with
      | nil =>
        cases hd
        simp at heq
        obtain ⟨rfl, rfl⟩ := heq
        exact ⟨_, hs, by simp⟩
      | cons p pre =>
        simp at heq
        obtain ⟨rfl, rfl⟩ := heq
        cases hd with
        | cons h1 h2 => exact ⟨_, h1, by simpa using (ih _ _).mpr ⟨pre, s', post, o2, f2, rfl, h2, hs⟩⟩

/-- a retired solver is declined and stays retired -/
theorem optimalPose_retired (tnorm : Pose → K) (s : Solver K Pose) (prs : Pairings K) (out : Sol K Pose)
    (sc : SolverCtx Pose) (fin : List Nat) (hu : s.untilCorr > 0) (hf : s.ident ∈ fin) :
    s.optimalPose tnorm prs out sc fin = .ok (false, out, fin) := by
  unfold Solver.optimalPose
  split
  · rfl
  · split
    · rfl
    · rw [if_pos ⟨hu, hf⟩]

theorem optimalPose_mono (tnorm : Pose → K) (s : Solver K Pose) (prs : Pairings K) (out : Sol K Pose)
    (sc : SolverCtx Pose) (fin : List Nat) (b : Bool) (o : Sol K Pose) (f1 : List Nat)
    (h : s.optimalPose tnorm prs out sc fin = .ok (b, o, f1)) : ∀ x ∈ fin, x ∈ f1 := by
  unfold Solver.optimalPose at h
  intro x hx
  split at h
  · cases h; exact hx
  · split at h
    · cases h; exact hx
    · split at h
      · cases h; exact hx
      · split at h
        · cases h; exact List.mem_cons_of_mem _ hx
        · rw [Outcome.bind_eq_ok] at h
          obtain ⟨a, -, h⟩ := h
          cases h; exact hx

theorem not_outside_iff (s : Solver K Pose) (sc : SolverCtx Pose) :
    s.outsideWindow sc = false ↔ ∀ i, sc.iter = some i → InWindow s.runFrom s.runUpTo i := by
  unfold Solver.outsideWindow InWindow
  cases sc.iter with
  | none => simp
  | some i =>
    simp only [Bool.or_eq_false_iff, decide_eq_false_iff_not, Bool.and_eq_false_iff, Option.some.injEq]
    constructor
    · rintro ⟨h1, h2⟩ _ rfl; omega
    · intro h; have := h i rfl; omega

theorem stepBelow_iff (tnorm : Pose → K) (sc : SolverCtx Pose) (t : K) :
    sc.stepBelow tnorm t = true ↔ ∃ d, sc.lastStep = some d ∧ tnorm d < t := by
  unfold SolverCtx.stepBelow
  cases sc.lastStep <;> simp

theorem optimalPose_saw (tnorm : Pose → K) (c : SolverCall K Pose) (f : List Nat) (b : Bool)
    (o : Sol K Pose) (f1 : List Nat)
    (h : c.solver.optimalPose tnorm c.pairings c.out c.ctx f = .ok (b, o, f1))
    (hsaw : SawSmallStep tnorm c) : c.solver.ident ∈ f1 := by
  obtain ⟨he, hw, hu, hst⟩ := hsaw
  have hw' := (not_outside_iff c.solver c.ctx).mpr hw
  have hst' := (stepBelow_iff tnorm c.ctx c.solver.untilCorr).mpr hst
  by_cases hf : c.solver.ident ∈ f
  · exact optimalPose_mono _ _ _ _ _ _ _ _ _ h _ hf
  · unfold Solver.optimalPose at h
    rw [he, hw'] at h
    simp only [Bool.not_true, Bool.false_eq_true, if_false] at h
    rw [if_neg (by tauto), if_pos ⟨hu, hst'⟩] at h
    cases h; exact List.mem_cons_self

theorem optimalPose_new_mark (tnorm : Pose → K) (c : SolverCall K Pose) (f : List Nat) (b : Bool)
    (o : Sol K Pose) (f1 : List Nat)
    (h : c.solver.optimalPose tnorm c.pairings c.out c.ctx f = .ok (b, o, f1)) (x : Nat)
    (hx : x ∈ f1) : x ∈ f ∨ (x = c.solver.ident ∧ SawSmallStep tnorm c) := by
  unfold Solver.optimalPose at h
  split at h
  · cases h; exact Or.inl hx
  · rename_i hen
    split at h
    · cases h; exact Or.inl hx
    · rename_i hw
      split at h
      · cases h; exact Or.inl hx
      · split at h
        · rename_i hs
          cases h
          rcases List.mem_cons.mp hx with rfl | hx
          · right
            refine ⟨rfl, by simpa using hen, (not_outside_iff _ _).mp (by simpa using hw), hs.1,
              (stepBelow_iff _ _ _).mp hs.2⟩
          · exact Or.inl hx
        · rw [Outcome.bind_eq_ok] at h
          obtain ⟨a, -, h⟩ := h
          cases h; exact Or.inl hx

theorem history_append (tnorm : Pose → K) (f f' : List Nat)
    (a b : List (SolverCall K Pose × (Bool × Sol K Pose)))
    (h : CallHistory tnorm f (a ++ b) f') :
    ∃ f1, CallHistory tnorm f a f1 ∧ CallHistory tnorm f1 b f' := by
  induction a generalizing f with
  | nil => exact ⟨f, .nil _, h⟩
  | cons q a ih =>
    cases h with
    | cons h1 h2 =>
      obtain ⟨f2, h3, h4⟩ := ih _ h2
      exact ⟨f2, .cons h1 h3, h4⟩

theorem history_mono (tnorm : Pose → K) (f f' : List Nat)
    (a : List (SolverCall K Pose × (Bool × Sol K Pose)))
    (h : CallHistory tnorm f a f') : ∀ x ∈ f, x ∈ f' := by
  induction h with
  | nil => simp
  | cons h1 h2 ih => intro x hx; exact ih x (optimalPose_mono _ _ _ _ _ _ _ _ _ h1 x hx)

theorem history_marks (tnorm : Pose → K) (f f' : List Nat)
    (a : List (SolverCall K Pose × (Bool × Sol K Pose)))
    (h : CallHistory tnorm f a f') (x : Nat) (hx : x ∈ f') :
    x ∈ f ∨ ∃ q ∈ a, q.1.solver.ident = x ∧ SawSmallStep tnorm q.1 := by
  induction h with
  | nil => exact Or.inl hx
  | cons h1 h2 ih =>
    rcases ih hx with hm | ⟨q, hq, h⟩
    · rcases optimalPose_new_mark tnorm _ _ _ _ _ h1 x hm with hm | ⟨rfl, hs⟩
      · exact Or.inl hm
      · exact Or.inr ⟨_, List.mem_cons_self, rfl, hs⟩
    · exact Or.inr ⟨q, List.mem_cons_of_mem _ hq, h⟩

theorem solver_retired (tnorm : Pose → K) (f f' : List Nat)
    (before between after : List (SolverCall K Pose × (Bool × Sol K Pose)))
    (c c' : SolverCall K Pose) (a a' : Bool × Sol K Pose)
    (h : CallHistory tnorm f (before ++ (c, a) :: between ++ (c', a') :: after) f')
    (hsaw : SawSmallStep tnorm c) (hsame : c'.solver = c.solver) :
    a' = (false, c'.out) := by
  obtain ⟨f1, h1, h2⟩ := history_append _ _ _ _ _ h
  obtain ⟨f0, -, h0⟩ := history_append _ _ _ _ _ h1
  cases h0 with
  | cons hc hb =>
    have hm := optimalPose_saw tnorm c _ _ _ _ hc hsaw
    have hm1 := history_mono _ _ _ _ hb _ hm
    cases h2 with
    | cons hc' _ =>
      rw [optimalPose_retired tnorm c'.solver _ _ _ _ (by rw [hsame]; exact hsaw.2.2.1)
        (by rw [hsame]; exact hm1)] at hc'
      cases hc'; rfl

theorem solver_not_early (tnorm : Pose → K)
    (before : List (SolverCall K Pose × (Bool × Sol K Pose)))
    (c : SolverCall K Pose) (a : Bool × Sol K Pose) (f' : List Nat)
    (h : CallHistory tnorm [] (before ++ [(c, a)]) f')
    (hen : c.solver.enabled = true)
    (hwin : ∀ i, c.ctx.iter = some i → InWindow c.solver.runFrom c.solver.runUpTo i)
    (hnot : ∀ q ∈ before, q.1.solver.ident = c.solver.ident → ¬ SawSmallStep tnorm q.1)
    (hnow : ¬ SawSmallStep tnorm c) :
    c.solver.impl c.ctx c.pairings c.out = .ok a := by
  obtain ⟨f1, h1, h2⟩ := history_append _ _ _ _ _ h
  have hnf : c.solver.ident ∉ f1 := by
    intro hm
    rcases history_marks _ _ _ _ h1 _ hm with hm | ⟨q, hq, hi, hs⟩
    · simp at hm
    · exact hnot q hq hi hs
  cases h2 with
  | cons hc _ =>
    unfold Solver.optimalPose at hc
    rw [hen, (not_outside_iff c.solver c.ctx).mpr hwin] at hc
    simp only [Bool.not_true, Bool.false_eq_true, if_false] at hc
    rw [if_neg (by tauto), if_neg] at hc
    · rw [Outcome.bind_eq_ok] at hc
      obtain ⟨⟨b', o'⟩, hi, hc⟩ := hc
      cases hc; exact hi
    · rintro ⟨hu, hst⟩
      exact hnow ⟨hen, hwin, hu, (stepBelow_iff _ _ _).mp hst⟩

theorem solver_window (tnorm : Pose → K) (s : Solver K Pose)
    (prs : Pairings K) (out : Sol K Pose) (sc : SolverCtx Pose) (fin : List Nat) (i : Nat)
    (hi : sc.iter = some i) :
    (s.enabled = true ∧ InWindow s.runFrom s.runUpTo i → ¬ s.untilCorr > 0 →
      s.optimalPose tnorm prs out sc fin = (s.impl sc prs out).bind fun (b, o) => .ok (b, o, fin)) ∧
    (¬ (s.enabled = true ∧ InWindow s.runFrom s.runUpTo i) →
      s.optimalPose tnorm prs out sc fin = .ok (false, out, fin)) := by
  constructor
  · rintro ⟨he, hw⟩ hu
    have hw' : s.outsideWindow sc = false := (not_outside_iff s sc).mpr (by
      intro j hj; rw [hi] at hj; cases hj; exact hw)
    unfold Solver.optimalPose
    rw [he, hw']
    simp [hu]
  · intro hn
    unfold Solver.optimalPose
    by_cases he : s.enabled = true
    · have : s.outsideWindow sc = true := by
        by_contra hc
        have := (not_outside_iff s sc).mp (by simpa using hc)
        exact hn ⟨he, this i hi⟩
      simp [he, this]
    · simp [he]
end

theorem matcher_window (m : Matcher K Pose MS) (iter : Nat) (pose : Pose) (ms : MS)
    (out : Pairings K) :
    (m.enabled = true ∧ InWindow m.runFrom m.runUpTo iter →
      m.run iter pose ms out = m.impl iter pose ms out) ∧
    (¬ (m.enabled = true ∧ InWindow m.runFrom m.runUpTo iter) →
      m.run iter pose ms out = .ok (false, ms, out)) := by
  unfold Matcher.run InWindow
  constructor
  · rintro ⟨he, h1, h2⟩
    rw [he]
    simp only [Bool.not_true, Bool.false_eq_true, if_false]
    rw [if_neg (by omega), if_neg (by simp; omega)]
  · intro hn
    by_cases he : m.enabled = true
    · simp only [he, Bool.not_true, Bool.false_eq_true, if_false]
      by_cases h1 : iter < m.runFrom
      · rw [if_pos h1]
      · rw [if_neg h1, if_pos]
        have : ¬ (m.runUpTo = 0 ∨ iter ≤ m.runUpTo) := fun h => hn ⟨he, by omega, h⟩
        simp; omega
    · simp [he]

/-! run_matchers -/

theorem loop_concat (matchers : List (Matcher K Pose MS)) (iter : Nat) (pose : Pose)
    (ms0 ms1 : MS) (acc prs : Pairings K)
    (h : runMatchersLoop iter pose matchers ms0 acc = .ok (ms1, prs)) :
    ∃ outs, RanInOrder iter pose matchers ms0 outs ms1 ∧ prs = outs.foldl Pairings.pushBackCopy acc := by
  induction matchers generalizing ms0 acc with
  | nil => simp [runMatchersLoop] at h; obtain ⟨rfl, rfl⟩ := h; exact ⟨[], .nil _, rfl⟩
  | cons m rest ih =>
    rw [runMatchersLoop, Outcome.bind_eq_ok] at h
    obtain ⟨⟨b, ms', pc⟩, h1, h2⟩ := h
    obtain ⟨outs, hr, hp⟩ := ih _ _ h2
    exact ⟨pc :: outs, .cons h1 hr, hp⟩

theorem loop_total (matchers : List (Matcher K Pose MS)) (iter : Nat) (pose : Pose)
    (ms0 ms1 : MS) (acc : Pairings K) (outs : List (Pairings K))
    (h : RanInOrder iter pose matchers ms0 outs ms1) :
    runMatchersLoop iter pose matchers ms0 acc = .ok (ms1, outs.foldl Pairings.pushBackCopy acc) := by
  induction h generalizing acc with
  | nil => rfl
  | cons h1 h2 ih => rw [runMatchersLoop, h1]; exact ih _

theorem fold_fields (outs : List (Pairings K)) (acc : Pairings K) :
    let r := outs.foldl Pairings.pushBackCopy acc
    r.pt2pt = acc.pt2pt ++ (outs.map (·.pt2pt)).flatten ∧
    r.pt2ln = acc.pt2ln ++ (outs.map (·.pt2ln)).flatten ∧
    r.pt2pl = acc.pt2pl ++ (outs.map (·.pt2pl)).flatten ∧
    r.ln2ln = acc.ln2ln ++ (outs.map (·.ln2ln)).flatten ∧
    r.pl2pl = acc.pl2pl ++ (outs.map (·.pl2pl)).flatten ∧
    r.potential = acc.potential + (outs.map (·.potential)).sum ∧
    r.pointWeights = acc.pointWeights := by
  induction outs generalizing acc with
  | nil => simp
  | cons o outs ih =>
    simp only [List.foldl_cons]
    obtain ⟨h1, h2, h3, h4, h5, h6, h7⟩ := ih (acc.pushBackCopy o)
    rw [h1, h2, h3, h4, h5, h6, h7]
    simp [Pairings.pushBackCopy, Nat.add_assoc]

theorem fold_isConcat (outs : List (Pairings K)) : IsConcat outs (outs.foldl Pairings.pushBackCopy {}) := by
  obtain ⟨h1, h2, h3, h4, h5, h6, h7⟩ := fold_fields outs {}
  exact ⟨by simpa using h1, by simpa using h2, by simpa using h3, by simpa using h4, by simpa using h5,
    by simpa using h6⟩

theorem runMatchers_concat (matchers : List (Matcher K Pose MS)) (iter : Nat) (pose : Pose)
    (ms0 ms1 : MS) (prs : Pairings K) (h : runMatchers matchers iter pose ms0 = .ok (ms1, prs)) :
    ∃ outs, RanInOrder iter pose matchers ms0 outs ms1 ∧ IsConcat outs prs := by
  obtain ⟨outs, hr, rfl⟩ := loop_concat _ _ _ _ _ _ _ h
  exact ⟨outs, hr, fold_isConcat outs⟩

theorem runMatchers_total (matchers : List (Matcher K Pose MS)) (iter : Nat) (pose : Pose)
    (ms0 ms1 : MS) (outs : List (Pairings K)) (h : RanInOrder iter pose matchers ms0 outs ms1) :
    ∃ prs, runMatchers matchers iter pose ms0 = .ok (ms1, prs) ∧ IsConcat outs prs :=
  ⟨_, loop_total _ _ _ _ _ _ _ h, fold_isConcat outs⟩

theorem runMatchers_weights (matchers : List (Matcher K Pose MS)) (iter : Nat) (pose : Pose)
    (ms0 ms1 : MS) (prs : Pairings K) (h : runMatchers matchers iter pose ms0 = .ok (ms1, prs)) :
    prs.pointWeights = [] := by
  obtain ⟨outs, hr, rfl⟩ := loop_concat _ _ _ _ _ _ _ h
  exact (fold_fields outs {}).2.2.2.2.2.2

theorem run_acc (m : Matcher K Pose MS) (iter : Nat) (pose : Pose) (ms : MS) (b : Bool) (ms' : MS)
    (out : Pairings K)
    (hm : ∀ ms b ms' out, m.impl iter pose ms {} = .ok (b, ms', out) → out.size ≤ out.potential)
    (h : m.run iter pose ms {} = .ok (b, ms', out)) : out.size ≤ out.potential := by
  unfold Matcher.run at h
  split at h
  · cases h; exact Nat.le_refl _
  · split at h
    · cases h; exact Nat.le_refl _
    · split at h
      · cases h; exact Nat.le_refl _
      · exact hm _ _ _ _ h

theorem loop_acc (matchers : List (Matcher K Pose MS)) (iter : Nat) (pose : Pose)
    (ms0 ms1 : MS) (acc prs : Pairings K)
    (hm : ∀ m ∈ matchers, ∀ ms b ms' out, m.impl iter pose ms {} = .ok (b, ms', out) →
      out.size ≤ out.potential)
    (hacc : acc.size ≤ acc.potential)
    (h : runMatchersLoop iter pose matchers ms0 acc = .ok (ms1, prs)) : prs.size ≤ prs.potential := by
  induction matchers generalizing ms0 acc with
  | nil => simp [runMatchersLoop] at h; obtain ⟨rfl, rfl⟩ := h; exact hacc
  | cons m rest ih =>
    rw [runMatchersLoop, Outcome.bind_eq_ok] at h
    obtain ⟨⟨b, ms', pc⟩, h1, h2⟩ := h
    have hpc := run_acc m iter pose ms0 b ms' pc (hm m List.mem_cons_self) h1
    refine ih ms' _ (fun m hm' => hm m (List.mem_cons_of_mem _ hm')) ?_ h2
    simp only [Pairings.size, Pairings.pushBackCopy, List.length_append] at *
    omega

theorem runMatchers_acc (matchers : List (Matcher K Pose MS)) (iter : Nat) (pose : Pose)
    (ms0 ms1 : MS) (prs : Pairings K)
    (hm : ∀ m ∈ matchers, ∀ ms b ms' out, m.impl iter pose ms {} = .ok (b, ms', out) →
      out.size ≤ out.potential)
    (h : runMatchers matchers iter pose ms0 = .ok (ms1, prs)) : prs.size ≤ prs.potential :=
  loop_acc matchers iter pose ms0 ms1 {} prs hm (Nat.le_refl _) h

/-! quality -/
section
variable [Field K] [LinearOrder K] [IsStrictOrderedRing K]

theorem qloop_pre (it : Nat) (fin : Bool) (pose : Pose) (prs : Pairings K) (pre post : List (QualEval K Pose))
    (sw se : K) (hpre : ∀ e' ∈ pre, 0 < e'.weight ∧ ∃ q, e'.eval it fin pose prs = .ok (q, false)) :
    ∃ sw' se', evaluateQualityLoop it fin pose prs (pre ++ post) sw se =
      evaluateQualityLoop it fin pose prs post sw' se' := by
  induction pre generalizing sw se with
  | nil => exact ⟨sw, se, rfl⟩
  | cons e pre ih =>
    obtain ⟨hw, q, hq⟩ := hpre e List.mem_cons_self
    obtain ⟨sw', se', h⟩ := ih (sw + e.weight) (se + e.weight * q)
      (fun e' he' => hpre e' (List.mem_cons_of_mem _ he'))
    refine ⟨sw', se', ?_⟩
    rw [← h]
    simp [evaluateQualityLoop, Outcome.assert, hw, hq]

theorem quality_refuses (evs : List (QualEval K Pose)) (it : Nat) (fin : Bool) (pose : Pose)
    (prs : Pairings K) :
    (evs = [] → evaluateQuality evs it fin pose prs = .throw) ∧
    (∀ pre e post, evs = pre ++ e :: post → ¬ 0 < e.weight →
      (∀ e' ∈ pre, 0 < e'.weight ∧ ∃ q, e'.eval it fin pose prs = .ok (q, false)) →
      evaluateQuality evs it fin pose prs = .throw) := by
  constructor
  · rintro rfl; simp [evaluateQuality, Outcome.assert]
  · rintro pre e post rfl hw hpre
    obtain ⟨sw, se, h⟩ := qloop_pre it fin pose prs pre (e :: post) 0 0 hpre
    simp [evaluateQuality, Outcome.assert, h, evaluateQualityLoop, hw]

theorem quality_discard (evs : List (QualEval K Pose)) (it : Nat) (fin : Bool) (pose : Pose)
    (prs : Pairings K) (pre post : List (QualEval K Pose)) (e : QualEval K Pose)
    (hevs : evs = pre ++ e :: post)
    (hpre : ∀ e' ∈ pre, 0 < e'.weight ∧ ∃ q, e'.eval it fin pose prs = .ok (q, false))
    (hw : 0 < e.weight) (q : K) (he : e.eval it fin pose prs = .ok (q, true)) :
    evaluateQuality evs it fin pose prs = .ok 0 := by
  subst hevs
  obtain ⟨sw, se, h⟩ := qloop_pre it fin pose prs pre (e :: post) 0 0 hpre
  simp [evaluateQuality, Outcome.assert, h, evaluateQualityLoop, hw, he]

theorem qloop_avg (it : Nat) (fin : Bool) (pose : Pose) (prs : Pairings K) (evs : List (QualEval K Pose))
    (sw se : K) (hw : ∀ e ∈ evs, 0 < e.weight) (qs : QualEval K Pose → K)
    (hq : ∀ e ∈ evs, e.eval it fin pose prs = .ok (qs e, false))
    (hpos : 0 < sw + (evs.map fun e => e.weight).sum) :
    evaluateQualityLoop it fin pose prs evs sw se =
      .ok ((se + (evs.map fun e => e.weight * qs e).sum) / (sw + (evs.map fun e => e.weight).sum)) := by
  induction evs generalizing sw se with
  | nil => simp at hpos; simp [evaluateQualityLoop, Outcome.assert, hpos]
  | cons e evs ih =>
    simp only [List.map_cons, List.sum_cons] at hpos ⊢
    have h1 := hw e List.mem_cons_self
    have h2 := hq e List.mem_cons_self
    have := ih (sw + e.weight) (se + e.weight * qs e) (fun e' h => hw e' (List.mem_cons_of_mem _ h))
      (fun e' h => hq e' (List.mem_cons_of_mem _ h)) (by rw [add_assoc]; exact hpos)
    simp [evaluateQualityLoop, Outcome.assert, h1, h2, this, add_assoc]

theorem sum_weights_pos (evs : List (QualEval K Pose)) (hw : ∀ e ∈ evs, 0 < e.weight) :
    0 ≤ (evs.map fun e => e.weight).sum ∧ (evs ≠ [] → 0 < (evs.map fun e => e.weight).sum) := by
  induction evs with
  | nil => simp
  | cons e evs ih =>
    have h1 := hw e List.mem_cons_self
    have h2 := (ih (fun e' h => hw e' (List.mem_cons_of_mem _ h))).1
    simp only [List.map_cons, List.sum_cons]
    constructor
    · linarith
    · intro _; linarith

theorem quality_average (evs : List (QualEval K Pose)) (it : Nat) (fin : Bool) (pose : Pose)
    (prs : Pairings K) (hne : evs ≠ []) (hw : ∀ e ∈ evs, 0 < e.weight) (qs : QualEval K Pose → K)
    (hq : ∀ e ∈ evs, e.eval it fin pose prs = .ok (qs e, false)) :
    evaluateQuality evs it fin pose prs =
      .ok ((evs.map fun e => e.weight * qs e).sum / (evs.map fun e => e.weight).sum) := by
  have hpos := (sum_weights_pos evs hw).2 hne
  have := qloop_avg it fin pose prs evs 0 0 hw qs hq (by simpa using hpos)
  simp [evaluateQuality, Outcome.assert, hne, this]

theorem qloop_range (it : Nat) (fin : Bool) (pose : Pose) (prs : Pairings K) (evs : List (QualEval K Pose))
    (sw se lo hi v : K) (hlo : lo ≤ 0) (hhi : 0 ≤ hi)
    (hq : ∀ e ∈ evs, ∀ q b, e.eval it fin pose prs = .ok (q, b) → lo ≤ q ∧ q ≤ hi)
    (h1 : lo * sw ≤ se) (h2 : se ≤ hi * sw)
    (h : evaluateQualityLoop it fin pose prs evs sw se = .ok v) : lo ≤ v ∧ v ≤ hi := by
  induction evs generalizing sw se with
  | nil =>
    simp only [evaluateQualityLoop, Outcome.bind_def, Outcome.bind_eq_ok, Outcome.assert_eq_ok] at h
    obtain ⟨_, hp, h⟩ := h
    simp at h
    subst h
    exact ⟨(le_div_iff₀ hp).mpr h1, (div_le_iff₀ hp).mpr h2⟩
  | cons e evs ih =>
    simp only [evaluateQualityLoop, Outcome.bind_def, Outcome.bind_eq_ok, Outcome.assert_eq_ok] at h
    obtain ⟨_, hp, ⟨q, b⟩, he, h⟩ := h
    obtain ⟨hl, hu⟩ := hq e List.mem_cons_self q b he
    cases b with
    | true => simp at h; subst h; exact ⟨hlo, hhi⟩
    | false =>
      simp at h
      have hp' : 0 < e.weight := hp
      refine ih _ _ (fun e' he' => hq e' (List.mem_cons_of_mem _ he')) ?_ ?_ h
      · have := mul_le_mul_of_nonneg_left hl hp'.le
        linarith [mul_add lo sw e.weight, mul_comm lo e.weight]
      · have := mul_le_mul_of_nonneg_left hu hp'.le
        linarith [mul_add hi sw e.weight, mul_comm hi e.weight]

theorem quality_range (evs : List (QualEval K Pose)) (it : Nat) (fin : Bool) (pose : Pose)
    (prs : Pairings K) (lo hi v : K) (hlo : lo ≤ 0) (hhi : 0 ≤ hi)
    (hq : ∀ e ∈ evs, ∀ q b, e.eval it fin pose prs = .ok (q, b) → lo ≤ q ∧ q ≤ hi)
    (h : evaluateQuality evs it fin pose prs = .ok v) : lo ≤ v ∧ v ≤ hi := by
  simp only [evaluateQuality, Outcome.bind_def, Outcome.bind_eq_ok] at h
  obtain ⟨_, -, h⟩ := h
  exact qloop_range it fin pose prs evs 0 0 lo hi v hlo hhi hq (by simp) (by simp) h

theorem pairedRatio_range (minRatio : K) (p : Pairings K) (h : p.size ≤ p.potential) :
    0 ≤ (pairedRatio minRatio p).1 ∧ (pairedRatio minRatio p).1 ≤ 1 ∧
    (p.potential = 0 → (pairedRatio minRatio p).1 = 0) ∧
    (p.potential ≠ 0 → (pairedRatio minRatio p).1 * p.potential = p.size) ∧
    ((pairedRatio minRatio p).2 = true ↔ (pairedRatio minRatio p).1 < minRatio) := by
  unfold pairedRatio
  by_cases h0 : p.potential = 0
  · simp [h0]
  · have hpos : (0 : K) < p.potential := by
      have : 0 < p.potential := Nat.pos_of_ne_zero h0
      exact_mod_cast this
    simp only [h0, if_false]
    refine ⟨by positivity, ?_, by simp, ?_, by simp⟩
    · rw [div_le_one hpos]; exact_mod_cast h
    · intro _; field_simp

end
end Verif.Lemmas
