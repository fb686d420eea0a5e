import Verif.Spec.PlaneReg
import Verif.Lemmas.EndToEnd
/-
Lemmas for registrations with planes (C112).
-/
namespace Verif.Lemmas.PR
open Verif Verif.Spec Verif.Lemmas
set_option linter.unusedSectionVars false
variable {K : Type} [Field K] [LinearOrder K] [IsStrictOrderedRing K]

/-- A run whose matchers and solvers get to `T` from both the guess and `T` itself ends with `T`, and the quality `qv` its pairings have. -/
theorem settles {MS : Type} {ops : PoseOps K (Pose3 K)} {env : IcpEnv K (Pose3 K) MS} {p : IcpParams K} {T T0 : Pose3 K} {qv : K}
    (Good : Pairings K → Prop) (ho : PoseDiffs ops) (hhook : env.hook = none) (hge : env.globalEmpty = false) (hle : env.localEmpty = false)
    (hms : env.matchers ≠ []) (hss : env.solvers ≠ []) (hqs : env.quality ≠ []) (hne : ∀ prs, Good prs → prs.isEmpty = false)
    (step : ∀ P, P = T0 ∨ P = T → ∀ it, ∃ ms prs, runMatchers env.matchers it P env.freshMS = .ok (ms, prs) ∧ Good prs ∧
      ∀ out sc fin, sc.guess = some P → runSolvers ops.tnorm env.solvers prs out sc fin = .ok (true, ⟨T, 1⟩, fin))
    (hq : ∀ prs, Good prs → ∀ it fin pose, evaluateQuality env.quality it fin pose prs = .ok qv)
    (hchk : ∀ k ∈ p.qualityCheckpoints, k.2 ≤ qv) (hst : 0 < p.minAbsStepTrans) (hsr : 0 < p.minAbsStepRot)
    (wantsLog : Bool) (hlog : LogThere p wantsLog) (hit : 1 ≤ p.maxIterations) :
    ∃ r, align ops env p T0 1 wantsLog = .ok r ∧
      r.pose = T ∧ r.scale = 1 ∧ r.quality = qv ∧ Good r.pairings ∧ r.nIterations ≤ 1 ∧
      (2 ≤ p.maxIterations → r.reason = .stalled) := by
  have body : ∀ s : LoopState K (Pose3 K), (s.sol.pose = T0 ∨ s.sol.pose = T) → (p.saveIterationDetails = true → s.log.isSome = true) →
      ∃ s' brk, icpBody ops env p T0 s = .ok (s', brk) ∧ s'.n = s.n ∧ s'.sol = ⟨T, 1⟩ ∧ Good s'.pairings ∧ s'.log.isSome = s.log.isSome ∧
      ((isStalled p (stepNorms ops T s.prev s.prev2) = true ∧ brk = some .stalled) ∨
       (isStalled p (stepNorms ops T s.prev s.prev2) = false ∧ brk = none ∧ s'.prev = T ∧ s'.prev2 = some s.prev)) := by
    intro s hpose hl
    obtain ⟨ms, prs, hm1, hm2, hsolve⟩ := step _ hpose s.n
    have hemp := hne prs hm2
    have hck : checkpointFails env p s.n T prs = .ok false := by
      unfold checkpointFails
      cases hl : p.qualityCheckpoints.lookup s.n with
      | none => rfl
      | some q =>
        have hmem : (s.n, q) ∈ p.qualityCheckpoints := by
          obtain ⟨l1, l2, h1, -⟩ := List.lookup_eq_some_iff.mp hl
          rw [h1]; simp
        have := hchk _ hmem
        simp only [hq prs hm2, Outcome.bind]
        simpa using this
    have hsave : ∃ log, saveDetails p s.n (isStalled p (stepNorms ops T s.prev s.prev2)) T prs s.log = .ok log ∧
        log.isSome = s.log.isSome := by
      unfold saveDetails
      split
      · rename_i h
        simp only [Bool.and_eq_true] at h
        have := hl h.1
        cases hh : s.log with
        | none => rw [hh] at this; simp at this
        | some l => exact ⟨_, rfl, rfl⟩
      · exact ⟨_, rfl, rfl⟩
    obtain ⟨log, hlog1, hlog2⟩ := hsave
    have hook : ∀ n prs sol, hookStops env n prs sol = false := by
      intro n prs sol; unfold hookStops; rw [hhook]
    unfold icpBody
    simp only [hm1, Outcome.bind, hemp, Bool.false_eq_true, if_false, hsolve, Bool.not_true, hlog1]
    cases hst : isStalled p (stepNorms ops T s.prev s.prev2) with
    | true => exact ⟨_, _, rfl, rfl, rfl, hm2, hlog2, Or.inl (by simp)⟩
    | false =>
      simp only [Bool.false_eq_true, if_false, hck, hook]
      exact ⟨_, _, rfl, rfl, rfl, hm2, hlog2, Or.inr (by simp)⟩
  set s0 : LoopState K (Pose3 K) :=
    { n := 0, sol := ⟨T0, 1⟩, pairings := {}, prev := T0, prev2 := none, lastCorr := none,
      fin := [], log := if wantsLog || p.generateDebugFiles then some [] else none,
      reason := .undefined, trace := [] } with hs0
  have hlog0 : p.saveIterationDetails = true → s0.log.isSome = true := by
    intro h
    rcases hlog h with h | h <;> simp [hs0, h]
  have hloop : ∃ s, icpLoop ops env p T0 p.maxIterations s0 = .ok s ∧ s.sol = ⟨T, 1⟩ ∧ Good s.pairings ∧
      s.n ≤ 1 ∧ (2 ≤ p.maxIterations → s.reason = .stalled) := by
    obtain ⟨m, hm⟩ : ∃ m, p.maxIterations = m + 1 := ⟨p.maxIterations - 1, by omega⟩
    obtain ⟨s1, b1, h1, n1, o1, a1, l1, c1⟩ := body s0 (Or.inl rfl) hlog0
    rw [hm]
    simp only [icpLoop, h1, Outcome.bind]
    rcases c1 with ⟨-, rfl⟩ | ⟨-, rfl, p1, q1⟩
    · exact ⟨_, rfl, o1, a1, (by show s1.n ≤ 1; rw [n1]; simp [hs0]), fun _ => rfl⟩
    · cases m with
      | zero => exact ⟨_, rfl, o1, a1, by simp [hs0], fun h => by omega⟩
      | succ m =>
        obtain ⟨s2, b2, h2, n2, o2, a2, l2, c2⟩ := body { s1 with n := s0.n + 1 } (Or.inr (by simp only [o1]))
          (fun h => by simp only [l1]; exact hlog0 h)
        simp only [icpLoop, h2, Outcome.bind]
        simp only [p1, stalled_self ho hst hsr] at c2
        rcases c2 with ⟨-, rfl⟩ | ⟨h, -⟩
        · exact ⟨_, rfl, o2, a2, by simp only [n2]; simp [hs0], fun _ => rfl⟩
        · cases h
  obtain ⟨s, h1, h2, h3, h4, h5⟩ := hloop
  refine ⟨⟨s.n, if s.n ≥ p.maxIterations then .maxIterations else s.reason, s.sol.pose, s.sol.scale, s.pairings, qv, s.log,
    s.trace⟩, ?_, by simp [h2],
    by simp [h2], rfl, h3, h4, ?_⟩
  · unfold align
    have e3 : decide (p.maxIterations > 0) = true := by simp; omega
    simp only [Outcome.assert, hms, hss, hqs, hge, hle, if_true, Outcome.bind_def, Outcome.bind, ne_eq, not_false_eq_true, and_self, ← hs0, h1,
      hq _ h3, e3, Bool.or_true, Bool.not_true, Bool.and_false, Bool.false_eq_true, if_false, Outcome.pure_def]
  · intro h
    simp only [if_neg (show ¬ s.n ≥ p.maxIterations by omega)]
    exact h5 h

/-- State after `n` local points. -/
structure PlInv (pts : List (P3 K)) (name : String) (f : P3 K → PlanePatch K) (out : Pairings K) (n : Nat) (s : MatchState K × Pairings K) : Prop where
  out : s.2 = { out with pt2pl := out.pt2pl ++ (pts.take n).map fun x => ⟨f x, x⟩ }
  rl : ∀ i, i < pts.length → Readable s.1.localFlags name i
  fl : ∀ i, Flagged s.1.localFlags name i → i < n

theorem plInv_step {c : PlCfg K} {tf : P3 K → P3 K} {g : GLayer K} {name : String} {pts : List (P3 K)} {f : P3 K → PlanePatch K} {out : Pairings K}
    (hf : ∀ x ∈ pts, ∃ d, g.nnPlane (tf x) c.thr = some (f x, d) ∧ d ≤ c.thr) {n : Nat} {s : MatchState K × Pairings K}
    (hn : n < pts.length) (hi : PlInv pts name f out n s) :
    ∃ s', plStep c g name pts ⟨none, pts.map tf⟩ s n = .ok s' ∧ PlInv pts name f out (n + 1) s' := by
  have hskip : skipLocal c.toPtsCfg s.1 name n = .ok false := by
    unfold skipLocal
    split
    · rfl
    · exact not_flagged_read (hi.rl n hn) (fun h => absurd (hi.fl n h) (lt_irrefl _))
  have hq : vecAt (pts.map tf) n = .ok (tf pts[n]) := by
    rw [vecAt_ok]; simp [List.getElem?_eq_getElem hn]
  obtain ⟨d, hd1, hd2⟩ := hf pts[n] (List.getElem_mem hn)
  obtain ⟨m1, hm1⟩ := markLocal_total (ms := s.1) (hi.rl n hn)
  obtain ⟨a1, -, -⟩ := markLocal_ok hm1
  refine ⟨(m1, { s.2 with pt2pl := s.2.pt2pl ++ [⟨f pts[n], pts[n]⟩] }), ?_, ?_, ?_, ?_⟩
  · simp only [plStep, TLocal.index, Outcome.bind, hskip, Bool.false_eq_true, if_false, hq, hd1, gt_iff_lt, not_lt.mpr hd2, vecAt_lt _ _ hn, hm1]
  · have ht : pts.take (n + 1) = pts.take n ++ [pts[n]] := by rw [List.take_add_one, List.getElem?_eq_getElem hn]; rfl
    show ({ s.2 with pt2pl := s.2.pt2pl ++ [⟨f pts[n], pts[n]⟩] } : Pairings K) = _
    rw [hi.out, ht, List.map_append, List.append_assoc]
    rfl
  · intro i hi'; exact readable_mark a1 (hi.rl i hi')
  · intro i hfl
    rcases flagMark_inv a1 hfl with h | ⟨-, h⟩
    · exact Nat.lt_succ_of_lt (hi.fl i h)
    · omega

theorem plInv_fold {c : PlCfg K} {tf : P3 K → P3 K} {g : GLayer K} {name : String} {pts : List (P3 K)} {f : P3 K → PlanePatch K} {out : Pairings K}
    (hf : ∀ x ∈ pts, ∃ d, g.nnPlane (tf x) c.thr = some (f x, d) ∧ d ≤ c.thr) {s : MatchState K × Pairings K}
    (hi : PlInv pts name f out 0 s) (n : Nat) (hn : n ≤ pts.length) :
    ∃ s', foldOutcome (plStep c g name pts ⟨none, pts.map tf⟩) s (List.range n) = .ok s' ∧ PlInv pts name f out n s' := by
  induction n with
  | zero => exact ⟨s, rfl, hi⟩
  | succ n ih =>
    obtain ⟨s1, h1, h2⟩ := ih (by omega)
    obtain ⟨s2, h3, h4⟩ := plInv_step hf (by omega) h2
    refine ⟨s2, ?_, h4⟩
    rw [List.range_succ, fold_append, h1]
    simp [Outcome.bind, foldOutcome, h3]

/-- The matcher of the pipeline with planes. -/
theorem plane_match {c : PlCfg K} {s : Solver K (Pose3 K)} {mr : K} {name : String} {g : GLayer K} {ng : Nat} {dense : Bool}
    {ops : PoseOps K (Pose3 K)} {pts : List (P3 K)} {T P : Pose3 K} {p : IcpParams K} (hs : PlaneSetting ops c mr g pts T p)
    (hg : GoodStart c g pts T P) (it : Nat) :
    ∃ ms prs, runMatchers (planeIcp c s mr name g ng dense pts).matchers it P (planeIcp c s mr name g ng dense pts).freshMS = .ok (ms, prs) ∧
      PlanesMatched pts T prs ∧ ∀ q ∈ prs.pt2pl, ∃ d, g.nnPlane (P.composePoint q.ptLocal) c.thr = some (q.plGlobal, d) := by
  have hsee := hg.sees
  set f : P3 K → PlanePatch K := fun x => ((g.nnPlane (P.composePoint x) c.thr).map (·.1)).getD ⟨⟨⟨0, 0, 0⟩, 0⟩, ⟨0, 0, 0⟩⟩ with hfdef
  have hf : ∀ x ∈ pts, ∃ d, g.nnPlane (P.composePoint x) c.thr = some (f x, d) ∧ d ≤ c.thr := by
    intro x hx
    obtain ⟨pl, d, h1, h2, -⟩ := hsee x hx
    exact ⟨d, by simp [hfdef, h1], h2⟩
  have hon : ∀ x ∈ pts, OnPlane (f x).plane (T.composePoint x) := by
    intro x hx
    obtain ⟨pl, d, h1, -, h3⟩ := hsee x hx
    simpa [hfdef, h1] using h3
  have htl : transformLocal c.toPtsCfg P.composePoint pts = .ok ⟨none, pts.map P.composePoint⟩ := by
    simp [transformLocal, hs.all]
  have hemp : pts.isEmpty = false := by simpa using hs.nonempty
  have h0 : PlInv pts name f ({ potential := pts.length } : Pairings K) 0 (freshState name ng dense pts.length, { potential := pts.length }) :=
    ⟨by simp, fun i hi => (fresh_flags name pts.length true).1 i (fun _ => hi), fun i h => absurd h ((fresh_flags name pts.length true).2 i)⟩
  obtain ⟨s', h1, h2⟩ := plInv_fold hf h0 pts.length le_rfl
  have hl : plLayer c P.composePoint g name name pts (freshState name ng dense pts.length) {} =
      .ok (s'.1, { pt2pl := pts.map fun x => ⟨f x, x⟩, potential := pts.length }) := by
    unfold plLayer layerFrame
    simp only [hs.capable, Outcome.bind_def, Outcome.assert, if_true, Outcome.bind, hs.filled, hemp, Bool.or_self, Bool.false_eq_true, if_false,
      htl, hg.boxes, List.length_map, Nat.zero_add, h1]
    have := h2.out
    simp only [List.take_length, List.nil_append] at this
    rw [← this]
  have hpm : pointsMatch (plLayer c P.composePoint) c.weights [(name, g)] [(name, some pts)] (freshState name ng dense pts.length) =
      .ok (s'.1, { pt2pl := pts.map fun x => ⟨f x, x⟩, potential := pts.length }) := by
    simp [pointsMatch, foldOutcome, globalLayerStep, hs.noTable, localLayersFor, localLayerStep, AMap.get, hl, Outcome.bind]
  refine ⟨s'.1, { pt2pl := pts.map fun x => ⟨f x, x⟩, potential := pts.length }, ?_, ⟨?_, ?_, rfl⟩, ?_⟩
  · simp only [runMatchers, planeIcp, runMatchersLoop, Matcher.run, PtMatcher.toMatcher, PtMatcher.base, PtMatcher.layer, hpm]
    simp [Outcome.bind, Pairings.pushBackCopy]
  · simp [List.map_map, Function.comp_def]
  · intro q hq
    obtain ⟨x, hx, rfl⟩ := List.mem_map.mp hq
    exact hon x hx
  · intro q hq
    obtain ⟨x, hx, rfl⟩ := List.mem_map.mp hq
    obtain ⟨d, hd, -⟩ := hf x hx
    exact ⟨d, hd⟩

theorem plane_quality {c : PlCfg K} {s : Solver K (Pose3 K)} {mr : K} {name : String} {g : GLayer K} {ng : Nat}
    {pts : List (P3 K)} {dense : Bool} {T : Pose3 K} {prs : Pairings K} (hne : pts ≠ []) (hr : mr ≤ 1)
    (hm : PlanesMatched pts T prs) (it : Nat) (fin : Bool) (pose : Pose3 K) :
    evaluateQuality (planeIcp c s mr name g ng dense pts).quality it fin pose prs = .ok 1 := by
  have h3 : 0 < pts.length := List.length_pos_iff.mpr hne
  have hp : prs.potential = pts.length := by rw [hm.rest]
  have hsz : prs.size = pts.length := by
    have := congrArg List.length hm.locals
    rw [List.length_map] at this
    rw [hm.rest]; simp [Pairings.size, this]
  have hnk : (pts.length : K) ≠ 0 := by
    have : (0 : K) < pts.length := by exact_mod_cast h3
    exact ne_of_gt this
  have hq : pairedRatio mr prs = (1, false) := by
    have h0 : pts.length ≠ 0 := by omega
    simp [pairedRatio, hp, hsz, h0, not_lt.mpr hr]
  simp [evaluateQuality, evaluateQualityLoop, planeIcp, pairedRatioEval, hq, Outcome.assert, Outcome.bind]

end Verif.Lemmas.PR
