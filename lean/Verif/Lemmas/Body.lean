import Verif.Spec.Body
import Verif.Lemmas.Unit
/-
Lemmas for C126.
-/
namespace Verif.Lemmas.Body
open Verif Verif.Spec Verif.Lemmas Verif.Lemmas.HS Verif.Lemmas.Unit
set_option linter.unusedSectionVars false
variable {K : Type} [Field K] [LinearOrder K] [IsStrictOrderedRing K]

theorem body_point {A : Pose3 K} (hA : IsRotation A.R) (T : Pose3 K) (x : P3 K) :
    (fromFrame A T).composePoint (A.composePoint x) = T.composePoint x := by
  unfold fromFrame
  rw [compose_composePoint, inv_point hA]

/-- The nearest point is the same. -/
theorem spot_body {c : DTCfg K} {A : Pose3 K} (hA : IsRotation A.R) (T : Pose3 K) (g : GLayer K) (x : P3 K) :
    spot c (fromFrame A T) g (A.composePoint x) = (spot c T g x).map fun q => (A.composePoint q.1, q.2) := by
  simp only [spot, body_point hA]
  cases g.nnSingle (T.composePoint x) with
  | none => rfl
  | some nb => simp only [Option.bind_some]; split <;> rfl

/-- What the two runs have in common at the same point. -/
structure LoopBody (A : Pose3 K) (failed : Bool) (s s' : LoopState K (Pose3 K)) : Prop where
  n : s'.n = s.n
  pose : s'.sol.pose = if failed then Pose3.identity else fromFrame A s.sol.pose
  scale : s'.sol.scale = s.sol.scale
  pairings : BodyPairs A s.pairings s'.pairings
  prev : s'.prev = fromFrame A s.prev
  prev2 : s'.prev2 = s.prev2.map (fromFrame A)
  log : Option.Rel (List.Forall₂ (BodyDetail A)) s.log s'.log
  reason : s'.reason = s.reason
  trace : s'.trace = [] ↔ s.trace = []

theorem bodyPairs_size {A : Pose3 K} {a b : Pairings K} (h : BodyPairs A a b) :
    b.pt2pt.length = a.pt2pt.length ∧ b.size = a.size ∧ b.isEmpty = a.isEmpty := by
  have h1 : b.pt2pt.length = a.pt2pt.length := by rw [← length_points, h.pairs, List.length_map, length_points]
  obtain ⟨ha, hb⟩ := h.rest
  refine ⟨h1, ?_, ?_⟩
  · rw [ha, hb]; simp [Pairings.size, h1]
  · rw [ha, hb]
    simp only [Pairings.isEmpty, List.isEmpty_nil, Bool.and_true]
    rw [Bool.eq_iff_iff, List.isEmpty_iff, List.isEmpty_iff, ← List.length_eq_zero_iff, ← List.length_eq_zero_iff, h1]

section
variable {ops : PoseOps K (Pose3 K)} {e : HornEnv K} {nearOne : P3 K → Bool} {ratio : K} {wp : WeightParams K} {c : DTCfg K}
  {mr : K} {name name' : String} {A : Pose3 K} {g : GLayer K} {gpts pts : List (P3 K)} {dense dense' : Bool}
  {p : IcpParams K}

/-- The matchers. -/
theorem match_body (hs : BodySetting ops e wp c A g gpts pts) (sv sv' : Solver K (Pose3 K)) (it : Nat) {T : Pose3 K}
    {ms : MatchState K} {prs : Pairings K}
    (hm : runMatchers (simpleIcp c sv mr name g gpts.length dense pts).matchers it T
        (simpleIcp c sv mr name g gpts.length dense pts).freshMS = .ok (ms, prs)) :
    ∃ ms' prs', runMatchers (simpleIcp c sv' mr name' g gpts.length dense' (pts.map A.composePoint)).matchers it
        (fromFrame A T) (simpleIcp c sv' mr name' g gpts.length dense' (pts.map A.composePoint)).freshMS =
        .ok (ms', prs') ∧ BodyPairs A prs prs' := by
  have hlen : (pts.map A.composePoint).length = pts.length := List.length_map _
  have hc' : PlainMatcher c (pts.map A.composePoint).length := by rw [hlen]; exact hs.fit.matcher
  obtain ⟨m1, h1⟩ := simple_match_any (s := sv) (mr := mr) (name := name) (dense := dense) hs.fit.serves hs.fit.matcher hs.angSq
    hs.fit.many it T
  obtain ⟨m2, h2⟩ := simple_match_any (s := sv') (mr := mr) (name := name') (dense := dense') hs.fit.serves hc' hs.angSq
    hs.fit.many it (fromFrame A T)
  rw [hm] at h1
  cases h1
  refine ⟨m2, _, h2, ⟨?_, hlen, rfl, rfl⟩⟩
  have e1 := cand_spots (c := c) hs.angSq (fromFrame A T) g (pts.map A.composePoint)
  have e2 := cand_spots (c := c) hs.angSq T g pts
  unfold pointsOf
  simp only
  rw [e1, e2, List.filterMap_map, List.map_filterMap]
  exact List.filterMap_congr fun x _ => spot_body hs.rot T g x

/-- What is asked of the pairs of an iteration. -/
structure FarPairs (e : HornEnv K) (prs : Pairings K) : Prop where
  oneBest : 3 ≤ prs.pt2pt.length → OneBestFit prs.pt2pt
  far : AwayFromCentroids e.norm e.eps prs.pt2pt

theorem id_rot : IsRotation (Pose3.identity : Pose3 K).R := by
  constructor
  · ext <;> simp [Pose3.identity, M3.mul, M3.transpose, M3.one]
  · simp [Pose3.identity, M3.det, M3.one]

theorem id_point (x : P3 K) : (Pose3.identity : Pose3 K).composePoint x = x := by
  ext <;> simp [Pose3.identity, Pose3.composePoint, M3.mulVec, M3.one]

/-- The solver. -/
theorem solve_body (hs : BodySetting ops e wp c A g gpts pts) {prs prs' : Pairings K} (hp : BodyPairs A prs prs')
    (hne : prs.isEmpty = false) {out out' : Sol K (Pose3 K)} {sc sc' : SolverCtx (Pose3 K)} {fin fin' fin1 : List Nat} {ok : Bool}
    {sol : Sol K (Pose3 K)} (hgood : FarPairs e prs)
    (hr : runSolvers ops.tnorm [hornAsSolver e nearOne ratio wp] prs out sc fin = .ok (ok, sol, fin1)) :
    ∃ sol', runSolvers ops.tnorm [hornAsSolver e nearOne ratio wp] prs' out' sc' fin' = .ok (ok, sol', fin') ∧ sol'.scale = sol.scale ∧
      (ok = true → sol'.pose = fromFrame A sol.pose) ∧ (ok = false → sol.pose = Pose3.identity ∧ sol'.pose = Pose3.identity) := by
  obtain ⟨hl, hsz, hem⟩ := bodyPairs_size hp
  obtain ⟨ha, hb⟩ := hp.rest
  have hsimple := fun (ps : List (PtPair K)) (n : Nat) out sc fin {x} (h : optimalTfHorn e { pt2pt := ps, potential := n } wp = .ok x) =>
    simple_solve (K := K) (c := c) (nearOne := nearOne) (ratio := ratio) (mr := 0) (name := "") (g := g) (ng := 0) (dense := true) (pts := pts)
      ops.tnorm ps n out sc fin h
  have hsl : (simpleIcp c (hornAsSolver e nearOne ratio wp) 0 "" g 0 true pts).solvers = [hornAsSolver e nearOne ratio wp] := rfl
  rw [hsl] at hsimple
  have hpos : 0 < prs.pt2pt.length := by
    rw [ha] at hne
    simp only [Pairings.isEmpty, List.isEmpty_nil, Bool.and_true] at hne
    cases h : prs.pt2pt with
    | nil => rw [h] at hne; simp at hne
    | cons a l => simp
  by_cases h3 : 3 ≤ prs.pt2pt.length
  · have hmv : Moved A Pose3.identity prs.pt2pt prs'.pt2pt := by
      unfold Moved
      rw [hp.pairs]
      simp only [id_point]
    obtain ⟨r, r', h1, h2, h5⟩ := transfer (p := { pt2pt := prs.pt2pt, potential := prs.potential })
      (p' := { pt2pt := prs'.pt2pt, potential := prs'.potential }) (wp := wp) (wp' := wp) hs.fit.eig hs.fit.eig
      ⟨plain_of hs.fit.solver _ _, h3, hgood.far⟩
      ⟨plain_of hs.fit.solver _ _, by simpa using (by omega : 3 ≤ prs'.pt2pt.length), far_moved hs.fit.norm hs.rot id_rot hmv hgood.far⟩
      (hgood.oneBest h3) (fun T => Pose3.identity.inv.compose (T.compose A)) (fromFrame A)
      (fun T h => compose_rot (inv_rot id_rot) (compose_rot h hs.rot)) (fun T h => compose_rot h (inv_rot hs.rot))
      (fun T _ => pose_ext fun x => by
        have := inv_point (id_rot (K := K)) (T.composePoint x)
        rw [id_point] at this
        unfold fromFrame
        simp only [compose_composePoint, inv_point hs.rot, this])
      (fun T _ => pose_ext fun x => by
        unfold fromFrame
        simp only [compose_composePoint, point_inv hs.rot]
        have := inv_point (id_rot (K := K)) (T.composePoint x)
        rwa [id_point] at this)
      one_pos fun T _ => cost_moved id_rot hmv T
    rw [ha] at hr
    rw [hsimple _ _ out sc fin h1] at hr
    rw [hb]
    rw [hsimple _ _ out' sc' fin' h2]
    simp only [hornAnswer, Outcome.ok.injEq, Prod.mk.injEq] at hr ⊢
    obtain ⟨rfl, rfl, -⟩ := hr
    exact ⟨_, ⟨rfl, rfl, trivial⟩, rfl, fun _ => h5, fun h => by cases h⟩
  · have h1 := horn_too_few (e := e) hs.fit.solver prs.pt2pt prs.potential hpos (by omega)
    have h2 := horn_too_few (e := e) hs.fit.solver prs'.pt2pt prs'.potential (by omega) (by omega)
    rw [ha] at hr
    rw [hsimple _ _ out sc fin h1] at hr
    rw [hb]
    rw [hsimple _ _ out' sc' fin' h2]
    simp only [hornAnswer, Outcome.ok.injEq, Prod.mk.injEq] at hr ⊢
    obtain ⟨rfl, rfl, -⟩ := hr
    exact ⟨_, ⟨rfl, rfl, trivial⟩, rfl, fun h => by (cases h), fun _ => ⟨rfl, rfl⟩⟩

theorem quality_body {env env' : IcpEnv K (Pose3 K) (MatchState K)} {a b : Pairings K} (hp : BodyPairs A a b) (it : Nat) (fin : Bool)
    (T T' : Pose3 K) (h : env.quality = [pairedRatioEval mr]) (h' : env'.quality = [pairedRatioEval mr]) :
    evaluateQuality env'.quality it fin T' b = evaluateQuality env.quality it fin T a := by
  obtain ⟨-, hsz, -⟩ := bodyPairs_size hp
  rw [h, h']
  simp only [evaluateQuality, evaluateQualityLoop, pairedRatioEval, pairedRatio, hsz, hp.potential]

/-- Storing the details. -/
theorem save_body {n : Nat} {st : Bool} {T : Pose3 K} {a b : Pairings K} {l l' l1 : Option (List (Nat × Pose3 K × Pairings K))}
    (hp : BodyPairs A a b) (hl : Option.Rel (List.Forall₂ (BodyDetail A)) l l') (h : saveDetails p n st T a l = .ok l1) :
    ∃ l1', saveDetails p n st (fromFrame A T) b l' = .ok l1' ∧ Option.Rel (List.Forall₂ (BodyDetail A)) l1 l1' := by
  unfold saveDetails at h ⊢
  split at h
  · rename_i hc
    rw [if_pos hc]
    cases hl with
    | none => cases h
    | some hl =>
      cases h
      exact ⟨_, rfl, .some (List.rel_append hl (.cons ⟨rfl, rfl, hp⟩ .nil))⟩
  · rename_i hc
    cases h
    exact ⟨_, by rw [if_neg hc], hl⟩


/-- One iteration. -/
theorem body_body (hs : BodySetting ops e wp c A g gpts pts) {init init' : Pose3 K}
    {s s1 s' : LoopState K (Pose3 K)} {brk : Option Reason} (hr : LoopBody A false s s')
    (hb : icpBody ops (simpleIcp c (hornAsSolver e nearOne ratio wp) mr name g gpts.length dense pts) p init s = .ok (s1, brk))
    (hclear : ∀ ev ∈ s1.trace, FarPairs e ev.pairings) :
    ∃ s1', icpBody ops (simpleIcp c (hornAsSolver e nearOne ratio wp) mr name' g gpts.length dense' (pts.map A.composePoint)) p init' s' =
        .ok (s1', brk) ∧ LoopBody A (decide (brk = some .solverError)) s1 s1' ∧ s1.n = s.n ∧ s1.trace ≠ [] ∧ s.trace <+: s1.trace := by
  have hb0 := hb
  unfold icpBody at hb
  obtain ⟨⟨ms, prs⟩, hm, hb⟩ := Outcome.bind_eq_ok.mp hb
  obtain ⟨hn, ev, htr, hpi, hpr⟩ := body_event hm hb0
  have hcl := hclear ev (by rw [htr]; simp)
  have hne1 : s1.trace ≠ [] := by rw [htr]; simp
  have hpre : s.trace <+: s1.trace := ⟨[ev], htr.symm⟩
  have hone : FarPairs e prs := hpr ▸ hcl
  have hps : s'.sol.pose = fromFrame A s.sol.pose := by simpa using hr.pose
  obtain ⟨ms', prs', hm', hsp⟩ := match_body (name' := name') (dense' := dense') hs _ _ s.n hm
  rw [← hps, ← hr.n] at hm'
  obtain ⟨-, -, hem⟩ := bodyPairs_size hsp
  unfold icpBody
  rw [hm']
  simp only [Outcome.bind] at hb ⊢
  by_cases hE : prs.isEmpty = true
  · rw [if_pos hE] at hb
    rw [if_pos (hem ▸ hE)]
    cases hb
    exact ⟨_, rfl, ⟨hr.n, by simpa using hr.pose, hr.scale, hsp, hr.prev, hr.prev2, hr.log, hr.reason, by simp⟩, rfl, hne1, hpre⟩
  rw [if_neg hE] at hb
  rw [if_neg (hem ▸ hE)]
  obtain ⟨⟨ok, sol, fin⟩, hrs, hb⟩ := Outcome.bind_eq_ok.mp hb
  obtain ⟨sol', hrs', hsc, hok, hbad⟩ := solve_body hs hsp (by simpa using hE) hone (out' := s'.sol)
    (sc' := { iter := some s'.n, guess := some s'.sol.pose, fromInitial := some (ops.sub s'.sol.pose init'), lastStep := s'.lastCorr })
    (fin' := s'.fin) hrs
  have hsl : (simpleIcp c (hornAsSolver e nearOne ratio wp) mr name' g gpts.length dense' (pts.map A.composePoint)).solvers = [(hornAsSolver e nearOne ratio wp)] := rfl
  rw [hsl, hrs']
  simp only [Outcome.bind] at hb ⊢
  cases ok with
  | false =>
    simp only [Bool.not_false, if_true] at hb ⊢
    cases hb
    exact ⟨_, rfl, ⟨hr.n, by simpa using (hbad rfl).2, hsc, hsp, hr.prev, hr.prev2, hr.log, hr.reason, by simp⟩, rfl, hne1, hpre⟩
  | true =>
    simp only [Bool.not_true, Bool.false_eq_true, if_false] at hb ⊢
    have hpose := hok rfl
    have hst : isStalled p (stepNorms ops sol'.pose s'.prev s'.prev2) = isStalled p (stepNorms ops sol.pose s.prev s.prev2) := by
      congr 1
      have hf : ∀ a b, ops.logNorms (ops.sub (fromFrame A a) (fromFrame A b)) = ops.logNorms (ops.sub a b) := hs.free
      unfold stepNorms
      rw [hpose, hr.prev, hr.prev2, hf]
      cases s.prev2 with
      | none => rfl
      | some q => simp only [Option.map_some]; rw [hf]
    rw [hst]
    obtain ⟨log, hl, hb⟩ := Outcome.bind_eq_ok.mp hb
    obtain ⟨log', hl', hlog⟩ := save_body hsp hr.log hl
    rw [hpose, hr.n, hl']
    simp only [Outcome.bind] at hb ⊢
    by_cases hS : isStalled p (stepNorms ops sol.pose s.prev s.prev2) = true
    · rw [if_pos hS] at hb
      rw [if_pos hS]
      cases hb
      exact ⟨_, rfl, ⟨rfl, by simpa using hpose, hsc, hsp, hr.prev, hr.prev2, hlog, hr.reason, by simp⟩, rfl, hne1, hpre⟩
    rw [if_neg hS] at hb
    rw [if_neg hS]
    obtain ⟨bad, hq, hb⟩ := Outcome.bind_eq_ok.mp hb
    have hq' : checkpointFails (simpleIcp c (hornAsSolver e nearOne ratio wp) mr name' g gpts.length dense' (pts.map A.composePoint)) p s.n
        (fromFrame A sol.pose) prs' = .ok bad := by
      rw [← hq]
      unfold checkpointFails
      rw [quality_body (mr := mr) (env := simpleIcp c (hornAsSolver e nearOne ratio wp) mr name g gpts.length dense pts)
        (env' := simpleIcp c (hornAsSolver e nearOne ratio wp) mr name' g gpts.length dense' (pts.map A.composePoint)) hsp s.n false sol.pose
        (fromFrame A sol.pose) rfl rfl]
    rw [hq']
    simp only [Outcome.bind] at hb ⊢
    cases bad with
    | true =>
      simp only [if_true] at hb ⊢
      cases hb
      exact ⟨_, rfl, ⟨rfl, by simpa using hpose, hsc, hsp, hr.prev, hr.prev2, hlog, hr.reason, by simp⟩, rfl, hne1, hpre⟩
    | false =>
      simp only [Bool.false_eq_true, if_false, hookStops, simpleIcp] at hb ⊢
      cases hb
      exact ⟨_, rfl, ⟨rfl, by simpa using hpose, hsc, hsp, rfl, by simp [hr.prev], hlog, hr.reason, by simp⟩, rfl, hne1, hpre⟩

/-- The loop. -/
theorem loop_body (hs : BodySetting ops e wp c A g gpts pts) {init init' : Pose3 K} (fuel : Nat) :
    ∀ {s sf s' : LoopState K (Pose3 K)}, LoopBody A false s s' → s.reason ≠ .solverError →
      icpLoop ops (simpleIcp c (hornAsSolver e nearOne ratio wp) mr name g gpts.length dense pts) p init fuel s = .ok sf →
      (∀ ev ∈ sf.trace, FarPairs e ev.pairings) →
      ∃ sf', icpLoop ops (simpleIcp c (hornAsSolver e nearOne ratio wp) mr name' g gpts.length dense' (pts.map A.composePoint)) p init' fuel s' = .ok sf' ∧
        LoopBody A (decide (sf.reason = .solverError)) sf sf' ∧ s.n ≤ sf.n ∧ (sf.reason = .solverError → sf.n < s.n + fuel) := by
  induction fuel with
  | zero =>
    intro s sf s' hr hre h _
    cases h
    exact ⟨s', rfl, by simpa [hre] using hr, le_rfl, fun h => absurd h hre⟩
  | succ fuel ih =>
    intro s sf s' hr hre h hclear
    have hmono : ∀ (fuel : Nat) {s sf : LoopState K (Pose3 K)},
        icpLoop ops (simpleIcp c (hornAsSolver e nearOne ratio wp) mr name g gpts.length dense pts) p init fuel s = .ok sf →
        s.trace <+: sf.trace := by
      intro fuel
      induction fuel with
      | zero => intro s sf h; cases h; exact List.prefix_rfl
      | succ fuel ih =>
        intro s sf h
        unfold icpLoop at h
        obtain ⟨⟨s1, brk⟩, hb, h⟩ := Outcome.bind_eq_ok.mp h
        have hm : s.trace <+: s1.trace := by
          have hb0 := hb
          unfold icpBody at hb
          obtain ⟨⟨ms, prs⟩, hm, -⟩ := Outcome.bind_eq_ok.mp hb
          obtain ⟨-, ev, htr, -⟩ := body_event hm hb0
          exact ⟨[ev], htr.symm⟩
        cases brk with
        | some r => cases h; exact hm
        | none => exact hm.trans (ih (s := { s1 with n := s.n + 1 }) h)
    unfold icpLoop at h ⊢
    obtain ⟨⟨s1, brk⟩, hb, h⟩ := Outcome.bind_eq_ok.mp h
    have hpre : s1.trace <+: sf.trace := by
      cases brk with
      | some r => cases h; exact List.prefix_rfl
      | none => exact hmono fuel (s := { s1 with n := s.n + 1 }) h
    obtain ⟨s1', hb', hr1, hn1, -, -⟩ := body_body (init' := init') (name' := name') (dense' := dense') hs hr hb
      (fun ev hev => hclear ev (hpre.subset hev))
    rw [hb']
    simp only [Outcome.bind] at h ⊢
    cases brk with
    | some r =>
      cases h
      refine ⟨_, rfl, ⟨hr1.n, ?_, hr1.scale, hr1.pairings, hr1.prev, hr1.prev2, hr1.log, rfl, hr1.trace⟩, hn1.ge, fun _ => ?_⟩
      · simpa using hr1.pose
      · simp only [hn1]; omega
    | none =>
      have hre1 : s1.reason = s.reason := body_reason hb
      obtain ⟨sf', k1, k2, k3, k4⟩ := ih (s := { s1 with n := s.n + 1 }) (s' := { s1' with n := s'.n + 1 })
        ⟨by simp [hr.n], by simpa using hr1.pose, hr1.scale, hr1.pairings, hr1.prev, hr1.prev2, hr1.log, hr1.reason, hr1.trace⟩
        (by simpa [hre1] using hre) h hclear
      simp only at k3 k4
      exact ⟨sf', k1, k2, by omega, fun h => by have := k4 h; omega⟩

/-- The whole registration. -/
theorem align_body (hs : BodySetting ops e wp c A g gpts pts) {init : Pose3 K}
    {wantsLog : Bool} {r : IcpResult K (Pose3 K)}
    (h : align ops (simpleIcp c (hornAsSolver e nearOne ratio wp) mr name g gpts.length dense pts) p init 1 wantsLog = .ok r)
    (hclear : ∀ ev ∈ r.trace, FarPairs e ev.pairings) :
    ∃ r', align ops (simpleIcp c (hornAsSolver e nearOne ratio wp) mr name' g gpts.length dense' (pts.map A.composePoint)) p (fromFrame A init) 1 wantsLog = .ok r' ∧ BodyRun A r r' := by
  set env := simpleIcp c (hornAsSolver e nearOne ratio wp) mr name g gpts.length dense pts with henv
  set env' := simpleIcp c (hornAsSolver e nearOne ratio wp) mr name' g gpts.length dense' (pts.map A.composePoint) with henv'
  have a1 : env.matchers ≠ [] ∧ env.solvers ≠ [] ∧ env.quality ≠ [] := by simp [henv, simpleIcp]
  have a2 : env.globalEmpty = false ∧ env.localEmpty = false := ⟨rfl, rfl⟩
  have b1 : env'.matchers ≠ [] ∧ env'.solvers ≠ [] ∧ env'.quality ≠ [] := by simp [henv', simpleIcp]
  have b2 : env'.globalEmpty = false ∧ env'.localEmpty = false := ⟨rfl, rfl⟩
  unfold align at h ⊢
  simp only [Outcome.assert, a1, a2, b1, b2, if_true, Outcome.bind_def, ne_eq, not_false_eq_true, and_self] at h ⊢
  obtain ⟨-, -, h⟩ := Outcome.bind_eq_ok.mp h
  obtain ⟨-, -, h⟩ := Outcome.bind_eq_ok.mp h
  obtain ⟨sf, hl, h⟩ := Outcome.bind_eq_ok.mp h
  obtain ⟨q, hq, h⟩ := Outcome.bind_eq_ok.mp h
  have htr : r.trace = sf.trace := by
    split at h
    · cases h
    · cases h; rfl
  obtain ⟨sf', k1, k2, -, k4⟩ := loop_body (name' := name') (dense' := dense') (init' := fromFrame A init) hs p.maxIterations
    (s := ⟨0, ⟨init, 1⟩, {}, init, none, none, [], if (wantsLog || p.generateDebugFiles) = true then some [] else none, .undefined, []⟩)
    (s' := ⟨0, ⟨fromFrame A init, 1⟩, {}, fromFrame A init, none, none, [], if (wantsLog || p.generateDebugFiles) = true then some [] else none,
      .undefined, []⟩)
    ⟨rfl, rfl, rfl, ⟨rfl, rfl, rfl, rfl⟩, rfl, rfl, by
      by_cases hw : (wantsLog || p.generateDebugFiles) = true
      · simp only [hw, if_true]; exact .some .nil
      · simp only [hw]; exact .none, rfl, Iff.rfl⟩ (by simp) hl (fun ev hev => hclear ev (htr ▸ hev))
  have hq' : evaluateQuality env'.quality sf'.n true sf'.sol.pose sf'.pairings = .ok q := by
    rw [← hq, k2.n]
    exact quality_body (mr := mr) (env := env) (env' := env') k2.pairings sf.n true _ _ rfl rfl
  have hlog : sf'.log.isSome = sf.log.isSome := by
    have := k2.log
    cases h1 : sf.log <;> cases h2 : sf'.log <;> rw [h1, h2] at this <;> first | rfl | cases this
  simp only [Outcome.bind]
  rw [k1]
  have f1 : env.firstMatcherAttached = false := rfl
  have f2 : env'.firstMatcherAttached = false := rfl
  simp only [hq', hlog, f2]
  simp only [f1] at h
  split at h
  · cases h
  · rename_i hc
    rw [if_neg hc]
    cases h
    refine ⟨_, rfl, ⟨k2.n, ?_, ?_, k2.scale, rfl, k2.pairings, k2.log⟩⟩
    · simp only [k2.n, k2.reason]
    · simp only [k2.pose, decide_eq_true_eq]
      by_cases hr : sf.reason = .solverError
      · have : ¬ sf.n ≥ p.maxIterations := by have := k4 hr; simp only at this; omega
        simp [hr, this]
      · by_cases hn : sf.n ≥ p.maxIterations <;> simp [hr, hn]

end

end Verif.Lemmas.Body
