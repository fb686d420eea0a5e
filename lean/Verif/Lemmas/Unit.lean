import Verif.Spec.Unit
import Verif.Lemmas.HornSame
/-
Lemmas for C125.
-/
namespace Verif.Lemmas.Unit
open Verif Verif.Spec Verif.Lemmas Verif.Lemmas.HS
set_option linter.unusedSectionVars false
variable {K : Type} [Field K] [LinearOrder K] [IsStrictOrderedRing K]

theorem unit_point (u : K) (T : Pose3 K) (x : P3 K) : (inUnit u T).composePoint (P3.smul u x) = P3.smul u (T.composePoint x) := by
  simp only [inUnit, Pose3.composePoint]
  ext <;> simp [M3.mulVec] <;> ring

theorem unit_distSq (u : K) (a b : P3 K) : P3.distSq (P3.smul u a) (P3.smul u b) = u * u * P3.distSq a b := by
  simp only [P3.distSq, P3.normSq, P3.dot, P3.sub_x, P3.sub_y, P3.sub_z, P3.smul_x, P3.smul_y, P3.smul_z]
  ring

theorem unit_le {u : K} (hu : 0 < u) (a b c : P3 K) :
    P3.distSq (P3.smul u a) (P3.smul u b) ≤ P3.distSq (P3.smul u a) (P3.smul u c) ↔ P3.distSq a b ≤ P3.distSq a c := by
  rw [unit_distSq, unit_distSq]
  exact mul_le_mul_iff_right₀ (mul_pos hu hu)

theorem unit_smul_inj {u : K} (hu : 0 < u) {a b : P3 K} (h : P3.smul u a = P3.smul u b) : a = b := by
  simp only [P3.ext_iff, P3.smul_x, P3.smul_y, P3.smul_z] at h
  exact P3.ext (mul_left_cancel₀ hu.ne' h.1) (mul_left_cancel₀ hu.ne' h.2.1) (mul_left_cancel₀ hu.ne' h.2.2)

theorem unit_identity (u : K) : inUnit u (Pose3.identity : Pose3 K) = Pose3.identity := by
  refine Pose3.ext rfl ?_
  ext <;> simp [inUnit, Pose3.identity]

/-- The nearest point, in the other unit. -/
theorem spot_unit {c : DTCfg K} {u : K} (hu : 0 < u) {T : Pose3 K} {g g' : GLayer K} {gpts pts : List (P3 K)}
    (hg : ServesPoints g gpts) (hg' : ServesPoints g' (gpts.map (P3.smul u))) (hnt : NoTies gpts pts T) {x : P3 K} (hx : x ∈ pts) :
    spot (matcherInUnit u c) (inUnit u T) g' (P3.smul u x) = (spot c T g x).map fun q => (P3.smul u q.1, P3.smul u q.2) := by
  obtain ⟨nb, h1, h2, h3, h4⟩ := hg.nearest (T.composePoint x)
  obtain ⟨nb', k1, k2, k3, k4⟩ := hg'.nearest ((inUnit u T).composePoint (P3.smul u x))
  have hm := List.mem_of_getElem? h2
  obtain ⟨y, hy, hye⟩ := List.mem_map.mp (List.mem_of_getElem? k2)
  rw [unit_point] at k3 k4
  rw [← hye, unit_distSq] at k3
  have hyb : y = nb.pt := by
    refine hnt x hx y hy nb.pt hm ?_ h4
    intro w hw
    have := k4 (P3.smul u w) (List.mem_map.mpr ⟨w, hw, rfl⟩)
    rwa [← hye, unit_le hu] at this
  have hlt : u * u * P3.distSq (T.composePoint x) nb.pt < u * c.thr * (u * c.thr) ↔ P3.distSq (T.composePoint x) nb.pt < c.thr * c.thr := by
    have : u * c.thr * (u * c.thr) = u * u * (c.thr * c.thr) := by ring
    rw [this]
    exact mul_lt_mul_iff_right₀ (mul_pos hu hu)
  simp only [spot, h1, k1, Option.bind_some, k3, h3, hyb, matcherInUnit, hlt]
  split <;> simp [← hye, hyb]

/-- What the two runs have in common at the same point. -/
structure LoopUnit (u : K) (s s' : LoopState K (Pose3 K)) : Prop where
  n : s'.n = s.n
  pose : s'.sol.pose = inUnit u s.sol.pose
  scale : s'.sol.scale = s.sol.scale
  pairings : UnitPairs u s.pairings s'.pairings
  prev : s'.prev = inUnit u s.prev
  prev2 : s'.prev2 = s.prev2.map (inUnit u)
  log : Option.Rel (List.Forall₂ (UnitDetail u)) s.log s'.log
  reason : s'.reason = s.reason
  trace : s'.trace = [] ↔ s.trace = []

theorem scaled_length {u : K} {ps ps' : List (PtPair K)} (h : Scaled u ps ps') : ps'.length = ps.length := by
  rw [← length_points, h, List.length_map, length_points]

theorem unitPairs_size {u : K} {a b : Pairings K} (h : UnitPairs u a b) :
    b.pt2pt.length = a.pt2pt.length ∧ b.size = a.size ∧ b.isEmpty = a.isEmpty := by
  have h1 : b.pt2pt.length = a.pt2pt.length := scaled_length h.pairs
  obtain ⟨ha, hb⟩ := h.rest
  refine ⟨h1, ?_, ?_⟩
  · rw [ha, hb]; simp [Pairings.size, h1]
  · rw [ha, hb]
    simp only [Pairings.isEmpty, List.isEmpty_nil, Bool.and_true]
    rw [Bool.eq_iff_iff, List.isEmpty_iff, List.isEmpty_iff, ← List.length_eq_zero_iff, ← List.length_eq_zero_iff, h1]

section
variable {ops : PoseOps K (Pose3 K)} {e : HornEnv K} {nearOne : P3 K → Bool} {ratio : K} {wp : WeightParams K} {c : DTCfg K}
  {mr : K} {name name' : String} {u k : K} {g g' : GLayer K} {gpts gpts' pts : List (P3 K)} {dense dense' : Bool}
  {p : IcpParams K}

theorem matcher_unit (hu : 0 < u) {n : Nat} (h : PlainMatcher c n) : PlainMatcher (matcherInUnit u c) n :=
  ⟨h.ppp, mul_pos hu h.thr, h.angDeg, h.angSq, mul_nonneg hu.le h.eps, h.all, h.noTable⟩

/-- Two registrations, with two maps, in two units. -/
structure TwoMaps (ops : PoseOps K (Pose3 K)) (e : HornEnv K) (wp : WeightParams K) (c : DTCfg K) (u k : K)
    (g g' : GLayer K) (gpts gpts' pts : List (P3 K)) : Prop where
  fit : FitSetting ops e wp c g gpts pts
  serves : ServesPoints g' gpts'
  unit : 0 < u
  factor : 0 < k
  angSq : c.angSq = 0
  free : UnitFree ops u k

/-- All points of the cloud are paired the same way in the two maps. -/
def SameSpots (c : DTCfg K) (u : K) (g g' : GLayer K) (pts : List (P3 K)) (T : Pose3 K) : Prop :=
  ∀ x ∈ pts, spot (matcherInUnit u c) (inUnit u T) g' (P3.smul u x) = (spot c T g x).map fun q => (P3.smul u q.1, P3.smul u q.2)

/-- The matchers. -/
theorem match_unit (hs : TwoMaps ops e wp c u k g g' gpts gpts' pts) (sv sv' : Solver K (Pose3 K)) (it : Nat) {T : Pose3 K}
    {ms : MatchState K} {prs : Pairings K}
    (hm : runMatchers (simpleIcp c sv mr name g gpts.length dense pts).matchers it T
        (simpleIcp c sv mr name g gpts.length dense pts).freshMS = .ok (ms, prs))
    (hnt : SameSpots c u g g' pts T) :
    ∃ ms' prs', runMatchers (simpleIcp (matcherInUnit u c) sv' mr name' g' gpts'.length dense' (pts.map (P3.smul u))).matchers it
        (inUnit u T) (simpleIcp (matcherInUnit u c) sv' mr name' g' gpts'.length dense' (pts.map (P3.smul u))).freshMS =
        .ok (ms', prs') ∧ UnitPairs u prs prs' := by
  have hlen : (pts.map (P3.smul u)).length = pts.length := List.length_map _
  have hc' : PlainMatcher (matcherInUnit u c) (pts.map (P3.smul u)).length := by rw [hlen]; exact matcher_unit hs.unit hs.fit.matcher
  obtain ⟨m1, h1⟩ := simple_match_any (s := sv) (mr := mr) (name := name) (dense := dense) hs.fit.serves hs.fit.matcher hs.angSq
    hs.fit.many it T
  obtain ⟨m2, h2⟩ := simple_match_any (c := matcherInUnit u c) (s := sv') (mr := mr) (name := name') (dense := dense') hs.serves hc' hs.angSq
    hs.fit.many it (inUnit u T)
  rw [hm] at h1
  cases h1
  refine ⟨m2, _, h2, ⟨?_, hlen, rfl, rfl⟩⟩
  have e1 := cand_spots (c := matcherInUnit u c) hs.angSq (inUnit u T) g' (pts.map (P3.smul u))
  have e2 := cand_spots (c := c) hs.angSq T g pts
  unfold Scaled pointsOf
  simp only
  rw [e1, e2, List.filterMap_map, List.map_filterMap]
  refine List.filterMap_congr fun x hx => ?_
  exact hnt x hx

/-- What is asked of the pairs of an iteration. -/
structure GoodPairs (e : HornEnv K) (u : K) (prs : Pairings K) : Prop where
  oneBest : 3 ≤ prs.pt2pt.length → OneBestFit prs.pt2pt
  far : AwayFromCentroids e.norm e.eps prs.pt2pt
  farThere : AwayFromCentroids e.norm (e.eps / u) prs.pt2pt

theorem norm_unit {norm : P3 K → K} (hn : IsNorm norm) (hu : 0 < u) (v : P3 K) : norm (P3.smul u v) = u * norm v := by
  have a := hn v
  have b := hn (P3.smul u v)
  have h : norm (P3.smul u v) * norm (P3.smul u v) = u * norm v * (u * norm v) := by
    have e1 : (P3.smul u v).normSq = u * u * v.normSq := by
      simp only [P3.normSq, P3.dot, P3.smul_x, P3.smul_y, P3.smul_z]; ring
    rw [b.2, e1, ← a.2]; ring
  exact (mul_self_inj b.1 (mul_nonneg hu.le a.1)).mp h

theorem mean_unit (u : K) (l : List (P3 K)) : mean (l.map (P3.smul u)) = P3.smul u (mean l) := by
  unfold mean
  ext <;> simp only [List.length_map, List.map_map, Function.comp_def, P3.smul_x, P3.smul_y, P3.smul_z] <;>
    rw [← mul_div_assoc, ← List.sum_map_mul_left]

theorem far_unit (hn : IsNorm e.norm) (hu : 0 < u) {ps ps' : List (PtPair K)} (h : Scaled u ps ps')
    (hf : AwayFromCentroids e.norm (e.eps / u) ps) : AwayFromCentroids e.norm e.eps ps' := by
  rw [far_points] at hf ⊢
  have e1 : (pointsOf ps').map (·.1) = ((pointsOf ps).map (·.1)).map (P3.smul u) := by
    rw [h, List.map_map, List.map_map]; rfl
  have e2 : (pointsOf ps').map (·.2) = ((pointsOf ps).map (·.2)).map (P3.smul u) := by
    rw [h, List.map_map, List.map_map]; rfl
  rw [e1, e2, mean_unit, mean_unit]
  intro q hq
  rw [h] at hq
  obtain ⟨x, hx, rfl⟩ := List.mem_map.mp hq
  have key : ∀ a b : P3 K, ¬ e.norm (a - b) < e.eps / u → ¬ e.norm (P3.smul u a - P3.smul u b) < e.eps := by
    intro a b hab hc
    have e3 : P3.smul u a - P3.smul u b = P3.smul u (a - b) := by ext <;> simp <;> ring
    rw [e3, norm_unit hn hu] at hc
    refine hab ?_
    rw [lt_div_iff₀ hu]
    linarith
  exact ⟨key _ _ (hf x hx).1, key _ _ (hf x hx).2⟩

theorem plain_of (hw : PlainSolver wp) (ps : List (PtPair K)) (n : Nat) : PlainPoints { pt2pt := ps, potential := n } wp :=
  ⟨rfl, rfl, rfl, rfl, rfl, hw.noKernel, hw.noScale, hw.wPt, hw.wLn, hw.wPl⟩

/-- The solver. -/
theorem solve_unit (hs : TwoMaps ops e wp c u k g g' gpts gpts' pts) {prs prs' : Pairings K} (hp : UnitPairs u prs prs')
    (hne : prs.isEmpty = false) {out out' : Sol K (Pose3 K)} {sc sc' : SolverCtx (Pose3 K)} {fin fin' fin1 : List Nat} {ok : Bool}
    {sol : Sol K (Pose3 K)} (hgood : GoodPairs e u prs)
    (hr : runSolvers ops.tnorm [hornAsSolver e nearOne ratio wp] prs out sc fin = .ok (ok, sol, fin1)) :
    ∃ sol', runSolvers ops.tnorm [hornAsSolver e nearOne ratio wp] prs' out' sc' fin' = .ok (ok, sol', fin') ∧ sol'.scale = sol.scale ∧
      sol'.pose = inUnit u sol.pose := by
  obtain ⟨hl, hsz, hem⟩ := unitPairs_size hp
  obtain ⟨ha, hb⟩ := hp.rest
  have hsimple := fun (ps : List (PtPair K)) (n : Nat) out sc fin {x} (h : optimalTfHorn e { pt2pt := ps, potential := n } wp = .ok x) =>
    simple_solve (K := K) (c := c) (nearOne := nearOne) (ratio := ratio) (mr := 0) (name := "") (g := g) (ng := 0) (dense := true) (pts := pts)
      ops.tnorm ps n out sc fin h
  have hsl : (simpleIcp c (hornAsSolver e nearOne ratio wp) 0 "" g 0 true pts).solvers = [hornAsSolver e nearOne ratio wp] := rfl
  rw [hsl] at hsimple
  have hpos : 0 < prs.pt2pt.length := by
    rw [ha] at hne
    simp only [Pairings.isEmpty, List.isEmpty_nil, Bool.and_true] at hne
    cases h : prs.pt2pt with
    | nil => rw [h] at hne; simp at hne
    | cons a l => simp
  by_cases h3 : 3 ≤ prs.pt2pt.length
  · have hfar' := far_unit hs.fit.norm hs.unit hp.pairs hgood.farThere
    obtain ⟨r, r', h1, h2, h5⟩ := transfer (p := { pt2pt := prs.pt2pt, potential := prs.potential })
      (p' := { pt2pt := prs'.pt2pt, potential := prs'.potential }) (wp := wp) (wp' := wp) hs.fit.eig hs.fit.eig
      ⟨plain_of hs.fit.solver _ _, h3, hgood.far⟩ ⟨plain_of hs.fit.solver _ _, by simpa using (by omega : 3 ≤ prs'.pt2pt.length), hfar'⟩
      (hgood.oneBest h3) (stretch u⁻¹) (stretch u) (fun _ h => h) (fun _ h => h)
      (fun T _ => by have := stretch_back (inv_ne_zero hs.unit.ne') T; rwa [_root_.inv_inv] at this) (fun T _ => stretch_back hs.unit.ne' T)
      (pow_pos hs.unit 2) fun T _ => cost_scaled hs.unit.ne' hp.pairs T
    rw [ha] at hr
    rw [hsimple _ _ out sc fin h1] at hr
    rw [hb]
    rw [hsimple _ _ out' sc' fin' h2]
    simp only [hornAnswer, Outcome.ok.injEq, Prod.mk.injEq] at hr ⊢
    obtain ⟨rfl, rfl, -⟩ := hr
    exact ⟨_, ⟨rfl, rfl, trivial⟩, rfl, h5⟩
  · have h1 := horn_too_few (e := e) hs.fit.solver prs.pt2pt prs.potential hpos (by omega)
    have h2 := horn_too_few (e := e) hs.fit.solver prs'.pt2pt prs'.potential (by omega) (by omega)
    rw [ha] at hr
    rw [hsimple _ _ out sc fin h1] at hr
    rw [hb]
    rw [hsimple _ _ out' sc' fin' h2]
    simp only [hornAnswer, Outcome.ok.injEq, Prod.mk.injEq] at hr ⊢
    obtain ⟨rfl, rfl, -⟩ := hr
    exact ⟨_, ⟨rfl, rfl, trivial⟩, rfl, (unit_identity u).symm⟩

theorem quality_unit {env env' : IcpEnv K (Pose3 K) (MatchState K)} {a b : Pairings K} (hp : UnitPairs u a b) (it : Nat) (fin : Bool)
    (T T' : Pose3 K) (h : env.quality = [pairedRatioEval mr]) (h' : env'.quality = [pairedRatioEval mr]) :
    evaluateQuality env'.quality it fin T' b = evaluateQuality env.quality it fin T a := by
  obtain ⟨-, hsz, -⟩ := unitPairs_size hp
  rw [h, h']
  simp only [evaluateQuality, evaluateQualityLoop, pairedRatioEval, pairedRatio, hsz, hp.potential]

theorem stalled_unit (hk : 0 < k) (d : K × K) : isStalled (paramsInUnit k p) (k * d.1, d.2) = isStalled p d := by
  have e1 : absK (k * d.1) = k * absK d.1 := by
    unfold absK
    by_cases h : d.1 < 0
    · rw [if_pos h, if_pos (mul_neg_of_pos_of_neg hk h), mul_neg]
    · rw [if_neg h, if_neg (not_lt.mpr (mul_nonneg hk.le (not_lt.mp h)))]
  have e2 : k * absK d.1 < k * p.minAbsStepTrans ↔ absK d.1 < p.minAbsStepTrans := mul_lt_mul_iff_right₀ hk
  unfold isStalled
  congr 1
  exact decide_eq_decide.mpr (by rw [e1]; exact e2)

theorem steps_unit (hs : TwoMaps ops e wp c u k g g' gpts gpts' pts) (a b : Pose3 K) (q : Option (Pose3 K)) :
    stepNorms ops (inUnit u a) (inUnit u b) (q.map (inUnit u)) = (k * (stepNorms ops a b q).1, (stepNorms ops a b q).2) := by
  have hf : ∀ a b, ops.logNorms (ops.sub (inUnit u a) (inUnit u b)) = (k * (ops.logNorms (ops.sub a b)).1, (ops.logNorms (ops.sub a b)).2) :=
    hs.free
  unfold stepNorms
  cases q with
  | none => exact hf a b
  | some q =>
    simp only [Option.map_some, hf]
    have : ∀ x y : K, keepMin (k * x) (k * y) = k * keepMin x y := by
      intro x y
      unfold keepMin
      by_cases h : y < x
      · simp only [h, if_pos, mul_lt_mul_iff_right₀ hs.factor]
      · simp only [h, if_neg, mul_lt_mul_iff_right₀ hs.factor, not_false_eq_true]
    rw [this]

/-- Storing the details. -/
theorem save_unit {n : Nat}  {st : Bool} {T : Pose3 K} {a b : Pairings K} {l l' l1 : Option (List (Nat × Pose3 K × Pairings K))}
    (hp : UnitPairs u a b) (hl : Option.Rel (List.Forall₂ (UnitDetail u)) l l') (h : saveDetails p n st T a l = .ok l1) :
    ∃ l1', saveDetails (paramsInUnit k p) n st (inUnit u T) b l' = .ok l1' ∧ Option.Rel (List.Forall₂ (UnitDetail u)) l1 l1' := by
  rw [show saveDetails (paramsInUnit k p) n st (inUnit u T) b l' = saveDetails p n st (inUnit u T) b l' from rfl]
  unfold saveDetails at h ⊢
  split at h
  · rename_i hc
    rw [if_pos hc]
    cases hl with
    | none => cases h
    | some hl =>
      cases h
      exact ⟨_, rfl, .some (List.rel_append hl (.cons ⟨rfl, rfl, hp⟩ .nil))⟩
  · rename_i hc
    cases h
    exact ⟨_, by rw [if_neg hc], hl⟩


/-- One iteration. -/
theorem body_unit (hs : TwoMaps ops e wp c u k g g' gpts gpts' pts) {init init' : Pose3 K}
    {s s1 s' : LoopState K (Pose3 K)} {brk : Option Reason} (hr : LoopUnit u s s')
    (hb : icpBody ops (simpleIcp c (hornAsSolver e nearOne ratio wp) mr name g gpts.length dense pts) p init s = .ok (s1, brk))
    (hclear : ∀ ev ∈ s1.trace, SameSpots c u g g' pts ev.poseIn ∧ GoodPairs e u ev.pairings) :
    ∃ s1', icpBody ops (simpleIcp (matcherInUnit u c) (hornAsSolver e nearOne ratio wp) mr name' g' gpts'.length dense' (pts.map (P3.smul u))) (paramsInUnit k p) init' s' =
        .ok (s1', brk) ∧ LoopUnit u s1 s1' ∧ s1.n = s.n ∧ s1.trace ≠ [] ∧ s.trace <+: s1.trace := by
  have hb0 := hb
  unfold icpBody at hb
  obtain ⟨⟨ms, prs⟩, hm, hb⟩ := Outcome.bind_eq_ok.mp hb
  obtain ⟨hn, ev, htr, hpi, hpr⟩ := body_event hm hb0
  have hcl := hclear ev (by rw [htr]; simp)
  have hne1 : s1.trace ≠ [] := by rw [htr]; simp
  have hpre : s.trace <+: s1.trace := ⟨[ev], htr.symm⟩
  have hnt : SameSpots c u g g' pts s.sol.pose := hpi ▸ hcl.1
  have hone : GoodPairs e u prs := hpr ▸ hcl.2
  have hps : s'.sol.pose = inUnit u s.sol.pose := hr.pose
  obtain ⟨ms', prs', hm', hsp⟩ := match_unit (name' := name') (dense' := dense') hs _ _ s.n hm hnt
  rw [← hps, ← hr.n] at hm'
  obtain ⟨-, -, hem⟩ := unitPairs_size hsp
  unfold icpBody
  rw [hm']
  simp only [Outcome.bind] at hb ⊢
  by_cases hE : prs.isEmpty = true
  · rw [if_pos hE] at hb
    rw [if_pos (hem ▸ hE)]
    cases hb
    exact ⟨_, rfl, ⟨hr.n, hr.pose, hr.scale, hsp, hr.prev, hr.prev2, hr.log, hr.reason, by simp⟩, rfl, hne1, hpre⟩
  rw [if_neg hE] at hb
  rw [if_neg (hem ▸ hE)]
  obtain ⟨⟨ok, sol, fin⟩, hrs, hb⟩ := Outcome.bind_eq_ok.mp hb
  obtain ⟨sol', hrs', hsc, hpose⟩ := solve_unit hs hsp (by simpa using hE) hone (out' := s'.sol)
    (sc' := { iter := some s'.n, guess := some s'.sol.pose, fromInitial := some (ops.sub s'.sol.pose init'), lastStep := s'.lastCorr })
    (fin' := s'.fin) hrs
  have hsl : (simpleIcp (matcherInUnit u c) (hornAsSolver e nearOne ratio wp) mr name' g' gpts'.length dense' (pts.map (P3.smul u))).solvers = [hornAsSolver e nearOne ratio wp] := rfl
  rw [hsl, hrs']
  simp only [Outcome.bind] at hb ⊢
  cases ok with
  | false =>
    simp only [Bool.not_false, if_true] at hb ⊢
    cases hb
    exact ⟨_, rfl, ⟨hr.n, hpose, hsc, hsp, hr.prev, hr.prev2, hr.log, hr.reason, by simp⟩, rfl, hne1, hpre⟩
  | true =>
    simp only [Bool.not_true, Bool.false_eq_true, if_false] at hb ⊢
    have hst : isStalled (paramsInUnit k p) (stepNorms ops sol'.pose s'.prev s'.prev2) = isStalled p (stepNorms ops sol.pose s.prev s.prev2) := by
      rw [hpose, hr.prev, hr.prev2, steps_unit hs, stalled_unit hs.factor]
    rw [hst]
    obtain ⟨log, hl, hb⟩ := Outcome.bind_eq_ok.mp hb
    obtain ⟨log', hl', hlog⟩ := save_unit hsp hr.log hl
    rw [hpose, hr.n, hl']
    simp only [Outcome.bind] at hb ⊢
    by_cases hS : isStalled p (stepNorms ops sol.pose s.prev s.prev2) = true
    · rw [if_pos hS] at hb
      rw [if_pos hS]
      cases hb
      exact ⟨_, rfl, ⟨rfl, hpose, hsc, hsp, hr.prev, hr.prev2, hlog, hr.reason, by simp⟩, rfl, hne1, hpre⟩
    rw [if_neg hS] at hb
    rw [if_neg hS]
    obtain ⟨bad, hq, hb⟩ := Outcome.bind_eq_ok.mp hb
    have hq' : checkpointFails (simpleIcp (matcherInUnit u c) (hornAsSolver e nearOne ratio wp) mr name' g' gpts'.length dense' (pts.map (P3.smul u))) (paramsInUnit k p) s.n
        (inUnit u sol.pose) prs' = .ok bad := by
      rw [← hq]
      unfold checkpointFails
      rw [quality_unit (mr := mr) (env := simpleIcp c (hornAsSolver e nearOne ratio wp) mr name g gpts.length dense pts)
        (env' := simpleIcp (matcherInUnit u c) (hornAsSolver e nearOne ratio wp) mr name' g' gpts'.length dense' (pts.map (P3.smul u))) hsp s.n false sol.pose
        (inUnit u sol.pose) rfl rfl]
      rfl
    rw [hq']
    simp only [Outcome.bind] at hb ⊢
    cases bad with
    | true =>
      simp only [if_true] at hb ⊢
      cases hb
      exact ⟨_, rfl, ⟨rfl, hpose, hsc, hsp, hr.prev, hr.prev2, hlog, hr.reason, by simp⟩, rfl, hne1, hpre⟩
    | false =>
      simp only [Bool.false_eq_true, if_false, hookStops, simpleIcp] at hb ⊢
      cases hb
      exact ⟨_, rfl, ⟨rfl, hpose, hsc, hsp, rfl, by simp [hr.prev], hlog, hr.reason, by simp⟩, rfl, hne1, hpre⟩

/-- The loop. -/
theorem loop_unit (hs : TwoMaps ops e wp c u k g g' gpts gpts' pts) {init init' : Pose3 K} (fuel : Nat) :
    ∀ {s sf s' : LoopState K (Pose3 K)}, LoopUnit u s s' → s.reason ≠ .solverError →
      icpLoop ops (simpleIcp c (hornAsSolver e nearOne ratio wp) mr name g gpts.length dense pts) p init fuel s = .ok sf →
      (∀ ev ∈ sf.trace, SameSpots c u g g' pts ev.poseIn ∧ GoodPairs e u ev.pairings) →
      ∃ sf', icpLoop ops (simpleIcp (matcherInUnit u c) (hornAsSolver e nearOne ratio wp) mr name' g' gpts'.length dense' (pts.map (P3.smul u))) (paramsInUnit k p) init' fuel s' = .ok sf' ∧
        LoopUnit u sf sf' ∧ s.n ≤ sf.n ∧ (sf.reason = .solverError → sf.n < s.n + fuel) := by
  induction fuel with
  | zero =>
    intro s sf s' hr hre h _
    cases h
    exact ⟨s', rfl, by simpa [hre] using hr, le_rfl, fun h => absurd h hre⟩
  | succ fuel ih =>
    intro s sf s' hr hre h hclear
    have hmono : ∀ (fuel : Nat) {s sf : LoopState K (Pose3 K)},
        icpLoop ops (simpleIcp c (hornAsSolver e nearOne ratio wp) mr name g gpts.length dense pts) p init fuel s = .ok sf →
        s.trace <+: sf.trace := by
      intro fuel
      induction fuel with
      | zero => intro s sf h; cases h; exact List.prefix_rfl
      | succ fuel ih =>
        intro s sf h
        unfold icpLoop at h
        obtain ⟨⟨s1, brk⟩, hb, h⟩ := Outcome.bind_eq_ok.mp h
        have hm : s.trace <+: s1.trace := by
          have hb0 := hb
          unfold icpBody at hb
          obtain ⟨⟨ms, prs⟩, hm, -⟩ := Outcome.bind_eq_ok.mp hb
          obtain ⟨-, ev, htr, -⟩ := body_event hm hb0
          exact ⟨[ev], htr.symm⟩
        cases brk with
        | some r => cases h; exact hm
        | none => exact hm.trans (ih (s := { s1 with n := s.n + 1 }) h)
    unfold icpLoop at h ⊢
    obtain ⟨⟨s1, brk⟩, hb, h⟩ := Outcome.bind_eq_ok.mp h
    have hpre : s1.trace <+: sf.trace := by
      cases brk with
      | some r => cases h; exact List.prefix_rfl
      | none => exact hmono fuel (s := { s1 with n := s.n + 1 }) h
    obtain ⟨s1', hb', hr1, hn1, -, -⟩ := body_unit (init' := init') (name' := name') (dense' := dense') hs hr hb
      (fun ev hev => hclear ev (hpre.subset hev))
    rw [hb']
    simp only [Outcome.bind] at h ⊢
    cases brk with
    | some r =>
      cases h
      refine ⟨_, rfl, ⟨hr1.n, ?_, hr1.scale, hr1.pairings, hr1.prev, hr1.prev2, hr1.log, rfl, hr1.trace⟩, hn1.ge, fun _ => ?_⟩
      · simpa using hr1.pose
      · simp only [hn1]; omega
    | none =>
      have hre1 : s1.reason = s.reason := body_reason hb
      obtain ⟨sf', k1, k2, k3, k4⟩ := ih (s := { s1 with n := s.n + 1 }) (s' := { s1' with n := s'.n + 1 })
        ⟨by simp [hr.n], hr1.pose, hr1.scale, hr1.pairings, hr1.prev, hr1.prev2, hr1.log, hr1.reason, hr1.trace⟩
        (by simpa [hre1] using hre) h hclear
      simp only at k3 k4
      exact ⟨sf', k1, k2, by omega, fun h => by have := k4 h; omega⟩

/-- The whole registration. -/
theorem align_two (hs : TwoMaps ops e wp c u k g g' gpts gpts' pts) {init : Pose3 K}
    {wantsLog : Bool} {r : IcpResult K (Pose3 K)}
    (h : align ops (simpleIcp c (hornAsSolver e nearOne ratio wp) mr name g gpts.length dense pts) p init 1 wantsLog = .ok r)
    (hclear : ∀ ev ∈ r.trace, SameSpots c u g g' pts ev.poseIn ∧ GoodPairs e u ev.pairings) :
    ∃ r', align ops (simpleIcp (matcherInUnit u c) (hornAsSolver e nearOne ratio wp) mr name' g' gpts'.length dense' (pts.map (P3.smul u))) (paramsInUnit k p) (inUnit u init) 1 wantsLog = .ok r' ∧ UnitRun u r r' := by
  set env := simpleIcp c (hornAsSolver e nearOne ratio wp) mr name g gpts.length dense pts with henv
  set env' := simpleIcp (matcherInUnit u c) (hornAsSolver e nearOne ratio wp) mr name' g' gpts'.length dense' (pts.map (P3.smul u)) with henv'
  have a1 : env.matchers ≠ [] ∧ env.solvers ≠ [] ∧ env.quality ≠ [] := by simp [henv, simpleIcp]
  have a2 : env.globalEmpty = false ∧ env.localEmpty = false := ⟨rfl, rfl⟩
  have b1 : env'.matchers ≠ [] ∧ env'.solvers ≠ [] ∧ env'.quality ≠ [] := by simp [henv', simpleIcp]
  have b2 : env'.globalEmpty = false ∧ env'.localEmpty = false := ⟨rfl, rfl⟩
  unfold align at h ⊢
  simp only [Outcome.assert, a1, a2, b1, b2, if_true, Outcome.bind_def, ne_eq, not_false_eq_true, and_self] at h ⊢
  obtain ⟨-, -, h⟩ := Outcome.bind_eq_ok.mp h
  obtain ⟨-, -, h⟩ := Outcome.bind_eq_ok.mp h
  obtain ⟨sf, hl, h⟩ := Outcome.bind_eq_ok.mp h
  obtain ⟨q, hq, h⟩ := Outcome.bind_eq_ok.mp h
  have htr : r.trace = sf.trace := by
    split at h
    · cases h
    · cases h; rfl
  obtain ⟨sf', k1, k2, -, k4⟩ := loop_unit (name' := name') (dense' := dense') (init' := inUnit u init) hs p.maxIterations
    (s := ⟨0, ⟨init, 1⟩, {}, init, none, none, [], if (wantsLog || p.generateDebugFiles) = true then some [] else none, .undefined, []⟩)
    (s' := ⟨0, ⟨inUnit u init, 1⟩, {}, inUnit u init, none, none, [], if (wantsLog || p.generateDebugFiles) = true then some [] else none,
      .undefined, []⟩)
    ⟨rfl, rfl, rfl, ⟨rfl, rfl, rfl, rfl⟩, rfl, rfl, by
      by_cases hw : (wantsLog || p.generateDebugFiles) = true
      · simp only [hw, if_true]; exact .some .nil
      · simp only [hw]; exact .none, rfl, Iff.rfl⟩ (by simp) hl (fun ev hev => hclear ev (htr ▸ hev))
  have hq' : evaluateQuality env'.quality sf'.n true sf'.sol.pose sf'.pairings = .ok q := by
    rw [← hq, k2.n]
    exact quality_unit (mr := mr) (env := env) (env' := env') k2.pairings sf.n true _ _ rfl rfl
  have hlog : sf'.log.isSome = sf.log.isSome := by
    have := k2.log
    cases h1 : sf.log <;> cases h2 : sf'.log <;> rw [h1, h2] at this <;> first | rfl | cases this
  simp only [Outcome.bind]
  have hM : (paramsInUnit k p).maxIterations = p.maxIterations := rfl
  have hD : (paramsInUnit k p).generateDebugFiles = p.generateDebugFiles := rfl
  rw [hM, hD, k1]
  have f1 : env.firstMatcherAttached = false := rfl
  have f2 : env'.firstMatcherAttached = false := rfl
  simp only [hq', hlog, f2]
  simp only [f1] at h
  split at h
  · cases h
  · rename_i hc
    rw [if_neg hc]
    cases h
    refine ⟨_, rfl, ⟨k2.n, ?_, ?_, k2.scale, rfl, k2.pairings, k2.log⟩⟩
    · simp only [k2.n, k2.reason]
    · simp only [k2.pose]

/-- The same map in two units. -/
theorem align_unit (hs : UnitSetting ops e wp c u k g g' gpts pts) {init : Pose3 K}
    {wantsLog : Bool} {r : IcpResult K (Pose3 K)}
    (h : align ops (simpleIcp c (hornAsSolver e nearOne ratio wp) mr name g gpts.length dense pts) p init 1 wantsLog = .ok r)
    (hclear : ∀ ev ∈ r.trace, NoTies gpts pts ev.poseIn ∧ GoodPairs e u ev.pairings) :
    ∃ r', align ops (simpleIcp (matcherInUnit u c) (hornAsSolver e nearOne ratio wp) mr name' g' (gpts.map (P3.smul u)).length dense' (pts.map (P3.smul u))) (paramsInUnit k p) (inUnit u init) 1 wantsLog = .ok r' ∧ UnitRun u r r' :=
  align_two (gpts' := gpts.map (P3.smul u)) ⟨hs.fit, hs.serves, hs.unit, hs.factor, hs.angSq, hs.free⟩ h fun ev hev =>
    ⟨fun _ hx => spot_unit hs.unit hs.fit.serves hs.serves (hclear ev hev).1 hx, (hclear ev hev).2⟩

end

end Verif.Lemmas.Unit
