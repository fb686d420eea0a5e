import Verif.Props.EndToEndMore
import Verif.Lemmas.FrameFree
import Verif.Model.MoreFilters
/-
C109: a registration does not depend on the frame of the map, nor on the order of the points.
-/
namespace Verif.Props
open Verif Verif.Spec
set_option linter.unusedSectionVars false
variable {K : Type} [Field K] [LinearOrder K] [IsStrictOrderedRing K]

/-- C109 (partial): take a registration (one matcher by distance, Horn's solver) that ends normally, and do it again with the map moved by any rigid
motion `G` and its points stored in any other order, the local points in any other order, and the initial guess moved by `G`.  The second one ends
normally too, after the same number of iterations, for the same reason, with the same quality and scale, the same pairs, the same log, and with the
pose moved by `G`.  Needed: in each iteration nothing was left to chance (no ties for the nearest point, one best rotation).  Missing:
runs in which the solver fails, for which it is false: the pose is then the identity in both frames (`SameRun.pose`; see `frame_lost_few_points`);
angular thresholds, for which it is false (`frame_matters_angular`); ties, for which it is false (`order_matters_ties`); floating-point numbers. -/
theorem frame_and_order_free_partial {ops : PoseOps K (Pose3 K)} {e : HornEnv K} {nearOne : P3 K → Bool} {ratio : K} {wp : WeightParams K}
    {c : DTCfg K} {mr : K} {name : String} (name' : String) {G : Pose3 K} {g g' : GLayer K} {gpts gpts' pts pts' : List (P3 K)}
    {dense : Bool} (dense' : Bool) {p : IcpParams K} (hs : FrameSetting ops e wp c G g g' gpts gpts' pts pts') {init : Pose3 K}
    {wantsLog : Bool} {r : IcpResult K (Pose3 K)}
    (h : align ops (simpleIcp c (hornAsSolver e nearOne ratio wp) mr name g gpts.length dense pts) p init 1 wantsLog = .ok r)
    (hclear : ∀ ev ∈ r.trace, ClearIter e.norm e.eps gpts pts ev) :
    ∃ r', align ops (simpleIcp c (hornAsSolver e nearOne ratio wp) mr name' g' gpts'.length dense' pts') p (G.compose init) 1 wantsLog =
      .ok r' ∧ SameRun G r r' := by
  exact Lemmas.align_frame (Lemmas.frame_map hs) (Lemmas.horn_same hs) h fun ev hev => ⟨(hclear ev hev).noTies, (hclear ev hev).oneBest⟩

/-- What is needed of pose differences holds for those of the library: `a ⊖ b` is `b⁻¹ a`. -/
theorem relative_pose_frame_free {ops : PoseOps K (Pose3 K)} (h : ∀ a b, ops.sub a b = b.inv.compose a) {G : Pose3 K} (hG : IsRotation G.R) :
    FrameFree ops G := by
  intro a b
  have h1 : (G.compose b).inv.compose (G.compose a) = b.inv.compose a := by
    have := hG.1
    rw [M3.ext_iff] at this
    simp only [M3.mul, M3.transpose, M3.one] at this
    obtain ⟨a1, a2, a3, a4, a5, a6, a7, a8, a9⟩ := this
    have hA : ∀ B A : M3 K, (G.R.mul B).transpose.mul (G.R.mul A) = B.transpose.mul A := by
      intro B A
      have e1 : (G.R.mul B).transpose = B.transpose.mul G.R.transpose := by
        ext <;> simp [M3.mul, M3.transpose] <;> ring
      rw [e1, Lemmas.M3.mul_assoc, ← Lemmas.M3.mul_assoc G.R.transpose, hG.1]
      congr 1
      ext <;> simp [M3.mul, M3.one]
    have hv : ∀ (B : M3 K) (v : P3 K), (G.R.mul B).transpose.mulVec (G.R.mulVec v) = B.transpose.mulVec v := by
      intro B v
      have e1 : (G.R.mul B).transpose = B.transpose.mul G.R.transpose := by
        ext <;> simp [M3.mul, M3.transpose] <;> ring
      rw [e1, Lemmas.mul_mulVec, ← Lemmas.mul_mulVec G.R.transpose, hG.1]
      congr 1
      ext <;> simp [M3.mulVec, M3.one]
    refine Pose3.ext (hA _ _) ?_
    simp only [Pose3.inv, Pose3.compose]
    have e2 : ∀ (M : M3 K) (u v : P3 K), M.mulVec u + -(M.mulVec v) = M.mulVec (u - v) := by
      intro M u v; rw [Lemmas.mulVec_sub]; ext <;> simp <;> ring
    rw [e2, e2]
    have e3 : G.R.mulVec a.t + G.t - (G.R.mulVec b.t + G.t) = G.R.mulVec (a.t - b.t) := by
      rw [Lemmas.mulVec_sub]; ext <;> simp
    rw [e3, hv]
  rw [h, h, h1]

/-- Exact data leave nothing to chance: if the map holds the true places of the local points, all paired so, then at any pose close enough there
are no ties, and the best rotation is unique. -/
theorem exact_is_clear {norm : P3 K → K} {eps : K} {gpts pts : List (P3 K)} {T T0 : Pose3 K} {thr : K} (hT : IsRotation T.R) (hn : IsNorm norm)
    (hin : ∀ x ∈ pts, T.composePoint x ∈ gpts) (hcl : CloseEnough pts gpts thr T T0) (hsp : Spread norm eps pts)
    {prs : Pairings K} (hm : AllMatched pts T prs) (n : Nat) (sv : Option (Bool × Sol K (Pose3 K))) (st : Option Reason) :
    ClearIter norm eps gpts pts ⟨n, T0, prs, sv, st⟩ := by
  constructor
  · have key : ∀ x ∈ pts, ∀ y ∈ gpts, (∀ w ∈ gpts, P3.distSq (T0.composePoint x) y ≤ P3.distSq (T0.composePoint x) w) →
        y = T.composePoint x := by
      intro x hx y hy hmin
      by_contra hne
      exact absurd (hmin _ (hin x hx)) (not_le.mpr (hcl.nearest x hx y hy hne))
    intro x hx y hy z hz h1 h2
    rw [key x hx y hy h1, key x hx z hz h2]
  · intro _
    simp only
    obtain ⟨hl, hg⟩ := Lemmas.matched_locals hm
    obtain ⟨a, ha, b, hb, hna, hnb, hcr⟩ := hsp
    have hne : pts ≠ [] := List.ne_nil_of_mem ha
    have hgm : mean (pts.map T.composePoint) = T.composePoint (mean pts) := Lemmas.mean_frame T hne
    have hpair : ∀ q ∈ prs.pt2pt, q.global = T.composePoint q.local := by
      intro q hq
      have h9 : (q.localIdx, q.local, q.global) ∈ prs.pt2pt.map (fun q => (q.localIdx, q.local, q.global)) :=
        List.mem_map.mpr ⟨q, hq, rfl⟩
      rw [hm.pairs] at h9
      obtain ⟨x, -, hxe⟩ := List.mem_map.mp h9
      simp only [Prod.mk.injEq] at hxe
      rw [← hxe.2.1, ← hxe.2.2]
    have hzero : turnCost norm eps prs.pt2pt T.R = 0 := by
      refine List.sum_eq_zero ?_
      intro v hv
      obtain ⟨q, hq, rfl⟩ := List.mem_map.mp hv
      have hq := (List.mem_filter.mp hq).1
      rw [hl, hg, hgm, hpair q hq, Lemmas.composePoint_sub]
      simp [P3.distSq, P3.normSq, P3.dot]
    have hfit : ∀ A : M3 K, (∀ R, IsRotation R → turnCost norm eps prs.pt2pt A ≤ turnCost norm eps prs.pt2pt R) →
        ∀ x ∈ pts, ¬ norm (x - mean pts) < eps → A.mulVec (x - mean pts) = T.R.mulVec (x - mean pts) := by
      intro A hA x hx hfar
      have h0 := hA T.R hT
      rw [hzero] at h0
      rw [← hl] at hx
      obtain ⟨q, hq, rfl⟩ := List.mem_map.mp hx
      have hqf : q ∈ farPairs norm eps prs.pt2pt := by
        refine List.mem_filter.mpr ⟨hq, ?_⟩
        rw [hl, hg, hgm, hpair q hq, Lemmas.composePoint_sub, Lemmas.norm_rot hn hT]
        simpa using hfar
      have hle := List.single_le_sum (l := (farPairs norm eps prs.pt2pt).map fun q => P3.distSq (A.mulVec (q.local - mean (prs.pt2pt.map (·.local))))
        (q.global - mean (prs.pt2pt.map (·.global)))) (by
          intro z hz
          obtain ⟨q, -, rfl⟩ := List.mem_map.mp hz
          exact Lemmas.distSq_nonneg _ _) _ (List.mem_map.mpr ⟨q, hqf, rfl⟩)
      have h1 := Lemmas.distSq_nonneg (A.mulVec (q.local - mean (prs.pt2pt.map (·.local)))) (q.global - mean (prs.pt2pt.map (·.global)))
      have h2 := Lemmas.distSq_eq_zero (le_antisymm (le_trans hle h0) h1)
      rw [hl, hg, hgm, hpair q hq, Lemmas.composePoint_sub] at h2
      exact h2
    intro A B hAr hBr hA hB
    have f : ∀ A : M3 K, IsRotation A → (∀ R, IsRotation R → turnCost norm eps prs.pt2pt A ≤ turnCost norm eps prs.pt2pt R) → A = T.R := by
      intro A hAr hA
      have d1 := hfit A hA a ha hna
      have d2 := hfit A hA b hb hnb
      have d3 : A.mulVec ((a - mean pts).cross (b - mean pts)) = T.R.mulVec ((a - mean pts).cross (b - mean pts)) := by
        rw [Lemmas.rot_cross hAr, Lemmas.rot_cross hT, d1, d2]
      refine Lemmas.eq_of_basis ?_ d1 d2 d3
      intro hz
      refine hcr ?_
      set v := (a - mean pts).cross (b - mean pts)
      have : P3.distSq v 0 = 0 := by
        simp only [P3.distSq, P3.normSq, P3.dot, P3.sub_x, P3.sub_y, P3.sub_z, P3.zero_x, P3.zero_y, P3.zero_z, sub_zero]
        exact hz
      exact Lemmas.distSq_eq_zero this
    rw [f A hAr hA, f B hBr hB]

/-- C109, negative: with one or two local points the identity is returned wherever the map is.  In two frames that differ by `G`, from the true
pose, with all pairs found, the answers of the two registrations are the same pose, not poses that differ by `G`. -/
theorem frame_lost_few_points {ops : PoseOps K (Pose3 K)} {e : HornEnv K} (nearOne : P3 K → Bool) (ratio : K)
    {wp : WeightParams K} {c : DTCfg K} {mr : K} (name : String) {g g' : GLayer K} {gpts gpts' pts : List (P3 K)} (dense : Bool)
    {T G : Pose3 K} {p : IcpParams K} (hw : PlainSolver wp) (hg : ServesPoints g gpts) (hg' : ServesPoints g' gpts')
    (hc : PlainMatcher c pts.length) (hne : pts ≠ []) (hfew : pts.length < 3) (hnd : pts.Nodup) (hT : IsRotation T.R)
    (hG : IsRotation G.R) (hmap : gpts'.Perm (gpts.map G.composePoint))
    (hin : ∀ x ∈ pts, T.composePoint x ∈ gpts) (hr : mr ≤ 1) (wantsLog : Bool) (hit : 1 ≤ p.maxIterations)
    (hmoved : G ≠ Pose3.identity) :
    ∃ r r', align ops (simpleIcp c (hornAsSolver e nearOne ratio wp) mr name g gpts.length dense pts) p T 1 wantsLog = .ok r ∧
      align ops (simpleIcp c (hornAsSolver e nearOne ratio wp) mr name g' gpts'.length dense pts) p (G.compose T) 1 wantsLog = .ok r' ∧
      r'.pose = r.pose ∧ r'.pose ≠ G.compose r.pose := by
  obtain ⟨r, h1, h2, -⟩ := few_points_lost (ops := ops) (e := e) nearOne ratio name dense (p := p) hw hg hc hne hfew hnd
    hT hin hr (Lemmas.close_self hc.thr T) wantsLog hit
  obtain ⟨r', k1, k2, -⟩ := few_points_lost (ops := ops) (e := e) nearOne ratio name dense (p := p) (T := G.compose T) hw hg' hc hne hfew hnd
    (Lemmas.rot_mul hG hT) (fun x hx => hmap.symm.subset (by
      rw [Lemmas.compose_composePoint]; exact List.mem_map.mpr ⟨_, hin x hx, rfl⟩)) hr (Lemmas.close_self hc.thr _) wantsLog hit
  refine ⟨r, r', h1, k1, by rw [h2, k2], ?_⟩
  rw [h2, k2]
  intro h
  refine hmoved ?_
  have : G.compose Pose3.identity = G := by
    ext <;> simp [Pose3.compose, Pose3.identity, M3.mul, M3.mulVec, M3.one]
  rw [← this, ← h]

/-! ### concrete cases -/

/-- A run of one iteration, with its record. -/
theorem align_once_trace {ops : PoseOps K (Pose3 K)} {c : DTCfg K} {sv : Solver K (Pose3 K)} {mr : K} {name : String} {g : GLayer K}
    {ng : Nat} {dense : Bool} {pts : List (P3 K)} {p : IcpParams K} {T0 : Pose3 K} {wantsLog : Bool}
    (hit : p.maxIterations = 1) (hck : p.qualityCheckpoints = []) (hdet : p.saveIterationDetails = false)
    {ms : MatchState K} {prs : Pairings K}
    (hm : runMatchers (simpleIcp c sv mr name g ng dense pts).matchers 0 T0 (simpleIcp c sv mr name g ng dense pts).freshMS =
      .ok (ms, prs)) (hne : prs.isEmpty = false) {sol : Sol K (Pose3 K)} {fin' : List Nat → List Nat}
    (hs : ∀ out (sc : SolverCtx (Pose3 K)) fin, sc.guess = some T0 → runSolvers ops.tnorm [sv] prs out sc fin = .ok (true, sol, fin' fin)) {q : K}
    (hq : ∀ it fin pose, evaluateQuality (simpleIcp c sv mr name g ng dense pts).quality it fin pose prs = .ok q) :
    ∃ r, align ops (simpleIcp c sv mr name g ng dense pts) p T0 1 wantsLog = .ok r ∧ r.pose = sol.pose ∧ r.pairings = prs ∧
      r.quality = q ∧ r.reason ≠ .solverError ∧ ∀ ev ∈ r.trace, ev.poseIn = T0 ∧ ev.pairings = prs := by
  set env := simpleIcp c sv mr name g ng dense pts with henv
  have hs' : ∀ out (sc : SolverCtx (Pose3 K)) fin, sc.guess = some T0 → runSolvers ops.tnorm env.solvers prs out sc fin = .ok (true, sol, fin' fin) := hs
  have e1 : env.matchers ≠ [] ∧ env.solvers ≠ [] ∧ env.quality ≠ [] := by simp [henv, simpleIcp]
  have e2 : env.globalEmpty = false ∧ env.localEmpty = false := ⟨rfl, rfl⟩
  have hook : ∀ n prs sol, hookStops env n prs sol = false := fun _ _ _ => rfl
  unfold align
  simp only [Outcome.assert, e1, e2, if_true, Outcome.bind_def, Outcome.bind, ne_eq, not_false_eq_true, and_self, hit]
  simp only [icpLoop, icpBody, hm, hne, Outcome.bind, hs', Bool.not_true, Bool.false_eq_true, if_false, saveDetails, hdet,
    Bool.false_and, checkpointFails, hck, List.lookup, hook]
  cases isStalled p (stepNorms ops sol.pose T0 none) with
  | true => simp [hq]
  | false => simp [hq]

/-- A run without pairings. -/
theorem align_none {ops : PoseOps K (Pose3 K)} {c : DTCfg K} {sv : Solver K (Pose3 K)} {mr : K} {name : String} {g : GLayer K}
    {ng : Nat} {dense : Bool} {pts : List (P3 K)} {p : IcpParams K} {T0 : Pose3 K} {wantsLog : Bool}
    (hit : p.maxIterations = 1) {ms : MatchState K} {prs : Pairings K}
    (hm : runMatchers (simpleIcp c sv mr name g ng dense pts).matchers 0 T0 (simpleIcp c sv mr name g ng dense pts).freshMS =
      .ok (ms, prs)) (hne : prs.isEmpty = true) {q : K}
    (hq : ∀ it fin pose, evaluateQuality (simpleIcp c sv mr name g ng dense pts).quality it fin pose prs = .ok q) :
    ∃ r, align ops (simpleIcp c sv mr name g ng dense pts) p T0 1 wantsLog = .ok r ∧ r.pose = T0 ∧ r.quality = q ∧
      r.reason = .noPairings := by
  set env := simpleIcp c sv mr name g ng dense pts with henv
  have e1 : env.matchers ≠ [] ∧ env.solvers ≠ [] ∧ env.quality ≠ [] := by simp [henv, simpleIcp]
  have e2 : env.globalEmpty = false ∧ env.localEmpty = false := ⟨rfl, rfl⟩
  unfold align
  simp only [Outcome.assert, e1, e2, if_true, Outcome.bind_def, Outcome.bind, ne_eq, not_false_eq_true, and_self, hit]
  simp only [icpLoop, icpBody, hm, hne, Outcome.bind, if_true]
  simp [hq]

/-- The quality of the paired ratio. -/
theorem ratio_quality {c : DTCfg K} {sv : Solver K (Pose3 K)} {mr : K} {name : String} {g : GLayer K} {ng : Nat} {dense : Bool}
    {pts : List (P3 K)} (ps : List (PtPair K)) (n it : Nat) (fin : Bool) (pose : Pose3 K) (hn : n ≠ 0) (hr : ¬ (ps.length : K) / n < mr) :
    evaluateQuality (simpleIcp c sv mr name g ng dense pts).quality it fin pose { pt2pt := ps, potential := n } = .ok ((ps.length : K) / n) := by
  simp [evaluateQuality, evaluateQualityLoop, simpleIcp, pairedRatioEval, pairedRatio, hn, Pairings.size, Outcome.assert, hr, Outcome.bind]

/-- Differences of poses in `diffOps` do not depend on the frame. -/
theorem diffOps_free {G : Pose3 ℝ} (hG : IsRotation G.R) : FrameFree diffOps G := by
  intro a b
  have h : ∀ u v : P3 ℝ, P3.normSq (G.R.mulVec u - G.R.mulVec v) = P3.normSq (u - v) := by
    intro u v; rw [← Lemmas.mulVec_sub, Lemmas.rot_normSq hG]
  have h0 := h ⟨a.R.a00, a.R.a10, a.R.a20⟩ ⟨b.R.a00, b.R.a10, b.R.a20⟩
  have h1 := h ⟨a.R.a01, a.R.a11, a.R.a21⟩ ⟨b.R.a01, b.R.a11, b.R.a21⟩
  have h2 := h ⟨a.R.a02, a.R.a12, a.R.a22⟩ ⟨b.R.a02, b.R.a12, b.R.a22⟩
  have h3 := h a.t b.t
  simp only [M3.mulVec, P3.normSq, P3.dot, P3.sub_x, P3.sub_y, P3.sub_z] at h0 h1 h2 h3
  simp only [diffOps, Pose3.compose, M3.mul, M3.mulVec, P3.normSq, P3.dot, P3.sub_x, P3.sub_y, P3.sub_z, P3.add_x, P3.add_y, P3.add_z,
    Prod.mk.injEq]
  constructor
  · linear_combination h3
  · linear_combination h0 + h1 + h2

/-- A map into which the four points do not fit. -/
def wideMap : List (P3 ℝ) := [⟨2, 0, 0⟩, ⟨-2, 0, 0⟩, ⟨0, 1, 0⟩, ⟨0, -1, 0⟩]
/-- The matcher for it. -/
noncomputable def wideCfg : DTCfg ℝ := { thr := 5 / 4, angDeg := 0, angSq := 0, eps := 1 / 100, allowGlobal := true }
/-- One iteration. -/
noncomputable def onceParams : IcpParams ℝ := { maxIterations := 1, minAbsStepTrans := 1 / 10000, minAbsStepRot := 1 / 10000 }

theorem plain_fit {c : DTCfg ℝ} {gpts pts : List (P3 ℝ)} (h : gpts ≠ []) (hc : PlainMatcher c pts.length) (hm : c.allowGlobal = true) :
    FitSetting diffOps realHorn exParams c (bruteLayer gpts) gpts pts where
  norms := diffOps_ok.nonneg
  eig N := Lemmas.top_of_eigenvector (realHorn_top N)
  norm := realNorm_ok
  eps := by norm_num [realHorn]
  solver := ⟨rfl, rfl, by simp [exParams], by simp [exParams], by simp [exParams]⟩
  serves := bruteLayer_serves h
  matcher := hc
  many := hm

theorem wide_setting : FrameSetting diffOps realHorn exParams wideCfg exT (bruteLayer wideMap) (bruteLayer (wideMap.map exT.composePoint).reverse)
    wideMap (wideMap.map exT.composePoint).reverse regPts regPts.reverse where
  fit := plain_fit (by simp [wideMap]) ⟨rfl, by norm_num [wideCfg], by simp [wideCfg], by simp [wideCfg], by norm_num [wideCfg], Or.inl rfl, rfl⟩ rfl
  serves := bruteLayer_serves (by simp [wideMap])
  rot := (reg_setting true).rot
  map := List.reverse_perm _
  points := List.reverse_perm _
  angSq := rfl
  free := diffOps_free (reg_setting true).rot

/-- The nearest map point, alone at that distance. -/
def OnlyNearest (gpts : List (P3 ℝ)) (T : Pose3 ℝ) (x y : P3 ℝ) : Prop :=
  y ∈ gpts ∧ ∀ z ∈ gpts, z ≠ y → P3.distSq (T.composePoint x) y < P3.distSq (T.composePoint x) z

theorem spot_only {c : DTCfg ℝ} {g : GLayer ℝ} {gpts : List (P3 ℝ)} (hg : ServesPoints g gpts) {T : Pose3 ℝ} {x y : P3 ℝ}
    (h : OnlyNearest gpts T x y) (hd : P3.distSq (T.composePoint x) y < c.thr * c.thr) : Lemmas.spot c T g x = some (x, y) := by
  obtain ⟨nb, h1, h2, h3, h4⟩ := hg.nearest (T.composePoint x)
  have hy : nb.pt = y := by
    by_contra hne
    exact absurd (h4 y h.1) (not_le.mpr (h.2 _ (List.mem_of_getElem? h2) hne))
  simp [Lemmas.spot, h1, h3, hy, hd]

theorem noTies_only {gpts pts : List (P3 ℝ)} {T : Pose3 ℝ} (h : ∀ x ∈ pts, ∃ y, OnlyNearest gpts T x y) : NoTies gpts pts T := by
  intro x hx y hy z hz h1 h2
  obtain ⟨w, hw, hmin⟩ := h x hx
  have key : ∀ y ∈ gpts, (∀ w ∈ gpts, P3.distSq (T.composePoint x) y ≤ P3.distSq (T.composePoint x) w) → y = w := by
    intro y hy hle
    by_contra hne
    exact absurd (hle w hw) (not_le.mpr (hmin y hy hne))
  rw [key y hy h1, key z hz h2]

/-- One iteration with all local points paired. -/
theorem one_iteration {c : DTCfg ℝ} {gpts pts : List (P3 ℝ)} (hne : gpts ≠ []) (hc : PlainMatcher c pts.length) (hang : c.angSq = 0)
    (hmany : c.allowGlobal = true) {T : Pose3 ℝ} (h3 : 3 ≤ pts.length) {L : List (P3 ℝ × P3 ℝ)} (hlen : L.length = pts.length)
    (hL : pts.filterMap (Lemmas.spot c T (bruteLayer gpts)) = L) :
    ∃ r, align diffOps (simpleIcp c (hornAsSolver realHorn (fun _ => false) 0 exParams) 1 "pts" (bruteLayer gpts) gpts.length true pts)
        onceParams T 1 false = .ok r ∧ r.quality = 1 ∧ r.reason ≠ .solverError ∧
      (∀ ev ∈ r.trace, ev.poseIn = T ∧ ev.pairings.pt2pt.map (fun q => (q.local, q.global)) = L) ∧
      r.pose.t = mean (L.map (·.2)) - r.pose.R.mulVec (mean (L.map (·.1))) := by
  have hs := plain_fit (pts := pts) hne hc hmany
  obtain ⟨ms, hm⟩ := Lemmas.simple_match_any (s := hornAsSolver realHorn (fun _ => false) 0 exParams) (mr := 1) (name := "pts")
    (dense := true) hs.serves hc hang hmany 0 T
  have hL' := Lemmas.cand_spots hang T (bruteLayer gpts) pts
  rw [hL] at hL'
  set ps := (List.range pts.length).filterMap (Lemmas.cand c T.composePoint (bruteLayer gpts) pts) with hps
  have hl : ps.length = pts.length := by rw [← hlen, ← hL']; simp
  obtain ⟨sol, hho⟩ := Lemmas.horn_total (e := realHorn) (wp := exParams) hs.solver ps pts.length (by omega)
  have hturn := Lemmas.horn_turn (p := { pt2pt := ps, potential := pts.length }) hs.eig
    ⟨rfl, rfl, rfl, rfl, rfl, rfl, rfl, by simp [exParams], by simp [exParams], by simp [exParams]⟩ hho
  have hsolve := fun out sc fin => Lemmas.simple_solve (c := c) (nearOne := fun _ => false) (ratio := 0) (mr := 1) (name := "pts")
    (g := bruteLayer gpts) (ng := gpts.length) (dense := true) (pts := pts) diffOps.tnorm ps pts.length out sc fin hho
  have hn0 : pts.length ≠ 0 := by omega
  have hn1 : (ps.length : ℝ) / (pts.length : ℝ) = 1 := by rw [hl]; exact div_self (by exact_mod_cast hn0)
  obtain ⟨r, g1, g2, -, g4, g5, g6⟩ := align_once_trace (ops := diffOps) (p := onceParams) (wantsLog := false)
    rfl rfl rfl hm (by
      cases h : ps with
      | nil => rw [h] at hl; simp at hl; omega
      | cons a l => simp [Pairings.isEmpty]) (fin' := id) (fun out sc fin _ => hsolve out sc fin)
    (fun it fin pose => ratio_quality ps pts.length it fin pose hn0 (by rw [hn1]; exact lt_irrefl _))
  refine ⟨r, g1, by rw [g4, hn1], g5, fun ev hev => ⟨(g6 ev hev).1, by rw [(g6 ev hev).2]; exact hL'⟩, ?_⟩
  rw [g2, ← hL', List.map_map, List.map_map]
  exact hturn.2.2

/-- The pairs of the four points at the identity. -/
def widePairs : List (P3 ℝ × P3 ℝ) := [(⟨1, 0, 0⟩, ⟨2, 0, 0⟩), (⟨-1, 0, 0⟩, ⟨-2, 0, 0⟩), (⟨0, 1, 0⟩, ⟨0, 1, 0⟩), (⟨0, -1, 0⟩, ⟨0, -1, 0⟩)]

theorem wide_nearest : ∀ q ∈ widePairs, OnlyNearest wideMap Pose3.identity q.1 q.2 := by
  intro q hq
  refine ⟨?_, fun z hz => ?_⟩
  · revert q; simp [widePairs, wideMap]
  · rw [id_composePoint]
    simp only [widePairs, List.mem_cons, List.not_mem_nil, or_false] at hq
    simp only [wideMap, List.mem_cons, List.not_mem_nil, or_false] at hz
    rcases hq with rfl | rfl | rfl | rfl <;> rcases hz with rfl | rfl | rfl | rfl <;>
      norm_num [P3.distSq, P3.normSq, P3.dot, P3.ext_iff]

theorem wide_spots : regPts.filterMap (Lemmas.spot wideCfg Pose3.identity (bruteLayer wideMap)) = widePairs := by
  have h : ∀ q ∈ widePairs, Lemmas.spot wideCfg Pose3.identity (bruteLayer wideMap) q.1 = some (q.1, q.2) := by
    intro q hq
    refine spot_only (bruteLayer_serves (by simp [wideMap])) (wide_nearest q hq) ?_
    rw [id_composePoint]
    simp only [widePairs, List.mem_cons, List.not_mem_nil, or_false] at hq
    rcases hq with rfl | rfl | rfl | rfl <;> norm_num [P3.distSq, P3.normSq, P3.dot, wideCfg]
  simp only [widePairs, List.mem_cons, List.not_mem_nil, or_false, forall_eq_or_imp, forall_eq] at h
  simp only [regPts, List.filterMap_cons, List.filterMap_nil, h, widePairs]

theorem wide_one_best {ps : List (PtPair ℝ)} (h : ps.map (fun q => (q.local, q.global)) = widePairs) :
    OneBestTurn realHorn.norm realHorn.eps ps := by
  have hl : mean (ps.map (·.local)) = ⟨0, 0, 0⟩ := by
    have : ps.map (·.local) = widePairs.map (·.1) := by rw [← h, List.map_map]; rfl
    rw [this]; ext <;> simp [mean, widePairs]
  have hg : mean (ps.map (·.global)) = ⟨0, 0, 0⟩ := by
    have : ps.map (·.global) = widePairs.map (·.2) := by rw [← h, List.map_map]; rfl
    rw [this]; ext <;> simp [mean, widePairs]
  have hcost : ∀ R : M3 ℝ, IsRotation R → turnCost realHorn.norm realHorn.eps ps R = 2 + 8 * (1 - R.a00) + 4 * (1 - R.a11) := by
    intro R hR
    rw [Lemmas.turnCost_eq, hl, hg, h]
    have hfar : ∀ q ∈ widePairs, ¬ (realHorn.norm (q.2 - ⟨0, 0, 0⟩) < realHorn.eps ∨ realHorn.norm (q.1 - ⟨0, 0, 0⟩) < realHorn.eps) := by
      intro q hq
      refine not_or.mpr ⟨realNorm_far ?_, realNorm_far ?_⟩ <;> revert q <;> norm_num [widePairs, P3.normSq, P3.dot]
    unfold Lemmas.farSum
    rw [List.filter_eq_self.mpr (by intro q hq; simpa using hfar q hq)]
    have := hR.1
    rw [M3.ext_iff] at this
    simp only [M3.mul, M3.transpose, M3.one] at this
    obtain ⟨a1, a2, a3, a4, a5, a6, a7, a8, a9⟩ := this
    simp only [widePairs, List.map_cons, List.map_nil, List.sum_cons, List.sum_nil, M3.mulVec, P3.distSq, P3.normSq, P3.dot, P3.sub_x, P3.sub_y,
      P3.sub_z]
    linear_combination 2 * a1 + 2 * a5
  have hone : IsRotation (M3.one : M3 ℝ) := by
    constructor
    · ext <;> simp [M3.mul, M3.transpose, M3.one]
    · simp [M3.det, M3.one]
  have f : ∀ A : M3 ℝ, IsRotation A → (∀ R, IsRotation R → turnCost realHorn.norm realHorn.eps ps A ≤ turnCost realHorn.norm realHorn.eps ps R) →
      A = M3.one := by
    intro A hA hmin
    have h1 := hmin _ hone
    rw [hcost A hA, hcost _ hone] at h1
    simp only [M3.one] at h1
    have := hA.1
    rw [M3.ext_iff] at this
    simp only [M3.mul, M3.transpose, M3.one] at this
    obtain ⟨a1, a2, a3, a4, a5, a6, a7, a8, a9⟩ := this
    have hd := hA.2
    have b0 : A.a00 ≤ 1 := abs_le_one_of_sq a1
    have b1 : A.a11 ≤ 1 := abs_le_one_of_sq (by linarith : A.a11 * A.a11 + A.a01 * A.a01 + A.a21 * A.a21 = 1)
    have d0 : A.a00 = 1 := by linarith
    have d1 : A.a11 = 1 := by linarith
    obtain ⟨e10, e20⟩ := two_sq_zero (b := A.a10) (c := A.a20) (by rw [d0] at a1; linarith)
    obtain ⟨e01, e21⟩ := two_sq_zero (b := A.a01) (c := A.a21) (by rw [d1] at a5; linarith)
    rw [d0, e10, e20] at a3
    rw [d1, e01, e21] at a6
    have e02 : A.a02 = 0 := by linarith
    have e12 : A.a12 = 0 := by linarith
    simp only [M3.det, d0, d1, e10, e20, e01, e21, e02, e12] at hd
    have d2 : A.a22 = 1 := by linarith
    ext <;> simp [M3.one, *]
  intro A B hA hB h1 h2
  rw [f A hA h1, f B hB h2]

/-- Four points registered, from the identity, to a map they do not fit into: the hypotheses of the theorem hold, and the registration gives the
same when the map is moved by `exT` and stored in reverse order, and the local points are in reverse order. -/
example : ∃ r r', align diffOps (simpleIcp wideCfg (hornAsSolver realHorn (fun _ => false) 0 exParams) 1 "pts" (bruteLayer wideMap) 4 true regPts)
      onceParams Pose3.identity 1 false = .ok r ∧
    align diffOps (simpleIcp wideCfg (hornAsSolver realHorn (fun _ => false) 0 exParams) 1 "map" (bruteLayer (wideMap.map exT.composePoint).reverse)
      (wideMap.map exT.composePoint).reverse.length false regPts.reverse) onceParams (exT.compose Pose3.identity) 1 false = .ok r' ∧
    (∀ ev ∈ r.trace, ClearIter realHorn.norm realHorn.eps wideMap regPts ev) ∧ SameRun exT r r' ∧ r'.pose = exT.compose r.pose ∧ r'.quality = 1 := by
  obtain ⟨r, h1, h2, h3, h4, -⟩ := one_iteration (c := wideCfg) (gpts := wideMap) (pts := regPts) (T := Pose3.identity) (by simp [wideMap])
    wide_setting.fit.matcher rfl rfl (by simp [regPts]) (L := widePairs) (by simp [widePairs, regPts]) wide_spots
  have hclear : ∀ ev ∈ r.trace, ClearIter realHorn.norm realHorn.eps wideMap regPts ev := by
    intro ev hev
    obtain ⟨k1, k2⟩ := h4 ev hev
    refine ⟨?_, fun _ => wide_one_best k2⟩
    rw [k1]
    refine noTies_only fun x hx => ?_
    have : x ∈ widePairs.map (·.1) := by simpa [widePairs, regPts] using hx
    obtain ⟨q, hq, rfl⟩ := List.mem_map.mp this
    exact ⟨_, wide_nearest q hq⟩
  obtain ⟨r', k1, k2⟩ := frame_and_order_free_partial "map" false wide_setting h1 hclear
  refine ⟨r, r', h1, k1, hclear, k2, ?_, by rw [k2.quality, h2]⟩
  rw [k2.pose, if_neg h3]

/-- A map with two places for the first of the four points, equally far. -/
def tieMap : List (P3 ℝ) := [⟨1, 0, 1⟩, ⟨1, 0, -1⟩, ⟨-1, 0, 0⟩, ⟨0, 1, 0⟩, ⟨0, -1, 0⟩]
/-- The same map, with those two in the other order. -/
def tieMap' : List (P3 ℝ) := [⟨1, 0, -1⟩, ⟨1, 0, 1⟩, ⟨-1, 0, 0⟩, ⟨0, 1, 0⟩, ⟨0, -1, 0⟩]

theorem brute_first (q y : P3 ℝ) (ys : List (P3 ℝ)) (h : ∀ x ∈ ys, P3.distSq q y ≤ P3.distSq q x) (i : Nat) :
    bruteNN q i (y :: ys) = some ⟨i, y, P3.distSq q y⟩ := by
  rcases eq_or_ne ys [] with rfl | hne
  · rfl
  · obtain ⟨nb, h1, -, h3, h4, -⟩ := bruteNN_spec q ys (i + 1) hne
    simp [bruteNN, h1, h4, h _ (List.mem_of_getElem? h3)]

/-- Pairs of the four points when the first goes to height `z`. -/
def tiePairs (z : ℝ) : List (P3 ℝ × P3 ℝ) := [(⟨1, 0, 0⟩, ⟨1, 0, z⟩), (⟨-1, 0, 0⟩, ⟨-1, 0, 0⟩), (⟨0, 1, 0⟩, ⟨0, 1, 0⟩), (⟨0, -1, 0⟩, ⟨0, -1, 0⟩)]

theorem tie_spots {z : ℝ} (hz : z * z = 1) :
    regPts.filterMap (Lemmas.spot wideCfg Pose3.identity (bruteLayer [⟨1, 0, z⟩, ⟨1, 0, -z⟩, ⟨-1, 0, 0⟩, ⟨0, 1, 0⟩, ⟨0, -1, 0⟩])) = tiePairs z := by
  set m : List (P3 ℝ) := [⟨1, 0, z⟩, ⟨1, 0, -z⟩, ⟨-1, 0, 0⟩, ⟨0, 1, 0⟩, ⟨0, -1, 0⟩] with hm
  have hne : m ≠ [] := by simp [hm]
  have h0 : Lemmas.spot wideCfg Pose3.identity (bruteLayer m) ⟨1, 0, 0⟩ = some (⟨1, 0, 0⟩, ⟨1, 0, z⟩) := by
    have : bruteNN ⟨1, 0, 0⟩ 0 m = some ⟨0, ⟨1, 0, z⟩, P3.distSq ⟨1, 0, 0⟩ ⟨1, 0, z⟩⟩ := by
      refine brute_first _ _ _ ?_ 0
      intro x hx
      simp only [List.mem_cons, List.not_mem_nil, or_false] at hx
      rcases hx with rfl | rfl | rfl | rfl <;> simp only [P3.distSq, P3.normSq, P3.dot, P3.sub_x, P3.sub_y, P3.sub_z] <;> nlinarith
    have hd : P3.distSq (⟨1, 0, 0⟩ : P3 ℝ) ⟨1, 0, z⟩ < 5 / 4 * (5 / 4) := by
      simp only [P3.distSq, P3.normSq, P3.dot, P3.sub_x, P3.sub_y, P3.sub_z]; nlinarith
    simp only [Lemmas.spot, id_composePoint, bruteLayer, this, Option.bind_some, wideCfg, hd, if_true]
  have h : ∀ x : P3 ℝ, x ∈ [(⟨-1, 0, 0⟩ : P3 ℝ), ⟨0, 1, 0⟩, ⟨0, -1, 0⟩] → Lemmas.spot wideCfg Pose3.identity (bruteLayer m) x = some (x, x) := by
    intro x hx
    refine spot_only (bruteLayer_serves hne) ⟨by simp only [hm, List.mem_cons]; simp only [List.mem_cons] at hx; tauto, ?_⟩ ?_
    · intro y hy hyx
      rw [id_composePoint]
      have h1 : P3.distSq x x = 0 := by simp [P3.distSq, P3.normSq, P3.dot]
      rw [h1]
      refine lt_of_le_of_ne (Lemmas.distSq_nonneg _ _) fun h => hyx (Lemmas.distSq_eq_zero h.symm).symm
    · rw [id_composePoint]
      have h1 : P3.distSq x x = 0 := by simp [P3.distSq, P3.normSq, P3.dot]
      rw [h1]; norm_num [wideCfg]
  simp only [List.mem_cons, List.not_mem_nil, or_false, forall_eq_or_imp, forall_eq] at h
  simp only [regPts, List.filterMap_cons, List.filterMap_nil, h0, h, tiePairs]

theorem tie_run {z : ℝ} (hz : z * z = 1) : ∃ r, align diffOps (simpleIcp wideCfg (hornAsSolver realHorn (fun _ => false) 0 exParams) 1 "pts"
      (bruteLayer [⟨1, 0, z⟩, ⟨1, 0, -z⟩, ⟨-1, 0, 0⟩, ⟨0, 1, 0⟩, ⟨0, -1, 0⟩]) 5 true regPts) onceParams Pose3.identity 1 false = .ok r ∧
    r.reason ≠ .solverError ∧ r.pose.t = ⟨0, 0, z / 4⟩ := by
  obtain ⟨r, h1, -, h3, -, h5⟩ := one_iteration (c := wideCfg) (pts := regPts) (T := Pose3.identity)
    (gpts := [⟨1, 0, z⟩, ⟨1, 0, -z⟩, ⟨-1, 0, 0⟩, ⟨0, 1, 0⟩, ⟨0, -1, 0⟩]) (by simp)
    wide_setting.fit.matcher rfl rfl (by simp [regPts]) (L := tiePairs z) (by simp [tiePairs, regPts]) (tie_spots hz)
  refine ⟨r, h1, h3, ?_⟩
  rw [h5]
  have e1 : mean ((tiePairs z).map (·.1)) = ⟨0, 0, 0⟩ := by ext <;> simp [mean, tiePairs]
  have e2 : mean ((tiePairs z).map (·.2)) = ⟨0, 0, z / 4⟩ := by ext <;> simp [mean, tiePairs]
  rw [e1, e2]
  ext <;> simp [M3.mulVec]

/-- C109, negative: if two map points are equally near to a local point, the order in which the map stores them decides the answer. -/
theorem order_matters_ties : tieMap'.Perm tieMap ∧ ∃ r r',
    align diffOps (simpleIcp wideCfg (hornAsSolver realHorn (fun _ => false) 0 exParams) 1 "pts" (bruteLayer tieMap) 5 true regPts)
      onceParams Pose3.identity 1 false = .ok r ∧
    align diffOps (simpleIcp wideCfg (hornAsSolver realHorn (fun _ => false) 0 exParams) 1 "pts" (bruteLayer tieMap') 5 true regPts)
      onceParams Pose3.identity 1 false = .ok r' ∧
    r.reason ≠ .solverError ∧ r'.reason ≠ .solverError ∧ r.pose.t = ⟨0, 0, 1 / 4⟩ ∧ r'.pose.t = ⟨0, 0, -1 / 4⟩ := by
  obtain ⟨r, h1, h2, h3⟩ := tie_run (z := 1) (by norm_num)
  obtain ⟨r', k1, k2, k3⟩ := tie_run (z := -1) (by norm_num)
  have e : (- -1 : ℝ) = 1 := by norm_num
  rw [e] at k1
  exact ⟨List.Perm.swap _ _ _, r, r', h1, k1, h2, k2, h3, k3⟩

/-- The four points, two units up. -/
def upMap (d : ℝ) : List (P3 ℝ) := [⟨1 + d, 0, 2⟩, ⟨-1 + d, 0, 2⟩, ⟨d, 1, 2⟩, ⟨d, -1, 2⟩]
/-- A matcher with an angular threshold. -/
noncomputable def upCfg : DTCfg ℝ := { thr := 1, angDeg := 57 / 10, angSq := 1 / 100, eps := 1 / 100, allowGlobal := true }
/-- A translation along `x`. -/
def alongX (d : ℝ) : Pose3 ℝ := ⟨M3.one, ⟨d, 0, 0⟩⟩

theorem upCfg_plain : PlainMatcher upCfg regPts.length :=
  ⟨rfl, by norm_num [upCfg], by norm_num [upCfg], by norm_num [upCfg], by norm_num [upCfg], Or.inl rfl, rfl⟩

theorem alongX_point (d : ℝ) (x : P3 ℝ) : (alongX d).composePoint x = ⟨x.x + d, x.y, x.z⟩ := by
  ext <;> simp [alongX, Pose3.composePoint, M3.mulVec, M3.one]

/-- C109, negative: with an angular threshold it matters where the origin of the map is.  Four points, two units below their places in the map: with
the map at the origin nothing is paired and the quality is zero; with map and guess both moved by 100 units, all are paired and the quality is one. -/
theorem frame_matters_angular : upMap 100 = (upMap 0).map (alongX 100).composePoint ∧ IsRotation (alongX 100).R ∧
    (alongX 100).compose (alongX 0) = alongX 100 ∧ ∃ r r',
    align diffOps (simpleIcp upCfg (hornAsSolver realHorn (fun _ => false) 0 exParams) 0 "pts" (bruteLayer (upMap 0)) 4 true regPts)
      onceParams (alongX 0) 1 false = .ok r ∧
    align diffOps (simpleIcp upCfg (hornAsSolver realHorn (fun _ => false) 0 exParams) 0 "pts" (bruteLayer (upMap 100)) 4 true regPts)
      onceParams (alongX 100) 1 false = .ok r' ∧
    r.reason = .noPairings ∧ r.quality = 0 ∧ r'.reason ≠ .solverError ∧ r'.quality = 1 := by
  have hr : IsRotation (alongX 100).R := by
    constructor
    · ext <;> simp [alongX, M3.mul, M3.transpose, M3.one]
    · simp [alongX, M3.det, M3.one]
  refine ⟨?_, hr, ?_, ?_⟩
  · simp only [upMap, List.map_cons, List.map_nil, alongX_point]; norm_num
  · ext <;> simp [alongX, Pose3.compose, M3.mul, M3.mulVec, M3.one]
  have hg : ∀ d, ServesPoints (bruteLayer (upMap d)) (upMap d) := fun d => bruteLayer_serves (by simp [upMap])
  have h4 : regPts.length = 4 := rfl
  obtain ⟨m0, e0⟩ := Lemmas.simple_match (s := hornAsSolver realHorn (fun _ => false) 0 exParams) (mr := 0) (name := "pts")
    (dense := true) (hg 0) upCfg_plain (by simp [regPts]) 0 (alongX 0) (Or.inl rfl) (Or.inl rfl)
  obtain ⟨m1, e1⟩ := Lemmas.simple_match (s := hornAsSolver realHorn (fun _ => false) 0 exParams) (mr := 0) (name := "pts")
    (dense := true) (hg 100) upCfg_plain (by simp [regPts]) 0 (alongX 100) (Or.inl rfl) (Or.inl rfl)
  have n0 : (List.range regPts.length).filterMap (Lemmas.cand upCfg (alongX 0).composePoint (bruteLayer (upMap 0)) regPts) = [] := by
    refine List.filterMap_eq_nil_iff.mpr fun i _ => ?_
    cases hc : Lemmas.cand upCfg (alongX 0).composePoint (bruteLayer (upMap 0)) regPts i with
    | none => rfl
    | some q =>
      exfalso
      obtain ⟨q1, q2, q3, -⟩ := Lemmas.cand_some (hg 0) hc
      have q1 := List.mem_of_getElem? q1
      rw [alongX_point] at q3
      revert q1 q2 q3
      generalize q.local = x
      generalize q.global = y
      intro q2 q3 q1
      simp only [regPts, List.mem_cons, List.not_mem_nil, or_false] at q1
      simp only [upMap, List.mem_cons, List.not_mem_nil, or_false] at q2
      rcases q1 with rfl | rfl | rfl | rfl <;> rcases q2 with rfl | rfl | rfl | rfl <;>
        norm_num [dtLimit, upCfg, P3.distSq, P3.normSq, P3.dot] at q3
  have n1 : ((List.range regPts.length).filterMap (Lemmas.cand upCfg (alongX 100).composePoint (bruteLayer (upMap 100)) regPts)).length = 4 := by
    have hsome : ∀ i, i < 4 → ∃ q, Lemmas.cand upCfg (alongX 100).composePoint (bruteLayer (upMap 100)) regPts i = some q := by
      intro i hi
      cases hc : Lemmas.cand upCfg (alongX 100).composePoint (bruteLayer (upMap 100)) regPts i with
      | some q => exact ⟨q, rfl⟩
      | none =>
        exfalso
        interval_cases i <;>
        · have := Lemmas.cand_none (hg 100) (p := _) rfl hc
          simp only [alongX_point, upMap, List.mem_cons, List.not_mem_nil, or_false, forall_eq_or_imp, forall_eq] at this
          norm_num [dtLimit, upCfg, P3.distSq, P3.normSq, P3.dot] at this
    obtain ⟨q0, c0⟩ := hsome 0 (by omega)
    obtain ⟨q1, c1⟩ := hsome 1 (by omega)
    obtain ⟨q2, c2⟩ := hsome 2 (by omega)
    obtain ⟨q3, c3⟩ := hsome 3 (by omega)
    have : List.range regPts.length = [0, 1, 2, 3] := rfl
    rw [this]
    simp only [List.filterMap_cons, c0, c1, c2, c3, List.filterMap_nil, List.length_cons, List.length_nil]
  rw [n0] at e0
  set ps := (List.range regPts.length).filterMap (Lemmas.cand upCfg (alongX 100).composePoint (bruteLayer (upMap 100)) regPts) with hps
  have hw : PlainSolver exParams := (reg_setting true).solver
  obtain ⟨sol, hho⟩ := Lemmas.horn_total (e := realHorn) (wp := exParams) hw ps regPts.length (by omega)
  have hsolve := fun out sc fin => Lemmas.simple_solve (c := upCfg) (nearOne := fun _ => false) (ratio := 0) (mr := 0) (name := "pts")
    (g := bruteLayer (upMap 100)) (ng := 4) (dense := true) (pts := regPts) diffOps.tnorm ps regPts.length out sc fin hho
  obtain ⟨r, a1, -, a3, a4⟩ := align_none (ops := diffOps) (p := onceParams) (wantsLog := false) rfl e0 rfl
    (fun it fin pose => ratio_quality [] regPts.length it fin pose (by simp [regPts]) (by simp))
  obtain ⟨r', b1, -, -, b4, b5, -⟩ := align_once_trace (ops := diffOps) (p := onceParams) (wantsLog := false) rfl rfl rfl e1 (by
      cases h : ps with
      | nil => rw [h] at n1; simp at n1
      | cons a l => simp [Pairings.isEmpty]) (fin' := id) (fun out sc fin _ => hsolve out sc fin)
    (fun it fin pose => ratio_quality ps regPts.length it fin pose (by simp [regPts]) (by rw [n1, h4]; norm_num))
  refine ⟨r, r', a1, b1, a4, by rw [a3]; simp, b5, ?_⟩
  rw [b4, n1, h4]; norm_num

end Verif.Props
