import Verif.Lemmas.GnFrame
import Verif.Props.FrameFree
import Verif.Props.GnMore
/-
C110: Gauss-Newton does not depend on the frame of the map, nor on the order of the pairings.
-/
namespace Verif.Props
open Verif Verif.Gn Verif.Spec Verif.Spec.GN
set_option linter.unusedSectionVars false
variable {K : Type} [Field K] [LinearOrder K] [IsStrictOrderedRing K]

/-- C110 (partial): move everything on the side of the map, the guess and the prior, by any rigid motion `G`.  The optimization then does exactly
the same: same errors and undefined behaviours, same number of steps, the same linear system in each, and all poses, the returned one too, moved by
`G`.  For every build, every schedule, every robust kernel, and weights by blocks of points too.  Missing: pairings of lines with lines, for which
it is false (`gn_lines_depend_on_frame`); floating-point numbers. -/
theorem gn_frame_free_partial {E : Env K} (hE : ∀ T, IsExpDeriv T (E.expJac T)) {G : Pose3 K} (hG : IsRotation G.R) {P P' : Params K}
    (hP : MovedParams G P P') {inp inp' : Pairings K} (hm : MovedInOrder G inp inp') (b : Build) :
    run b E P' inp' = (run b E P inp).bind fun r => .ok (movedRun G r) :=
  have h : Lemmas.GnF.Twin E G P P' := ⟨hG, hE, hP⟩
  Lemmas.GnF.run_moved h hm.weights (Lemmas.GnF.assemble_in_order h hm b)

/-- C110 (partial): nor does it depend on the order of the pairings, or on how the parallel build splits the sums, if all points of a kind have one
weight.  Missing: as in `gn_frame_free_partial`; a table of weights, which is by position. -/
theorem gn_order_free_partial {E : Env K} (hE : ∀ T, IsExpDeriv T (E.expJac T)) {G : Pose3 K} (hG : IsRotation G.R) {P P' : Params K}
    (hP : MovedParams G P P') {inp inp' : Pairings K} (hm : MovedAnyOrder G inp inp') {b b' : Build} (hb : SameBuild inp inp' b b') :
    run b' E P' inp' = (run b E P inp).bind fun r => .ok (movedRun G r) :=
  have h : Lemmas.GnF.Twin E G P P' := ⟨hG, hE, hP⟩
  Lemmas.GnF.run_moved h (by rw [hm.noTable.1, hm.noTable.2]) (Lemmas.GnF.assemble_any_order h hm hb)

theorem samePairs_moved {G : Pose3 K} {a b : Pairings K} (h : SamePairs G a b) : MovedAnyOrder G a b := by
  obtain ⟨ha, hb⟩ := h.rest
  refine ⟨h.pairs, ?_, ?_, ?_, ⟨?_, ?_⟩, ?_, ?_⟩ <;> (first | rw [ha, hb] | rw [ha] | rw [hb]) <;> first | exact List.Perm.refl _ | rfl

/-- What the solver object does when there is a guess. -/
theorem gn_object (bb : SolverCtx (Pose3 K) → Pairings K → Build) (E : Env K) (P : Params K) (tnorm : Pose3 K → K) (q : Pairings K)
    (sc : SolverCtx (Pose3 K)) (T : Pose3 K) (out : Sol K (Pose3 K)) (fin : List Nat) (hg : sc.guess = some T) :
    runSolvers tnorm [gnAsSolver bb E P] q out sc fin =
      (run (bb sc q) E { P with linearizationPoint := some T } q).bind fun r => .ok (r.ret, ⟨r.pose, 1⟩, fin) := by
  have hwin : (gnAsSolver bb E P).outsideWindow sc = false := by
    unfold Solver.outsideWindow
    cases sc.iter <;> simp [gnAsSolver]
  simp only [runSolvers, Solver.optimalPose, hwin]
  simp only [gnAsSolver, Bool.not_true, Bool.false_eq_true, if_false, gt_iff_lt, lt_irrefl, false_and, hg, Gn.solver]
  cases run (bb sc q) E { P with linearizationPoint := some T } q with
  | throw => rfl
  | ub => rfl
  | ok r => cases hr : r.ret <;> simp [Outcome.bind, hr]

theorem gn_never_fails (bb : SolverCtx (Pose3 K) → Pairings K → Build) (E : Env K) (P : Params K) (tnorm : Pose3 K → K) (q : Pairings K)
    (out : Sol K (Pose3 K)) (sc : SolverCtx (Pose3 K)) (fin : List Nat) (x) (hg : sc.guess.isSome)
    (h : runSolvers tnorm [gnAsSolver bb E P] q out sc fin = .ok x) : x.1 = true := by
  obtain ⟨T, hT⟩ := Option.isSome_iff_exists.mp hg
  rw [gn_object bb E P tnorm q sc T out fin hT] at h
  obtain ⟨r, h1, h2⟩ := Outcome.bind_eq_ok.mp h
  cases h2
  exact (gn_always_reports_success _ _ _ _).1 r h1

theorem gn_solver_same {E : Env K} (hE : ∀ T, IsExpDeriv T (E.expJac T)) {G : Pose3 K} (hG : IsRotation G.R) {P : Params K} (hprior : P.prior = none)
    {b b' : SolverCtx (Pose3 K) → Pairings K → Build} (hb : SameBuilds b b') (tnorm : Pose3 K → K) :
    Lemmas.SolverSame tnorm G (gnAsSolver b E P) (gnAsSolver b' E P) (fun _ => True) := by
  intro prs prs' hp hne _ out out' sc sc' T fin fin' fin1 ok sol hsc hsc' h
  have hbb : SameBuild prs prs' (b sc prs) (b' sc' prs') := by
    cases hb with
    | serial h1 h2 => rw [h1, h2]; exact .serial
    | tbb h1 h2 =>
      obtain ⟨s, e1, v1⟩ := h1 sc prs
      obtain ⟨s', e2, v2⟩ := h2 sc' prs'
      rw [e1, e2]
      exact .tbb v1 v2
  have hrun := gn_order_free_partial hE hG (P := { P with linearizationPoint := some T })
    (P' := { P with linearizationPoint := some (G.compose T) }) ⟨rfl, by simp only [hprior]; exact .none, rfl⟩ (samePairs_moved hp) hbb
  have hok := gn_never_fails b E P tnorm prs out sc fin _ (by rw [hsc]; rfl) h
  rw [gn_object b E P tnorm prs sc T out fin hsc] at h
  obtain ⟨r, h1, h2⟩ := Outcome.bind_eq_ok.mp h
  simp only [Outcome.ok.injEq, Prod.mk.injEq] at h2
  obtain ⟨rfl, rfl, -⟩ := h2
  simp only at hok
  rw [gn_object b' E P tnorm prs' sc' (G.compose T) out' fin' hsc', hrun, h1]
  exact ⟨⟨G.compose r.pose, 1⟩, rfl, rfl, fun _ => rfl, fun h => by rw [hok] at h; cases h⟩

/-- C110 (partial): and so for a registration with a matcher by distance and Gauss-Newton: with the map moved by `G` and stored in another order, the
local points in another order and the guess moved by `G`, it ends normally after the same number of iterations, for the same reason, with the same
quality, pairs and log, and with the pose moved by `G`.  The only thing needed is that no local point has two nearest places in the map.  Missing:
other matchers and angular thresholds (`frame_matters_angular`), ties (`order_matters_ties`), priors, floating-point numbers. -/
theorem gn_registration_frame_free_partial {ops : PoseOps K (Pose3 K)} {E : Env K} {P : Params K} (hE : ∀ T, IsExpDeriv T (E.expJac T))
    (hprior : P.prior = none) {b b' : SolverCtx (Pose3 K) → Pairings K → Build} (hb : SameBuilds b b')
    {c : DTCfg K} {mr : K} {name : String} (name' : String) {G : Pose3 K} {g g' : GLayer K} {gpts gpts' pts pts' : List (P3 K)}
    {dense : Bool} (dense' : Bool) {p : IcpParams K} (hs : MapSetting ops c G g g' gpts gpts' pts pts') {init : Pose3 K}
    {wantsLog : Bool} {r : IcpResult K (Pose3 K)}
    (h : align ops (simpleIcp c (gnAsSolver b E P) mr name g gpts.length dense pts) p init 1 wantsLog = .ok r)
    (hclear : ∀ ev ∈ r.trace, NoTies gpts pts ev.poseIn) :
    ∃ r', align ops (simpleIcp c (gnAsSolver b' E P) mr name' g' gpts'.length dense' pts') p (G.compose init) 1 wantsLog = .ok r' ∧
      SameRun G r r' ∧ r'.pose = G.compose r.pose := by
  obtain ⟨r', h1, h2⟩ := Lemmas.align_frame (name' := name') (dense' := dense') hs (gn_solver_same hE hs.rot hprior hb _) h
    fun ev hev => ⟨hclear ev hev, trivial⟩
  have hne := Lemmas.never_failed (fun prs out sc fin x hg hx => gn_never_fails b E P ops.tnorm prs out sc fin x hg hx) h
  exact ⟨r', h1, h2, by rw [h2.pose, if_neg hne]⟩

/-! ### concrete cases -/

theorem se3_deriv (T : Pose3 K) : IsExpDeriv T (se3ExpJac T) := by
  intro v w
  funext k
  simp only [Matrix.mulVec, dotProduct, Fin.sum_univ_six, se3ExpJac]
  fin_cases k <;> simp [poseVec, crossMat, M3.mul, M3.mulVec] <;> ring

/-- One pairing of each of the four kinds, and a table of weights. -/
def fourKinds : Pairings ℚ where
  pt2pt := [⟨3, 0, ⟨5, 1, 0⟩, ⟨0, 2, 1⟩, 7⟩, ⟨4, 1, ⟨5, 0, 2⟩, ⟨1, 0, 1⟩, 8⟩]
  pt2ln := [⟨⟨⟨1, 0, 0⟩, ⟨3 / 5, 4 / 5, 0⟩⟩, ⟨2, 0, 1⟩⟩]
  pt2pl := [⟨⟨⟨⟨0, 0, 2⟩, -1⟩, ⟨0, 0, 1 / 2⟩⟩, ⟨7, 8, 0⟩⟩]
  pl2pl := [⟨⟨⟨⟨0, 0, 1⟩, -1⟩, ⟨0, 0, 1⟩⟩, ⟨⟨⟨0, 1, 0⟩, 0⟩, ⟨0, 0, 0⟩⟩⟩]
  pointWeights := [(1, 2), (1, 5)]

/-- A quarter of a turn about `x`, and a translation. -/
def frameG : Pose3 ℚ := ⟨⟨1, 0, 0, 0, 0, -1, 0, 1, 0⟩, ⟨1, 2, 3⟩⟩

/-- The same seen from another frame; indices and centroids are whatever. -/
def fourKinds' : Pairings ℚ where
  pt2pt := [⟨0, 1, ⟨6, 2, 4⟩, ⟨0, 2, 1⟩, 0⟩, ⟨0, 0, ⟨6, 0, 3⟩, ⟨1, 0, 1⟩, 0⟩]
  pt2ln := [⟨⟨⟨2, 2, 3⟩, ⟨3 / 5, 0, 4 / 5⟩⟩, ⟨2, 0, 1⟩⟩]
  pt2pl := [⟨⟨⟨⟨0, -2, 0⟩, 3⟩, ⟨9, 9, 9⟩⟩, ⟨7, 8, 0⟩⟩]
  pl2pl := [⟨⟨⟨⟨0, -1, 0⟩, 1⟩, ⟨0, 0, 1⟩⟩, ⟨⟨⟨0, 1, 0⟩, 0⟩, ⟨5, 0, 0⟩⟩⟩]
  pointWeights := [(1, 2), (1, 5)]

theorem four_moved : MovedInOrder frameG fourKinds fourKinds' := by
  constructor <;> decide +kernel

theorem frameG_rot : IsRotation frameG.R := by constructor <;> decide +kernel

/-- The hypotheses hold and the run is not trivial. -/
example : (∀ T, IsExpDeriv T (exEnv.expJac T)) ∧
    MovedParams frameG exGnParams { exGnParams with linearizationPoint := some (frameG.compose Pose3.identity) } ∧
    (run .serial exEnv exGnParams fourKinds).Sat (fun r => r.trace.length = 2 ∧ r.pose ≠ Pose3.identity ∧ r.trace.map (·.2.2) ≠ [0, 0]) ∧
    (run .serial exEnv { exGnParams with linearizationPoint := some (frameG.compose Pose3.identity) } fourKinds').Sat
      (fun r => r.trace.length = 2) := by
  refine ⟨se3_deriv, ⟨rfl, .none, rfl⟩, ?_, ?_⟩ <;> decide +kernel

/-- The same without table, in another order. -/
example : MovedAnyOrder frameG { fourKinds with pointWeights := [] }
    { fourKinds' with pt2pt := fourKinds'.pt2pt.reverse, pointWeights := [] } := by
  constructor <;> decide +kernel

/-- Two splits of the sums. -/
example : SameBuild { fourKinds with pointWeights := [] } { fourKinds' with pt2pt := fourKinds'.pt2pt.reverse, pointWeights := [] }
    (.tbb fun _ => (.join true (.chunk .idle 0 1) (.chunk .idle 1 2), .chunk .idle 0 1)) (.tbb fun _ => (.chunk .idle 0 2, .chunk .idle 0 1)) :=
  .tbb (fun _ => ⟨rfl, rfl⟩) (fun _ => ⟨rfl, rfl⟩)

/-! ### lines -/

/-- The x axis, in both maps. -/
def xAxes : Pairings ℚ := { ln2ln := [⟨⟨⟨0, 0, 0⟩, ⟨1, 0, 0⟩⟩, ⟨⟨0, 0, 0⟩, ⟨1, 0, 0⟩⟩⟩] }

/-- C110, negative: with pairings of lines it does depend on the frame.  Two lines, exactly aligned by the guess: seen from one frame the optimization
stays there; seen from another (map and guess rotated by the same rotation) it makes a step which is not zero.  For every build, every solver
that solves, every non-zero weight; whatever was in the memory the error vector is made of. -/
theorem gn_lines_depend_on_frame (b : Build) (E : Env ℚ) (P : Params ℚ) (hl : P.linearizationPoint = some Pose3.identity) (hn : P.maxInner = 1)
    (hb : ∀ sched, b = .tbb sched → ValidSchedule exLnPairs sched)
    (hp : P.prior = none) (hk : P.kernel = .none) (hw : P.pairWeights.ln2ln ≠ 0)
    (hpar : ∀ a b : P3 ℚ, P3.dot a b = 0 → E.ln.parallel a b = false) (hself : ∀ a, a ≠ 0 → E.ln.parallel a a = true)
    (hjunk : E.junkErr = 0) (hD : IsExpDeriv rot120 (E.expJac rot120))
    (hs : ∀ (H : Matrix (Fin 6) (Fin 6) ℚ) (g : Fin 6 → ℚ), (∃ d, H.mulVec d = g) → H.mulVec (E.solve H g) = g)
    (hcost0 : E.sqrt 0 ≤ P.maxCost) (hcost : P.maxCost < E.sqrt (P.pairWeights.ln2ln * P.pairWeights.ln2ln * 2)) :
    exLnPairs.ln2ln = xAxes.ln2ln.map (fun q => ⟨movedLine rot120 q.lnGlobal, q.lnLocal⟩) ∧
    ∃ r r' d, run b E P xAxes = .ok r ∧ r.pose = Pose3.identity ∧
      run b E { P with linearizationPoint := some (rot120.compose Pose3.identity) } exLnPairs = .ok r' ∧ d ≠ 0 ∧
      r'.pose = (rot120.compose r.pose).compose (E.exp d) ∧ (E.exp d ≠ Pose3.identity → r'.pose ≠ rot120.compose r.pose) := by
  have hid : rot120.compose Pose3.identity = rot120 := by decide +kernel
  refine ⟨by decide +kernel, ?_⟩
  rw [hid]
  obtain ⟨r', d, h1, h2, h3, h4⟩ := gn_leaves_aligned_lines b E { P with linearizationPoint := some rot120 } rfl hn hb hp hk hw hpar hD hs hcost
  have he : Err.ln2ln E.ln E.junkErr ⟨⟨⟨0, 0, 0⟩, ⟨1, 0, 0⟩⟩, ⟨⟨0, 0, 0⟩, ⟨1, 0, 0⟩⟩⟩ Pose3.identity = 0 := by
    have hd : Err.ln2lnDir (⟨⟨⟨0, 0, 0⟩, ⟨1, 0, 0⟩⟩, ⟨⟨0, 0, 0⟩, ⟨1, 0, 0⟩⟩⟩ : LnPair ℚ) Pose3.identity = ⟨1, 0, 0⟩ := by decide +kernel
    have hq : Err.ln2lnBase (⟨⟨⟨0, 0, 0⟩, ⟨1, 0, 0⟩⟩, ⟨⟨0, 0, 0⟩, ⟨1, 0, 0⟩⟩⟩ : LnPair ℚ) Pose3.identity = ⟨0, 0, 0⟩ := by decide +kernel
    simp only [Err.ln2ln, hd, hq, hself ⟨1, 0, 0⟩ (by decide +kernel), if_true, hjunk]
    funext i
    fin_cases i <;> simp [P3.normSq, P3.dot]
  have hcst : ∀ t, costPoints P xAxes.pt2pt (uniform xAxes P.pairWeights.pt2pt) Pose3.identity + costOther t P E xAxes Pose3.identity = 0 := by
    intro t
    simp [costPoints, costOther, xAxes, he, sqLen]
  have hA : ∃ S, assemble b E P xAxes 0 Pose3.identity 0 ⟨P.pairWeights.pt2pt, [], 0⟩ = .ok (⟨S, 0⟩, ⟨P.pairWeights.pt2pt, [], 0⟩) := by
    cases b with
    | serial => rw [Lemmas.Gn.assemble_serial_plain E P xAxes rfl, hcst]; exact ⟨_, rfl⟩
    | tbb sched =>
      rw [Lemmas.Gn.assemble_tbb_plain E P xAxes rfl sched (hb sched rfl), hcst]; exact ⟨_, rfl⟩
  obtain ⟨S, hA⟩ := hA
  have hr : ∃ r, run b E P xAxes = .ok r ∧ r.pose = Pose3.identity := by
    unfold run
    rw [hl, hn]
    simp only [loop]
    rw [show xAxes.pointWeights = [] from rfl, hA]
    simp only [Outcome.bind, if_pos hcost0]
    exact ⟨_, rfl, rfl⟩
  obtain ⟨r, k1, k2⟩ := hr
  refine ⟨r, r', d, k1, k2, h1, h2, ?_, ?_⟩ <;> rw [k2, hid]
  · exact h3
  · exact h4

example : exLnEnv.junkErr = 0 ∧ (∀ a : P3 ℚ, a ≠ 0 → exLnEnv.ln.parallel a a = true) ∧ exLnEnv.sqrt 0 ≤ 0 := by
  refine ⟨rfl, fun a ha => ?_, by simp [exLnEnv]⟩
  simp only [exLnEnv, decide_eq_true_eq]
  intro h
  exact ha (Verif.normSq_eq_zero'.mp h)

/-! ### a registration -/

/-- The environment over the reals; the solver of the linear system goes against the gradient. -/
noncomputable def realGn : Env ℝ where
  expJac := se3ExpJac
  solve := fun _ g => g
  exp := fun d => ⟨M3.one, ⟨d 0, d 1, d 2⟩⟩
  sqrt := id
  ln := ⟨id, fun _ _ => false⟩
  junkErr := fun _ => 0
  junkJac := fun _ _ => 0

/-- Parameters for it. -/
noncomputable def realGnParams : Params ℝ :=
  { linearizationPoint := none, prior := none, minDelta := 1 / 1000, maxCost := 0, pairWeights := ⟨1, 1, 1, 1, 1⟩, maxInner := 3, kernel := .gemanMcClure, kernelParam := 1 }

/-- Four points registered, from the identity, to a map they do not fit into; seen from two frames, in two orders. -/
example : ∃ r r', align diffOps (simpleIcp wideCfg (gnAsSolver (fun _ _ => .serial) realGn realGnParams) 1 "pts" (bruteLayer wideMap) 4 true regPts)
      onceParams Pose3.identity 1 false = .ok r ∧
    align diffOps (simpleIcp wideCfg (gnAsSolver (fun _ _ => .serial) realGn realGnParams) 1 "map" (bruteLayer (wideMap.map exT.composePoint).reverse)
      (wideMap.map exT.composePoint).reverse.length false regPts.reverse) onceParams (exT.compose Pose3.identity) 1 false = .ok r' ∧
    (∀ ev ∈ r.trace, NoTies wideMap regPts ev.poseIn) ∧ SameRun exT r r' ∧ r'.pose = exT.compose r.pose ∧ r'.quality = 1 := by
  have hms := Lemmas.frame_map wide_setting
  obtain ⟨ms, hm⟩ := Lemmas.simple_match_any (s := gnAsSolver (fun _ _ => .serial) realGn realGnParams) (mr := 1) (name := "pts")
    (dense := true) hms.serves hms.matcher hms.angSq hms.many 0 Pose3.identity
  have hL' := Lemmas.cand_spots hms.angSq Pose3.identity (bruteLayer wideMap) regPts
  rw [wide_spots] at hL'
  set ps := (List.range regPts.length).filterMap (Lemmas.cand wideCfg Pose3.identity.composePoint (bruteLayer wideMap) regPts) with hps
  have hl : ps.length = 4 := by
    have := congrArg List.length hL'
    simpa [widePairs] using this
  obtain ⟨rr, hrr⟩ := gn_serial_total realGn { realGnParams with linearizationPoint := some Pose3.identity } { pt2pt := ps, potential := regPts.length }
    Pose3.identity rfl ⟨by simp, by simp⟩
  have hret := (gn_always_reports_success _ _ _ _).1 rr hrr
  have hn0 : regPts.length ≠ 0 := by simp [regPts]
  have hn1 : (ps.length : ℝ) / (regPts.length : ℝ) = 1 := by rw [hl]; simp [regPts]
  obtain ⟨r, g1, -, -, g4, g5, g6⟩ := align_once_trace (ops := diffOps) (p := onceParams) (wantsLog := false) (T0 := Pose3.identity)
    rfl rfl rfl hm (by
      cases h : ps with
      | nil => rw [h] at hl; simp at hl
      | cons a l => simp [Pairings.isEmpty]) (fin' := id) (sol := ⟨rr.pose, 1⟩)
    (fun out sc fin hg => by rw [gn_object _ _ _ _ _ sc _ out fin hg, hrr]; simp [Outcome.bind, hret])
    (fun it fin pose => ratio_quality ps regPts.length it fin pose hn0 (by rw [hn1]; exact lt_irrefl _))
  have hclear : ∀ ev ∈ r.trace, NoTies wideMap regPts ev.poseIn := by
    intro ev hev
    rw [(g6 ev hev).1]
    refine noTies_only fun x hx => ?_
    have : x ∈ widePairs.map (·.1) := by simpa [widePairs, regPts] using hx
    obtain ⟨q, hq, rfl⟩ := List.mem_map.mp this
    exact ⟨_, wide_nearest q hq⟩
  obtain ⟨r', k1, k2, k3⟩ := gn_registration_frame_free_partial (E := realGn) (P := realGnParams) (fun T => se3_deriv T) rfl
    (b := fun _ _ => .serial) (b' := fun _ _ => .serial) (.serial (fun _ _ => rfl) (fun _ _ => rfl)) "map" false hms g1 hclear
  exact ⟨r, r', g1, k1, hclear, k2, k3, by rw [k2.quality, g4, hn1]⟩

end Verif.Props
