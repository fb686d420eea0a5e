import Verif.Lemmas.NearReg
import Verif.Props.GnShift
/-
C117: whole registrations with Gauss-Newton, from guesses near the true motion, turned or not.
-/
namespace Verif.Props
open Verif.Gn Verif.Spec Verif.Spec.GN Verif.Lemmas Verif.Lemmas.GnS Verif.Lemmas.Conv Verif.Lemmas.Near

/-- In every build and on every pairings, if the values of the exponential map are rigid and so is the guess, then the result of Gauss-Newton is a rigid
motion, and so are all the poses on the way. -/
theorem gn_stays_rigid {b : Build} {E : Env ℝ} (hexp : ∀ d, IsRotation (E.exp d).R) {P : Params ℝ} {inp : Pairings ℝ} {G : Pose3 ℝ}
    (hG : IsRotation G.R) (hl : P.linearizationPoint = some G) {r : Run ℝ} (h : run b E P inp = .ok r) :
    IsRotation r.pose.R ∧ ∀ q ∈ r.trace, IsRotation q.1.R := by
  obtain ⟨-, g2, g3, g4, g5⟩ := gn_steps b E P inp G hl r h
  have hall : ∀ (k : Nat) q, r.trace[k]? = some q → IsRotation q.1.R := by
    intro k
    induction k with
    | zero => intro q hq; rw [g3 q hq]; exact hG
    | succ k ih =>
      intro q hq
      obtain ⟨q0, hq0⟩ : ∃ q0, r.trace[k]? = some q0 :=
        ⟨r.trace[k]'(by have := (List.getElem?_eq_some_iff.mp hq).1; omega), by simp⟩
      rw [(g4 k q0 q hq0 hq).1]
      exact rot_mul (ih q0 hq0) (hexp _)
  constructor
  · cases htr : r.trace.getLast? with
    | none => rw [g2 (List.getLast?_eq_none_iff.mp htr)]; exact hG
    | some q =>
      have hq : IsRotation q.1.R := hall (r.trace.length - 1) q (by rw [← List.getLast?_eq_getElem?]; exact htr)
      rcases g5 q htr with e | e
      · rw [e]; exact hq
      · rw [e]; exact rot_mul hq (hexp _)
  · intro q hq
    obtain ⟨k, hk⟩ := List.mem_iff_getElem?.mp hq
    exact hall k q hk

/-- Gauss-Newton squares the distance to the true motion, given some exactly aligned pairings that hold the body; their indices do not matter. -/
theorem gn_squares_input {E : Env ℝ} (hE : GoodEnv E) (hE2 : SecondOrderExp E) {P : Params ℝ} (hprior : P.prior = none)
    (hc : P.maxCost = 0) (hn : 1 ≤ P.maxInner)
    (hw : 0 < P.pairWeights.pt2pt ∧ 0 < P.pairWeights.pt2ln ∧ 0 < P.pairWeights.pt2pl ∧ 0 < P.pairWeights.pl2pl)
    (hk : P.kernel = .none ∨ 0 < P.kernelParam) {bb : SolverCtx (Pose3 ℝ) → Pairings ℝ → Build}
    (hbb : ∀ sc q, q.pointWeights = [] → Sound q (bb sc q)) (hser : P.maxInner = 1 ∨ ∀ sc q, isParallel (bb sc q) = true)
    (tnorm : Pose3 ℝ → ℝ) {inp : Pairings ℝ} {T : Pose3 ℝ} (hR : IsRotation T.R) (ha : ExactlyAligned inp T) (hh : Holds inp T.R) (hpw : inp.pointWeights = []) :
    ∃ C > 0, ∃ ρ > 0, ∀ G : Pose3 ℝ, IsRotation G.R → gap G T ≤ ρ → ∀ prs, bare prs = inp → ∀ out sc fin, sc.guess = some G →
      ∃ T', runSolvers tnorm [gnAsSolver bb E P] prs out sc fin = .ok (true, ⟨T', 1⟩, fin) ∧ IsRotation T'.R ∧ gap T' T ≤ C * gap G T ^ 2 := by
  have hpos : PositiveWeights P inp :=
    ⟨by
      intro w h
      simp only [firstWeights, hpw, if_true, uniform] at h
      rw [List.eq_of_mem_replicate h]; exact hw.1, hw.2.1, hw.2.2.1, hw.2.2.2, hk⟩
  have hP : ∀ G : Pose3 ℝ, { P with linearizationPoint := some G } = started P G P.maxInner P.minDelta 0 := by
    intro G; unfold started; rw [← hc]
  have hlen : ∀ {prs : Pairings ℝ}, bare prs = inp → prs.pt2pt.length = inp.pt2pt.length ∧
      prs.pt2pl.length = inp.pt2pl.length := by
    intro prs h
    rw [← h]
    exact ⟨by simp [bare], rfl⟩
  have hsound : ∀ sc {prs : Pairings ℝ}, bare prs = inp → Sound inp (bb sc prs) ∧
      ∀ sched, bb sc prs = .tbb sched → ValidSchedule inp sched := by
    intro sc prs hm
    have hp : prs.pointWeights = [] := by rw [← hm] at hpw; exact hpw
    obtain ⟨l1, l2⟩ := hlen hm
    have hs := hbb sc prs hp
    cases hb : bb sc prs with
    | serial =>
      refine ⟨.serial ?_, fun sched h => by cases h⟩
      simp [BlocksCover, hpw]
    | tbb sched =>
      rw [hb] at hs
      cases hs with
      | tbb _ hv =>
        have hv' : ValidSchedule inp sched := by
          intro k
          obtain ⟨a, b⟩ := hv k
          exact ⟨by rw [a, l1], by rw [b, l2]⟩
        exact ⟨.tbb hpw hv', fun s h => by cases h; exact hv'⟩
  have hfinish : ∀ (C ρ : ℝ), (∀ G sc prs, bare prs = inp → IsRotation G.R → gap G T ≤ ρ →
      ∃ r, run (bb sc prs) E (started P G P.maxInner P.minDelta 0) inp = .ok r ∧ IsRotation r.pose.R ∧ gap r.pose T ≤ C * gap G T ^ 2) →
      ∀ G : Pose3 ℝ, IsRotation G.R → gap G T ≤ ρ → ∀ prs, bare prs = inp → ∀ out sc fin, sc.guess = some G →
      ∃ T', runSolvers tnorm [gnAsSolver bb E P] prs out sc fin = .ok (true, ⟨T', 1⟩, fin) ∧ IsRotation T'.R ∧ gap T' T ≤ C * gap G T ^ 2 := by
    intro C ρ h G hG hg prs hm out sc fin hgs
    obtain ⟨r, h1, h2, h3⟩ := h G sc prs hm hG hg
    rw [← hm, run_bare, ← hP] at h1
    refine ⟨r.pose, ?_, h2, h3⟩
    have hret := (gn_always_reports_success _ _ _ _).1 r h1
    rw [gn_object bb E P tnorm prs sc _ out fin hgs, h1]
    simp [Outcome.bind, hret]
  rcases hser with h1 | hpar
  · obtain ⟨C, hC, ρ, hρ, h⟩ := gn_first_step_quadratic_partial hE hE2 hR ha hh hpos hprior
    refine ⟨C, hC, ρ, hρ, hfinish C ρ fun G sc prs hm hG hg => ?_⟩
    obtain ⟨r, e1, e2⟩ := h G P.minDelta (bb sc prs) (hsound sc hm).1 hG hg
    rw [h1]
    refine ⟨r, e1, ?_, e2⟩
    exact (gn_stays_rigid hE2.rigid hG rfl e1).1
  · obtain ⟨C, hC, ρ, hρ, h⟩ := gn_quadratic_partial hE hE2 hR ha hh hpos hprior hpw
    refine ⟨C, hC, ρ, hρ, hfinish C ρ fun G sc prs hm hG hg => ?_⟩
    cases hb : bb sc prs with
    | serial => have := hpar sc prs; rw [hb] at this; cases this
    | tbb sched =>
      obtain ⟨r, e1, e2, -, -, -, -, e3⟩ := h G P.maxInner P.minDelta 0 sched ((hsound sc hm).2 sched hb) hG hg
      exact ⟨r, e1, e2, e3 rfl hn⟩

/-- Gauss-Newton squares the distance to the true motion. -/
theorem gn_squares_near {E : Env ℝ} (hE : GoodEnv E) (hE2 : SecondOrderExp E) {P : Params ℝ} (hprior : P.prior = none)
    (hc : P.maxCost = 0) (hn : 1 ≤ P.maxInner)
    (hw : 0 < P.pairWeights.pt2pt ∧ 0 < P.pairWeights.pt2ln ∧ 0 < P.pairWeights.pt2pl ∧ 0 < P.pairWeights.pl2pl)
    (hk : P.kernel = .none ∨ 0 < P.kernelParam) {bb : SolverCtx (Pose3 ℝ) → Pairings ℝ → Build}
    (hbb : ∀ sc q, q.pointWeights = [] → Sound q (bb sc q)) (hser : P.maxInner = 1 ∨ ∀ sc q, isParallel (bb sc q) = true)
    (tnorm : Pose3 ℝ → ℝ) {pts : List (P3 ℝ)} (hl : NotOnALine pts) {T : Pose3 ℝ} (hR : IsRotation T.R) :
    ∃ C > 0, ∃ ρ > 0, SquaresNear (gnAsSolver bb E P) tnorm pts T C ρ := by
  obtain ⟨ha, hh⟩ := truePairs_aligned hR hl
  obtain ⟨C, hC, ρ, hρ, h⟩ := gn_squares_input hE hE2 hprior hc hn hw hk hbb hser tnorm hR ha hh rfl
  exact ⟨C, hC, ρ, hρ, fun G hG hg prs hm out sc fin hsc => h G hG hg prs (bare_paired hm) out sc fin hsc⟩

/-- C117 (partial): the local points, moved by `T`, are all in the map, and not all on a line.  Then there is a distance within which every rigid guess, turned or not, is good
enough: the registration with a matcher by distance and Gauss-Newton (with TBB, or with one inner step in any build) pairs every point with its true place at each iteration, each
iteration at least squares the distance to the true motion, up to a constant factor, so that it is divided by `2 ^ (2 ^ k - 1)` or more after `k` of them; quality 1 is reported, and
the run ends as stalled, or with the maximum of iterations.  Missing: more inner steps without TBB; how far the guess may be (for maps that lack some of the points, see
`gn_overlap_near_partial`); floating-point numbers. -/
theorem gn_registration_near_partial {ops : PoseOps ℝ (Pose3 ℝ)} {E : Env ℝ} (hE : GoodEnv E) (hE2 : SecondOrderExp E) {P : Params ℝ} (hprior : P.prior = none)
    (hc : P.maxCost = 0) (hn : 1 ≤ P.maxInner)
    (hw : 0 < P.pairWeights.pt2pt ∧ 0 < P.pairWeights.pt2ln ∧ 0 < P.pairWeights.pt2pl ∧ 0 < P.pairWeights.pl2pl)
    (hk : P.kernel = .none ∨ 0 < P.kernelParam) {bb : SolverCtx (Pose3 ℝ) → Pairings ℝ → Build}
    (hbb : ∀ sc q, q.pointWeights = [] → Sound q (bb sc q)) (hser : P.maxInner = 1 ∨ ∀ sc q, isParallel (bb sc q) = true) {c : DTCfg ℝ} {mr : ℝ} (name : String)
    {g : GLayer ℝ} {gpts pts : List (P3 ℝ)} (dense : Bool) {T : Pose3 ℝ} {p : IcpParams ℝ} (hs : RegSetting ops c mr g gpts pts T p) (hl : NotOnALine pts) :
    ∃ C > 0, ∃ ρ > 0, ∀ (T0 : Pose3 ℝ) (M : Nat) (wantsLog : Bool), IsRotation T0.R → gap T0 T ≤ ρ → 1 ≤ M → LogThere p wantsLog →
      ∃ r, align ops (simpleIcp c (gnAsSolver bb E P) mr name g gpts.length dense pts) { p with maxIterations := M } T0 1 wantsLog = .ok r ∧
        IsRotation r.pose.R ∧ r.scale = 1 ∧ r.quality = 1 ∧ AllMatched pts T r.pairings ∧
        (∀ ev ∈ r.trace, AllMatched pts T ev.pairings ∧ ∃ s : Sol ℝ (Pose3 ℝ), ev.solver = some (true, s) ∧ gap s.pose T ≤ C * gap ev.poseIn T ^ 2) ∧
        gap r.pose T ≤ gap T0 T * (1 / 2) ^ (2 ^ r.trace.length - 1) ∧ 1 ≤ r.trace.length ∧ r.nIterations ≤ r.trace.length ∧
        ((r.reason = .stalled ∧ r.nIterations < M) ∨ (r.reason = .maxIterations ∧ r.nIterations = M)) := by
  obtain ⟨C, hC, ρ1, hρ1, hsq⟩ := gn_squares_near hE hE2 hprior hc hn hw hk hbb hser ops.tnorm hl hs.rot
  obtain ⟨ρ2, hρ2, hclose⟩ := close_near pts gpts hs.matcher.thr T
  obtain ⟨ρ, hρ, h⟩ := near_all (simple_near (name := name) (dense := dense) hs (ρ := min ρ1 ρ2)
    (fun G hG hgG => hsq G hG (hgG.trans (min_le_left _ _))) (fun G hgG => hclose G (hgG.trans (min_le_right _ _)))) hC (by positivity)
  exact ⟨C, hC, ρ, hρ, h⟩

/-- C117: if moreover steps between poses near the true one have small lengths, then some number of iterations is enough for all those guesses: the run then ends as stalled, whatever
the maximum. -/
theorem gn_registration_stalls_partial {ops : PoseOps ℝ (Pose3 ℝ)} {E : Env ℝ} (hE : GoodEnv E) (hE2 : SecondOrderExp E) {P : Params ℝ} (hprior : P.prior = none)
    (hc : P.maxCost = 0) (hn : 1 ≤ P.maxInner)
    (hw : 0 < P.pairWeights.pt2pt ∧ 0 < P.pairWeights.pt2ln ∧ 0 < P.pairWeights.pt2pl ∧ 0 < P.pairWeights.pl2pl)
    (hk : P.kernel = .none ∨ 0 < P.kernelParam) {bb : SolverCtx (Pose3 ℝ) → Pairings ℝ → Build}
    (hbb : ∀ sc q, q.pointWeights = [] → Sound q (bb sc q)) (hser : P.maxInner = 1 ∨ ∀ sc q, isParallel (bb sc q) = true) {c : DTCfg ℝ} {mr : ℝ} (name : String)
    {g : GLayer ℝ} {gpts pts : List (P3 ℝ)} (dense : Bool) {T : Pose3 ℝ} {p : IcpParams ℝ} (hs : RegSetting ops c mr g gpts pts T p) (hl : NotOnALine pts)
    (hops : SmoothDiffs ops T) :
    ∃ ρ > 0, ∃ N : Nat, ∀ (T0 : Pose3 ℝ) (M : Nat) (wantsLog : Bool), IsRotation T0.R → gap T0 T ≤ ρ → N < M → LogThere p wantsLog →
      ∃ r, align ops (simpleIcp c (gnAsSolver bb E P) mr name g gpts.length dense pts) { p with maxIterations := M } T0 1 wantsLog = .ok r ∧
        r.reason = .stalled ∧ r.nIterations ≤ N ∧ gap r.pose T ≤ gap T0 T := by
  obtain ⟨C, hC, ρ1, hρ1, hsq⟩ := gn_squares_near hE hE2 hprior hc hn hw hk hbb hser ops.tnorm hl hs.rot
  obtain ⟨ρ2, hρ2, hclose⟩ := close_near pts gpts hs.matcher.thr T
  obtain ⟨ρ, hρ, N, h⟩ := near_stalls (simple_near (name := name) (dense := dense) hs (ρ := min ρ1 ρ2)
    (fun G hG hgG => hsq G hG (hgG.trans (min_le_left _ _))) (fun G hgG => hclose G (hgG.trans (min_le_right _ _)))) hC (by positivity) hs.ops hs.stepT hs.stepR hops
  refine ⟨ρ, hρ, N, fun T0 M wantsLog hr hg hM hlog => ?_⟩
  obtain ⟨r, h1, h2, h3, h4, -, -⟩ := h T0 M wantsLog hr hg hM hlog
  exact ⟨r, h1, h2, h3, h4⟩

/-! ### the hypotheses are met -/

theorem diffOps_smooth (T : Pose3 ℝ) : SmoothDiffs diffOps T := by
  intro ε hε
  refine ⟨min 1 (ε / 100), by positivity, fun a b _ _ ha hb => ?_⟩
  have hd : gap a b ≤ 2 * min 1 (ε / 100) := by
    have h1 : gap a b ≤ gap a T + gap b T := by
      unfold gap
      calc ‖poseVec a - poseVec b‖ = ‖(poseVec a - poseVec T) - (poseVec b - poseVec T)‖ := by congr 1; abel
        _ ≤ _ := norm_sub_le _ _
    linarith
  have hent : ∀ i : Fin 12, |poseVec a i - poseVec b i| ≤ 2 * min 1 (ε / 100) := fun i =>
    (by simpa using norm_le_pi_norm (poseVec a - poseVec b) i : |poseVec a i - poseVec b i| ≤ ‖poseVec a - poseVec b‖).trans hd
  have hsq : ∀ i : Fin 12, (poseVec a i - poseVec b i) ^ 2 ≤ 4 * (ε / 100) := by
    intro i
    have h1 := hent i
    have h2 := abs_nonneg (poseVec a i - poseVec b i)
    have h3 : min 1 (ε / 100) ≤ 1 := min_le_left _ _
    have h4 : min 1 (ε / 100) ≤ ε / 100 := min_le_right _ _
    have h5 : 0 < min 1 (ε / 100) := by positivity
    rw [← sq_abs]
    nlinarith
  have e := fun i => hsq i
  have e0 := e 0; have e1 := e 1; have e2 := e 2; have e3 := e 3; have e4 := e 4; have e5 := e 5
  have e6 := e 6; have e7 := e 7; have e8 := e 8; have e9 := e 9; have e10 := e 10; have e11 := e 11
  simp only [poseVec] at e0 e1 e2 e3 e4 e5 e6 e7 e8 e9 e10 e11
  simp at e0 e1 e2 e3 e4 e5 e6 e7 e8 e9 e10 e11
  constructor
  · simp only [diffOps, P3.normSq, P3.dot, P3.sub_x, P3.sub_y, P3.sub_z]
    nlinarith
  · simp only [diffOps]
    nlinarith

/-- A schedule with all the point pairs in one chunk and none of planes. -/
def oneChunk (q : Pairings ℝ) : Nat → RTree × RTree := fun _ => (.chunk .idle 0 q.pt2pt.length, .chunk .idle 0 q.pt2pl.length)

theorem oneChunk_valid (q : Pairings ℝ) : ValidSchedule q (oneChunk q) := fun k => by
  simp [oneChunk, RTree.indices, List.range_eq_range']

/-- The four points of the other examples: from every guess near enough to `exT`, turned in any way, with a robust kernel and two inner steps, the registration stalls within a number
of iterations that is the same for all of them, no farther from `exT` than it started. -/
example : ∃ ρ > 0, ∃ N : Nat, ∀ T0 : Pose3 ℝ, IsRotation T0.R → gap T0 exT ≤ ρ →
    ∃ r, align diffOps (simpleIcp (regCfg false) (gnAsSolver (fun _ q => .tbb (oneChunk q)) se3Env { cauchyGn with maxInner := 2 }) 1 "pts"
      (bruteLayer regMap) 5 true regPts) { regParams with maxIterations := N + 1 } T0 1 false = .ok r ∧ r.reason = .stalled ∧ gap r.pose exT ≤ gap T0 exT := by
  have h := reg_setting false
  obtain ⟨ρ, hρ, N, hN⟩ := gn_registration_stalls_partial (P := { cauchyGn with maxInner := 2 }) se3_good se3_second rfl rfl (by norm_num)
    (by simp [cauchyGn, plainGn]) (Or.inr (by simp [cauchyGn, plainGn])) (bb := fun _ q => .tbb (oneChunk q))
    (fun _ q hq => .tbb hq (oneChunk_valid q)) (Or.inr fun _ _ => rfl) "pts" true
    (⟨h.ops, h.serves, h.matcher, by simp [regPts], h.distinct, h.rot, h.there, h.ratio, h.checks, h.stepT, h.stepR⟩ :
      RegSetting diffOps (regCfg false) 1 (bruteLayer regMap) regMap regPts exT regParams)
    ⟨⟨1, 0, 0⟩, by simp [regPts], ⟨-1, 0, 0⟩, by simp [regPts], ⟨0, 1, 0⟩, by simp [regPts], by simp [P3.cross, P3.ext_iff]; norm_num⟩
    (diffOps_smooth exT)
  refine ⟨ρ, hρ, N, fun T0 hr hg => ?_⟩
  obtain ⟨r, h1, h2, -, h3⟩ := hN T0 (N + 1) false hr hg (by omega) (by simp [LogThere, regParams])
  exact ⟨r, h1, h2, h3⟩

end Verif.Props
