import Verif.Spec.PlaneNear
import Verif.Props.PlaneReg
import Verif.Props.NearReg
/-
C119: registration with planes, from guesses near the true motion, turned or not.
-/
namespace Verif.Props
open Verif Verif.Spec Verif.Gn Verif.Spec.GN Verif.Lemmas.Conv Verif.Lemmas.Near

/-- The pairings of the points with their planes are exactly aligned by `T`, and hold the body. -/
theorem planes_aligned {c : PlCfg ℝ} {g : GLayer ℝ} {pts : List (P3 ℝ)} {T : Pose3 ℝ} {f : P3 ℝ → PlanePatch ℝ} (hf : SteadyPlanes c g pts T f) :
    ExactlyAligned ({ pt2pl := pts.map fun x => ⟨f x, x⟩ } : Pairings ℝ) T ∧ Holds ({ pt2pl := pts.map fun x => ⟨f x, x⟩ } : Pairings ℝ) T.R := by
  constructor
  · refine ⟨by simp, by simp, ?_, by simp, rfl⟩
    intro q hq
    obtain ⟨x, hx, rfl⟩ := List.mem_map.mp hq
    exact hf.on x hx
  · intro v w hs
    refine hf.hold v w fun x hx => ?_
    exact hs.pls ⟨f x, x⟩ (List.mem_map.mpr ⟨x, hx, rfl⟩)

/-- From a pose where the map answers with the planes `f`, the matcher pairs all points with them. -/
theorem planes_matched {c : PlCfg ℝ} {s : Solver ℝ (Pose3 ℝ)} {mr : ℝ} {name : String} {g : GLayer ℝ} {ng : Nat} {dense : Bool}
    {ops : PoseOps ℝ (Pose3 ℝ)} {pts : List (P3 ℝ)} {T G : Pose3 ℝ} {p : IcpParams ℝ} (hs : PlaneSetting ops c mr g pts T p) {f : P3 ℝ → PlanePatch ℝ}
    (hf : SteadyPlanes c g pts T f) (h1 : ∀ x ∈ pts, ∃ d, g.nnPlane (G.composePoint x) c.thr = some (f x, d) ∧ d ≤ c.thr)
    (h2 : g.boxesMeet (pts.map G.composePoint) (c.thr + c.eps) = true) (it : Nat) :
    ∃ ms prs, runMatchers (planeIcp c s mr name g ng dense pts).matchers it G (planeIcp c s mr name g ng dense pts).freshMS = .ok (ms, prs) ∧
      PairedPlanes pts f prs := by
  have hgs : GoodStart c g pts T G := by
    refine ⟨fun x hx => ?_, fun v w h => hf.hold v w fun x hx => ?_, h2⟩
    · obtain ⟨d, e1, e2⟩ := h1 x hx
      exact ⟨_, d, e1, e2, hf.on x hx⟩
    · obtain ⟨d, e1, -⟩ := h1 x hx
      exact h x hx _ _ e1
  obtain ⟨ms, prs, m1, m2, m3⟩ := Lemmas.PR.plane_match (s := s) (mr := mr) (name := name) (ng := ng) (dense := dense) hs hgs it
  refine ⟨ms, prs, m1, ?_⟩
  have h3 : prs.pt2pl = pts.map fun x => ⟨f x, x⟩ := by
    rw [← m2.locals, List.map_map]
    conv_lhs => rw [← List.map_id prs.pt2pl]
    refine List.map_congr_left fun q hq => ?_
    have hx : q.ptLocal ∈ pts := by rw [← m2.locals]; exact List.mem_map.mpr ⟨q, hq, rfl⟩
    obtain ⟨d, hd⟩ := m3 q hq
    obtain ⟨d', e1, -⟩ := h1 _ hx
    rw [hd] at e1
    cases q
    simp only [Option.some.injEq, Prod.mk.injEq] at e1
    simp [e1.1]
  unfold PairedPlanes
  rw [m2.rest, h3]

/-- The pipeline homes in on `T` from near it. -/
theorem planes_near {ops : PoseOps ℝ (Pose3 ℝ)} {E : Env ℝ} (hE : GoodEnv E) (hE2 : SecondOrderExp E) {P : Params ℝ} (hprior : P.prior = none)
    (hc : P.maxCost = 0) (hn : 1 ≤ P.maxInner)
    (hw : 0 < P.pairWeights.pt2pt ∧ 0 < P.pairWeights.pt2ln ∧ 0 < P.pairWeights.pt2pl ∧ 0 < P.pairWeights.pl2pl)
    (hk : P.kernel = .none ∨ 0 < P.kernelParam) {bb : SolverCtx (Pose3 ℝ) → Pairings ℝ → Build}
    (hbb : ∀ sc q, q.pointWeights = [] → Sound q (bb sc q)) (hser : P.maxInner = 1 ∨ ∀ sc q, isParallel (bb sc q) = true) {c : PlCfg ℝ} {mr : ℝ} (name : String)
    {g : GLayer ℝ} (ng : Nat) {pts : List (P3 ℝ)} (dense : Bool) {T : Pose3 ℝ} {p : IcpParams ℝ} (hs : PlaneSetting ops c mr g pts T p) {f : P3 ℝ → PlanePatch ℝ}
    (hf : SteadyPlanes c g pts T f) :
    ∃ C > 0, ∃ ρ > 0, NearRun ops (planeIcp c (gnAsSolver bb E P) mr name g ng dense pts) p T C ρ 1 (PairedPlanes pts f) := by
  obtain ⟨ha, hh⟩ := planes_aligned hf
  obtain ⟨C, hC, ρ1, hρ1, hsq⟩ := gn_squares_input hE hE2 hprior hc hn hw hk hbb hser ops.tnorm hs.rot ha hh rfl
  obtain ⟨ρ2, hρ2, hst⟩ := hf.steady
  have hmatched : ∀ prs, PairedPlanes pts f prs → PlanesMatched pts T prs := by
    rintro prs rfl
    refine ⟨by simp [List.map_map, Function.comp_def], ?_, rfl⟩
    intro q hq
    obtain ⟨x, hx, rfl⟩ := List.mem_map.mp hq
    exact hf.on x hx
  refine ⟨C, hC, min ρ1 ρ2, by positivity, ⟨rfl, rfl, rfl, by simp [planeIcp], by simp [planeIcp], by simp [planeIcp], ?_, ?_, ?_, hs.checks⟩⟩
  · rintro prs rfl
    cases h : pts with
    | nil => exact absurd h hs.nonempty
    | cons a l => simp [Pairings.isEmpty]
  · intro G hG hg it
    obtain ⟨h1, h2⟩ := hst G hG (hg.trans (min_le_right _ _))
    obtain ⟨ms, prs, m1, m2⟩ := planes_matched (s := gnAsSolver bb E P) (name := name) (ng := ng) (dense := dense) hs hf h1 h2 it
    refine ⟨ms, prs, m1, m2, fun out sc fin hsc => hsq G hG (hg.trans (min_le_left _ _)) prs ?_ out sc fin hsc⟩
    rw [m2]; rfl
  · exact fun prs hm it fin pose => Lemmas.PR.plane_quality hs.nonempty hs.ratio (hmatched prs hm) it fin pose

/-- C119 (partial): a registration with the point-to-plane matcher and Gauss-Newton, where around `T` the map answers steadily with planes on which the true places lie and which hold
the body.  From every rigid guess near enough to `T`, turned or not, each iteration pairs all the points with these planes and at least squares the distance to `T`, up to a constant
factor; quality 1 is reported, and the run ends as stalled, or with the maximum of iterations.  Missing: more inner steps without TBB; how far the guess may be; maps whose answers change
in any neighbourhood of `T`; floating-point numbers. -/
theorem gn_planes_near_partial {ops : PoseOps ℝ (Pose3 ℝ)} {E : Env ℝ} (hE : GoodEnv E) (hE2 : SecondOrderExp E) {P : Params ℝ} (hprior : P.prior = none)
    (hc : P.maxCost = 0) (hn : 1 ≤ P.maxInner)
    (hw : 0 < P.pairWeights.pt2pt ∧ 0 < P.pairWeights.pt2ln ∧ 0 < P.pairWeights.pt2pl ∧ 0 < P.pairWeights.pl2pl)
    (hk : P.kernel = .none ∨ 0 < P.kernelParam) {bb : SolverCtx (Pose3 ℝ) → Pairings ℝ → Build}
    (hbb : ∀ sc q, q.pointWeights = [] → Sound q (bb sc q)) (hser : P.maxInner = 1 ∨ ∀ sc q, isParallel (bb sc q) = true) {c : PlCfg ℝ} {mr : ℝ} (name : String)
    {g : GLayer ℝ} (ng : Nat) {pts : List (P3 ℝ)} (dense : Bool) {T : Pose3 ℝ} {p : IcpParams ℝ} (hs : PlaneSetting ops c mr g pts T p) {f : P3 ℝ → PlanePatch ℝ}
    (hf : SteadyPlanes c g pts T f) :
    ∃ C > 0, ∃ ρ > 0, ∀ (T0 : Pose3 ℝ) (M : Nat) (wantsLog : Bool), IsRotation T0.R → gap T0 T ≤ ρ → 1 ≤ M → LogThere p wantsLog →
      ∃ r, align ops (planeIcp c (gnAsSolver bb E P) mr name g ng dense pts) { p with maxIterations := M } T0 1 wantsLog = .ok r ∧
        IsRotation r.pose.R ∧ r.scale = 1 ∧ r.quality = 1 ∧ PairedPlanes pts f r.pairings ∧
        (∀ ev ∈ r.trace, PairedPlanes pts f ev.pairings ∧ ∃ s : Sol ℝ (Pose3 ℝ), ev.solver = some (true, s) ∧ gap s.pose T ≤ C * gap ev.poseIn T ^ 2) ∧
        gap r.pose T ≤ gap T0 T * (1 / 2) ^ (2 ^ r.trace.length - 1) ∧ 1 ≤ r.trace.length ∧ r.nIterations ≤ r.trace.length ∧
        ((r.reason = .stalled ∧ r.nIterations < M) ∨ (r.reason = .maxIterations ∧ r.nIterations = M)) := by
  obtain ⟨C, hC, ρ0, hρ0, h⟩ := planes_near hE hE2 hprior hc hn hw hk hbb hser name ng dense hs hf
  obtain ⟨ρ, hρ, h⟩ := near_all h hC hρ0
  exact ⟨C, hC, ρ, hρ, h⟩

/-- C119 (partial): if moreover steps between poses near the true one have small lengths, some number of iterations is enough for all those guesses: the run then ends as stalled,
whatever the maximum. -/
theorem gn_planes_stalls_partial {ops : PoseOps ℝ (Pose3 ℝ)} {E : Env ℝ} (hE : GoodEnv E) (hE2 : SecondOrderExp E) {P : Params ℝ} (hprior : P.prior = none)
    (hc : P.maxCost = 0) (hn : 1 ≤ P.maxInner)
    (hw : 0 < P.pairWeights.pt2pt ∧ 0 < P.pairWeights.pt2ln ∧ 0 < P.pairWeights.pt2pl ∧ 0 < P.pairWeights.pl2pl)
    (hk : P.kernel = .none ∨ 0 < P.kernelParam) {bb : SolverCtx (Pose3 ℝ) → Pairings ℝ → Build}
    (hbb : ∀ sc q, q.pointWeights = [] → Sound q (bb sc q)) (hser : P.maxInner = 1 ∨ ∀ sc q, isParallel (bb sc q) = true) {c : PlCfg ℝ} {mr : ℝ} (name : String)
    {g : GLayer ℝ} (ng : Nat) {pts : List (P3 ℝ)} (dense : Bool) {T : Pose3 ℝ} {p : IcpParams ℝ} (hs : PlaneSetting ops c mr g pts T p) {f : P3 ℝ → PlanePatch ℝ}
    (hf : SteadyPlanes c g pts T f) (hops : SmoothDiffs ops T) :
    ∃ ρ > 0, ∃ N : Nat, ∀ (T0 : Pose3 ℝ) (M : Nat) (wantsLog : Bool), IsRotation T0.R → gap T0 T ≤ ρ → N < M → LogThere p wantsLog →
      ∃ r, align ops (planeIcp c (gnAsSolver bb E P) mr name g ng dense pts) { p with maxIterations := M } T0 1 wantsLog = .ok r ∧
        r.reason = .stalled ∧ r.nIterations ≤ N ∧ gap r.pose T ≤ gap T0 T ∧ r.quality = 1 ∧ PairedPlanes pts f r.pairings := by
  obtain ⟨C, hC, ρ0, hρ0, h⟩ := planes_near hE hE2 hprior hc hn hw hk hbb hser name ng dense hs hf
  exact near_stalls h hC hρ0 hs.ops hs.stepT hs.stepR hops

/-! ### the hypotheses are met -/

/-- The entries of poses near each other. -/
theorem near_entries {G T : Pose3 ℝ} {ρ : ℝ} (h : gap G T ≤ ρ) :
    (|G.R.a00 - T.R.a00| ≤ ρ ∧ |G.R.a01 - T.R.a01| ≤ ρ ∧ |G.R.a02 - T.R.a02| ≤ ρ) ∧ (|G.R.a10 - T.R.a10| ≤ ρ ∧ |G.R.a11 - T.R.a11| ≤ ρ ∧ |G.R.a12 - T.R.a12| ≤ ρ) ∧
    (|G.R.a20 - T.R.a20| ≤ ρ ∧ |G.R.a21 - T.R.a21| ≤ ρ ∧ |G.R.a22 - T.R.a22| ≤ ρ) ∧ |G.t.x - T.t.x| ≤ ρ ∧ |G.t.y - T.t.y| ≤ ρ ∧ |G.t.z - T.t.z| ≤ ρ := by
  have hent : ∀ i : Fin 12, |poseVec G i - poseVec T i| ≤ ρ := fun i =>
    (by simpa using norm_le_pi_norm (poseVec G - poseVec T) i : |poseVec G i - poseVec T i| ≤ ‖poseVec G - poseVec T‖).trans h
  have e0 := hent 0; have e1 := hent 1; have e2 := hent 2; have e3 := hent 3; have e4 := hent 4; have e5 := hent 5
  have e6 := hent 6; have e7 := hent 7; have e8 := hent 8; have e9 := hent 9; have e10 := hent 10; have e11 := hent 11
  simp only [poseVec] at e0 e1 e2 e3 e4 e5 e6 e7 e8 e9 e10 e11
  simp at e0 e1 e2 e3 e4 e5 e6 e7 e8 e9 e10 e11
  refine ⟨⟨?_, ?_, ?_⟩, ⟨?_, ?_, ?_⟩, ⟨?_, ?_, ?_⟩, ?_, ?_, ?_⟩ <;> assumption

/-- The plane of the corner that each of the six points is on. -/
noncomputable def cornerPlane (x : P3 ℝ) : PlanePatch ℝ :=
  if x.x = 0 then ⟨⟨⟨1, 0, 0⟩, -1⟩, ⟨1, 2, 3⟩⟩ else if x.z = 0 then ⟨⟨⟨0, 1, 0⟩, -2⟩, ⟨1, 2, 3⟩⟩ else ⟨⟨⟨0, 0, 1⟩, -3⟩, ⟨1, 2, 3⟩⟩

theorem corner_steady : SteadyPlanes cornerCfg cornerLayer cornerPts shiftT cornerPlane := by
  refine ⟨⟨1 / 16, by norm_num, fun G _ hG => ⟨?_, rfl⟩⟩, ?_, ?_⟩
  · obtain ⟨⟨e1, e2, e3⟩, ⟨e4, e5, e6⟩, ⟨e7, e8, e9⟩, e10, e11, e12⟩ := near_entries hG
    simp only [shiftT, abs_le] at e1 e2 e3 e4 e5 e6 e7 e8 e9 e10 e11 e12
    have hx : ∀ q : P3 ℝ, |q.x - 1| ≤ 1 / 2 → 1 / 2 < |q.y - 2| → 1 / 2 < |q.z - 3| →
        ∃ d, cornerLayer.nnPlane q cornerCfg.thr = some ((⟨⟨⟨1, 0, 0⟩, -1⟩, ⟨1, 2, 3⟩⟩ : PlanePatch ℝ), d) ∧ d ≤ cornerCfg.thr := by
      intro q a b c
      refine ⟨|q.x - 1|, ?_, by simpa [cornerCfg] using a⟩
      show (if _ then _ else _) = _
      rw [if_pos ⟨by linarith, by linarith⟩]
    have hy : ∀ q : P3 ℝ, |q.y - 2| ≤ 1 / 2 → 1 / 2 < |q.x - 1| → 1 / 2 < |q.z - 3| →
        ∃ d, cornerLayer.nnPlane q cornerCfg.thr = some ((⟨⟨⟨0, 1, 0⟩, -2⟩, ⟨1, 2, 3⟩⟩ : PlanePatch ℝ), d) ∧ d ≤ cornerCfg.thr := by
      intro q a b c
      refine ⟨|q.y - 2|, ?_, by simpa [cornerCfg] using a⟩
      show (if _ then _ else _) = _
      rw [if_neg (fun h => by linarith [h.1]), if_pos (by linarith)]
    have hz : ∀ q : P3 ℝ, |q.z - 3| ≤ 1 / 2 → 1 / 2 < |q.x - 1| → 1 / 2 < |q.y - 2| →
        ∃ d, cornerLayer.nnPlane q cornerCfg.thr = some ((⟨⟨⟨0, 0, 1⟩, -3⟩, ⟨1, 2, 3⟩⟩ : PlanePatch ℝ), d) ∧ d ≤ cornerCfg.thr := by
      intro q a b c
      refine ⟨|q.z - 3|, ?_, by simpa [cornerCfg] using a⟩
      show (if _ then _ else _) = _
      rw [if_neg (fun h => by linarith [h.2]), if_neg (by linarith)]
    have key : ∀ x ∈ cornerPts, ∃ d, cornerLayer.nnPlane (G.composePoint x) cornerCfg.thr = some (cornerPlane x, d) ∧ d ≤ cornerCfg.thr := by
      simp only [cornerPts, List.mem_cons, List.not_mem_nil, or_false, forall_eq_or_imp, forall_eq]
      refine ⟨?_, ?_, ?_, ?_, ?_, ?_⟩
      · rw [show cornerPlane ⟨0, 1, 1⟩ = ⟨⟨⟨1, 0, 0⟩, -1⟩, ⟨1, 2, 3⟩⟩ by simp [cornerPlane]]
        refine hx _ ?_ ?_ ?_ <;> simp only [Pose3.composePoint, M3.mulVec, P3.add_x, P3.add_y, P3.add_z]
        · rw [abs_le]; constructor <;> linarith
        · rw [lt_abs]; right; linarith
        · rw [lt_abs]; left; linarith
      · rw [show cornerPlane ⟨0, 2, 1⟩ = ⟨⟨⟨1, 0, 0⟩, -1⟩, ⟨1, 2, 3⟩⟩ by simp [cornerPlane]]
        refine hx _ ?_ ?_ ?_ <;> simp only [Pose3.composePoint, M3.mulVec, P3.add_x, P3.add_y, P3.add_z]
        · rw [abs_le]; constructor <;> linarith
        · rw [lt_abs]; right; linarith
        · rw [lt_abs]; left; linarith
      · rw [show cornerPlane ⟨0, 1, 2⟩ = ⟨⟨⟨1, 0, 0⟩, -1⟩, ⟨1, 2, 3⟩⟩ by simp [cornerPlane]]
        refine hx _ ?_ ?_ ?_ <;> simp only [Pose3.composePoint, M3.mulVec, P3.add_x, P3.add_y, P3.add_z]
        · rw [abs_le]; constructor <;> linarith
        · rw [lt_abs]; right; linarith
        · rw [lt_abs]; left; linarith
      · rw [show cornerPlane ⟨1, 1, 0⟩ = ⟨⟨⟨0, 1, 0⟩, -2⟩, ⟨1, 2, 3⟩⟩ by simp [cornerPlane]]
        refine hy _ ?_ ?_ ?_ <;> simp only [Pose3.composePoint, M3.mulVec, P3.add_x, P3.add_y, P3.add_z]
        · rw [abs_le]; constructor <;> linarith
        · rw [lt_abs]; left; linarith
        · rw [lt_abs]; left; linarith
      · rw [show cornerPlane ⟨1, 2, 0⟩ = ⟨⟨⟨0, 1, 0⟩, -2⟩, ⟨1, 2, 3⟩⟩ by simp [cornerPlane]]
        refine hy _ ?_ ?_ ?_ <;> simp only [Pose3.composePoint, M3.mulVec, P3.add_x, P3.add_y, P3.add_z]
        · rw [abs_le]; constructor <;> linarith
        · rw [lt_abs]; left; linarith
        · rw [lt_abs]; left; linarith
      · rw [show cornerPlane ⟨1, 0, 1⟩ = ⟨⟨⟨0, 0, 1⟩, -3⟩, ⟨1, 2, 3⟩⟩ by simp [cornerPlane]]
        refine hz _ ?_ ?_ ?_ <;> simp only [Pose3.composePoint, M3.mulVec, P3.add_x, P3.add_y, P3.add_z]
        · rw [abs_le]; constructor <;> linarith
        · rw [lt_abs]; left; linarith
        · rw [lt_abs]; right; linarith
    exact key
  · intro x hx
    simp only [cornerPts, List.mem_cons, List.not_mem_nil, or_false] at hx
    rcases hx with rfl | rfl | rfl | rfl | rfl | rfl <;>
      norm_num [cornerPlane, OnPlane, shiftT, Pose3.composePoint, M3.mulVec, P3.dot]
  · intro v w h
    have g1 := h ⟨0, 1, 1⟩ (by simp [cornerPts])
    have g2 := h ⟨0, 2, 1⟩ (by simp [cornerPts])
    have g3 := h ⟨0, 1, 2⟩ (by simp [cornerPts])
    have g4 := h ⟨1, 1, 0⟩ (by simp [cornerPts])
    have g5 := h ⟨1, 2, 0⟩ (by simp [cornerPts])
    have g6 := h ⟨1, 0, 1⟩ (by simp [cornerPts])
    simp [cornerPlane, velocity, shiftT, M3.mulVec, P3.cross, P3.dot] at g1 g2 g3 g4 g5 g6
    simp only [P3.ext_iff]
    refine ⟨⟨?_, ?_, ?_⟩, ?_, ?_, ?_⟩ <;> simp <;> linarith

/-- The corner is registered from every guess near enough, turned in any way, with a robust kernel and two inner steps. -/
example : ∃ ρ > 0, ∃ N : Nat, ∀ T0 : Pose3 ℝ, IsRotation T0.R → gap T0 shiftT ≤ ρ →
    ∃ r, align diffOps (planeIcp cornerCfg (gnAsSolver (fun _ q => .tbb (oneChunk q)) se3Env { cauchyGn with maxInner := 2 }) 1 "pts"
      cornerLayer 0 true cornerPts) { regParams with maxIterations := N + 1 } T0 1 false = .ok r ∧ r.reason = .stalled ∧ gap r.pose shiftT ≤ gap T0 shiftT := by
  have h := reg_setting false
  have hR : IsRotation shiftT.R := by
    constructor
    · ext <;> simp [shiftT, M3.mul, M3.transpose, M3.one]
    · simp [shiftT, M3.det]
  obtain ⟨ρ, hρ, N, hN⟩ := gn_planes_stalls_partial (P := { cauchyGn with maxInner := 2 }) se3_good se3_second rfl rfl (by norm_num)
    (by simp [cauchyGn, plainGn]) (Or.inr (by simp [cauchyGn, plainGn])) (bb := fun _ q => .tbb (oneChunk q))
    (fun _ q hq => .tbb hq (oneChunk_valid q)) (Or.inr fun _ _ => rfl) "pts" 0 true
    (⟨h.ops, rfl, rfl, Or.inl rfl, rfl, by simp [cornerPts], hR, h.ratio, h.checks, h.stepT, h.stepR⟩ :
      PlaneSetting diffOps cornerCfg 1 cornerLayer cornerPts shiftT regParams) corner_steady (diffOps_smooth shiftT)
  refine ⟨ρ, hρ, N, fun T0 hr hg => ?_⟩
  obtain ⟨r, h1, h2, -, h3, -, -⟩ := hN T0 (N + 1) false hr hg (by omega) (by simp [LogThere, regParams])
  exact ⟨r, h1, h2, h3⟩

end Verif.Props
