import Verif.Lemmas.PlaneReg
import Verif.Props.GnShift
/-
C112: registration with planes.
-/
namespace Verif.Props
open Verif Verif.Gn Verif.Spec Verif.Spec.GN Verif.Lemmas.Gn
open Verif.Lemmas.GnS
set_option linter.unusedSectionVars false
variable {K : Type} [Field K] [LinearOrder K] [IsStrictOrderedRing K]

/-- Gauss-Newton on the pairings of points with planes, from a guess with the right rotation. -/
theorem gn_solves_planes {E : Env K} (hE : GoodEnv E) {P : Params K} (hprior : P.prior = none) (hc : P.maxCost = 0) (hn : 1 ≤ P.maxInner)
    (h1 : 0 < P.pairWeights.pt2pt) (h2 : 0 < P.pairWeights.pt2ln) (h3 : 0 < P.pairWeights.pt2pl) (h4 : 0 < P.pairWeights.pl2pl)
    (hk : P.kernel = .none ∨ 0 < P.kernelParam) {bb : SolverCtx (Pose3 K) → Pairings K → Build}
    (hbb : ∀ sc q, q.pointWeights = [] → Sound q (bb sc q)) (tnorm : Pose3 K → K) {g : GLayer K} {thr : K} {pts : List (P3 K)} {T : Pose3 K}
    (hR : IsRotation T.R) (t0 : P3 K) (hh : PlanesHold g thr pts T ⟨T.R, t0⟩) {prs : Pairings K} (hm : PlanesMatched pts T prs)
    (hfrom : ∀ q ∈ prs.pt2pl, ∃ d, g.nnPlane ((⟨T.R, t0⟩ : Pose3 K).composePoint q.ptLocal) thr = some (q.plGlobal, d))
    (out : Sol K (Pose3 K)) (sc : SolverCtx (Pose3 K)) (fin : List Nat) (hg : sc.guess = some ⟨T.R, t0⟩) :
    runSolvers tnorm [gnAsSolver bb E P] prs out sc fin = .ok (true, ⟨T, 1⟩, fin) := by
  have hrest := hm.rest
  have hpw : prs.pointWeights = [] := by rw [hrest]
  have ha : ExactlyAligned prs T := by
    refine ⟨?_, ?_, hm.on, ?_, ?_⟩ <;> rw [hrest] <;> simp
  have hh' : Holds prs T.R := by
    intro v w hs
    refine hh v w fun x hx pl d hpl => ?_
    rw [← hm.locals] at hx
    obtain ⟨q, hq, rfl⟩ := List.mem_map.mp hx
    obtain ⟨d', hd'⟩ := hfrom q hq
    rw [hpl] at hd'
    cases hd'
    exact hs.pls q hq
  obtain ⟨r, e1, -, e3⟩ := gn_shift_exact_partial (P := { P with linearizationPoint := some ⟨T.R, t0⟩ }) hE hR ha hh'
    ⟨by
      intro w hw
      simp only [firstWeights, hpw, if_true, uniform] at hw
      rw [List.eq_of_mem_replicate hw]; exact h1, h2, h3, h4, hk⟩ hprior t0 rfl hc hn (hbb sc prs hpw)
  have hret := (gn_always_reports_success _ _ _ _).1 r e1
  rw [gn_object bb E P tnorm prs sc _ out fin hg, e1]
  simp [Outcome.bind, hret, e3]

/-- C112 (partial): a registration with the point-to-plane matcher and Gauss-Newton.  If the guess has the rotation of `T`, and every local point, where
the guess puts it, and also where `T` puts it, is answered by the map with a plane within the threshold on which its true place
lies, and these planes hold the body, then exactly `T` is returned, however far along the planes the guess is, with all the points
paired with planes they lie on and quality 1, after at most two iterations.  Missing: guesses with another rotation; floating-point numbers. -/
theorem exact_registration_planes_partial {ops : PoseOps K (Pose3 K)} {E : Env K} (hE : GoodEnv E) {P : Params K} (hprior : P.prior = none)
    (hc : P.maxCost = 0) (hn : 1 ≤ P.maxInner)
    (hw : 0 < P.pairWeights.pt2pt ∧ 0 < P.pairWeights.pt2ln ∧ 0 < P.pairWeights.pt2pl ∧ 0 < P.pairWeights.pl2pl)
    (hk : P.kernel = .none ∨ 0 < P.kernelParam) {bb : SolverCtx (Pose3 K) → Pairings K → Build}
    (hbb : ∀ sc q, q.pointWeights = [] → Sound q (bb sc q)) {c : PlCfg K} {mr : K} (name : String)
    {g : GLayer K} (ng : Nat) {pts : List (P3 K)} (dense : Bool) {T : Pose3 K} (t0 : P3 K) {p : IcpParams K}
    (hs : PlaneSetting ops c mr g pts T p) (h0 : GoodStart c g pts T ⟨T.R, t0⟩) (h1 : GoodStart c g pts T T)
    (wantsLog : Bool) (hlog : LogThere p wantsLog) (hit : 1 ≤ p.maxIterations) :
    ∃ r, align ops (planeIcp c (gnAsSolver bb E P) mr name g ng dense pts) p ⟨T.R, t0⟩ 1 wantsLog = .ok r ∧
      r.pose = T ∧ r.scale = 1 ∧ r.quality = 1 ∧ PlanesMatched pts T r.pairings ∧ r.nIterations ≤ 1 ∧
      (2 ≤ p.maxIterations → r.reason = .stalled) := by
  refine Lemmas.PR.settles (PlanesMatched pts T) hs.ops rfl rfl rfl (by simp [planeIcp]) (by simp [planeIcp]) (by simp [planeIcp]) ?_ ?_ ?_
    hs.checks hs.stepT hs.stepR wantsLog hlog hit
  · intro prs hm
    have h1 := congrArg List.length hm.locals
    have h2 := List.length_pos_iff.mpr hs.nonempty
    rw [List.length_map] at h1
    cases hp : prs.pt2pl with
    | nil => rw [hp] at h1; simp at h1; omega
    | cons a l => simp [Pairings.isEmpty, hp]
  · intro Q hQ it
    obtain ⟨t, rfl, hgs⟩ : ∃ t, Q = ⟨T.R, t⟩ ∧ GoodStart c g pts T Q := by
      rcases hQ with rfl | rfl
      · exact ⟨t0, rfl, h0⟩
      · exact ⟨Q.t, rfl, h1⟩
    obtain ⟨ms, prs, m1, m2, m3⟩ := Lemmas.PR.plane_match (s := gnAsSolver bb E P) (name := name) (ng := ng) (dense := dense) hs hgs it
    exact ⟨ms, prs, m1, m2, fun out sc fin hg =>
      gn_solves_planes hE hprior hc hn hw.1 hw.2.1 hw.2.2.1 hw.2.2.2 hk hbb ops.tnorm hs.rot t hgs.hold m2 m3 out sc fin hg⟩
  · exact fun prs hm it fin pose => Lemmas.PR.plane_quality hs.nonempty hs.ratio hm it fin pose

/-! ### the hypotheses are met -/

/-- A corner: three planes, the nearest of which is found. -/
noncomputable def cornerLayer : GLayer ℝ where
  nnPlane q _ :=
    if |q.x - 1| ≤ |q.y - 2| ∧ |q.x - 1| ≤ |q.z - 3| then some (⟨⟨⟨1, 0, 0⟩, -1⟩, ⟨1, 2, 3⟩⟩, |q.x - 1|)
    else if |q.y - 2| ≤ |q.z - 3| then some (⟨⟨⟨0, 1, 0⟩, -2⟩, ⟨1, 2, 3⟩⟩, |q.y - 2|)
    else some (⟨⟨⟨0, 0, 1⟩, -3⟩, ⟨1, 2, 3⟩⟩, |q.z - 3|)

/-- Six points on it, in the frame of `shiftT`. -/
def cornerPts : List (P3 ℝ) := [⟨0, 1, 1⟩, ⟨0, 2, 1⟩, ⟨0, 1, 2⟩, ⟨1, 1, 0⟩, ⟨1, 2, 0⟩, ⟨1, 0, 1⟩]

/-- The matcher. -/
noncomputable def cornerCfg : PlCfg ℝ := { thr := 1 / 2, eps := 1 / 100 }

/-- The planes found from a pose a little off. -/
theorem corner_found (a : ℝ) (h0 : 0 ≤ a) (h1 : a ≤ 1 / 4) :
    ∀ q ∈ [((⟨0, 1, 1⟩ : P3 ℝ), (⟨⟨⟨1, 0, 0⟩, -1⟩, ⟨1, 2, 3⟩⟩ : PlanePatch ℝ), a), (⟨0, 2, 1⟩, ⟨⟨⟨1, 0, 0⟩, -1⟩, ⟨1, 2, 3⟩⟩, a),
      (⟨0, 1, 2⟩, ⟨⟨⟨1, 0, 0⟩, -1⟩, ⟨1, 2, 3⟩⟩, a), (⟨1, 1, 0⟩, ⟨⟨⟨0, 1, 0⟩, -2⟩, ⟨1, 2, 3⟩⟩, 0), (⟨1, 2, 0⟩, ⟨⟨⟨0, 1, 0⟩, -2⟩, ⟨1, 2, 3⟩⟩, 0),
      (⟨1, 0, 1⟩, ⟨⟨⟨0, 0, 1⟩, -3⟩, ⟨1, 2, 3⟩⟩, 0)],
      cornerLayer.nnPlane ((⟨shiftT.R, ⟨1 + a, 2, 3⟩⟩ : Pose3 ℝ).composePoint q.1) cornerCfg.thr = some (q.2.1, q.2.2) := by
  have ha : |a| = a := abs_of_nonneg h0
  have hb : |1 + (1 + a) - 1| = 1 + a := by rw [show 1 + (1 + a) - 1 = 1 + a by ring]; exact abs_of_nonneg (by linarith)
  have hc : |1 + a| = 1 + a := abs_of_nonneg (by linarith)
  have h3 : ¬ 1 + a ≤ 0 := by linarith
  have h4 : a ≤ 1 := by linarith
  have h5 : a ≤ 2 := by linarith
  simp only [List.mem_cons, List.not_mem_nil, or_false, forall_eq_or_imp, forall_eq]
  refine ⟨?_, ?_, ?_, ?_, ?_, ?_⟩ <;>
    norm_num [cornerLayer, shiftT, Pose3.composePoint, M3.mulVec, ha, hb, hc, h3, h4, h5] <;> intros <;> linarith

theorem corner_good (a : ℝ) (h0 : 0 ≤ a) (h1 : a ≤ 1 / 4) : GoodStart cornerCfg cornerLayer cornerPts shiftT ⟨shiftT.R, ⟨1 + a, 2, 3⟩⟩ := by
  have hf := corner_found a h0 h1
  simp only [List.mem_cons, List.not_mem_nil, or_false, forall_eq_or_imp, forall_eq] at hf
  obtain ⟨f1, f2, f3, f4, f5, f6⟩ := hf
  refine ⟨?_, ?_, rfl⟩
  · intro x hx
    simp only [cornerPts, List.mem_cons, List.not_mem_nil, or_false] at hx
    rcases hx with rfl | rfl | rfl | rfl | rfl | rfl
    · exact ⟨_, _, f1, by norm_num [cornerCfg]; linarith, by norm_num [OnPlane, shiftT, Pose3.composePoint, M3.mulVec, P3.dot]⟩
    · exact ⟨_, _, f2, by norm_num [cornerCfg]; linarith, by norm_num [OnPlane, shiftT, Pose3.composePoint, M3.mulVec, P3.dot]⟩
    · exact ⟨_, _, f3, by norm_num [cornerCfg]; linarith, by norm_num [OnPlane, shiftT, Pose3.composePoint, M3.mulVec, P3.dot]⟩
    · exact ⟨_, _, f4, by norm_num [cornerCfg], by norm_num [OnPlane, shiftT, Pose3.composePoint, M3.mulVec, P3.dot]⟩
    · exact ⟨_, _, f5, by norm_num [cornerCfg], by norm_num [OnPlane, shiftT, Pose3.composePoint, M3.mulVec, P3.dot]⟩
    · exact ⟨_, _, f6, by norm_num [cornerCfg], by norm_num [OnPlane, shiftT, Pose3.composePoint, M3.mulVec, P3.dot]⟩
  · intro v w h
    have g1 := h _ (by simp [cornerPts]) _ _ f1
    have g2 := h _ (by simp [cornerPts]) _ _ f2
    have g3 := h _ (by simp [cornerPts]) _ _ f3
    have g4 := h _ (by simp [cornerPts]) _ _ f4
    have g5 := h _ (by simp [cornerPts]) _ _ f5
    have g6 := h _ (by simp [cornerPts]) _ _ f6
    simp [velocity, shiftT, M3.mulVec, P3.cross, P3.dot] at g1 g2 g3 g4 g5 g6
    simp only [P3.ext_iff]
    refine ⟨⟨?_, ?_, ?_⟩, ?_, ?_, ?_⟩ <;> simp <;> linarith

/-- From a guess a tenth off, the corner is registered exactly. -/
example : ∃ r, align diffOps (planeIcp cornerCfg (gnAsSolver (fun _ _ => .serial) goodGn realGnParams) 1 "pts"
    cornerLayer 0 true cornerPts) regParams ⟨shiftT.R, ⟨1 + 1 / 10, 2, 3⟩⟩ 1 false = .ok r ∧ r.pose = shiftT ∧ r.reason = .stalled := by
  have h := reg_setting false
  have hR : IsRotation shiftT.R := by
    constructor
    · ext <;> simp [shiftT, M3.mul, M3.transpose, M3.one]
    · simp [shiftT, M3.det]
  obtain ⟨r, h1, h2, -, -, -, -, h7⟩ := exact_registration_planes_partial (P := realGnParams) goodGn_good rfl rfl (by simp [realGnParams])
    (by simp [realGnParams]) (Or.inr (by simp [realGnParams])) (bb := fun _ _ => .serial)
    (fun _ q hq => .serial (by simp [BlocksCover, hq])) "pts" 0 true (T := shiftT) ⟨1 + 1 / 10, 2, 3⟩
    ⟨h.ops, rfl, rfl, Or.inl rfl, rfl, by simp [cornerPts], hR, h.ratio, h.checks, h.stepT, h.stepR⟩
    (corner_good (1 / 10) (by norm_num) (by norm_num))
    (by have := corner_good 0 le_rfl (by norm_num); simpa [shiftT] using this) false (by simp [LogThere, regParams]) (by simp [regParams])
  exact ⟨r, h1, h2, h7 (by simp [regParams])⟩

end Verif.Props
