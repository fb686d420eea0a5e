import Verif.Lemmas.Rest
import Verif.Props.EndToEnd
/-
C121: a registration of points with Horn's solver comes to rest.
-/
namespace Verif.Props
open Verif Verif.Spec
open Verif.Lemmas.Rest (event_detail misfit_pairs code code_tells cost_of_points two_alike)
variable {K : Type} [Field K] [LinearOrder K] [IsStrictOrderedRing K]

section
variable {ops : PoseOps K (Pose3 K)} {e : HornEnv K} {nearOne : P3 K → Bool} {ratio : K} {wp : WeightParams K}
  {c : DTCfg K} {mr : K} {name : String} {g : GLayer K} {gpts pts : List (P3 K)} {dense : Bool} {p : IcpParams K}

/-- An iteration with a solver's answer: the pairs, and what the answer is to them. -/
theorem iteration_fits (hs : FitSetting ops e wp c g gpts pts) {init : Pose3 K} {wantsLog : Bool} {r : IcpResult K (Pose3 K)}
    (h : align ops (simpleIcp c (hornAsSolver e nearOne ratio wp) mr name g gpts.length dense pts) p init 1 wantsLog = .ok r)
    {k : Nat} {ev : IterEvent K (Pose3 K)} {s : Sol K (Pose3 K)} (hk : r.trace[k]? = some ev) (hsol : ev.solver = some (true, s)) :
    ev.pairings = { pt2pt := (List.range pts.length).filterMap (Lemmas.cand c ev.poseIn.composePoint g pts), potential := pts.length } ∧
      IsRotation s.pose.R ∧ (AwayFromCentroids e.norm e.eps ev.pairings.pt2pt → BestFit ev.pairings.pt2pt s.pose) := by
  obtain ⟨hgen, -⟩ := align_stops_and_reports ops hs.norms _ p init 1 wantsLog r h
  obtain ⟨fin, fins, -, -, hcall⟩ := align_solver_calls ops hs.norms _ p init 1 wantsLog r h
  obtain ⟨ms, hm⟩ := hgen.matched k ev hk
  have hz : ev.pairings.size ≠ 0 := fun hz => by
    have := (hgen.solverRun k ev hk).mpr hz
    rw [this] at hsol; cases hsol
  exact event_detail hs hm (hcall k ev hk true s hsol) hz

/-- C121 (an iteration that gains nothing): if an iteration of a registration does not bring the points nearer to the map, the pose it
started from was already a best one for its pairs, and so for the pairs alone it gains nothing either. -/
theorem no_gain_already_best (hs : FitSetting ops e wp c g gpts pts) {init : Pose3 K} (hi : IsRotation init.R) (hang : c.angSq = 0)
    {wantsLog : Bool} {r : IcpResult K (Pose3 K)}
    (h : align ops (simpleIcp c (hornAsSolver e nearOne ratio wp) mr name g gpts.length dense pts) p init 1 wantsLog = .ok r)
    {k : Nat} {ev : IterEvent K (Pose3 K)} {s : Sol K (Pose3 K)} (hk : r.trace[k]? = some ev) (hsol : ev.solver = some (true, s))
    (ha : AwayFromCentroids e.norm e.eps ev.pairings.pt2pt) :
    misfit c.thr gpts pts s.pose ≤ misfit c.thr gpts pts ev.poseIn ∧
      (misfit c.thr gpts pts ev.poseIn ≤ misfit c.thr gpts pts s.pose → BestFit ev.pairings.pt2pt ev.poseIn) := by
  obtain ⟨hp, hr, hb⟩ := iteration_fits hs h hk hsol
  have hb := hb ha
  obtain ⟨hgen, -⟩ := align_stops_and_reports ops hs.norms _ p init 1 wantsLog r h
  have hin : IsRotation ev.poseIn.R := by
    rw [hgen.poseIn k ev hk]; exact (trace_rotations hs hi h).2 k
  obtain ⟨d, d1, d2⟩ := misfit_pairs (c := c) (pts := pts) hs.serves hang ev.poseIn
  have hpt : ev.pairings.pt2pt = (List.range pts.length).filterMap (Lemmas.cand c ev.poseIn.composePoint g pts) := by rw [hp]
  rw [← hpt] at d1 d2
  have h1 := d2 s.pose
  have h2 := hb _ hin
  refine ⟨by linarith, fun hge T hT => ?_⟩
  have h3 := hb T hT
  linarith

/-- C121: every iteration which does not end the run brings the points strictly nearer to the map. -/
theorem goes_on_only_downhill (hs : FitSetting ops e wp c g gpts pts) (hd : PoseDiffs ops) {init : Pose3 K} (hi : IsRotation init.R)
    (hang : c.angSq = 0) (hT : 0 < p.minAbsStepTrans) (hR : 0 < p.minAbsStepRot) {wantsLog : Bool} {r : IcpResult K (Pose3 K)}
    (h : align ops (simpleIcp c (hornAsSolver e nearOne ratio wp) mr name g gpts.length dense pts) p init 1 wantsLog = .ok r)
    (hclear : ClearRun e r) {k : Nat} {ev : IterEvent K (Pose3 K)} (hk : r.trace[k]? = some ev) (hgo : ev.stop = none) :
    ∃ s, ev.solver = some (true, s) ∧ IsRotation s.pose.R ∧ misfit c.thr gpts pts s.pose < misfit c.thr gpts pts ev.poseIn := by
  obtain ⟨hgen, -⟩ := align_stops_and_reports ops hs.norms _ p init 1 wantsLog r h
  rcases hsv : ev.solver with _ | ⟨b, s⟩
  · have := (hgen.noPairings k ev hk).mpr ((hgen.solverRun k ev hk).mp hsv)
    rw [hgo] at this; cases this
  cases b
  · have := (hgen.solverError k ev hk).mpr ⟨s, hsv⟩
    rw [hgo] at this; cases this
  refine ⟨s, rfl, ?_, ?_⟩
  · exact (iteration_fits hs h hk hsv).2.1
  · obtain ⟨ha, ho⟩ := hclear ev (List.mem_of_getElem? hk) s hsv
    obtain ⟨g1, g2⟩ := no_gain_already_best hs hi hang h hk hsv ha
    rcases lt_or_ge (misfit c.thr gpts pts s.pose) (misfit c.thr gpts pts ev.poseIn) with hlt | hge
    · exact hlt
    · exfalso
      obtain ⟨-, hr, hb⟩ := iteration_fits hs h hk hsv
      have hin : ev.poseIn = poseBefore init r.trace k := hgen.poseIn k ev hk
      have hrot : IsRotation ev.poseIn.R := by rw [hin]; exact (trace_rotations hs hi h).2 k
      have heq : s.pose = ev.poseIn := ho _ _ hr hrot (hb ha) (g2 hge)
      have hst := (hgen.stalled k ev hk).mpr ⟨s, hsv, by
        constructor
        · left
          unfold SmallT
          rw [heq, hin, hd.refl]
          simpa [absK] using hT
        · left
          unfold SmallR
          rw [heq, hin, hd.refl]
          simpa [absK] using hR⟩
      rw [hgo] at hst; cases hst

/-- The pose an iteration starts from is the answer of the one before. -/
theorem pose_after {init : Pose3 K} {t : List (IterEvent K (Pose3 K))} {k : Nat} {ev : IterEvent K (Pose3 K)} {s : Sol K (Pose3 K)}
    (hk : t[k]? = some ev) (hs : ev.solver = some (true, s)) : poseBefore init t (k + 1) = s.pose := by
  obtain ⟨hlt, he⟩ := List.getElem?_eq_some_iff.mp hk
  have htake : t.take (k + 1) = t.take k ++ [t[k]] := (List.take_append_getElem hlt).symm
  unfold poseBefore
  rw [htake, Lemmas.lastSolved_append, he, hs]
  rfl

/-- C121: a registration does not go round in circles.  While it goes on it never makes the same pairs twice; there are finitely many
ways to pair the points, so it does not need the limit on the number of iterations to end: it makes at most one iteration more than there
are ways to pair each local point with one point of the map or none. -/
theorem comes_to_rest (hs : FitSetting ops e wp c g gpts pts) (hd : PoseDiffs ops) {init : Pose3 K} (hi : IsRotation init.R)
    (hang : c.angSq = 0) (hT : 0 < p.minAbsStepTrans) (hR : 0 < p.minAbsStepRot) {wantsLog : Bool} {r : IcpResult K (Pose3 K)}
    (h : align ops (simpleIcp c (hornAsSolver e nearOne ratio wp) mr name g gpts.length dense pts) p init 1 wantsLog = .ok r)
    (hclear : ClearRun e r) :
    (∀ (j k : Nat) (a b : IterEvent K (Pose3 K)), j < k → r.trace[j]? = some a → r.trace[k]? = some b → b.stop = none →
      a.pairings.pt2pt.map (fun q => (q.local, q.global)) ≠ b.pairings.pt2pt.map fun q => (q.local, q.global)) ∧
    r.trace.length ≤ (gpts.length + 1) ^ pts.length + 1 ∧
    ((gpts.length + 1) ^ pts.length < p.maxIterations → r.reason ≠ .maxIterations) := by
  obtain ⟨hgen, -, -, -, -, -, hmax⟩ := align_stops_and_reports ops hs.norms _ p init 1 wantsLog r h
  -- the misfit only gets smaller
  have hdown : ∀ (m j : Nat), (∀ i, j ≤ i → i < j + m → ∃ ev, r.trace[i]? = some ev ∧ ev.stop = none) →
      misfit c.thr gpts pts (poseBefore init r.trace (j + m)) ≤ misfit c.thr gpts pts (poseBefore init r.trace j) := by
    intro m
    induction m with
    | zero => intro j _; exact le_rfl
    | succ m ih =>
      intro j hall
      obtain ⟨ev, hev, hst⟩ := hall (j + m) (by omega) (by omega)
      obtain ⟨s, hsv, -, hlt⟩ := goes_on_only_downhill hs hd hi hang hT hR h hclear hev hst
      have h1 := pose_after (init := init) hev hsv
      have h2 := ih j fun i h1 h2 => hall i h1 (by omega)
      rw [hgen.poseIn _ _ hev] at hlt
      have : j + (m + 1) = j + m + 1 := rfl
      rw [this, h1]
      linarith
  have hdiff : ∀ (j k : Nat) (a b : IterEvent K (Pose3 K)), j < k → r.trace[j]? = some a → r.trace[k]? = some b → b.stop = none →
      a.pairings.pt2pt.map (fun q => (q.local, q.global)) ≠ b.pairings.pt2pt.map fun q => (q.local, q.global) := by
    intro j k a b hjk hj hk hb heq
    have hklt : k < r.trace.length := (List.getElem?_eq_some_iff.mp hk).1
    have hgo : ∀ i, i < k → ∃ ev, r.trace[i]? = some ev ∧ ev.stop = none := fun i hi =>
      ⟨r.trace[i], List.getElem?_eq_getElem (by omega), hgen.onlyLast i _ (List.getElem?_eq_getElem (by omega)) (by omega)⟩
    obtain ⟨a', ha', hast⟩ := hgo j hjk
    rw [hj] at ha'; cases ha'
    obtain ⟨sa, hsa, hra, -⟩ := goes_on_only_downhill hs hd hi hang hT hR h hclear hj hast
    obtain ⟨sb, hsb, hrb, hlt⟩ := goes_on_only_downhill hs hd hi hang hT hR h hclear hk hb
    obtain ⟨aa, -⟩ := hclear a (List.mem_of_getElem? hj) sa hsa
    obtain ⟨ab, ob⟩ := hclear b (List.mem_of_getElem? hk) sb hsb
    have fa := (iteration_fits hs h hj hsa).2.2 aa
    have fb := (iteration_fits hs h hk hsb).2.2 ab
    have hsame : sa.pose = sb.pose := by
      refine ob _ _ hra hrb (fun T hT => ?_) fb
      rw [← cost_of_points heq, ← cost_of_points heq]
      exact fa T hT
    have h1 := pose_after (init := init) hj hsa
    have h2 := hdown (k - (j + 1)) (j + 1) fun i _ h2 => hgo i (by omega)
    have e : j + 1 + (k - (j + 1)) = k := by omega
    rw [e, h1, hsame] at h2
    rw [hgen.poseIn _ _ hk] at hlt
    linarith
  have hlen : ∀ n, (∀ i, i < n → ∃ ev, r.trace[i]? = some ev ∧ ev.stop = none) → n ≤ (gpts.length + 1) ^ pts.length := by
    intro n hall
    by_contra hn
    obtain ⟨j, k, hjk, hkn, hcode⟩ := two_alike (c := c) (g := g) (gpts := gpts) (pts := pts) (fun i => poseBefore init r.trace i) (not_le.mp hn)
    obtain ⟨a, ha, hsta⟩ := hall j (by omega)
    obtain ⟨b, hb, hstb⟩ := hall k hkn
    obtain ⟨sa, hsa, -⟩ := goes_on_only_downhill hs hd hi hang hT hR h hclear ha hsta
    obtain ⟨sb, hsb, -⟩ := goes_on_only_downhill hs hd hi hang hT hR h hclear hb hstb
    refine hdiff j k a b hjk ha hb hstb ?_
    rw [(iteration_fits hs h ha hsa).1, (iteration_fits hs h hb hsb).1, hgen.poseIn _ _ ha, hgen.poseIn _ _ hb]
    exact code_tells hs.serves hcode
  refine ⟨hdiff, ?_, fun hlarge hreason => ?_⟩
  · have := hlen (r.trace.length - 1) fun i hi =>
      ⟨r.trace[i], List.getElem?_eq_getElem (by omega), hgen.onlyLast i _ (List.getElem?_eq_getElem (by omega)) (by omega)⟩
    omega
  · obtain ⟨h1, h2⟩ := hmax hreason
    have := hlen p.maxIterations fun i hi =>
      ⟨r.trace[i], List.getElem?_eq_getElem (by omega), h2 _ (List.getElem_mem _)⟩
    omega

/-- C121: without quality checkpoints, such a registration, given iterations enough, ends because it stalled, or because there was nothing to
solve: no pairs, or too few of them. -/
theorem rests_by_itself (hs : FitSetting ops e wp c g gpts pts) (hd : PoseDiffs ops) {init : Pose3 K} (hi : IsRotation init.R)
    (hang : c.angSq = 0) (hT : 0 < p.minAbsStepTrans) (hR : 0 < p.minAbsStepRot) (hchk : p.qualityCheckpoints = [])
    (hmany : (gpts.length + 1) ^ pts.length < p.maxIterations) {wantsLog : Bool} {r : IcpResult K (Pose3 K)}
    (h : align ops (simpleIcp c (hornAsSolver e nearOne ratio wp) mr name g gpts.length dense pts) p init 1 wantsLog = .ok r)
    (hclear : ClearRun e r) : r.reason = .stalled ∨ r.reason = .noPairings ∨ r.reason = .solverError := by
  obtain ⟨hgen, -, -, -, hund, hlast, -⟩ := align_stops_and_reports ops hs.norms _ p init 1 wantsLog r h
  have hnm := (comes_to_rest hs hd hi hang hT hR h hclear).2.2 hmany
  obtain ⟨-, ev, hev, hst⟩ := hlast hnm
  rw [List.getLast?_eq_getElem?] at hev
  cases hr : r.reason with
  | undefined => exact absurd hr hund
  | maxIterations => exact absurd hr hnm
  | stalled => exact Or.inl rfl
  | noPairings => exact Or.inr (Or.inl rfl)
  | solverError => exact Or.inr (Or.inr rfl)
  | qualityCheckpointFailed =>
    rw [hr] at hst
    obtain ⟨s, -, -, q, v, h1, -⟩ := (hgen.checkpoint _ _ hev).mp hst
    rw [hchk] at h1; cases h1
  | hookRequest =>
    rw [hr] at hst
    obtain ⟨s, -, -, -, f, h1, -⟩ := (hgen.hook _ _ hev).mp hst
    cases h1

end

/-! ### a concrete registration -/

/-- Parameters which allow more iterations than there are ways to pair four points with five. -/
noncomputable def restParams : IcpParams ℝ := { maxIterations := 2000, minAbsStepTrans := 1 / 10000, minAbsStepRot := 1 / 10000 }

/-- Four pairs that fit exactly: one motion only fits them. -/
theorem matched_one_best {prs : Pairings ℝ} (hm : AllMatched regPts exT prs) : OneBestFit prs.pt2pt := by
  obtain ⟨h1, h2⟩ := Lemmas.matched_locals hm
  have hcost : ∀ T : Pose3 ℝ, pointCost prs.pt2pt T = (regPts.map fun x => P3.distSq (T.composePoint x) (exT.composePoint x)).sum := by
    intro T
    have h3 : prs.pt2pt.map (fun q => (q.local, q.global)) = regPts.map fun x => (x, exT.composePoint x) := by
      have := congrArg (List.map fun x : Nat × P3 ℝ × P3 ℝ => x.2) hm.pairs
      rw [List.map_map, List.map_map] at this
      have e : (regPts.zipIdx.map fun x => (x.1, exT.composePoint x.1)) = regPts.map fun x => (x, exT.composePoint x) := by
        simp [regPts, List.zipIdx]
      rw [← e]; exact this
    have e : pointCost prs.pt2pt T = ((prs.pt2pt.map fun q => (q.local, q.global)).map fun x => P3.distSq (T.composePoint x.1) x.2).sum := by
      simp [pointCost, List.map_map, Function.comp_def]
    rw [e, h3, List.map_map]
    rfl
  have key : ∀ A : Pose3 ℝ, IsRotation A.R → BestFit prs.pt2pt A → A = exT := by
    intro A hA hb
    have h3 := hb exT (reg_setting true).rot
    rw [hcost, hcost] at h3
    have hz : (regPts.map fun x => P3.distSq (exT.composePoint x) (exT.composePoint x)).sum = 0 := by
      simp [regPts, P3.distSq, P3.normSq, P3.dot]
    rw [hz] at h3
    have hx : ∀ x ∈ regPts, A.composePoint x = exT.composePoint x := by
      intro x hx
      refine Lemmas.distSq_eq_zero (le_antisymm (le_trans ?_ h3) (Lemmas.distSq_nonneg _ _))
      refine List.single_le_sum ?_ _ (List.mem_map.mpr ⟨x, hx, rfl⟩)
      intro z hz
      obtain ⟨y, -, rfl⟩ := List.mem_map.mp hz
      exact Lemmas.distSq_nonneg _ _
    have x1 := hx ⟨1, 0, 0⟩ (by simp [regPts])
    have x2 := hx ⟨-1, 0, 0⟩ (by simp [regPts])
    have x3 := hx ⟨0, 1, 0⟩ (by simp [regPts])
    simp only [Pose3.composePoint, M3.mulVec, P3.ext_iff, exT, rotXpi, P3.add_x, P3.add_y, P3.add_z] at x1 x2 x3
    obtain ⟨a1, a2, a3⟩ := x1
    obtain ⟨b1, b2, b3⟩ := x2
    obtain ⟨c1, c2, c3⟩ := x3
    have e00 : A.R.a00 = 1 := by linarith
    have e10 : A.R.a10 = 0 := by linarith
    have e20 : A.R.a20 = 0 := by linarith
    have t1 : A.t.x = 1 := by linarith
    have t2 : A.t.y = 2 := by linarith
    have t3 : A.t.z = 3 := by linarith
    have e01 : A.R.a01 = 0 := by linarith
    have e11 : A.R.a11 = -1 := by linarith
    have e21 : A.R.a21 = 0 := by linarith
    have ho := hA.1
    have hd := hA.2
    rw [M3.ext_iff] at ho
    simp only [M3.mul, M3.transpose, M3.one, e00, e10, e20, e01, e11, e21] at ho
    simp only [M3.det, e00, e10, e20, e01, e11, e21] at hd
    obtain ⟨-, -, o3, -, -, o6, -⟩ := ho
    have e02 : A.R.a02 = 0 := by linarith
    have e12 : A.R.a12 = 0 := by linarith
    have e22 : A.R.a22 = -1 := by rw [e02, e12] at hd; linarith
    refine Pose3.ext (M3.ext ?_ ?_ ?_ ?_ ?_ ?_ ?_ ?_ ?_) (P3.ext ?_ ?_ ?_) <;> simp [exT, rotXpi, *]
  intro A B hA hB h3 h4
  rw [key A hA h3, key B hB h4]

/-- The hypotheses hold in the registration of the four points, which goes on after its first iteration. -/
example : ∃ r, align diffOps (simpleIcp (regCfg true) (hornAsSolver realHorn (fun _ => false) 0 exParams) 1 "pts"
    (bruteLayer regMap) 5 true regPts) restParams regGuess 1 false = .ok r ∧
    FitSetting diffOps realHorn exParams (regCfg true) (bruteLayer regMap) regMap regPts ∧ PoseDiffs diffOps ∧ IsRotation regGuess.R ∧
    ClearRun realHorn r ∧ (regMap.length + 1) ^ regPts.length < restParams.maxIterations ∧
    (∃ ev, r.trace[0]? = some ev ∧ ev.stop = none) ∧ r.reason ≠ .maxIterations := by
  have hs0 := reg_setting true
  have hs : ExactSetting diffOps realHorn exParams (regCfg true) 1 (bruteLayer regMap) regMap regPts exT restParams :=
    ⟨hs0.ops, hs0.eig, hs0.norm, hs0.epsPos, hs0.solver, hs0.serves, hs0.matcher, hs0.enough, hs0.distinct, hs0.rot, hs0.there, hs0.spread,
      hs0.ratio, by simp [restParams], by norm_num [restParams], by norm_num [restParams]⟩
  obtain ⟨r, h1, h2, -, -, h5, h6, h7, h8⟩ := Lemmas.align_close (nearOne := fun _ => false) (ratio := 0) (name := "pts")
    (dense := true) hs reg_close false (by simp [LogThere, restParams]) (by simp [restParams])
  have h7 := h7 (by simp [restParams])
  have hfs : FitSetting diffOps realHorn exParams (regCfg true) (bruteLayer regMap) regMap regPts :=
    ⟨diffOps_ok.nonneg, hs.eig, hs.norm, hs.epsPos.le, hs.solver, hs.serves, hs.matcher, rfl⟩
  have hrot : IsRotation regGuess.R := hs.rot
  have hclear : ClearRun realHorn r := by
    intro ev hev s _
    refine ⟨?_, matched_one_best (h8 ev hev)⟩
    intro q hq
    have hm := h8 ev hev
    obtain ⟨hl, hg⟩ := Lemmas.matched_locals hm
    rw [hl, hg, regPts_mean]
    have hgm : mean (regPts.map exT.composePoint) = ⟨1, 2, 3⟩ := by
      ext <;> simp [mean, regPts, exT, rotXpi, Pose3.composePoint, M3.mulVec] <;> norm_num
    rw [hgm]
    have h9 : (q.localIdx, q.local, q.global) ∈ ev.pairings.pt2pt.map (fun q => (q.localIdx, q.local, q.global)) :=
      List.mem_map.mpr ⟨q, hq, rfl⟩
    rw [hm.pairs] at h9
    obtain ⟨x, hx, hxe⟩ := List.mem_map.mp h9
    simp only [Prod.mk.injEq] at hxe
    obtain ⟨-, hx1, hx2⟩ := hxe
    have hx3 : x.1 ∈ regPts := List.fst_mem_of_mem_zipIdx hx
    rw [← hx1, ← hx2]
    have : ∀ y ∈ regPts, ¬ realHorn.norm (exT.composePoint y - ⟨1, 2, 3⟩) < realHorn.eps ∧
        ¬ realHorn.norm (y - ⟨0, 0, 0⟩) < realHorn.eps := by
      intro y hy
      refine ⟨realNorm_ge ?_, realNorm_ge ?_⟩ <;> revert y <;>
        simp [regPts, exT, rotXpi, Pose3.composePoint, M3.mulVec, P3.normSq, P3.dot]
    exact this _ hx3
  have hnum : (regMap.length + 1) ^ regPts.length < restParams.maxIterations := by norm_num [regMap, regPts, restParams]
  obtain ⟨hgen, -, -, -, -, hlast, -⟩ := align_stops_and_reports diffOps hfs.norms _ _ _ _ _ r h1
  obtain ⟨hlen, ev, hev, hst⟩ := hlast (by rw [h7]; simp)
  rw [List.getLast?_eq_getElem?, hlen, Nat.add_sub_cancel] at hev
  rw [h7] at hst
  refine ⟨r, h1, hfs, diffOps_ok, hrot, hclear, hnum, ?_, ?_⟩
  · refine ⟨r.trace[0], List.getElem?_eq_getElem (by omega), ?_⟩
    have hn : r.nIterations ≠ 0 := by
      intro hn
      rw [hn] at hev
      obtain ⟨s, hsv, hbm⟩ := (hgen.stalled 0 ev hev).mp hst
      have hpose := pose_after (init := regGuess) hev hsv
      have hre := (align_returns_last_solution_partial diffOps hfs.norms _ _ _ _ _ r h1).2 (by rw [h7]; simp)
      have hse : s.pose = exT := by
        have hp := congrArg Sol.pose hre
        simp only at hp
        rw [h2] at hp
        have : poseBefore regGuess r.trace r.trace.length = exT := by
          rw [hp]
          unfold poseBefore
          rw [List.take_length]
          cases lastSolved r.trace <;> rfl
        rw [hlen, hn, hpose] at this
        exact this
      obtain ⟨ht, -⟩ := hbm
      rcases ht with ht | ht
      · have h0 : poseBefore regGuess r.trace 0 = regGuess := by simp [poseBefore, lastSolved]
        rw [h0, hse] at ht
        unfold SmallT absK at ht
        norm_num [diffOps, exT, regGuess, rotXpi, restParams, P3.normSq, P3.dot, Pose3.composePoint, M3.mulVec] at ht
      · exact absurd ht.1 (lt_irrefl 0)
    exact hgen.onlyLast 0 _ (List.getElem?_eq_getElem (by omega)) (by omega)
  · exact (comes_to_rest hfs diffOps_ok hrot rfl (by norm_num [restParams]) (by norm_num [restParams]) h1 hclear).2.2 hnum

end Verif.Props
