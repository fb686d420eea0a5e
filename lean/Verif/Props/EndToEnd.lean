import Verif.Lemmas.EndToEnd
import Verif.Props.Solvers
import Verif.Props.Icp
import Mathlib.Tactic.FinCases
import Mathlib.Tactic.IntervalCases
/-
Properties C93, C94: whole registrations.
-/
namespace Verif.Props
open Verif Verif.Spec
set_option linter.unusedSectionVars false
variable {K : Type} [Field K] [LinearOrder K] [IsStrictOrderedRing K]

/-! ### C93 -/

/-- C93: exact registration.  If the local points, moved by a rigid motion `T`, are all in the map, and the initial guess is
close enough to `T` that each of them is nearer to its true place than to any other map point, and within the threshold,
then ICP with the distance-threshold matcher, the Horn solver and the paired-ratio evaluator returns exactly `T`, with all
points paired with their true places and quality 1, after at most two iterations, and it reports that it has converged. -/
theorem exact_registration {ops : PoseOps K (Pose3 K)} {e : HornEnv K} (nearOne : P3 K → Bool) (ratio : K)
    {wp : WeightParams K} {c : DTCfg K} {mr : K} (name : String) {g : GLayer K} {gpts pts : List (P3 K)} (dense : Bool)
    {T T0 : Pose3 K} {p : IcpParams K} (hs : ExactSetting ops e wp c mr g gpts pts T p)
    (hcl : CloseEnough pts gpts c.thr T T0) (wantsLog : Bool) (hlog : LogThere p wantsLog) (hit : 1 ≤ p.maxIterations) :
    ∃ r, align ops (simpleIcp c (hornAsSolver e nearOne ratio wp) mr name g gpts.length dense pts) p T0 1 wantsLog = .ok r ∧
      r.pose = T ∧ r.scale = 1 ∧ r.quality = 1 ∧ AllMatched pts T r.pairings ∧ r.nIterations ≤ 1 ∧
      (2 ≤ p.maxIterations → r.reason = .stalled) := by
  obtain ⟨r, h1, h2, h3, h4, h5, h6, h7, -⟩ := Lemmas.align_close (nearOne := nearOne) (ratio := ratio) (name := name)
    (dense := dense) hs hcl wantsLog hlog hit
  exact ⟨r, h1, h2, h3, h4, h5, h6, h7⟩

/-- C93, negative: with one or two local points, even from a guess as good as that, or from the true pose itself, and with all
the points paired with their true places, the result is the identity pose; the quality reported is still 1. -/
theorem few_points_lost {ops : PoseOps K (Pose3 K)} {e : HornEnv K} (nearOne : P3 K → Bool) (ratio : K)
    {wp : WeightParams K} {c : DTCfg K} {mr : K} (name : String) {g : GLayer K} {gpts pts : List (P3 K)} (dense : Bool)
    {T T0 : Pose3 K} {p : IcpParams K} (hw : PlainSolver wp) (hg : ServesPoints g gpts) (hc : PlainMatcher c pts.length)
    (hne : pts ≠ []) (hfew : pts.length < 3) (hnd : pts.Nodup) (hT : IsRotation T.R)
    (hin : ∀ x ∈ pts, T.composePoint x ∈ gpts) (hr : mr ≤ 1) (hcl : CloseEnough pts gpts c.thr T T0) (wantsLog : Bool)
    (hit : 1 ≤ p.maxIterations) :
    ∃ r, align ops (simpleIcp c (hornAsSolver e nearOne ratio wp) mr name g gpts.length dense pts) p T0 1 wantsLog = .ok r ∧
      r.pose = Pose3.identity ∧ r.reason = .solverError ∧ r.quality = 1 ∧ r.nIterations = 0 ∧ AllMatched pts T r.pairings :=
  Lemmas.align_few hw hg hc hne hfew hnd hT hin hr hcl wantsLog hit

/-! ### C94 -/

/-- Every pose of the history is a rigid motion. -/
theorem trace_rotations {ops : PoseOps K (Pose3 K)} {e : HornEnv K} {nearOne : P3 K → Bool} {ratio : K} {wp : WeightParams K}
    {c : DTCfg K} {mr : K} {name : String} {g : GLayer K} {gpts pts : List (P3 K)} {dense : Bool} {p : IcpParams K}
    (hs : FitSetting ops e wp c g gpts pts) {init : Pose3 K} (hi : IsRotation init.R) {wantsLog : Bool}
    {r : IcpResult K (Pose3 K)}
    (h : align ops (simpleIcp c (hornAsSolver e nearOne ratio wp) mr name g gpts.length dense pts) p init 1 wantsLog = .ok r) :
    (∀ (k : Nat) (ev : IterEvent K (Pose3 K)) (s : Sol K (Pose3 K)), r.trace[k]? = some ev → ev.solver = some (true, s) →
      IsRotation s.pose.R ∧ (IsRotation ev.poseIn.R → misfitAt c.thr c.angSq gpts pts ev.poseIn s.pose ≤
        misfitAt c.thr c.angSq gpts pts ev.poseIn ev.poseIn + nearSlack e.norm e.eps ev.pairings.pt2pt)) ∧
    ∀ (k : Nat), IsRotation (poseBefore init r.trace k).R := by
  obtain ⟨hgen, -⟩ := align_stops_and_reports ops hs.norms _ p init 1 wantsLog r h
  obtain ⟨fin, fins, -, -, hcall⟩ := align_solver_calls ops hs.norms _ p init 1 wantsLog r h
  have hev : ∀ (k : Nat) (ev : IterEvent K (Pose3 K)) (s : Sol K (Pose3 K)), r.trace[k]? = some ev →
      ev.solver = some (true, s) →
      IsRotation s.pose.R ∧ (IsRotation ev.poseIn.R → misfitAt c.thr c.angSq gpts pts ev.poseIn s.pose ≤
        misfitAt c.thr c.angSq gpts pts ev.poseIn ev.poseIn + nearSlack e.norm e.eps ev.pairings.pt2pt) := by
    intro k ev s hk hsol
    obtain ⟨ms, hm⟩ := hgen.matched k ev hk
    have hz : ev.pairings.size ≠ 0 := fun hz => by
      have := (hgen.solverRun k ev hk).mpr hz
      rw [this] at hsol; cases hsol
    exact Lemmas.event_fit hs hm (hcall k ev hk true s hsol) hz
  refine ⟨hev, fun k => ?_⟩
  have hls : ∀ s, lastSolved (r.trace.take k) = some s → IsRotation s.pose.R := by
    intro s hls
    unfold lastSolved at hls
    obtain ⟨ev, hmem, hfm⟩ := List.exists_of_findSome?_eq_some hls
    have hmem : ev ∈ r.trace := List.mem_of_mem_take (List.mem_reverse.mp hmem)
    obtain ⟨j, hj, hje⟩ := List.getElem_of_mem hmem
    have hsol : ev.solver = some (true, s) := by
      revert hfm
      rcases ev.solver with _ | ⟨b, t⟩
      · simp
      · cases b <;> simp
    exact (hev j ev s (by rw [List.getElem?_eq_getElem hj, hje]) hsol).1
  unfold poseBefore
  cases hl : lastSolved (r.trace.take k) with
  | none => simpa using hi
  | some s => simpa using hls s hl

/-- C94 (partial): no iteration makes the fit worse.  At each iteration of a run the solution found does not fit the map worse
than the pose the iteration started from: the sum of squared distances of the local points to the map, truncated at the limits the
matcher has there (`misfitAt`; the same as `misfit` without angular threshold, `misfit_no_angle`), does not grow by more than what the
solver may lose on the pairs it leaves out as too near the centroid (`nearSlack`): nothing if there are none, and never more than four
times its tolerance times the sum of the distances to the centroids.  Missing: iterations in which the solver fails, for which it is
false (`fit_lost_few_points`). -/
theorem fit_never_worse_step_partial {ops : PoseOps K (Pose3 K)} {e : HornEnv K} {nearOne : P3 K → Bool} {ratio : K}
    {wp : WeightParams K} {c : DTCfg K} {mr : K} {name : String} {g : GLayer K} {gpts pts : List (P3 K)} {dense : Bool}
    {p : IcpParams K} (hs : FitSetting ops e wp c g gpts pts) {init : Pose3 K} (hi : IsRotation init.R) {wantsLog : Bool}
    {r : IcpResult K (Pose3 K)}
    (h : align ops (simpleIcp c (hornAsSolver e nearOne ratio wp) mr name g gpts.length dense pts) p init 1 wantsLog = .ok r)
    {k : Nat} {ev : IterEvent K (Pose3 K)} {s : Sol K (Pose3 K)} (hk : r.trace[k]? = some ev)
    (hsol : ev.solver = some (true, s)) :
    IsRotation s.pose.R ∧
    misfitAt c.thr c.angSq gpts pts ev.poseIn s.pose ≤ misfitAt c.thr c.angSq gpts pts ev.poseIn ev.poseIn + nearSlack e.norm e.eps ev.pairings.pt2pt ∧
    (AwayFromCentroids e.norm e.eps ev.pairings.pt2pt → misfitAt c.thr c.angSq gpts pts ev.poseIn s.pose ≤ misfitAt c.thr c.angSq gpts pts ev.poseIn ev.poseIn) ∧
    misfitAt c.thr c.angSq gpts pts ev.poseIn s.pose ≤ misfitAt c.thr c.angSq gpts pts ev.poseIn ev.poseIn + 4 * e.eps * (ev.pairings.pt2pt.map fun q =>
      e.norm (q.global - mean (ev.pairings.pt2pt.map (·.global))) + e.norm (q.local - mean (ev.pairings.pt2pt.map (·.local)))).sum := by
  obtain ⟨h1, h2⟩ := trace_rotations hs hi h
  obtain ⟨hgen, -⟩ := align_stops_and_reports ops hs.norms _ p init 1 wantsLog r h
  obtain ⟨h3, h4⟩ := h1 k ev s hk hsol
  have h5 := h4 (by rw [hgen.poseIn k ev hk]; exact h2 k)
  obtain ⟨b1, b2, b3⟩ := Lemmas.nearSlack_bounds hs.norm (not_lt.mpr hs.eps) ev.pairings.pt2pt
  refine ⟨h3, h5, fun ha => ?_, le_trans h5 (add_le_add le_rfl b3)⟩
  have := b2 ha
  linarith

/-- Without angular threshold that is the misfit with the threshold alone, at whatever pose. -/
theorem misfit_no_angle (thr : K) (gpts pts : List (P3 K)) (T0 T : Pose3 K) :
    misfitAt thr 0 gpts pts T0 T = misfit thr gpts pts T := Lemmas.misfitAt_noAngle thr gpts pts T0 T

/-- C94 (partial): without angular threshold, the final pose does not fit the map worse than the initial guess, up to the sum over the iterations of what the
solver may lose on pairs near the centroid; not at all, if no such pair was met.  Missing: runs that end by a failure of the
solver, for which it is false (the pose is then reset to the identity, `fit_lost_few_points`), and angular thresholds, whose limits are
not the same at all poses (`fit_worse_angular`). -/
theorem fit_never_worse_partial {ops : PoseOps K (Pose3 K)} {e : HornEnv K} {nearOne : P3 K → Bool} {ratio : K}
    {wp : WeightParams K} {c : DTCfg K} {mr : K} {name : String} {g : GLayer K} {gpts pts : List (P3 K)} {dense : Bool}
    {p : IcpParams K} (hs : FitSetting ops e wp c g gpts pts) {init : Pose3 K} (hi : IsRotation init.R) {wantsLog : Bool}
    {r : IcpResult K (Pose3 K)}
    (h : align ops (simpleIcp c (hornAsSolver e nearOne ratio wp) mr name g gpts.length dense pts) p init 1 wantsLog = .ok r)
    (hang : c.angSq = 0) (hok : r.reason ≠ .solverError) :
    misfit c.thr gpts pts r.pose ≤ misfit c.thr gpts pts init +
      (r.trace.map fun ev => nearSlack e.norm e.eps ev.pairings.pt2pt).sum ∧
    ((∀ ev ∈ r.trace, AwayFromCentroids e.norm e.eps ev.pairings.pt2pt) →
      misfit c.thr gpts pts r.pose ≤ misfit c.thr gpts pts init) := by
  obtain ⟨hgen, -⟩ := align_stops_and_reports ops hs.norms _ p init 1 wantsLog r h
  have hlast := (align_returns_last_solution_partial ops hs.norms _ p init 1 wantsLog r h).2 hok
  have hpose : r.pose = poseBefore init r.trace r.trace.length := by
    have := congrArg Sol.pose hlast
    simp only at this
    rw [this]
    unfold poseBefore
    rw [List.take_length]
    cases lastSolved r.trace <;> rfl
  have hbnd := fun ps => Lemmas.nearSlack_bounds hs.norm (not_lt.mpr hs.eps) ps
  have key : ∀ k, k ≤ r.trace.length → misfit c.thr gpts pts (poseBefore init r.trace k) ≤ misfit c.thr gpts pts init +
      ((r.trace.take k).map fun ev => nearSlack e.norm e.eps ev.pairings.pt2pt).sum := by
    intro k
    induction k with
    | zero => intro _; simp [poseBefore, lastSolved]
    | succ k ih =>
      intro hk
      have hk' : k < r.trace.length := by omega
      have hke : r.trace[k]? = some r.trace[k] := List.getElem?_eq_getElem hk'
      have ih := ih (by omega)
      have htake : r.trace.take (k + 1) = r.trace.take k ++ [r.trace[k]] := (List.take_append_getElem hk').symm
      have hpb : poseBefore init r.trace (k + 1) = poseBefore init r.trace k ∨
          ∃ s, (r.trace[k]).solver = some (true, s) ∧ poseBefore init r.trace (k + 1) = s.pose := by
        unfold poseBefore
        rw [htake, Lemmas.lastSolved_append]
        rcases hsv : (r.trace[k]).solver with _ | ⟨b, s⟩
        · exact Or.inl rfl
        · cases b
          · exact Or.inl rfl
          · exact Or.inr ⟨s, rfl, rfl⟩
      have hnn := (hbnd (r.trace[k]).pairings.pt2pt).1
      rw [htake, List.map_append, List.sum_append]
      simp only [List.map_cons, List.map_nil, List.sum_cons, List.sum_nil, add_zero]
      rcases hpb with hpb | ⟨s, hsv, hpb⟩
      · rw [hpb]; linarith
      · rw [hpb]
        have h5 := (fit_never_worse_step_partial hs hi h hke hsv).2.1
        rw [hang, misfit_no_angle, misfit_no_angle] at h5
        rw [hgen.poseIn k _ hke] at h5
        linarith
  have h6 := key _ le_rfl
  rw [List.take_length, ← hpose] at h6
  refine ⟨h6, fun haway => ?_⟩
  have h7 : (r.trace.map fun ev => nearSlack e.norm e.eps ev.pairings.pt2pt).sum = 0 := by
    refine List.sum_eq_zero ?_
    intro x hx
    obtain ⟨ev, hev, rfl⟩ := List.mem_map.mp hx
    exact (hbnd _).2.1 (haway ev hev)
  rw [h7, add_zero] at h6
  exact h6

/-- C94 fails if the solver does: with one or two local points, from the true pose, where the misfit is zero, the run ends at the
identity pose, where it is not zero (if some local point is not itself in the map). -/
theorem fit_lost_few_points {ops : PoseOps K (Pose3 K)} {e : HornEnv K} (nearOne : P3 K → Bool) (ratio : K)
    {wp : WeightParams K} {c : DTCfg K} {mr : K} (name : String) {g : GLayer K} {gpts pts : List (P3 K)} (dense : Bool)
    {T : Pose3 K} {p : IcpParams K} (hw : PlainSolver wp) (hg : ServesPoints g gpts) (hc : PlainMatcher c pts.length)
    (hfew : pts.length < 3) (hnd : pts.Nodup) (hT : IsRotation T.R)
    (hin : ∀ x ∈ pts, T.composePoint x ∈ gpts) (hr : mr ≤ 1) (wantsLog : Bool)
    (hit : 1 ≤ p.maxIterations) (hout : ∃ x ∈ pts, x ∉ gpts) :
    ∃ r, align ops (simpleIcp c (hornAsSolver e nearOne ratio wp) mr name g gpts.length dense pts) p T 1 wantsLog = .ok r ∧
      misfit c.thr gpts pts T = 0 ∧ 0 < misfit c.thr gpts pts r.pose := by
  obtain ⟨x, hx, hxo⟩ := hout
  obtain ⟨r, h1, h2, -⟩ := few_points_lost (ops := ops) (e := e) nearOne ratio name dense (p := p) hw hg hc (List.ne_nil_of_mem hx) hfew hnd
    hT hin hr (Lemmas.close_self hc.thr T) wantsLog hit
  have hthr : 0 < c.thr * c.thr := mul_pos hc.thr hc.thr
  have hsq : ∀ a b : P3 K, 0 ≤ P3.distSq a b := fun a b => by
    simp only [P3.distSq, P3.normSq, P3.dot]
    nlinarith [mul_self_nonneg (a - b).x, mul_self_nonneg (a - b).y, mul_self_nonneg (a - b).z]
  have hterm : ∀ (T' : Pose3 K) (q : P3 K), 0 ≤ (gpts.map fun y => P3.distSq (T'.composePoint q) y).foldr min (c.thr * c.thr) := by
    intro T' q
    refine Lemmas.le_foldr_min _ _ _ hthr.le ?_
    intro z hz
    obtain ⟨y, -, rfl⟩ := List.mem_map.mp hz
    exact hsq _ _
  refine ⟨r, h1, ?_, ?_⟩
  · refine List.sum_eq_zero ?_
    intro z hz
    obtain ⟨q, hq, rfl⟩ := List.mem_map.mp hz
    refine le_antisymm ?_ (hterm T q)
    have := (Lemmas.foldr_min_le (gpts.map fun y => P3.distSq (T.composePoint q) y) (c.thr * c.thr)).2 _
      (List.mem_map.mpr ⟨_, hin q hq, rfl⟩)
    simpa [P3.distSq, P3.normSq, P3.dot] using this
  · rw [h2]
    have hid : (Pose3.identity : Pose3 K).composePoint x = x := by
      ext <;> simp [Pose3.identity, Pose3.composePoint, M3.mulVec, M3.one]
    have hpos : 0 < (gpts.map fun y => P3.distSq ((Pose3.identity : Pose3 K).composePoint x) y).foldr min (c.thr * c.thr) := by
      rw [hid]
      have hmem : (gpts.map fun y => P3.distSq x y).foldr min (c.thr * c.thr) ∈
          (c.thr * c.thr) :: gpts.map fun y => P3.distSq x y := Lemmas.foldr_min_mem _ _
      rcases List.mem_cons.mp hmem with h | h
      · rw [h]; exact hthr
      · obtain ⟨y, hy, he⟩ := List.mem_map.mp h
        rw [← he]
        refine lt_of_le_of_ne (hsq _ _) fun h0 => hxo ?_
        rw [Lemmas.distSq_eq_zero h0.symm]; exact hy
    calc 0 < _ := hpos
      _ ≤ _ := List.single_le_sum (by
          intro z hz
          obtain ⟨q, -, rfl⟩ := List.mem_map.mp hz
          exact hterm _ q) _ (List.mem_map.mpr ⟨x, hx, rfl⟩)

/-! ### a concrete registration -/

/-- Exhaustive nearest-neighbour search. -/
noncomputable def bruteNN (q : P3 ℝ) : Nat → List (P3 ℝ) → Option (Nbr ℝ)
  | _, [] => none
  | i, y :: ys =>
    match bruteNN q (i + 1) ys with
    | none => some ⟨i, y, P3.distSq q y⟩
    | some nb => if P3.distSq q y ≤ nb.d2 then some ⟨i, y, P3.distSq q y⟩ else some nb

theorem bruteNN_spec (q : P3 ℝ) (ys : List (P3 ℝ)) : ∀ i, ys ≠ [] → ∃ nb, bruteNN q i ys = some nb ∧ i ≤ nb.idx ∧
    ys[nb.idx - i]? = some nb.pt ∧ nb.d2 = P3.distSq q nb.pt ∧ ∀ x ∈ ys, P3.distSq q nb.pt ≤ P3.distSq q x := by
  induction ys with
  | nil => intro i h; exact absurd rfl h
  | cons y ys ih =>
    intro i _
    rcases eq_or_ne ys [] with rfl | hne
    · exact ⟨⟨i, y, P3.distSq q y⟩, rfl, le_rfl, by simp, rfl, by simp⟩
    · obtain ⟨nb, h1, h2, h3, h4, h5⟩ := ih (i + 1) hne
      by_cases hle : P3.distSq q y ≤ nb.d2
      · refine ⟨⟨i, y, P3.distSq q y⟩, by simp [bruteNN, h1, hle], le_rfl, by simp, rfl, ?_⟩
        intro x hx
        rcases List.mem_cons.mp hx with rfl | hx
        · exact le_rfl
        · exact le_trans hle (h4 ▸ h5 x hx)
      · refine ⟨nb, by simp [bruteNN, h1, hle], by omega, ?_, h4, ?_⟩
        · have : nb.idx - i = (nb.idx - (i + 1)) + 1 := by omega
          rw [this]; simpa using h3
        · intro x hx
          rcases List.mem_cons.mp hx with rfl | hx
          · rw [← h4]; exact (not_le.mp hle).le
          · exact h5 x hx

/-- A point layer searched exhaustively. -/
noncomputable def bruteLayer (gpts : List (P3 ℝ)) : GLayer ℝ := { nnSingle := fun q => bruteNN q 0 gpts }

theorem bruteLayer_serves {gpts : List (P3 ℝ)} (h : gpts ≠ []) : ServesPoints (bruteLayer gpts) gpts where
  capable := rfl
  nonempty := rfl
  nearest q := by
    obtain ⟨nb, h1, -, h3, h4, h5⟩ := bruteNN_spec q gpts 0 h
    exact ⟨nb, h1, by simpa using h3, h4, h5⟩
  boxes _ _ _ := rfl

/-- Pose arithmetic with squared norms of entrywise differences. -/
noncomputable def diffOps : PoseOps ℝ (Pose3 ℝ) where
  sub a b := ⟨⟨a.R.a00 - b.R.a00, a.R.a01 - b.R.a01, a.R.a02 - b.R.a02, a.R.a10 - b.R.a10, a.R.a11 - b.R.a11, a.R.a12 - b.R.a12,
    a.R.a20 - b.R.a20, a.R.a21 - b.R.a21, a.R.a22 - b.R.a22⟩, a.t - b.t⟩
  tnorm a := a.t.normSq
  logNorms d := (d.t.normSq, d.R.a00 ^ 2 + d.R.a01 ^ 2 + d.R.a02 ^ 2 + d.R.a10 ^ 2 + d.R.a11 ^ 2 + d.R.a12 ^ 2 + d.R.a20 ^ 2 +
    d.R.a21 ^ 2 + d.R.a22 ^ 2)
  ident := Pose3.identity

theorem diffOps_ok : PoseDiffs diffOps where
  nonneg d := ⟨normSq_nonneg _, by simp only [diffOps]; positivity⟩
  refl T := by simp [diffOps, P3.normSq, P3.dot]

/-- Four points. -/
def regPts : List (P3 ℝ) := [⟨1, 0, 0⟩, ⟨-1, 0, 0⟩, ⟨0, 1, 0⟩, ⟨0, -1, 0⟩]
/-- The same four moved by `exT`, and one more, at the place of the centroid. -/
def regMap : List (P3 ℝ) := [⟨1, 2, 3⟩, ⟨1, 1, 3⟩, ⟨0, 2, 3⟩, ⟨2, 2, 3⟩, ⟨1, 3, 3⟩]
/-- A guess a tenth off. -/
noncomputable def regGuess : Pose3 ℝ := ⟨rotXpi, ⟨11 / 10, 2, 3⟩⟩
/-- The matcher; several local points may share a map point. -/
noncomputable def regCfg (many : Bool) : DTCfg ℝ :=
  { thr := 1 / 2, angDeg := 0, angSq := 0, eps := 1 / 100, allowGlobal := many }
/-- ICP parameters. -/
noncomputable def regParams : IcpParams ℝ := { maxIterations := 50, minAbsStepTrans := 1 / 10000, minAbsStepRot := 1 / 10000 }

theorem regPts_mean : mean regPts = ⟨0, 0, 0⟩ := by
  ext <;> simp [mean, regPts]

theorem reg_there : ∀ x ∈ regPts, exT.composePoint x ∈ regMap := by
  intro x hx
  simp only [regPts, List.mem_cons, List.not_mem_nil, or_false] at hx
  rcases hx with rfl | rfl | rfl | rfl <;>
    norm_num [regMap, exT, rotXpi, Pose3.composePoint, M3.mulVec, P3.ext_iff]

theorem reg_setting (many : Bool) :
    ExactSetting diffOps realHorn exParams (regCfg many) 1 (bruteLayer regMap) regMap regPts exT regParams where
  ops := diffOps_ok
  eig N := Lemmas.top_of_eigenvector (realHorn_top N)
  norm := realNorm_ok
  epsPos := by norm_num [realHorn]
  solver := ⟨rfl, rfl, by simp [exParams], by simp [exParams], by simp [exParams]⟩
  serves := bruteLayer_serves (by simp [regMap])
  matcher := ⟨rfl, by norm_num [regCfg], by simp [regCfg], by simp [regCfg], by norm_num [regCfg], Or.inl rfl, rfl⟩
  enough := by simp [regPts]
  distinct := by norm_num [regPts, P3.ext_iff]
  rot := by
    constructor
    · ext <;> simp [exT, rotXpi, M3.mul, M3.transpose, M3.one]
    · simp [exT, rotXpi, M3.det]
  there := reg_there
  spread := by
    refine ⟨⟨1, 0, 0⟩, by simp [regPts], ⟨0, 1, 0⟩, by simp [regPts], ?_, ?_, ?_⟩
    · rw [regPts_mean]; exact realNorm_ge (by simp [P3.normSq, P3.dot])
    · rw [regPts_mean]; exact realNorm_ge (by simp [P3.normSq, P3.dot])
    · rw [regPts_mean]; simp [P3.cross, P3.ext_iff]
  ratio := le_rfl
  checks := by simp [regParams]
  stepT := by norm_num [regParams]
  stepR := by norm_num [regParams]

theorem reg_close : CloseEnough regPts regMap (1 / 2) exT regGuess where
  nearest := by
    intro x hx y hy
    simp only [regPts, List.mem_cons, List.not_mem_nil, or_false] at hx
    simp only [regMap, List.mem_cons, List.not_mem_nil, or_false] at hy
    rcases hx with rfl | rfl | rfl | rfl <;> rcases hy with rfl | rfl | rfl | rfl | rfl <;>
      norm_num [exT, regGuess, rotXpi, Pose3.composePoint, M3.mulVec, P3.distSq, P3.normSq, P3.dot, P3.ext_iff]
  within := by
    simp [regPts, exT, regGuess, rotXpi, Pose3.composePoint, M3.mulVec, P3.distSq, P3.normSq, P3.dot]
    norm_num

/-- The registration of the four points from the guess finds `exT`. -/
example : ∃ r, align diffOps (simpleIcp (regCfg false) (hornAsSolver realHorn (fun _ => false) 0 exParams) 1 "pts"
    (bruteLayer regMap) 5 true regPts) regParams regGuess 1 false = .ok r ∧ r.pose = exT ∧ r.reason = .stalled := by
  obtain ⟨r, h1, h2, -, -, -, -, h7⟩ := exact_registration (fun _ => false) 0 "pts" true (reg_setting false) reg_close false
    (by simp [LogThere, regParams]) (by simp [regParams])
  exact ⟨r, h1, h2, h7 (by simp [regParams])⟩

/-- With only the first two points the identity is returned, even from the true pose. -/
example : ∃ r, align diffOps (simpleIcp (regCfg false) (hornAsSolver realHorn (fun _ => false) 0 exParams) 1 "pts"
    (bruteLayer regMap) 5 true (regPts.take 2)) regParams exT 1 false = .ok r ∧ r.pose = Pose3.identity ∧ r.quality = 1 := by
  have hs := reg_setting false
  obtain ⟨r, h1, h2, -, h4, -⟩ := few_points_lost (ops := diffOps) (e := realHorn) (mr := 1) (p := regParams) (T := exT) (T0 := exT)
    (fun _ => false) 0 "pts" true hs.solver hs.serves (pts := regPts.take 2)
    ⟨rfl, hs.matcher.thr, hs.matcher.angDeg, hs.matcher.angSq, hs.matcher.eps, Or.inl rfl, rfl⟩ (by simp [regPts])
    (by simp [regPts]) (hs.distinct.sublist (List.take_sublist _ _)) hs.rot
    (fun x hx => hs.there x (List.mem_of_mem_take hx)) le_rfl (Lemmas.close_self hs.matcher.thr exT) false (by simp [regParams])
  exact ⟨r, h1, h2, h4⟩

/-- … where the points do not fit, although they did at the start. -/
example : ∃ r, align diffOps (simpleIcp (regCfg false) (hornAsSolver realHorn (fun _ => false) 0 exParams) 1 "pts"
    (bruteLayer regMap) 5 true (regPts.take 2)) regParams exT 1 false = .ok r ∧
    misfit (1 / 2) regMap (regPts.take 2) exT = 0 ∧ 0 < misfit (1 / 2) regMap (regPts.take 2) r.pose := by
  have hs := reg_setting false
  exact fit_lost_few_points (ops := diffOps) (e := realHorn) (mr := 1) (p := regParams) (T := exT)
    (fun _ => false) 0 "pts" true hs.solver hs.serves (pts := regPts.take 2)
    ⟨rfl, hs.matcher.thr, hs.matcher.angDeg, hs.matcher.angSq, hs.matcher.eps, Or.inl rfl, rfl⟩
    (by simp [regPts]) (hs.distinct.sublist (List.take_sublist _ _)) hs.rot
    (fun x hx => hs.there x (List.mem_of_mem_take hx)) le_rfl false (by simp [regParams])
    ⟨⟨1, 0, 0⟩, by simp [regPts], by simp [regMap, P3.ext_iff]⟩

/-- The hypotheses of the theorem on the fit hold in that registration, which has at least one iteration. -/
example : ∃ r, align diffOps (simpleIcp (regCfg true) (hornAsSolver realHorn (fun _ => false) 0 exParams) 1 "pts"
    (bruteLayer regMap) 5 true regPts) regParams regGuess 1 false = .ok r ∧ r.reason ≠ .solverError ∧
    (∀ ev ∈ r.trace, AwayFromCentroids realHorn.norm realHorn.eps ev.pairings.pt2pt) ∧
    FitSetting diffOps realHorn exParams (regCfg true) (bruteLayer regMap) regMap regPts ∧ IsRotation regGuess.R ∧
    misfit (1 / 2) regMap regPts r.pose ≤ misfit (1 / 2) regMap regPts regGuess := by
  have hs := reg_setting true
  obtain ⟨r, h1, h2, -, -, h5, -, h7, h8⟩ := Lemmas.align_close (nearOne := fun _ => false) (ratio := 0) (name := "pts")
    (dense := true) hs reg_close false (by simp [LogThere, regParams]) (by simp [regParams])
  have hr : r.reason ≠ .solverError := by rw [h7 (by simp [regParams])]; simp
  have hfs : FitSetting diffOps realHorn exParams (regCfg true) (bruteLayer regMap) regMap regPts :=
    ⟨diffOps_ok.nonneg, hs.eig, hs.norm, hs.epsPos.le, hs.solver, hs.serves, hs.matcher, rfl⟩
  have hrot : IsRotation regGuess.R := hs.rot
  have haw : ∀ ev ∈ r.trace, AwayFromCentroids realHorn.norm realHorn.eps ev.pairings.pt2pt := by
    intro ev hev q hq
    have hm := h8 ev hev
    obtain ⟨hl, hg⟩ := Lemmas.matched_locals hm
    rw [hl, hg, regPts_mean]
    have hgm : mean (regPts.map exT.composePoint) = ⟨1, 2, 3⟩ := by
      ext <;> simp [mean, regPts, exT, rotXpi, Pose3.composePoint, M3.mulVec] <;> norm_num
    rw [hgm]
    have h9 : (q.localIdx, q.local, q.global) ∈ ev.pairings.pt2pt.map (fun q => (q.localIdx, q.local, q.global)) :=
      List.mem_map.mpr ⟨q, hq, rfl⟩
    rw [hm.pairs] at h9
    obtain ⟨x, hx, hxe⟩ := List.mem_map.mp h9
    simp only [Prod.mk.injEq] at hxe
    obtain ⟨-, hx1, hx2⟩ := hxe
    have hx3 : x.1 ∈ regPts := List.fst_mem_of_mem_zipIdx hx
    rw [← hx1, ← hx2]
    have : ∀ y ∈ regPts, ¬ realHorn.norm (exT.composePoint y - ⟨1, 2, 3⟩) < realHorn.eps ∧
        ¬ realHorn.norm (y - ⟨0, 0, 0⟩) < realHorn.eps := by
      intro y hy
      refine ⟨realNorm_ge ?_, realNorm_ge ?_⟩ <;> revert y <;>
        simp [regPts, exT, rotXpi, Pose3.composePoint, M3.mulVec, P3.normSq, P3.dot]
    exact this _ hx3
  exact ⟨r, h1, hr, haw, hfs, hrot, (fit_never_worse_partial hfs hrot h1 rfl hr).2 haw⟩

end Verif.Props
