import Verif.Spec.NearReg
import Verif.Lemmas.EndToEnd
import Verif.Props.Converge
import Verif.Lemmas.Icp
/-
Lemmas for C117.
-/
namespace Verif.Lemmas.Near
open Verif Verif.Gn Verif.Spec Verif.Spec.GN Verif.Lemmas Verif.Lemmas.Conv Verif.Props

/-! ### what of the pairings matters to Gauss-Newton -/

/-- A point pair without its indices and its error. -/
def bareP (q : PtPair ℝ) : PtPair ℝ := ⟨0, 0, q.global, q.local, 0⟩
/-- Pairings whose point pairs have no indices and errors. -/
def bare (inp : Pairings ℝ) : Pairings ℝ := { inp with pt2pt := inp.pt2pt.map bareP, potential := 0 }

theorem ptBody_bare (E : Env ℝ) (P : Params ℝ) (hw : Bool) (T : Pose3 ℝ) (ps : List (PtPair ℝ)) :
    ∀ (is : List Nat) (s : Gn.Acc ℝ × Cursor ℝ), ptBody E P hw T (ps.map bareP) s is = ptBody E P hw T ps s is
  | [], s => rfl
  | i :: is, s => by
    unfold ptBody
    rw [List.getElem?_map]
    cases ps[i]? with
    | none => rfl
    | some q =>
      show (ptStep E P hw T s i q).bind _ = (ptStep E P hw T s i q).bind _
      congr 1
      funext s'
      exact ptBody_bare E P hw T ps is s'

theorem ptReduce_bare (E : Env ℝ) (P : Params ℝ) (hw : Bool) (T : Pose3 ℝ) (ps : List (PtPair ℝ)) :
    ∀ (t : RTree) (err : ℝ) (c : Cursor ℝ), ptReduce E P hw T (ps.map bareP) t err c = ptReduce E P hw T ps t err c
  | .idle, _, _ => rfl
  | .chunk t lo hi, err, c => by
    unfold ptReduce
    rw [ptReduce_bare E P hw T ps t]
    simp only [ptBody_bare]
  | .join r a b, err, c => by
    unfold ptReduce
    simp only [ptReduce_bare E P hw T ps a, ptReduce_bare E P hw T ps b]

theorem ptLoop_bare (E : Env ℝ) (P : Params ℝ) (hw : Bool) (T : Pose3 ℝ) :
    ∀ (ps : List (PtPair ℝ)) (i : Nat) (s : Gn.Acc ℝ × Cursor ℝ), ptLoop E P hw T s i (ps.map bareP) = ptLoop E P hw T s i ps
  | [], _, _ => rfl
  | q :: ps, i, s => by
    show (ptStep E P hw T s i q).bind _ = (ptStep E P hw T s i q).bind _
    congr 1
    funext s'
    exact ptLoop_bare E P hw T ps (i + 1) s'

theorem assemble_bare (b : Build) (E : Env ℝ) (P : Params ℝ) (inp : Pairings ℝ) (k : Nat) (T : Pose3 ℝ) (sys : Sys ℝ) (c : Cursor ℝ) :
    assemble b E P (bare inp) k T sys c = assemble b E P inp k T sys c := by
  cases b with
  | serial =>
    show (ptLoop E P _ T _ 0 (inp.pt2pt.map bareP)).bind _ = (ptLoop E P _ T _ 0 inp.pt2pt).bind _
    rw [ptLoop_bare]
    rfl
  | tbb sched =>
    show (ptReduce E P _ T (inp.pt2pt.map bareP) _ _ _).bind _ = (ptReduce E P _ T inp.pt2pt _ _ _).bind _
    rw [ptReduce_bare]
    rfl

theorem loop_bare (b : Build) (E : Env ℝ) (P : Params ℝ) (inp : Pairings ℝ) :
    ∀ (n k : Nat) (T : Pose3 ℝ) (sys : Sys ℝ) (c : Cursor ℝ) (tr : List (Pose3 ℝ × Sys ℝ)),
      loop b E P (bare inp) n k T sys c tr = loop b E P inp n k T sys c tr
  | 0, _, _, _, _, _ => rfl
  | n + 1, k, T, sys, c, tr => by
    unfold loop
    rw [assemble_bare]
    simp only [loop_bare b E P inp n]

theorem run_bare (b : Build) (E : Env ℝ) (P : Params ℝ) (inp : Pairings ℝ) : run b E P (bare inp) = run b E P inp := by
  unfold run
  cases P.linearizationPoint with
  | none => rfl
  | some T0 => exact loop_bare b E P inp _ _ _ _ _ _

/-- The pairings of all the points with their true places. -/
def truePairs (pts : List (P3 ℝ)) (T : Pose3 ℝ) : Pairings ℝ := { pt2pt := pts.map fun x => ⟨0, 0, T.composePoint x, x, 0⟩ }

theorem bare_paired {pts : List (P3 ℝ)} {T : Pose3 ℝ} {prs : Pairings ℝ} (h : PairedWith pts T prs) : bare prs = truePairs pts T := by
  have h1 : prs.pt2pt.map bareP = pts.map fun x => (⟨0, 0, T.composePoint x, x, 0⟩ : PtPair ℝ) := by
    have h2 := congrArg (List.map fun x : P3 ℝ × P3 ℝ => (⟨0, 0, x.2, x.1, 0⟩ : PtPair ℝ)) h.pairs
    rw [List.map_map, List.map_map] at h2
    exact h2
  obtain ⟨n, hn⟩ := h.rest
  unfold bare
  rw [h1, hn]
  rfl

theorem truePairs_aligned {pts : List (P3 ℝ)} {T : Pose3 ℝ} (hR : IsRotation T.R) (hl : NotOnALine pts) :
    ExactlyAligned (truePairs pts T) T ∧ Holds (truePairs pts T) T.R := by
  constructor
  · refine ⟨?_, ?_, ?_, ?_, rfl⟩ <;> simp [truePairs]
  · refine points_hold hR ?_
    have : (truePairs pts T).pt2pt.map (·.local) = pts := by
      simp [truePairs, List.map_map, Function.comp_def]
    rw [this]; exact hl

/-! ### near enough is close enough -/

theorem near_place (x : P3 ℝ) (y : P3 ℝ) : Continuous fun v : Fin 12 → ℝ => P3.distSq ((vecPose v).composePoint x) y := by
  simp only [P3.distSq, P3.normSq, P3.dot, Pose3.composePoint, M3.mulVec, vecPose, P3.sub_x, P3.sub_y, P3.sub_z, P3.add_x, P3.add_y, P3.add_z]
  fun_prop

theorem eventually_list {α β : Type} {l : List α} {F : Filter β} {p : α → β → Prop} (h : ∀ a ∈ l, ∀ᶠ v in F, p a v) :
    ∀ᶠ v in F, ∀ a ∈ l, p a v := by
  induction l with
  | nil => simp
  | cons a l ih =>
    simp only [List.mem_cons, forall_eq_or_imp]
    exact (h a (List.mem_cons_self ..)).and (ih fun b hb => h b (List.mem_cons_of_mem _ hb))

/-- Every pose near `T` is close enough to it for the matcher. -/
theorem close_near (pts gpts : List (P3 ℝ)) {thr : ℝ} (ht : 0 < thr) (T : Pose3 ℝ) :
    ∃ ρ > 0, ∀ G, gap G T ≤ ρ → CloseEnough pts gpts thr T G := by
  have hself := close_self (pts := pts) (gpts := gpts) ht T
  have e1 : ∀ᶠ v in nhds (poseVec T), ∀ p ∈ pts, ∀ y ∈ gpts, y ≠ T.composePoint p →
      P3.distSq ((vecPose v).composePoint p) (T.composePoint p) < P3.distSq ((vecPose v).composePoint p) y := by
    refine eventually_list fun p hp => eventually_list fun y hy => ?_
    by_cases hne : y = T.composePoint p
    · exact Filter.Eventually.of_forall fun v h => absurd hne h
    · have h0 := hself.nearest p hp y hy hne
      have := (near_place p (T.composePoint p)).continuousAt.eventually_lt (near_place p y).continuousAt (x₀ := poseVec T)
        (by simpa only [vecPose_poseVec] using h0)
      exact this.mono fun v h _ => h
  have e2 : ∀ᶠ v in nhds (poseVec T), ∀ p ∈ pts, P3.distSq ((vecPose v).composePoint p) (T.composePoint p) < thr * thr := by
    refine eventually_list fun p hp => ?_
    exact (near_place p (T.composePoint p)).continuousAt.eventually_lt continuousAt_const
      (by simpa only [vecPose_poseVec] using hself.within p hp)
  obtain ⟨ε, hε, h⟩ := Metric.eventually_nhds_iff.mp (e1.and e2)
  refine ⟨ε / 2, by positivity, fun G hG => ?_⟩
  have hd : dist (poseVec G) (poseVec T) < ε := by
    rw [dist_eq_norm]
    have : gap G T = ‖poseVec G - poseVec T‖ := rfl
    linarith
  obtain ⟨a, b⟩ := h hd
  simp only [vecPose_poseVec] at a b
  exact ⟨a, b⟩

/-! ### one iteration and all of them -/

/-- What is needed of a pipeline to home in on `T`: from rigid poses within `ρ`, the matchers find good pairings, from which the solver squares the distance to `T`. -/
structure NearRun {MS : Type} (ops : PoseOps ℝ (Pose3 ℝ)) (env : IcpEnv ℝ (Pose3 ℝ) MS) (p : IcpParams ℝ) (T : Pose3 ℝ) (C ρ qv : ℝ) (Good : Pairings ℝ → Prop) : Prop where
  hook : env.hook = none
  ge : env.globalEmpty = false
  le : env.localEmpty = false
  ms : env.matchers ≠ []
  ss : env.solvers ≠ []
  qs : env.quality ≠ []
  found : ∀ prs, Good prs → prs.isEmpty = false
  step : ∀ G : Pose3 ℝ, IsRotation G.R → gap G T ≤ ρ → ∀ it, ∃ ms prs, runMatchers env.matchers it G env.freshMS = .ok (ms, prs) ∧ Good prs ∧
    ∀ out sc fin, sc.guess = some G → ∃ T', runSolvers ops.tnorm env.solvers prs out sc fin = .ok (true, ⟨T', 1⟩, fin) ∧ IsRotation T'.R ∧ gap T' T ≤ C * gap G T ^ 2
  qual : ∀ prs, Good prs → ∀ it fin pose, evaluateQuality env.quality it fin pose prs = .ok qv
  checks : ∀ k ∈ p.qualityCheckpoints, k.2 ≤ qv

/-- What an iteration did: good pairings, and the distance to the true motion squared. -/
def GoodEvent (Good : Pairings ℝ → Prop) (T : Pose3 ℝ) (C : ℝ) (ev : IterEvent ℝ (Pose3 ℝ)) : Prop :=
  Good ev.pairings ∧ ∃ s : Sol ℝ (Pose3 ℝ), ev.solver = some (true, s) ∧ IsRotation s.pose.R ∧ gap s.pose T ≤ C * gap ev.poseIn T ^ 2

theorem body_near {MS : Type} {ops : PoseOps ℝ (Pose3 ℝ)} {env : IcpEnv ℝ (Pose3 ℝ) MS} {T : Pose3 ℝ} {p : IcpParams ℝ} {C ρ qv : ℝ} {Good : Pairings ℝ → Prop}
    (hs : NearRun ops env p T C ρ qv Good) (init : Pose3 ℝ) (s : LoopState ℝ (Pose3 ℝ)) (hr : IsRotation s.sol.pose.R) (hg : gap s.sol.pose T ≤ ρ)
    (hlog : p.saveIterationDetails = true → s.log.isSome = true) :
    ∃ s' brk T', icpBody ops env p init s = .ok (s', brk) ∧
      IsRotation T'.R ∧ gap T' T ≤ C * gap s.sol.pose T ^ 2 ∧ s'.n = s.n ∧ s'.sol = ⟨T', 1⟩ ∧ Good s'.pairings ∧
      s'.log.isSome = s.log.isSome ∧ (∃ ev, s'.trace = s.trace ++ [ev] ∧ GoodEvent Good T C ev ∧ ev.poseIn = s.sol.pose ∧ ev.solver = some (true, s'.sol)) ∧
      ((isStalled p (stepNorms ops T' s.prev s.prev2) = true ∧ brk = some .stalled) ∨
       (isStalled p (stepNorms ops T' s.prev s.prev2) = false ∧ brk = none ∧ s'.prev = T')) := by
  obtain ⟨ms, prs, hm1, hm2, hsv⟩ := hs.step _ hr hg s.n
  obtain ⟨T', hsolve, hT', hgap⟩ := hsv s.sol
    { iter := some s.n, guess := some s.sol.pose, fromInitial := some (ops.sub s.sol.pose init), lastStep := s.lastCorr } s.fin rfl
  have hemp := hs.found prs hm2
  have hck : checkpointFails env p s.n T' prs = .ok false := by
    unfold checkpointFails
    cases hl : p.qualityCheckpoints.lookup s.n with
    | none => rfl
    | some q =>
      have hmem : (s.n, q) ∈ p.qualityCheckpoints := by
        have := List.lookup_eq_some_iff.mp hl
        obtain ⟨l1, l2, h1, -⟩ := this
        rw [h1]; simp
      have := hs.checks _ hmem
      simp only [hs.qual prs hm2, Outcome.bind]
      simpa using this
  have hsave : ∃ log, saveDetails p s.n (isStalled p (stepNorms ops T' s.prev s.prev2)) T' prs s.log = .ok log ∧
      log.isSome = s.log.isSome := by
    unfold saveDetails
    split
    · rename_i h
      simp only [Bool.and_eq_true] at h
      have := hlog h.1
      cases hh : s.log with
      | none => rw [hh] at this; simp at this
      | some l => exact ⟨_, rfl, rfl⟩
    · exact ⟨_, rfl, rfl⟩
  obtain ⟨log, hlog1, hlog2⟩ := hsave
  have hook : ∀ n prs sol, hookStops env n prs sol = false := by
    intro n prs sol; unfold hookStops; rw [hs.hook]
  unfold icpBody
  simp only [hm1, Outcome.bind, hemp, Bool.false_eq_true, if_false, hsolve, Bool.not_true, hlog1]
  cases hst : isStalled p (stepNorms ops T' s.prev s.prev2) with
  | true => exact ⟨_, _, T', rfl, hT', hgap, rfl, rfl, hm2, hlog2, ⟨_, rfl, ⟨hm2, _, rfl, hT', hgap⟩, rfl, rfl⟩, Or.inl ⟨hst, rfl⟩⟩
  | false =>
    simp only [Bool.false_eq_true, if_false, hck, hook]
    exact ⟨_, _, T', rfl, hT', hgap, rfl, rfl, hm2, hlog2, ⟨_, rfl, ⟨hm2, _, rfl, hT', hgap⟩, rfl, rfl⟩, Or.inr ⟨hst, rfl, rfl⟩⟩

/-- Facts of the state after some iterations, `k` of them solved. -/
structure NearState (Good : Pairings ℝ → Prop) (T : Pose3 ℝ) (C x : ℝ) (k : Nat) (s : LoopState ℝ (Pose3 ℝ)) : Prop where
  rot : IsRotation s.sol.pose.R
  scale : s.sol.scale = 1
  small : C * gap s.sol.pose T ≤ (1 / 2) ^ 2 ^ k
  near : gap s.sol.pose T ≤ x * (1 / 2) ^ (2 ^ k - 1)
  len : s.trace.length = k
  pairs : 0 < k → Good s.pairings
  events : ∀ ev ∈ s.trace, GoodEvent Good T C ev

/-- Iteration `j` did not look stalled. -/
def Moving (ops : PoseOps ℝ (Pose3 ℝ)) (p : IcpParams ℝ) (T : Pose3 ℝ) (x : ℝ) (j : Nat) : Prop :=
  ∃ (a b : Pose3 ℝ) (q : Option (Pose3 ℝ)), IsRotation a.R ∧ IsRotation b.R ∧ gap a T ≤ x * (1 / 2) ^ (2 ^ j - 1) ∧
    gap b T ≤ x * (1 / 2) ^ (2 ^ j - 1) ∧ isStalled p (stepNorms ops b a q) = false

theorem loop_near {MS : Type} {ops : PoseOps ℝ (Pose3 ℝ)} {env : IcpEnv ℝ (Pose3 ℝ) MS} {T : Pose3 ℝ} {p : IcpParams ℝ} {C ρ qv : ℝ} {Good : Pairings ℝ → Prop}
    (hs : NearRun ops env p T C ρ qv Good) (hC : 0 < C) (init : Pose3 ℝ) {x : ℝ} (hx : 0 ≤ x) (hxρ : x ≤ ρ) :
    ∀ (fuel : Nat) (s : LoopState ℝ (Pose3 ℝ)), NearState Good T C x s.n s → s.prev = s.sol.pose → (∀ j < s.n, Moving ops p T x j) →
      (p.saveIterationDetails = true → s.log.isSome = true) →
      ∃ s', icpLoop ops env p init fuel s = .ok s' ∧ NearState Good T C x s'.trace.length s' ∧
        (∀ j < s'.n, Moving ops p T x j) ∧
        ((s'.n < s.n + fuel ∧ s'.reason = .stalled ∧ s'.trace.length = s'.n + 1) ∨ (s'.n = s.n + fuel ∧ s'.trace.length = s'.n)) := by
  intro fuel
  induction fuel with
  | zero =>
    intro s hns _ hmv _
    exact ⟨s, rfl, by rw [hns.len]; exact hns, hmv, Or.inr ⟨rfl, hns.len⟩⟩
  | succ fuel ih =>
    intro s hns hprev hmv hlog
    have hhalf : ((1 / 2 : ℝ)) ^ (2 ^ s.n - 1) ≤ 1 := pow_le_one₀ (by norm_num) (by norm_num)
    obtain ⟨s1, brk, T', h1, hT', hgap, hn, hsol, hall, hl, ⟨ev, ht, hev, -, -⟩, hbrk⟩ := body_near hs init s hns.rot
      ((hns.near.trans (mul_le_of_le_one_right hx hhalf)).trans hxρ) hlog
    obtain ⟨q1, q2⟩ := squares_chain hC s.n (gap_nonneg _ _) hgap hns.small hns.near hx
    have hpow : (1 / 2 : ℝ) ^ (2 ^ (s.n + 1) - 1) ≤ (1 / 2) ^ (2 ^ s.n - 1) :=
      pow_le_pow_of_le_one (by norm_num) (by norm_num) (by
        have : 2 ^ s.n ≤ 2 ^ (s.n + 1) := Nat.pow_le_pow_right (by norm_num) (by omega)
        omega)
    have hns1 : NearState Good T C x (s.n + 1) s1 := by
      refine ⟨by rw [hsol]; exact hT', by rw [hsol], by rw [hsol]; exact q1, by rw [hsol]; exact q2, by rw [ht]; simp [hns.len], fun _ => hall, ?_⟩
      rw [ht]
      intro e he
      rcases List.mem_append.mp he with he | he
      · exact hns.events e he
      · rw [List.mem_singleton.mp he]; exact hev
    have hlen1 : s1.trace.length = s.n + 1 := hns1.len
    rcases hbrk with ⟨-, hb⟩ | ⟨hst, hb, hp1⟩
    · subst hb
      refine ⟨{ s1 with reason := .stalled }, ?_, ?_, ?_, Or.inl ⟨?_, rfl, ?_⟩⟩
      · simp only [icpLoop, h1, Outcome.bind]
      · show NearState Good T C x s1.trace.length _
        rw [hlen1]
        exact ⟨hns1.rot, hns1.scale, hns1.small, hns1.near, hns1.len, hns1.pairs, hns1.events⟩
      · intro j hj; exact hmv j (by rw [← hn]; exact hj)
      · show s1.n < _; rw [hn]; omega
      · show s1.trace.length = s1.n + 1; rw [hn, hlen1]
    · subst hb
      obtain ⟨s2, e1, e2, e3, e4⟩ := ih { s1 with n := s.n + 1 }
        ⟨hns1.rot, hns1.scale, hns1.small, hns1.near, hns1.len, hns1.pairs, hns1.events⟩ (by show s1.prev = s1.sol.pose; rw [hp1, hsol])
        (by
          intro j hj
          have hj' : j < s.n + 1 := hj
          rcases Nat.lt_or_ge j s.n with h | h
          · exact hmv j h
          · have : j = s.n := by omega
            subst this
            exact ⟨s.prev, T', s.prev2, by rw [hprev]; exact hns.rot, hT', by rw [hprev]; exact hns.near,
              q2.trans (mul_le_mul_of_nonneg_left hpow hx), hst⟩)
        (fun h => by show s1.log.isSome = true; rw [hl]; exact hlog h)
      refine ⟨s2, ?_, e2, e3, ?_⟩
      · simp only [icpLoop, h1, Outcome.bind]
        exact e1
      · rcases e4 with ⟨a, b, d⟩ | ⟨a, b⟩
        · exact Or.inl ⟨by have : s2.n < s.n + 1 + fuel := a; omega, b, d⟩
        · exact Or.inr ⟨by have : s2.n = s.n + 1 + fuel := a; omega, b⟩

/-- The whole run. -/
theorem align_near {MS : Type} {ops : PoseOps ℝ (Pose3 ℝ)} {env : IcpEnv ℝ (Pose3 ℝ) MS} {T T0 : Pose3 ℝ} {p : IcpParams ℝ} {C ρ qv : ℝ} {Good : Pairings ℝ → Prop}
    (hs : NearRun ops env p T C ρ qv Good) (hC : 0 < C) (hr : IsRotation T0.R) (hg : gap T0 T ≤ ρ) (hg2 : C * gap T0 T ≤ 1 / 2)
    (wantsLog : Bool) (hlog : LogThere p wantsLog) (hit : 1 ≤ p.maxIterations) :
    ∃ r, align ops env p T0 1 wantsLog = .ok r ∧ IsRotation r.pose.R ∧ r.scale = 1 ∧ r.quality = qv ∧
      Good r.pairings ∧ (∀ ev ∈ r.trace, GoodEvent Good T C ev) ∧ r.nIterations ≤ r.trace.length ∧ 1 ≤ r.trace.length ∧
      gap r.pose T ≤ gap T0 T * (1 / 2) ^ (2 ^ r.trace.length - 1) ∧ (∀ j < r.nIterations, Moving ops p T (gap T0 T) j) ∧
      ((r.reason = .stalled ∧ r.nIterations < p.maxIterations) ∨ (r.reason = .maxIterations ∧ r.nIterations = p.maxIterations)) := by
  set s0 : LoopState ℝ (Pose3 ℝ) :=
    { n := 0, sol := ⟨T0, 1⟩, pairings := {}, prev := T0, prev2 := none, lastCorr := none,
      fin := [], log := if wantsLog || p.generateDebugFiles then some [] else none,
      reason := .undefined, trace := [] } with hs0
  have hlog0 : p.saveIterationDetails = true → s0.log.isSome = true := by
    intro h
    rcases hlog h with h | h <;> simp [hs0, h]
  obtain ⟨s, h1, h2, h3, h4⟩ := loop_near hs hC T0 (gap_nonneg T0 T) hg p.maxIterations s0
    ⟨hr, rfl, by simpa [hs0] using hg2, by simp [hs0], rfl, fun h => absurd h (by simp [hs0]), by simp [hs0]⟩ rfl (by simp [hs0]) hlog0
  have hz : s0.n = 0 := rfl
  rw [hz, Nat.zero_add] at h4
  have hlen : 1 ≤ s.trace.length := by rcases h4 with ⟨_, _, h⟩ | ⟨_, _⟩ <;> omega
  have hm := h2.pairs hlen
  have hq := hs.qual _ hm s.n true s.sol.pose
  refine ⟨⟨s.n, if s.n ≥ p.maxIterations then .maxIterations else s.reason, s.sol.pose, s.sol.scale, s.pairings, qv, s.log,
    s.trace⟩, ?_, h2.rot, h2.scale, rfl, hm, h2.events, ?_, hlen, h2.near, h3, ?_⟩
  · unfold align
    have e3 : decide (p.maxIterations > 0) = true := by simp; omega
    simp only [Outcome.assert, hs.ms, hs.ss, hs.qs, hs.ge, hs.le, if_true, Outcome.bind_def, Outcome.bind, ne_eq, not_false_eq_true, and_self, ← hs0, h1, hq,
      e3, Bool.or_true, Bool.not_true, Bool.and_false, Bool.false_eq_true, if_false, Outcome.pure_def]
  · rcases h4 with ⟨_, _, h⟩ | ⟨_, _⟩ <;> (show s.n ≤ s.trace.length; omega)
  · rcases h4 with ⟨a, b, _⟩ | ⟨a, _⟩
    · exact Or.inl ⟨by simp only [if_neg (show ¬ s.n ≥ p.maxIterations by omega)]; exact b, a⟩
    · exact Or.inr ⟨by simp only [if_pos (show s.n ≥ p.maxIterations by omega)], a⟩

/-- The maximum of iterations does not matter for that. -/
theorem near_iterations {MS : Type} {ops : PoseOps ℝ (Pose3 ℝ)} {env : IcpEnv ℝ (Pose3 ℝ) MS} {T : Pose3 ℝ} {p : IcpParams ℝ} {C ρ qv : ℝ} {Good : Pairings ℝ → Prop}
    (hs : NearRun ops env p T C ρ qv Good) (M : Nat) : NearRun ops env { p with maxIterations := M } T C ρ qv Good :=
  ⟨hs.hook, hs.ge, hs.le, hs.ms, hs.ss, hs.qs, hs.found, hs.step, hs.qual, hs.checks⟩

/-- All runs from guesses near enough. -/
theorem near_all {MS : Type} {ops : PoseOps ℝ (Pose3 ℝ)} {env : IcpEnv ℝ (Pose3 ℝ) MS} {T : Pose3 ℝ} {p : IcpParams ℝ} {C ρ qv : ℝ} {Good : Pairings ℝ → Prop}
    (hs : NearRun ops env p T C ρ qv Good) (hC : 0 < C) (hρ : 0 < ρ) :
    ∃ ρ' > 0, ∀ (T0 : Pose3 ℝ) (M : Nat) (wantsLog : Bool), IsRotation T0.R → gap T0 T ≤ ρ' → 1 ≤ M → LogThere p wantsLog →
      ∃ r, align ops env { p with maxIterations := M } T0 1 wantsLog = .ok r ∧ IsRotation r.pose.R ∧ r.scale = 1 ∧ r.quality = qv ∧ Good r.pairings ∧
        (∀ ev ∈ r.trace, Good ev.pairings ∧ ∃ s : Sol ℝ (Pose3 ℝ), ev.solver = some (true, s) ∧ gap s.pose T ≤ C * gap ev.poseIn T ^ 2) ∧
        gap r.pose T ≤ gap T0 T * (1 / 2) ^ (2 ^ r.trace.length - 1) ∧ 1 ≤ r.trace.length ∧ r.nIterations ≤ r.trace.length ∧
        ((r.reason = .stalled ∧ r.nIterations < M) ∨ (r.reason = .maxIterations ∧ r.nIterations = M)) := by
  refine ⟨min ρ (1 / (2 * C)), by positivity, fun T0 M wantsLog hr hg hM hlog => ?_⟩
  have hg2 : C * gap T0 T ≤ 1 / 2 := by
    calc C * gap T0 T ≤ C * (1 / (2 * C)) := mul_le_mul_of_nonneg_left (hg.trans (min_le_right _ _)) hC.le
      _ = 1 / 2 := by field_simp
  obtain ⟨r, h1, h2, h3, h4, h5, h6, h7, h8, h9, -, h10⟩ := align_near (near_iterations hs M) hC hr (hg.trans (min_le_left _ _)) hg2 wantsLog hlog hM
  exact ⟨r, h1, h2, h3, h4, h5, fun ev hev => ⟨(h6 ev hev).1, by obtain ⟨s, a, -, b⟩ := (h6 ev hev).2; exact ⟨s, a, b⟩⟩, h9, h8, h7, h10⟩

/-- With steps of small lengths near `T`, they end as stalled, after a number of iterations that is the same for all. -/
theorem near_stalls {MS : Type} {ops : PoseOps ℝ (Pose3 ℝ)} {env : IcpEnv ℝ (Pose3 ℝ) MS} {T : Pose3 ℝ} {p : IcpParams ℝ} {C ρ0 qv : ℝ} {Good : Pairings ℝ → Prop}
    (hs : NearRun ops env p T C ρ0 qv Good) (hC : 0 < C) (hρ0 : 0 < ρ0) (ho : PoseDiffs ops) (stepT : 0 < p.minAbsStepTrans) (stepR : 0 < p.minAbsStepRot)
    (hops : SmoothDiffs ops T) :
    ∃ ρ > 0, ∃ N : Nat, ∀ (T0 : Pose3 ℝ) (M : Nat) (wantsLog : Bool), IsRotation T0.R → gap T0 T ≤ ρ → N < M → LogThere p wantsLog →
      ∃ r, align ops env { p with maxIterations := M } T0 1 wantsLog = .ok r ∧ r.reason = .stalled ∧ r.nIterations ≤ N ∧ gap r.pose T ≤ gap T0 T ∧
        r.quality = qv ∧ Good r.pairings := by
  obtain ⟨δ, hδ, hsm⟩ := hops (min p.minAbsStepTrans p.minAbsStepRot) (lt_min stepT stepR)
  set ρ := min ρ0 (1 / (2 * C)) with hρ
  have hρp : 0 < ρ := by positivity
  obtain ⟨N, hN⟩ := exists_pow_lt_of_lt_one (show 0 < δ / ρ by positivity) (show (1 / 2 : ℝ) < 1 by norm_num)
  refine ⟨ρ, hρp, N, fun T0 M wantsLog hr hg hM hlog => ?_⟩
  have hg2 : C * gap T0 T ≤ 1 / 2 := by
    calc C * gap T0 T ≤ C * (1 / (2 * C)) := mul_le_mul_of_nonneg_left (hg.trans (min_le_right _ _)) hC.le
      _ = 1 / 2 := by field_simp
  obtain ⟨r, h1, h2, h3, h4, h5, h6, h7, h8, h9, hmv, h10⟩ := align_near (near_iterations hs M) hC hr (hg.trans (min_le_left _ _)) hg2 wantsLog hlog
    (show 1 ≤ M by omega)
  have hstill : ∀ j, N ≤ j → ¬ Moving ops { p with maxIterations := M } T (gap T0 T) j := by
    rintro j hj ⟨a, b, q, ha, hb, hga, hgb, hst⟩
    have hpow : gap T0 T * (1 / 2) ^ (2 ^ j - 1) ≤ δ := by
      have h3 : N ≤ 2 ^ j - 1 := by have := Nat.lt_two_pow_self (n := j); omega
      calc gap T0 T * (1 / 2) ^ (2 ^ j - 1) ≤ ρ * (1 / 2) ^ N :=
            mul_le_mul hg (pow_le_pow_of_le_one (by norm_num) (by norm_num) h3) (by positivity) hρp.le
        _ ≤ ρ * (δ / ρ) := mul_le_mul_of_nonneg_left hN.le hρp.le
        _ = δ := by field_simp
    obtain ⟨s1, s2⟩ := hsm b a hb ha (hgb.trans hpow) (hga.trans hpow)
    have n0 := ho.nonneg (ops.sub b a)
    have hst' : isStalled { p with maxIterations := M } (stepNorms ops b a q) = true := by
      have l1 : absK (ops.logNorms (ops.sub b a)).1 < p.minAbsStepTrans := by
        rw [absK_eq, abs_of_nonneg n0.1]; exact s1.trans_le (min_le_left _ _)
      have l2 : absK (ops.logNorms (ops.sub b a)).2 < p.minAbsStepRot := by
        rw [absK_eq, abs_of_nonneg n0.2]; exact s2.trans_le (min_le_right _ _)
      cases q with
      | none => simp only [isStalled, stepNorms, Bool.and_eq_true]; exact ⟨decide_eq_true l1, decide_eq_true l2⟩
      | some q =>
        have n1 := ho.nonneg (ops.sub b q)
        simp only [isStalled, stepNorms, Bool.and_eq_true]
        exact ⟨decide_eq_true ((keepMin_abs_lt n0.1 n1.1).mpr (Or.inl l1)), decide_eq_true ((keepMin_abs_lt n0.2 n1.2).mpr (Or.inl l2))⟩
    rw [hst'] at hst
    cases hst
  have hle : r.nIterations ≤ N := by
    by_contra h
    push Not at h
    exact hstill N le_rfl (hmv N h)
  refine ⟨r, h1, ?_, hle, h9.trans (mul_le_of_le_one_right (gap_nonneg _ _) (pow_le_one₀ (by norm_num) (by norm_num))), h4, h5⟩
  rcases h10 with ⟨a, -⟩ | ⟨-, b⟩
  · exact a
  · have hb : r.nIterations = M := b
    omega

/-- The pipeline of C117 meets that. -/
theorem simple_near {ops : PoseOps ℝ (Pose3 ℝ)} {sv : Solver ℝ (Pose3 ℝ)} {c : DTCfg ℝ} {mr : ℝ} {name : String} {g : GLayer ℝ} {gpts pts : List (P3 ℝ)}
    {dense : Bool} {T : Pose3 ℝ} {p : IcpParams ℝ} (hs : RegSetting ops c mr g gpts pts T p) {C ρ : ℝ} (hsv : SquaresNear sv ops.tnorm pts T C ρ)
    (hclose : ∀ G, gap G T ≤ ρ → CloseEnough pts gpts c.thr T G) :
    NearRun ops (simpleIcp c sv mr name g gpts.length dense pts) p T C ρ 1 (AllMatched pts T) where
  hook := rfl
  ge := rfl
  le := rfl
  ms := by simp [simpleIcp]
  ss := by simp [simpleIcp]
  qs := by simp [simpleIcp]
  found prs hm := by
    have h1 := matched_length hm
    have := List.length_pos_iff.mpr hs.nonempty
    cases hp : prs.pt2pt with
    | nil => rw [hp] at h1; simp at h1; omega
    | cons a l => simp [Pairings.isEmpty, hp]
  step G hr hg it := by
    obtain ⟨ms, prs, hm1, hm2⟩ := match_close (s := sv) (mr := mr) (name := name) (dense := dense)
      hs.serves hs.matcher hs.nonempty hs.distinct hs.rot hs.there (hclose _ hg) it
    exact ⟨ms, prs, hm1, hm2, fun out sc fin hsc => hsv G hr hg prs (matched_paired hm2) out sc fin hsc⟩
  qual prs hm it fin pose := full_quality (List.length_pos_iff.mpr hs.nonempty) hs.ratio hm it fin pose
  checks := hs.checks

end Verif.Lemmas.Near
