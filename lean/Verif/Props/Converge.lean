import Verif.Lemmas.ConvergeStep
import Verif.Props.DownhillCases
/-
C116: Gauss-Newton converges quadratically from guesses close to an exact alignment.
-/
namespace Verif.Props
open Verif.Gn Verif.Spec Verif.Spec.GN Verif.Lemmas Verif.Lemmas.GnS Verif.Lemmas.Conv

/-- The same problem and weights, with a guess, limits and a number of iterations. -/
def started (P : Params ℝ) (G : Pose3 ℝ) (n : Nat) (minDelta maxCost : ℝ) : Params ℝ :=
  { P with linearizationPoint := some G, maxInner := n, minDelta := minDelta, maxCost := maxCost }

theorem gap_nonneg (T U : Pose3 ℝ) : 0 ≤ gap T U := norm_nonneg _

theorem gap_zero {T U : Pose3 ℝ} (h : gap T U = 0) : T = U := by
  have h1 : poseVec T - poseVec U = 0 := norm_eq_zero.mp h
  have h2 := congrArg vecPose (sub_eq_zero.mp h1)
  rwa [vecPose_poseVec, vecPose_poseVec] at h2

theorem squares_chain {C a b x : ℝ} (hC : 0 < C) (k : Nat) (ha : 0 ≤ a) (hb : b ≤ C * a ^ 2) (h1 : C * a ≤ (1 / 2) ^ 2 ^ k)
    (hx : a ≤ x * (1 / 2) ^ (2 ^ k - 1)) (hx0 : 0 ≤ x) : C * b ≤ (1 / 2) ^ 2 ^ (k + 1) ∧ b ≤ x * (1 / 2) ^ (2 ^ (k + 1) - 1) := by
  have hp : (0 : ℝ) ≤ (1 / 2) ^ 2 ^ k := by positivity
  have e : (2 : Nat) ^ (k + 1) = 2 ^ k + 2 ^ k := by ring
  have hk : 1 ≤ 2 ^ k := Nat.one_le_two_pow
  constructor
  · calc C * b ≤ C * (C * a ^ 2) := mul_le_mul_of_nonneg_left hb hC.le
      _ = (C * a) * (C * a) := by ring
      _ ≤ (1 / 2) ^ 2 ^ k * (1 / 2) ^ 2 ^ k := mul_le_mul h1 h1 (by positivity) hp
      _ = _ := by rw [e, pow_add]
  · calc b ≤ (C * a) * a := by rw [mul_assoc, ← sq]; exact hb
      _ ≤ (1 / 2) ^ 2 ^ k * (x * (1 / 2) ^ (2 ^ k - 1)) := mul_le_mul h1 hx ha hp
      _ = x * (1 / 2) ^ (2 ^ (k + 1) - 1) := by
        rw [e, show 2 ^ k + 2 ^ k - 1 = 2 ^ k + (2 ^ k - 1) by omega, pow_add]
        ring

/-- C116 (partial): some pose aligns the pairings exactly, and they hold the body.  Then there is a distance within which every rigid guess is good enough:
in the build with TBB, with every split of the sums, each step at least squares the distance to the true pose, up to a constant factor `C`; after `k` steps
the distance of the guess was divided by `2 ^ (2 ^ k - 1)` or more; and with the default limit of the cost, zero, and none for the steps, the result of
`n` steps has that accuracy (and with any limit for the steps, one step or more at least square the distance), whatever the rotation of the guess, for the three kernels.  Missing: the build without TBB (see `gn_serial_laguerre`: it is
not so); pairs of lines, a prior, tables of weights; pairings not exactly aligned; how far the guess may be; floating-point numbers. -/
theorem gn_quadratic_partial {E : Env ℝ} (hE : GoodEnv E) (hE2 : SecondOrderExp E) {P : Params ℝ} {inp : Pairings ℝ} {T : Pose3 ℝ} (hT : IsRotation T.R)
    (ha : ExactlyAligned inp T) (hh : Holds inp T.R) (hw : PositiveWeights P inp) (hprior : P.prior = none) (hpw : inp.pointWeights = []) :
    ∃ C > 0, ∃ ρ > 0, ∀ (G : Pose3 ℝ) (n : Nat) (minDelta maxCost : ℝ) (sched : Nat → RTree × RTree), ValidSchedule inp sched →
      IsRotation G.R → gap G T ≤ ρ →
      ∃ r, run (.tbb sched) E (started P G n minDelta maxCost) inp = .ok r ∧ IsRotation r.pose.R ∧
        (∀ k q q', r.trace[k]? = some q → r.trace[k + 1]? = some q' → gap q'.1 T ≤ C * gap q.1 T ^ 2) ∧
        (∀ k q, r.trace[k]? = some q → IsRotation q.1.R ∧ gap q.1 T ≤ gap G T * (1 / 2) ^ (2 ^ k - 1)) ∧
        (maxCost = 0 → gap r.pose T ≤ gap G T * (1 / 2) ^ (2 ^ r.trace.length - 1)) ∧
        (maxCost = 0 → minDelta ≤ 0 → gap r.pose T ≤ gap G T * (1 / 2) ^ (2 ^ n - 1)) ∧
        (maxCost = 0 → 1 ≤ n → gap r.pose T ≤ C * gap G T ^ 2) := by
  have hu : firstWeights P inp = uniform inp P.pairWeights.pt2pt := by simp [firstWeights, hpw]
  have hlen : inp.pt2pt.length ≤ (uniform inp P.pairWeights.pt2pt).length := by simp [uniform]
  have hwp := hw.points
  rw [hu] at hwp
  obtain ⟨C, hC, ρ, hρ, hstep⟩ := near_step hE.deriv hE2 hT ha hh hprior hlen hwp hw.lines hw.planes hw.normals hw.kernel
  refine ⟨C, hC, min ρ (1 / (2 * C)), by positivity, ?_⟩
  intro G n minDelta maxCost sched hs hG hgap
  have hg1 : gap G T ≤ ρ := hgap.trans (min_le_left _ _)
  have hg2 : C * gap G T ≤ 1 / 2 := by
    calc C * gap G T ≤ C * (1 / (2 * C)) := mul_le_mul_of_nonneg_left (hgap.trans (min_le_right _ _)) hC.le
      _ = 1 / 2 := by field_simp
  set P' := started P G n minDelta maxCost with hP'
  have hwk : PositiveWeights P' inp := ⟨hw.points, hw.lines, hw.planes, hw.normals, hw.kernel⟩
  have hsys : ∀ U, system E P' inp (uniform inp P'.pairWeights.pt2pt) U = system E P inp (uniform inp P.pairWeights.pt2pt) U := fun U => rfl
  have hnn : NonnegWeights P (uniform inp P.pairWeights.pt2pt) := ⟨fun w h => (hwp w h).le, hw.lines.le, hw.planes.le, hw.normals.le⟩
  obtain ⟨r, hr⟩ : ∃ r, run (.tbb sched) E P' inp = .ok r := by
    unfold run
    exact Lemmas.Gn.loop_total _ E P' inp _ (fun k U sys => ⟨_, Lemmas.Gn.assemble_tbb_plain E P' inp hpw sched hs k U sys _⟩) _ _ _ _ _
  have hfresh := gn_tbb_fresh_partial E P' inp hpw sched hs r hr
  obtain ⟨g1, g2, g3, g4, g5⟩ := gn_steps (.tbb sched) E P' inp G rfl r hr
  obtain ⟨s1, s2⟩ := gn_stops_partial (.tbb sched) E P' inp hpw (fun sc h => by cases h; exact hs) r hr
  -- one step from any pose of the trace
  have hone : ∀ q ∈ r.trace, IsRotation q.1.R → gap q.1 T ≤ ρ →
      IsRotation (q.1.compose (E.exp (-(E.solve q.2.1 q.2.2)))).R ∧ gap (q.1.compose (E.exp (-(E.solve q.2.1 q.2.2)))) T ≤ C * gap q.1 T ^ 2 := by
    intro q hq hR hqρ
    refine ⟨rot_mul hR (hE2.rigid _), hstep q.1 _ hR hqρ ?_⟩
    have hf := hfresh q hq
    rw [hsys] at hf
    have hso := hE.solve _ _ (gn_solvable_partial (E := E) hnn ha.noLines hprior q.1)
    rw [hf, Matrix.mulVec_neg, hso]
  have hhalf : ∀ k : Nat, ((1 / 2 : ℝ)) ^ k ≤ 1 := fun k => pow_le_one₀ (by norm_num) (by norm_num)
  have hall : ∀ k q, r.trace[k]? = some q → IsRotation q.1.R ∧ gap q.1 T ≤ gap G T * (1 / 2) ^ (2 ^ k - 1) ∧ C * gap q.1 T ≤ (1 / 2) ^ 2 ^ k ∧
      gap q.1 T ≤ ρ := by
    intro k
    induction k with
    | zero =>
      intro q hq
      have e := g3 q hq
      rw [e]
      exact ⟨hG, by simp, by simpa using hg2, hg1⟩
    | succ k ih =>
      intro q hq
      obtain ⟨q0, hq0⟩ : ∃ q0, r.trace[k]? = some q0 :=
        ⟨r.trace[k]'(by have := (List.getElem?_eq_some_iff.mp hq).1; omega), by simp⟩
      obtain ⟨i1, i2, i3, i4⟩ := ih q0 hq0
      obtain ⟨o1, o2⟩ := hone q0 (List.mem_of_getElem? hq0) i1 i4
      have e := (g4 k q0 q hq0 hq).1
      rw [← e] at o1 o2
      obtain ⟨c1, c2⟩ := squares_chain hC k (gap_nonneg _ _) o2 i3 i2 (gap_nonneg _ _)
      refine ⟨o1, c2, c1, c2.trans (le_trans ?_ hg1)⟩
      exact mul_le_of_le_one_right (gap_nonneg _ _) (hhalf _)
  have hlast : ∀ q, r.trace.getLast? = some q → r.trace[r.trace.length - 1]? = some q := fun q hq => by rw [← List.getLast?_eq_getElem?]; exact hq
  -- a pose at which the loop stops without a step is the true one
  have hstop : ∀ q, r.trace.getLast? = some q → maxCost = 0 → E.sqrt (plainCost true E P' inp q.1) ≤ P'.maxCost → gap q.1 T = 0 := by
    intro q hq hm hcst
    have hmc : P'.maxCost = 0 := hm
    have hb : Sound inp (.tbb sched) := .tbb hpw hs
    obtain ⟨hp, hz⟩ := no_cost (b := .tbb sched) (E := E) (P := P') hb hwk ha.noLines (T := q.1)
    have hfc : firstCost (.tbb sched) E P' inp q.1 = plainCost true E P' inp q.1 := by simp [firstCost, plainCost, firstWeights, hpw, isParallel]
    rw [hfc] at hp hz
    obtain ⟨n1, n2⟩ := hE.sqrt _ hp
    rw [hmc] at hcst
    have h0 : plainCost true E P' inp q.1 = 0 := by rw [← n2, le_antisymm hcst n1]; simp
    obtain ⟨e1, e2, e3, e4⟩ := hz h0
    have hS0 := shift_system (E := E) (P := P) (ws := uniform inp P.pairWeights.pt2pt) hprior ha.noLines 0 (T := q.1) (fun q hq => by rw [e1 q hq]; simp)
      (fun q hq => by rw [e2 q hq]; simp) (fun q hq => by rw [e3 q hq]; simp) (fun q hq => by rw [e4 q hq]; simp)
    obtain ⟨i1, i2, i3, i4⟩ := hall _ q (hlast q hq)
    have h := hstep q.1 0 i1 i4 (eq_neg_of_add_eq_zero_left hS0)
    have hid : q.1.compose (E.exp 0) = q.1 := by
      have := hE.shift 0
      have z : (![(0 : P3 ℝ).x, (0 : P3 ℝ).y, (0 : P3 ℝ).z, 0, 0, 0] : Fin 6 → ℝ) = 0 := by funext i; fin_cases i <;> rfl
      rw [z] at this
      rw [this]
      rcases q.1 with ⟨R, t⟩
      simp only [Pose3.compose]
      congr 1
      · ext <;> simp [M3.mul, M3.one]
      · ext <;> simp [M3.mulVec]
    rw [hid] at h
    have hh2 : C * gap q.1 T ≤ 1 / 2 := i3.trans (by
      calc ((1 : ℝ) / 2) ^ 2 ^ (r.trace.length - 1) ≤ (1 / 2) ^ 1 := pow_le_pow_of_le_one (by norm_num) (by norm_num) Nat.one_le_two_pow
        _ = 1 / 2 := by norm_num)
    have hn := gap_nonneg q.1 T
    nlinarith
  have hpos : ∀ k : Nat, 0 ≤ gap G T * (1 / 2) ^ k := fun k => mul_nonneg (gap_nonneg _ _) (by positivity)
  have hend : ∀ q, r.trace.getLast? = some q → gap (q.1.compose (E.exp (-(E.solve q.2.1 q.2.2)))) T ≤ gap G T * (1 / 2) ^ (2 ^ r.trace.length - 1) := by
    intro q hq
    obtain ⟨i1, i2, i3, i4⟩ := hall _ q (hlast q hq)
    obtain ⟨o1, o2⟩ := hone q (List.mem_of_getElem? (hlast q hq)) i1 i4
    have hl : r.trace.length - 1 + 1 = r.trace.length := by
      have := (List.getElem?_eq_some_iff.mp (hlast q hq)).1; omega
    obtain ⟨c1, c2⟩ := squares_chain hC _ (gap_nonneg _ _) o2 i3 i2 (gap_nonneg _ _)
    rwa [hl] at c2
  refine ⟨r, hr, ?_, ?_, fun k q hq => ⟨(hall k q hq).1, (hall k q hq).2.1⟩, ?_, ?_, ?_⟩
  · cases htr : r.trace.getLast? with
    | none => rw [g2 (List.getLast?_eq_none_iff.mp htr)]; exact hG
    | some q =>
      obtain ⟨i1, i2, i3, i4⟩ := hall _ q (hlast q htr)
      rcases g5 q htr with e | e
      · rw [e]; exact i1
      · rw [e]; exact rot_mul i1 (hE2.rigid _)
  · intro k q q' hq hq'
    obtain ⟨i1, i2, i3, i4⟩ := hall k q hq
    rw [(g4 k q q' hq hq').1]
    exact (hone q (List.mem_of_getElem? hq) i1 i4).2
  · intro hm
    cases htr : r.trace.getLast? with
    | none =>
      have h0 := List.getLast?_eq_none_iff.mp htr
      rw [g2 h0, h0]
      simp
    | some q =>
      rcases s2 q htr with ⟨c1, c2⟩ | ⟨c1, c2, c3⟩
      · rw [c2, hstop q htr hm c1]; exact hpos _
      · rw [c2]; exact hend q htr
  · intro hm hd
    cases htr : r.trace.getLast? with
    | none =>
      have h0 := List.getLast?_eq_none_iff.mp htr
      have hn0 : n = 0 := g1.mp h0
      rw [g2 h0, hn0]
      simp
    | some q =>
      rcases s2 q htr with ⟨c1, c2⟩ | ⟨c1, c2, c3⟩
      · rw [c2, hstop q htr hm c1]; exact hpos _
      · rcases c3 with c3 | c3
        · exfalso
          have h1 : 0 ≤ sqLen (-(E.solve q.2.1 q.2.2)) := sqLen_nonneg' _
          have h2 := (hE.sqrt _ h1).1
          have h3 : P'.minDelta ≤ 0 := hd
          linarith
        · rw [c2]
          have h4 := hend q htr
          have h5 : P'.maxInner = n := rfl
          rwa [c3, h5] at h4
  · intro hm hn
    cases htr : r.trace.getLast? with
    | none =>
      have h0 := List.getLast?_eq_none_iff.mp htr
      have hn0 : n = 0 := g1.mp h0
      omega
    | some q =>
      rcases s2 q htr with ⟨c1, c2⟩ | ⟨c1, c2, c3⟩
      · rw [c2, hstop q htr hm c1]; positivity
      · obtain ⟨i1, i2, i3, i4⟩ := hall _ q (hlast q htr)
        have o2 := (hone q (List.mem_of_getElem? (hlast q htr)) i1 i4).2
        have i5 : gap q.1 T ≤ gap G T := i2.trans (mul_le_of_le_one_right (gap_nonneg _ _) (hhalf _))
        rw [c2]
        exact o2.trans (mul_le_mul_of_nonneg_left (pow_le_pow_left₀ (gap_nonneg _ _) i5 2) hC.le)

/-- C116: so the results of more and more steps tend to the true pose. -/
theorem gn_converges_partial {E : Env ℝ} (hE : GoodEnv E) (hE2 : SecondOrderExp E) {P : Params ℝ} {inp : Pairings ℝ} {T : Pose3 ℝ} (hT : IsRotation T.R)
    (ha : ExactlyAligned inp T) (hh : Holds inp T.R) (hw : PositiveWeights P inp) (hprior : P.prior = none) (hpw : inp.pointWeights = []) :
    ∃ ρ > 0, ∀ G : Pose3 ℝ, IsRotation G.R → gap G T ≤ ρ → ∀ ε > 0, ∃ N, ∀ n ≥ N, ∀ sched, ValidSchedule inp sched →
      ∃ r, run (.tbb sched) E (started P G n 0 0) inp = .ok r ∧ gap r.pose T ≤ ε := by
  obtain ⟨C, hC, ρ, hρ, h⟩ := gn_quadratic_partial hE hE2 hT ha hh hw hprior hpw
  refine ⟨ρ, hρ, fun G hG hg ε hε => ?_⟩
  have hg1 : 0 < gap G T + 1 := by have := gap_nonneg G T; linarith
  obtain ⟨N, hN⟩ := exists_pow_lt_of_lt_one (show 0 < ε / (gap G T + 1) by positivity) (show (1 / 2 : ℝ) < 1 by norm_num)
  refine ⟨N, fun n hn sched hs => ?_⟩
  obtain ⟨r, h1, -, -, -, -, h2, -⟩ := h G n 0 0 sched hs hG hg
  refine ⟨r, h1, (h2 rfl le_rfl).trans ?_⟩
  have h3 : n ≤ 2 ^ n - 1 := by have := Nat.lt_two_pow_self (n := n); omega
  calc gap G T * (1 / 2) ^ (2 ^ n - 1) ≤ gap G T * (1 / 2) ^ N :=
        mul_le_mul_of_nonneg_left (pow_le_pow_of_le_one (by norm_num) (by norm_num) (hn.trans h3)) (gap_nonneg _ _)
    _ ≤ (gap G T + 1) * (ε / (gap G T + 1)) := mul_le_mul (by linarith) hN.le (by positivity) hg1.le
    _ = ε := by field_simp

/-- C116 (first step): in every build, also with a table of weights by blocks, the first step at least squares the distance to the true pose, up to a constant
factor. -/
theorem gn_first_step_quadratic_partial {E : Env ℝ} (hE : GoodEnv E) (hE2 : SecondOrderExp E) {P : Params ℝ} {inp : Pairings ℝ} {T : Pose3 ℝ}
    (hT : IsRotation T.R) (ha : ExactlyAligned inp T) (hh : Holds inp T.R) (hw : PositiveWeights P inp) (hprior : P.prior = none) :
    ∃ C > 0, ∃ ρ > 0, ∀ (G : Pose3 ℝ) (minDelta : ℝ) (b : Build), Sound inp b → IsRotation G.R → gap G T ≤ ρ →
      ∃ r, run b E (started P G 1 minDelta 0) inp = .ok r ∧ gap r.pose T ≤ C * gap G T ^ 2 := by
  by_cases hex : ∃ b, Sound inp b
  swap
  · exact ⟨1, one_pos, 1, one_pos, fun G minDelta b hb => absurd ⟨b, hb⟩ hex⟩
  obtain ⟨b0, hb0⟩ := hex
  have hlen := firstWeights_length (P := P) hb0
  obtain ⟨C, hC, ρ, hρ, hstep⟩ := near_step hE.deriv hE2 hT ha hh hprior hlen hw.points hw.lines hw.planes hw.normals hw.kernel
  refine ⟨C, hC, min ρ (1 / (2 * C)), by positivity, fun G minDelta b hb hG hgap => ?_⟩
  have hg1 : gap G T ≤ ρ := hgap.trans (min_le_left _ _)
  set P' := started P G 1 minDelta 0 with hP'
  have hwk : PositiveWeights P' inp := ⟨hw.points, hw.lines, hw.planes, hw.normals, hw.kernel⟩
  have hnn : NonnegWeights P (firstWeights P inp) := ⟨fun w h => (hw.points w h).le, hw.lines.le, hw.planes.le, hw.normals.le⟩
  obtain ⟨c, h1, h2⟩ := first_pass (E := E) (P := P') hb G
  have hfw : firstWeights P' inp = firstWeights P inp := rfl
  have hsys : system E P' inp (firstWeights P' inp) G = system E P inp (firstWeights P inp) G := rfl
  rw [hsys] at h1
  have hso := hE.solve _ _ (gn_solvable_partial (E := E) hnn ha.noLines hprior G)
  have hst := hstep G (-(E.solve (system E P inp (firstWeights P inp) G).1 (system E P inp (firstWeights P inp) G).2)) hG hg1
    (by rw [Matrix.mulVec_neg, hso])
  unfold run
  have hl : P'.linearizationPoint = some G := rfl
  have hn : P'.maxInner = 0 + 1 := rfl
  simp only [hl, hn, loop, h1, Outcome.bind]
  by_cases hcost : E.sqrt (firstCost b E P' inp G) ≤ P'.maxCost
  · rw [if_pos hcost]
    refine ⟨_, rfl, ?_⟩
    have hz0 : gap G T = 0 := by
      obtain ⟨hp, hz⟩ := no_cost (b := b) (E := E) (P := P') hb hwk ha.noLines (T := G)
      obtain ⟨n1, n2⟩ := hE.sqrt _ hp
      have hmc : P'.maxCost = 0 := rfl
      rw [hmc] at hcost
      have h0 : firstCost b E P' inp G = 0 := by rw [← n2, le_antisymm hcost n1]; simp
      obtain ⟨e1, e2, e3, e4⟩ := hz h0
      have hS0 := shift_system (E := E) (P := P) (ws := firstWeights P inp) hprior ha.noLines 0 (T := G) (fun q hq => by rw [e1 q hq]; simp)
        (fun q hq => by rw [e2 q hq]; simp) (fun q hq => by rw [e3 q hq]; simp) (fun q hq => by rw [e4 q hq]; simp)
      have h := hstep G 0 hG hg1 (eq_neg_of_add_eq_zero_left hS0)
      have hid : G.compose (E.exp 0) = G := by
        have := hE.shift 0
        have z : (![(0 : P3 ℝ).x, (0 : P3 ℝ).y, (0 : P3 ℝ).z, 0, 0, 0] : Fin 6 → ℝ) = 0 := by funext i; fin_cases i <;> rfl
        rw [z] at this
        rw [this]
        rcases G with ⟨R, t⟩
        simp only [Pose3.compose]
        congr 1
        · ext <;> simp [M3.mul, M3.one]
        · ext <;> simp [M3.mulVec]
      rw [hid] at h
      have hh2 : C * gap G T ≤ 1 / 2 := by
        calc C * gap G T ≤ C * (1 / (2 * C)) := mul_le_mul_of_nonneg_left (hgap.trans (min_le_right _ _)) hC.le
          _ = 1 / 2 := by field_simp
      have hn := gap_nonneg G T
      nlinarith
    rw [hz0]
    simp
  · rw [if_neg hcost]
    refine ⟨⟨G.compose (E.exp (-(E.solve (system E P inp (firstWeights P inp) G).1 (system E P inp (firstWeights P inp) G).2))),
      [(G, system E P inp (firstWeights P inp) G)], true⟩, ?_, hst⟩
    rw [List.nil_append, ite_self]

/-! ### the hypotheses are met -/

/-- The four points on the axes, where they are. -/
def stillPairs : Pairings ℝ := crossPairs ⟨1, 0, 0⟩ ⟨-1, 0, 0⟩ ⟨0, 1, 0⟩ ⟨0, -1, 0⟩

/-- A robust kernel, and unit weights. -/
noncomputable def cauchyGn : Params ℝ := { plainGn 0 with kernel := .cauchy }

theorem turn_near {c : ℝ} (hc : 0 < c) : gap (turnZ c) Pose3.identity ≤ c + c ^ 2 / 2 := by
  have h1 := Real.sin_lt hc
  have h2 := Real.one_sub_sq_div_two_le_cos (x := c)
  have h3 := Real.cos_le_one c
  have h4 := Real.sin_gt_sub_cube hc
  have h5 := Real.neg_one_le_sin c
  have h6 : -c ≤ Real.sin c := by
    by_cases h : c ≤ 1
    · nlinarith [pow_pos hc 3, pow_le_one₀ (n := 2) hc.le h]
    · linarith
  have hs : |Real.sin c| ≤ c + c ^ 2 / 2 := by rw [abs_le]; constructor <;> nlinarith
  have hk : |Real.cos c - 1| ≤ c + c ^ 2 / 2 := by rw [abs_le]; constructor <;> nlinarith
  have h0 : |(0 : ℝ)| ≤ c + c ^ 2 / 2 := by rw [abs_zero]; positivity
  unfold gap
  rw [pi_norm_le_iff_of_nonneg (by positivity)]
  intro i
  rw [Real.norm_eq_abs]
  fin_cases i <;> simp [poseVec, turnZ, Pose3.identity, M3.one] <;> first | exact hs | exact hk | (simpa using h0)

theorem still_setting : IsRotation (Pose3.identity : Pose3 ℝ).R ∧ ExactlyAligned stillPairs Pose3.identity ∧ Holds stillPairs (Pose3.identity : Pose3 ℝ).R ∧
    PositiveWeights cauchyGn stillPairs := by
  refine ⟨?_, ⟨?_, ?_, ?_, ?_, rfl⟩, ?_, ?_⟩
  · constructor
    · ext <;> simp [Pose3.identity, M3.mul, M3.transpose, M3.one]
    · simp [Pose3.identity, M3.det, M3.one]
  · simp [stillPairs, crossPairs, Pose3.identity, Pose3.composePoint, M3.mulVec, M3.one, P3.ext_iff]
  · simp [stillPairs, crossPairs]
  · simp [stillPairs, crossPairs]
  · simp [stillPairs, crossPairs]
  · intro v w hs
    have h1 := hs.pts ⟨0, 0, ⟨1, 0, 0⟩, ⟨1, 0, 0⟩, 1⟩ (by simp [stillPairs, crossPairs])
    have h2 := hs.pts ⟨1, 1, ⟨-1, 0, 0⟩, ⟨-1, 0, 0⟩, 1⟩ (by simp [stillPairs, crossPairs])
    have h3 := hs.pts ⟨2, 2, ⟨0, 1, 0⟩, ⟨0, 1, 0⟩, 1⟩ (by simp [stillPairs, crossPairs])
    simp [velocity, Pose3.identity, M3.mulVec, M3.one, P3.cross, P3.ext_iff] at h1 h2 h3
    simp only [P3.ext_iff]
    obtain ⟨a1, a2, a3⟩ := h1
    obtain ⟨b1, b2, b3⟩ := h2
    obtain ⟨c1, c2, c3⟩ := h3
    refine ⟨⟨?_, ?_, ?_⟩, ?_, ?_, ?_⟩ <;> simp <;> linarith
  · refine ⟨?_, ?_, ?_, ?_, Or.inr ?_⟩ <;> simp [cauchyGn, plainGn, firstWeights, stillPairs, crossPairs, uniform]

/-- Guesses that are turned: with the real exponential map and a robust kernel, ten steps from any turn about the vertical that is small enough divide its
error by `2 ^ 1023`. -/
example : ∃ a > 0, ∀ c, 0 < c → c ≤ a → ∃ r, run (.tbb wholeSched) se3Env (started cauchyGn (turnZ c) 10 0 0) stillPairs = .ok r ∧
    gap r.pose Pose3.identity ≤ gap (turnZ c) Pose3.identity * (1 / 2) ^ 1023 := by
  obtain ⟨h1, h2, h3, h4⟩ := still_setting
  obtain ⟨C, hC, ρ, hρ, h⟩ := gn_quadratic_partial se3_good se3_second h1 h2 h3 h4 rfl rfl
  refine ⟨min 1 (ρ / 2), by positivity, fun c hc hca => ?_⟩
  have hc1 : c ≤ 1 := hca.trans (min_le_left _ _)
  have hc2 : c ≤ ρ / 2 := hca.trans (min_le_right _ _)
  have hrot : IsRotation (turnZ c).R := by
    have := Real.sin_sq_add_cos_sq c
    constructor
    · ext <;> simp [turnZ, M3.mul, M3.transpose, M3.one] <;> nlinarith
    · simp [turnZ, M3.det]; nlinarith
  obtain ⟨r, e1, -, -, -, -, e2, -⟩ := h (turnZ c) 10 0 0 wholeSched (whole_valid _ _ _ _) hrot ((turn_near hc).trans (by nlinarith))
  exact ⟨r, e1, e2 rfl le_rfl⟩

end Verif.Props
