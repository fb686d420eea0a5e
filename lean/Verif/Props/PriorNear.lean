import Verif.Lemmas.PriorNear
import Verif.Props.Converge
/-
C120: with a prior at the true pose, Gauss-Newton homes in, also when the pairings alone do not determine the pose.
-/
namespace Verif.Props
open Verif.Gn Verif.Spec Verif.Spec.GN Verif.Lemmas Verif.Lemmas.GnS Verif.Lemmas.Conv Matrix

/-- C120 (partial): the mean of the prior is a pose which aligns all pairings exactly, and pairings and prior together hold the body (the pairings alone need
not).  Then, in the build with TBB, from every guess near enough and however the sums are split: the number of correct digits doubles in each step, with any
robust kernel, weights and information; the result with limits of zero is as near as the number of steps asked for allows, unless the pairings leave no
error at it (and then the rest of the prior is not looked at, `gn_prior_ignored`).  Missing: means that are not aligned with the pairings (for those:
`gn_prior_downhill_partial`); the build without TBB; line-to-line pairings; tables of weights; how far the guess may be; floating-point numbers. -/
theorem gn_prior_near_partial {E : Env ℝ} (hE : GoodEnv E) (hE2 : SecondOrderExp E) {P : Params ℝ} {inp : Pairings ℝ} {L : PriorEnv ℝ} {p : PriorPdf ℝ}
    (hT : IsRotation p.mean.R) (ha : ExactlyAligned inp p.mean) (S : SmoothPrior E L p.mean) (hΛ : Information p.inf) (hh : HoldsWith inp L p p.mean)
    (hw : PositiveWeights P inp) (hpw : inp.pointWeights = []) :
    ∃ C > 0, ∃ ρ > 0, ∀ (G : Pose3 ℝ) (n : Nat) (minDelta maxCost : ℝ) (sched : Nat → RTree × RTree), ValidSchedule inp sched →
      IsRotation G.R → gap G p.mean ≤ ρ →
      ∃ r, run (.tbb sched) E (withPrior (started P G n minDelta maxCost) L (some p)) inp = .ok r ∧ IsRotation r.pose.R ∧
        (∀ k q q', r.trace[k]? = some q → r.trace[k + 1]? = some q' → gap q'.1 p.mean ≤ C * gap q.1 p.mean ^ 2) ∧
        (∀ k q, r.trace[k]? = some q → IsRotation q.1.R ∧ gap q.1 p.mean ≤ gap G p.mean * (1 / 2) ^ (2 ^ k - 1)) ∧
        gap r.pose p.mean ≤ gap G p.mean ∧
        (maxCost = 0 → minDelta ≤ 0 → gap r.pose p.mean ≤ gap G p.mean * (1 / 2) ^ (2 ^ n - 1) ∨ NoError inp r.pose) ∧
        (maxCost ≤ 0 → 1 ≤ n → gap r.pose p.mean ≤ C * gap G p.mean ^ 2 ∨ (maxCost = 0 ∧ NoError inp r.pose)) := by
  have hu : firstWeights P inp = uniform inp P.pairWeights.pt2pt := by simp [firstWeights, hpw]
  have hlen : inp.pt2pt.length ≤ (uniform inp P.pairWeights.pt2pt).length := by simp [uniform]
  have hwp := hw.points
  rw [hu] at hwp
  obtain ⟨C, hC, ρ, hρ, hstep⟩ := near_prior_step hE.deriv hE2 hT ha S hΛ hh hlen hwp hw.lines hw.planes hw.normals hw.kernel
  refine ⟨C, hC, min ρ (1 / (2 * C)), by positivity, ?_⟩
  intro G n minDelta maxCost sched hs hG hgap
  have hg1 : gap G p.mean ≤ ρ := hgap.trans (min_le_left _ _)
  have hg2 : C * gap G p.mean ≤ 1 / 2 := by
    calc C * gap G p.mean ≤ C * (1 / (2 * C)) := mul_le_mul_of_nonneg_left (hgap.trans (min_le_right _ _)) hC.le
      _ = 1 / 2 := by field_simp
  set P' := withPrior (started P G n minDelta maxCost) L (some p) with hP'
  have hwk : PositiveWeights P' inp := ⟨hw.points, hw.lines, hw.planes, hw.normals, hw.kernel⟩
  have hsys : ∀ U, system E P' inp (uniform inp P'.pairWeights.pt2pt) U = system E (withPrior P L (some p)) inp (uniform inp P.pairWeights.pt2pt) U :=
    fun U => rfl
  have hnn : NonnegWeights P (uniform inp P.pairWeights.pt2pt) := ⟨fun w h => (hwp w h).le, hw.lines.le, hw.planes.le, hw.normals.le⟩
  obtain ⟨r, hr⟩ : ∃ r, run (.tbb sched) E P' inp = .ok r := by
    unfold run
    exact Lemmas.Gn.loop_total _ E P' inp _ (fun k U sys => ⟨_, Lemmas.Gn.assemble_tbb_plain E P' inp hpw sched hs k U sys _⟩) _ _ _ _ _
  have hfresh := gn_tbb_fresh_partial E P' inp hpw sched hs r hr
  obtain ⟨g1, g2, g3, g4, g5⟩ := gn_steps (.tbb sched) E P' inp G rfl r hr
  obtain ⟨s1, s2⟩ := gn_stops_partial (.tbb sched) E P' inp hpw (fun sc h => by cases h; exact hs) r hr
  have hone : ∀ q ∈ r.trace, IsRotation q.1.R → gap q.1 p.mean ≤ ρ →
      IsRotation (q.1.compose (E.exp (-(E.solve q.2.1 q.2.2)))).R ∧
        gap (q.1.compose (E.exp (-(E.solve q.2.1 q.2.2)))) p.mean ≤ C * gap q.1 p.mean ^ 2 := by
    intro q hq hR hqρ
    refine ⟨rot_mul hR (hE2.rigid _), hstep q.1 _ hR hqρ ?_⟩
    have hf := hfresh q hq
    rw [hsys] at hf
    have hso := hE.solve _ _ (gn_prior_solvable (E := E) (L := L) hnn ha.noLines hΛ q.1)
    rw [hf, Matrix.mulVec_neg, hso]
  have hhalf : ∀ k : Nat, ((1 / 2 : ℝ)) ^ k ≤ 1 := fun k => pow_le_one₀ (by norm_num) (by norm_num)
  have hall : ∀ k q, r.trace[k]? = some q → IsRotation q.1.R ∧ gap q.1 p.mean ≤ gap G p.mean * (1 / 2) ^ (2 ^ k - 1) ∧
      C * gap q.1 p.mean ≤ (1 / 2) ^ 2 ^ k ∧ gap q.1 p.mean ≤ ρ := by
    intro k
    induction k with
    | zero =>
      intro q hq
      have e := g3 q hq
      rw [e]
      exact ⟨hG, by simp, by simpa using hg2, hg1⟩
    | succ k ih =>
      intro q hq
      obtain ⟨q0, hq0⟩ : ∃ q0, r.trace[k]? = some q0 :=
        ⟨r.trace[k]'(by have := (List.getElem?_eq_some_iff.mp hq).1; omega), by simp⟩
      obtain ⟨i1, i2, i3, i4⟩ := ih q0 hq0
      obtain ⟨o1, o2⟩ := hone q0 (List.mem_of_getElem? hq0) i1 i4
      have e := (g4 k q0 q hq0 hq).1
      rw [← e] at o1 o2
      obtain ⟨c1, c2⟩ := squares_chain hC k (gap_nonneg _ _) o2 i3 i2 (gap_nonneg _ _)
      refine ⟨o1, c2, c1, c2.trans (le_trans ?_ hg1)⟩
      exact mul_le_of_le_one_right (gap_nonneg _ _) (hhalf _)
  have hlast : ∀ q, r.trace.getLast? = some q → r.trace[r.trace.length - 1]? = some q := fun q hq => by rw [← List.getLast?_eq_getElem?]; exact hq
  have hend : ∀ q, r.trace.getLast? = some q →
      gap (q.1.compose (E.exp (-(E.solve q.2.1 q.2.2)))) p.mean ≤ gap G p.mean * (1 / 2) ^ (2 ^ r.trace.length - 1) := by
    intro q hq
    obtain ⟨i1, i2, i3, i4⟩ := hall _ q (hlast q hq)
    obtain ⟨o1, o2⟩ := hone q (List.mem_of_getElem? (hlast q hq)) i1 i4
    have hl : r.trace.length - 1 + 1 = r.trace.length := by
      have := (List.getElem?_eq_some_iff.mp (hlast q hq)).1; omega
    obtain ⟨c1, c2⟩ := squares_chain hC _ (gap_nonneg _ _) o2 i3 i2 (gap_nonneg _ _)
    rwa [hl] at c2
  have hstop : ∀ q : Pose3 ℝ × Matrix (Fin 6) (Fin 6) ℝ × (Fin 6 → ℝ), E.sqrt (plainCost true E P' inp q.1) ≤ maxCost → maxCost ≤ 0 → maxCost = 0 ∧ NoError inp q.1 := by
    intro q c1 hm
    have hb : Sound inp (.tbb sched) := .tbb hpw hs
    obtain ⟨hp, hz⟩ := no_cost (b := .tbb sched) (E := E) (P := P') hb hwk ha.noLines (T := q.1)
    have hfc : firstCost (.tbb sched) E P' inp q.1 = plainCost true E P' inp q.1 := by simp [firstCost, plainCost, firstWeights, hpw, isParallel]
    rw [hfc] at hp hz
    obtain ⟨n1, n2⟩ := hE.sqrt _ hp
    have h0 : plainCost true E P' inp q.1 = 0 := by rw [← n2, le_antisymm (c1.trans hm) n1]; simp
    obtain ⟨e1, e2, e3, e4⟩ := hz h0
    exact ⟨le_antisymm hm (n1.trans c1), ⟨e1, e2, e3, e4⟩⟩
  refine ⟨r, hr, ?_, ?_, fun k q hq => ⟨(hall k q hq).1, (hall k q hq).2.1⟩, ?_, ?_, ?_⟩
  · cases htr : r.trace.getLast? with
    | none => rw [g2 (List.getLast?_eq_none_iff.mp htr)]; exact hG
    | some q =>
      obtain ⟨i1, i2, i3, i4⟩ := hall _ q (hlast q htr)
      rcases g5 q htr with e | e
      · rw [e]; exact i1
      · rw [e]; exact rot_mul i1 (hE2.rigid _)
  · intro k q q' hq hq'
    obtain ⟨i1, i2, i3, i4⟩ := hall k q hq
    rw [(g4 k q q' hq hq').1]
    exact (hone q (List.mem_of_getElem? hq) i1 i4).2
  · cases htr : r.trace.getLast? with
    | none => rw [g2 (List.getLast?_eq_none_iff.mp htr)]
    | some q =>
      rcases g5 q htr with e | e
      · rw [e]
        exact (hall _ q (hlast q htr)).2.1.trans (mul_le_of_le_one_right (gap_nonneg _ _) (hhalf _))
      · rw [e]
        exact (hend q htr).trans (mul_le_of_le_one_right (gap_nonneg _ _) (hhalf _))
  · intro hm hd
    cases htr : r.trace.getLast? with
    | none =>
      have h0 := List.getLast?_eq_none_iff.mp htr
      have hn0 : n = 0 := g1.mp h0
      rw [g2 h0, hn0]
      left; simp
    | some q =>
      rcases s2 q htr with ⟨c1, c2⟩ | ⟨c1, c2, c3⟩
      · right
        rw [c2]
        have c1 : E.sqrt (plainCost true E P' inp q.1) ≤ maxCost := c1
        exact (hstop q c1 hm.le).2
      · left
        rcases c3 with c3 | c3
        · exfalso
          have h1 : 0 ≤ sqLen (-(E.solve q.2.1 q.2.2)) := sqLen_nonneg' _
          have h2 := (hE.sqrt _ h1).1
          have h3 : P'.minDelta ≤ 0 := hd
          linarith
        · rw [c2]
          have h4 := hend q htr
          have h5 : P'.maxInner = n := rfl
          rwa [c3, h5] at h4
  · intro hm hn
    cases htr : r.trace.getLast? with
    | none =>
      have hn0 : n = 0 := g1.mp (List.getLast?_eq_none_iff.mp htr)
      omega
    | some q =>
      rcases s2 q htr with ⟨c1, c2⟩ | ⟨c1, c2, c3⟩
      · right
        rw [c2]
        have c1 : E.sqrt (plainCost true E P' inp q.1) ≤ maxCost := c1
        exact hstop q c1 hm
      · left
        rw [c2]
        obtain ⟨i1, i2, i3, i4⟩ := hall _ q (hlast q htr)
        refine (hone q (List.mem_of_getElem? (hlast q htr)) i1 i4).2.trans (mul_le_mul_of_nonneg_left ?_ hC.le)
        exact pow_le_pow_left₀ (gap_nonneg _ _) (i2.trans (mul_le_of_le_one_right (gap_nonneg _ _) (hhalf _))) 2

/-! ### a case -/

/-- The twist of a small motion: the translation, and the rotation read off the antisymmetric part. -/
noncomputable def entryLog (X : Pose3 ℝ) : Fin 6 → ℝ :=
  ![X.t.x, X.t.y, X.t.z, (X.R.a21 - X.R.a12) / 2, (X.R.a02 - X.R.a20) / 2, (X.R.a10 - X.R.a01) / 2]

/-- Its derivative with respect to the entries. -/
noncomputable def entrySlope : Matrix (Fin 6) (Fin 12) ℝ :=
  !![0, 0, 0, 0, 0, 0, 0, 0, 0, 1, 0, 0; 0, 0, 0, 0, 0, 0, 0, 0, 0, 0, 1, 0; 0, 0, 0, 0, 0, 0, 0, 0, 0, 0, 0, 1;
     0, 0, 0, 0, 0, 1 / 2, 0, -1 / 2, 0, 0, 0, 0; 0, 0, -1 / 2, 0, 0, 0, 1 / 2, 0, 0, 0, 0, 0; 0, 1 / 2, 0, -1 / 2, 0, 0, 0, 0, 0, 0, 0, 0]

noncomputable def entryPrior : PriorEnv ℝ := ⟨entryLog, fun m T => entrySlope * se3ExpJac (seenFrom m T)⟩

theorem entryLog_linear (X : Pose3 ℝ) : entryLog X = entrySlope.mulVec (poseVec X) := by
  funext i
  fin_cases i <;> simp [entryLog, entrySlope, poseVec, Matrix.mulVec, dotProduct, Fin.sum_univ_succ] <;> ring

theorem seen_from_identity (T : Pose3 ℝ) : seenFrom Pose3.identity T = T := by
  rcases T with ⟨R, t⟩
  simp only [seenFrom, Pose3.identity]
  congr 1
  · ext <;> simp [M3.mul, M3.transpose, M3.one]
  · ext <;> simp [M3.mulVec, M3.transpose, M3.one]

theorem entry_derives (Λ : Matrix (Fin 6) (Fin 6) ℝ) (T : Pose3 ℝ) : DerivesLog se3Env entryPrior ⟨Pose3.identity, Λ⟩ T := by
  intro d i
  have h : HasDerivAt (fun s => ∑ k, entrySlope i k * poseVec (path se3Env T d s) k) (∑ k, entrySlope i k * (se3ExpJac T).mulVec d k) 0 :=
    HasDerivAt.fun_sum fun k _ => (se3_derives T d k).const_mul _
  have e : ∀ U : Pose3 ℝ, entryPrior.log (seenFrom Pose3.identity U) i = ∑ k, entrySlope i k * poseVec U k := fun U => by
    rw [seen_from_identity]
    exact congrFun (entryLog_linear U) i
  simp only [e]
  refine h.congr_deriv ?_
  have e2 : (entryPrior.jac Pose3.identity T).mulVec d = entrySlope.mulVec ((se3ExpJac T).mulVec d) := by
    rw [Matrix.mulVec_mulVec]
    show (entrySlope * se3ExpJac (seenFrom Pose3.identity T)).mulVec d = _
    rw [seen_from_identity]
  show _ = (entryPrior.jac Pose3.identity T).mulVec d i
  rw [e2]
  rfl

theorem entry_at_identity : entrySlope.mulVec (poseVec (Pose3.identity : Pose3 ℝ)) = 0 := by
  rw [← entryLog_linear]
  funext i
  fin_cases i <;> simp [entryLog, Pose3.identity, M3.one]

noncomputable def entrySmooth : SmoothPrior se3Env entryPrior Pose3.identity where
  err := entrySlope.mulVec
  slope _ := entrySlope
  radius := 1
  curb := 0
  positive := one_pos
  curbNonneg := le_refl 0
  isErr T _ _ := by rw [seen_from_identity]; exact entryLog_linear T
  isSlope T _ _ := by
    show entrySlope * se3ExpJac (seenFrom Pose3.identity T) = _
    rw [seen_from_identity]
    rfl
  second x _ := by
    rw [Matrix.mulVec_sub, entry_at_identity]
    simp
  continuous := continuousAt_const

theorem entry_turned (v w : P3 ℝ) (T : Pose3 ℝ) (hR : T.R = M3.one) : (entryPrior.jac Pose3.identity T).mulVec (twist v w) = twist v w := by
  have e2 : (entryPrior.jac Pose3.identity T).mulVec (twist v w) = entrySlope.mulVec ((se3ExpJac T).mulVec (twist v w)) := by
    rw [Matrix.mulVec_mulVec]
    show (entrySlope * se3ExpJac (seenFrom Pose3.identity T)).mulVec _ = _
    rw [seen_from_identity]
  have h := se3_deriv T v w
  rw [e2, show (twist v w) = ![v.x, v.y, v.z, w.x, w.y, w.z] from rfl, h, ← entryLog_linear, hR]
  funext i
  fin_cases i <;> simp [entryLog, M3.mul, M3.mulVec, M3.one, crossMat] <;> ring

theorem unit_information : Information (1 : Matrix (Fin 6) (Fin 6) ℝ) ∧ Full (1 : Matrix (Fin 6) (Fin 6) ℝ) := by
  refine ⟨⟨Matrix.transpose_one, fun v => ?_⟩, fun v h => ?_⟩
  · rw [Matrix.one_mulVec, dotProduct]
    exact Finset.sum_nonneg fun i _ => mul_self_nonneg _
  · rw [Matrix.one_mulVec] at h
    exact dotProduct_self_eq_zero.mp h

/-- One pair of points: it holds three of the six coordinates. -/
def onePair : Pairings ℝ := { pt2pt := [⟨0, 0, ⟨1, 0, 0⟩, ⟨1, 0, 0⟩, 0⟩] }

theorem onePair_aligned : ExactlyAligned onePair Pose3.identity := by
  refine ⟨?_, ?_, ?_, ?_, rfl⟩ <;> simp [onePair, Pose3.identity, Pose3.composePoint, M3.mulVec, M3.one, P3.ext_iff]

/-- A single pair of points and a prior of unit information at the true pose: together they hold the body (the pair alone does not), and all hypotheses are
met, with the real exponential map and a robust kernel. -/
example : ¬ Holds onePair (Pose3.identity : Pose3 ℝ).R ∧ ∃ C > 0, ∃ ρ > 0, ∀ (G : Pose3 ℝ) (n : Nat), IsRotation G.R → gap G Pose3.identity ≤ ρ →
    ∃ r, run (.tbb fun _ => (.chunk .idle 0 1, .idle)) se3Env (withPrior (started cauchyGn G n 0 0) entryPrior (some ⟨Pose3.identity, 1⟩)) onePair = .ok r ∧
      (∀ k q q', r.trace[k]? = some q → r.trace[k + 1]? = some q' → gap q'.1 Pose3.identity ≤ C * gap q.1 Pose3.identity ^ 2) := by
  constructor
  · intro h
    have h1 := h 0 ⟨1, 0, 0⟩ ⟨?_, ?_, ?_, ?_⟩
    · have := congrArg P3.x h1.2
      simp at this
    · intro q hq
      simp only [onePair, List.mem_singleton] at hq
      subst hq
      simp [velocity, Pose3.identity, M3.mulVec, M3.one, P3.cross, P3.ext_iff]
    · simp [onePair]
    · simp [onePair]
    · simp [onePair]
  · have hrot : IsRotation (Pose3.identity : Pose3 ℝ).R := still_setting.1
    have hw : PositiveWeights cauchyGn onePair := by
      refine ⟨?_, ?_, ?_, ?_, Or.inr ?_⟩ <;> simp [cauchyGn, plainGn, firstWeights, onePair, uniform]
    have hh : HoldsWith onePair entryPrior ⟨Pose3.identity, 1⟩ Pose3.identity := by
      intro v w _ hq
      have hq : (entryPrior.jac Pose3.identity Pose3.identity).mulVec (twist v w) ⬝ᵥ
        (1 : Matrix (Fin 6) (Fin 6) ℝ).mulVec ((entryPrior.jac Pose3.identity Pose3.identity).mulVec (twist v w)) = 0 := hq
      rw [entry_turned v w Pose3.identity rfl] at hq
      have h := unit_information.2 _ hq
      have h' := fun i => congrFun h i
      constructor <;> ext
      · exact h' 0
      · exact h' 1
      · exact h' 2
      · exact h' 3
      · exact h' 4
      · exact h' 5
    obtain ⟨C, hC, ρ, hρ, h⟩ := gn_prior_near_partial (p := ⟨Pose3.identity, 1⟩) se3_good se3_second hrot onePair_aligned entrySmooth unit_information.1 hh
      hw rfl
    refine ⟨C, hC, ρ, hρ, fun G n hG hg => ?_⟩
    obtain ⟨r, h1, -, h2, -⟩ := h G n 0 0 (fun _ => (.chunk .idle 0 1, .idle)) (fun k => ⟨rfl, rfl⟩) hG hg
    exact ⟨r, h1, h2⟩

/-- A prior that is ignored: no pairings, a prior of unit information at the origin, a guess one unit away: the guess is returned, and it is not stationary. -/
example : (∃ r, run .serial se3Env (withPrior (started cauchyGn ⟨M3.one, ⟨1, 0, 0⟩⟩ 10 0 0) entryPrior (some ⟨Pose3.identity, 1⟩)) {} = .ok r ∧
      r.pose = ⟨M3.one, ⟨1, 0, 0⟩⟩) ∧
    ¬ WholeStationary se3Env (started cauchyGn ⟨M3.one, ⟨1, 0, 0⟩⟩ 10 0 0) {} [] entryPrior ⟨Pose3.identity, 1⟩ ⟨M3.one, ⟨1, 0, 0⟩⟩ := by
  have hJ : ∀ e : Fin 6 → ℝ, (entryPrior.jac Pose3.identity (⟨M3.one, ⟨1, 0, 0⟩⟩ : Pose3 ℝ)).transpose.mulVec e = 0 → e = 0 := by
    intro e he
    have hd : ∀ d : Fin 6 → ℝ, (entryPrior.jac Pose3.identity (⟨M3.one, ⟨1, 0, 0⟩⟩ : Pose3 ℝ)).mulVec d = d := by
      intro d
      have h := entry_turned ⟨d 0, d 1, d 2⟩ ⟨d 3, d 4, d 5⟩ (⟨M3.one, ⟨1, 0, 0⟩⟩ : Pose3 ℝ) rfl
      have hd : d = twist ⟨d 0, d 1, d 2⟩ ⟨d 3, d 4, d 5⟩ := by funext j; fin_cases j <;> rfl
      rw [← hd] at h
      exact h
    have h1 : e ⬝ᵥ e = 0 := by
      rw [Matrix.mulVec_transpose] at he
      calc e ⬝ᵥ e = e ⬝ᵥ (entryPrior.jac Pose3.identity (⟨M3.one, ⟨1, 0, 0⟩⟩ : Pose3 ℝ)).mulVec e := by rw [hd]
        _ = 0 := by rw [Matrix.dotProduct_mulVec, he, zero_dotProduct]
    exact dotProduct_self_eq_zero.mp h1
  have h := gn_prior_ignored (E := se3Env) (P := started cauchyGn ⟨M3.one, ⟨1, 0, 0⟩⟩ 10 0 0) (inp := {}) (ws := []) (L := entryPrior)
    (p := ⟨Pose3.identity, 1⟩) se3_derives se3_fixes Real.sqrt_zero (Or.inr (by simp [started, cauchyGn, plainGn])) (G := ⟨M3.one, ⟨1, 0, 0⟩⟩)
    ⟨by simp, by simp, by simp, by simp, rfl⟩ (le_refl 0) rfl unit_information.1 unit_information.2 (entry_derives _ _) hJ
    (by
      rw [seen_from_identity]
      intro h
      have := congrFun h 0
      simp [entryPrior, entryLog] at this)
  exact ⟨h.1 ⟨by simp, by simp⟩, h.2.2⟩

end Verif.Props
