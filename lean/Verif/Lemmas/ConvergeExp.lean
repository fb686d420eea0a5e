import Verif.Lemmas.ConvergePose
import Verif.Spec.Converge
import Mathlib.Analysis.SpecialFunctions.Trigonometric.Bounds
/-
Lemmas for C116: the exponential map of rigid motions.
-/
namespace Verif.Lemmas.Conv
open Verif Verif.Gn Verif.Spec Verif.Spec.GN Verif.Lemmas Verif.Lemmas.GnS Verif.Props

theorem sinc_facts {θ : ℝ} (h0 : 0 ≤ θ) :
    0 ≤ (1 - Real.sinc θ) ∧ (1 - Real.sinc θ) ≤ θ ^ 2 / 6 ∧ Real.sinc (θ / 2) ^ 2 / 2 ≤ 1 / 2 ∧
      2 * (Real.sinc (θ / 2) ^ 2 / 2) = Real.sinc θ ^ 2 + (Real.sinc (θ / 2) ^ 2 / 2) ^ 2 * θ ^ 2 := by
  rcases h0.eq_or_lt with rfl | h
  · simp
  · have h1 := Real.sin_gt_sub_cube h
    have h2 := Real.sin_lt h
    have hs : Real.sinc θ = Real.sin θ / θ := Real.sinc_of_ne_zero h.ne'
    have hs2 : Real.sinc (θ / 2) = Real.sin (θ / 2) / (θ / 2) := Real.sinc_of_ne_zero (by positivity)
    have hd : Real.sin θ = 2 * Real.sin (θ / 2) * Real.cos (θ / 2) := by
      rw [← Real.sin_two_mul]; congr 1; ring
    have hq := Real.sin_sq_add_cos_sq (θ / 2)
    refine ⟨?_, ?_, ?_, ?_⟩
    · rw [hs, sub_nonneg, div_le_one h]; exact h2.le
    · rw [hs, sub_le_comm, le_div_iff₀ h]
      nlinarith
    · have h3 : Real.sin (θ / 2) ^ 2 ≤ (θ / 2) ^ 2 := by
        have h4 := Real.sin_lt (show 0 < θ / 2 by positivity)
        have h5 := Real.abs_sin_le_one (θ / 2)
        have h6 : -(θ / 2) ≤ Real.sin (θ / 2) := by
          have := Real.neg_one_le_sin (θ / 2)
          have h7 := Real.sin_gt_sub_cube (show 0 < θ / 2 by positivity)
          by_cases h8 : θ / 2 ≤ 1
          · nlinarith [pow_pos (show 0 < θ / 2 by positivity) 3, pow_le_one₀ (n := 2) (show 0 ≤ θ / 2 by positivity) h8]
          · linarith
        exact sq_le_sq' h6 h4.le
      rw [hs2, div_pow]
      have h9 : Real.sin (θ / 2) ^ 2 / (θ / 2) ^ 2 ≤ 1 := (div_le_one (by positivity)).mpr h3
      linarith
    · rw [hs, hs2, hd]
      field_simp
      linear_combination (-1 * Real.sin (θ / 2) ^ 2) * hq

theorem exp_rigid (d : Fin 6 → ℝ) : IsRotation (se3Exp d).R := by
  have hn : 0 ≤ (⟨d 3, d 4, d 5⟩ : P3 ℝ).normSq := by
    simp only [P3.normSq, P3.dot]; nlinarith [sq_nonneg (d 3), sq_nonneg (d 4), sq_nonneg (d 5)]
  have h := (sinc_facts (Real.sqrt_nonneg (⟨d 3, d 4, d 5⟩ : P3 ℝ).normSq)).2.2.2
  rw [Real.sq_sqrt hn] at h
  simp only [se3Exp]
  generalize Real.sinc (Real.sqrt (⟨d 3, d 4, d 5⟩ : P3 ℝ).normSq) = a at *
  generalize Real.sinc (Real.sqrt (⟨d 3, d 4, d 5⟩ : P3 ℝ).normSq / 2) ^ 2 / 2 = b at *
  simp only [P3.normSq, P3.dot] at h
  generalize d 3 = x at *
  generalize d 4 = y at *
  generalize d 5 = z at *
  constructor
  · ext <;> simp only [M3.mul, M3.transpose, M3.add, M3.one, M3.smul, crossMat]
    · linear_combination (-(y * y) - z * z) * h
    · linear_combination (x * y) * h
    · linear_combination (x * z) * h
    · linear_combination (x * y) * h
    · linear_combination (-(x * x) - z * z) * h
    · linear_combination (y * z) * h
    · linear_combination (x * z) * h
    · linear_combination (y * z) * h
    · linear_combination (-(x * x) - y * y) * h
  · simp only [M3.det, M3.mul, M3.add, M3.one, M3.smul, crossMat]
    linear_combination (-(x * x) - y * y - z * z) * h

theorem abs_two {x y m : ℝ} (hx : |x| ≤ m) (hy : |y| ≤ m) : |x * y| ≤ m ^ 2 := by
  rw [abs_mul, sq]
  exact mul_le_mul hx hy (abs_nonneg _) ((abs_nonneg _).trans hx)

theorem rot_vec {R : M3 ℝ} (hR : IsRotation R) {a : P3 ℝ} {m : ℝ} (hx : |a.x| ≤ m) (hy : |a.y| ≤ m) (hz : |a.z| ≤ m) :
    |(R.mulVec a).x| ≤ 3 * m ∧ |(R.mulVec a).y| ≤ 3 * m ∧ |(R.mulVec a).z| ≤ 3 * m := by
  obtain ⟨a1, a2, a3, a4, a5, a6, a7, a8, a9⟩ := rot_small hR
  refine ⟨?_, ?_, ?_⟩ <;> (simp only [M3.mulVec]; apply abs_sum3 <;> assumption)

/-- What the exponential adds to its linear part. -/
noncomputable def expRest (w : P3 ℝ) (a b : ℝ) : M3 ℝ := M3.add (M3.smul (a - 1) (crossMat w)) (M3.smul b ((crossMat w).mul (crossMat w)))

theorem expRest_small {w : P3 ℝ} {a b m : ℝ} (hm : 0 ≤ m) (hx : |w.x| ≤ m) (hy : |w.y| ≤ m) (hz : |w.z| ≤ m) (ha : |a - 1| ≤ m) (hb : |b| ≤ 1 / 2) :
    Small (expRest w a b) (2 * m ^ 2) := by
  have lin : ∀ u : ℝ, |u| ≤ m → |(a - 1) * u| ≤ m ^ 2 := fun u hu => abs_two ha hu
  have quad : ∀ u : ℝ, |u| ≤ 2 * m ^ 2 → |b * u| ≤ m ^ 2 := by
    intro u hu
    rw [abs_mul]
    calc |b| * |u| ≤ 1 / 2 * (2 * m ^ 2) := mul_le_mul hb hu (abs_nonneg _) (by norm_num)
      _ = m ^ 2 := by ring
  have both : ∀ u v : ℝ, |u| ≤ m → |v| ≤ 2 * m ^ 2 → |(a - 1) * u + b * v| ≤ 2 * m ^ 2 := fun u v hu hv =>
    (abs_add_le _ _).trans (by linarith [lin u hu, quad v hv])
  have hneg : ∀ u : ℝ, |u| ≤ m → |(-u)| ≤ m := fun u hu => by rwa [abs_neg]
  have h0 : |(0 : ℝ)| ≤ m := by simpa using hm
  have xx := abs_two hx hx
  have yy := abs_two hy hy
  have zz := abs_two hz hz
  have xy := abs_two hx hy
  have xz := abs_two hx hz
  have yz := abs_two hy hz
  have m2 : 0 ≤ m ^ 2 := sq_nonneg m
  constructor <;> (simp only [expRest, M3.add, M3.smul, M3.mul, crossMat]; apply both)
  all_goals first
    | exact h0
    | assumption
    | exact hneg _ ‹_›
    | (rw [abs_le] at *; constructor <;> nlinarith)

theorem cross_small {a b : P3 ℝ} {m k : ℝ} (hm : 0 ≤ m) (hk : 0 ≤ k) (a1 : |a.x| ≤ m) (a2 : |a.y| ≤ m) (a3 : |a.z| ≤ m) (b1 : |b.x| ≤ k)
    (b2 : |b.y| ≤ k) (b3 : |b.z| ≤ k) : |(P3.cross a b).x| ≤ 2 * (m * k) ∧ |(P3.cross a b).y| ≤ 2 * (m * k) ∧ |(P3.cross a b).z| ≤ 2 * (m * k) := by
  have h : ∀ u v : ℝ, |u| ≤ m → |v| ≤ k → |u * v| ≤ m * k := fun u v hu hv => by
    rw [abs_mul]; exact mul_le_mul hu hv (abs_nonneg _) hm
  have h2 : ∀ u v u' v' : ℝ, |u| ≤ m → |v| ≤ k → |u'| ≤ m → |v'| ≤ k → |u * v - u' * v'| ≤ 2 * (m * k) := fun u v u' v' hu hv hu' hv' =>
    (abs_sub _ _).trans (by linarith [h u v hu hv, h u' v' hu' hv'])
  refine ⟨?_, ?_, ?_⟩ <;> (simp only [P3.cross]; apply h2 <;> assumption)

/-- The exponential agrees with its linear part up to six times the square of the increment. -/
theorem exp_second {T : Pose3 ℝ} (hT : IsRotation T.R) (d : Fin 6 → ℝ) (hd : ‖d‖ ≤ 1) :
    ‖poseVec (T.compose (se3Exp d)) - poseVec T - (se3ExpJac T).mulVec d‖ ≤ 6 * ‖d‖ ^ 2 := by
  set m := ‖d‖ with hm
  have hm0 : 0 ≤ m := norm_nonneg d
  have hc : ∀ i, |d i| ≤ m := fun i => by rw [← Real.norm_eq_abs]; exact norm_le_pi_norm d i
  set v : P3 ℝ := ⟨d 0, d 1, d 2⟩ with hv
  set w : P3 ℝ := ⟨d 3, d 4, d 5⟩ with hw
  have hn0 : 0 ≤ w.normSq := by
    simp only [P3.normSq, P3.dot]; nlinarith [sq_nonneg w.x, sq_nonneg w.y, sq_nonneg w.z]
  have hsq : ∀ i, d i * d i ≤ m ^ 2 := fun i => by
    have := abs_two (hc i) (hc i)
    exact (le_abs_self _).trans this
  have hn : w.normSq ≤ 3 * m ^ 2 := by
    simp only [P3.normSq, P3.dot, hw]
    linarith [hsq 3, hsq 4, hsq 5]
  obtain ⟨f1, f2, f3, -⟩ := sinc_facts (Real.sqrt_nonneg w.normSq)
  rw [Real.sq_sqrt hn0] at f2
  have hb0 : 0 ≤ Real.sinc (Real.sqrt w.normSq / 2) ^ 2 / 2 := by positivity
  have hjac : (se3ExpJac T).mulVec d = poseVec ⟨T.R.mul (crossMat w), T.R.mulVec v⟩ := by
    rw [← se3_deriv T v w]
    congr 1
    funext i
    fin_cases i <;> rfl
  have hexp : se3Exp d = ⟨M3.add M3.one (M3.add (M3.smul (Real.sinc (Real.sqrt w.normSq)) (crossMat w))
      (M3.smul (Real.sinc (Real.sqrt w.normSq / 2) ^ 2 / 2) ((crossMat w).mul (crossMat w)))),
      v + (P3.smul (Real.sinc (Real.sqrt w.normSq / 2) ^ 2 / 2) (P3.cross w v) +
        P3.smul ((1 - Real.sinc (Real.sqrt w.normSq)) / w.normSq) (P3.cross w (P3.cross w v)))⟩ := rfl
  have hc6 : |(1 - Real.sinc (Real.sqrt w.normSq)) / w.normSq| ≤ 1 / 6 := by
    rw [abs_of_nonneg (div_nonneg f1 hn0)]
    rcases hn0.eq_or_lt with h0 | h0
    · rw [← h0]; norm_num
    · rw [div_le_iff₀ h0]; linarith
  have ha : |Real.sinc (Real.sqrt w.normSq) - 1| ≤ m := by
    rw [abs_sub_comm, abs_of_nonneg f1]
    nlinarith
  have hb : |Real.sinc (Real.sqrt w.normSq / 2) ^ 2 / 2| ≤ 1 / 2 := by rw [abs_of_nonneg hb0]; exact f3
  generalize Real.sinc (Real.sqrt w.normSq) = a at *
  generalize Real.sinc (Real.sqrt w.normSq / 2) ^ 2 / 2 = b at *
  generalize (1 - a) / w.normSq = c at *
  have hA := small_rot (rot_small hT) (expRest_small (w := w) hm0 (hc 3) (hc 4) (hc 5) ha hb)
  obtain ⟨x1, x2, x3⟩ := cross_small (a := w) (b := v) hm0 hm0 (hc 3) (hc 4) (hc 5) (hc 0) (hc 1) (hc 2)
  obtain ⟨y1, y2, y3⟩ := cross_small (a := w) (b := P3.cross w v) hm0 (k := 2 * (m * m)) (by positivity) (hc 3) (hc 4) (hc 5) x1 x2 x3
  have both : ∀ p q : ℝ, |p| ≤ 2 * (m * m) → |q| ≤ 2 * (m * (2 * (m * m))) → |b * p + c * q| ≤ 2 * m ^ 2 := by
    intro p q hp hq
    have h1 : |b * p| ≤ 1 / 2 * (2 * (m * m)) := by rw [abs_mul]; exact mul_le_mul hb hp (abs_nonneg _) (by norm_num)
    have h2 : |c * q| ≤ 1 / 6 * (2 * (m * (2 * (m * m)))) := by rw [abs_mul]; exact mul_le_mul hc6 hq (abs_nonneg _) (by norm_num)
    have h3 : m * (m * m) ≤ m ^ 2 := by nlinarith [sq_nonneg m]
    refine (abs_add_le _ _).trans ?_
    nlinarith [sq_nonneg m]
  set u : P3 ℝ := P3.smul b (P3.cross w v) + P3.smul c (P3.cross w (P3.cross w v)) with hu
  obtain ⟨t1, t2, t3⟩ := rot_vec hT (a := u) (both _ _ x1 y1) (both _ _ x2 y2) (both _ _ x3 y3)
  have hdiff : poseVec (T.compose (se3Exp d)) - poseVec T - (se3ExpJac T).mulVec d =
      poseVec ⟨T.R.mul (expRest w a b), T.R.mulVec u⟩ := by
    rw [hjac, hexp]
    rcases T with ⟨R, t⟩
    funext i
    fin_cases i <;> simp [poseVec, Pose3.compose, M3.mul, M3.mulVec, M3.add, M3.one, M3.smul, expRest, hu, P3.smul] <;> ring
  rw [hdiff, pi_norm_le_iff_of_nonneg (by positivity)]
  obtain ⟨e1, e2, e3, e4, e5, e6, e7, e8, e9⟩ := hA
  have h6 : 3 * (2 * m ^ 2) = 6 * m ^ 2 := by ring
  rw [← h6]
  intro q
  rw [Real.norm_eq_abs]
  fin_cases q
  · exact e1
  · exact e4
  · exact e7
  · exact e2
  · exact e5
  · exact e8
  · exact e3
  · exact e6
  · exact e9
  · exact t1
  · exact t2
  · exact t3

theorem se3_second : SecondOrderExp se3Env where
  rigid := exp_rigid
  near := ⟨6, by norm_num, 1, one_pos, fun _ hT d hd => exp_second hT d hd⟩

end Verif.Lemmas.Conv
