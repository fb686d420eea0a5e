import Verif.Spec.Downhill
import Verif.Lemmas.ErrorTerms
import Verif.Lemmas.GaussNewton
import Mathlib.Analysis.SpecialFunctions.Log.Deriv
import Mathlib.Analysis.Calculus.Deriv.Inv
import Mathlib.Analysis.InnerProductSpace.PiL2
import Mathlib.Analysis.InnerProductSpace.Symmetric
import Mathlib.Analysis.Matrix.Hermitian
import Mathlib.Tactic.FinCases
import Mathlib.Tactic.Ring
import Mathlib.Tactic.FieldSimp
import Mathlib.Tactic.Positivity
/-
Lemmas for C114.
-/
namespace Verif.Lemmas
open Verif Verif.Gn Verif.Spec Verif.Spec.GN

theorem loss_deriv (k : RobustKernel) (c s : ℝ) (hk : k = .none ∨ 0 < c) (hs : 0 ≤ s) :
    HasDerivAt (loss k c) (kernelFactor k c s) s := by
  cases k with
  | none =>
    have : loss .none c = fun x => x := rfl
    rw [this]
    exact (hasDerivAt_id s).congr_deriv rfl
  | gemanMcClure =>
    have hc : 0 < c := by simpa using hk
    have hne : s + c ≠ 0 := by positivity
    have h1 : HasDerivAt (fun x : ℝ => c * x) (c * 1) s := (hasDerivAt_id s).const_mul c
    have h2 : HasDerivAt (fun x : ℝ => x + c) 1 s := (hasDerivAt_id s).add_const c
    have h := h1.div h2 hne
    refine h.congr_deriv ?_
    simp only [kernelFactor]
    field_simp
    ring
  | cauchy =>
    have hc : 0 < c := by simpa using hk
    have hne : 1 + s / c ^ 2 ≠ 0 := by positivity
    have h1 : HasDerivAt (fun x : ℝ => 1 + x / c ^ 2) (1 / c ^ 2) s := ((hasDerivAt_id s).div_const _).const_add 1
    have h := (h1.log hne).const_mul (c ^ 2)
    refine h.congr_deriv ?_
    simp only [kernelFactor]
    have : s + c ^ 2 ≠ 0 := by positivity
    field_simp
    try ring

/-- The change from `T` to `U`. -/
def poseDiff (T U : Pose3 ℝ) : Pose3 ℝ :=
  ⟨⟨U.R.a00 - T.R.a00, U.R.a01 - T.R.a01, U.R.a02 - T.R.a02, U.R.a10 - T.R.a10, U.R.a11 - T.R.a11, U.R.a12 - T.R.a12,
    U.R.a20 - T.R.a20, U.R.a21 - T.R.a21, U.R.a22 - T.R.a22⟩, ⟨U.t.x - T.t.x, U.t.y - T.t.y, U.t.z - T.t.z⟩⟩

theorem perturb_diff (T U : Pose3 ℝ) : perturb T (poseDiff T U) = U := by
  unfold perturb poseDiff
  rcases U with ⟨UR, Ut⟩
  congr 1
  · ext <;> simp [M3.add]
  · ext <;> simp

theorem poseVec_diff (T U : Pose3 ℝ) : poseVec (poseDiff T U) = poseVec U - poseVec T := by
  funext i
  fin_cases i <;> simp [poseVec, poseDiff]

/-- One weighted loss along a motion. -/
theorem term_rate {E : Env ℝ} {P : Params ℝ} (hE : DerivesExp E) (h0 : FixesZero E) (hk : P.kernel = .none ∨ 0 < P.kernelParam)
    {n : Nat} {f : Pose3 ℝ → Fin n → ℝ} {J : Matrix (Fin n) (Fin 12) ℝ} (T : Pose3 ℝ) (hf : ExactChange f J T) (w : ℝ) (d : Fin 6 → ℝ) :
    HasDerivAt (fun s => w * loss P.kernel P.kernelParam (sqLen (f (path E T d s))))
      (2 * (term (E.expJac T) (robust P w (f T)) J (f T)).2 ⬝ᵥ d) 0 := by
  have hp0 : path E T d 0 = T := by
    unfold path
    rw [zero_smul, h0]
    rcases T with ⟨R, t⟩
    simp only [Pose3.compose, Pose3.identity]
    congr 1
    · ext <;> simp [M3.mul, M3.one]
    · ext <;> simp [M3.mulVec]
  have he : ∀ s i, f (path E T d s) i = f T i + ∑ j, J i j * (poseVec (path E T d s) j - poseVec T j) := by
    intro s i
    have := hf (poseDiff T (path E T d s)) i
    rw [perturb_diff, poseVec_diff] at this
    rw [this]
    rfl
  have hd : ∀ i, HasDerivAt (fun s => f (path E T d s) i) (((J * E.expJac T).mulVec d) i) 0 := by
    intro i
    have h1 : HasDerivAt (fun s => f T i + ∑ j, J i j * (poseVec (path E T d s) j - poseVec T j))
        (∑ j, J i j * ((E.expJac T).mulVec d j)) 0 := by
      refine HasDerivAt.const_add _ ?_
      refine HasDerivAt.fun_sum fun j _ => ?_
      exact ((hE T d j).sub_const _).const_mul _
    have h2 : ((J * E.expJac T).mulVec d) i = ∑ j, J i j * ((E.expJac T).mulVec d j) := by
      rw [← Matrix.mulVec_mulVec]; rfl
    rw [h2]
    exact h1.congr_of_eventuallyEq (Filter.Eventually.of_forall fun s => he s i)
  have hq : HasDerivAt (fun s => sqLen (f (path E T d s))) (2 * ∑ i, f T i * ((J * E.expJac T).mulVec d) i) 0 := by
    have : HasDerivAt (fun s => ∑ i, f (path E T d s) i * f (path E T d s) i)
        (∑ i, (((J * E.expJac T).mulVec d) i * f (path E T d 0) i + f (path E T d 0) i * ((J * E.expJac T).mulVec d) i)) 0 :=
      HasDerivAt.fun_sum fun i _ => (hd i).mul (hd i)
    refine this.congr_deriv ?_
    rw [hp0, Finset.mul_sum]
    exact Finset.sum_congr rfl fun i _ => by ring
  have hs : 0 ≤ sqLen (f (path E T d 0)) := Finset.sum_nonneg fun _ _ => mul_self_nonneg _
  have hl := (HasDerivAt.comp (0 : ℝ) (loss_deriv P.kernel P.kernelParam _ hk hs) hq).const_mul w
  refine hl.congr_deriv ?_
  rw [hp0]
  simp only [term, robust, smul_dotProduct, smul_eq_mul]
  have : (J * E.expJac T).transpose.mulVec (f T) ⬝ᵥ d = ∑ i, f T i * ((J * E.expJac T).mulVec d) i := by
    rw [Matrix.mulVec_transpose, ← Matrix.dotProduct_mulVec]; rfl
  rw [this]
  ring

theorem list_rate {α : Type} (l : List α) (c : α → ℝ → ℝ) (t : α → Sys ℝ) (d : Fin 6 → ℝ)
    (h : ∀ q, HasDerivAt (c q) (2 * (t q).2 ⬝ᵥ d) 0) :
    HasDerivAt (fun s => (l.map fun q => c q s).sum) (2 * (l.map t).sum.2 ⬝ᵥ d) 0 := by
  induction l with
  | nil => simpa using hasDerivAt_const (0 : ℝ) (0 : ℝ)
  | cons a l ih =>
    simp only [List.map_cons, List.sum_cons, Prod.snd_add, add_dotProduct, mul_add]
    exact (h a).add ih

/-- Over the reals, a symmetric system has a solution as soon as its right-hand side is orthogonal to the kernel. -/
theorem symmetric_solvable {n : Nat} (H : Matrix (Fin n) (Fin n) ℝ) (hH : H.transpose = H) (g : Fin n → ℝ)
    (h : ∀ d, H.mulVec d = 0 → g ⬝ᵥ d = 0) : ∃ x, H.mulVec x = g := by
  classical
  let A := H.toEuclideanLin
  have hA : A.IsSymmetric := by
    refine Matrix.isSymmetric_toEuclideanLin_iff.mpr ?_
    rw [Matrix.IsHermitian, Matrix.conjTranspose, hH]
    ext i j; simp
  have hg : (WithLp.toLp 2 g : EuclideanSpace ℝ (Fin n)) ∈ LinearMap.range A := by
    have h1 : LinearMap.range A = (LinearMap.ker A)ᗮ := by
      rw [← hA.orthogonal_range, Submodule.orthogonal_orthogonal]
    rw [h1, Submodule.mem_orthogonal]
    intro u hu
    have hu' : H.mulVec u.ofLp = 0 := by
      have := LinearMap.mem_ker.mp hu
      have h2 := congrArg WithLp.ofLp this
      simpa [A, Matrix.toEuclideanLin] using h2
    have := h u.ofLp hu'
    rw [EuclideanSpace.inner_eq_star_dotProduct]
    simpa using this
  obtain ⟨x, hx⟩ := hg
  refine ⟨x.ofLp, ?_⟩
  have h2 := congrArg WithLp.ofLp hx
  simpa [A, Matrix.toEuclideanLin] using h2

/-- The losses are concave: they lie below their tangents. -/
theorem loss_tangent (k : RobustKernel) (c s t : ℝ) (hk : k = .none ∨ 0 < c) (hs : 0 ≤ s) (ht : 0 ≤ t) :
    loss k c t ≤ loss k c s + kernelFactor k c s * (t - s) := by
  cases k with
  | none => simp [loss, kernelFactor]
  | gemanMcClure =>
    have hc : 0 < c := by simpa using hk
    have hne : 0 < s + c := by positivity
    have hne' : 0 < t + c := by positivity
    have : c * s / (s + c) + c ^ 2 / (s + c) ^ 2 * (t - s) - c * t / (t + c) = c ^ 2 * (t - s) ^ 2 / ((s + c) ^ 2 * (t + c)) := by
      field_simp
      ring
    have h2 : 0 ≤ c ^ 2 * (t - s) ^ 2 / ((s + c) ^ 2 * (t + c)) := by positivity
    simp only [loss, kernelFactor]
    linarith
  | cauchy =>
    have hc : 0 < c := by simpa using hk
    have h1 : 0 < 1 + s / c ^ 2 := by positivity
    have h2 : 0 < 1 + t / c ^ 2 := by positivity
    have h3 := Real.log_le_sub_one_of_pos (div_pos h2 h1)
    rw [Real.log_div h2.ne' h1.ne'] at h3
    have h4 : c ^ 2 * ((1 + t / c ^ 2) / (1 + s / c ^ 2) - 1) = c ^ 2 / (s + c ^ 2) * (t - s) := by
      have : s + c ^ 2 ≠ 0 := by positivity
      field_simp
      ring
    have h5 := mul_le_mul_of_nonneg_left h3 (by positivity : 0 ≤ c ^ 2)
    rw [h4] at h5
    simp only [loss, kernelFactor]
    linarith

/-- One weighted loss, against the weighted square. -/
theorem term_tangent {P : Params ℝ} (hk : P.kernel = .none ∨ 0 < P.kernelParam) {n : Nat} (a b : Fin n → ℝ) {w : ℝ} (hw : 0 ≤ w) :
    w * loss P.kernel P.kernelParam (sqLen b) - w * loss P.kernel P.kernelParam (sqLen a) ≤ robust P w a * sqLen b - robust P w a * sqLen a := by
  have h := loss_tangent P.kernel P.kernelParam (sqLen a) (sqLen b) hk (Finset.sum_nonneg fun _ _ => mul_self_nonneg _)
    (Finset.sum_nonneg fun _ _ => mul_self_nonneg _)
  have := mul_le_mul_of_nonneg_left h hw
  unfold robust
  nlinarith

theorem list_tangent {α : Type} (l : List α) (a b c d : α → ℝ) (h : ∀ q ∈ l, a q - b q ≤ c q - d q) :
    (l.map a).sum - (l.map b).sum ≤ (l.map c).sum - (l.map d).sum := by
  induction l with
  | nil => simp
  | cons x l ih =>
    have h1 := h x (by simp)
    have h2 := ih fun q hq => h q (by simp [hq])
    simp only [List.map_cons, List.sum_cons]
    linarith

/-- A system of normal equations: symmetric, not negative, and where its form vanishes so do its matrix and its right-hand side. -/
structure Normal (s : Sys ℝ) : Prop where
  symm : s.1.transpose = s.1
  nonneg : ∀ d, 0 ≤ d ⬝ᵥ s.1.mulVec d
  still : ∀ d, d ⬝ᵥ s.1.mulVec d = 0 → s.1.mulVec d = 0 ∧ s.2 ⬝ᵥ d = 0

theorem normal_zero : Normal 0 := ⟨by simp, by simp, by simp⟩

theorem normal_add {a b : Sys ℝ} (ha : Normal a) (hb : Normal b) : Normal (a + b) := by
  refine ⟨by rw [Prod.fst_add, Matrix.transpose_add, ha.symm, hb.symm], fun d => ?_, fun d h => ?_⟩
  · rw [Prod.fst_add, Matrix.add_mulVec, dotProduct_add]
    exact add_nonneg (ha.nonneg d) (hb.nonneg d)
  · rw [Prod.fst_add, Matrix.add_mulVec, dotProduct_add] at h
    have h1 := ha.nonneg d
    have h2 := hb.nonneg d
    have h3 := ha.still d (by linarith)
    have h4 := hb.still d (by linarith)
    rw [Prod.fst_add, Prod.snd_add, Matrix.add_mulVec, add_dotProduct, h3.1, h3.2, h4.1, h4.2]
    simp

theorem normal_sum {α : Type} (l : List α) (t : α → Sys ℝ) (h : ∀ q ∈ l, Normal (t q)) : Normal (l.map t).sum := by
  induction l with
  | nil => exact normal_zero
  | cons x l ih =>
    rw [List.map_cons, List.sum_cons]
    exact normal_add (h x (by simp)) (ih fun q hq => h q (by simp [hq]))

theorem normal_term {n : Nat} (D : Matrix (Fin 12) (Fin 6) ℝ) {w : ℝ} (hw : 0 ≤ w) (J : Matrix (Fin n) (Fin 12) ℝ) (e : Fin n → ℝ) :
    Normal (term D w J e) := by
  have hq : ∀ d, d ⬝ᵥ (term D w J e).1.mulVec d = w * sqLen ((J * D).mulVec d) := by
    intro d
    simp only [term, Matrix.smul_mulVec, dotProduct_smul, smul_eq_mul]
    rw [← Matrix.mulVec_mulVec, Matrix.dotProduct_mulVec, Matrix.vecMul_transpose]
    rfl
  have hn : ∀ d, 0 ≤ sqLen ((J * D).mulVec d) := fun d => Finset.sum_nonneg fun _ _ => mul_self_nonneg _
  refine ⟨?_, fun d => by rw [hq]; exact mul_nonneg hw (hn d), fun d h => ?_⟩
  · simp only [term, Matrix.transpose_smul, Matrix.transpose_mul, Matrix.transpose_transpose]
  · rw [hq] at h
    rcases mul_eq_zero.mp h with h | h
    · simp [term, h]
    · have h0 : (J * D).mulVec d = 0 := by
        funext i
        have := (Finset.sum_eq_zero_iff_of_nonneg (fun i _ => mul_self_nonneg ((J * D).mulVec d i))).mp h i (Finset.mem_univ i)
        simpa using this
      constructor
      · simp only [term, Matrix.smul_mulVec]
        rw [← Matrix.mulVec_mulVec, h0]
        simp
      · simp only [term, smul_dotProduct]
        rw [Matrix.mulVec_transpose, ← Matrix.dotProduct_mulVec, h0]
        simp

end Verif.Lemmas
