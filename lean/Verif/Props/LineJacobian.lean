import Verif.Lemmas.ErrorLines
import Mathlib.Analysis.SpecialFunctions.Sqrt
import Mathlib.Analysis.Calculus.Deriv.Inv
import Mathlib.Tactic.FieldSimp
import Mathlib.Tactic.LinearCombination
/-
C32, the line-to-line term: the first entry of the error, its true derivative, and what the code reports instead.
-/
namespace Verif.Props
open Verif.Spec
set_option linter.unusedSectionVars false

/-- Gradient of `v ↦ q · (v × u) / |v × u|` at a `v` with `v × u = w`, `|w| = B`: `(u × q)/B - (q·w) (u × w)/B³`. -/
def lineGrad {K : Type} [Field K] (q u w : P3 K) (B : K) : P3 K :=
  P3.smul (1 / B) (u.cross q) - P3.smul (q.dot w / (B * B * B)) (u.cross w)

/-- The derivative of the first entry (signed distance between the lines) in the direction `D`: with `q` the vector
between the base points, `w` the cross product of the moved and the global director, `B` its length.  The director of the moved
line is, as in the error itself, `Rᵀ u`. -/
theorem line2line_true_derivative (E : Err.LnEnv ℝ) (hE : ∀ x, E.sqrt x = Real.sqrt x) (je : Fin 4 → ℝ)
    (p : LnPair ℝ) (T D : Pose3 ℝ) (U w q : P3 ℝ)
    (hU : U = T.R.transpose.mulVec p.lnLocal.director)
    (hw : w = U.cross p.lnGlobal.director) (hw0 : w.normSq ≠ 0)
    (hq : q = T.composePoint p.lnLocal.pBase - p.lnGlobal.pBase)
    (h : ∀ s : ℝ, E.parallel p.lnGlobal.director ((perturb T (scalePose s D)).R.transpose.mulVec p.lnLocal.director) = false) :
    HasDerivAt (fun s : ℝ => Err.ln2ln E je p (perturb T (scalePose s D)) 0)
      (w.dot (D.composePoint p.lnLocal.pBase) / Real.sqrt w.normSq
        + (lineGrad q p.lnGlobal.director w (Real.sqrt w.normSq)).dot (D.R.transpose.mulVec p.lnLocal.director)) 0 := by
  set dq := D.composePoint p.lnLocal.pBase with hdq
  set v := D.R.transpose.mulVec p.lnLocal.director with hv
  set u := p.lnGlobal.director with hu
  set dw := v.cross u with hdw
  have hcs : ∀ s : ℝ, Err.ln2lnCross p (perturb T (scalePose s D)) = w + P3.smul s dw := by
    intro s
    rw [hw, hU, hdw, hv]
    ext <;> simp [Err.ln2lnCross, Err.ln2lnDir, perturb, scalePose, M3.add, M3.smul, M3.transpose, M3.mulVec, P3.cross] <;> ring
  have hbs : ∀ s : ℝ, Err.ln2lnBase p (perturb T (scalePose s D)) = q + P3.smul s dq := by
    intro s
    rw [ln2ln_base_perturb, hq, hdq]
    ext <;> simp [Err.ln2lnBase, scalePose, Pose3.composePoint, M3.smul, M3.mulVec] <;> ring
  have e : (fun s : ℝ => Err.ln2ln E je p (perturb T (scalePose s D)) 0) = fun s : ℝ =>
      (q + P3.smul s dq).dot (w + P3.smul s dw) / Real.sqrt (w + P3.smul s dw).normSq := by
    funext s
    have hs := h s
    have : Err.ln2lnDir p (perturb T (scalePose s D))
      = (perturb T (scalePose s D)).R.transpose.mulVec p.lnLocal.director := rfl
    simp [Err.ln2ln, this, ← hu, hs, hcs, hbs, hE]
  rw [e]
  have hnum : HasDerivAt (fun s : ℝ => (q + P3.smul s dq).dot (w + P3.smul s dw)) (dq.dot w + q.dot dw) 0 := by
    have e1 : (fun s : ℝ => (q + P3.smul s dq).dot (w + P3.smul s dw))
        = fun s : ℝ => q.dot w + s * (dq.dot w + q.dot dw) + s * s * dq.dot dw := by
      funext s; simp [P3.dot]; ring
    rw [e1]
    have hid := hasDerivAt_id (0 : ℝ)
    have := ((hid.mul_const (dq.dot w + q.dot dw)).const_add (q.dot w)).add ((hid.mul hid).mul_const (dq.dot dw))
    simp at this
    exact this
  have hin : HasDerivAt (fun s : ℝ => (w + P3.smul s dw).normSq) (2 * w.dot dw) 0 := by
    have e1 : (fun s : ℝ => (w + P3.smul s dw).normSq)
        = fun s : ℝ => w.normSq + s * (2 * w.dot dw) + s * s * dw.normSq := by
      funext s; simp [P3.dot, P3.normSq]; ring
    rw [e1]
    have hid := hasDerivAt_id (0 : ℝ)
    have := ((hid.mul_const (2 * w.dot dw)).const_add (w.normSq)).add ((hid.mul hid).mul_const dw.normSq)
    simp at this
    exact this
  have z : ∀ a b : P3 ℝ, a + P3.smul 0 b = a := by intro a b; ext <;> simp
  have hsq := hin.sqrt (by rw [z]; exact hw0)
  have hpos : 0 < w.normSq := lt_of_le_of_ne (by
    simp only [P3.normSq, P3.dot]; nlinarith [mul_self_nonneg w.x, mul_self_nonneg w.y, mul_self_nonneg w.z]) (Ne.symm hw0)
  have hB : Real.sqrt w.normSq ≠ 0 := (Real.sqrt_pos.mpr hpos).ne'
  have := hnum.div hsq (by rw [z]; exact hB)
  refine this.congr_deriv ?_
  simp only [z]
  have hBB : Real.sqrt w.normSq * Real.sqrt w.normSq = w.normSq := Real.mul_self_sqrt hpos.le
  set B := Real.sqrt w.normSq
  have g1 : (lineGrad q u w B).dot v = q.dot dw / B - q.dot w * (w.dot dw) / (B * B * B) := by
    rw [hdw]; simp [lineGrad, P3.dot, P3.cross]; field_simp; ring
  have g2 : w.dot dq = dq.dot w := by simp [P3.dot]; ring
  rw [g1, g2]
  field_simp
  ring

/-- What the code reports instead: the director part has the opposite sign and the rotation not transposed, and the y component
of the gradient is wrong by `2 (q·w) u.x w.z / B³` (a plus for a minus in errorTerms.cpp:269). -/
theorem line2line_reported_derivative {K : Type} [Field K] (E : Err.LnEnv K) (jJ : Matrix (Fin 4) (Fin 12) K)
    (p : LnPair K) (T D : Pose3 K) (U w q : P3 K) (B : K)
    (hU : U = T.R.transpose.mulVec p.lnLocal.director)
    (hw : w = U.cross p.lnGlobal.director) (hB : B = E.sqrt w.normSq) (hB0 : B ≠ 0)
    (hq : q = T.composePoint p.lnLocal.pBase - p.lnGlobal.pBase)
    (h : E.parallel p.lnGlobal.director U = false) :
    ((Err.ln2lnJac E jJ p T).mulVec (poseVec D)) 0 =
      w.dot (D.composePoint p.lnLocal.pBase) / B
        - (lineGrad q p.lnGlobal.director w B
            - ⟨0, 2 * q.dot w * p.lnGlobal.director.x * w.z / (B * B * B), 0⟩).dot (D.R.mulVec p.lnLocal.director) := by
  have hc : Err.ln2lnCross p T = w := by
    rw [hw, hU]; ext <;> simp [Err.ln2lnCross, Err.ln2lnDir, P3.cross]
  have hb : Err.ln2lnBase p T = q := hq.symm
  have hd : Err.ln2lnDir p T = U := hU.symm
  simp only [Err.ln2lnJac, hd, h, Bool.false_eq_true]
  simp [Err.ln2lnJ1, Err.ln2lnJ2, Err.ln2lnJ12, hc, hb, ← hB, Matrix.mulVec, Matrix.mul_apply, dotProduct,
    Fin.sum_univ_succ, poseVec, M3.mulVec, lineGrad, P3.dot, P3.cross, Pose3.composePoint]
  field_simp
  ring

/-- Hypotheses met: perpendicular unit directors. -/
example : ∃ (E : Err.LnEnv ℚ) (p : LnPair ℚ) (T : Pose3 ℚ) (U w : P3 ℚ),
    U = T.R.transpose.mulVec p.lnLocal.director ∧ w = U.cross p.lnGlobal.director ∧ E.sqrt w.normSq ≠ 0 ∧
    E.parallel p.lnGlobal.director U = false :=
  ⟨⟨id, fun a b => a == b⟩, ⟨⟨⟨0, 0, 0⟩, ⟨0, 1, 0⟩⟩, ⟨⟨0, 0, 1⟩, ⟨1, 0, 0⟩⟩⟩, Pose3.identity, ⟨1, 0, 0⟩, ⟨0, 0, 1⟩,
    by decide +kernel, by decide +kernel, by decide +kernel, by decide +kernel⟩

end Verif.Props
