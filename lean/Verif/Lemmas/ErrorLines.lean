import Verif.Lemmas.ErrorTerms
import Verif.Spec.Calculus
namespace Verif
open Spec
set_option linter.unusedSectionVars false
set_option linter.unusedSimpArgs false
variable {K : Type} [Field K]

theorem exactChange_scaled {n : Nat} {f : Pose3 K → Fin n → K} {J : Matrix (Fin n) (Fin 12) K} {T : Pose3 K}
    (h : ExactChange f J T) (D : Pose3 K) (i : Fin n) (s : K) :
    f (perturb T (scalePose s D)) i = f T i + s * (J.mulVec (poseVec D)) i := by
  rw [h, poseVec_scale, Matrix.mulVec_smul]; rfl

theorem exactChange_isJacobian {n : Nat} {f : Pose3 ℝ → Fin n → ℝ} {J : Matrix (Fin n) (Fin 12) ℝ} {T : Pose3 ℝ}
    (h : ExactChange f J T) : IsJacobianAt f J T := by
  intro D i
  simp only [exactChange_scaled h]
  have := ((hasDerivAt_id (0 : ℝ)).mul_const (J.mulVec (poseVec D) i)).const_add (f T i)
  simpa using this

theorem ln2ln_dir_translation (p : LnPair K) (T : Pose3 K) (d : P3 K) :
    Err.ln2lnDir p (perturb T ⟨M3.zero, d⟩) = Err.ln2lnDir p T := by
  simp [Err.ln2lnDir, perturb, M3.add, M3.zero]

theorem ln2ln_cross_translation (p : LnPair K) (T : Pose3 K) (d : P3 K) :
    Err.ln2lnCross p (perturb T ⟨M3.zero, d⟩) = Err.ln2lnCross p T := by
  simp only [Err.ln2lnCross, ln2ln_dir_translation]

theorem ln2ln_base_translation (p : LnPair K) (T : Pose3 K) (d : P3 K) :
    Err.ln2lnBase p (perturb T ⟨M3.zero, d⟩) = Err.ln2lnBase p T + d := by
  ext <;> simp [Err.ln2lnBase, perturb, M3.add, M3.zero, Pose3.composePoint, M3.mulVec] <;> ring

/-- Translations: the general branch of the line-to-line Jacobian is exact. -/
theorem ln2ln_translation_exact (E : Err.LnEnv K) (je : Fin 4 → K) (jJ : Matrix (Fin 4) (Fin 12) K) (p : LnPair K)
    (T : Pose3 K) (h : E.parallel p.lnGlobal.director (Err.ln2lnDir p T) = false) (d : P3 K) (i : Fin 4) :
    Err.ln2ln E je p (perturb T ⟨M3.zero, d⟩) i
      = Err.ln2ln E je p T i + ((Err.ln2lnJac E jJ p T).mulVec (poseVec ⟨M3.zero, d⟩)) i := by
  have e1 := ln2ln_dir_translation p T d
  have e2 := ln2ln_cross_translation p T d
  have e3 := ln2ln_base_translation p T d
  simp only [Err.ln2ln, Err.ln2lnJac, e1, e2, e3, h, Bool.false_eq_true, if_false]
  fin_cases i
  · simp [Err.ln2lnJ1, Err.ln2lnJ2, Matrix.mulVec, Matrix.mul_apply, dotProduct, Fin.sum_univ_succ,
      poseVec, M3.zero, P3.dot]
    generalize Err.ln2lnCross p T = c
    generalize E.sqrt c.normSq = B
    ring
  all_goals
    simp [Err.ln2lnJ1, Err.ln2lnJ2, Matrix.mulVec, Matrix.mul_apply, dotProduct, Fin.sum_univ_succ,
      poseVec, M3.zero]

theorem ln2ln_dir_perturb (p : LnPair K) (T D : Pose3 K) :
    Err.ln2lnDir p (perturb T D) = Err.ln2lnDir p T + D.R.transpose.mulVec p.lnLocal.director := by
  ext <;> simp [Err.ln2lnDir, perturb, M3.add, M3.transpose, M3.mulVec] <;> ring

/-- In the general branch the last three entries change by `Dᵀ u0`, while the Jacobian says `-D u0`. -/
theorem ln2ln_general_change (E : Err.LnEnv K) (je : Fin 4 → K) (p : LnPair K) (T D : Pose3 K)
    (h : E.parallel p.lnGlobal.director (Err.ln2lnDir p T) = false)
    (h' : E.parallel p.lnGlobal.director (Err.ln2lnDir p (perturb T D)) = false) :
    Err.ln2ln E je p (perturb T D) 1 = Err.ln2ln E je p T 1 + (D.R.transpose.mulVec p.lnLocal.director).x ∧
    Err.ln2ln E je p (perturb T D) 2 = Err.ln2ln E je p T 2 + (D.R.transpose.mulVec p.lnLocal.director).y ∧
    Err.ln2ln E je p (perturb T D) 3 = Err.ln2ln E je p T 3 + (D.R.transpose.mulVec p.lnLocal.director).z := by
  rw [ln2ln_dir_perturb] at h'
  refine ⟨?_, ?_, ?_⟩ <;>
    simp [Err.ln2ln, h, ln2ln_dir_perturb, h'] <;> ring

theorem ln2ln_general_jac (E : Err.LnEnv K) (jJ : Matrix (Fin 4) (Fin 12) K) (p : LnPair K) (T D : Pose3 K)
    (h : E.parallel p.lnGlobal.director (Err.ln2lnDir p T) = false) :
    ((Err.ln2lnJac E jJ p T).mulVec (poseVec D)) 1 = -(D.R.mulVec p.lnLocal.director).x ∧
    ((Err.ln2lnJac E jJ p T).mulVec (poseVec D)) 2 = -(D.R.mulVec p.lnLocal.director).y ∧
    ((Err.ln2lnJac E jJ p T).mulVec (poseVec D)) 3 = -(D.R.mulVec p.lnLocal.director).z := by
  refine ⟨?_, ?_, ?_⟩ <;>
    simp [Err.ln2lnJac, h, Err.ln2lnJ1, Err.ln2lnJ2, Matrix.mulVec, Matrix.mul_apply, dotProduct, Fin.sum_univ_succ,
      poseVec, M3.mulVec] <;> ring

theorem ln2ln_base_perturb (p : LnPair K) (T D : Pose3 K) :
    Err.ln2lnBase p (perturb T D) = Err.ln2lnBase p T + D.composePoint p.lnLocal.pBase := by
  ext <;> simp [Err.ln2lnBase, perturb, M3.add, Pose3.composePoint, M3.mulVec] <;> ring

/-- In the "parallel" branch entry 0 is quadratic in the perturbation, with the reported linear term. -/
theorem ln2ln_parallel_expand (E : Err.LnEnv K) (je : Fin 4 → K) (jJ : Matrix (Fin 4) (Fin 12) K) (p : LnPair K)
    (T D : Pose3 K) (h : E.parallel p.lnGlobal.director (Err.ln2lnDir p T) = true)
    (h' : E.parallel p.lnGlobal.director (Err.ln2lnDir p (perturb T D)) = true) :
    Err.ln2ln E je p (perturb T D) 0 = Err.ln2ln E je p T 0 + ((Err.ln2lnJac E jJ p T).mulVec (poseVec D)) 0
      + ((D.composePoint p.lnLocal.pBase).normSq - (D.composePoint p.lnLocal.pBase).dot p.lnGlobal.director
          * (D.composePoint p.lnLocal.pBase).dot p.lnGlobal.director / p.lnGlobal.director.normSq) := by
  rw [ln2ln_parallel_row E je p T h, ln2ln_parallel_row E je p _ h', ln2ln_base_perturb]
  have hJ : ((Err.ln2lnJac E jJ p T).mulVec (poseVec D)) (0 : Fin 4)
      = 2 * (Err.ln2lnBase p T).dot (D.composePoint p.lnLocal.pBase)
        - 2 / p.lnGlobal.director.normSq * (Err.ln2lnBase p T).dot p.lnGlobal.director
          * p.lnGlobal.director.dot (D.composePoint p.lnLocal.pBase) := by
    simp [Err.ln2lnJac, h, Err.ln2lnJ1Par, Err.composeJac, Matrix.mulVec, Matrix.mul_apply, dotProduct, Fin.sum_univ_succ,
      poseVec, Pose3.composePoint, M3.mulVec, P3.dot]
    ring
  rw [hJ]
  generalize D.composePoint p.lnLocal.pBase = q
  generalize Err.ln2lnBase p T = b
  generalize p.lnGlobal.director = u
  generalize u.normSq = m
  simp [P3.normSq, P3.dot]
  ring

end Verif
