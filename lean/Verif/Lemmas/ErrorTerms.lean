import Verif.Model.ErrorTerms
import Verif.Spec.ErrorTerms
import Mathlib.Tactic.Ring
import Mathlib.Tactic.LinearCombination
import Mathlib.Tactic.Linarith
import Mathlib.Tactic.FieldSimp
import Mathlib.Tactic.FinCases
import Mathlib.Algebra.BigOperators.Fin
namespace Verif
open Spec
set_option linter.unusedSectionVars false
set_option linter.unusedSimpArgs false
variable {K : Type} [Field K]

theorem pt2pt_exact (p : PtPair K) (T : Pose3 K) : ExactChange (Err.pt2pt p) (Err.pt2ptJac p) T := by
  intro D i
  fin_cases i <;>
    simp [Err.pt2pt, Err.pt2ptJac, Err.composeJac, Matrix.mulVec, dotProduct, Fin.sum_univ_succ, perturb, poseVec,
      Pose3.composePoint, M3.mulVec, M3.add] <;> ring

theorem pt2ln_exact (p : PtLnPair K) (T : Pose3 K) : ExactChange (Err.pt2ln p) (Err.pt2lnJac p) T := by
  intro D i
  fin_cases i <;>
    simp [Err.pt2ln, Err.pt2lnJac, Err.composeJac, Matrix.mulVec, Matrix.mul_apply, dotProduct, Fin.sum_univ_succ,
      perturb, poseVec, Pose3.composePoint, M3.mulVec, M3.add, P3.dot] <;> ring

theorem pt2pl_exact (p : PtPlPair K) (T : Pose3 K) : ExactChange (Err.pt2pl p) (Err.pt2plJac p) T := by
  intro D i
  fin_cases i <;>
    simp [Err.pt2pl, Err.pt2plJac, Err.composeJac, Matrix.mulVec, Matrix.mul_apply, dotProduct, Fin.sum_univ_succ,
      perturb, poseVec, Pose3.composePoint, M3.mulVec, M3.add, P3.dot] <;> ring

theorem pl2pl_exact (p : PlPair K) (T : Pose3 K) : ExactChange (Err.pl2pl p) (Err.pl2plJac p) T := by
  intro D i
  fin_cases i <;>
    simp [Err.pl2pl, Err.pl2plJac, Matrix.mulVec, dotProduct, Fin.sum_univ_succ, perturb, poseVec,
      M3.mulVec, M3.add] <;> ring

theorem poseVec_scale (s : K) (D : Pose3 K) : poseVec (scalePose s D) = s • poseVec D := by
  ext i
  fin_cases i <;> simp [poseVec, scalePose, M3.smul]

section order
variable [LinearOrder K] [IsStrictOrderedRing K]

theorem normSq_nonneg' (v : P3 K) : 0 ≤ v.normSq := by
  simp only [P3.normSq, P3.dot]
  have := mul_self_nonneg v.x; have := mul_self_nonneg v.y; have := mul_self_nonneg v.z; linarith

theorem normSq_eq_zero' {v : P3 K} : v.normSq = 0 ↔ v = 0 := by
  constructor
  · intro h
    simp only [P3.normSq, P3.dot] at h
    have hx := mul_self_nonneg v.x; have hy := mul_self_nonneg v.y; have hz := mul_self_nonneg v.z
    ext
    · exact mul_self_eq_zero.mp (by linarith)
    · exact mul_self_eq_zero.mp (by linarith)
    · exact mul_self_eq_zero.mp (by linarith)
  · rintro rfl; simp [P3.normSq, P3.dot]

theorem sqLen_eq_zero {n : Nat} (e : Fin n → K) : sqLen e = 0 ↔ e = 0 := by
  unfold sqLen
  rw [Finset.sum_eq_zero_iff_of_nonneg (fun i _ => mul_self_nonneg _)]
  constructor
  · intro h; funext i; exact mul_self_eq_zero.mp (h i (Finset.mem_univ i))
  · rintro rfl; simp

theorem pt2ln_isSqDist (p : PtLnPair K) (T : Pose3 K) (hu : p.lnGlobal.director.normSq = 1) :
    IsSqDist (OnLine p.lnGlobal) (T.composePoint p.ptLocal) (sqLen (Err.pt2ln p T)) := by
  generalize hg : T.composePoint p.ptLocal = g
  have hE : sqLen (Err.pt2ln p T) = (g - p.lnGlobal.pBase).normSq
      - (p.lnGlobal.director.dot (g - p.lnGlobal.pBase)) ^ 2 := by
    simp only [P3.normSq, P3.dot] at hu
    simp [sqLen, Err.pt2ln, Fin.sum_univ_succ, hg, P3.normSq, P3.dot]
    linear_combination (p.lnGlobal.director.x * (g.x - p.lnGlobal.pBase.x)
      + p.lnGlobal.director.y * (g.y - p.lnGlobal.pBase.y)
      + p.lnGlobal.director.z * (g.z - p.lnGlobal.pBase.z)) ^ 2 * hu
  rw [hE]
  have key : ∀ s : K, P3.distSq g (p.lnGlobal.pBase + P3.smul s p.lnGlobal.director) =
      (g - p.lnGlobal.pBase).normSq - (p.lnGlobal.director.dot (g - p.lnGlobal.pBase)) ^ 2
        + (s - p.lnGlobal.director.dot (g - p.lnGlobal.pBase)) ^ 2 := by
    intro s
    simp only [P3.normSq, P3.dot] at hu
    simp [P3.distSq, P3.normSq, P3.dot]
    linear_combination s ^ 2 * hu
  constructor
  · exact ⟨_, ⟨p.lnGlobal.director.dot (g - p.lnGlobal.pBase), rfl⟩, by rw [key]; ring⟩
  · rintro x ⟨s, rfl⟩
    rw [key]
    have := sq_nonneg (s - p.lnGlobal.director.dot (g - p.lnGlobal.pBase))
    linarith

theorem pt2pl_isSqDist (p : PtPlPair K) (T : Pose3 K) (hn : p.plGlobal.plane.n ≠ 0) :
    IsSqDist (OnPlane p.plGlobal.plane) (T.composePoint p.ptLocal) (sqLen (Err.pt2pl p T)) := by
  generalize hg : T.composePoint p.ptLocal = g
  have hm : p.plGlobal.plane.n.normSq ≠ 0 := fun h => hn (normSq_eq_zero'.mp h)
  have hpos : 0 < p.plGlobal.plane.n.normSq := lt_of_le_of_ne (normSq_nonneg' _) (Ne.symm hm)
  have hE : sqLen (Err.pt2pl p T) = (p.plGlobal.plane.n.dot g + p.plGlobal.plane.d) ^ 2 / p.plGlobal.plane.n.normSq := by
    have hm' := hm
    simp only [P3.normSq, P3.dot] at hm'
    simp only [sqLen, Err.pt2pl, Fin.sum_univ_succ, hg, P3.normSq, P3.dot]
    simp
    generalize p.plGlobal.plane.n.x * g.x + p.plGlobal.plane.n.y * g.y + p.plGlobal.plane.n.z * g.z
      + p.plGlobal.plane.d = e
    generalize hmm : p.plGlobal.plane.n.x * p.plGlobal.plane.n.x + p.plGlobal.plane.n.y * p.plGlobal.plane.n.y
      + p.plGlobal.plane.n.z * p.plGlobal.plane.n.z = m at hm'
    field_simp
    linear_combination e ^ 2 * hmm
  rw [hE]
  constructor
  · refine ⟨g - P3.smul ((p.plGlobal.plane.n.dot g + p.plGlobal.plane.d) / p.plGlobal.plane.n.normSq)
      p.plGlobal.plane.n, ?_, ?_⟩
    · have : (p.plGlobal.plane.n.dot g + p.plGlobal.plane.d) / p.plGlobal.plane.n.normSq * p.plGlobal.plane.n.normSq
          = p.plGlobal.plane.n.dot g + p.plGlobal.plane.d := by field_simp
      generalize (p.plGlobal.plane.n.dot g + p.plGlobal.plane.d) / p.plGlobal.plane.n.normSq = c at this
      simp only [P3.normSq, P3.dot] at this
      simp [OnPlane, P3.dot]
      linear_combination -this
    · have : (p.plGlobal.plane.n.dot g + p.plGlobal.plane.d) ^ 2 / p.plGlobal.plane.n.normSq =
        ((p.plGlobal.plane.n.dot g + p.plGlobal.plane.d) / p.plGlobal.plane.n.normSq) ^ 2 * p.plGlobal.plane.n.normSq := by
          field_simp
      rw [this]
      generalize (p.plGlobal.plane.n.dot g + p.plGlobal.plane.d) / p.plGlobal.plane.n.normSq = c
      simp [P3.distSq, P3.normSq, P3.dot]
      ring
  · intro x hx
    rw [div_le_iff₀ hpos]
    have hx' : p.plGlobal.plane.n.dot g + p.plGlobal.plane.d = p.plGlobal.plane.n.dot (g - x) := by
      simp only [OnPlane, P3.dot] at hx ⊢
      simp
      linear_combination hx
    rw [hx', P3.distSq]
    generalize g - x = q
    generalize p.plGlobal.plane.n = n
    simp only [P3.normSq, P3.dot]
    nlinarith [sq_nonneg (n.x * q.y - n.y * q.x), sq_nonneg (n.y * q.z - n.z * q.y), sq_nonneg (n.x * q.z - n.z * q.x)]

theorem pt2pt_sqLen (p : PtPair K) (T : Pose3 K) :
    sqLen (Err.pt2pt p T) = P3.distSq (T.composePoint p.local) p.global := by
  simp [sqLen, Err.pt2pt, Fin.sum_univ_succ, P3.distSq, P3.normSq, P3.dot]; ring

theorem pl2pl_sqLen (p : PlPair K) (T : Pose3 K) :
    sqLen (Err.pl2pl p T) = P3.distSq (T.R.mulVec p.pLocal.plane.n) p.pGlobal.plane.n := by
  simp [sqLen, Err.pl2pl, Fin.sum_univ_succ, P3.distSq, P3.normSq, P3.dot]; ring

theorem distSq_eq_zero {a b : P3 K} : P3.distSq a b = 0 ↔ a = b := by
  rw [P3.distSq, normSq_eq_zero']
  constructor
  · intro h
    have hx := congrArg P3.x h; have hy := congrArg P3.y h; have hz := congrArg P3.z h
    simp at hx hy hz
    ext <;> linarith
  · rintro rfl; ext <;> simp

theorem isSqDist_zero {S : P3 K → Prop} {g : P3 K} {m : K} (h : IsSqDist S g m) : m = 0 ↔ S g := by
  constructor
  · rintro rfl
    obtain ⟨⟨x, hx, he⟩, _⟩ := h
    rw [distSq_eq_zero] at he
    rwa [he]
  · intro hg
    have h1 := h.2 g hg
    rw [distSq_eq_zero.mpr rfl] at h1
    obtain ⟨⟨x, _, he⟩, _⟩ := h
    have h2 : 0 ≤ m := by rw [← he]; exact normSq_nonneg' _
    exact le_antisymm h1 h2

end order

theorem ln2ln_parallel_row (E : Err.LnEnv K) (junk : Fin 4 → K) (p : LnPair K) (T : Pose3 K)
    (h : E.parallel p.lnGlobal.director (Err.ln2lnDir p T) = true) :
    Err.ln2ln E junk p T 0 = (Err.ln2lnBase p T).normSq
      - (Err.ln2lnBase p T).dot p.lnGlobal.director * (Err.ln2lnBase p T).dot p.lnGlobal.director
        / p.lnGlobal.director.normSq := by
  simp [Err.ln2ln, h]

end Verif
