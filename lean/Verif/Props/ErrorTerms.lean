import Verif.Lemmas.ErrorLines
import Mathlib.Algebra.Order.Ring.Rat
import Mathlib.Tactic.NormNum
/-
C31 (error terms vanish exactly at alignment) and C32 (Jacobians are the exact derivatives).
-/
namespace Verif.Props
open Verif.Spec
set_option linter.unusedSectionVars false
variable {K : Type} [Field K]

section C31
variable [LinearOrder K] [IsStrictOrderedRing K]

/-- C31, point to point: the error is zero iff the moved point is the global point, and its squared length is the squared
distance between both. -/
theorem error_point2point_geometric (p : PtPair K) (T : Pose3 K) :
    (Err.pt2pt p T = 0 ↔ T.composePoint p.local = p.global) ∧
      sqLen (Err.pt2pt p T) = P3.distSq (T.composePoint p.local) p.global :=
  ⟨by rw [← sqLen_eq_zero, pt2pt_sqLen, distSq_eq_zero], pt2pt_sqLen p T⟩

/-- C31, point to plane, for a plane with a non-zero normal (of any length). -/
theorem error_point2plane_geometric (p : PtPlPair K) (T : Pose3 K) (hn : p.plGlobal.plane.n ≠ 0) :
    (Err.pt2pl p T = 0 ↔ OnPlane p.plGlobal.plane (T.composePoint p.ptLocal)) ∧
      IsSqDist (OnPlane p.plGlobal.plane) (T.composePoint p.ptLocal) (sqLen (Err.pt2pl p T)) :=
  ⟨by rw [← sqLen_eq_zero]; exact isSqDist_zero (pt2pl_isSqDist p T hn), pt2pl_isSqDist p T hn⟩

example : (⟨3, 4, 0⟩ : P3 ℚ) ≠ 0 := by decide +kernel

/-- C31, point to line, for a line with a unit director (what is missing: other directors, see
`error_point2line_needs_unit`). -/
theorem error_point2line_geometric_partial (p : PtLnPair K) (T : Pose3 K) (hu : p.lnGlobal.director.normSq = 1) :
    (Err.pt2ln p T = 0 ↔ OnLine p.lnGlobal (T.composePoint p.ptLocal)) ∧
      IsSqDist (OnLine p.lnGlobal) (T.composePoint p.ptLocal) (sqLen (Err.pt2ln p T)) :=
  ⟨by rw [← sqLen_eq_zero]; exact isSqDist_zero (pt2ln_isSqDist p T hu), pt2ln_isSqDist p T hu⟩

example : (⟨3/5, 4/5, 0⟩ : P3 ℚ).normSq = 1 := by decide +kernel

/-- With a director which is neither zero nor of unit length, the error is not zero at any point of the line other than
its base point. -/
theorem error_point2line_needs_unit (p : PtLnPair K) (T : Pose3 K) (h0 : p.lnGlobal.director ≠ 0)
    (h1 : p.lnGlobal.director.normSq ≠ 1) (hon : OnLine p.lnGlobal (T.composePoint p.ptLocal))
    (hb : T.composePoint p.ptLocal ≠ p.lnGlobal.pBase) : Err.pt2ln p T ≠ 0 := by
  obtain ⟨s, hs⟩ := hon
  intro he
  have hs0 : s ≠ 0 := by
    rintro rfl; apply hb; rw [hs]; ext <;> simp
  have hx := congrFun he 0; have hy := congrFun he 1; have hz := congrFun he 2
  simp [Err.pt2ln, hs, P3.dot] at hx hy hz
  have hfac : 1 - p.lnGlobal.director.normSq ≠ 0 := fun h => h1 (by linarith)
  have key : ∀ c : K, s * c - c * (p.lnGlobal.director.x * (s * p.lnGlobal.director.x)
      + p.lnGlobal.director.y * (s * p.lnGlobal.director.y)
      + p.lnGlobal.director.z * (s * p.lnGlobal.director.z)) = 0 → c = 0 := by
    intro c hc
    have : s * (1 - p.lnGlobal.director.normSq) * c = 0 := by
      simp only [P3.normSq, P3.dot]; linear_combination hc
    rcases mul_eq_zero.mp this with h | h
    · rcases mul_eq_zero.mp h with h | h
      · exact absurd h hs0
      · exact absurd h hfac
    · exact h
  exact h0 (by ext; exacts [key _ hx, key _ hy, key _ hz])

/-- Hypotheses met: the line through the origin with director (2,0,0), and the point (2,0,0). -/
example : Err.pt2ln (K := ℚ) ⟨⟨⟨0, 0, 0⟩, ⟨2, 0, 0⟩⟩, ⟨2, 0, 0⟩⟩ Pose3.identity 0 = -6 := by decide +kernel

/-- C31, plane to plane: the error is zero iff the rotated local normal is the global normal, and its squared length is
the squared distance between both (what is missing: the term says nothing about the offset of the planes, see
`error_plane2plane_ignores_offset`). -/
theorem error_plane2plane_geometric_partial (p : PlPair K) (T : Pose3 K) :
    (Err.pl2pl p T = 0 ↔ T.R.mulVec p.pLocal.plane.n = p.pGlobal.plane.n) ∧
      sqLen (Err.pl2pl p T) = P3.distSq (T.R.mulVec p.pLocal.plane.n) p.pGlobal.plane.n :=
  ⟨by rw [← sqLen_eq_zero, pl2pl_sqLen, distSq_eq_zero], pl2pl_sqLen p T⟩

/-- The plane-to-plane error does not depend on the translation, on the offsets of the planes, nor on the centroids: it is
zero for parallel planes at any distance. -/
theorem error_plane2plane_ignores_offset (p p' : PlPair K) (T T' : Pose3 K) (hR : T.R = T'.R)
    (hl : p.pLocal.plane.n = p'.pLocal.plane.n) (hg : p.pGlobal.plane.n = p'.pGlobal.plane.n) :
    Err.pl2pl p T = Err.pl2pl p' T' := by
  simp [Err.pl2pl, hR, hl, hg]

/-- Parallel planes one unit apart: no point of the moved local plane is on the global one, yet the error is zero. -/
theorem error_plane2plane_zero_off_plane :
    ∃ (p : PlPair ℚ) (T : Pose3 ℚ), Err.pl2pl p T = 0 ∧
      ∀ x, OnPlane p.pLocal.plane x → ¬ OnPlane p.pGlobal.plane (T.composePoint x) := by
  refine ⟨⟨⟨⟨⟨0, 0, 1⟩, -1⟩, ⟨0, 0, 1⟩⟩, ⟨⟨⟨0, 0, 1⟩, 0⟩, ⟨0, 0, 0⟩⟩⟩, Pose3.identity, by decide +kernel, ?_⟩
  intro x hx hg
  simp [OnPlane, P3.dot, Pose3.composePoint, Pose3.identity, M3.one, M3.mulVec] at hx hg
  rw [hx] at hg; norm_num at hg

/-- The rotation by 120 degrees about (1,1,1). -/
def rot120 : Pose3 ℚ := ⟨⟨0, 0, 1, 1, 0, 0, 0, 1, 0⟩, ⟨0, 0, 0⟩⟩

/-- A pose taking the x axis to the y axis. -/
def exLnPair : LnPair ℚ := ⟨⟨⟨0, 0, 0⟩, ⟨0, 1, 0⟩⟩, ⟨⟨0, 0, 0⟩, ⟨1, 0, 0⟩⟩⟩

/-- The line-to-line term does not vanish at alignment: the rotation is applied transposed.  Here the pose takes the local
line exactly to the global one, and the error is (0, 0, -1, 1), for every square root and every "parallel" test which
tells perpendicular directions from parallel ones. -/
theorem error_line2line_nonzero_at_alignment (E : Err.LnEnv ℚ) (junk : Fin 4 → ℚ)
    (hE : ∀ a b : P3 ℚ, P3.dot a b = 0 → E.parallel a b = false) :
    (∀ s : ℚ, OnLine exLnPair.lnGlobal
      (rot120.composePoint (exLnPair.lnLocal.pBase + P3.smul s exLnPair.lnLocal.director))) ∧
    rot120.R.mulVec exLnPair.lnLocal.director = exLnPair.lnGlobal.director ∧
    Err.ln2ln E junk exLnPair rot120 = ![0, 0, -1, 1] := by
  refine ⟨fun s => ⟨s, ?_⟩, by decide +kernel, ?_⟩
  · ext <;> simp [exLnPair, rot120, Pose3.composePoint, M3.mulVec]
  · have h : E.parallel exLnPair.lnGlobal.director (Err.ln2lnDir exLnPair rot120) = false :=
      hE _ _ (by decide +kernel)
    funext i
    simp only [Err.ln2ln, h, Bool.false_eq_true, if_false]
    fin_cases i <;>
      simp [Err.ln2lnBase, Err.ln2lnDir, exLnPair, rot120, Pose3.composePoint, M3.mulVec, M3.transpose, P3.dot]

end C31

section C32

/-- C32 for the four affine terms: at every pose and for every change of the 12 entries, however large, the change of the
error is the Jacobian times the change of the entries, with no remainder (what is missing: the line-to-line term). -/
theorem jacobians_exact_partial (T : Pose3 K) :
    (∀ p : PtPair K, ExactChange (Err.pt2pt p) (Err.pt2ptJac p) T) ∧
    (∀ p : PtLnPair K, ExactChange (Err.pt2ln p) (Err.pt2lnJac p) T) ∧
    (∀ p : PtPlPair K, ExactChange (Err.pt2pl p) (Err.pt2plJac p) T) ∧
    (∀ p : PlPair K, ExactChange (Err.pl2pl p) (Err.pl2plJac p) T) :=
  ⟨fun p => pt2pt_exact p T, fun p => pt2ln_exact p T, fun p => pt2pl_exact p T, fun p => pl2pl_exact p T⟩

/-- C32 over the reals: the reported matrices are the Jacobians in the sense of calculus. -/
theorem jacobians_are_derivatives_partial (T : Pose3 ℝ) :
    (∀ p : PtPair ℝ, IsJacobianAt (Err.pt2pt p) (Err.pt2ptJac p) T) ∧
    (∀ p : PtLnPair ℝ, IsJacobianAt (Err.pt2ln p) (Err.pt2lnJac p) T) ∧
    (∀ p : PtPlPair ℝ, IsJacobianAt (Err.pt2pl p) (Err.pt2plJac p) T) ∧
    (∀ p : PlPair ℝ, IsJacobianAt (Err.pl2pl p) (Err.pl2plJac p) T) :=
  ⟨fun p => exactChange_isJacobian (pt2pt_exact p T), fun p => exactChange_isJacobian (pt2ln_exact p T),
   fun p => exactChange_isJacobian (pt2pl_exact p T), fun p => exactChange_isJacobian (pl2pl_exact p T)⟩

/-- Line to line, general branch: exact for translations of any size. -/
theorem line2line_jacobian_translation_partial (E : Err.LnEnv K) (je : Fin 4 → K) (jJ : Matrix (Fin 4) (Fin 12) K)
    (p : LnPair K) (T : Pose3 K) (h : E.parallel p.lnGlobal.director (Err.ln2lnDir p T) = false) (d : P3 K)
    (i : Fin 4) :
    Err.ln2ln E je p (perturb T ⟨M3.zero, d⟩) i
      = Err.ln2ln E je p T i + ((Err.ln2lnJac E jJ p T).mulVec (poseVec ⟨M3.zero, d⟩)) i :=
  ln2ln_translation_exact E je jJ p T h d i

/-- Line to line, "parallel" branch: the only row written is the derivative of the only entry written, as long as the branch
does not change. -/
theorem line2line_jacobian_parallel_partial (E : Err.LnEnv ℝ) (je : Fin 4 → ℝ) (jJ : Matrix (Fin 4) (Fin 12) ℝ)
    (p : LnPair ℝ) (T D : Pose3 ℝ)
    (h : ∀ s : ℝ, E.parallel p.lnGlobal.director (Err.ln2lnDir p (perturb T (scalePose s D))) = true) :
    HasDerivAt (fun s : ℝ => Err.ln2ln E je p (perturb T (scalePose s D)) 0)
      ((Err.ln2lnJac E jJ p T).mulVec (poseVec D) 0) 0 := by
  have hT : perturb T (scalePose 0 D) = T := by
    ext <;> simp [perturb, scalePose, M3.add, M3.smul]
  have h0 := h 0
  rw [hT] at h0
  have hq : ∀ s : ℝ, (scalePose s D).composePoint p.lnLocal.pBase = P3.smul s (D.composePoint p.lnLocal.pBase) := by
    intro s; ext <;> simp [scalePose, Pose3.composePoint, M3.mulVec, M3.smul] <;> ring
  have e : (fun s : ℝ => Err.ln2ln E je p (perturb T (scalePose s D)) 0) = fun s =>
      Err.ln2ln E je p T 0 + s * ((Err.ln2lnJac E jJ p T).mulVec (poseVec D)) 0
        + s * s * ((D.composePoint p.lnLocal.pBase).normSq - (D.composePoint p.lnLocal.pBase).dot p.lnGlobal.director
          * (D.composePoint p.lnLocal.pBase).dot p.lnGlobal.director / p.lnGlobal.director.normSq) := by
    funext s
    rw [ln2ln_parallel_expand E je jJ p T _ h0 (h s), hq, poseVec_scale, Matrix.mulVec_smul]
    simp [P3.normSq, P3.dot]
    ring
  rw [e]
  generalize ((Err.ln2lnJac E jJ p T).mulVec (poseVec D)) 0 = a
  generalize (D.composePoint p.lnLocal.pBase).normSq - _ = b
  have hid := hasDerivAt_id (0 : ℝ)
  have := ((hid.mul_const a).const_add (Err.ln2ln E je p T 0)).add ((hid.mul hid).mul_const b)
  simp at this
  exact this

/-- Hypotheses met: a test which answers "parallel". -/
example : ∃ E : Err.LnEnv ℝ, ∀ a b, E.parallel a b = true := ⟨⟨id, fun _ _ => true⟩, fun _ _ => rfl⟩

/-- Line to line, general branch: the Jacobian is wrong for every pair with a non-zero local director, at every pose.
Changing the rotation entries by a multiple of the identity changes the error by plus the director, the Jacobian says
minus the director. -/
theorem line2line_jacobian_wrong [CharZero K] (E : Err.LnEnv K) (je : Fin 4 → K) (jJ : Matrix (Fin 4) (Fin 12) K)
    (p : LnPair K) (T : Pose3 K) (s : K) (hs : s ≠ 0) (hu : p.lnLocal.director ≠ 0)
    (h : E.parallel p.lnGlobal.director (Err.ln2lnDir p T) = false)
    (h' : E.parallel p.lnGlobal.director (Err.ln2lnDir p (perturb T (scalePose s Pose3.identity))) = false) :
    ∃ i, Err.ln2ln E je p (perturb T (scalePose s Pose3.identity)) i
      ≠ Err.ln2ln E je p T i + s * ((Err.ln2lnJac E jJ p T).mulVec (poseVec Pose3.identity)) i := by
  by_contra hc
  simp only [ne_eq, not_exists, not_not] at hc
  obtain ⟨c1, c2, c3⟩ := ln2ln_general_change E je p T _ h h'
  obtain ⟨j1, j2, j3⟩ := ln2ln_general_jac E jJ p T Pose3.identity h
  have k1 := hc 1; have k2 := hc 2; have k3 := hc 3
  rw [c1, j1] at k1; rw [c2, j2] at k2; rw [c3, j3] at k3
  have two : (2 : K) ≠ 0 := by exact_mod_cast (two_ne_zero : (2 : ℕ) ≠ 0)
  have key : ∀ c : K, s * c = s * -c → c = 0 := by
    intro c hc
    have : 2 * s * c = 0 := by linear_combination hc
    rcases mul_eq_zero.mp this with h | h
    · rcases mul_eq_zero.mp h with h | h
      · exact absurd h two
      · exact absurd h hs
    · exact h
  simp [scalePose, Pose3.identity, M3.one, M3.smul, M3.transpose, M3.mulVec] at k1 k2 k3
  apply hu
  ext
  · exact key _ (by linear_combination k1)
  · exact key _ (by linear_combination k2)
  · exact key _ (by linear_combination k3)

/-- Hypotheses met: perpendicular directions, both branches general. -/
example : let E : Err.LnEnv ℚ := ⟨id, fun a b => a == b⟩
    E.parallel exLnPair.lnGlobal.director (Err.ln2lnDir exLnPair rot120) = false ∧
    E.parallel exLnPair.lnGlobal.director
      (Err.ln2lnDir exLnPair (perturb rot120 (scalePose 1 Pose3.identity))) = false := by decide +kernel

end C32
end Verif.Props
