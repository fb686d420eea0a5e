import Verif.Lemmas.CovValue
import Verif.Props.Covariance
import Verif.Props.GnShift
import Mathlib.Analysis.SpecialFunctions.Trigonometric.Basic
/-
C113: the matrix which `covariance` returns.
-/
namespace Verif.Props
open Verif Verif.Cov Verif.Spec Verif.Spec.GN Verif.Spec.CovV Verif.Lemmas.CovV
set_option linter.unusedSectionVars false
section
variable {K : Type} [Field K]

theorem allErrors_scalar (ln : Err.LnEnv K) (junk : Fin 4 → K) (p : Pairings K) (T : Pose3 K) :
    allErrors ln junk p T = (scalarErrors ln junk p).map fun e => e T := by
  have h : ∀ {α : Type} (n : Nat) (l : List α) (f : α → Fin n → Pose3 K → K),
      (l.flatMap fun q => List.ofFn (f q)).map (fun e => e T) = l.flatMap fun q => List.ofFn fun i => f q i T := by
    intro α n l f
    induction l with
    | nil => rfl
    | cons a l ih => simp [List.flatMap_cons, List.map_append, ih, List.map_ofFn, Function.comp_def]
  simp only [allErrors, scalarErrors, List.map_append, h]

theorem hessian_information (pose : Six K → Pose3 K) (h : Fin 6 → K) (x : Six K) (L : List (Pose3 K → K)) :
    hessianOf (L.map fun e => slope pose h x e) = information pose h x L := by
  funext i j
  simp [hessianOf, information, List.map_map, Function.comp_def]

variable [LinearOrder K] [IsStrictOrderedRing K]

theorem incrs_pos {a b : K} (ha : 0 < a) (hb : 0 < b) (j : Fin 6) : 0 < incrs a b j := by
  fin_cases j <;> simp [incrs, ha, hb]

/-- The value returned, when lines are not mixed with planes: the inverse of the information matrix at the pose given, with the number that is never set in
place of z. -/
theorem covariance_value_partial (ln : Err.LnEnv K) (junkErr : Fin 4 → K) (junkZ : K) (rot : K → K → K → M3 K)
    (inv : (Fin 6 → Fin 6 → K) → Fin 6 → Fin 6 → K) {dXyz dAng : K} (million : K) {p : Pairings K} (T : Six K) (hx : 0 < dXyz) (ha : 0 < dAng)
    (he : p.isEmpty = false) (hk : p.ln2ln = [] ∨ (p.pt2pl = [] ∧ p.pl2pl = [])) :
    covarianceOf ln junkErr junkZ rot inv dXyz dAng million p T =
      .ok (inv (information (poseOf rot) (incrs dXyz dAng) (xInitial T junkZ) (scalarErrors ln junkErr p))) := by
  have hf : ∀ x, stack (rowsAt ln junkErr p (poseOf rot x)) = .ok (((scalarErrors ln junkErr p).map fun e => e (poseOf rot x)).map some) := by
    intro x
    rw [covariance_rows_partial ln junkErr p _ he hk, allErrors_scalar]
  simp only [covarianceOf, covariance, he, mrptFinish]
  rw [numJac_value hf (incrs_pos hx ha)]
  simp [hessian_information]

/-- When the errors determine the pose, what is returned is a covariance matrix (symmetric, positive definite), the inverse of the information matrix. -/
theorem covariance_valid_partial (ln : Err.LnEnv K) (junkErr : Fin 4 → K) (junkZ : K) (rot : K → K → K → M3 K)
    {inv : (Fin 6 → Fin 6 → K) → Fin 6 → Fin 6 → K} (hinv : InvertsPosDef inv) {dXyz dAng : K} (million : K) {p : Pairings K} (T : Six K)
    (hx : 0 < dXyz) (ha : 0 < dAng) (he : p.isEmpty = false) (hk : p.ln2ln = [] ∨ (p.pt2pl = [] ∧ p.pl2pl = []))
    (hd : Determined (poseOf rot) (incrs dXyz dAng) (xInitial T junkZ) (scalarErrors ln junkErr p)) :
    ∃ c, covarianceOf ln junkErr junkZ rot inv dXyz dAng million p T = .ok c ∧ IsCovariance c ∧
      IsInverse (information (poseOf rot) (incrs dXyz dAng) (xInitial T junkZ) (scalarErrors ln junkErr p)) c := by
  have hc := information_covariance hd
  have hi := hinv _ hc
  exact ⟨_, covariance_value_partial ln junkErr junkZ rot inv million T hx ha he hk, inverse_covariance hc hi, hi⟩

/-- When they do not, the matrix that is to be inverted has no inverse: no number returned can be right. -/
theorem covariance_undetermined {pose : Six K → Pose3 K} {h : Fin 6 → K} {x : Six K} {L : List (Pose3 K → K)} (hd : ¬ Determined pose h x L) :
    ∀ C, ¬ IsInverse (information pose h x L) C := by
  unfold Determined at hd
  push Not at hd
  obtain ⟨d, h1, h2⟩ := hd
  exact fun C => singular h2 (information_apply pose h x L d h1) C

/-- Line-to-line pairings with any pairing of planes: the Jacobian is made of numbers never written. -/
theorem covariance_lines_planes (ln : Err.LnEnv K) (junkErr : Fin 4 → K) (junkZ : K) (rot : K → K → K → M3 K)
    (inv : (Fin 6 → Fin 6 → K) → Fin 6 → Fin 6 → K) {dXyz dAng : K} (million : K) {p : Pairings K} (T : Six K) (hx : 0 < dXyz) (ha : 0 < dAng)
    (hl : p.ln2ln ≠ []) (hp : p.pt2pl ≠ [] ∨ p.pl2pl ≠ []) : covarianceOf ln junkErr junkZ rot inv dXyz dAng million p T = .ub := by
  have he : p.isEmpty = false := by simp [Pairings.isEmpty, hl]
  have hs : ∀ x, (stack (rowsAt ln junkErr p (poseOf rot x))).bind written = .ub := by
    intro x
    obtain ⟨v, h1, h2, -⟩ := covariance_rows_clash ln junkErr p (poseOf rot x) hl hp
    rw [h1]
    exact written_none (List.mem_of_getLast? h2)
  simp only [covarianceOf, covariance, he, mrptFinish, numJacobian, sides, hs]
  simp [Outcome.assert, incrs_pos hx ha]

/-- Steps that are not positive: an exception. -/
theorem covariance_bad_steps (ln : Err.LnEnv K) (junkErr : Fin 4 → K) (junkZ : K) (rot : K → K → K → M3 K)
    (inv : (Fin 6 → Fin 6 → K) → Fin 6 → Fin 6 → K) {dXyz dAng : K} (million : K) {p : Pairings K} (T : Six K) (hx : dXyz ≤ 0 ∨ dAng ≤ 0)
    (he : p.isEmpty = false) : covarianceOf ln junkErr junkZ rot inv dXyz dAng million p T = .throw := by
  have hn : ¬ ∀ j, 0 < incrs dXyz dAng j := by
    intro h
    rcases hx with hx | hx
    · exact absurd (h 0) (by simpa [incrs] using hx)
    · exact absurd (h 3) (by simpa [incrs] using hx)
  simp only [covarianceOf, covariance, he, mrptFinish, numJacobian]
  simp [Outcome.assert, hn]

/-- What of the pairings the covariance depends on (without line-to-line ones): the local points, the directions of the lines, the normals of the planes
and the local normals. -/
structure SameShape (p q : Pairings K) : Prop where
  points : p.pt2pt.map (·.local) = q.pt2pt.map (·.local)
  lines : p.pt2ln.map (fun a => (a.ptLocal, a.lnGlobal.director)) = q.pt2ln.map fun a => (a.ptLocal, a.lnGlobal.director)
  planes : p.pt2pl.map (fun a => (a.ptLocal, a.plGlobal.plane.n)) = q.pt2pl.map fun a => (a.ptLocal, a.plGlobal.plane.n)
  normals : p.pl2pl.map (·.pLocal.plane.n) = q.pl2pl.map (·.pLocal.plane.n)
  nolines : p.ln2ln = [] ∧ q.ln2ln = []

theorem flat_slopes {α β : Type} (g : α → β) (F : β → Fin 3 → Fin 6 → K) (f : α → Fin 3 → Pose3 K → K) (sl : (Pose3 K → K) → Fin 6 → K)
    (h : ∀ a i, sl (f a i) = F (g a) i) (l : List α) :
    (l.flatMap fun a => List.ofFn (f a)).map sl = (l.map g).flatMap fun b => List.ofFn (F b) := by
  induction l with
  | nil => rfl
  | cons a l ih =>
    rw [List.flatMap_cons, List.map_append, ih, List.map_cons, List.flatMap_cons, List.map_ofFn]
    congr 1
    congr 1
    funext i
    exact h a i

theorem moved_shift (rot : K → K → K → M3 K) (h : Fin 6 → K) (x x' : Six K) (h1 : x.yaw = x'.yaw) (h2 : x.pitch = x'.pitch) (h3 : x.roll = x'.roll)
    (l : P3 K) (j : Fin 6) : moved (poseOf rot) h x l j = moved (poseOf rot) h x' l j := by
  unfold moved
  congr 1
  fin_cases j <;> ext <;> simp [Six.bump, poseOf, Pose3.composePoint, h1, h2, h3]

theorem turned_shift (rot : K → K → K → M3 K) (h : Fin 6 → K) (x x' : Six K) (h1 : x.yaw = x'.yaw) (h2 : x.pitch = x'.pitch) (h3 : x.roll = x'.roll)
    (l : P3 K) (j : Fin 6) : turned (poseOf rot) h x l j = turned (poseOf rot) h x' l j := by
  unfold turned
  congr 1
  fin_cases j <;> simp [Six.bump, poseOf, h1, h2, h3]

theorem information_shape (ln : Err.LnEnv K) (junkErr : Fin 4 → K) (rot : K → K → K → M3 K) (h : Fin 6 → K) {p q : Pairings K} (hs : SameShape p q)
    (x x' : Six K) (h1 : x.yaw = x'.yaw) (h2 : x.pitch = x'.pitch) (h3 : x.roll = x'.roll) :
    information (poseOf rot) h x (scalarErrors ln junkErr p) = information (poseOf rot) h x' (scalarErrors ln junkErr q) := by
  rw [← hessian_information, ← hessian_information]
  congr 1
  have key : ∀ (p : Pairings K) (y : Six K), p.ln2ln = [] → y.yaw = x'.yaw → y.pitch = x'.pitch → y.roll = x'.roll →
      (scalarErrors ln junkErr p).map (fun e => slope (poseOf rot) h y e) =
        (p.pt2pt.map (·.local)).flatMap (fun l => List.ofFn fun i j => comp (moved (poseOf rot) h x' l j) i) ++
        (p.pt2ln.map fun a => (a.ptLocal, a.lnGlobal.director)).flatMap (fun lu => List.ofFn fun i j =>
          comp (moved (poseOf rot) h x' lu.1 j - lu.2.smul (lu.2.dot (moved (poseOf rot) h x' lu.1 j))) i) ++
        (p.pt2pl.map fun a => (a.ptLocal, a.plGlobal.plane.n)).flatMap (fun ln => List.ofFn fun i j =>
          comp (ln.2.smul (-(ln.2.dot (moved (poseOf rot) h x' ln.1 j) / ln.2.normSq))) i) ++
        (p.pl2pl.map (·.pLocal.plane.n)).flatMap (fun n => List.ofFn fun i j => comp (turned (poseOf rot) h x' n j) i) := by
    intro p y hl e1 e2 e3
    have hm := moved_shift rot h y x' e1 e2 e3
    have ht := turned_shift rot h y x' e1 e2 e3
    simp only [scalarErrors, hl, List.flatMap_nil, List.append_nil, List.map_append]
    rw [flat_slopes (fun a : PtPair K => a.local) (fun l i j => comp (moved (poseOf rot) h x' l j) i)
        (h := fun a i => by funext j; rw [slope_pt2pt, hm]),
      flat_slopes (fun a : PtLnPair K => (a.ptLocal, a.lnGlobal.director)) (fun lu i j =>
          comp (moved (poseOf rot) h x' lu.1 j - lu.2.smul (lu.2.dot (moved (poseOf rot) h x' lu.1 j))) i)
        (h := fun a i => by funext j; rw [slope_pt2ln, hm]),
      flat_slopes (fun a : PtPlPair K => (a.ptLocal, a.plGlobal.plane.n)) (fun ln i j =>
          comp (ln.2.smul (-(ln.2.dot (moved (poseOf rot) h x' ln.1 j) / ln.2.normSq))) i)
        (h := fun a i => by funext j; rw [slope_pt2pl, hm]),
      flat_slopes (fun a : PlPair K => a.pLocal.plane.n) (fun n i j => comp (turned (poseOf rot) h x' n j) i)
        (h := fun a i => by funext j; rw [slope_pl2pl, ht])]
  rw [key p x hs.nolines.1 h1 h2 h3, key q x' hs.nolines.2 rfl rfl rfl, hs.points, hs.lines, hs.planes, hs.normals]

theorem same_shape_empty {p q : Pairings K} (hs : SameShape p q) (he : p.isEmpty = false) : q.isEmpty = false := by
  have l1 := congrArg List.length hs.points
  have l2 := congrArg List.length hs.lines
  have l3 := congrArg List.length hs.planes
  have l4 := congrArg List.length hs.normals
  simp only [List.length_map] at l1 l2 l3 l4
  have h0 := hs.nolines
  rw [Bool.eq_false_iff] at he ⊢
  intro hq
  apply he
  simp only [Pairings.isEmpty, h0.1, h0.2, Bool.and_eq_true, List.isEmpty_iff_length_eq_zero, l1, l2, l3, l4] at hq ⊢
  exact hq

/-- The covariance says nothing about how good the fit is: it does not depend on the global points, on where the lines and planes are, nor on the
translation (so the number never set in place of z does no harm).  Two sets of pairings with the same local points and directions have the same
covariance, one a perfect fit and the other arbitrarily far away. -/
theorem covariance_ignores_residuals (ln : Err.LnEnv K) (junkErr : Fin 4 → K) (junkZ junkZ' : K) (rot : K → K → K → M3 K)
    (inv : (Fin 6 → Fin 6 → K) → Fin 6 → Fin 6 → K) {dXyz dAng : K} (million : K) {p q : Pairings K} {T T' : Six K} (hx : 0 < dXyz) (ha : 0 < dAng)
    (he : p.isEmpty = false) (hs : SameShape p q) (h1 : T.yaw = T'.yaw) (h2 : T.pitch = T'.pitch) (h3 : T.roll = T'.roll) :
    covarianceOf ln junkErr junkZ rot inv dXyz dAng million p T = covarianceOf ln junkErr junkZ' rot inv dXyz dAng million q T' := by
  rw [covariance_value_partial ln junkErr junkZ rot inv million T hx ha he (.inl hs.nolines.1),
    covariance_value_partial ln junkErr junkZ' rot inv million T' hx ha (same_shape_empty hs he) (.inl hs.nolines.2),
    information_shape ln junkErr rot _ hs (xInitial T junkZ) (xInitial T' junkZ') h1 h2 h3]

/-- More pairings never make the pose less certain: in every direction the variance with the pairings of `o` added is at most the one without. -/
theorem covariance_more_pairings (ln : Err.LnEnv K) (junkErr : Fin 4 → K) (junkZ : K) (rot : K → K → K → M3 K)
    {inv : (Fin 6 → Fin 6 → K) → Fin 6 → Fin 6 → K} (hinv : InvertsPosDef inv) {dXyz dAng : K} (million : K) {p o : Pairings K} (T : Six K)
    (hx : 0 < dXyz) (ha : 0 < dAng) (he : p.isEmpty = false)
    (hk : (p.ln2ln = [] ∧ o.ln2ln = []) ∨ (p.pt2pl = [] ∧ p.pl2pl = [] ∧ o.pt2pl = [] ∧ o.pl2pl = []))
    (hd : Determined (poseOf rot) (incrs dXyz dAng) (xInitial T junkZ) (scalarErrors ln junkErr p)) :
    ∃ c c', covarianceOf ln junkErr junkZ rot inv dXyz dAng million p T = .ok c ∧
      covarianceOf ln junkErr junkZ rot inv dXyz dAng million (p.pushBackCopy o) T = .ok c' ∧ IsCovariance c' ∧ ∀ d, quad c' d ≤ quad c d := by
  set pose := poseOf rot
  set h := incrs dXyz dAng
  set x := xInitial T junkZ
  have hmem : ∀ e ∈ scalarErrors ln junkErr p, e ∈ scalarErrors ln junkErr (p.pushBackCopy o) := by
    intro e hm
    simp only [scalarErrors, Pairings.pushBackCopy, List.flatMap_append, List.mem_append] at hm ⊢
    tauto
  have hd' : Determined pose h x (scalarErrors ln junkErr (p.pushBackCopy o)) := fun d h0 => hd d fun e hm => h0 e (hmem e hm)
  have he' : (p.pushBackCopy o).isEmpty = false := by
    rw [Bool.eq_false_iff] at he ⊢
    intro hq
    apply he
    simp only [Pairings.isEmpty, Pairings.pushBackCopy, Bool.and_eq_true, List.isEmpty_iff, List.append_eq_nil_iff] at hq ⊢
    tauto
  have hkp : p.ln2ln = [] ∨ (p.pt2pl = [] ∧ p.pl2pl = []) := by tauto
  have hkq : (p.pushBackCopy o).ln2ln = [] ∨ ((p.pushBackCopy o).pt2pl = [] ∧ (p.pushBackCopy o).pl2pl = []) := by
    simp only [Pairings.pushBackCopy, List.append_eq_nil_iff]
    tauto
  obtain ⟨c, e1, -, i1⟩ := covariance_valid_partial ln junkErr junkZ rot hinv million T hx ha he hkp hd
  obtain ⟨c', e2, k2, i2⟩ := covariance_valid_partial ln junkErr junkZ rot hinv million T hx ha he' hkq hd'
  refine ⟨c, c', e1, e2, k2, inverse_antitone (information_covariance hd) ?_ i1 i2⟩
  intro d
  rw [quad_information, quad_information]
  have hsum : ((scalarErrors ln junkErr (p.pushBackCopy o)).map fun e => (∑ j, slope pose h x e j * d j) ^ 2).sum =
      ((scalarErrors ln junkErr p).map fun e => (∑ j, slope pose h x e j * d j) ^ 2).sum +
      ((scalarErrors ln junkErr o).map fun e => (∑ j, slope pose h x e j * d j) ^ 2).sum := by
    simp only [scalarErrors, Pairings.pushBackCopy, List.flatMap_append, List.map_append, List.sum_append]
    ring
  rw [hsum]
  have := sum_sq_nonneg (scalarErrors ln junkErr o) fun e => ∑ j, slope pose h x e j * d j
  linarith

end

/-! ### with MRPT's yaw, pitch and roll -/

/-- The rotation of three angles. -/
noncomputable def eulerReal (yaw pitch roll : ℝ) : M3 ℝ :=
  eulerR (Real.cos yaw) (Real.sin yaw) (Real.cos pitch) (Real.sin pitch) (Real.cos roll) (Real.sin roll)

theorem eulerReal_rotation (a b c : ℝ) : IsRotation (eulerReal a b c) := by
  have h1 := Real.cos_sq_add_sin_sq a
  have h2 := Real.cos_sq_add_sin_sq b
  have h3 := Real.cos_sq_add_sin_sq c
  unfold eulerReal
  generalize Real.cos a = ca at *
  generalize Real.sin a = sa at *
  generalize Real.cos b = cb at *
  generalize Real.sin b = sb at *
  generalize Real.cos c = cc at *
  generalize Real.sin c = sc at *
  constructor
  · simp only [eulerR, M3.transpose, M3.mul, M3.one, M3.mk.injEq]
    refine ⟨?_, ?_, ?_, ?_, ?_, ?_, ?_, ?_, ?_⟩
    · linear_combination cb ^ 2 * h1 + h2
    · linear_combination cb * sb * sc * h1
    · linear_combination cb * sb * cc * h1
    · linear_combination cb * sb * sc * h1
    · linear_combination (sb ^ 2 * sc ^ 2 + cc ^ 2) * h1 + sc ^ 2 * h2 + h3
    · linear_combination (sb ^ 2 * sc * cc - cc * sc) * h1 + sc * cc * h2
    · linear_combination cb * sb * cc * h1
    · linear_combination (sb ^ 2 * sc * cc - cc * sc) * h1 + sc * cc * h2
    · linear_combination (sb ^ 2 * cc ^ 2 + sc ^ 2) * h1 + cc ^ 2 * h2 + h3
  · simp only [eulerR, M3.det]
    have : (ca ^ 2 + sa ^ 2) * (cb ^ 2 + sb ^ 2) * (cc ^ 2 + sc ^ 2) = 1 := by rw [h1, h2, h3]; norm_num
    linear_combination this

/-- Gimbal lock: when the pitch is a quarter turn the matrix to invert is singular, whatever the pairings: `covariance` cannot give a covariance of the
pose, no matter how well the pairings determine it. -/
theorem covariance_gimbal_lock (ln : Err.LnEnv ℝ) (junkErr : Fin 4 → ℝ) (junkZ : ℝ) (dXyz dAng : ℝ) (p : Pairings ℝ) (T : Six ℝ)
    (hp : T.pitch = Real.pi / 2 ∨ T.pitch = -(Real.pi / 2)) :
    ∀ C, ¬ IsInverse (information (poseOf eulerReal) (incrs dXyz dAng) (xInitial T junkZ) (scalarErrors ln junkErr p)) C := by
  apply covariance_undetermined
  intro hd
  rcases hp with hp | hp
  · have e1 : ∀ h, poseOf eulerReal ((xInitial T junkZ).bump 5 h) = poseOf eulerReal ((xInitial T junkZ).bump 3 (-h)) := by
      intro h
      simp only [poseOf, Six.bump, xInitial, eulerReal, eulerR, hp, Real.cos_pi_div_two, Real.sin_pi_div_two, Real.cos_add, Real.sin_add, Real.cos_neg,
        Real.sin_neg, Pose3.mk.injEq, M3.mk.injEq, and_true]
      refine ⟨?_, ?_, ?_, ?_, ?_, ?_, ?_, ?_, ?_⟩ <;> first | trivial | ring
    have := hd ![0, 0, 0, 1, 0, 1] (by
      intro e _
      simp only [Fin.sum_univ_six, slope, e1, incrs]
      simp
      ring)
    exact absurd (congrFun this 3) (by simp)
  · have e1 : ∀ h, poseOf eulerReal ((xInitial T junkZ).bump 5 h) = poseOf eulerReal ((xInitial T junkZ).bump 3 h) := by
      intro h
      simp only [poseOf, Six.bump, xInitial, eulerReal, eulerR, hp, Real.cos_pi_div_two, Real.sin_pi_div_two, Real.cos_add, Real.sin_add, Real.cos_neg,
        Real.sin_neg, Pose3.mk.injEq, M3.mk.injEq, and_true]
      refine ⟨?_, ?_, ?_, ?_, ?_, ?_, ?_, ?_, ?_⟩ <;> first | trivial | ring
    have := hd ![0, 0, 0, 1, 0, -1] (by
      intro e _
      simp only [Fin.sum_univ_six, slope, e1, incrs]
      simp)
    exact absurd (congrFun this 3) (by simp)

/-- The angular velocity, in the frame of the body, when yaw, pitch and roll change by `a`, `b`, `c`. -/
noncomputable def bodyRate (T : Six ℝ) (a b c : ℝ) : P3 ℝ :=
  ⟨-Real.sin T.pitch * a + c, Real.cos T.pitch * Real.sin T.roll * a + Real.cos T.roll * b, Real.cos T.pitch * Real.cos T.roll * a - Real.sin T.roll * b⟩

theorem turned_sum (dXyz dAng : ℝ) (x : Six ℝ) (d : Fin 6 → ℝ) (n : P3 ℝ) (i : Fin 3) :
    ∑ j, comp (turned (poseOf eulerReal) (incrs dXyz dAng) x n j) i * d j =
      comp (velocity (eulerReal x.yaw x.pitch x.roll) 0 ((bodyRate x (d 3) (d 4) (d 5)).smul (Real.sin dAng / dAng)) n) i := by
  have h2 := Real.cos_sq_add_sin_sq x.pitch
  have h3 := Real.cos_sq_add_sin_sq x.roll
  simp only [Fin.sum_univ_six, comp, turned, velocity, bodyRate, poseOf, Six.bump, incrs, eulerReal, eulerR, M3.mulVec, P3.cross, Real.cos_add, Real.sin_add,
    Real.cos_neg, Real.sin_neg]
  generalize Real.cos x.yaw = cy at *
  generalize Real.sin x.yaw = sy at *
  generalize Real.cos x.pitch = cp at *
  generalize Real.sin x.pitch = sp at *
  generalize Real.cos x.roll = cr at *
  generalize Real.sin x.roll = sr at *
  fin_cases i <;> simp
  · linear_combination (-(Real.sin dAng / dAng * d 3)) * (-sy * cp * n.x * h3 + (-cy * cr * n.y + cy * sr * n.z) * h2) + (Real.sin dAng / dAng * d 4) * cy * sp * n.x * h3
  · linear_combination (-(Real.sin dAng / dAng * d 3)) * (cy * cp * n.x * h3 + (-sy * cr * n.y + sy * sr * n.z) * h2) + (Real.sin dAng / dAng * d 4) * sy * sp * n.x * h3
  · linear_combination (Real.sin dAng / dAng * d 4) * cp * n.x * h3

theorem moved_sum {dXyz : ℝ} (hx : 0 < dXyz) (dAng : ℝ) (x : Six ℝ) (d : Fin 6 → ℝ) (l : P3 ℝ) (i : Fin 3) :
    ∑ j, comp (moved (poseOf eulerReal) (incrs dXyz dAng) x l j) i * d j =
      comp (velocity (eulerReal x.yaw x.pitch x.roll) ((eulerReal x.yaw x.pitch x.roll).transpose.mulVec ⟨d 0, d 1, d 2⟩)
        ((bodyRate x (d 3) (d 4) (d 5)).smul (Real.sin dAng / dAng)) l) i := by
  set R := eulerReal x.yaw x.pitch x.roll with hR
  have h1 : ∀ w : P3 ℝ, velocity R (R.transpose.mulVec ⟨d 0, d 1, d 2⟩) w l = velocity R 0 w l + ⟨d 0, d 1, d 2⟩ := by
    intro w
    have := Lemmas.GnS.rot_back (eulerReal_rotation x.yaw x.pitch x.roll) (⟨d 0, d 1, d 2⟩ : P3 ℝ)
    rw [← hR] at this
    have e : ∀ a b : P3 ℝ, R.mulVec (a + b) = R.mulVec a + R.mulVec b := by
      intro a b; ext <;> simp [M3.mulVec] <;> ring
    unfold velocity
    rw [e, this, e]
    ext <;> simp [M3.mulVec] <;> ring
  have h2 := turned_sum dXyz dAng x d l i
  rw [← hR] at h2
  have hne : dXyz ≠ 0 := hx.ne'
  have h3 : ∀ j, moved (poseOf eulerReal) (incrs dXyz dAng) x l j = turned (poseOf eulerReal) (incrs dXyz dAng) x l j +
      ⟨if j = 0 then 1 else 0, if j = 1 then 1 else 0, if j = 2 then 1 else 0⟩ := by
    intro j
    fin_cases j <;> ext <;> simp [moved, turned, poseOf, Six.bump, incrs, Pose3.composePoint] <;> field_simp <;> ring
  have h4 : ∀ (a b : P3 ℝ), comp (a + b) i = comp a i + comp b i := by intro a b; fin_cases i <;> simp [comp]
  simp only [h1, h3, h4, add_mul, Finset.sum_add_distrib, h2]
  congr 1
  fin_cases i <;> simp [comp, Fin.sum_univ_six]

theorem rot_transpose_apply {R : M3 ℝ} (hR : IsRotation R) (v : P3 ℝ) : R.transpose.mulVec (R.mulVec v) = v := by
  have := hR.1
  rw [M3.ext_iff] at this
  simp only [M3.mul, M3.transpose, M3.one] at this
  obtain ⟨a1, a2, a3, a4, a5, a6, a7, a8, a9⟩ := this
  ext <;> simp only [M3.mulVec, M3.transpose]
  · linear_combination v.x * a1 + v.y * a2 + v.z * a3
  · linear_combination v.x * a4 + v.y * a5 + v.z * a6
  · linear_combination v.x * a7 + v.y * a8 + v.z * a9

theorem comp_zero {v : P3 ℝ} : v = 0 ↔ ∀ i, comp v i = 0 := by
  constructor
  · rintro rfl i; fin_cases i <;> simp [comp]
  · intro h; ext
    · simpa [comp] using h 0
    · simpa [comp] using h 1
    · simpa [comp] using h 2

/-- The covariance exists exactly when the pairings hold the body (no motion of the body keeps all of them), away from gimbal lock: points, points on
lines, points on planes and normals; the step of the angles must not be a multiple of a half turn. -/
theorem covariance_determined_iff (ln : Err.LnEnv ℝ) (junkErr : Fin 4 → ℝ) (junkZ : ℝ) {dXyz dAng : ℝ} {p : Pairings ℝ} (T : Six ℝ) (hx : 0 < dXyz)
    (ha : Real.sin dAng ≠ 0) (hp : Real.cos T.pitch ≠ 0) (hl : p.ln2ln = []) (hu : ∀ q ∈ p.pt2ln, q.lnGlobal.director.normSq = 1) :
    Determined (poseOf eulerReal) (incrs dXyz dAng) (xInitial T junkZ) (scalarErrors ln junkErr p) ↔ Holds p (eulerReal T.yaw T.pitch T.roll) := by
  set x := xInitial T junkZ with hxi
  set R := eulerReal T.yaw T.pitch T.roll with hR
  have hrot : IsRotation R := eulerReal_rotation _ _ _
  have hda : dAng ≠ 0 := by rintro rfl; simp at ha
  set k := Real.sin dAng / dAng with hk
  have hk0 : k ≠ 0 := div_ne_zero ha hda
  have hm : ∀ (d : Fin 6 → ℝ) l i, ∑ j, comp (moved (poseOf eulerReal) (incrs dXyz dAng) x l j) i * d j =
      comp (velocity R (R.transpose.mulVec ⟨d 0, d 1, d 2⟩) ((bodyRate x (d 3) (d 4) (d 5)).smul k) l) i := fun d l i => moved_sum hx dAng x d l i
  have ht : ∀ (d : Fin 6 → ℝ) n i, ∑ j, comp (turned (poseOf eulerReal) (incrs dXyz dAng) x n j) i * d j =
      comp (velocity R 0 ((bodyRate x (d 3) (d 4) (d 5)).smul k) n) i := fun d n i => turned_sum dXyz dAng x d n i
  -- the errors stay when the body slides
  have key : ∀ d : Fin 6 → ℝ, (∀ e ∈ scalarErrors ln junkErr p, ∑ j, slope (poseOf eulerReal) (incrs dXyz dAng) x e j * d j = 0) ↔
      Slides p R (R.transpose.mulVec ⟨d 0, d 1, d 2⟩) ((bodyRate x (d 3) (d 4) (d 5)).smul k) := by
    intro d
    set v := R.transpose.mulVec ⟨d 0, d 1, d 2⟩
    set w := (bodyRate x (d 3) (d 4) (d 5)).smul k
    have hdot : ∀ (u l : P3 ℝ), ∑ j, u.dot (moved (poseOf eulerReal) (incrs dXyz dAng) x l j) * d j = u.dot (velocity R v w l) := by
      intro u l
      have h0 : ∑ j, (moved (poseOf eulerReal) (incrs dXyz dAng) x l j).x * d j = (velocity R v w l).x := hm d l 0
      have h1 : ∑ j, (moved (poseOf eulerReal) (incrs dXyz dAng) x l j).y * d j = (velocity R v w l).y := hm d l 1
      have h2 : ∑ j, (moved (poseOf eulerReal) (incrs dXyz dAng) x l j).z * d j = (velocity R v w l).z := hm d l 2
      simp only [P3.dot, ← h0, ← h1, ← h2, Finset.mul_sum, ← Finset.sum_add_distrib]
      exact Finset.sum_congr rfl fun j _ => by ring
    have s1 : ∀ (q : PtPair ℝ) i, ∑ j, slope (poseOf eulerReal) (incrs dXyz dAng) x (fun T => Err.pt2pt q T i) j * d j = comp (velocity R v w q.local) i := by
      intro q i; simp only [slope_pt2pt, hm]; rfl
    have s2 : ∀ (q : PtLnPair ℝ) i, ∑ j, slope (poseOf eulerReal) (incrs dXyz dAng) x (fun T => Err.pt2ln q T i) j * d j =
        comp (velocity R v w q.ptLocal - q.lnGlobal.director.smul (q.lnGlobal.director.dot (velocity R v w q.ptLocal))) i := by
      intro q i
      have e : ∀ a b : P3 ℝ, comp (a - b) i = comp a i - comp b i := by intro a b; fin_cases i <;> simp [comp]
      have e' : ∀ (s : ℝ) (b : P3 ℝ), comp (b.smul s) i = comp b i * s := by intro a b; fin_cases i <;> simp [comp, mul_comm]
      simp only [slope_pt2ln, e, e', sub_mul, Finset.sum_sub_distrib, hm, mul_assoc, ← Finset.mul_sum, hdot]
      rfl
    have s3 : ∀ (q : PtPlPair ℝ) i, ∑ j, slope (poseOf eulerReal) (incrs dXyz dAng) x (fun T => Err.pt2pl q T i) j * d j =
        comp q.plGlobal.plane.n i * (-1 / q.plGlobal.plane.n.normSq) * q.plGlobal.plane.n.dot (velocity R v w q.ptLocal) := by
      intro q i
      have e' : ∀ (s : ℝ) (b : P3 ℝ), comp (b.smul s) i = comp b i * s := by intro a b; fin_cases i <;> simp [comp, mul_comm]
      simp only [slope_pt2pl, e', ← hdot, Finset.mul_sum]
      exact Finset.sum_congr rfl fun j _ => by ring
    have s4 : ∀ (q : PlPair ℝ) i, ∑ j, slope (poseOf eulerReal) (incrs dXyz dAng) x (fun T => Err.pl2pl q T i) j * d j =
        comp (velocity R 0 w q.pLocal.plane.n) i := by
      intro q i; simp only [slope_pl2pl, ht]; rfl
    constructor
    · intro h
      simp only [scalarErrors, hl, List.flatMap_nil, List.append_nil, List.mem_append, List.mem_flatMap, List.mem_ofFn] at h
      refine ⟨?_, ?_, ?_, ?_⟩
      · intro q hq
        exact comp_zero.mpr fun i => by rw [← s1]; exact h _ (.inl (.inl (.inl ⟨q, hq, i, rfl⟩)))
      · intro q hq
        refine ⟨q.lnGlobal.director.dot (velocity R v w q.ptLocal), ?_⟩
        have : velocity R v w q.ptLocal - q.lnGlobal.director.smul (q.lnGlobal.director.dot (velocity R v w q.ptLocal)) = 0 :=
          comp_zero.mpr fun i => by rw [← s2]; exact h _ (.inl (.inl (.inr ⟨q, hq, i, rfl⟩)))
        rw [P3.ext_iff] at this ⊢
        simp only [P3.sub_x, P3.sub_y, P3.sub_z, P3.zero_x, P3.zero_y, P3.zero_z] at this
        exact ⟨sub_eq_zero.mp this.1, sub_eq_zero.mp this.2.1, sub_eq_zero.mp this.2.2⟩
      · intro q hq
        by_cases hn : q.plGlobal.plane.n = 0
        · simp [hn, P3.dot]
        · have hns : q.plGlobal.plane.n.normSq ≠ 0 := fun h0 => hn (normSq_eq_zero'.mp h0)
          by_contra hne
          apply hn
          refine comp_zero.mpr fun i => ?_
          have := h _ (.inl (.inr ⟨q, hq, i, rfl⟩))
          rw [s3] at this
          rcases mul_eq_zero.mp this with h' | h'
          · rcases mul_eq_zero.mp h' with h'' | h''
            · exact h''
            · exact absurd h'' (div_ne_zero (by norm_num) hns)
          · exact absurd h' hne
      · intro q hq
        exact comp_zero.mpr fun i => by rw [← s4]; exact h _ (.inr ⟨q, hq, i, rfl⟩)
    · intro hs e he
      simp only [scalarErrors, hl, List.flatMap_nil, List.append_nil, List.mem_append, List.mem_flatMap, List.mem_ofFn] at he
      rcases he with ((⟨q, hq, i, rfl⟩ | ⟨q, hq, i, rfl⟩) | ⟨q, hq, i, rfl⟩) | ⟨q, hq, i, rfl⟩
      · rw [s1, comp_zero.mp (hs.pts q hq)]
      · rw [s2]
        obtain ⟨s, h1⟩ := hs.lns q hq
        have h2 := hu q hq
        refine comp_zero.mp ?_ i
        rw [h1]
        simp only [P3.normSq, P3.dot] at h2
        ext <;> simp [P3.dot]
        · linear_combination (-(s * q.lnGlobal.director.x)) * h2
        · linear_combination (-(s * q.lnGlobal.director.y)) * h2
        · linear_combination (-(s * q.lnGlobal.director.z)) * h2
      · rw [s3, hs.pls q hq, mul_zero]
      · rw [s4, comp_zero.mp (hs.nms q hq)]
  have h3 := Real.cos_sq_add_sin_sq T.roll
  constructor
  · intro hd v w hs
    set cr := Real.cos T.roll with hcr
    set sr := Real.sin T.roll with hsr
    set cp := Real.cos T.pitch with hcp
    set sp := Real.sin T.pitch with hsp
    set Rv := R.mulVec v with hRv
    let d3 := (sr * w.y + cr * w.z) / (k * cp)
    let d4 := (cr * w.y - sr * w.z) / k
    let d5 := w.x / k + sp * d3
    have hd0 := hd ![Rv.x, Rv.y, Rv.z, d3, d4, d5] (by
      rw [key]
      have e1 : R.transpose.mulVec ⟨Rv.x, Rv.y, Rv.z⟩ = v := by
        have := rot_transpose_apply hrot v
        exact this
      have e2 : (bodyRate x d3 d4 d5).smul k = w := by
        ext
        · simp [bodyRate, x, xInitial, d5, ← hsp]
          field_simp
        · simp [bodyRate, x, xInitial, d3, d4, ← hsp, ← hcp, ← hsr, ← hcr]
          field_simp
          linear_combination w.y * h3
        · simp [bodyRate, x, xInitial, d3, d4, ← hsp, ← hcp, ← hsr, ← hcr]
          field_simp
          linear_combination w.z * h3
      have e3 : Slides p R (R.transpose.mulVec ⟨Rv.x, Rv.y, Rv.z⟩) ((bodyRate x d3 d4 d5).smul k) := by rw [e1, e2]; exact hs
      simpa using e3)
    have z0 := congrFun hd0 0
    have z1 := congrFun hd0 1
    have z2 := congrFun hd0 2
    have z3 := congrFun hd0 3
    have z4 := congrFun hd0 4
    have z5 := congrFun hd0 5
    simp at z0 z1 z2 z3 z4 z5
    have hw : w.y = 0 ∧ w.z = 0 ∧ w.x = 0 := by
      have a3 : sr * w.y + cr * w.z = 0 := by
        have := z3
        simp only [d3, div_eq_zero_iff, mul_eq_zero, hk0, hp, or_false] at this
        exact this
      have a4 : cr * w.y - sr * w.z = 0 := by
        have := z4
        simp only [d4, div_eq_zero_iff, hk0, or_false] at this
        exact this
      have a5 : w.x = 0 := by
        have := z5
        simp only [d5, z3, mul_zero, add_zero, div_eq_zero_iff, hk0, or_false] at this
        exact this
      exact ⟨by linear_combination sr * a3 + cr * a4 - w.y * h3, by linear_combination cr * a3 - sr * a4 - w.z * h3, a5⟩
    have hv : v = 0 := by
      have : Rv = 0 := by ext <;> assumption
      have h5 := Lemmas.rot_normSq hrot v
      rw [← hRv, this] at h5
      exact normSq_eq_zero'.mp (by rw [← h5]; simp [P3.normSq, P3.dot])
    exact ⟨hv, by ext <;> simp [hw.1, hw.2.1, hw.2.2]⟩
  · intro hh d hd
    obtain ⟨hv, hw⟩ := hh _ _ ((key d).mp hd)
    have ht0 : (⟨d 0, d 1, d 2⟩ : P3 ℝ) = 0 := by
      rw [← Lemmas.GnS.rot_back hrot ⟨d 0, d 1, d 2⟩, hv]
      ext <;> simp [M3.mulVec]
    rw [P3.ext_iff] at ht0 hw
    simp only [bodyRate, P3.smul_x, P3.smul_y, P3.smul_z, P3.zero_x, P3.zero_y, P3.zero_z, mul_eq_zero, hk0, false_or] at ht0 hw
    obtain ⟨w1, w2, w3⟩ := hw
    have p' : x.pitch = T.pitch := rfl
    have r' : x.roll = T.roll := rfl
    rw [p'] at w1 w2 w3
    rw [r'] at w2 w3
    have d4 : d 4 = 0 := by linear_combination Real.cos T.roll * w2 - Real.sin T.roll * w3 - d 4 * h3
    have d3 : d 3 = 0 := by
      have : Real.cos T.pitch * d 3 = 0 := by linear_combination Real.sin T.roll * w2 + Real.cos T.roll * w3 - Real.cos T.pitch * d 3 * h3
      exact (mul_eq_zero.mp this).resolve_left hp
    have d5 : d 5 = 0 := by rw [d3] at w1; linarith
    funext j
    fin_cases j
    · exact ht0.1
    · exact ht0.2.1
    · exact ht0.2.2
    · exact d3
    · exact d4
    · exact d5

/-- The whole: points that are not all on one line, away from gimbal lock, give a covariance matrix; and no motion of the body is without variance. -/
theorem covariance_of_points (ln : Err.LnEnv ℝ) (junkErr : Fin 4 → ℝ) (junkZ : ℝ) {inv : (Fin 6 → Fin 6 → ℝ) → Fin 6 → Fin 6 → ℝ}
    (hinv : InvertsPosDef inv) {dXyz dAng : ℝ} (million : ℝ) {p : Pairings ℝ} (T : Six ℝ) (hx : 0 < dXyz) (ha : 0 < dAng) (ha' : Real.sin dAng ≠ 0)
    (hp : Real.cos T.pitch ≠ 0) (hl : p.ln2ln = []) (hu : ∀ q ∈ p.pt2ln, q.lnGlobal.director.normSq = 1) (hn : NotOnALine (p.pt2pt.map (·.local))) :
    ∃ c, covarianceOf ln junkErr junkZ eulerReal inv dXyz dAng million p T = .ok c ∧ IsCovariance c := by
  have hd := (covariance_determined_iff ln junkErr junkZ (dXyz := dXyz) (dAng := dAng) T hx ha' hp hl hu).mpr
    (points_hold (eulerReal_rotation _ _ _) hn)
  have he : p.isEmpty = false := by
    obtain ⟨a, h1, -⟩ := hn
    have : p.pt2pt ≠ [] := by rintro h0; simp [h0] at h1
    simp [Pairings.isEmpty, this]
  obtain ⟨c, h1, h2, -⟩ := covariance_valid_partial ln junkErr junkZ eulerReal hinv million T hx ha he (.inl hl) hd
  exact ⟨c, h1, h2⟩

/-- Hypotheses met: the inverse of a matrix is what is asked of `inv`. -/
theorem matrix_inverse_inverts : InvertsPosDef (fun H : Fin 6 → Fin 6 → ℝ => ((Matrix.of H)⁻¹ : Matrix (Fin 6) (Fin 6) ℝ)) := by
  intro H hH
  have hdet : (Matrix.of H).det ≠ 0 := by
    intro h0
    obtain ⟨v, hv, hz⟩ := Matrix.exists_mulVec_eq_zero_iff.mpr h0
    have hq := hH.pos v hv
    rw [quad_eq] at hq
    have : ∀ i, ∑ j, H i j * v j = 0 := fun i => congrFun hz i
    simp [this] at hq
  have h1 := Matrix.mul_nonsing_inv (Matrix.of H) (isUnit_iff_ne_zero.mpr hdet)
  intro i j
  have := congrFun (congrFun h1 i) j
  rwa [Matrix.mul_apply, Matrix.one_apply] at this

/-- Hypotheses met: three points at the corners of a triangle, turned by a quarter turn, steps of a tenth. -/
def covTriangle : Pairings ℝ :=
  { pt2pt := [⟨0, 0, ⟨5, 5, 5⟩, ⟨0, 0, 0⟩, 0⟩, ⟨1, 1, ⟨6, 5, 5⟩, ⟨1, 0, 0⟩, 0⟩, ⟨2, 2, ⟨5, 6, 5⟩, ⟨0, 1, 0⟩, 0⟩] }

example (ln : Err.LnEnv ℝ) (junk : Fin 4 → ℝ) (z : ℝ) : ∃ c, covarianceOf ln junk z eulerReal (fun H => ((Matrix.of H)⁻¹ : Matrix (Fin 6) (Fin 6) ℝ))
    (1 / 10) (1 / 10) 1000000 covTriangle ⟨1, 2, 3, Real.pi / 2, 0, 0⟩ = .ok c ∧ IsCovariance c :=
  covariance_of_points ln junk z matrix_inverse_inverts _ _ (by norm_num) (by norm_num)
    (Real.sin_pos_of_pos_of_lt_pi (by norm_num) (by have := Real.two_le_pi; linarith)).ne' (by simp) rfl (by simp [covTriangle])
    ⟨⟨0, 0, 0⟩, by simp [covTriangle], ⟨1, 0, 0⟩, by simp [covTriangle], ⟨0, 1, 0⟩, by simp [covTriangle], by
      simp [P3.cross, P3.ext_iff]⟩

/-- The same triangle, with its partners a thousand times further apart: the same covariance. -/
def covFar : Pairings ℝ :=
  { pt2pt := [⟨0, 0, ⟨5000, 5, 5⟩, ⟨0, 0, 0⟩, 0⟩, ⟨1, 1, ⟨6, 5000, 5⟩, ⟨1, 0, 0⟩, 0⟩, ⟨2, 2, ⟨5, 6, 5000⟩, ⟨0, 1, 0⟩, 0⟩] }

example : SameShape covTriangle covFar := ⟨rfl, rfl, rfl, rfl, rfl, rfl⟩

end Verif.Props
