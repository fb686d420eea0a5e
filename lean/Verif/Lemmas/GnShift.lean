import Verif.Spec.GnShift
import Verif.Lemmas.GnFrame
import Verif.Lemmas.ErrorTerms
import Verif.Props.GnSteps
/-
Gauss-Newton started with the right rotation (C111).
-/
namespace Verif.Lemmas.GnS
open Verif Verif.Gn Verif.Spec Verif.Spec.GN Verif.Lemmas Verif.Lemmas.Gn
open Verif.Lemmas.GnF (col)
set_option linter.unusedSectionVars false
variable {K : Type} [Field K] [LinearOrder K] [IsStrictOrderedRing K]

/-- The increment with translation `v` and rotation `w`. -/
def inc (v w : P3 K) : Fin 6 → K := ![v.x, v.y, v.z, w.x, w.y, w.z]

theorem inc_surj (d : Fin 6 → K) : ∃ v w, d = inc v w := by
  refine ⟨⟨d 0, d 1, d 2⟩, ⟨d 3, d 4, d 5⟩, ?_⟩
  funext i
  fin_cases i <;> rfl

theorem mulVec_inc {n : Nat} {T : Pose3 K} {D : Matrix (Fin 12) (Fin 6) K} (h : IsExpDeriv T D) (J : Matrix (Fin n) (Fin 12) K)
    (v w : P3 K) : (J * D).mulVec (inc v w) = J.mulVec (poseVec ⟨T.R.mul (crossMat w), T.R.mulVec v⟩) := by
  rw [← h v w, Matrix.mulVec_mulVec]
  rfl

theorem compose_vel (R : M3 K) (l v w : P3 K) :
    (Err.composeJac l).mulVec (poseVec ⟨R.mul (crossMat w), R.mulVec v⟩) = col (velocity R v w l) := by
  funext i
  fin_cases i <;>
    simp [Err.composeJac, Matrix.mulVec, dotProduct, Fin.sum_univ_succ, poseVec, col, velocity, M3.mulVec, M3.mul, crossMat, P3.cross] <;> ring

theorem col_zero {a : P3 K} (h : col a = 0) : a = 0 := by
  ext
  · exact congrFun h 0
  · exact congrFun h 1
  · exact congrFun h 2

variable {T : Pose3 K} {D : Matrix (Fin 12) (Fin 6) K} (hD : IsExpDeriv T D)
include hD

theorem pt_still (q : PtPair K) {v w : P3 K} (h : (Err.pt2ptJac q * D).mulVec (inc v w) = 0) : velocity T.R v w q.local = 0 := by
  rw [mulVec_inc hD, Err.pt2ptJac, compose_vel] at h
  exact col_zero h

theorem ln_still (q : PtLnPair K) {v w : P3 K} (h : (Err.pt2lnJac q * D).mulVec (inc v w) = 0) :
    ∃ s : K, velocity T.R v w q.ptLocal = q.lnGlobal.director.smul s := by
  refine ⟨q.lnGlobal.director.dot (velocity T.R v w q.ptLocal), ?_⟩
  rw [mulVec_inc hD, Err.pt2lnJac, ← Matrix.mulVec_mulVec, compose_vel] at h
  generalize velocity T.R v w q.ptLocal = a at h ⊢
  have h0 := congrFun h 0
  have h1 := congrFun h 1
  have h2 := congrFun h 2
  simp [Matrix.mulVec, dotProduct, Fin.sum_univ_succ, col] at h0 h1 h2
  ext <;> simp only [P3.smul, P3.dot]
  · linear_combination h0
  · linear_combination h1
  · linear_combination h2

theorem nm_still (q : PlPair K) {v w : P3 K} (h : (Err.pl2plJac q * D).mulVec (inc v w) = 0) :
    velocity T.R 0 w q.pLocal.plane.n = 0 := by
  rw [mulVec_inc hD] at h
  have h0 := congrFun h 0
  have h1 := congrFun h 1
  have h2 := congrFun h 2
  simp [Err.pl2plJac, Matrix.mulVec, dotProduct, Fin.sum_univ_succ, poseVec, M3.mul, crossMat] at h0 h1 h2
  ext <;> simp [velocity, M3.mulVec, P3.cross]
  · linear_combination h0
  · linear_combination h1
  · linear_combination h2

theorem pl_still (q : PtPlPair K) {v w : P3 K} (h : (Err.pt2plJac q * D).mulVec (inc v w) = 0) :
    q.plGlobal.plane.n.dot (velocity T.R v w q.ptLocal) = 0 := by
  rw [mulVec_inc hD, Err.pt2plJac, ← Matrix.mulVec_mulVec, compose_vel] at h
  generalize velocity T.R v w q.ptLocal = a at h ⊢
  have h0 := congrFun h 0
  have h1 := congrFun h 1
  have h2 := congrFun h 2
  simp [Matrix.mulVec, dotProduct, Fin.sum_univ_succ, col] at h0 h1 h2
  generalize q.plGlobal.plane.n = n at *
  by_cases hn : n.x * n.x + n.y * n.y + n.z * n.z = 0
  · have hn0 : n = 0 := normSq_eq_zero'.mp hn
    rw [hn0]; simp [P3.dot]
  · have e : (n.dot a) * (n.x * n.x + n.y * n.y + n.z * n.z) = 0 := by
      simp only [P3.dot]
      generalize hm : n.x * n.x + n.y * n.y + n.z * n.z = m at *
      have g : ∀ x : K, x / m = x * m⁻¹ := fun x => div_eq_mul_inv x m
      have hi : m⁻¹ ≠ 0 := inv_ne_zero hn
      simp only [g] at h0 h1 h2
      refine (mul_eq_zero.mp (?_ : _ * m⁻¹ = 0)).resolve_right hi
      rw [← hm] at *
      linear_combination -(n.x) * h0 - n.y * h1 - n.z * h2
    exact (mul_eq_zero.mp e).resolve_right hn

omit hD

/-! ### the residuals vanish after the shift -/

/-- The shift that takes the guess to the true pose, in the frame of the body. -/
def shiftInc (T : Pose3 K) (t0 : P3 K) : P3 K := T.R.transpose.mulVec (T.t - t0)

theorem rot_back {R : M3 K} (hR : IsRotation R) (a : P3 K) : R.mulVec (R.transpose.mulVec a) = a := by
  rw [← mul_mulVec, (transpose_rot hR).1]
  ext <;> simp [M3.one, M3.mulVec]

theorem shift_perturb {T : Pose3 K} (hR : IsRotation T.R) (t0 : P3 K) :
    perturb ⟨T.R, t0⟩ ⟨T.R.mul (crossMat 0), T.R.mulVec (shiftInc T t0)⟩ = T := by
  unfold perturb shiftInc
  simp only [rot_back hR]
  cases T with
  | mk R t =>
    congr 1
    · ext <;> simp [M3.add, M3.mul, crossMat]
    · ext <;> simp

theorem shift_residual {n : Nat} {f : Pose3 K → Fin n → K} {J : Matrix (Fin n) (Fin 12) K} {T : Pose3 K} (hR : IsRotation T.R) (t0 : P3 K)
    (hx : ExactChange f J ⟨T.R, t0⟩) {D : Matrix (Fin 12) (Fin 6) K} (hD : IsExpDeriv ⟨T.R, t0⟩ D) (hz : f T = 0) :
    f ⟨T.R, t0⟩ + (J * D).mulVec (inc (shiftInc T t0) 0) = 0 := by
  rw [mulVec_inc hD]
  funext i
  have := hx ⟨T.R.mul (crossMat 0), T.R.mulVec (shiftInc T t0)⟩ i
  rw [shift_perturb hR, hz] at this
  simpa using this.symm

theorem term_solved {n : Nat} (D : Matrix (Fin 12) (Fin 6) K) (w : K) (J : Matrix (Fin n) (Fin 12) K) (e : Fin n → K) (d : Fin 6 → K)
    (h : e + (J * D).mulVec d = 0) : (term D w J e).1.mulVec d + (term D w J e).2 = 0 := by
  unfold term
  simp only [Matrix.smul_mulVec, ← smul_add]
  rw [← Matrix.mulVec_mulVec, ← Matrix.mulVec_add, add_comm, h]
  simp

theorem sum_solved {α : Type} (l : List α) (t : α → Sys K) (d : Fin 6 → K) (h : ∀ a ∈ l, (t a).1.mulVec d + (t a).2 = 0) :
    (l.map t).sum.1.mulVec d + (l.map t).sum.2 = 0 := by
  induction l with
  | nil => simp
  | cons a l ih =>
    have h1 := h a (List.mem_cons_self ..)
    have h2 := ih fun a ha => h a (List.mem_cons_of_mem _ ha)
    simp only [List.map_cons, List.sum_cons, Prod.fst_add, Prod.snd_add, Matrix.add_mulVec]
    rw [add_add_add_comm, h1, h2, add_zero]

/-! ### the system has one solution -/

theorem term_quad {n : Nat} (D : Matrix (Fin 12) (Fin 6) K) (w : K) (J : Matrix (Fin n) (Fin 12) K) (e : Fin n → K) (h : Fin 6 → K) :
    h ⬝ᵥ (term D w J e).1.mulVec h = w * sqLen ((J * D).mulVec h) := by
  have dv : ∀ {m : Nat} (a : Fin m → K), sqLen a = a ⬝ᵥ a := fun a => rfl
  unfold term
  simp only [dv]
  rw [Matrix.smul_mulVec, dotProduct_smul, ← Matrix.mulVec_mulVec, Matrix.dotProduct_mulVec h, Matrix.vecMul_transpose, smul_eq_mul]

theorem sum_quad {α : Type} (l : List α) (t : α → Sys K) (s : α → K) (h : Fin 6 → K) (ht : ∀ a ∈ l, h ⬝ᵥ (t a).1.mulVec h = s a)
    (hp : ∀ a ∈ l, 0 ≤ s a) : 0 ≤ h ⬝ᵥ (l.map t).sum.1.mulVec h ∧ (h ⬝ᵥ (l.map t).sum.1.mulVec h = 0 → ∀ a ∈ l, s a = 0) := by
  induction l with
  | nil => simp
  | cons a l ih =>
    have h1 := ht a (List.mem_cons_self ..)
    have h2 := hp a (List.mem_cons_self ..)
    obtain ⟨h3, h4⟩ := ih (fun a ha => ht a (List.mem_cons_of_mem _ ha)) (fun a ha => hp a (List.mem_cons_of_mem _ ha))
    simp only [List.map_cons, List.sum_cons, Prod.fst_add, Matrix.add_mulVec, dotProduct_add, h1]
    refine ⟨add_nonneg h2 h3, fun h => ?_⟩
    intro b hb
    rcases List.mem_cons.mp hb with rfl | hb
    · linarith
    · exact h4 (by linarith) b hb

theorem robust_pos {n : Nat} {P : Params K} (hk : P.kernel = .none ∨ 0 < P.kernelParam) {w : K} (hw : 0 < w) (e : Fin n → K) :
    0 < robust P w e := by
  unfold robust
  apply mul_pos hw
  have := Props.sqLen_nonneg' e
  unfold kernelFactor
  rcases hk with hk | hk
  · rw [hk]; simp
  · split <;> positivity

theorem weighted_zero {n : Nat} {w : K} (hw : 0 < w) {a : Fin n → K} (h : w * sqLen a = 0) : a = 0 :=
  (sqLen_eq_zero a).mp ((mul_eq_zero.mp h).resolve_left (ne_of_gt hw))

theorem zip_has {α β : Type} (l : List α) (m : List β) (h : l.length ≤ m.length) (a : α) (ha : a ∈ l) : ∃ b, (a, b) ∈ l.zip m := by
  obtain ⟨i, hi, rfl⟩ := List.mem_iff_getElem.mp ha
  exact ⟨m[i], List.mem_iff_getElem.mpr ⟨i, by simp; omega, by simp⟩⟩

/-- Where the quadratic form of the system is zero, the pairings let the body move. -/
theorem system_slides {E : Env K} {P : Params K} {inp : Pairings K} {ws : List K} {T : Pose3 K} (hD : IsExpDeriv T (E.expJac T))
    (hln : inp.ln2ln = []) (hprior : P.prior = none) (hlen : inp.pt2pt.length ≤ ws.length) (hws : ∀ w ∈ ws, 0 < w)
    (h1 : 0 < P.pairWeights.pt2ln) (h2 : 0 < P.pairWeights.pt2pl) (h3 : 0 < P.pairWeights.pl2pl)
    (hk : P.kernel = .none ∨ 0 < P.kernelParam) (h : Fin 6 → K) (hdot : h ⬝ᵥ (system E P inp ws T).1.mulVec h = 0) :
    ∃ v w, h = inc v w ∧ Slides inp T.R v w := by
  have q1 := sum_quad (inp.pt2pt.zip ws) _ _ h (fun q _ => term_quad (E.expJac T) (robust P q.2 (Err.pt2pt q.1 T)) (Err.pt2ptJac q.1) (Err.pt2pt q.1 T) h)
    (fun q hq => mul_nonneg (robust_pos hk (hws _ (List.of_mem_zip hq).2) _).le (Props.sqLen_nonneg' _))
  have q2 := sum_quad inp.pt2ln _ _ h (fun q _ => term_quad (E.expJac T) (robust P P.pairWeights.pt2ln (Err.pt2ln q T)) (Err.pt2lnJac q) (Err.pt2ln q T) h)
    (fun q _ => mul_nonneg (robust_pos hk h1 _).le (Props.sqLen_nonneg' _))
  have q4 := sum_quad inp.pt2pl _ _ h (fun q _ => term_quad (E.expJac T) (robust P P.pairWeights.pt2pl (Err.pt2pl q T)) (Err.pt2plJac q) (Err.pt2pl q T) h)
    (fun q _ => mul_nonneg (robust_pos hk h2 _).le (Props.sqLen_nonneg' _))
  have q5 := sum_quad inp.pl2pl _ _ h (fun q _ => term_quad (E.expJac T) (robust P P.pairWeights.pl2pl (Err.pl2pl q T)) (Err.pl2plJac q) (Err.pl2pl q T) h)
    (fun q _ => mul_nonneg (robust_pos hk h3 _).le (Props.sqLen_nonneg' _))
  simp only [system, pointPart, otherPart, hprior, hln, List.map_nil, List.sum_nil, Option.elim_none, add_zero, Prod.fst_add, Matrix.add_mulVec,
    dotProduct_add] at hdot
  obtain ⟨a1, b1⟩ := q1
  obtain ⟨a2, b2⟩ := q2
  obtain ⟨a4, b4⟩ := q4
  obtain ⟨a5, b5⟩ := q5
  obtain ⟨v, w, rfl⟩ := inc_surj h
  refine ⟨v, w, rfl, ?_⟩
  · refine ⟨?_, ?_, ?_, ?_⟩
    · intro q hq
      obtain ⟨ω, hω⟩ := zip_has inp.pt2pt ws hlen q hq
      exact pt_still hD q (weighted_zero (robust_pos hk (hws _ (List.of_mem_zip hω).2) _) (b1 (by linarith) _ hω))
    · intro q hq
      exact ln_still hD q (weighted_zero (robust_pos hk h1 _) (b2 (by linarith) _ hq))
    · intro q hq
      exact pl_still hD q (weighted_zero (robust_pos hk h2 _) (b4 (by linarith) _ hq))
    · intro q hq
      exact nm_still hD q (weighted_zero (robust_pos hk h3 _) (b5 (by linarith) _ hq))

/-- If the pairings hold the body, the linear system has at most one solution. -/
theorem system_unique {E : Env K} {P : Params K} {inp : Pairings K} {ws : List K} {T : Pose3 K} (hD : IsExpDeriv T (E.expJac T))
    (hh : Holds inp T.R) (hln : inp.ln2ln = []) (hprior : P.prior = none) (hlen : inp.pt2pt.length ≤ ws.length) (hws : ∀ w ∈ ws, 0 < w)
    (h1 : 0 < P.pairWeights.pt2ln) (h2 : 0 < P.pairWeights.pt2pl) (h3 : 0 < P.pairWeights.pl2pl)
    (hk : P.kernel = .none ∨ 0 < P.kernelParam) (h : Fin 6 → K) (hz : (system E P inp ws T).1.mulVec h = 0) : h = 0 := by
  obtain ⟨v, w, rfl, hsl⟩ := system_slides hD hln hprior hlen hws h1 h2 h3 hk h (by rw [hz]; simp)
  obtain ⟨rfl, rfl⟩ := hh v w hsl
  funext i
  fin_cases i <;> rfl

end Verif.Lemmas.GnS
