import Verif.Spec.Laguerre
import Verif.Lemmas.GnShift
import Mathlib.Algebra.BigOperators.Field
import Mathlib.Algebra.BigOperators.Intervals
import Mathlib.Data.Nat.Choose.Sum
import Mathlib.Tactic.FieldSimp
import Mathlib.Tactic.LinearCombination
import Mathlib.Tactic.Module
/-
Lemmas for C115.
-/
namespace Verif.Lemmas.Lag
open Verif Verif.Gn Verif.Spec Verif.Spec.GN Verif.Lemmas Verif.Lemmas.Gn Verif.Lemmas.GnS
set_option linter.unusedSectionVars false
variable {K : Type} [Field K] [LinearOrder K] [IsStrictOrderedRing K]

/-- More terms than needed. -/
theorem laguerre_range {n m : Nat} (h : n < m) :
    laguerre K n = ∑ i ∈ Finset.range m, (-1) ^ i * (n.choose i : K) / (i.factorial : K) := by
  unfold laguerre
  refine Finset.sum_subset (by intro x hx; simp at hx ⊢; omega) ?_
  intro x _ hx
  rw [Nat.choose_eq_zero_of_lt (by simpa using hx)]
  simp

theorem sum_choose (k i : Nat) : ∑ j ∈ Finset.range (k + 1), j.choose i = (k + 1).choose (i + 1) := by
  induction k with
  | zero => cases i <;> simp [Nat.choose_succ_succ]
  | succ k ih => rw [Finset.sum_range_succ, ih, Nat.choose_succ_succ (k + 1) i, add_comm]

theorem laguerre_zero : laguerre K 0 = 1 := by simp [laguerre]

/-- Each value is the one before, less the mean of all those before. -/
theorem laguerre_step (k : Nat) :
    laguerre K (k + 1) = laguerre K k - (∑ j ∈ Finset.range (k + 1), laguerre K j) / ((k : K) + 1) := by
  have h1 : laguerre K (k + 1) - laguerre K k = -∑ i ∈ Finset.range (k + 1), (-1) ^ i * (k.choose i : K) / ((i + 1).factorial : K) := by
    rw [laguerre_range (K := K) (show k + 1 < k + 2 by omega), laguerre_range (K := K) (show k < k + 2 by omega), ← Finset.sum_sub_distrib,
      Finset.sum_range_succ', ← Finset.sum_neg_distrib]
    simp only [Nat.choose_zero_right, sub_self, add_zero]
    refine Finset.sum_congr rfl fun i _ => ?_
    rw [Nat.choose_succ_succ]
    push_cast
    ring
  have h2 : (∑ j ∈ Finset.range (k + 1), laguerre K j) = ∑ i ∈ Finset.range (k + 1), (-1) ^ i * ((k + 1).choose (i + 1) : K) / (i.factorial : K) := by
    have : ∀ j ∈ Finset.range (k + 1), laguerre K j = ∑ i ∈ Finset.range (k + 1), (-1) ^ i * (j.choose i : K) / (i.factorial : K) :=
      fun j hj => laguerre_range (by simpa using hj)
    rw [Finset.sum_congr rfl this, Finset.sum_comm]
    refine Finset.sum_congr rfl fun i _ => ?_
    rw [← Finset.sum_div, ← Finset.mul_sum, ← sum_choose]
    push_cast
    rfl
  have h3 : (∑ j ∈ Finset.range (k + 1), laguerre K j) / ((k : K) + 1) =
      ∑ i ∈ Finset.range (k + 1), (-1) ^ i * (k.choose i : K) / ((i + 1).factorial : K) := by
    rw [h2, Finset.sum_div]
    refine Finset.sum_congr rfl fun i _ => ?_
    have hk : (k : K) + 1 ≠ 0 := by positivity
    have hi : ((i.factorial : Nat) : K) ≠ 0 := by exact_mod_cast i.factorial_ne_zero
    have hi1 : ((i : Nat) : K) + 1 ≠ 0 := by positivity
    have hc : ((k : K) + 1) * (k.choose i : K) = ((k + 1).choose (i + 1) : K) * ((i : K) + 1) := by
      exact_mod_cast Nat.add_one_mul_choose_eq k i
    rw [Nat.factorial_succ]
    push_cast
    field_simp
    linear_combination -hc
  rw [h3]
  linear_combination h1

/-! ### the system at poses with the same rotation -/

theorem deriv_unique {R : M3 K} {t t' : P3 K} {D D' : Matrix (Fin 12) (Fin 6) K} (h : IsExpDeriv ⟨R, t⟩ D) (h' : IsExpDeriv ⟨R, t'⟩ D') : D = D' := by
  ext i j
  rw [GnF.deriv_col h, GnF.deriv_col h']

theorem shift_error {n : Nat} {f : Pose3 K → Fin n → K} {J : Matrix (Fin n) (Fin 12) K} {T : Pose3 K} (v : P3 K)
    (hx : ExactChange f J T) {D : Matrix (Fin 12) (Fin 6) K} (hD : IsExpDeriv T D) :
    f ⟨T.R, T.t + T.R.mulVec v⟩ = f T + (J * D).mulVec (inc v 0) := by
  rw [mulVec_inc hD]
  funext i
  have := hx ⟨T.R.mul (crossMat 0), T.R.mulVec v⟩ i
  rw [← Pi.add_apply] at this
  rw [← this]
  congr 1
  unfold perturb
  congr 1
  ext <;> simp [M3.add, M3.mul, crossMat]

theorem term_affine {n : Nat} (D : Matrix (Fin 12) (Fin 6) K) (w : K) (J : Matrix (Fin n) (Fin 12) K) (e : Fin n → K) (d : Fin 6 → K) :
    term D w J (e + (J * D).mulVec d) = (⟨(term D w J e).1, (term D w J e).2 + (term D w J e).1.mulVec d⟩ : Sys K) := by
  unfold term
  simp only [Matrix.mulVec_add, smul_add, Matrix.smul_mulVec, Matrix.mulVec_mulVec]

theorem sum_affine {α : Type} (l : List α) (t t' : α → Sys K) (d : Fin 6 → K) (h : ∀ a, t' a = (⟨(t a).1, (t a).2 + (t a).1.mulVec d⟩ : Sys K)) :
    (l.map t').sum = (⟨(l.map t).sum.1, (l.map t).sum.2 + (l.map t).sum.1.mulVec d⟩ : Sys K) := by
  induction l with
  | nil => simp; rfl
  | cons a l ih =>
    simp only [List.map_cons, List.sum_cons, h, ih, Prod.fst_add, Prod.snd_add, Matrix.add_mulVec]
    ext1
    · rfl
    · simp only [Prod.snd_add]; abel

/-- Without kernel, the linear system at a pose with the same rotation: the same matrix, and a right-hand side changed by its product with the shift. -/
theorem system_shift {E : Env K} (hE : GoodEnv E) {P : Params K} {inp : Pairings K} {ws : List K} (hk : P.kernel = .none) (hln : inp.ln2ln = [])
    (hprior : P.prior = none) (T : Pose3 K) (v : P3 K) :
    system E P inp ws ⟨T.R, T.t + T.R.mulVec v⟩ =
      (⟨(system E P inp ws T).1, (system E P inp ws T).2 + (system E P inp ws T).1.mulVec (inc v 0)⟩ : Sys K) := by
  have hD := hE.deriv T
  have hDD : E.expJac ⟨T.R, T.t + T.R.mulVec v⟩ = E.expJac T := deriv_unique (hE.deriv _) (t' := T.t) (hE.deriv T)
  have hr : ∀ {n : Nat} (w : K) (e : Fin n → K), robust P w e = w := fun w e => by simp [robust, kernelFactor, hk]
  have h1 := sum_affine (inp.pt2pt.zip ws) (fun q => term (E.expJac T) q.2 (Err.pt2ptJac q.1) (Err.pt2pt q.1 T))
    (fun q => term (E.expJac T) q.2 (Err.pt2ptJac q.1) (Err.pt2pt q.1 ⟨T.R, T.t + T.R.mulVec v⟩)) (inc v 0)
    fun q => by rw [shift_error v (pt2pt_exact q.1 T) hD, term_affine]
  have h2 := sum_affine inp.pt2ln (fun q => term (E.expJac T) P.pairWeights.pt2ln (Err.pt2lnJac q) (Err.pt2ln q T))
    (fun q => term (E.expJac T) P.pairWeights.pt2ln (Err.pt2lnJac q) (Err.pt2ln q ⟨T.R, T.t + T.R.mulVec v⟩)) (inc v 0)
    fun q => by rw [shift_error v (pt2ln_exact q T) hD, term_affine]
  have h3 := sum_affine inp.pt2pl (fun q => term (E.expJac T) P.pairWeights.pt2pl (Err.pt2plJac q) (Err.pt2pl q T))
    (fun q => term (E.expJac T) P.pairWeights.pt2pl (Err.pt2plJac q) (Err.pt2pl q ⟨T.R, T.t + T.R.mulVec v⟩)) (inc v 0)
    fun q => by rw [shift_error v (pt2pl_exact q T) hD, term_affine]
  have h4 := sum_affine inp.pl2pl (fun q => term (E.expJac T) P.pairWeights.pl2pl (Err.pl2plJac q) (Err.pl2pl q T))
    (fun q => term (E.expJac T) P.pairWeights.pl2pl (Err.pl2plJac q) (Err.pl2pl q ⟨T.R, T.t + T.R.mulVec v⟩)) (inc v 0)
    fun q => by rw [shift_error v (pl2pl_exact q T) hD, term_affine]
  simp only [system, pointPart, otherPart, hprior, hln, List.map_nil, List.sum_nil, Option.elim_none, add_zero, hDD, hr, h1, h2, h3, h4]
  ext1
  · rfl
  · simp only [Prod.snd_add, Prod.fst_add, Matrix.add_mulVec]; abel

end Verif.Lemmas.Lag
