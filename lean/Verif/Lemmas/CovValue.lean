import Verif.Spec.CovValue
import Mathlib.Tactic.Ring
import Mathlib.Tactic.Linarith
import Mathlib.Tactic.FieldSimp
import Mathlib.Tactic.FinCases
import Mathlib.Algebra.BigOperators.Group.List.Basic
import Mathlib.Algebra.Order.BigOperators.Group.List
import Mathlib.LinearAlgebra.Matrix.NonsingularInverse
/-
Lemmas for the value of the covariance (C113).
-/
namespace Verif.Lemmas.CovV
open Verif Verif.Cov Verif.Spec.CovV
set_option linter.unusedSectionVars false
variable {K : Type} [Field K]

theorem written_some (l : List K) : written (l.map some) = .ok l := by
  induction l with
  | nil => rfl
  | cons a l ih => simp [written, ih, Outcome.bind]

theorem written_none {l : List (Option K)} (h : none ∈ l) : written l = .ub := by
  induction l with
  | nil => simp at h
  | cons a l ih =>
    cases a with
    | none => rfl
    | some a =>
      have : none ∈ l := by simpa using h
      simp [written, ih this, Outcome.bind]

section
variable [LinearOrder K] [IsStrictOrderedRing K]

theorem numJac_value {f : Six K → Outcome (List (Option K))} {pose : Six K → Pose3 K} {L : List (Pose3 K → K)}
    (hf : ∀ x, f x = .ok ((L.map fun e => e (pose x)).map some)) {h : Fin 6 → K} (hh : ∀ j, 0 < h j) (x : Six K) :
    numJacobian f x h = .ok (L.map fun e => slope pose h x e) := by
  have hs : ∀ j, sides f x h j = .ok (L.map fun e => e (pose (x.bump j (h j))), L.map fun e => e (pose (x.bump j (-(h j))))) := by
    intro j
    simp only [sides, hf, Outcome.bind, written_some]
  unfold numJacobian
  simp only [Outcome.assert, hh, implies_true, if_true, Outcome.bind, hs, List.length_map]
  congr 1
  apply List.ext_getElem
  · simp
  · intro i h1 h2
    simp only [List.length_map, List.length_range] at h1 h2
    simp only [List.getElem_map, List.getElem_range]
    funext j
    have e2 : h j ≠ 0 := (hh j).ne'
    unfold slope
    fin_cases j <;> simp [List.getD_eq_getElem?_getD, List.getElem?_eq_getElem h1] <;> field_simp

/-- The quadratic form of the information is a sum of squares. -/
theorem quad_information (pose : Six K → Pose3 K) (h : Fin 6 → K) (x : Six K) (L : List (Pose3 K → K)) (d : Fin 6 → K) :
    quad (information pose h x L) d = (L.map fun e => (∑ j, slope pose h x e j * d j) ^ 2).sum := by
  induction L with
  | nil => simp [quad, information]
  | cons e L ih =>
    have : quad (information pose h x (e :: L)) d = quad (fun i j => slope pose h x e i * slope pose h x e j) d + quad (information pose h x L) d := by
      simp only [quad, information, List.map_cons, List.sum_cons, mul_add, add_mul, Finset.sum_add_distrib]
    rw [this, ih, List.map_cons, List.sum_cons]
    congr 1
    rw [sq, Finset.sum_mul_sum]
    exact Finset.sum_congr rfl fun i _ => Finset.sum_congr rfl fun j _ => by ring

theorem sum_sq_nonneg (L : List (Pose3 K → K)) (f : (Pose3 K → K) → K) : 0 ≤ (L.map fun e => f e ^ 2).sum :=
  List.sum_nonneg fun x hx => by
    obtain ⟨e, -, rfl⟩ := List.mem_map.mp hx
    exact sq_nonneg _

theorem sum_sq_pos (L : List (Pose3 K → K)) (f : (Pose3 K → K) → K) (h : ∃ e ∈ L, f e ≠ 0) : 0 < (L.map fun e => f e ^ 2).sum := by
  induction L with
  | nil => obtain ⟨e, he, -⟩ := h; simp at he
  | cons a L ih =>
    rw [List.map_cons, List.sum_cons]
    obtain ⟨e, he, hne⟩ := h
    rcases List.mem_cons.mp he with rfl | he
    · exact add_pos_of_pos_of_nonneg (by positivity) (sum_sq_nonneg L f)
    · exact add_pos_of_nonneg_of_pos (sq_nonneg _) (ih ⟨e, he, hne⟩)

theorem information_covariance {pose : Six K → Pose3 K} {h : Fin 6 → K} {x : Six K} {L : List (Pose3 K → K)} (hd : Determined pose h x L) :
    IsCovariance (information pose h x L) where
  symm i j := by simp only [information, mul_comm]
  pos d hne := by
    rw [quad_information]
    apply sum_sq_pos
    by_contra hc
    push Not at hc
    exact hne (hd d hc)

theorem quad_eq (A : Fin 6 → Fin 6 → K) (d : Fin 6 → K) : quad A d = ∑ i, d i * ∑ j, A i j * d j := by
  unfold quad
  refine Finset.sum_congr rfl fun i _ => ?_
  rw [Finset.mul_sum]
  exact Finset.sum_congr rfl fun j _ => by ring

theorem inverse_apply {H C : Fin 6 → Fin 6 → K} (h : IsInverse H C) (d : Fin 6 → K) (i : Fin 6) :
    ∑ k, H i k * ∑ j, C k j * d j = d i := by
  have : ∑ k, H i k * ∑ j, C k j * d j = ∑ j, (∑ k, H i k * C k j) * d j := by
    simp only [Finset.mul_sum, Finset.sum_mul]
    rw [Finset.sum_comm]
    exact Finset.sum_congr rfl fun j _ => Finset.sum_congr rfl fun k _ => by ring
  rw [this]
  simp [h i]

/-- The other side. -/
theorem inverse_left {H C : Fin 6 → Fin 6 → K} (h : IsInverse H C) : IsInverse C H := by
  have h1 : (Matrix.of H) * (Matrix.of C) = 1 := by
    ext i j
    rw [Matrix.mul_apply, Matrix.one_apply]
    exact h i j
  have h2 := mul_eq_one_comm.mp h1
  intro i j
  have := congrFun (congrFun h2 i) j
  rwa [Matrix.mul_apply, Matrix.one_apply] at this

theorem inverse_covariance {H C : Fin 6 → Fin 6 → K} (hH : IsCovariance H) (h : IsInverse H C) : IsCovariance C := by
  have hl := inverse_left h
  constructor
  · -- C = C * (H * Cᵀ) = Cᵀ
    intro i j
    have h1 : ∑ k, C i k * ∑ l, H k l * C j l = C i j := by
      have : ∀ k, ∑ l, H k l * C j l = if j = k then 1 else 0 := by
        intro k
        rw [← hl j k]
        exact Finset.sum_congr rfl fun l _ => by rw [hH.symm k l, mul_comm]
      simp [this]
    have h2 : ∑ k, C i k * ∑ l, H k l * C j l = C j i := by
      have e : ∑ k, C i k * ∑ l, H k l * C j l = ∑ l, (∑ k, C i k * H k l) * C j l := by
        simp only [Finset.mul_sum, Finset.sum_mul]
        rw [Finset.sum_comm]
        exact Finset.sum_congr rfl fun j _ => Finset.sum_congr rfl fun k _ => by ring
      rw [e]
      simp [hl i]
    rw [← h1, h2]
  · intro d hne
    set y : Fin 6 → K := fun k => ∑ j, C k j * d j with hy
    have hHy : ∀ i, ∑ k, H i k * y k = d i := inverse_apply h d
    have hyne : y ≠ 0 := by
      intro hz
      apply hne
      funext i
      rw [← hHy i]
      simp [hz]
    have := hH.pos y hyne
    rw [quad_eq] at this
    rw [quad_eq]
    calc (0 : K) < ∑ i, y i * ∑ j, H i j * y j := this
      _ = ∑ i, d i * ∑ j, C i j * d j := Finset.sum_congr rfl fun i _ => by rw [hHy, mul_comm]

/-- A larger matrix has a smaller inverse. -/
theorem inverse_antitone {A B CA CB : Fin 6 → Fin 6 → K} (hA : IsCovariance A) (hle : ∀ d, quad A d ≤ quad B d) (ha : IsInverse A CA)
    (hb : IsInverse B CB) (x : Fin 6 → K) : quad CB x ≤ quad CA x := by
  set y : Fin 6 → K := fun k => ∑ j, CB k j * x j with hy
  set z : Fin 6 → K := fun k => ∑ j, CA k j * x j with hz
  have hBy : ∀ i, ∑ k, B i k * y k = x i := inverse_apply hb x
  have hAz : ∀ i, ∑ k, A i k * z k = x i := inverse_apply ha x
  have q1 : quad CB x = ∑ i, x i * y i := quad_eq _ _
  have q2 : quad CA x = ∑ i, x i * z i := quad_eq _ _
  have q3 : quad B y = ∑ i, x i * y i := by
    rw [quad_eq]; exact Finset.sum_congr rfl fun i _ => by rw [hBy, mul_comm]
  have hpos : 0 ≤ quad A (fun i => z i - y i) := by
    by_cases h0 : (fun i => z i - y i) = 0
    · rw [h0]; simp [quad]
    · exact (hA.pos _ h0).le
  have hexp : quad A (fun i => z i - y i) = quad CA x - 2 * quad CB x + quad A y := by
    have e1 : quad A (fun i => z i - y i) = ∑ i, (z i - y i) * (x i - ∑ j, A i j * y j) := by
      rw [quad_eq]
      refine Finset.sum_congr rfl fun i _ => ?_
      have e0 : ∑ j, A i j * (z j - y j) = x i - ∑ j, A i j * y j := by
        rw [← hAz i, ← Finset.sum_sub_distrib]
        exact Finset.sum_congr rfl fun j _ => by ring
      rw [e0]
    have e2 : ∑ i, z i * ∑ j, A i j * y j = ∑ i, x i * y i := by
      simp only [Finset.mul_sum]
      rw [Finset.sum_comm]
      refine Finset.sum_congr rfl fun j _ => ?_
      rw [← hAz j, Finset.sum_mul]
      exact Finset.sum_congr rfl fun i _ => by rw [hA.symm i j]; ring
    have e3 : ∑ i, (z i - y i) * (x i - ∑ j, A i j * y j) =
        ∑ i, x i * z i - ∑ i, x i * y i - ∑ i, z i * ∑ j, A i j * y j + ∑ i, y i * ∑ j, A i j * y j := by
      rw [← Finset.sum_sub_distrib, ← Finset.sum_sub_distrib, ← Finset.sum_add_distrib]
      exact Finset.sum_congr rfl fun i _ => by ring
    rw [e1, e3, e2, q1, q2, quad_eq A y]
    ring
  have := hle y
  rw [q3, ← q1] at this
  linarith

theorem information_apply (pose : Six K → Pose3 K) (h : Fin 6 → K) (x : Six K) (L : List (Pose3 K → K)) (d : Fin 6 → K)
    (hd : ∀ e ∈ L, ∑ j, slope pose h x e j * d j = 0) (i : Fin 6) : ∑ j, information pose h x L i j * d j = 0 := by
  induction L with
  | nil => simp [information]
  | cons e L ih =>
    have e1 : ∑ j, information pose h x (e :: L) i j * d j = slope pose h x e i * ∑ j, slope pose h x e j * d j + ∑ j, information pose h x L i j * d j := by
      rw [Finset.mul_sum, ← Finset.sum_add_distrib]
      exact Finset.sum_congr rfl fun j _ => by simp only [information, List.map_cons, List.sum_cons]; ring
    rw [e1, ih fun e he => hd e (List.mem_cons_of_mem _ he), hd e List.mem_cons_self]
    simp

theorem singular {H : Fin 6 → Fin 6 → K} {d : Fin 6 → K} (hd : d ≠ 0) (h0 : ∀ i, ∑ j, H i j * d j = 0) (C : Fin 6 → Fin 6 → K) : ¬ IsInverse H C := by
  intro hc
  apply hd
  funext i
  rw [← inverse_apply (inverse_left hc) d i]
  simp [h0]

end

/-- Component of a point. -/
def comp (v : P3 K) : Fin 3 → K := ![v.x, v.y, v.z]

/-- Velocity of a local point under parameter `j`. -/
def moved (pose : Six K → Pose3 K) (h : Fin 6 → K) (x : Six K) (l : P3 K) (j : Fin 6) : P3 K :=
  ((pose (x.bump j (h j))).composePoint l - (pose (x.bump j (-(h j)))).composePoint l).smul (1 / (2 * h j))

/-- Change of a local direction under parameter `j`. -/
def turned (pose : Six K → Pose3 K) (h : Fin 6 → K) (x : Six K) (n : P3 K) (j : Fin 6) : P3 K :=
  ((pose (x.bump j (h j))).R.mulVec n - (pose (x.bump j (-(h j)))).R.mulVec n).smul (1 / (2 * h j))

theorem slope_pt2pt (pose : Six K → Pose3 K) (h : Fin 6 → K) (x : Six K) (q : PtPair K) (i : Fin 3) (j : Fin 6) :
    slope pose h x (fun T => Err.pt2pt q T i) j = comp (moved pose h x q.local j) i := by
  fin_cases i <;> simp [slope, Err.pt2pt, comp, moved] <;> ring

theorem slope_pt2ln (pose : Six K → Pose3 K) (h : Fin 6 → K) (x : Six K) (q : PtLnPair K) (i : Fin 3) (j : Fin 6) :
    slope pose h x (fun T => Err.pt2ln q T i) j =
      comp (moved pose h x q.ptLocal j - q.lnGlobal.director.smul (q.lnGlobal.director.dot (moved pose h x q.ptLocal j))) i := by
  fin_cases i <;> simp [slope, Err.pt2ln, comp, moved, P3.dot] <;> ring

theorem slope_pt2pl (pose : Six K → Pose3 K) (h : Fin 6 → K) (x : Six K) (q : PtPlPair K) (i : Fin 3) (j : Fin 6) :
    slope pose h x (fun T => Err.pt2pl q T i) j =
      comp (q.plGlobal.plane.n.smul (-(q.plGlobal.plane.n.dot (moved pose h x q.ptLocal j) / q.plGlobal.plane.n.normSq))) i := by
  fin_cases i <;> simp [slope, Err.pt2pl, comp, moved, P3.dot, P3.normSq] <;> ring

theorem slope_pl2pl (pose : Six K → Pose3 K) (h : Fin 6 → K) (x : Six K) (q : PlPair K) (i : Fin 3) (j : Fin 6) :
    slope pose h x (fun T => Err.pl2pl q T i) j = comp (turned pose h x q.pLocal.plane.n j) i := by
  fin_cases i <;> simp [slope, Err.pl2pl, comp, turned] <;> ring

end Verif.Lemmas.CovV
