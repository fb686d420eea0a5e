import Verif.Lemmas.Covariance
import Mathlib.Algebra.Order.Ring.Rat
/-
C35: layout of the stacked error vector of `covariance`.
-/
namespace Verif.Props
open Verif.Cov Verif.Lemmas.Cov
set_option linter.unusedSectionVars false
variable {K : Type} [Field K]

/-- Specification: the error vectors of all the pairings, one after the other. -/
def allErrors (E : Err.LnEnv K) (junk : Fin 4 → K) (p : Pairings K) (T : Pose3 K) : List K :=
  p.pt2pt.flatMap (fun q => List.ofFn (Err.pt2pt q T)) ++ p.pt2ln.flatMap (fun q => List.ofFn (Err.pt2ln q T)) ++
  p.ln2ln.flatMap (fun q => List.ofFn (Err.ln2ln E junk q T)) ++ p.pt2pl.flatMap (fun q => List.ofFn (Err.pt2pl q T)) ++
  p.pl2pl.flatMap (fun q => List.ofFn (Err.pl2pl q T))

theorem rowsAt_wellSized_aux (E : Err.LnEnv K) (junk : Fin 4 → K) (p : Pairings K) (T : Pose3 K) :
    WellSized (rowsAt E junk p T) := by
  constructor <;> intro x hx <;> simp only [rowsAt, List.mem_map] at hx <;> obtain ⟨q, _, rfl⟩ := hx <;> simp

theorem numRows_rowsAt_aux (E : Err.LnEnv K) (junk : Fin 4 → K) (p : Pairings K) (T : Pose3 K) :
    numRows (rowsAt E junk p T) = (p.pt2pt.length + p.pl2pl.length + p.pt2ln.length + p.pt2pl.length) * 3
      + p.ln2ln.length * 4 := by
  simp [numRows, rowsAt]

theorem numRows_pos_aux (E : Err.LnEnv K) (junk : Fin 4 → K) (p : Pairings K) (T : Pose3 K) (h : p.isEmpty = false) :
    0 < numRows (rowsAt E junk p T) := by
  rw [numRows_rowsAt_aux]
  simp [Pairings.isEmpty] at h
  by_contra hc
  have h1 : p.pt2pt.length = 0 := by omega
  have h2 : p.pl2pl.length = 0 := by omega
  have h3 : p.pt2ln.length = 0 := by omega
  have h4 : p.pt2pl.length = 0 := by omega
  have h5 : p.ln2ln.length = 0 := by omega
  simp only [List.length_eq_zero_iff] at h1 h2 h3 h4 h5
  exact h h1 h2 h5 h3 h4

/-- The vector is always filled without leaving its bounds. -/
theorem covariance_rows_in_bounds (E : Err.LnEnv K) (junk : Fin 4 → K) (p : Pairings K) (T : Pose3 K)
    (h : p.isEmpty = false) : ∃ v, stack (rowsAt E junk p T) = .ok v ∧
      v.length = (p.pt2pt.length + p.pl2pl.length + p.pt2ln.length + p.pt2pl.length) * 3 + p.ln2ln.length * 4 := by
  obtain ⟨v, h1, h2, _⟩ := stack_get (rowsAt E junk p T) (rowsAt_wellSized_aux E junk p T) (numRows_pos_aux E junk p T h)
  exact ⟨v, h1, by rw [h2, numRows_rowsAt_aux]⟩

/-- C35 when there are no line-to-line pairings, or no pairing with a plane: every pairing has its own rows and all are
written (what is missing: line pairings together with plane pairings, see `covariance_rows_clash`). -/
theorem covariance_rows_partial (E : Err.LnEnv K) (junk : Fin 4 → K) (p : Pairings K) (T : Pose3 K)
    (h : p.isEmpty = false) (hk : p.ln2ln = [] ∨ (p.pt2pl = [] ∧ p.pl2pl = [])) :
    stack (rowsAt E junk p T) = .ok ((allErrors E junk p T).map some) := by
  have hs := rowsAt_wellSized_aux E junk p T
  obtain ⟨v, h1, h2, g⟩ := stack_get (rowsAt E junk p T) hs (numRows_pos_aux E junk p T h)
  rw [h1]
  congr 1
  simp only at g
  obtain ⟨g1, g2, g3, g4, g5, _⟩ := g
  have hall : allErrors E junk p T = (rowsAt E junk p T).pt2pt.flatten ++ (rowsAt E junk p T).pt2ln.flatten
      ++ (rowsAt E junk p T).ln2ln.flatten ++ (rowsAt E junk p T).pt2pl.flatten ++ (rowsAt E junk p T).pl2pl.flatten := by
    simp [allErrors, rowsAt, List.flatMap_def]
  rw [hall]
  have l1 := flatten_length _ hs.pt2pt
  have l2 := flatten_length _ hs.pt2ln
  have l3 := flatten_length _ hs.ln2ln
  have l4 := flatten_length _ hs.pt2pl
  have l5 := flatten_length _ hs.pl2pl
  have hk' : (rowsAt E junk p T).ln2ln.length = 0 ∨
      ((rowsAt E junk p T).pt2pl.length = 0 ∧ (rowsAt E junk p T).pl2pl.length = 0) := by
    simpa [rowsAt] using hk
  generalize rowsAt E junk p T = r at *
  have hN : v.length = (r.pt2pt.length + r.pl2pl.length + r.pt2ln.length + r.pt2pl.length) * 3 + r.ln2ln.length * 4 := h2
  apply List.ext_getElem?
  intro i
  rw [List.getElem?_map]
  by_cases c1 : i < r.pt2pt.length * 3
  · rw [g1 i c1, List.append_assoc, List.append_assoc, List.append_assoc, List.getElem?_append_left (by omega)]
  by_cases c2 : i < r.pt2pt.length * 3 + r.pt2ln.length * 3
  · have := g2 (i - r.pt2pt.length * 3) (by omega)
    rw [show r.pt2pt.length * 3 + (i - r.pt2pt.length * 3) = i by omega] at this
    rw [this, List.append_assoc, List.append_assoc, List.append_assoc, List.getElem?_append_right (by omega),
      List.getElem?_append_left (by omega), l1]
  by_cases c3 : i < r.pt2pt.length * 3 + r.pt2ln.length * 3 + r.ln2ln.length * 4
  · have := g3 (i - (r.pt2pt.length * 3 + r.pt2ln.length * 3)) (by omega) (by omega)
    rw [show r.pt2pt.length * 3 + r.pt2ln.length * 3 + (i - (r.pt2pt.length * 3 + r.pt2ln.length * 3)) = i by omega] at this
    rw [this, List.append_assoc, List.append_assoc, List.append_assoc, List.getElem?_append_right (by omega),
      List.getElem?_append_right (by omega), List.getElem?_append_left (by omega), l1, l2,
      show i - (r.pt2pt.length * 3 + r.pt2ln.length * 3) = i - r.pt2pt.length * 3 - r.pt2ln.length * 3 by omega]
  by_cases c4 : i < r.pt2pt.length * 3 + r.pt2ln.length * 3 + r.ln2ln.length * 4 + r.pt2pl.length * 3
  · have hz : r.ln2ln.length = 0 := by omega
    have := g4 (i - (r.pt2pt.length * 3 + r.pt2ln.length * 3)) (by omega)
    rw [show r.pt2pt.length * 3 + r.pt2ln.length * 3 + r.ln2ln.length + (i - (r.pt2pt.length * 3 + r.pt2ln.length * 3)) = i
      by omega] at this
    rw [this, List.append_assoc, List.append_assoc, List.append_assoc, List.getElem?_append_right (by omega),
      List.getElem?_append_right (by omega), List.getElem?_append_right (by omega), List.getElem?_append_left (by omega),
      l1, l2, l3,
      show i - (r.pt2pt.length * 3 + r.pt2ln.length * 3)
        = i - r.pt2pt.length * 3 - r.pt2ln.length * 3 - r.ln2ln.length * 4 by omega]
  by_cases c5 : i < r.pt2pt.length * 3 + r.pt2ln.length * 3 + r.ln2ln.length * 4 + r.pt2pl.length * 3 + r.pl2pl.length * 3
  · have hz : r.ln2ln.length = 0 := by omega
    have := g5 (i - (r.pt2pt.length * 3 + r.pt2ln.length * 3 + r.pt2pl.length * 3)) (by omega)
    rw [show r.pt2pt.length * 3 + r.pt2ln.length * 3 + r.ln2ln.length + r.pt2pl.length * 3
      + (i - (r.pt2pt.length * 3 + r.pt2ln.length * 3 + r.pt2pl.length * 3)) = i by omega] at this
    rw [this, List.append_assoc, List.append_assoc, List.append_assoc, List.getElem?_append_right (by omega),
      List.getElem?_append_right (by omega), List.getElem?_append_right (by omega), List.getElem?_append_right (by omega),
      l1, l2, l3, l4,
      show i - (r.pt2pt.length * 3 + r.pt2ln.length * 3 + r.pt2pl.length * 3)
        = i - r.pt2pt.length * 3 - r.pt2ln.length * 3 - r.ln2ln.length * 4 - r.pt2pl.length * 3 by omega]
  · rw [List.getElem?_eq_none (by omega), List.getElem?_eq_none (by simp only [List.length_append]; omega)]
    rfl

/-- Hypotheses met: two points and a plane. -/
example : ({ pt2pt := [⟨0, 0, ⟨1, 2, 4⟩, ⟨1, 2, 3⟩, 0⟩], pt2pl := [⟨⟨⟨⟨0, 0, 1⟩, -1⟩, ⟨0, 0, 1⟩⟩, ⟨7, 8, 0⟩⟩] } :
    Pairings ℚ).isEmpty = false := by decide +kernel

/-- C35 fails whenever there are both line-to-line pairings and pairings with planes: the last row of the vector is never
written (the Jacobian is made of uninitialised memory), and the row number `nLn2Ln` of the line pairings' rows holds the error of a plane
pairing. -/
theorem covariance_rows_clash (E : Err.LnEnv K) (junk : Fin 4 → K) (p : Pairings K) (T : Pose3 K)
    (hl : p.ln2ln ≠ []) (hp : p.pt2pl ≠ [] ∨ p.pl2pl ≠ []) :
    ∃ v, stack (rowsAt E junk p T) = .ok v ∧ v.getLast? = some none ∧
      ∀ q rest, p.pt2pl = q :: rest → p.ln2ln.length < p.ln2ln.length * 4 ∧
        v[p.pt2pt.length * 3 + p.pt2ln.length * 3 + p.ln2ln.length]? = some (some (Err.pt2pl q T 0)) := by
  have hemp : p.isEmpty = false := by simp [Pairings.isEmpty, hl]
  have hs := rowsAt_wellSized_aux E junk p T
  obtain ⟨v, h1, h2, g⟩ := stack_get (rowsAt E junk p T) hs (numRows_pos_aux E junk p T hemp)
  simp only at g
  obtain ⟨_, _, _, g4, _, g6⟩ := g
  have hL : 1 ≤ p.ln2ln.length := List.length_pos_iff.mpr hl
  have hP : 1 ≤ p.pt2pl.length + p.pl2pl.length := by
    rcases hp with h | h
    · have := List.length_pos_iff.mpr h; omega
    · have := List.length_pos_iff.mpr h; omega
  refine ⟨v, h1, ?_, ?_⟩
  · rw [List.getLast?_eq_getElem?, h2]
    have hN := numRows_rowsAt_aux E junk p T
    have e1 : (rowsAt E junk p T).pt2pt.length = p.pt2pt.length := by simp [rowsAt]
    have e2 : (rowsAt E junk p T).pt2ln.length = p.pt2ln.length := by simp [rowsAt]
    have e3 : (rowsAt E junk p T).ln2ln.length = p.ln2ln.length := by simp [rowsAt]
    have e4 : (rowsAt E junk p T).pt2pl.length = p.pt2pl.length := by simp [rowsAt]
    have e5 : (rowsAt E junk p T).pl2pl.length = p.pl2pl.length := by simp [rowsAt]
    rw [e1, e2, e3, e4, e5] at g6
    exact g6 _ (by omega) (by omega) (by omega)
  · intro q rest hq
    refine ⟨by omega, ?_⟩
    have := g4 0 (by simp [rowsAt, hq])
    simpa [rowsAt, hq] using this

/-- Hypotheses met: a line pair and a plane pair. -/
example : ({ ln2ln := [⟨⟨⟨0, 0, 0⟩, ⟨0, 1, 0⟩⟩, ⟨⟨0, 0, 0⟩, ⟨1, 0, 0⟩⟩⟩]
             pt2pl := [⟨⟨⟨⟨0, 0, 1⟩, -1⟩, ⟨0, 0, 1⟩⟩, ⟨7, 8, 0⟩⟩] } : Pairings ℚ).ln2ln ≠ [] := by decide +kernel

/-- C35: with no pairings the answer is the huge default covariance, for every solution. -/
theorem covariance_no_pairings (E : Cov.Env K) (million : K) (p : Pairings K) (T : Six K) (h : p.size = 0) :
    ∃ c, covariance E million p T = .ok c ∧ ∀ i j, c i j = if i = j then million else 0 := by
  have he : p.isEmpty = true := by
    simp only [Pairings.size] at h
    have h1 : p.pt2pt.length = 0 := by omega
    have h2 : p.pl2pl.length = 0 := by omega
    have h3 : p.pt2ln.length = 0 := by omega
    have h4 : p.pt2pl.length = 0 := by omega
    have h5 : p.ln2ln.length = 0 := by omega
    simp only [List.length_eq_zero_iff] at h1 h2 h3 h4 h5
    simp [Pairings.isEmpty, h1, h2, h3, h4, h5]
  exact ⟨_, by simp only [covariance, he, if_true], fun i j => rfl⟩

/-- The covariance is evaluated at a pose whose height is not the one of the solution: it does not depend on it at all. -/
theorem covariance_ignores_z (E : Cov.Env K) (million : K) (p : Pairings K) (T : Six K) (z : K) :
    covariance E million p { T with z := z } = covariance E million p T := rfl

end Verif.Props
