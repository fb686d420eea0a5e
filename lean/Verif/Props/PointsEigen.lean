import Mathlib.Algebra.Order.Ring.Rat
import Mathlib.Data.Rat.Floor
import Mathlib.Tactic.Ring
import Mathlib.Tactic.LinearCombination
import Mathlib.Tactic.Linarith
import Mathlib.Tactic.FieldSimp
import Mathlib.Tactic.NormNum
import Verif.Lemmas.PointsEigen
import Verif.Lemmas.EdgeGen
import Verif.Lemmas.Rot
/-
C76: estimate_points_eigen.
-/
set_option linter.unusedSectionVars false
namespace Verif
namespace Props
open Flt Vox Eig Edge
variable {K X : Type} [Field K] [LinearOrder K] [IsStrictOrderedRing K]

/-! ### which points -/

/-- the points the caller selects: the first `total` ones, or those at the indices -/
def Selected (pts : List (P3 K)) (indices : Option (List Nat)) (total : Option Nat) (ps : List (P3 K)) : Prop :=
  match total, indices with
  | some n, _ => n ≤ pts.length ∧ ps = pts.take n
  | none, some l => List.Forall₂ (fun i p => pts[i]? = some p) l ps
  | none, none => False

theorem readAt_ok (pts : List (P3 K)) (l : List Nat) (ps : List (P3 K)) :
    readAt pts l = .ok ps ↔ List.Forall₂ (fun i p => pts[i]? = some p) l ps := by
  induction l generalizing ps with
  | nil =>
    constructor
    · intro h; simp only [readAt, Outcome.ok.injEq] at h; subst h; exact .nil
    · intro h; cases h; rfl
  | cons i l ih =>
    rw [readAt]
    cases hi : pts[i]? with
    | none =>
      simp only [reduceCtorEq, false_iff]
      intro h
      cases h with
      | cons h1 h2 => rw [hi] at h1; cases h1
    | some p =>
      simp only [Outcome.bind_eq_ok, Outcome.ok.injEq]
      constructor
      · rintro ⟨r, h1, rfl⟩; exact .cons hi ((ih r).1 h1)
      · intro h
        cases h with
        | @cons _ b _ r h1 h2 =>
          rw [hi] at h1
          cases h1
          exact ⟨r, (ih r).2 h2, rfl⟩

theorem readAt_range (pts : List (P3 K)) (n : Nat) (h : n ≤ pts.length) : readAt pts (List.range n) = .ok (pts.take n) := by
  rw [readAt_ok, List.forall₂_iff_get]
  refine ⟨by simp [h], ?_⟩
  intro i h1 h2
  simp at h1 h2
  simp [h2.2]

theorem readAt_ub (pts : List (P3 K)) (l : List Nat) (i : Nat) (hi : i ∈ l) (h : pts.length ≤ i) : readAt pts l = .ub := by
  induction l with
  | nil => cases hi
  | cons j l ih =>
    rw [readAt]
    cases hj : pts[j]? with
    | none => rfl
    | some p =>
      simp only []
      rcases List.mem_cons.1 hi with rfl | hi
      · have := (List.getElem?_eq_some_iff.1 hj).1
        omega
      · rw [ih hi]; rfl

/-- what is computed of the selected points -/
theorem estimate_sel (eig : M3 K → EigDec K) (pts : List (P3 K)) (indices : Option (List Nat)) (total : Option Nat)
    (ps : List (P3 K)) (hs : Selected pts indices total ps) (h3 : 3 ≤ ps.length) :
    estimate eig pts indices total = .ok ⟨(stats ps).1, (stats ps).2.full, eig (stats ps).2.full⟩ := by
  unfold estimate
  match total, indices, hs with
  | some n, _, ⟨hn, e⟩ =>
    subst e
    have : ¬ n < 3 := by simp at h3; omega
    simp only [this, if_false, readAt_range pts n hn, okb]
  | none, some l, hl =>
    have : ¬ l.length < 3 := by have := hl.length_eq; omega
    simp only [this, if_false, (readAt_ok pts l ps).2 hl, okb]

/-- **C76 (mean and covariance).** For every selection of three or more points, by count or by indices, the mean is the centroid
and the covariance matrix is the symmetric one whose quadratic form is the mean of the squared distances to the plane through the
centroid, in every direction. -/
theorem eigen_mean_cov (eig : M3 K → EigDec K) (pts : List (P3 K)) (indices : Option (List Nat)) (total : Option Nat)
    (ps : List (P3 K)) (hs : Selected pts indices total ps) (h3 : 3 ≤ ps.length) :
    ∃ r, estimate eig pts indices total = .ok r ∧ r.mean = centroid ps ∧ SymM r.cov ∧ r.dec = eig r.cov ∧
      (∀ u : P3 K, u.dot (r.cov.mulVec u) = toPlane ps (centroid ps) u / ps.length) ∧ (∀ u : P3 K, 0 ≤ u.dot (r.cov.mulVec u)) ∧
      r.cov.trace = toPoint ps (centroid ps) / ps.length := by
  refine ⟨_, estimate_sel eig pts indices total ps hs h3, stats_mean_eq ps, ?_, rfl, quad_form ps, ?_, ?_⟩
  · simp only [SymM, M3.transpose, Low.full]
  · intro u
    rw [quad_form]
    exact div_nonneg (toPlane_nonneg _ _ _) (by positivity)
  · rw [toPoint_planes, add_div, add_div, ← quad_form, ← quad_form, ← quad_form]
    simp [M3.trace, M3.mulVec, P3.dot]

/-- **C76 (the mean is the best point).** No other point has a smaller sum of squared distances. -/
theorem eigen_mean_best (ps : List (P3 K)) (hp : ps ≠ []) (q : P3 K) :
    toPoint ps (centroid ps) ≤ toPoint ps q ∧ (toPoint ps (centroid ps) = toPoint ps q → q = centroid ps) := by
  rw [toPoint_shift ps hp q]
  have hn : (0 : K) < ps.length := by exact_mod_cast List.length_pos_iff.2 hp
  set d := centroid ps - q with hd
  have hq : 0 ≤ d.normSq := by
    simp only [P3.normSq, P3.dot]
    have := mul_self_nonneg d.x; have := mul_self_nonneg d.y; have := mul_self_nonneg d.z
    linarith
  refine ⟨by nlinarith, fun h => ?_⟩
  have h0 : d.normSq = 0 := by
    rcases mul_eq_zero.1 (show (ps.length : K) * d.normSq = 0 by linarith) with h | h
    · exact absurd h hn.ne'
    · exact h
  simp only [P3.normSq, P3.dot] at h0
  have a := mul_self_nonneg d.x; have b := mul_self_nonneg d.y; have c := mul_self_nonneg d.z
  have hx : d.x = 0 := mul_self_eq_zero.1 (by linarith)
  have hy : d.y = 0 := mul_self_eq_zero.1 (by linarith)
  have hz : d.z = 0 := mul_self_eq_zero.1 (by linarith)
  rw [hd] at hx hy hz
  simp only [P3.sub_x, P3.sub_y, P3.sub_z] at hx hy hz
  ext <;> linarith

/-- what a decomposition of the covariance of `ps` is -/
abbrev DecOf (ps : List (P3 K)) (r : CloudEigen K) : Prop := IsEig r.cov r.dec ∧ r.cov = (stats ps).2.full ∧ r.mean = centroid ps

theorem decOf_sel (eig : M3 K → EigDec K) (pts : List (P3 K)) (indices : Option (List Nat)) (total : Option Nat)
    (ps : List (P3 K)) (hs : Selected pts indices total ps) (h3 : 3 ≤ ps.length) (r : CloudEigen K)
    (hr : estimate eig pts indices total = .ok r) (he : IsEig r.cov r.dec) :
    IsEig (stats ps).2.full r.dec ∧ r.mean = centroid ps := by
  rw [estimate_sel eig pts indices total ps hs h3, Outcome.ok.injEq] at hr
  subst hr
  exact ⟨he, stats_mean_eq ps⟩

theorem full_sym (l : Low K) : SymM l.full := by simp only [SymM, M3.transpose, Low.full]

/-- **C76 (best plane).** If the library decomposed the covariance, the plane through the mean whose normal is the first eigenvector
is the best one: no plane has a smaller sum of squared distances to the points.  That sum is `n` times the first eigenvalue. -/
theorem eigen_best_plane (eig : M3 K → EigDec K) (pts : List (P3 K)) (indices : Option (List Nat)) (total : Option Nat)
    (ps : List (P3 K)) (hs : Selected pts indices total ps) (h3 : 3 ≤ ps.length) (r : CloudEigen K)
    (hr : estimate eig pts indices total = .ok r) (he : IsEig r.cov r.dec) :
    toPlane ps r.mean r.dec.vecs.1 = ps.length * r.dec.vals.1 ∧
      ∀ q u, u.normSq = 1 → toPlane ps r.mean r.dec.vecs.1 ≤ toPlane ps q u := by
  obtain ⟨he, hm⟩ := decOf_sel eig pts indices total ps hs h3 r hr he
  rw [hm]
  have hp : ps ≠ [] := by rintro rfl; simp at h3
  have hn : (0 : K) < ps.length := by exact_mod_cast List.length_pos_iff.2 hp
  have h1 : toPlane ps (centroid ps) r.dec.vecs.1 = ps.length * r.dec.vals.1 := by
    have := quad_form ps r.dec.vecs.1
    rw [(quad_at he).1] at this
    rw [this]; field_simp
  refine ⟨h1, fun q u hu => ?_⟩
  have h2 := (rayleigh he (full_sym _) u).1
  rw [hu, mul_one, quad_form, le_div_iff₀ hn] at h2
  rw [h1, toPlane_shift ps hp q u]
  have := mul_nonneg hn.le (mul_self_nonneg (u.dot (centroid ps - q)))
  linarith

/-- **C76 (best line).** The line through the mean along the last eigenvector is the best one: no line has a smaller sum of squared
distances to the points.  That sum is `n` times the sum of the other two eigenvalues. -/
theorem eigen_best_line (eig : M3 K → EigDec K) (pts : List (P3 K)) (indices : Option (List Nat)) (total : Option Nat)
    (ps : List (P3 K)) (hs : Selected pts indices total ps) (h3 : 3 ≤ ps.length) (r : CloudEigen K)
    (hr : estimate eig pts indices total = .ok r) (he : IsEig r.cov r.dec) :
    toLine ps r.mean r.dec.vecs.2.2 = ps.length * (r.dec.vals.1 + r.dec.vals.2.1) ∧
      ∀ q w, w.normSq = 1 → toLine ps r.mean r.dec.vecs.2.2 ≤ toLine ps q w := by
  obtain ⟨he, hm⟩ := decOf_sel eig pts indices total ps hs h3 r hr he
  rw [hm]
  have hp : ps ≠ [] := by rintro rfl; simp at h3
  have hn : (0 : K) < ps.length := by exact_mod_cast List.length_pos_iff.2 hp
  have hpl : ∀ u, toPlane ps (centroid ps) u = ps.length * u.dot ((stats ps).2.full.mulVec u) := by
    intro u; rw [quad_form]; field_simp
  -- the trace
  have htr : toPoint ps (centroid ps) = ps.length * (r.dec.vals.1 + r.dec.vals.2.1 + r.dec.vals.2.2) := by
    rw [toPoint_planes, hpl, hpl, hpl, quad_eig he (full_sym _), quad_eig he (full_sym _), quad_eig he (full_sym _)]
    have u0 := he.unit.1
    have u1 := he.unit.2.1
    have u2 := he.unit.2.2
    simp only [P3.normSq, P3.dot] at u0 u1 u2
    simp only [P3.dot]
    linear_combination (ps.length : K) * (r.dec.vals.1 * u0 + r.dec.vals.2.1 * u1 + r.dec.vals.2.2 * u2)
  have h1 : toLine ps (centroid ps) r.dec.vecs.2.2 = ps.length * (r.dec.vals.1 + r.dec.vals.2.1) := by
    rw [toLine_eq, htr, hpl, (quad_at he).2.2]; ring
  refine ⟨h1, fun q w hw => ?_⟩
  have h2 := (rayleigh he (full_sym _) w).2
  rw [hw, mul_one] at h2
  rw [h1, toLine_eq, toPoint_shift ps hp, toPlane_shift ps hp, htr, hpl]
  have hcs : w.dot (centroid ps - q) * w.dot (centroid ps - q) ≤ (centroid ps - q).normSq := by
    set d := centroid ps - q
    have e : d.normSq - w.dot d * w.dot d = (d - w.smul (w.dot d)).normSq := by
      simp only [P3.normSq, P3.dot] at hw
      simp only [P3.normSq, P3.dot, P3.sub_x, P3.sub_y, P3.sub_z, P3.smul_x, P3.smul_y, P3.smul_z]
      linear_combination -((w.x * d.x + w.y * d.y + w.z * d.z) ^ 2) * hw
    have nn : ∀ d : P3 K, 0 ≤ d.normSq := by
      intro d
      simp only [P3.normSq, P3.dot]
      have a := mul_self_nonneg d.x; have b := mul_self_nonneg d.y; have c := mul_self_nonneg d.z
      linarith
    have := nn (d - w.smul (w.dot d))
    linarith
  have h4 := mul_le_mul_of_nonneg_left hcs hn.le
  have h5 := mul_le_mul_of_nonneg_left h2 hn.le
  linarith

/-- **C76 (eigenvalues).** They are in order, none is negative, and they add up to the mean squared distance to the mean. -/
theorem eigen_values (eig : M3 K → EigDec K) (pts : List (P3 K)) (indices : Option (List Nat)) (total : Option Nat)
    (ps : List (P3 K)) (hs : Selected pts indices total ps) (h3 : 3 ≤ ps.length) (r : CloudEigen K)
    (hr : estimate eig pts indices total = .ok r) (he : IsEig r.cov r.dec) :
    0 ≤ r.dec.vals.1 ∧ r.dec.vals.1 ≤ r.dec.vals.2.1 ∧ r.dec.vals.2.1 ≤ r.dec.vals.2.2 ∧
      ps.length * (r.dec.vals.1 + r.dec.vals.2.1 + r.dec.vals.2.2) = toPoint ps r.mean := by
  obtain ⟨h1, -⟩ := eigen_best_plane eig pts indices total ps hs h3 r hr he
  obtain ⟨h2, -⟩ := eigen_best_line eig pts indices total ps hs h3 r hr he
  obtain ⟨he, hm⟩ := decOf_sel eig pts indices total ps hs h3 r hr he
  have hn : (0 : K) < ps.length := by exact_mod_cast (by omega : 0 < ps.length)
  have h0 := toPlane_nonneg ps r.mean r.dec.vecs.1
  rw [h1] at h0
  refine ⟨le_of_mul_le_mul_left (by linarith) hn, he.sorted.1, he.sorted.2, ?_⟩
  rw [toLine_eq] at h2
  have h4 : toPlane ps r.mean r.dec.vecs.2.2 = ps.length * r.dec.vals.2.2 := by
    have := quad_form ps r.dec.vecs.2.2
    rw [(quad_at he).2.2] at this
    rw [hm, this]; field_simp
  linarith

/-- **C76 (flat clouds).** The first eigenvalue is zero exactly if the points lie in a plane, and then in the one through the mean
with the first eigenvector as normal; the first two are zero exactly if they lie on a line, and then on the one through the mean
along the last eigenvector. -/
theorem eigen_degenerate (eig : M3 K → EigDec K) (pts : List (P3 K)) (indices : Option (List Nat)) (total : Option Nat)
    (ps : List (P3 K)) (hs : Selected pts indices total ps) (h3 : 3 ≤ ps.length) (r : CloudEigen K)
    (hr : estimate eig pts indices total = .ok r) (he : IsEig r.cov r.dec) :
    ((r.dec.vals.1 = 0 ↔ ∃ q u : P3 K, u.normSq = 1 ∧ ∀ p ∈ ps, u.dot (p - q) = 0) ∧
      (r.dec.vals.1 = 0 → ∀ p ∈ ps, r.dec.vecs.1.dot (p - r.mean) = 0)) ∧
    ((r.dec.vals.2.1 = 0 ↔ ∃ q w : P3 K, w.normSq = 1 ∧ ∀ p ∈ ps, ∃ a : K, p = q + w.smul a) ∧
      (r.dec.vals.2.1 = 0 → ∀ p ∈ ps, ∃ a : K, p = r.mean + r.dec.vecs.2.2.smul a)) := by
  obtain ⟨p1, p2⟩ := eigen_best_plane eig pts indices total ps hs h3 r hr he
  obtain ⟨l1, l2⟩ := eigen_best_line eig pts indices total ps hs h3 r hr he
  obtain ⟨v0, v1, v2, -⟩ := eigen_values eig pts indices total ps hs h3 r hr he
  have hn : (0 : K) < ps.length := by exact_mod_cast (by omega : 0 < ps.length)
  have hu0 := he.unit.1
  have hu2 := he.unit.2.2
  have A : r.dec.vals.1 = 0 → ∀ p ∈ ps, r.dec.vecs.1.dot (p - r.mean) = 0 := by
    intro h0 p hp
    rw [h0, mul_zero] at p1
    exact mul_self_eq_zero.1 (over_eq_zero ps _ (fun p _ => mul_self_nonneg _) p1 p hp)
  have proj : ∀ (w d : P3 K), w.normSq = 1 → d.normSq - w.dot d * w.dot d = (d - w.smul (w.dot d)).normSq := by
    intro w d hw
    simp only [P3.normSq, P3.dot] at hw
    simp only [P3.normSq, P3.dot, P3.sub_x, P3.sub_y, P3.sub_z, P3.smul_x, P3.smul_y, P3.smul_z]
    linear_combination -((w.x * d.x + w.y * d.y + w.z * d.z) ^ 2) * hw
  have nn : ∀ d : P3 K, 0 ≤ d.normSq := by
    intro d
    simp only [P3.normSq, P3.dot]
    have a := mul_self_nonneg d.x; have b := mul_self_nonneg d.y; have c := mul_self_nonneg d.z
    linarith
  have B : r.dec.vals.2.1 = 0 → ∀ p ∈ ps, ∃ a : K, p = r.mean + r.dec.vecs.2.2.smul a := by
    intro h0 p hp
    have hv : r.dec.vals.1 = 0 := le_antisymm (by linarith) v0
    rw [h0, hv, add_zero, mul_zero] at l1
    have := over_eq_zero ps _ (fun p _ => by rw [proj _ _ hu2]; exact nn _) l1 p hp
    rw [proj _ _ hu2] at this
    refine ⟨r.dec.vecs.2.2.dot (p - r.mean), ?_⟩
    set d := p - r.mean - r.dec.vecs.2.2.smul (r.dec.vecs.2.2.dot (p - r.mean)) with hd
    simp only [P3.normSq, P3.dot] at this
    have a := mul_self_nonneg d.x; have b := mul_self_nonneg d.y; have c := mul_self_nonneg d.z
    have hx : d.x = 0 := mul_self_eq_zero.1 (by linarith)
    have hy : d.y = 0 := mul_self_eq_zero.1 (by linarith)
    have hz : d.z = 0 := mul_self_eq_zero.1 (by linarith)
    rw [hd] at hx hy hz
    simp only [P3.sub_x, P3.sub_y, P3.sub_z, P3.smul_x, P3.smul_y, P3.smul_z] at hx hy hz
    ext
    · simp only [P3.add_x, P3.smul_x]; linarith
    · simp only [P3.add_y, P3.smul_y]; linarith
    · simp only [P3.add_z, P3.smul_z]; linarith
  refine ⟨⟨⟨fun h0 => ⟨_, _, hu0, A h0⟩, ?_⟩, A⟩, ⟨fun h0 => ⟨_, _, hu2, B h0⟩, ?_⟩, B⟩
  · rintro ⟨q, u, hu, h⟩
    have hz : toPlane ps q u = 0 := by
      unfold toPlane
      rw [over_congr (g := fun _ => 0) (fun p hp => by rw [h p hp, mul_zero]), over_const, mul_zero]
    have := p2 q u hu
    rw [p1, hz] at this
    exact le_antisymm (by nlinarith) v0
  · rintro ⟨q, w, hw, h⟩
    have hz : toLine ps q w = 0 := by
      unfold toLine
      rw [over_congr (g := fun _ => 0) (fun p hp => ?_), over_const, mul_zero]
      obtain ⟨a, rfl⟩ := h p hp
      simp only [P3.normSq, P3.dot] at hw
      simp only [P3.normSq, P3.dot, P3.sub_x, P3.sub_y, P3.sub_z, P3.smul_x, P3.smul_y, P3.smul_z, P3.add_x, P3.add_y, P3.add_z]
      linear_combination (-(a ^ 2) * (w.x * w.x + w.y * w.y + w.z * w.z)) * hw
    have := l2 q w hw
    rw [l1, hz] at this
    exact le_antisymm (by nlinarith) (by linarith)

/-! ### moving, and reordering, the cloud -/

theorem mapP_len (ps : List (P3 K)) (T : Pose3 K) : (ps.map T.composePoint).length = ps.length := by simp

/-- **C76 (rigid motions).** Moving all points by a pose moves the mean by it and turns the covariance by its rotation; with no
rotation the covariance does not change. -/
theorem eigen_moved (ps : List (P3 K)) (hp : ps ≠ []) (T : Pose3 K) :
    (stats (ps.map T.composePoint)).1 = T.composePoint (stats ps).1 ∧
      (stats (ps.map T.composePoint)).2.full = (T.R.mul (stats ps).2.full).mul T.R.transpose := by
  have hn : (ps.length : K) ≠ 0 := by
    have := List.length_pos_iff.2 hp
    exact_mod_cast this.ne'
  have lin : ∀ (a b c d : K), over ps (fun p => a * p.x + b * p.y + c * p.z + d) =
      a * over ps (·.x) + b * over ps (·.y) + c * over ps (·.z) + ps.length * d := by
    intro a b c d
    rw [← over_const ps d]
    simp only [← over_mul, ← over_add]
  have hc : centroid (ps.map T.composePoint) = T.composePoint (centroid ps) := by
    have e : ∀ (f : P3 K → K) (a b c d : K), (∀ p, f (T.composePoint p) = a * p.x + b * p.y + c * p.z + d) →
        over (ps.map T.composePoint) f / ps.length =
          a * (centroid ps).x + b * (centroid ps).y + c * (centroid ps).z + d := by
      intro f a b c d h
      rw [over_map, over_congr (fun p _ => h p), lin]
      simp only [centroid]
      field_simp
    unfold centroid at *
    rw [mapP_len]
    ext
    · simp only []
      rw [e (·.x) T.R.a00 T.R.a01 T.R.a02 T.t.x (fun p => by simp [Pose3.composePoint, M3.mulVec])]
      simp [Pose3.composePoint, M3.mulVec]
    · simp only []
      rw [e (·.y) T.R.a10 T.R.a11 T.R.a12 T.t.y (fun p => by simp [Pose3.composePoint, M3.mulVec])]
      simp [Pose3.composePoint, M3.mulVec]
    · simp only []
      rw [e (·.z) T.R.a20 T.R.a21 T.R.a22 T.t.z (fun p => by simp [Pose3.composePoint, M3.mulVec])]
      simp [Pose3.composePoint, M3.mulVec]
  refine ⟨by rw [stats_mean_eq, stats_mean_eq, hc], ?_⟩
  have quad : ∀ (f g : P3 K → K) (a b : P3 K), (∀ p q, f (T.composePoint p) - f (T.composePoint q) = a.dot (p - q)) →
      (∀ p q, g (T.composePoint p) - g (T.composePoint q) = b.dot (p - q)) →
      covE (ps.map T.composePoint) f g = a.dot ((stats ps).2.full.mulVec b) := by
    intro f g a b hf hg
    rw [stats_cov_eq]
    unfold covE
    rw [mapP_len, hc, over_map]
    have : over ps (fun p => (f (T.composePoint p) - f (T.composePoint (centroid ps))) *
        (g (T.composePoint p) - g (T.composePoint (centroid ps)))) =
        a.x * b.x * over ps (fun p => (p.x - (centroid ps).x) * (p.x - (centroid ps).x)) +
        a.y * b.y * over ps (fun p => (p.y - (centroid ps).y) * (p.y - (centroid ps).y)) +
        a.z * b.z * over ps (fun p => (p.z - (centroid ps).z) * (p.z - (centroid ps).z)) +
        (a.x * b.y + a.y * b.x) * over ps (fun p => (p.x - (centroid ps).x) * (p.y - (centroid ps).y)) +
        (a.x * b.z + a.z * b.x) * over ps (fun p => (p.x - (centroid ps).x) * (p.z - (centroid ps).z)) +
        (a.y * b.z + a.z * b.y) * over ps (fun p => (p.y - (centroid ps).y) * (p.z - (centroid ps).z)) := by
      simp only [← over_mul, ← over_add]
      apply over_congr
      intro p _
      rw [hf, hg]
      simp only [P3.dot, P3.sub_x, P3.sub_y, P3.sub_z]
      ring
    rw [this]
    simp only [M3.mulVec, P3.dot]
    ring
  have hx : ∀ p q, (T.composePoint p).x - (T.composePoint q).x = (P3.mk T.R.a00 T.R.a01 T.R.a02).dot (p - q) := by
    intro p q
    simp only [Pose3.composePoint, M3.mulVec, P3.dot, P3.add_x, P3.sub_x, P3.sub_y, P3.sub_z]; ring
  have hy : ∀ p q, (T.composePoint p).y - (T.composePoint q).y = (P3.mk T.R.a10 T.R.a11 T.R.a12).dot (p - q) := by
    intro p q
    simp only [Pose3.composePoint, M3.mulVec, P3.dot, P3.add_y, P3.sub_x, P3.sub_y, P3.sub_z]; ring
  have hz : ∀ p q, (T.composePoint p).z - (T.composePoint q).z = (P3.mk T.R.a20 T.R.a21 T.R.a22).dot (p - q) := by
    intro p q
    simp only [Pose3.composePoint, M3.mulVec, P3.dot, P3.add_z, P3.sub_x, P3.sub_y, P3.sub_z]; ring
  rw [stats_cov_eq (ps.map T.composePoint)]
  rw [quad (·.x) (·.x) _ _ hx hx, quad (·.x) (·.y) _ _ hx hy, quad (·.x) (·.z) _ _ hx hz, quad (·.y) (·.y) _ _ hy hy,
    quad (·.y) (·.z) _ _ hy hz, quad (·.z) (·.z) _ _ hz hz]
  simp only [Low.full, M3.mul, M3.transpose, M3.mulVec, P3.dot, M3.mk.injEq]
  refine ⟨?_, ?_, ?_, ?_, ?_, ?_, ?_, ?_, ?_⟩ <;> ring

/-- **C76 (order).** The order of the points does not matter. -/
theorem eigen_order_irrelevant (ps qs : List (P3 K)) (h : ps.Perm qs) : stats ps = stats qs := by
  simp only [stats, sumPts_eq, acc_eq, over_perm h, h.length_eq]

/-- **C76 (too few points).** Fewer than three points, or neither a count nor indices: an exception. -/
theorem eigen_refuses (eig : M3 K → EigDec K) (pts : List (P3 K)) (indices : Option (List Nat)) (total : Option Nat)
    (h : match total, indices with
      | some n, _ => n < 3
      | none, some l => l.length < 3
      | none, none => True) :
    estimate eig pts indices total = .throw := by
  unfold estimate
  match total, indices, h with
  | some n, _, h => simp only [h, if_true]
  | none, some l, h => simp only [h, if_true]
  | none, none, _ => rfl

/-- **C76 (not checked).** An index, or a count, beyond the arrays is read all the same. -/
theorem eigen_far_ub (eig : M3 K → EigDec K) (pts : List (P3 K)) (indices : Option (List Nat)) (total : Option Nat)
    (h : match total, indices with
      | some n, _ => 3 ≤ n ∧ pts.length < n
      | none, some l => 3 ≤ l.length ∧ ∃ i ∈ l, pts.length ≤ i
      | none, none => False) :
    estimate eig pts indices total = .ub := by
  unfold estimate
  match total, indices, h with
  | some n, _, ⟨h1, h2⟩ =>
    have : ¬ n < 3 := by omega
    simp only [this, if_false]
    rw [readAt_ub pts (List.range n) pts.length (by simpa using h2) (le_refl _)]
    rfl
  | none, some l, ⟨h1, i, hi, h2⟩ =>
    have : ¬ l.length < 3 := by omega
    simp only [this, if_false]
    rw [readAt_ub pts l i hi h2]
    rfl

/-- **C76 (both arguments).** The documentation asks for one and only one; with both, the indices are ignored, valid or not. -/
theorem eigen_both_ignores_indices (eig : M3 K → EigDec K) (pts : List (P3 K)) (l : List Nat) (n : Nat) :
    estimate eig pts (some l) (some n) = estimate eig pts none (some n) := rfl

/-- **C76 (conversion).** The three arrays hold the points. -/
theorem eigen_to_xyz (pts : List (P3 K)) :
    (toXyz pts).1.length = pts.length ∧ (toXyz pts).2.1.length = pts.length ∧ (toXyz pts).2.2.length = pts.length ∧
      ∀ (i : Nat) (p : P3 K), pts[i]? = some p →
        (toXyz pts).1[i]? = some p.x ∧ (toXyz pts).2.1[i]? = some p.y ∧ (toXyz pts).2.2[i]? = some p.z := by
  refine ⟨by simp [toXyz], by simp [toXyz], by simp [toXyz], fun i p h => ?_⟩
  simp [toXyz, h]

/-! ### a cloud -/

/-- four points of a rectangle, 2 × 4, at height 1 -/
def rect4 : List (P3 ℚ) := [⟨0, 0, 1⟩, ⟨2, 0, 1⟩, ⟨0, 4, 1⟩, ⟨2, 4, 1⟩]
/-- what the library returns for its covariance, diag(1, 4, 0) -/
def rectDec : EigDec ℚ := ⟨(0, 1, 4), (⟨0, 0, 1⟩, ⟨1, 0, 0⟩, ⟨0, 1, 0⟩)⟩

example : Selected rect4 none (some 4) rect4 ∧ Selected rect4 (some [3, 1, 0]) none [⟨2, 4, 1⟩, ⟨2, 0, 1⟩, ⟨0, 0, 1⟩] :=
  ⟨⟨by decide, rfl⟩, .cons rfl (.cons rfl (.cons rfl .nil))⟩
/-- the hypotheses of the theorems are met, with eigenvalues 0, 1, 4: points in a plane, not on a line -/
example : ∃ r, estimate (fun _ => rectDec) rect4 none (some 4) = .ok r ∧ IsEig r.cov r.dec ∧ r.mean = ⟨1, 2, 1⟩ ∧
    r.dec.vals = (0, 1, 4) := by
  have h := estimate_sel (fun _ => rectDec) rect4 none (some 4) rect4 ⟨by decide, rfl⟩ (by decide)
  refine ⟨_, h, ?_, ?_, rfl⟩
  · have e : (stats rect4).2.full = (⟨1, 0, 0, 0, 4, 0, 0, 0, 0⟩ : M3 ℚ) := by
      norm_num [stats, Low.full, rect4, sumPts, accLow]
    rw [e]
    constructor <;> norm_num [rectDec, P3.normSq, P3.dot, M3.mulVec, P3.smul]
  · norm_num [stats, rect4, sumPts]

end Props
end Verif
