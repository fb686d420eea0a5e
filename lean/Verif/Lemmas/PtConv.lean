import Verif.Lemmas.HornTop
/-
Conversion of point-to-line and point-to-plane pairings.
-/
namespace Verif.Lemmas
open Verif Verif.Spec
set_option linter.unusedSectionVars false
variable {K : Type} [Field K] [LinearOrder K] [IsStrictOrderedRing K]

theorem mmInsert_perm {α : Type} (k : K) (a : α) (l : List (K × α)) : (mmInsert k a l).Perm ((k, a) :: l) := by
  induction l with
  | nil => exact List.Perm.refl _
  | cons e es ih =>
    simp only [mmInsert]
    split
    · exact List.Perm.refl _
    · exact (List.Perm.cons e ih).trans (List.Perm.swap _ _ _)

theorem mmInsert_sorted {α : Type} (k : K) (a : α) {l : List (K × α)} (h : l.Pairwise (fun x y => x.1 ≤ y.1)) :
    (mmInsert k a l).Pairwise (fun x y => x.1 ≤ y.1) := by
  induction l with
  | nil => simp [mmInsert]
  | cons e es ih =>
    simp only [mmInsert]
    rw [List.pairwise_cons] at h
    split
    · rename_i hlt
      refine List.pairwise_cons.mpr ⟨?_, List.pairwise_cons.mpr h⟩
      intro x hx
      rcases List.mem_cons.mp hx with rfl | hx
      · exact hlt.le
      · exact hlt.le.trans (h.1 x hx)
    · rename_i hge
      refine List.pairwise_cons.mpr ⟨?_, ih h.2⟩
      intro x hx
      rcases List.mem_cons.mp ((mmInsert_perm k a es).subset hx) with rfl | hx
      · exact not_lt.mp hge
      · exact h.1 x hx

theorem mmFold {α β : Type} (f : β → K × α) (bs : List β) (m : List (K × α)) (h : m.Pairwise (fun x y => x.1 ≤ y.1)) :
    let r := bs.foldl (fun m b => mmInsert (f b).1 (f b).2 m) m
    r.Pairwise (fun x y => x.1 ≤ y.1) ∧ r.Perm (m ++ bs.map f) := by
  induction bs generalizing m with
  | nil => simpa using h
  | cons b bs ih =>
    simp only [List.foldl_cons]
    obtain ⟨h1, h2⟩ := ih (mmInsert (f b).1 (f b).2 m) (mmInsert_sorted _ _ h)
    refine ⟨h1, h2.trans ?_⟩
    refine ((mmInsert_perm _ _ m).append_right _).trans ?_
    simp only [List.map_cons, List.cons_append]
    exact (List.perm_middle (a := f b) (l₁ := m) (l₂ := bs.map f)).symm

/-- The loop keeps a prefix: all those not below the threshold and enough to have three. -/
theorem appendSortedLoop_spec (thr : K) (l : List (K × PtPair K)) (hd : l.Pairwise (fun x y => y.1 ≤ x.1)) (out : List (PtPair K)) :
    ∃ pre suf, l = pre ++ suf ∧ appendSortedLoop thr l out = out ++ pre.map (·.2) ∧
      (∀ e ∈ suf, e.1 < thr) ∧ (suf ≠ [] → 3 ≤ (out ++ pre.map (·.2)).length) := by
  induction l generalizing out with
  | nil => exact ⟨[], [], rfl, by simp [appendSortedLoop], by simp, by simp⟩
  | cons e es ih =>
    rw [List.pairwise_cons] at hd
    simp only [appendSortedLoop]
    split
    · rename_i hc
      refine ⟨[], e :: es, rfl, by simp, ?_, by simpa using hc.2⟩
      intro x hx
      rcases List.mem_cons.mp hx with rfl | hx
      · exact hc.1
      · exact lt_of_le_of_lt (hd.1 x hx) hc.1
    · obtain ⟨pre, suf, h1, h2, h3, h4⟩ := ih hd.2 (out ++ [e.2])
      refine ⟨e :: pre, suf, by rw [h1]; rfl, by rw [h2]; simp, h3, ?_⟩
      intro hs
      have := h4 hs
      simpa [Nat.add_assoc, Nat.add_comm 1] using this

/-- `append_from_sorted` after sorting: a selection of the given elements. -/
theorem appendFromSorted_spec {β : Type} (f : β → K × PtPair K) (bs : List β) (out : List (PtPair K)) (ratio : K) :
    ∃ kept dropped : List β, (kept ++ dropped).Perm bs ∧
      appendFromSorted (bs.foldl (fun m b => mmInsert (f b).1 (f b).2 m) []) out ratio = out ++ kept.map (fun b => (f b).2) ∧
      (∀ d ∈ dropped, ∃ m ∈ bs, (∀ b ∈ bs, (f b).1 ≤ (f m).1) ∧ (f d).1 < (f m).1 * ratio) ∧
      (dropped ≠ [] → 3 ≤ out.length + kept.length) := by
  -- sort the elements themselves along
  let g : β → K × β := fun b => ((f b).1, b)
  obtain ⟨hs, hp⟩ := mmFold g bs [] (by simp)
  set S := bs.foldl (fun m b => mmInsert (g b).1 (g b).2 m) [] with hS
  have hmap : ∀ (l : List (K × β)) (b : β), (mmInsert (f b).1 b l).map (fun e => (e.1, (f e.2).2)) =
      mmInsert (f b).1 (f b).2 (l.map (fun e => (e.1, (f e.2).2))) := by
    intro l b
    induction l with
    | nil => rfl
    | cons e es ih => simp only [mmInsert, List.map_cons]; split <;> simp [ih]
  have hfold : ∀ (bs : List β) (l : List (K × β)),
      (bs.foldl (fun m b => mmInsert (g b).1 (g b).2 m) l).map (fun e => (e.1, (f e.2).2)) =
      bs.foldl (fun m b => mmInsert (f b).1 (f b).2 m) (l.map (fun e => (e.1, (f e.2).2))) := by
    intro bs
    induction bs with
    | nil => intro l; rfl
    | cons b bs ih => intro l; simp only [List.foldl_cons]; rw [ih]; congr 1; exact hmap l b
  have hF := hfold bs []
  rw [← hS] at hF
  simp only [List.map_nil] at hF
  rw [← hF]
  simp only [List.nil_append] at hp
  have hkey : ∀ e ∈ S, e.1 = (f e.2).1 := by
    intro e he
    obtain ⟨b, _, rfl⟩ := List.mem_map.mp (hp.subset he)
    rfl
  have hmemS : ∀ e ∈ S, e.2 ∈ bs := by
    intro e he
    obtain ⟨b, hb, rfl⟩ := List.mem_map.mp (hp.subset he)
    exact hb
  unfold appendFromSorted
  rw [← List.map_reverse]
  have hrev : S.reverse.Pairwise (fun x y => y.1 ≤ x.1) := List.pairwise_reverse.mpr hs
  cases hr : S.reverse with
  | nil =>
    have : S = [] := by simpa using hr
    have hb : bs = [] := by
      rw [this] at hp
      have := hp.symm.eq_nil
      simpa using this
    subst hb
    exact ⟨[], [], List.Perm.refl _, by simp, by simp, by simp⟩
  | cons e es =>
    simp only [List.map_cons]
    rw [hr] at hrev
    have hrev' : ((e.1, (f e.2).2) :: es.map (fun e => (e.1, (f e.2).2))).Pairwise (fun x y => y.1 ≤ x.1) := by
      rw [← List.map_cons (f := fun e : K × β => (e.1, (f e.2).2))]
      rw [List.pairwise_map]
      exact hrev
    obtain ⟨pre, suf, h1, h2, h3, h4⟩ := appendSortedLoop_spec (e.1 * ratio) _ hrev' out
    rw [← List.map_cons (f := fun e : K × β => (e.1, (f e.2).2)), List.map_eq_append_iff] at h1
    obtain ⟨A, B, hAB, rfl, rfl⟩ := h1
    have hSr : S.Perm (A ++ B) := by rw [← hAB, ← hr]; exact (List.reverse_perm S).symm
    refine ⟨A.map (·.2), B.map (·.2), ?_, ?_, ?_, ?_⟩
    · rw [← List.map_append]
      refine (hSr.symm.map _).trans ?_
      refine (hp.map _).trans ?_
      simp [g, Function.comp_def]
    · rw [h2]; simp [Function.comp_def]
    · intro d hd
      obtain ⟨x, hx, rfl⟩ := List.mem_map.mp hd
      have hxS : x ∈ S := hSr.symm.subset (List.mem_append_right _ hx)
      have heS : e ∈ S := by rw [← List.mem_reverse, hr]; exact List.mem_cons_self
      refine ⟨e.2, hmemS e heS, ?_, ?_⟩
      · intro b hb
        have hgb : g b ∈ S := hp.symm.subset (List.mem_map.mpr ⟨b, hb, rfl⟩)
        rw [← hkey e heS]
        rw [← List.mem_reverse, hr] at hgb
        rcases List.mem_cons.mp hgb with h | h
        · rw [← h]
        · exact (List.pairwise_cons.mp hrev).1 _ h
      · rw [← hkey e heS, ← hkey x hxS]
        exact h3 (x.1, (f x.2).2) (List.mem_map.mpr ⟨x, hx, rfl⟩)
    · intro hd
      have := h4 (by intro h; apply hd; simpa using h)
      simpa using this

theorem planeToPt_spec {T : Pose3 K} {q : PtPlPair K} (hu : q.plGlobal.plane.n.normSq = 1) :
    FromPlane T q (planeToPt T q).2 ∧ (planeToPt T q).1 * (planeToPt T q).1 = mismatch T (planeToPt T q).2 ∧
    0 ≤ (planeToPt T q).1 := by
  refine ⟨⟨rfl, ?_, ?_⟩, ?_, abs_nonneg _⟩
  · simp only [planeToPt]
    simp only [P3.normSq, P3.dot] at hu
    simp only [P3.dot, P3.sub_x, P3.sub_y, P3.sub_z, P3.smul_x, P3.smul_y, P3.smul_z]
    generalize T.composePoint q.ptLocal = g
    linear_combination (-(q.plGlobal.plane.n.x * g.x + q.plGlobal.plane.n.y * g.y + q.plGlobal.plane.n.z * g.z + q.plGlobal.plane.d)) * hu
  · intro y hy
    simp only [planeToPt]
    simp only [P3.normSq, P3.dot] at hu
    simp only [P3.distSq, P3.normSq, P3.dot, P3.sub_x, P3.sub_y, P3.sub_z, P3.smul_x, P3.smul_y, P3.smul_z] at hy ⊢
    generalize T.composePoint q.ptLocal = g
    generalize q.plGlobal.plane.n.x = a at *
    generalize q.plGlobal.plane.n.y = b at *
    generalize q.plGlobal.plane.n.z = c at *
    generalize q.plGlobal.plane.d = d at *
    have h1 := mul_self_nonneg (y.x - g.x + (a * g.x + b * g.y + c * g.z + d) * a)
    have h2 := mul_self_nonneg (y.y - g.y + (a * g.x + b * g.y + c * g.z + d) * b)
    have h3 := mul_self_nonneg (y.z - g.z + (a * g.x + b * g.y + c * g.z + d) * c)
    have key : (y.x - g.x) * (y.x - g.x) + (y.y - g.y) * (y.y - g.y) + (y.z - g.z) * (y.z - g.z) =
      (a * g.x + b * g.y + c * g.z + d) ^ 2 + (y.x - g.x + (a * g.x + b * g.y + c * g.z + d) * a) * (y.x - g.x + (a * g.x + b * g.y + c * g.z + d) * a) +
      (y.y - g.y + (a * g.x + b * g.y + c * g.z + d) * b) * (y.y - g.y + (a * g.x + b * g.y + c * g.z + d) * b) +
      (y.z - g.z + (a * g.x + b * g.y + c * g.z + d) * c) * (y.z - g.z + (a * g.x + b * g.y + c * g.z + d) * c) := by
      linear_combination (-(a * g.x + b * g.y + c * g.z + d) ^ 2) * hu - 2 * (a * g.x + b * g.y + c * g.z + d) * hy
    have key2 : (g.x - (a * g.x + b * g.y + c * g.z + d) * a - g.x) * (g.x - (a * g.x + b * g.y + c * g.z + d) * a - g.x) +
      (g.y - (a * g.x + b * g.y + c * g.z + d) * b - g.y) * (g.y - (a * g.x + b * g.y + c * g.z + d) * b - g.y) +
      (g.z - (a * g.x + b * g.y + c * g.z + d) * c - g.z) * (g.z - (a * g.x + b * g.y + c * g.z + d) * c - g.z) =
      (a * g.x + b * g.y + c * g.z + d) ^ 2 := by
      linear_combination (a * g.x + b * g.y + c * g.z + d) ^ 2 * hu
    linarith
  · simp only [planeToPt, mismatch]
    rw [abs_mul_abs_self]
    simp only [P3.normSq, P3.dot] at hu
    simp only [P3.distSq, P3.normSq, P3.dot, P3.sub_x, P3.sub_y, P3.sub_z, P3.smul_x, P3.smul_y, P3.smul_z]
    generalize T.composePoint q.ptLocal = g
    generalize q.plGlobal.plane.n.x = a at *
    generalize q.plGlobal.plane.n.y = b at *
    generalize q.plGlobal.plane.n.z = c at *
    generalize q.plGlobal.plane.d = d at *
    linear_combination (-(a * g.x + b * g.y + c * g.z + d) ^ 2) * hu

theorem lineToPt_spec {norm : P3 K → K} (hn : IsNorm norm) {T : Pose3 K} {q : PtLnPair K} (hu : q.lnGlobal.director.normSq ≠ 0) :
    FromLine T q (lineToPt norm T q).2 ∧ (lineToPt norm T q).1 * (lineToPt norm T q).1 = mismatch T (lineToPt norm T q).2 ∧
    0 ≤ (lineToPt norm T q).1 := by
  refine ⟨⟨rfl, ⟨_, rfl⟩, ?_⟩, ?_, abs_nonneg _⟩
  · intro s
    simp only [lineToPt]
    generalize T.composePoint q.ptLocal = g
    generalize q.lnGlobal.pBase = b
    generalize hd : q.lnGlobal.director = u at *
    set k := u.dot (g - b) / u.normSq with hk
    have hk' : k * u.normSq = u.dot (g - b) := by rw [hk]; field_simp
    have h0 := mul_nonneg (mul_self_nonneg (s - k)) (show 0 ≤ u.normSq from by
      have h1 := mul_self_nonneg u.x
      have h2 := mul_self_nonneg u.y
      have h3 := mul_self_nonneg u.z
      simp only [P3.normSq, P3.dot]; linarith)
    clear_value k
    have key : P3.distSq (b + P3.smul s u) g = P3.distSq (b + P3.smul k u) g + (s - k) * (s - k) * u.normSq := by
      simp only [P3.distSq, P3.normSq, P3.dot, P3.sub_x, P3.sub_y, P3.sub_z, P3.smul_x, P3.smul_y, P3.smul_z, P3.add_x,
        P3.add_y, P3.add_z] at hk' ⊢
      linear_combination 2 * (s - k) * hk'
    linarith
  · simp only [lineToPt, mismatch]
    rw [abs_mul_abs_self, (hn _).2]
    simp only [P3.distSq, P3.normSq, P3.dot, P3.sub_x, P3.sub_y, P3.sub_z]
    ring

end Verif.Lemmas
