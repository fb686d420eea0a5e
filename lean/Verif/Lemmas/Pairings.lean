import Verif.Model.Pairings
import Verif.Spec.Pairings
import Mathlib.Tactic.Ring
import Mathlib.Tactic.FieldSimp
import Mathlib.Tactic.Tauto
import Mathlib.Data.List.Basic
import Mathlib.Algebra.BigOperators.Group.List.Basic
namespace Verif.Lemmas
open Verif Verif.Spec
variable {K : Type}

private def item (c : Nat × String) : String := toString c.1 ++ " " ++ c.2

private theorem item_ne (c : Nat × String) : item c ≠ "" := by
  unfold item
  intro h
  have := congrArg String.length h
  simp [String.length_append] at this

private def shown (L : List (Nat × String)) : List String :=
  (L.filter (fun c => c.1 ≠ 0)).map item

private theorem intercalate_cons_cons (s a b : String) (l : List String) :
    s.intercalate (a :: b :: l) = a ++ s ++ s.intercalate (b :: l) := by
  rw [String.intercalate_cons_cons]

private theorem fold_append (L : List (Nat × String)) (r : String) :
    L.foldl (fun r c => Pairings.appendContainerSize c.1 c.2 r) r =
      if r = "" then ", ".intercalate (shown L) else ", ".intercalate (r :: shown L) := by
  induction L generalizing r with
  | nil => simp [shown]
  | cons c L ih =>
    rw [List.foldl_cons, ih]
    by_cases hc : c.1 = 0
    · have : shown (c :: L) = shown L := by simp [shown, hc]
      rw [this]; simp [Pairings.appendContainerSize, hc]
    · have : shown (c :: L) = item c :: shown L := by simp [shown, hc]
      rw [this]
      by_cases hr : r = ""
      · have h2 : Pairings.appendContainerSize c.1 c.2 r = item c := by
          simp [Pairings.appendContainerSize, hc, hr, item]
        rw [h2]; simp [hr, item_ne]
      · have h2 : Pairings.appendContainerSize c.1 c.2 r = r ++ ", " ++ item c := by
          simp [Pairings.appendContainerSize, hc, hr, item]
        have h3 : r ++ ", " ++ item c ≠ "" := by
          intro h
          have := congrArg String.length h
          simp [String.length_append] at this
        rw [h2, if_neg h3, if_neg hr]
        rw [intercalate_cons_cons]
        cases shown L with
        | nil => simp
        | cons b l => simp [intercalate_cons_cons, String.append_assoc]

theorem contentsSummary_eq (p : Pairings K) :
    p.contentsSummary = summarySpec
      [(p.pt2pt.length, "point-point"), (p.pt2ln.length, "point-line"),
       (p.pt2pl.length, "point-plane"), (p.ln2ln.length, "line-line"),
       (p.pl2pl.length, "plane-plane")] p.potential := by
  have key := fold_append [(p.pt2pt.length, "point-point"), (p.pt2ln.length, "point-line"),
       (p.pt2pl.length, "point-plane"), (p.ln2ln.length, "line-line"),
       (p.pl2pl.length, "plane-plane")] ""
  simp only [List.foldl_cons, List.foldl_nil, if_true] at key
  unfold Pairings.contentsSummary
  simp only
  rw [key]
  unfold summarySpec
  have hsh : ∀ L : List (Nat × String),
     ((L.filter (fun c => c.1 ≠ 0)).map (fun c => toString c.1 ++ " " ++ c.2)) = shown L := fun L => rfl
  simp only [hsh]
  by_cases he : p.isEmpty = true
  · rw [if_pos he]
    simp only [Pairings.isEmpty, Bool.and_eq_true, List.isEmpty_iff] at he
    obtain ⟨⟨⟨⟨h1, h2⟩, h3⟩, h4⟩, h5⟩ := he
    simp [shown, h1, h2, h3, h4, h5]
  · rw [if_neg he, if_neg]
    intro h
    apply he
    simp only [shown, List.map_eq_nil_iff, List.filter_eq_nil_iff] at h
    simp at h
    simp [Pairings.isEmpty, h]

/-! centroids -/

/-- generalized inliers starting at index `i` -/
private def inl (i : Nat) (outl : List Nat) (ps : List (PtPair K)) : List (PtPair K) :=
  ((ps.zipIdx i).filter (fun q => decide (q.2 ∉ outl))).map (·.1)

private theorem inl_cons (i : Nat) (outl : List Nat) (p : PtPair K) (ps : List (PtPair K)) :
    inl i outl (p :: ps) = if i ∈ outl then inl (i+1) outl ps else p :: inl (i+1) outl ps := by
  unfold inl
  rw [List.zipIdx_cons]
  by_cases h : i ∈ outl <;> simp [h]

private theorem inl_drop (i : Nat) (o : Nat) (os : List Nat) (ps : List (PtPair K)) (h : o < i) :
    inl i (o :: os) ps = inl i os ps := by
  induction ps generalizing i with
  | nil => simp [inl]
  | cons p ps ih =>
    rw [inl_cons, inl_cons, ih (i+1) (by omega)]
    have : i ≠ o := by omega
    simp [this]

private def sumP [Add K] [Zero K] (l : List (P3 K)) : P3 K :=
  ⟨(l.map (·.x)).sum, (l.map (·.y)).sum, (l.map (·.z)).sum⟩

private theorem loop_eq [Field K] (ps : List (PtPair K)) (i : Nat) (outl : List Nat) (g l : P3 K) (cnt : Nat)
    (hs : outl.Pairwise (· < ·)) (hge : ∀ o ∈ outl, i ≤ o) :
    centroidLoop i outl ps g l cnt =
      (g + sumP ((inl i outl ps).map (·.global)), l + sumP ((inl i outl ps).map (·.local)),
        cnt + (inl i outl ps).length) := by
  induction ps generalizing i outl g l cnt with
  | nil =>
    have : inl i outl ([] : List (PtPair K)) = [] := by simp [inl]
    simp only [centroidLoop, this]
    refine Prod.ext ?_ (Prod.ext ?_ ?_) <;> first | rfl | (ext <;> simp [sumP])
  | cons p ps ih =>
    cases outl with
    | nil =>
      rw [centroidLoop, ih _ _ _ _ _ hs (by simp), inl_cons]
      simp only [List.not_mem_nil, if_false, List.map_cons, List.length_cons]
      refine Prod.ext ?_ (Prod.ext ?_ ?_)
      · ext <;> simp [sumP, add_assoc]
      · ext <;> simp [sumP, add_assoc]
      · simp; omega
    | cons o os =>
      rw [centroidLoop]
      have hs' := List.pairwise_cons.mp hs
      by_cases hi : i = o
      · subst hi
        rw [if_pos rfl, ih _ _ _ _ _ hs'.2 (fun o ho => hs'.1 o ho), inl_cons]
        simp [inl_drop]
      · rw [if_neg hi]
        have hlt : i < o := lt_of_le_of_ne (hge o (by simp)) hi
        rw [ih _ _ _ _ _ hs, inl_cons]
        · have hni : i ∉ o :: os := by
            intro hm
            rcases List.mem_cons.mp hm with h | h
            · exact hi h
            · have := hs'.1 i h; omega
          simp only [hni, if_false, List.map_cons, List.length_cons]
          refine Prod.ext ?_ (Prod.ext ?_ ?_)
          · ext <;> simp [sumP, add_assoc]
          · ext <;> simp [sumP, add_assoc]
          · simp; omega
        · intro o' ho'
          rcases List.mem_cons.mp ho' with h | h
          · omega
          · have := hs'.1 o' h; omega

private theorem inl_length_le (ps : List (PtPair K)) (i : Nat) (outl : List Nat) :
    (inl i outl ps).length ≤ ps.length := by
  unfold inl
  rw [List.length_map]
  exact (List.length_filter_le _ _).trans (by simp)

private theorem inl_length (ps : List (PtPair K)) (i : Nat) (outl : List Nat)
    (hs : outl.Pairwise (· < ·)) (hge : ∀ o ∈ outl, i ≤ o) (hlt : ∀ o ∈ outl, o < i + ps.length) :
    (inl i outl ps).length + outl.length = ps.length := by
  induction ps generalizing i outl with
  | nil =>
    cases outl with
    | nil => simp [inl]
    | cons o os =>
      have h1 := hge o (by simp); have h2 := hlt o (by simp); simp at h2; omega
  | cons p ps ih =>
    rw [inl_cons]
    cases outl with
    | nil =>
      have := ih (i+1) [] hs (by simp) (by simp)
      simp at this ⊢; omega
    | cons o os =>
      have hs' := List.pairwise_cons.mp hs
      by_cases hi : i = o
      · subst hi
        have := ih (i+1) os hs'.2 (fun o ho => hs'.1 o ho) (fun o ho => by
          have := hlt o (by simp [ho]); simp at this; omega)
        simp [inl_drop]; omega
      · have hlt' : i < o := lt_of_le_of_ne (hge o (by simp)) hi
        have hni : i ∉ o :: os := by
            intro hm
            rcases List.mem_cons.mp hm with h | h
            · exact hi h
            · have := hs'.1 i h; omega
        have := ih (i+1) (o::os) hs (by
          intro o' ho'
          rcases List.mem_cons.mp ho' with h | h
          · omega
          · have := hs'.1 o' h; omega) (fun o ho => by
          have := hlt o ho; simp at this; omega)
        simp only [hni, if_false, List.length_cons] at *
        omega

private theorem inl_length_oor (ps : List (PtPair K)) (i : Nat) (outl : List Nat)
    (hs : outl.Pairwise (· < ·)) (hge : ∀ o ∈ outl, i ≤ o) (hex : ∃ o ∈ outl, i + ps.length ≤ o) :
    ps.length < (inl i outl ps).length + outl.length := by
  induction ps generalizing i outl with
  | nil =>
    obtain ⟨o, ho, _⟩ := hex
    have := List.length_pos_of_mem ho
    simp; omega
  | cons p ps ih =>
    rw [inl_cons]
    cases outl with
    | nil => simp at hex
    | cons o os =>
      have hs' := List.pairwise_cons.mp hs
      by_cases hi : i = o
      · subst hi
        have := ih (i+1) os hs'.2 (fun o ho => hs'.1 o ho) (by
          obtain ⟨o', ho', h⟩ := hex
          rcases List.mem_cons.mp ho' with h' | h'
          · subst h'; simp at h
          · exact ⟨o', h', by simp at h; omega⟩)
        simp [inl_drop]; omega
      · have hlt' : i < o := lt_of_le_of_ne (hge o (by simp)) hi
        have hni : i ∉ o :: os := by
            intro hm
            rcases List.mem_cons.mp hm with h | h
            · exact hi h
            · have := hs'.1 i h; omega
        have := ih (i+1) (o::os) hs (by
          intro o' ho'
          rcases List.mem_cons.mp ho' with h | h
          · omega
          · have := hs'.1 o' h; omega) (by
          obtain ⟨o', ho', h⟩ := hex
          exact ⟨o', ho', by simp at h; omega⟩)
        simp only [hni, if_false, List.length_cons] at *
        omega

theorem centroids_ok [Field K] [CharZero K] (inp : Pairings K) (outl : OutlierIndices)
    (hs : outl.point2point.Pairwise (· < ·))
    (hr : ∀ o ∈ outl.point2point, o < inp.pt2pt.length)
    (hn : outl.point2point.length < inp.pt2pt.length) :
    evalCentroidsRobust inp outl =
      .ok (mean ((inliers outl.point2point inp.pt2pt).map (·.local)),
           mean ((inliers outl.point2point inp.pt2pt).map (·.global))) := by
  have hloop := loop_eq inp.pt2pt 0 outl.point2point 0 0 0 hs (by simp)
  have hlen := inl_length inp.pt2pt 0 outl.point2point hs (by simp) (by simpa using hr)
  have hin : inl 0 outl.point2point inp.pt2pt = inliers outl.point2point inp.pt2pt := rfl
  rw [hin] at hloop hlen
  simp only [evalCentroidsRobust, Outcome.bind_def, hloop, Outcome.assert, hn, gt_iff_lt, if_true,
    Outcome.bind]
  have h2 : (0 + (inliers outl.point2point inp.pt2pt).length) = inp.pt2pt.length - outl.point2point.length := by
    omega
  rw [if_pos h2]
  have h3 : inp.pt2pt.length - outl.point2point.length = (inliers outl.point2point inp.pt2pt).length := by omega
  rw [h3]
  simp only [Outcome.pure_def, Outcome.ok.injEq, Prod.mk.injEq]
  constructor <;> (ext <;> simp [sumP, mean, List.map_map, div_eq_mul_inv, mul_comm])

theorem centroids_oor [Field K] (inp : Pairings K) (outl : OutlierIndices)
    (hs : outl.point2point.Pairwise (· < ·))
    (hr : ∃ o ∈ outl.point2point, inp.pt2pt.length ≤ o) :
    evalCentroidsRobust inp outl = .throw := by
  have hloop := loop_eq inp.pt2pt 0 outl.point2point 0 0 0 hs (by simp)
  have hlen := inl_length_oor inp.pt2pt 0 outl.point2point hs (by simp) (by simpa using hr)
  simp only [evalCentroidsRobust, Outcome.bind_def, hloop, Outcome.assert]
  split
  · rename_i h
    rw [if_neg (by omega)]
    simp
  · simp

theorem centroids_never_ub [Field K] (inp : Pairings K) (outl : OutlierIndices) :
    evalCentroidsRobust inp outl ≠ .ub := by
  simp only [evalCentroidsRobust, Outcome.bind_def]
  unfold Outcome.assert
  split
  · simp only [Outcome.bind]
    split
    · simp
    · simp
    · rename_i h; split at h <;> simp at h
  · simp
end Verif.Lemmas
