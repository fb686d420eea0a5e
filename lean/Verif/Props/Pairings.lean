import Verif.Model.Pairings
import Verif.Spec.Pairings
import Verif.Lemmas.Pairings
/-
Properties C11 (merging), C12 (size/empty/summary), C26 (robust centroids).
-/
namespace Verif.Props
open Verif Verif.Spec

variable {K : Type}

/-! ### C11 -/

/-- C11: `push_back(const Pairings&)` merges. -/
theorem pushBack_copy_isMerge (a b : Pairings K) : IsMerge a b (a.pushBackCopy b) :=
  ⟨rfl, rfl, rfl, rfl, rfl, rfl⟩

/-- C11: merging is associative. -/
theorem pushBack_copy_assoc (a b c : Pairings K) :
    (a.pushBackCopy b).pushBackCopy c = a.pushBackCopy (b.pushBackCopy c) := by
  simp [Pairings.pushBackCopy, Nat.add_assoc]

/-- C11: the default-constructed container is neutral on the right, for every content. -/
theorem pushBack_copy_empty (a : Pairings K) : a.pushBackCopy {} = a := by
  simp [Pairings.pushBackCopy]

/-- C11: the default-constructed container is neutral on the left but for the per-layer weights,
which are lost: `point_weights` is never copied. -/
theorem empty_pushBack_copy_partial (a : Pairings K) :
    ({} : Pairings K).pushBackCopy a = { a with pointWeights := [] } := by
  simp [Pairings.pushBackCopy]

/-- C11, negative: the empty container is *not* a left neutral element when there are weights. -/
theorem empty_pushBack_copy_loses_weights :
    ∃ a : Pairings Int, ({} : Pairings Int).pushBackCopy a ≠ a :=
  ⟨{ pt2pt := [⟨0, 0, ⟨0,0,0⟩, ⟨0,0,0⟩, 0⟩], pointWeights := [(1, 5)] }, by decide⟩

/-- C11: the move overload gives the same result as the copy overload exactly when the receiver's
counter of potential pairings is zero. -/
theorem pushBack_move_eq_copy_iff_partial (a b : Pairings K) :
    a.pushBackMove b = a.pushBackCopy b ↔ a.potential = 0 := by
  simp [Pairings.pushBackMove, Pairings.pushBackCopy]

/-- C11, negative: the move overload does not merge: the counter of the receiver is overwritten, so
that more pairings than potential pairings can be reported. -/
theorem pushBack_move_not_isMerge :
    ∃ a b : Pairings Int, ¬ IsMerge a b (a.pushBackMove b) ∧
      a.size ≤ a.potential ∧ b.size ≤ b.potential ∧
      (a.pushBackMove b).potential < (a.pushBackMove b).size := by
  refine ⟨{ pt2pt := [⟨0, 0, ⟨0,0,0⟩, ⟨0,0,0⟩, 0⟩], potential := 1 }, {}, ?_, by decide, by decide, by decide⟩
  intro h
  exact absurd h.potential (by decide)

/-! ### C12 -/

/-- C12: `empty()` iff `size() = 0`, iff all the lists are empty. -/
theorem isEmpty_iff_size (p : Pairings K) : p.isEmpty = true ↔ p.size = 0 := by
  simp only [Pairings.isEmpty, Pairings.size, Bool.and_eq_true, List.isEmpty_iff]
  constructor
  · rintro ⟨⟨⟨⟨h1, h2⟩, h3⟩, h4⟩, h5⟩; simp [*]
  · intro h
    simp only [Nat.add_eq_zero_iff, List.length_eq_zero_iff] at h
    tauto

/-- C12: `size()` is the sum of the lengths of the five lists, and `empty()` says that each of them is. -/
theorem size_and_empty (p : Pairings K) :
    p.size = p.pt2pt.length + p.pt2ln.length + p.pt2pl.length + p.ln2ln.length + p.pl2pl.length ∧
    (p.isEmpty = true ↔ p.pt2pt = [] ∧ p.pt2ln = [] ∧ p.pt2pl = [] ∧ p.ln2ln = [] ∧ p.pl2pl = []) := by
  refine ⟨rfl, ?_⟩
  simp only [Pairings.isEmpty, Bool.and_eq_true, List.isEmpty_iff]
  tauto

/-- C12: the size of a merge is the sum of the sizes, whichever overload is used. -/
theorem size_pushBack (a b : Pairings K) :
    (a.pushBackCopy b).size = a.size + b.size ∧ (a.pushBackMove b).size = a.size + b.size := by
  simp only [Pairings.size, Pairings.pushBackCopy, Pairings.pushBackMove, List.length_append]
  omega

/-- C12: `contents_summary()` is exactly the list of non-empty kinds with their counts. -/
theorem contentsSummary_eq (p : Pairings K) :
    p.contentsSummary = summarySpec
      [(p.pt2pt.length, "point-point"), (p.pt2ln.length, "point-line"),
       (p.pt2pl.length, "point-plane"), (p.ln2ln.length, "line-line"),
       (p.pl2pl.length, "plane-plane")] p.potential :=
  Lemmas.contentsSummary_eq p

example :
    let pp : PlanePatch Int := ⟨⟨⟨0, 0, 1⟩, 0⟩, ⟨0, 0, 0⟩⟩
    let p : Pairings Int :=
      { pt2pt := [⟨0, 0, ⟨0, 0, 0⟩, ⟨0, 0, 0⟩, 0⟩], pl2pl := [⟨pp, pp⟩], potential := 7 }
    p.contentsSummary = "1 point-point, 1 plane-plane out of 7" := by
  decide

/-! ### C26 -/

/-- C26: with strictly increasing in-range outlier indices that leave at least one pair, the
centroids are the means of the local and global points of exactly the inlier pairs. -/
theorem centroids_are_inlier_means [Field K] [CharZero K] (inp : Pairings K) (outl : OutlierIndices)
    (hs : outl.point2point.Pairwise (· < ·))
    (hr : ∀ o ∈ outl.point2point, o < inp.pt2pt.length)
    (hn : outl.point2point.length < inp.pt2pt.length) :
    evalCentroidsRobust inp outl =
      .ok (mean ((inliers outl.point2point inp.pt2pt).map (·.local)),
           mean ((inliers outl.point2point inp.pt2pt).map (·.global))) :=
  Lemmas.centroids_ok inp outl hs hr hn

/-- C26: refused (an exception, not a division by zero) when no pair would remain. -/
theorem centroids_refused [Field K] (inp : Pairings K) (outl : OutlierIndices)
    (hn : inp.pt2pt.length ≤ outl.point2point.length) :
    evalCentroidsRobust inp outl = .throw := by
  simp [evalCentroidsRobust, Outcome.assert, Nat.not_lt.mpr hn]

/-- C26: never undefined behaviour, and any answer at all is about as many pairs as are not
outliers: whatever the outlier list (unsorted, repeated or out of range). -/
theorem centroids_never_ub [Field K] (inp : Pairings K) (outl : OutlierIndices) :
    evalCentroidsRobust inp outl ≠ .ub :=
  Lemmas.centroids_never_ub inp outl

/-- C26: an outlier index out of range (last of a sorted list) is refused. -/
theorem centroids_out_of_range_refused [Field K] (inp : Pairings K) (outl : OutlierIndices)
    (hs : outl.point2point.Pairwise (· < ·))
    (hr : ∃ o ∈ outl.point2point, inp.pt2pt.length ≤ o) :
    evalCentroidsRobust inp outl = .throw :=
  Lemmas.centroids_oor inp outl hs hr

example : evalCentroidsRobust (K := Rat)
    { pt2pt := [⟨0,0,⟨1,1,1⟩,⟨2,2,2⟩,0⟩, ⟨1,1,⟨100,0,0⟩,⟨7,7,7⟩,0⟩, ⟨2,2,⟨3,3,3⟩,⟨4,4,4⟩,0⟩] }
    { point2point := [1] } = .ok (⟨3,3,3⟩, ⟨2,2,2⟩) := by
  decide +kernel

end Verif.Props
