import Verif.Spec.Quadratic
import Verif.Lemmas.DecimateTop
set_option linter.unusedSectionVars false
namespace Verif
namespace Quad
open Flt Vox
variable {K X : Type} [Field K] [LinearOrder K] [IsStrictOrderedRing K] [FloorRing K]

theorem real2grid_ok (R x : K) (hR : R ≠ 0) : real2grid R x = .ok (warp R x) := by
  unfold real2grid warp
  by_cases h : R < |x|
  · rw [if_pos h, if_neg (not_le.2 h)]
  · rw [if_neg h, if_neg hR, if_pos (not_lt.1 h)]
    unfold sgn
    by_cases h0 : x < 0
    · rw [if_pos h0, if_neg (not_le.2 h0)]; congr 1; ring
    · rw [if_neg h0, if_pos (not_lt.1 h0)]; congr 1; ring

def warpPt (R : K) (p : FPt K) : FPt K := barePt (warp R p.x) (warp R p.y) (warp R p.z)

theorem warpAll_ok (R : K) (hR : R ≠ 0) (ps : List (FPt K)) : warpAll R ps = .ok (ps.map (warpPt R)) := by
  induction ps with
  | nil => rfl
  | cons p ps ih => simp [warpAll, real2grid_ok R _ hR, ih, warpPt]

theorem voxelKey_warpPt (res R : K) (p : FPt K) : voxelKey res (warpPt R p) = cell res R p := rfl

theorem inRange_warpPt (res R : K) (p : FPt K) : InRange res (warpPt R p) ↔ CellOk res R p := Iff.rfl

theorem keyAt_map (res R : K) (pts : List (FPt K)) (i : Nat) (hi : i < pts.length) :
    keyAt (voxelKey res) (pts.map (warpPt R)) i = cell res R pts[i] := by
  simp [keyAt, List.getElem?_eq_getElem hi, voxelKey_warpPt]

theorem pointsAt_cell_aux (res R : K) (k : Idx) (ps done : List (FPt K)) :
    pointsAt (done ++ ps)
      ((List.range' done.length ps.length).filter fun i => keyAt (voxelKey res) ((done ++ ps).map (warpPt R)) i = k) =
      .ok (inCell res R ps k) := by
  induction ps generalizing done with
  | nil => simp [pointsAt, inCell]
  | cons p ps ih =>
    have h := ih (done ++ [p])
    simp only [List.append_assoc, List.singleton_append, List.length_append, List.length_singleton] at h
    have hk : keyAt (voxelKey res) ((done ++ p :: ps).map (warpPt R)) done.length = cell res R p := by
      rw [keyAt_map _ _ _ _ (by simp)]; simp
    rw [List.length_cons, List.range'_succ]
    by_cases hp : cell res R p = k
    · rw [List.filter_cons_of_pos (by rw [hk]; exact decide_eq_true hp), pointsAt]
      have : (done ++ p :: ps)[done.length]? = some p := by simp
      rw [this]
      simp only []
      rw [h]
      simp [inCell, hp]
    · rw [List.filter_cons_of_neg (by rw [hk, decide_eq_true_eq]; exact hp), h]
      simp [inCell, hp]

theorem pointsAt_cell (res R : K) (k : Idx) (pts : List (FPt K)) :
    pointsAt pts ((List.range pts.length).filter fun i => keyAt (voxelKey res) (pts.map (warpPt R)) i = k) =
      .ok (inCell res R pts k) := by
  have := pointsAt_cell_aux res R k pts []
  simpa [List.range_eq_range'] using this

theorem reps_ok (res R : K) (meth : Method) (draws : Nat → Nat) (pts : List (FPt K)) (g : List (Idx × List Nat))
    (hg : ∀ k l, (k, l) ∈ g → l ≠ [] ∧ l = (List.range pts.length).filter fun i => keyAt (voxelKey res) (pts.map (warpPt R)) i = k)
    (j : Nat) :
    ∃ rs, representatives meth draws pts j g = .ok rs ∧ rs.map (·.1) = g.map (·.1) ∧
      ∀ k r, (k, r) ∈ rs → inCell res R pts k ≠ [] ∧ IsRep meth (inCell res R pts k) r := by
  induction g generalizing j with
  | nil => exact ⟨[], rfl, rfl, by simp⟩
  | cons e g ih =>
    obtain ⟨k, l⟩ := e
    obtain ⟨hne, hl⟩ := hg k l (List.mem_cons_self ..)
    obtain ⟨rs, h1, h2, h3⟩ := ih (fun k l h => hg k l (List.mem_cons_of_mem _ h)) (j + 1)
    have hp := pointsAt_cell res R k pts
    rw [← hl] at hp
    have hv : inCell res R pts k ≠ [] := by
      intro h0
      rw [h0] at hp
      cases l with
      | nil => exact hne rfl
      | cons i l =>
        rw [pointsAt] at hp
        split at hp
        · simp only [Outcome.bind_eq_ok, Outcome.ok.injEq] at hp
          obtain ⟨_, _, h⟩ := hp; cases h
        · cases hp
    obtain ⟨r, hr, hrep⟩ := representative_ok meth (draws j) (inCell res R pts k) hv
    have he : l.isEmpty = false := by cases l <;> simp_all
    refine ⟨(k, r) :: rs, ?_, by simp [h2], ?_⟩
    · rw [representatives, he]
      simp only [Bool.false_eq_true, if_false, hp, Outcome.bind, hr, h1]
    · intro k' r' h
      rcases List.mem_cons.1 h with h | h
      · obtain ⟨rfl, rfl⟩ := Prod.mk.injEq .. ▸ h
        exact ⟨hv, hrep⟩
      · exact h3 k' r' h

/-- grid and representatives together -/
theorem core_ok (p : Params K) (hR : p.R ≠ 0) (visit : List (Idx × List Nat) → List (Idx × List Nat))
    (hv : ∀ g, (visit g).Perm g) (draws : Nat → Nat) (pts : List (FPt K)) (hc : ∀ q ∈ pts, CellOk p.res p.R q) :
    ∃ rs, ((warpAll p.R pts).bind fun w => (processMulti p.res w 0 []).bind fun g =>
        representatives p.method draws pts 0 (visit g)) = .ok rs ∧
      Decimated p.res p.R p.method pts (rs.map fun e => barePt e.2.x e.2.y e.2.z) := by
  obtain ⟨g, hg1, hg2⟩ := processMulti_ok p.res (keyAt (voxelKey p.res) (pts.map (warpPt p.R))) (pts.map (warpPt p.R)) 0 []
    (MInv.nil _) (by
      intro q hq
      obtain ⟨q', hq', rfl⟩ := List.mem_map.1 hq
      exact hc q' hq') (by
      intro j hj
      simp [keyAt, List.getElem?_eq_getElem (by simpa using hj : j < pts.length)])
  rw [Nat.zero_add, List.length_map] at hg2
  have hperm := hv g
  obtain ⟨rs, hrs, hk, hrep⟩ := reps_ok p.res p.R p.method draws pts (visit g)
    (fun k l hkl => (hg2.2 k l).1 (hperm.mem_iff.1 hkl)) 0
  refine ⟨rs, by rw [warpAll_ok _ hR]; simp only [Outcome.bind, hg1, hrs], rs.map (·.1), ?_, ?_, ?_⟩
  · rw [hk, (hperm.map _).nodup_iff]; exact hg2.1
  · intro k
    rw [hk, (hperm.map _).mem_iff, List.mem_map]
    constructor
    · rintro ⟨⟨k', l⟩, he, rfl⟩
      obtain ⟨h1, h2⟩ := (hg2.2 _ _).1 he
      obtain ⟨i, l', hil⟩ := List.exists_cons_of_ne_nil h1
      have hi : i ∈ l := by rw [hil]; simp
      rw [h2, List.mem_filter, List.mem_range] at hi
      refine ⟨pts[i]'hi.1, List.getElem_mem _, ?_⟩
      rw [← keyAt_map _ _ _ _ hi.1]
      simpa using hi.2
    · rintro ⟨q, hq, rfl⟩
      obtain ⟨i, hi, rfl⟩ := List.getElem_of_mem hq
      refine ⟨(_, (List.range pts.length).filter fun j => keyAt (voxelKey p.res) (pts.map (warpPt p.R)) j = cell p.res p.R pts[i]),
        (hg2.2 _ _).2 ⟨?_, rfl⟩, rfl⟩
      intro h0
      have : i ∈ (List.range pts.length).filter fun j => keyAt (voxelKey p.res) (pts.map (warpPt p.R)) j = cell p.res p.R pts[i] := by
        rw [List.mem_filter, List.mem_range]
        exact ⟨hi, by simp [keyAt_map _ _ _ _ hi]⟩
      rw [h0] at this; cases this
  · rw [List.forall₂_map_left_iff, List.forall₂_map_right_iff, List.forall₂_same]
    intro e he
    exact ⟨e.2, (hrep e.1 e.2 he).2, rfl⟩

end Quad
end Verif
