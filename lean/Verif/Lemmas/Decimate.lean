import Mathlib.Algebra.Order.Ring.Abs
import Mathlib.Algebra.BigOperators.Group.List.Basic
import Mathlib.Data.List.Forall2
import Mathlib.Data.List.Nodup
import Mathlib.Data.List.Perm.Basic
import Mathlib.Tactic.Linarith
import Mathlib.Tactic.Ring
import Mathlib.Tactic.Positivity
import Mathlib.Tactic.FieldSimp
import Mathlib.Tactic.Push
import Verif.Spec.Decimate
import Verif.Lemmas.FilterBasic
set_option linter.unusedSectionVars false
namespace Verif
namespace Vox
open Flt
variable {K X : Type}
section
variable [Field K] [LinearOrder K] [FloorRing K]

theorem coord2idx_ok (res x : K) (h : res ≠ 0) (hf : Fits (truncZ (x / res))) :
    coord2idx res x = .ok (truncZ (x / res)) := by
  unfold coord2idx; rw [if_neg h, if_pos (show _ ∧ _ from hf)]

theorem coord2idx_ub (res x : K) (h : ¬ (res ≠ 0 ∧ Fits (truncZ (x / res)))) : coord2idx res x = .ub := by
  unfold coord2idx
  by_cases h0 : res = 0
  · rw [if_pos h0]
  · rw [if_neg h0]; exact if_neg (fun hf => h ⟨h0, hf⟩)

theorem coord2idx_eq_ok (res x : K) (i : ℤ) : coord2idx res x = .ok i ↔ res ≠ 0 ∧ Fits i ∧ truncZ (x / res) = i := by
  by_cases h : res ≠ 0 ∧ Fits (truncZ (x / res))
  · rw [coord2idx_ok _ _ h.1 h.2]
    simp only [Outcome.ok.injEq]
    constructor
    · rintro rfl; exact ⟨h.1, h.2, rfl⟩
    · exact fun h => h.2.2
  · rw [coord2idx_ub _ _ h]
    constructor
    · intro h; cases h
    · rintro ⟨h1, h2, rfl⟩; exact absurd ⟨h1, h2⟩ h

theorem voxelOf_ok (res : K) (p : FPt K) (h : InRange res p) : voxelOf res p = .ok (voxelKey res p) := by
  obtain ⟨h0, h1, h2, h3⟩ := h
  simp [voxelOf, VoxelIdx.idx, coord2idx_ok _ _ h0 h1, coord2idx_ok _ _ h0 h2, coord2idx_ok _ _ h0 h3, voxelKey]

theorem voxelOf_ub (res : K) (p : FPt K) (h : ¬ InRange res p) : voxelOf res p = .ub := by
  simp only [voxelOf, VoxelIdx.idx]
  by_cases h1 : res ≠ 0 ∧ Fits (truncZ (p.x / res))
  · rw [coord2idx_ok _ _ h1.1 h1.2]
    by_cases h2 : Fits (truncZ (p.y / res))
    · rw [coord2idx_ok _ _ h1.1 h2]
      have h3 : ¬ Fits (truncZ (p.z / res)) := fun h3 => h ⟨h1.1, h1.2, h2, h3⟩
      simp [coord2idx_ub res p.z (fun hh => h3 hh.2)]
    · simp [coord2idx_ub res p.y (fun hh => h2 hh.2)]
  · simp [coord2idx_ub _ _ h1]

end

/-! ### the grid of one point per voxel -/

theorem mem_pushFirst {V : Type} (k : Idx) (v : V) (g : List (Idx × V)) (e : Idx × V) :
    e ∈ pushFirst k v g ↔ e ∈ g ∨ (k ∉ g.map (·.1) ∧ e = (k, v)) := by
  induction g with
  | nil => simp [pushFirst]
  | cons a g ih =>
    by_cases h : a.1 = k
    · simp [pushFirst, h]
    · have h' : ¬ k = a.1 := fun hh => h hh.symm
      rw [pushFirst, if_neg h, List.mem_cons, ih, List.mem_cons, List.map_cons, List.mem_cons]
      tauto

theorem keys_pushFirst {V : Type} (k : Idx) (v : V) (g : List (Idx × V)) :
    (pushFirst k v g).map (·.1) = if k ∈ g.map (·.1) then g.map (·.1) else g.map (·.1) ++ [k] := by
  induction g with
  | nil => simp [pushFirst]
  | cons a g ih =>
    by_cases h : a.1 = k
    · simp [pushFirst, h]
    · have h' : ¬ k = a.1 := fun hh => h hh.symm
      rw [pushFirst, if_neg h, List.map_cons, ih, List.map_cons]
      by_cases h2 : k ∈ g.map (·.1) <;> simp [h2, h']

/-- invariant of the single grid after the points `done` -/
def SInv (key : FPt K → Idx) (done : List (FPt K)) (g : List (Idx × FPt K)) : Prop :=
  (g.map (·.1)).Nodup ∧ ∀ k v, (k, v) ∈ g ↔ (pointsIn key done k).head? = some v

theorem SInv.keys {key : FPt K → Idx} {done : List (FPt K)} {g : List (Idx × FPt K)} (h : SInv key done g) (k : Idx) :
    k ∈ g.map (·.1) ↔ ∃ p ∈ done, key p = k := by
  rw [List.mem_map]
  constructor
  · rintro ⟨⟨k', v⟩, he, rfl⟩
    have := (h.2 k' v).1 he
    have := List.mem_of_head? this
    simp only [pointsIn, List.mem_filter, decide_eq_true_eq] at this
    exact ⟨v, this⟩
  · rintro ⟨p, hp, hk⟩
    have : pointsIn key done k ≠ [] := by
      intro h0
      have : p ∈ pointsIn key done k := by simp [pointsIn, hp, hk]
      rw [h0] at this; cases this
    obtain ⟨v, l, hv⟩ := List.exists_cons_of_ne_nil this
    exact ⟨(k, v), (h.2 k v).2 (by rw [hv]; rfl), rfl⟩

theorem SInv.push {key : FPt K → Idx} {done : List (FPt K)} {g : List (Idx × FPt K)} (h : SInv key done g) (p : FPt K) :
    SInv key (done ++ [p]) (pushFirst (key p) p g) := by
  have hk := h.keys (key p)
  refine ⟨?_, fun k v => ?_⟩
  · rw [keys_pushFirst]
    split
    · exact h.1
    · rename_i h1
      rw [List.nodup_append]
      refine ⟨h.1, by simp, ?_⟩
      intro a ha b hb
      simp only [List.mem_singleton] at hb
      rintro rfl
      exact h1 (hb ▸ ha)
  · rw [mem_pushFirst, h.2]
    have e : pointsIn key (done ++ [p]) k = pointsIn key done k ++ (if key p = k then [p] else []) := by
      unfold pointsIn
      rw [List.filter_append]
      congr 1
      by_cases hh : key p = k <;> simp [hh]
    rw [e, List.head?_append]
    by_cases hp : key p = k
    · subst hp
      rw [if_pos rfl]
      cases hh : (pointsIn key done (key p)).head? with
      | none =>
        have hn : key p ∉ g.map (·.1) := by
          rw [hk]
          rintro ⟨q, hq, hqk⟩
          rw [List.head?_eq_none_iff] at hh
          have : q ∈ pointsIn key done (key p) := by simp [pointsIn, hq, hqk]
          rw [hh] at this; cases this
        simp [hn, eq_comm]
      | some w =>
        have hn : key p ∈ g.map (·.1) := by
          have := (h.2 _ w).2 hh
          exact List.mem_map.2 ⟨_, this, rfl⟩
        simp [hn]
    · rw [if_neg hp]
      have : ¬ ((key p ∉ g.map (·.1)) ∧ (k, v) = (key p, p)) := by
        rintro ⟨-, h2⟩
        exact hp (by simpa using (congrArg Prod.fst h2).symm)
      simp only [this, or_false]
      simp

theorem SInv.nil (key : FPt K → Idx) : SInv key [] [] := ⟨by simp, by simp [pointsIn]⟩

theorem processSingle_by [VoxelIdx K] (key : FPt K → Idx) (res : K) (ps done : List (FPt K)) (g : List (Idx × FPt K))
    (hg : SInv key done g) (h : ∀ p ∈ ps, voxelOf res p = .ok (key p)) :
    ∃ g', processSingle res ps g = .ok g' ∧ SInv key (done ++ ps) g' := by
  induction ps generalizing done g with
  | nil => exact ⟨g, rfl, by simpa using hg⟩
  | cons p ps ih =>
    obtain ⟨g', h1, h2⟩ := ih (done ++ [p]) _ (hg.push p) (fun q hq => h q (List.mem_cons_of_mem _ hq))
    refine ⟨g', ?_, by simpa using h2⟩
    rw [processSingle, h p (List.mem_cons_self ..)]
    exact h1

theorem processSingle_ub [VoxelIdx K] (res : K) (ps : List (FPt K)) (g : List (Idx × FPt K))
    (h0 : ∀ p ∈ ps, voxelOf res p ≠ .throw) (h : ∃ p ∈ ps, voxelOf res p = .ub) :
    processSingle res ps g = .ub := by
  induction ps generalizing g with
  | nil => simp at h
  | cons p ps ih =>
    rw [processSingle]
    cases hp : voxelOf res p with
    | throw => exact absurd hp (h0 p (List.mem_cons_self ..))
    | ub => rfl
    | ok k =>
      apply ih _ (fun q hq => h0 q (List.mem_cons_of_mem _ hq))
      obtain ⟨q, hq, h1⟩ := h
      rcases List.mem_cons.1 hq with rfl | hq
      · rw [hp] at h1; cases h1
      · exact ⟨q, hq, h1⟩

theorem processLayers_by [VoxelIdx K] (key : FPt K → Idx) (res : K) (m : FMap K X) (ns : List String) (done : List (FPt K))
    (g : List (Idx × FPt K)) (hg : SInv key done g) (h : ∀ p ∈ ns.flatMap (ptsOf m), voxelOf res p = .ok (key p)) :
    ∃ g', processLayers res m ns g = .ok g' ∧ SInv key (done ++ ns.flatMap (ptsOf m)) g' := by
  induction ns generalizing done g with
  | nil => exact ⟨g, rfl, by simpa using hg⟩
  | cons n ns ih =>
    obtain ⟨g1, h1, h2⟩ := processSingle_by key res (ptsOf m n) done g hg (fun p hp => h p (by
      rw [List.flatMap_cons]; exact List.mem_append_left _ hp))
    obtain ⟨g2, h3, h4⟩ := ih _ g1 h2 (fun p hp => h p (by rw [List.flatMap_cons]; exact List.mem_append_right _ hp))
    refine ⟨g2, by simp [processLayers, h1, h3], ?_⟩
    rw [List.flatMap_cons, ← List.append_assoc]; exact h4

theorem processSingle_ok_or_ub [VoxelIdx K] (res : K) (ps : List (FPt K)) (g : List (Idx × FPt K))
    (h0 : ∀ p ∈ ps, voxelOf res p ≠ .throw) : processSingle res ps g ≠ .throw := by
  induction ps generalizing g with
  | nil => simp [processSingle]
  | cons p ps ih =>
    rw [processSingle]
    cases hp : voxelOf res p with
    | throw => exact absurd hp (h0 p (List.mem_cons_self ..))
    | ub => simp
    | ok k => exact ih _ (fun q hq => h0 q (List.mem_cons_of_mem _ hq))

theorem processLayers_ub [VoxelIdx K] (res : K) (m : FMap K X) (ns : List String) (g : List (Idx × FPt K))
    (h0 : ∀ p ∈ ns.flatMap (ptsOf m), voxelOf res p ≠ .throw) (h : ∃ p ∈ ns.flatMap (ptsOf m), voxelOf res p = .ub) :
    processLayers res m ns g = .ub := by
  induction ns generalizing g with
  | nil => simp at h
  | cons n ns ih =>
    rw [processLayers]
    have h1 : ∀ p ∈ ptsOf m n, voxelOf res p ≠ .throw := fun p hp => h0 p (by
      rw [List.flatMap_cons]; exact List.mem_append_left _ hp)
    have h2 : ∀ p ∈ ns.flatMap (ptsOf m), voxelOf res p ≠ .throw := fun p hp => h0 p (by
      rw [List.flatMap_cons]; exact List.mem_append_right _ hp)
    by_cases hn : ∃ p ∈ ptsOf m n, voxelOf res p = .ub
    · rw [processSingle_ub res _ g h1 hn]; rfl
    · cases hs : processSingle res (ptsOf m n) g with
      | throw => exact absurd hs (processSingle_ok_or_ub res _ g h1)
      | ub => rfl
      | ok g1 =>
        apply ih g1 h2
        obtain ⟨q, hq, hu⟩ := h
        rw [List.flatMap_cons, List.mem_append] at hq
        rcases hq with hq | hq
        · exact absurd ⟨q, hq, hu⟩ hn
        · exact ⟨q, hq, hu⟩

/-! ### the grid of all the points of a voxel -/

theorem keys_pushIdx (k : Idx) (i : Nat) (g : List (Idx × List Nat)) :
    (pushIdx k i g).map (·.1) = if k ∈ g.map (·.1) then g.map (·.1) else g.map (·.1) ++ [k] := by
  induction g with
  | nil => simp [pushIdx]
  | cons a g ih =>
    by_cases h : a.1 = k
    · simp [pushIdx, h]
    · have h' : ¬ k = a.1 := fun hh => h hh.symm
      rw [pushIdx, if_neg h, List.map_cons, ih, List.map_cons]
      by_cases h2 : k ∈ g.map (·.1) <;> simp [h2, h']

theorem mem_pushIdx (k : Idx) (i : Nat) (g : List (Idx × List Nat)) (hnd : (g.map (·.1)).Nodup) (k' : Idx) (l' : List Nat) :
    (k', l') ∈ pushIdx k i g ↔ (k' ≠ k ∧ (k', l') ∈ g) ∨
      (k' = k ∧ ((∃ l, (k, l) ∈ g ∧ l' = l ++ [i]) ∨ (k ∉ g.map (·.1) ∧ l' = [i]))) := by
  induction g with
  | nil => simp [pushIdx]
  | cons a g ih =>
    obtain ⟨ka, la⟩ := a
    rw [List.map_cons, List.nodup_cons] at hnd
    have hno : ∀ l, (ka, l) ∉ g := fun l hl => hnd.1 (List.mem_map.2 ⟨_, hl, rfl⟩)
    by_cases h : ka = k
    · subst h
      rw [pushIdx, if_pos rfl]
      simp only [List.mem_cons, Prod.mk.injEq, List.map_cons, true_or, not_true_eq_false, false_and, or_false, true_and]
      constructor
      · rintro (⟨rfl, rfl⟩ | h)
        · exact Or.inr ⟨rfl, la, Or.inl rfl, rfl⟩
        · refine Or.inl ⟨?_, Or.inr h⟩
          rintro rfl; exact hno _ h
      · rintro (⟨h1, ⟨h2, -⟩ | h2⟩ | ⟨rfl, l, hl, rfl⟩)
        · exact absurd h2 h1
        · exact Or.inr h2
        · rcases hl with rfl | hl
          · exact Or.inl ⟨rfl, rfl⟩
          · exact absurd hl (hno _)
    · have h' : ¬ k = ka := fun hh => h hh.symm
      rw [pushIdx, if_neg h, List.mem_cons, ih hnd.2]
      simp only [List.mem_cons, Prod.mk.injEq, List.map_cons, h', false_and, false_or]
      constructor
      · rintro (⟨rfl, rfl⟩ | ⟨h1, h2⟩ | ⟨h1, h2⟩)
        · exact Or.inl ⟨h, Or.inl ⟨rfl, rfl⟩⟩
        · exact Or.inl ⟨h1, Or.inr h2⟩
        · exact Or.inr ⟨h1, h2⟩
      · rintro (⟨h1, h2 | h2⟩ | ⟨h1, h2⟩)
        · exact Or.inl h2
        · exact Or.inr (Or.inl ⟨h1, h2⟩)
        · exact Or.inr (Or.inr ⟨h1, h2⟩)

/-- invariant of the multi grid after `n` points, `ky i` being the voxel of point `i` -/
def MInv (ky : Nat → Idx) (n : Nat) (g : List (Idx × List Nat)) : Prop :=
  (g.map (·.1)).Nodup ∧ ∀ k l, (k, l) ∈ g ↔ l ≠ [] ∧ l = (List.range n).filter fun i => ky i = k

theorem MInv.nil (ky : Nat → Idx) : MInv ky 0 [] := by
  refine ⟨by simp, fun k l => ?_⟩
  constructor
  · intro h; cases h
  · rintro ⟨h1, h2⟩; exact absurd (by simpa using h2) h1

theorem MInv.push {ky : Nat → Idx} {n : Nat} {g : List (Idx × List Nat)} (h : MInv ky n g) :
    MInv ky (n + 1) (pushIdx (ky n) n g) := by
  refine ⟨?_, fun k l => ?_⟩
  · rw [keys_pushIdx]
    split
    · exact h.1
    · rename_i h1
      rw [List.nodup_append]
      refine ⟨h.1, by simp, ?_⟩
      intro a ha b hb
      simp only [List.mem_singleton] at hb
      rintro rfl
      exact h1 (hb ▸ ha)
  · rw [mem_pushIdx _ _ _ h.1, List.range_succ, List.filter_append]
    by_cases hk : k = ky n
    · subst hk
      simp only [ne_eq, not_true_eq_false, false_and, false_or, true_and, decide_true, List.filter_cons_of_pos,
        List.filter_nil]
      have hkeys : ky n ∉ g.map (·.1) ↔ (List.range n).filter (fun i => ky i = ky n) = [] := by
        constructor
        · intro h1
          by_contra h2
          exact h1 (List.mem_map.2 ⟨_, (h.2 (ky n) _).2 ⟨h2, rfl⟩, rfl⟩)
        · intro h1 h2
          obtain ⟨⟨k', l'⟩, he, hk'⟩ := List.mem_map.1 h2
          simp only [] at hk'
          subst hk'
          exact ((h.2 _ _).1 he).1 (((h.2 _ _).1 he).2.trans h1)
      rw [hkeys]
      constructor
      · rintro (⟨l0, h1, rfl⟩ | ⟨h1, rfl⟩)
        · rw [(h.2 _ _).1 h1 |>.2]; simp
        · rw [h1]; simp
      · rintro ⟨h1, rfl⟩
        by_cases h2 : (List.range n).filter (fun i => ky i = ky n) = []
        · exact Or.inr ⟨h2, by rw [h2]; rfl⟩
        · exact Or.inl ⟨_, (h.2 _ _).2 ⟨h2, rfl⟩, rfl⟩
    · have hk' : ¬ ky n = k := fun hh => hk hh.symm
      simp only [ne_eq, hk, not_false_eq_true, true_and, false_and, or_false, hk', decide_false,
        Bool.false_eq_true, List.filter_cons_of_neg, List.filter_nil, List.append_nil]
      exact h.2 k l

theorem processMulti_by [VoxelIdx K] (key : FPt K → Idx) (res : K) (ky : Nat → Idx) (ps : List (FPt K)) (n : Nat)
    (g : List (Idx × List Nat)) (hg : MInv ky n g) (h : ∀ p ∈ ps, voxelOf res p = .ok (key p))
    (hky : ∀ j (hj : j < ps.length), ky (n + j) = key ps[j]) :
    ∃ g', processMulti res ps n g = .ok g' ∧ MInv ky (n + ps.length) g' := by
  induction ps generalizing n g with
  | nil => exact ⟨g, rfl, by simpa using hg⟩
  | cons p ps ih =>
    have h0 : ky n = key p := hky 0 (by simp)
    obtain ⟨g', h1, h2⟩ := ih (n + 1) _ hg.push (fun q hq => h q (List.mem_cons_of_mem _ hq)) (by
      intro j hj
      have := hky (j + 1) (by simpa using hj)
      rw [show n + 1 + j = n + (j + 1) by omega, this]; rfl)
    refine ⟨g', ?_, by rw [List.length_cons, show n + (ps.length + 1) = n + 1 + ps.length by omega]; exact h2⟩
    rw [processMulti, h p (List.mem_cons_self ..)]
    simp only [Outcome.bind]
    rw [← h0]; exact h1

theorem processMulti_ub_by [VoxelIdx K] (res : K) (ps : List (FPt K)) (n : Nat) (g : List (Idx × List Nat))
    (h0 : ∀ p ∈ ps, voxelOf res p ≠ .throw) (h : ∃ p ∈ ps, voxelOf res p = .ub) : processMulti res ps n g = .ub := by
  induction ps generalizing g n with
  | nil => simp at h
  | cons p ps ih =>
    rw [processMulti]
    cases hp : voxelOf res p with
    | throw => exact absurd hp (h0 p (List.mem_cons_self ..))
    | ub => rfl
    | ok k =>
      apply ih _ _ (fun q hq => h0 q (List.mem_cons_of_mem _ hq))
      obtain ⟨q, hq, h1⟩ := h
      rcases List.mem_cons.1 hq with rfl | hq
      · rw [hp] at h1; cases h1
      · exact ⟨q, hq, h1⟩

section
variable [Field K] [LinearOrder K] [FloorRing K]

theorem voxelOf_ne_throw (res : K) (p : FPt K) : voxelOf res p ≠ .throw := by
  by_cases h : InRange res p
  · rw [voxelOf_ok _ _ h]; simp
  · rw [voxelOf_ub _ _ h]; simp

theorem processMulti_ok (res : K) (ky : Nat → Idx) (ps : List (FPt K)) (n : Nat) (g : List (Idx × List Nat))
    (hg : MInv ky n g) (h : ∀ p ∈ ps, InRange res p) (hky : ∀ j (hj : j < ps.length), ky (n + j) = voxelKey res ps[j]) :
    ∃ g', processMulti res ps n g = .ok g' ∧ MInv ky (n + ps.length) g' :=
  processMulti_by (voxelKey res) res ky ps n g hg (fun p hp => voxelOf_ok _ _ (h p hp)) hky

theorem processMulti_ub (res : K) (ps : List (FPt K)) (n : Nat) (g : List (Idx × List Nat))
    (h : ¬ ∀ p ∈ ps, InRange res p) : processMulti res ps n g = .ub := by
  push_neg at h
  obtain ⟨p, hp, h⟩ := h
  exact processMulti_ub_by res ps n g (fun q _ => voxelOf_ne_throw res q) ⟨p, hp, voxelOf_ub _ _ h⟩
end

/-- the voxel of the `i`-th point -/
def keyAt (key : FPt K → Idx) (pts : List (FPt K)) (i : Nat) : Idx :=
  match pts[i]? with
  | some p => key p
  | none => (0, 0, 0)

theorem pointsAt_filter (key : FPt K → Idx) (k : Idx) (ps done : List (FPt K)) :
    pointsAt (done ++ ps) ((List.range' done.length ps.length).filter fun i => keyAt key (done ++ ps) i = k) =
      .ok (pointsIn key ps k) := by
  induction ps generalizing done with
  | nil => simp [pointsAt, pointsIn]
  | cons p ps ih =>
    have h := ih (done ++ [p])
    simp only [List.append_assoc, List.singleton_append, List.length_append, List.length_singleton] at h
    have hk : keyAt key (done ++ p :: ps) done.length = key p := by
      simp [keyAt]
    rw [List.length_cons, List.range'_succ]
    by_cases hp : key p = k
    · rw [List.filter_cons_of_pos (by simp [hk, hp]), pointsAt]
      have : (done ++ p :: ps)[done.length]? = some p := by simp
      rw [this]
      simp only []
      rw [h]
      simp [pointsIn, hp]
    · rw [List.filter_cons_of_neg (by simp [hk, hp]), h]
      simp [pointsIn, hp]

theorem pointsAt_voxel (key : FPt K → Idx) (k : Idx) (pts : List (FPt K)) :
    pointsAt pts ((List.range pts.length).filter fun i => keyAt key pts i = k) = .ok (pointsIn key pts k) := by
  have := pointsAt_filter key k pts []
  simpa [List.range_eq_range'] using this

theorem pointsAt_map (pts : List (FPt K)) (l : List Nat) (h : ∀ i ∈ l, i < pts.length) :
    ∃ ps, pointsAt pts l = .ok ps ∧ List.Forall₂ (fun i p => pts[i]? = some p) l ps := by
  induction l with
  | nil => exact ⟨[], rfl, List.Forall₂.nil⟩
  | cons i l ih =>
    obtain ⟨ps, h1, h2⟩ := ih (fun j hj => h j (List.mem_cons_of_mem _ hj))
    have hi := h i (List.mem_cons_self ..)
    refine ⟨pts[i] :: ps, ?_, List.Forall₂.cons (List.getElem?_eq_getElem hi) h2⟩
    rw [pointsAt, List.getElem?_eq_getElem hi, h1]; rfl

end Vox
end Verif
