import Mathlib.Data.List.Perm.Basic
import Verif.Lemmas.Decimate
import Verif.Lemmas.FilterBasic
import Verif.Lemmas.EdgeGen
import Verif.Spec.Poles
set_option linter.unusedSectionVars false
namespace Verif
namespace Pole
open Flt Vox Edge
variable {K X : Type} [Field K] [LinearOrder K] [FloorRing K]

/-- the point on the ground -/
def ground (q : FPt K) : FPt K := { q with z := 0 }

theorem truncZ_zero [IsStrictOrderedRing K] (res : K) : truncZ (0 / res) = 0 := by
  simp [truncZ]

theorem cellOf_eq [IsStrictOrderedRing K] (res : K) (q : FPt K) : cellOf res q = voxelOf res (ground q) := by
  simp only [cellOf, voxelOf, ground, VoxelIdx.idx]
  have h : coord2idx res (0 : K) = if res = 0 then .ub else .ok 0 := by
    unfold coord2idx
    rw [truncZ_zero]
    split <;> simp
  simp only [h]
  by_cases hr : res = 0
  · subst hr
    simp [coord2idx]
  · rw [if_neg hr]
    rfl

theorem cellGrid_eq [IsStrictOrderedRing K] (res : K) (ps : List (FPt K)) (n : Nat) (g : List (Idx × List Nat)) :
    cellGrid res ps n g = processMulti res (ps.map ground) n g := by
  induction ps generalizing n g with
  | nil => rfl
  | cons p ps ih =>
    rw [cellGrid, List.map_cons, processMulti, cellOf_eq]
    simp only [ih]

theorem pointsAt_gen (P : FPt K → Bool) (Q : Nat → Bool) (ps done : List (FPt K))
    (h : ∀ i q, (done ++ ps)[i]? = some q → Q i = P q) :
    pointsAt (done ++ ps) ((List.range' done.length ps.length).filter Q) = .ok (ps.filter P) := by
  induction ps generalizing done with
  | nil => simp [pointsAt]
  | cons p ps ih =>
    have hd : done ++ p :: ps = (done ++ [p]) ++ ps := by simp
    have hp : (done ++ p :: ps)[done.length]? = some p := by simp
    have ih' := ih (done ++ [p]) (by rw [← hd]; exact h)
    rw [← hd, List.length_append] at ih'
    rw [List.length_cons, List.range'_succ]
    have hq := h done.length p hp
    by_cases hP : P p = true
    · rw [List.filter_cons_of_pos (by rw [hq]; exact hP), List.filter_cons_of_pos hP, pointsAt, hp]
      simp only []
      rw [show done.length + 1 = done.length + [p].length by rfl, ih', okb]
    · rw [List.filter_cons_of_neg (by rw [hq]; exact hP), List.filter_cons_of_neg hP]
      exact ih'

/-- the third coordinate of a cell in the grid is 0 -/
def key3 (c : ℤ × ℤ) : Idx := (c.1, c.2, 0)
/-- the cell of a key -/
def key2 (k : Idx) : ℤ × ℤ := (k.1, k.2.1)

/-- the grid holds exactly the occupied cells, each with the indices of its points -/
structure GridOf (res : K) (pts : List (FPt K)) (g : List (Idx × List Nat)) : Prop where
  nodup : (g.map (·.1)).Nodup
  ground : ∀ e ∈ g, e.1 = key3 (key2 e.1)
  points : ∀ e ∈ g, pointsAt pts e.2 = .ok (inCell res pts (key2 e.1))
  count : ∀ e ∈ g, e.2.length = (inCell res pts (key2 e.1)).length
  occupied : ∀ e ∈ g, inCell res pts (key2 e.1) ≠ []
  all : ∀ c, inCell res pts c ≠ [] → ∃ l, (key3 c, l) ∈ g

theorem pointsAt_length (pts : List (FPt K)) (l : List Nat) (r : List (FPt K)) (h : pointsAt pts l = .ok r) :
    r.length = l.length := by
  induction l generalizing r with
  | nil => simp only [pointsAt, Outcome.ok.injEq] at h; subst h; rfl
  | cons i l ih =>
    rw [pointsAt] at h
    cases hi : pts[i]? with
    | none => rw [hi] at h; cases h
    | some p =>
      rw [hi] at h
      simp only [Outcome.bind_eq_ok, Outcome.ok.injEq] at h
      obtain ⟨r', h1, rfl⟩ := h
      simp [ih r' h1]

theorem cellGrid_ok [IsStrictOrderedRing K] (res : K) (pts : List (FPt K)) (hr : res ≠ 0)
    (h : ∀ q ∈ pts, Fits (truncZ (q.x / res)) ∧ Fits (truncZ (q.y / res))) :
    ∃ g, cellGrid res pts 0 [] = .ok g ∧ GridOf res pts g := by
  have hin : ∀ q ∈ pts.map ground, InRange res q := by
    intro q hq
    obtain ⟨a, ha, rfl⟩ := List.mem_map.1 hq
    refine ⟨hr, (h a ha).1, (h a ha).2, ?_⟩
    show Fits (truncZ ((0 : K) / res))
    rw [truncZ_zero]; constructor <;> norm_num
  obtain ⟨g, h1, h2⟩ := processMulti_ok res (keyAt (voxelKey res) (pts.map ground)) (pts.map ground) 0 [] (MInv.nil _) hin (by
    intro j hj
    simp only [keyAt, Nat.zero_add, List.getElem?_eq_getElem hj])
  refine ⟨g, by rw [cellGrid_eq]; exact h1, ?_⟩
  have hkey : ∀ i (hi : i < pts.length), keyAt (voxelKey res) (pts.map ground) i = key3 (cellKey res pts[i]) := by
    intro i hi
    simp only [keyAt, List.getElem?_map, List.getElem?_eq_getElem hi, Option.map_some]
    show (truncZ (pts[i].x / res), truncZ (pts[i].y / res), truncZ ((0 : K) / res)) = _
    rw [truncZ_zero]; rfl
  rw [Nat.zero_add, List.length_map] at h2
  have hpts : ∀ c, pointsAt pts ((List.range pts.length).filter fun i => keyAt (voxelKey res) (pts.map ground) i = key3 c) =
      .ok (inCell res pts c) := by
    intro c
    have := pointsAt_gen (fun q => decide (cellKey res q = c)) (fun i => decide (keyAt (voxelKey res) (pts.map ground) i = key3 c)) pts []
      (by
        intro i q hq
        rw [List.nil_append] at hq
        obtain ⟨hi, rfl⟩ := List.getElem?_eq_some_iff.1 hq
        rw [hkey i hi]
        congr 1
        rw [eq_iff_iff]
        constructor
        · intro hh
          simp only [key3, Prod.mk.injEq] at hh
          exact Prod.ext hh.1 hh.2.1
        · rintro rfl; rfl)
    rw [List.nil_append, List.length_nil, ← List.range_eq_range'] at this
    exact this
  have hg0 : ∀ e ∈ g, e.1 = key3 (key2 e.1) ∧ e.2 = (List.range pts.length).filter fun i =>
      keyAt (voxelKey res) (pts.map ground) i = key3 (key2 e.1) := by
    rintro ⟨k, l⟩ he
    obtain ⟨h3, h4⟩ := (h2.2 k l).1 he
    have hk : k = key3 (key2 k) := by
      obtain ⟨i, hi⟩ := List.exists_mem_of_ne_nil l h3
      rw [h4, List.mem_filter, List.mem_range, decide_eq_true_iff] at hi
      rw [← hi.2, hkey i hi.1]; rfl
    refine ⟨hk, ?_⟩
    simp only []
    rw [← hk]; exact h4
  refine ⟨h2.1, fun e he => (hg0 e he).1, fun e he => ?_, fun e he => ?_, fun e he => ?_, fun c hc => ?_⟩
  · rw [(hg0 e he).2]; exact hpts _
  · rw [pointsAt_length pts e.2 (inCell res pts (key2 e.1))]
    rw [(hg0 e he).2]; exact hpts _
  · intro hnil
    have := pointsAt_length pts e.2 (inCell res pts (key2 e.1)) (by rw [(hg0 e he).2]; exact hpts _)
    rw [hnil] at this
    exact ((h2.2 e.1 e.2).1 he).1 (List.length_eq_zero_iff.1 this.symm)
  · refine ⟨_, (h2.2 (key3 c) _).2 ⟨fun hnil => hc ?_, rfl⟩⟩
    have := hpts c
    rw [hnil] at this
    simp only [pointsAt, Outcome.ok.injEq] at this
    exact this.symm

theorem cellMean_ok (res : K) (pts : List (FPt K)) (g : List (Idx × List Nat)) (h : GridOf res pts g) (e : Idx × List Nat)
    (he : e ∈ g) : cellMean pts e.2 = .ok (meanHeight res pts (key2 e.1)) := by
  unfold cellMean
  rw [h.points e he, okb]
  have : e.2.isEmpty = false := by
    rw [List.isEmpty_eq_false_iff]
    intro hn
    have := h.count e he
    rw [hn] at this
    exact h.occupied e he (List.length_eq_zero_iff.1 this.symm)
  rw [this, h.count e he]
  unfold meanHeight
  rw [List.sum_eq_foldl]
  simp

theorem addIdx_ok (c : ℤ × ℤ) (o : ℤ × ℤ) (h1 : Fits (c.1 + o.1)) (h2 : Fits (c.2 + o.2)) :
    addIdx (key3 c) o = .ok (key3 (c.1 + o.1, c.2 + o.2)) := if_pos ⟨h1, h2⟩

/-- the eight neighbours -/
theorem neighbours_ok (c : ℤ × ℤ) (h1 : Fits (c.1 - 1)) (h2 : Fits (c.1 + 1)) (h3 : Fits (c.2 - 1)) (h4 : Fits (c.2 + 1)) :
    foldOutcome (fun acc o => (addIdx (key3 c) o).bind fun k => .ok (acc ++ [k])) [] offsets =
      .ok ((around c).map key3) := by
  have f1 : Fits (c.1 + -1) := h1
  have f2 : Fits (c.1 + 0) := by unfold Fits at *; omega
  have f3 : Fits (c.2 + -1) := h3
  have f4 : Fits (c.2 + 0) := by unfold Fits at *; omega
  simp only [offsets, foldOutcome]
  rw [addIdx_ok c _ f1 f3, okb, okb, addIdx_ok c _ f1 f4, okb, okb, addIdx_ok c _ f1 h4, okb, okb, addIdx_ok c _ f2 f3, okb, okb,
    addIdx_ok c _ f2 h4, okb, okb, addIdx_ok c _ h2 f3, okb, okb, addIdx_ok c _ h2 f4, okb, okb, addIdx_ok c _ h2 h4, okb, okb]
  simp [around, key3, sub_eq_add_neg]

theorem find_key (g : List (Idx × List Nat)) (res : K) (pts : List (FPt K)) (h : GridOf res pts g) (d : ℤ × ℤ) :
    (inCell res pts d = [] ∧ g.find? (fun e => e.1 = key3 d) = none) ∨
      (inCell res pts d ≠ [] ∧ ∃ e ∈ g, e.1 = key3 d ∧ g.find? (fun e => e.1 = key3 d) = some e) := by
  cases hf : g.find? (fun e => e.1 = key3 d) with
  | none =>
    left
    refine ⟨?_, rfl⟩
    by_contra hne
    obtain ⟨l, hl⟩ := h.all d hne
    have := List.find?_eq_none.1 hf _ hl
    simp at this
  | some e =>
    right
    have he := List.mem_of_find?_eq_some hf
    have hk : e.1 = key3 d := by simpa using List.find?_some hf
    refine ⟨?_, e, he, hk, rfl⟩
    have := h.occupied e he
    rw [hk] at this
    exact this

theorem count_ok (p : PoleParams K) (pts : List (FPt K)) (g : List (Idx × List Nat)) (h : GridOf p.grid pts g) (c : ℤ × ℤ)
    (ds : List (ℤ × ℤ)) (n : Nat) :
    foldOutcome (checkNeighbour p pts g (meanHeight p.grid pts c)) n (ds.map key3) =
      .ok (n + (ds.filter fun d => StandsOut p pts c d).length) := by
  induction ds generalizing n with
  | nil => rfl
  | cons d ds ih =>
    rw [List.map_cons, foldOutcome]
    have : checkNeighbour p pts g (meanHeight p.grid pts c) n (key3 d) = .ok (if StandsOut p pts c d then n + 1 else n) := by
      unfold checkNeighbour
      rcases find_key g p.grid pts h d with ⟨h1, h2⟩ | ⟨h1, e, he, hk, h2⟩
      · rw [h2]
        simp [StandsOut, h1]
      · rw [h2]
        simp only []
        rw [cellMean_ok p.grid pts g h e he, okb, hk]
        have : key2 (key3 d) = d := rfl
        rw [this]
        congr 1
        simp [StandsOut, h1]
    rw [this, okb, ih]
    by_cases hs : StandsOut p pts c d
    · rw [if_pos hs, List.filter_cons_of_pos (by simpa using hs), List.length_cons]
      congr 1; omega
    · rw [if_neg hs, List.filter_cons_of_neg (by simpa using hs)]

theorem foldl_congr_target (t : FPt K → String) (s : String) (l : List (FPt K)) (m : FMap K X) (h : ∀ q ∈ l, t q = s) :
    l.foldl (fun m q => insertInto m s q) m = l.foldl (fun m q => insertInto m (t q) q) m := by
  induction l generalizing m with
  | nil => rfl
  | cons q l ih =>
    rw [List.foldl_cons, List.foldl_cons, h q (List.mem_cons_self ..)]
    exact ih _ fun a ha => h a (List.mem_cons_of_mem _ ha)

theorem foldl_nowhere (t : FPt K → String) (l : List (FPt K)) (m : FMap K X) (h : ∀ q ∈ l, t q = "") :
    l.foldl (fun m q => insertInto m (t q) q) m = m := by
  induction l generalizing m with
  | nil => rfl
  | cons q l ih =>
    rw [List.foldl_cons, h q (List.mem_cons_self ..)]
    have : insertInto m "" q = m := by simp [insertInto]
    rw [this]
    exact ih _ fun a ha => h a (List.mem_cons_of_mem _ ha)

/-- the neighbours of the cell fit 32 bits -/
def CellInside (c : ℤ × ℤ) : Prop := Fits (c.1 - 1) ∧ Fits (c.1 + 1) ∧ Fits (c.2 - 1) ∧ Fits (c.2 + 1)

theorem visitCell_ok (p : PoleParams K) (pts : List (FPt K)) (g : List (Idx × List Nat)) (h : GridOf p.grid pts g)
    (e : Idx × List Nat) (he : e ∈ g) (hin : CellInside (key2 e.1)) (m : FMap K X) :
    visitCell p pts g m e =
      .ok ((inCell p.grid pts (key2 e.1)).foldl (fun m q => insertInto m (poleTarget p pts q) q) m) := by
  have hcell : ∀ q ∈ inCell p.grid pts (key2 e.1), cellKey p.grid q = key2 e.1 := by
    intro q hq
    simpa [inCell] using (List.mem_filter.1 hq).2
  unfold visitCell
  rw [h.ground e he, neighbours_ok _ hin.1 hin.2.1 hin.2.2.1 hin.2.2.2, okb, h.count e he]
  have hk : key2 (key3 (key2 e.1)) = key2 e.1 := rfl
  rw [hk]
  split
  · rename_i hlt
    rw [foldl_nowhere]
    intro q hq
    unfold poleTarget
    rw [hcell q hq, if_pos (by unfold Populated; omega)]
  · rename_i hge
    rw [cellMean_ok p.grid pts g h e he, okb, count_ok p pts g h, okb, h.points e he, okb, Nat.zero_add]
    rw [foldl_congr_target (poleTarget p pts)]
    intro q hq
    unfold poleTarget
    rw [hcell q hq, if_neg (by unfold Populated; omega)]
    rfl

theorem visitAll_ok (p : PoleParams K) (pts : List (FPt K)) (g : List (Idx × List Nat)) (h : GridOf p.grid pts g)
    (es : List (Idx × List Nat)) (hes : ∀ e ∈ es, e ∈ g) (hin : ∀ e ∈ es, CellInside (key2 e.1)) (m : FMap K X) :
    foldOutcome (visitCell p pts g) m es =
      .ok (((es.map fun e => key2 e.1).flatMap (inCell p.grid pts)).foldl (fun m q => insertInto m (poleTarget p pts q) q) m) := by
  induction es generalizing m with
  | nil => rfl
  | cons e es ih =>
    rw [foldOutcome, visitCell_ok p pts g h e (hes e (List.mem_cons_self ..)) (hin e (List.mem_cons_self ..)), okb,
      ih (fun a ha => hes a (List.mem_cons_of_mem _ ha)) (fun a ha => hin a (List.mem_cons_of_mem _ ha))]
    simp [List.foldl_append]

theorem visitCell_edge (p : PoleParams K) (pts : List (FPt K)) (g : List (Idx × List Nat)) (h : GridOf p.grid pts g)
    (e : Idx × List Nat) (he : e ∈ g) (hin : ¬ CellInside (key2 e.1)) (m : FMap K X) : visitCell p pts g m e = .ub := by
  unfold visitCell
  have hadd : ∀ o, ¬ (Fits ((key2 e.1).1 + o.1) ∧ Fits ((key2 e.1).2 + o.2)) → addIdx e.1 o = .ub := by
    intro o ho
    unfold addIdx
    rw [if_neg]
    intro hh
    exact ho ⟨hh.1, hh.2⟩
  have hcorner : (¬ (Fits ((key2 e.1).1 + -1) ∧ Fits ((key2 e.1).2 + -1))) ∨ (¬ (Fits ((key2 e.1).1 + 1) ∧ Fits ((key2 e.1).2 + 1))) := by
    by_contra hh
    push Not at hh
    exact hin ⟨hh.1.1, hh.2.1, hh.1.2, hh.2.2⟩
  obtain ⟨o, ho, hub⟩ : ∃ o ∈ offsets, addIdx e.1 o = .ub := by
    rcases hcorner with hc | hc
    · exact ⟨(-1, -1), by simp [offsets], hadd (-1, -1) hc⟩
    · exact ⟨(1, 1), by simp [offsets], hadd (1, 1) hc⟩
  rw [fold_ub _ _ ?_ o ho (fun s => by rw [hub, ubb]), ubb]
  intro s o _
  unfold addIdx
  split
  · rw [okb]; simp
  · rw [ubb]; simp

end Pole
end Verif
