import Mathlib.Algebra.Order.Ring.Rat
import Mathlib.Data.Rat.Floor
import Mathlib.Tactic.Ring
import Mathlib.Tactic.Linarith
import Mathlib.Tactic.FieldSimp
import Verif.Lemmas.Poles
/-
C74: FilterPoleDetector.
-/
set_option linter.unusedSectionVars false
namespace Verif
namespace Props
open Flt Vox Edge Pole
variable {K X : Type} [Field K] [LinearOrder K] [FloorRing K] [IsStrictOrderedRing K]

/-- some order of the entries of a hash map -/
def AnyOrder (visit : List (Idx × List Nat) → List (Idx × List Nat)) : Prop := ∀ g, (visit g).Perm g

/-- **C74 (result).** For every cloud whose cells and neighbour cells have 32-bit indices, and for every order in which the hash
map is gone through: the points are taken cell by cell; each one of a cell with at least `minimum_pole_points` points is appended
to the layer of poles if its cell is a pole and to the other layer if it is not (nowhere, if that layer has no name); all other
layers are as before.
Part of C74: points of sparse cells go nowhere (`poles_sparse_dropped`) and far points are undefined behaviour (`poles_far_ub`). -/
theorem poles_result_partial (p : PoleParams K) (visit : List (Idx × List Nat) → List (Idx × List Nat)) (hv : AnyOrder visit)
    (m : FMap K X) (c : Cloud K) (hc : m.get p.inp = some (.pts c)) (ho : Openable [p.poles, p.noPoles] m)
    (hin : ∀ q ∈ c.pts, Inside p.grid q) (hr : p.grid ≠ 0) :
    ∃ m' P, filterPoles p visit m = .ok m' ∧ CellByCell p.grid c.pts P ∧
      ∀ k, if k ∈ [p.poles, p.noPoles] ∧ k ≠ "" then
          ∃ c0, (m.get k = some (.pts c0) ∨ (m.get k = none ∧ c0 = { c with pts := [] })) ∧
            m'.get k = some (.pts { c0 with pts := c0.pts ++
              ((P.filter fun q => poleTarget p c.pts q = k).map (conform c0)) })
        else m'.get k = m.get k := by
  obtain ⟨m1, h1, h2⟩ := openOutputs_ok (emptyLike c) [p.poles, p.noPoles] m ho
  obtain ⟨g, h3, h4⟩ := cellGrid_ok p.grid c.pts hr (fun q hq => by
    obtain ⟨-, a, b, d, e⟩ := hin q hq
    unfold Fits at *; omega)
  have hes : ∀ e ∈ visit g, e ∈ g := fun e he => (hv g).mem_iff.1 he
  have hci : ∀ e ∈ visit g, CellInside (key2 e.1) := by
    intro e he
    obtain ⟨q, hq⟩ := List.exists_mem_of_ne_nil _ (h4.occupied e (hes e he))
    have hq' := List.mem_filter.1 hq
    have hk : cellKey p.grid q = key2 e.1 := by simpa using hq'.2
    rw [← hk]
    obtain ⟨-, a, b, d, e⟩ := hin q hq'.1
    exact ⟨a, b, d, e⟩
  have key : filterPoles p visit m = .ok ((((visit g).map fun e => key2 e.1).flatMap (inCell p.grid c.pts)).foldl
      (fun m q => insertInto m (poleTarget p c.pts q) q) m1) := by
    unfold filterPoles
    have : pointLayer m p.inp = .ok c := by simp [pointLayer, hc]
    rw [this, okb, h1, okb, h3, okb, visitAll_ok p c.pts g h4 _ hes hci]
  refine ⟨_, _, key, ⟨(visit g).map fun e => key2 e.1, ?_, ?_, rfl⟩, ?_⟩
  · have hn : ((visit g).map fun e => e.1).Nodup := ((hv g).map _).nodup_iff.2 h4.nodup
    have hmap : ((visit g).map fun e => e.1) = ((visit g).map fun e => key2 e.1).map key3 := by
      rw [List.map_map]
      exact List.map_congr_left fun e he => h4.ground e (hes e he)
    rw [hmap] at hn
    exact List.Nodup.of_map _ hn
  · intro d
    constructor
    · intro hd
      obtain ⟨e, he, rfl⟩ := List.mem_map.1 hd
      obtain ⟨q, hq⟩ := List.exists_mem_of_ne_nil _ (h4.occupied e (hes e he))
      have hq' := List.mem_filter.1 hq
      exact ⟨q, hq'.1, by simpa using hq'.2⟩
    · rintro ⟨q, hq, rfl⟩
      obtain ⟨l, hl⟩ := h4.all (cellKey p.grid q) (List.ne_nil_of_mem (List.mem_filter.2 ⟨hq, by simp⟩))
      exact List.mem_map.2 ⟨_, (hv g).mem_iff.2 hl, rfl⟩
  · have hpart := partitioned_of { c with pts := ((visit g).map fun e => key2 e.1).flatMap (inCell p.grid c.pts) }
      [p.poles, p.noPoles, ""] (poleTarget p c.pts) m m1 (by
        intro n hn h0 x
        simp only [List.mem_cons, List.not_mem_nil, or_false] at hn
        rcases hn with rfl | rfl | rfl
        · exact ho _ (by simp) h0 x
        · exact ho _ (by simp) h0 x
        · exact absurd rfl h0) (by
        intro q _
        unfold poleTarget
        split
        · simp
        · split <;> simp) (by
        intro k
        rw [h2 k]
        by_cases hk : k = ""
        · simp [hk]
        · simp [hk, emptyLike])
    intro k
    have := hpart k
    by_cases hk : k ∈ [p.poles, p.noPoles] ∧ k ≠ ""
    · rw [if_pos hk]
      rw [if_pos ⟨by simp only [List.mem_cons] at hk ⊢; tauto, hk.2⟩] at this
      exact this
    · rw [if_neg hk]
      rw [if_neg (by simp only [List.mem_cons, List.not_mem_nil, or_false] at hk ⊢; tauto)] at this
      exact this

/-- **C74 (nothing is invented or doubled).** The points gone through cell by cell are a rearrangement of the cloud. -/
theorem poles_cell_by_cell_perm (res : K) (pts P : List (FPt K)) (h : CellByCell res pts P) : P.Perm pts := by
  obtain ⟨cs, h1, h2, rfl⟩ := h
  rw [List.perm_iff_count]
  intro a
  rw [List.count_flatMap]
  have hcount : ∀ c, List.count a (inCell res pts c) = if cellKey res a = c then List.count a pts else 0 := by
    intro c
    unfold inCell
    by_cases hc : cellKey res a = c
    · rw [if_pos hc, List.count_filter (by simpa using hc)]
    · rw [if_neg hc, List.count_eq_zero]
      intro hm
      exact hc (by simpa using (List.mem_filter.1 hm).2)
  have hmap : (cs.map fun c => List.count a (inCell res pts c)) = cs.map fun c => if cellKey res a = c then List.count a pts else 0 :=
    List.map_congr_left fun c _ => hcount c
  rw [show List.map (List.count a ∘ inCell res pts) cs = cs.map fun c => List.count a (inCell res pts c) from rfl, hmap]
  have hsum : ∀ (l : List (ℤ × ℤ)) (n : Nat), l.Nodup →
      (l.map fun c => if cellKey res a = c then n else 0).sum = if cellKey res a ∈ l then n else 0 := by
    intro l n hl
    induction l with
    | nil => simp
    | cons d l ih =>
      rw [List.nodup_cons] at hl
      rw [List.map_cons, List.sum_cons, ih hl.2]
      by_cases hd : cellKey res a = d
      · subst hd; simp [hl.1]
      · simp [hd]
  rw [hsum cs _ h1]
  split
  · rfl
  · rename_i hno
    symm
    rw [List.count_eq_zero]
    intro hm
    exact hno ((h2 _).2 ⟨a, hm, rfl⟩)

/-- **C74 (undefined behaviour).** If a point's cell or a neighbour of it has no 32-bit index, or the grid size is zero, the
behaviour is undefined. -/
theorem poles_far_ub (p : PoleParams K) (visit : List (Idx × List Nat) → List (Idx × List Nat)) (hv : AnyOrder visit)
    (m : FMap K X) (c : Cloud K) (hc : m.get p.inp = some (.pts c)) (ho : Openable [p.poles, p.noPoles] m)
    (hin : ∃ q ∈ c.pts, ¬ Inside p.grid q) : filterPoles p visit m = .ub := by
  obtain ⟨m1, h1, -⟩ := openOutputs_ok (emptyLike c) [p.poles, p.noPoles] m ho
  unfold filterPoles
  have : pointLayer m p.inp = .ok c := by simp [pointLayer, hc]
  rw [this, okb, h1, okb]
  obtain ⟨q, hq, hout⟩ := hin
  by_cases hfit : p.grid ≠ 0 ∧ ∀ q ∈ c.pts, Fits (truncZ (q.x / p.grid)) ∧ Fits (truncZ (q.y / p.grid))
  · obtain ⟨g, h3, h4⟩ := cellGrid_ok p.grid c.pts hfit.1 hfit.2
    rw [h3, okb]
    obtain ⟨l, hl⟩ := h4.all (cellKey p.grid q) (List.ne_nil_of_mem (List.mem_filter.2 ⟨hq, by simp⟩))
    have hbad : ¬ CellInside (cellKey p.grid q) := by
      intro hh
      exact hout ⟨hfit.1, hh.1, hh.2.1, hh.2.2.1, hh.2.2.2⟩
    refine fold_ub _ _ (fun s e he => ?_) _ ((hv g).mem_iff.2 hl) (fun s => visitCell_edge p c.pts g h4 _ hl hbad s) m1
    have he' := (hv g).mem_iff.1 he
    by_cases hce : CellInside (key2 e.1)
    · rw [visitCell_ok p c.pts g h4 e he' hce]; simp
    · rw [visitCell_edge p c.pts g h4 e he' hce]; simp
  · rw [cellGrid_eq, processMulti_ub]
    · rfl
    · intro hall
      apply hfit
      have hr := hall (ground q) (List.mem_map.2 ⟨q, hq, rfl⟩)
      refine ⟨hr.1, fun a ha => ?_⟩
      have := hall (ground a) (List.mem_map.2 ⟨a, ha, rfl⟩)
      exact ⟨this.2.1, this.2.2.1⟩

/-- A missing input, or an output that is no point cloud, is refused. -/
theorem poles_refuses (p : PoleParams K) (visit : List (Idx × List Nat) → List (Idx × List Nat)) (m : FMap K X) :
    (m.get p.inp = none → filterPoles p visit m = .throw) ∧
    (∀ c, m.get p.inp = some (.pts c) → ¬ Openable [p.poles, p.noPoles] m → filterPoles p visit m = .throw) := by
  constructor
  · intro h
    unfold filterPoles
    have : pointLayer m p.inp = .throw := by simp [pointLayer, h]
    rw [this]; rfl
  · intro c h ho
    unfold filterPoles
    have : pointLayer m p.inp = .ok c := by simp [pointLayer, h]
    rw [this, okb, openOutputs_not _ _ _ ho]; rfl

/-- **C74 (finding).** The points of cells with fewer than `minimum_pole_points` points are in neither output. -/
theorem poles_sparse_dropped (p : PoleParams K) (pts : List (FPt K)) (q : FPt K)
    (h : (inCell p.grid pts (cellKey p.grid q)).length < p.minPts) : poleTarget p pts q = "" := by
  unfold poleTarget Populated
  rw [if_pos (by omega)]

/-- **C74 (finding).** A pole with fewer occupied neighbour cells than `minimum_neighbors_checks_to_pass` is not found, however
high it is. -/
theorem poles_lonely_missed (p : PoleParams K) (pts : List (FPt K)) (c : ℤ × ℤ)
    (h : ((around c).filter fun d => inCell p.grid pts d ≠ []).length < p.minChecks) : ¬ IsPole p pts c := by
  unfold IsPole
  rw [Nat.not_le]
  refine lt_of_le_of_lt ?_ h
  refine List.Sublist.length_le (List.monotone_filter_right _ ?_)
  intro d hd
  simp only [decide_eq_true_eq] at hd ⊢
  exact hd.1

/-- **C74 (heights are relative).** Lifting the whole cloud changes no classification. -/
theorem poles_lift_invariant (p : PoleParams K) (pts : List (FPt K)) (dz : K) (c : ℤ × ℤ)
    (hocc : inCell p.grid pts c ≠ []) : (IsPole p (pts.map fun q => { q with z := q.z + dz }) c ↔ IsPole p pts c) := by
  have hcell : ∀ d, inCell p.grid (pts.map fun q => { q with z := q.z + dz }) d =
      (inCell p.grid pts d).map fun q => { q with z := q.z + dz } := by
    intro d
    unfold inCell
    rw [List.filter_map]
    rfl
  have hmean : ∀ d, inCell p.grid pts d ≠ [] → meanHeight p.grid (pts.map fun q => { q with z := q.z + dz }) d =
      meanHeight p.grid pts d + dz := by
    intro d hd
    unfold meanHeight
    rw [hcell d, List.length_map, List.map_map]
    have hl : ((inCell p.grid pts d).length : K) ≠ 0 := by
      have := List.length_pos_iff.2 hd
      exact_mod_cast this.ne'
    have hs : ∀ l : List (FPt K), (l.map ((fun q : FPt K => q.z) ∘ fun q => { q with z := q.z + dz })).sum =
        (l.map (·.z)).sum + l.length * dz := by
      intro l
      induction l with
      | nil => simp
      | cons a l ih =>
        rw [List.map_cons, List.sum_cons, ih, List.map_cons, List.sum_cons, List.length_cons]
        simp only [Function.comp]
        push_cast; ring
    rw [hs]
    field_simp
  have hso : ∀ d, inCell p.grid pts c ≠ [] →
      (StandsOut p (pts.map fun q => { q with z := q.z + dz }) c d ↔ StandsOut p pts c d) := by
    intro d hc
    unfold StandsOut
    rw [hcell d]
    by_cases hd : inCell p.grid pts d = []
    · simp [hd]
    · rw [hmean d hd, hmean c hc]
      have : (inCell p.grid pts d).map (fun q => { q with z := q.z + dz }) ≠ [] := by simpa using hd
      simp only [this, hd, ne_eq, not_false_eq_true, true_and]
      constructor
      · rintro ⟨a, b⟩; constructor <;> linarith
      · rintro ⟨a, b⟩; constructor <;> linarith
  unfold IsPole
  rw [List.filter_congr (q := fun d => decide (StandsOut p pts c d))]
  intro d _
  rw [decide_eq_decide]
  exact hso d hocc

/-- **C74 (the order of the hash map does not matter).** Whatever two orders of visit: every layer has the same points up to their
order. -/
theorem poles_order_irrelevant (p : PoleParams K) (v1 v2 : List (Idx × List Nat) → List (Idx × List Nat)) (h1 : AnyOrder v1)
    (h2 : AnyOrder v2) (m : FMap K X) (c : Cloud K) (hc : m.get p.inp = some (.pts c)) (ho : Openable [p.poles, p.noPoles] m)
    (hin : ∀ q ∈ c.pts, Inside p.grid q) (hr : p.grid ≠ 0) :
    ∃ m1 m2, filterPoles p v1 m = .ok m1 ∧ filterPoles p v2 m = .ok m2 ∧
      ∀ k, m1.get k = m2.get k ∨ ∃ c1 c2, m1.get k = some (.pts c1) ∧ m2.get k = some (.pts c2) ∧ c1.pts.Perm c2.pts := by
  obtain ⟨m1, P1, e1, q1, r1⟩ := poles_result_partial p v1 h1 m c hc ho hin hr
  obtain ⟨m2, P2, e2, q2, r2⟩ := poles_result_partial p v2 h2 m c hc ho hin hr
  refine ⟨m1, m2, e1, e2, fun k => ?_⟩
  have a1 := r1 k
  have a2 := r2 k
  by_cases hk : k ∈ [p.poles, p.noPoles] ∧ k ≠ ""
  · rw [if_pos hk] at a1 a2
    obtain ⟨c1, s1, t1⟩ := a1
    obtain ⟨c2, s2, t2⟩ := a2
    have hcc : c1 = c2 := by
      rcases s1 with s1 | ⟨s1, s1'⟩ <;> rcases s2 with s2 | ⟨s2, s2'⟩
      · rw [s1] at s2
        simpa using s2
      · rw [s1] at s2; cases s2
      · rw [s1] at s2; cases s2
      · rw [s1', s2']
    subst hcc
    refine Or.inr ⟨_, _, t1, t2, ?_⟩
    have hp : P1.Perm P2 := (poles_cell_by_cell_perm _ _ _ q1).trans (poles_cell_by_cell_perm _ _ _ q2).symm
    exact ((hp.filter _).map _).append_left _
  · rw [if_neg hk] at a1 a2
    exact Or.inl (a1.trans a2.symm)

/-! ### cases meeting the hypotheses -/

/-- the ground around a pole of three points, in cells of side 1, off the double cell of the origin -/
def poleScene : List (FPt ℚ) :=
  [barePt (11/2) (11/2) 0, barePt (11/2) (13/2) 0, barePt (11/2) (15/2) 0, barePt (13/2) (11/2) 0,
   barePt (13/2) (13/2) 4, barePt (13/2) (13/2) 5, barePt (13/2) (13/2) 6, barePt (13/2) (15/2) 0]

/-- the default heights, at least three points -/
def poleCfg : PoleParams ℚ :=
  { inp := "raw", poles := "poles", noPoles := "rest", grid := 1, minH := 5/2, maxH := 25, minPts := 3, minChecks := 3 }

example : ∀ q ∈ poleScene, Inside poleCfg.grid q := by unfold Inside Fits; decide +kernel
example : IsPole poleCfg poleScene (6, 6) := by decide +kernel
example : inCell poleCfg.grid poleScene (6, 6) ≠ [] := by decide +kernel
/-- the pole is found; the points of the ground, one per cell, go nowhere -/
example : (filterPoles poleCfg id ([("raw", .pts (simpleOf poleScene))] : FMap ℚ Unit)).Sat fun m =>
    m.get "poles" = some (.pts (simpleOf [barePt (13/2) (13/2) 4, barePt (13/2) (13/2) 5, barePt (13/2) (13/2) 6])) ∧
    m.get "rest" = some (.pts (simpleOf [])) := by decide +kernel
example : Openable [poleCfg.poles, poleCfg.noPoles] ([("raw", .pts (simpleOf poleScene))] : FMap ℚ Unit) := by
  intro n hn _ x
  simp only [poleCfg, List.mem_cons, List.not_mem_nil, or_false] at hn
  rcases hn with rfl | rfl <;> simp [AMap.get_cons]
example : AnyOrder id := fun _ => List.Perm.refl _
example : AnyOrder List.reverse := fun g => List.reverse_perm g
/-- a point in the last cell: undefined -/
example : ¬ Inside (1 : ℚ) (barePt (2 ^ 31 - 1) 0 0) := by unfold Inside Fits; decide +kernel

end Props
end Verif
