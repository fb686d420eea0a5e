import Mathlib.Algebra.Order.Ring.Rat
import Mathlib.Data.Rat.Floor
import Mathlib.Tactic.Ring
import Mathlib.Tactic.LinearCombination
import Mathlib.Tactic.Linarith
import Mathlib.Tactic.FieldSimp
import Mathlib.Tactic.NormNum
import Verif.Props.PointsEigen
/-
C75: FilterEdgesPlanes.
-/
set_option linter.unusedSectionVars false
namespace Verif
namespace Props
open Flt Vox Eig Edge
variable {K X : Type} [Field K] [LinearOrder K] [FloorRing K] [IsStrictOrderedRing K]

/-! ### every n-th point -/

theorem stride_skip (step : Nat) (ps : List (FPt K)) (i : Nat) (hi : i % step = 0) (d : Nat) :
    ∀ j, 0 < j → j + d = step →
      ((ps.zipIdx.drop (i + j)).filter fun e => e.2 % step = 0) = (ps.zipIdx.drop (i + step)).filter fun e => e.2 % step = 0 := by
  induction d with
  | zero => intro j _ h; rw [show j = step by omega]
  | succ d ih =>
    intro j h0 h
    rw [← ih (j + 1) (by omega) (by omega)]
    by_cases hl : i + j < ps.zipIdx.length
    · rw [List.drop_eq_getElem_cons hl, List.filter_cons_of_neg]
      · rfl
      · have : (i + j) % step ≠ 0 := by
          rw [Nat.add_mod, hi, Nat.zero_add, Nat.mod_mod, Nat.mod_eq_of_lt (by omega)]; omega
        simpa using this
    · rw [List.drop_eq_nil_of_le (by omega), List.drop_eq_nil_of_le (by omega)]

theorem stride_ok (step : Nat) (hs : 0 < step) (ps : List (FPt K)) (fuel i : Nat) (hf : ps.length - i < fuel)
    (hi : i % step = 0) :
    stride step ps fuel i = some ((((ps.zipIdx.drop i).filter fun e => e.2 % step = 0).map (·.1)).map strip) := by
  induction fuel generalizing i with
  | zero => omega
  | succ fuel ih =>
    rw [stride]
    cases hq : ps[i]? with
    | none =>
      have := List.getElem?_eq_none_iff.1 hq
      rw [List.drop_eq_nil_of_le (by simpa using this)]; rfl
    | some q =>
      obtain ⟨hl, rfl⟩ := List.getElem?_eq_some_iff.1 hq
      simp only []
      rw [ih (i + step) (by omega) (by rw [Nat.add_mod_right]; exact hi)]
      rw [List.drop_eq_getElem_cons (i := i) (by simpa using hl), List.filter_cons_of_pos (by simpa using hi),
        stride_skip step ps i hi (step - 1) 1 (by omega) (by omega)]
      simp [strip]

/-- the points taken of a voxel -/
def taken (d : Nat) (ps : List (FPt K)) : List (FPt K) := (everyNth d ps).map strip

theorem strideIf_ok (b : Bool) (step : Nat) (hs : b = true → 0 < step) (ps : List (FPt K)) (fuel : Nat) (hf : ps.length < fuel) :
    strideIf b step ps fuel = some (if b then taken step ps else []) := by
  cases b with
  | false => rfl
  | true =>
    rw [strideIf, if_pos rfl, if_pos rfl, stride_ok step (hs rfl) ps fuel 0 (by omega) (by simp)]
    rfl

/-- with step 0 the loop over a non-empty voxel never ends -/
theorem stride_never (ps : List (FPt K)) (q : FPt K) (i : Nat) (h : ps[i]? = some q) (fuel : Nat) : stride 0 ps fuel i = none := by
  induction fuel with
  | zero => rfl
  | succ fuel ih => rw [stride, h]; simp [ih]

/-! ### one voxel -/

theorem facing_ok (norm : P3 K → K) (c n : P3 K) (h : 1 / 1000 < norm c) :
    ∃ n', facing norm c n = .ok n' ∧ (n' = n ∨ n' = -n) ∧ n'.dot c ≤ 0 := by
  have hp : 0 < norm c := lt_trans (by norm_num) h
  have e : (P3.mk (c.x * (1 / norm c)) (c.y * (1 / norm c)) (c.z * (1 / norm c))).dot n = n.dot c / norm c := by
    simp only [P3.dot]; ring
  unfold facing
  rw [Outcome.assert_true h, okb]
  simp only [e]
  by_cases h0 : 0 < n.dot c / norm c
  · refine ⟨-n, by rw [if_pos h0], Or.inr rfl, ?_⟩
    have := (div_pos_iff_of_pos_right hp).1 h0
    have e2 : (-n).dot c = -(n.dot c) := by simp only [P3.dot, P3.neg_x, P3.neg_y, P3.neg_z]; ring
    rw [e2]; linarith
  · refine ⟨n, by rw [if_neg h0], Or.inl rfl, ?_⟩
    by_contra hc
    exact h0 (div_pos (not_le.1 hc) hp)

instance (eig : M3 K → EigDec K) (p : EpParams K) (pts : List (FPt K)) (k : Idx) : Decidable (Steep eig p pts k) :=
  inferInstanceAs (Decidable (_ < _))

/-- what a voxel adds -/
structure Adds (eig : M3 K → EigDec K) (p : EpParams K) (pts : List (FPt K)) (k : Idx) (s s' : EpState K) : Prop where
  edges : s'.edges = s.edges ++ if voxClass eig p pts k = .edge then taken p.decim (vox p.res pts k) else []
  planePts : s'.planePts = s.planePts ++
    if voxClass eig p pts k = .plane ∧ Steep eig p pts k then taken p.decim (vox p.res pts k) else []
  full : s'.full = s.full ++ if 0 < p.fullDecim then taken p.fullDecim (vox p.res pts k) else []
  centroids : s'.centroids = s.centroids ++ if voxClass eig p pts k = .plane then
    [barePt (voxMean p.res pts k).x (voxMean p.res pts k).y (voxMean p.res pts k).z] else []
  planes : ∃ l, s'.planes = s.planes ++ l ∧
    List.Forall₂ (PatchOf eig p pts) (if voxClass eig p pts k = .plane then [k] else []) l

theorem epVoxel_ok (norm : P3 K → K) (eig : M3 K → EigDec K) (p : EpParams K) (fuel : Nat) (pts : List (FPt K)) (k : Idx)
    (hd : 0 < p.decim) (h5 : 5 ≤ (vox p.res pts k).length) (hf : (vox p.res pts k).length < fuel)
    (ho : voxClass eig p pts k = .plane → 1 / 1000 < norm (voxMean p.res pts k)) (s : EpState K) :
    ∃ s', epVoxel norm eig p fuel (vox p.res pts k) s = some (.ok s') ∧ Adds eig p pts k s s' := by
  have hm : (stats ((vox p.res pts k).map xyz)).1 = voxMean p.res pts k := stats_mean_eq _
  have hcl : classify p (voxEig eig p.res pts k).vals = voxClass eig p pts k := rfl
  have hev : eig (stats ((vox p.res pts k).map xyz)).2.full = voxEig eig p.res pts k := rfl
  have hlt : ¬ (vox p.res pts k).length < 5 := by omega
  have h1 := strideIf_ok (decide (voxClass eig p pts k = .edge)) p.decim (fun _ => hd) (vox p.res pts k) fuel hf
  have h2 := strideIf_ok (decide (voxClass eig p pts k = .plane) && decide (|(voxEig eig p.res pts k).vecs.1.z| < 9 / 10))
    p.decim (fun _ => hd) (vox p.res pts k) fuel hf
  have h3 := strideIf_ok (decide (0 < p.fullDecim)) p.fullDecim (by simp) (vox p.res pts k) fuel hf
  unfold epVoxel
  rw [if_neg hlt]
  simp only [hm, hev, hcl]
  by_cases hc : voxClass eig p pts k = .plane
  · obtain ⟨n, f1, f2, f3⟩ := facing_ok norm (voxMean p.res pts k) (voxEig eig p.res pts k).vecs.1 (ho hc)
    rw [if_pos hc, f1]
    simp only []
    rw [h1, Option.bind_some, h2, Option.bind_some, h3, Option.bind_some]
    refine ⟨_, rfl, ?_⟩
    constructor
    · simp
    · simp [hc, Steep]
    · simp
    · simp [hc]
    · refine ⟨[_], by simp only [hc, decide_true, if_true]; rfl, ?_⟩
      simp only [hc, if_true]
      refine .cons ⟨rfl, f2, f3, ?_⟩ .nil
      simp only [planeAt]; ring
  · rw [if_neg hc]
    simp only []
    rw [h1, Option.bind_some, h2, Option.bind_some, h3, Option.bind_some]
    refine ⟨_, rfl, ?_⟩
    constructor
    · simp
    · simp [hc]
    · simp
    · simp [hc]
    · refine ⟨[], by simp [hc], ?_⟩
      simp only [hc, if_false]
      exact .nil

/-- what the whole cloud adds -/
structure AddsAll (eig : M3 K → EigDec K) (p : EpParams K) (pts : List (FPt K)) (ks : List Idx) (s s' : EpState K) : Prop where
  edges : s'.edges = s.edges ++ ((big p pts ks).filter fun k => voxClass eig p pts k = .edge).flatMap fun k =>
    taken p.decim (vox p.res pts k)
  planePts : s'.planePts = s.planePts ++ ((big p pts ks).filter fun k => voxClass eig p pts k = .plane ∧ Steep eig p pts k).flatMap
    fun k => taken p.decim (vox p.res pts k)
  full : s'.full = s.full ++ if 0 < p.fullDecim then (big p pts ks).flatMap fun k => taken p.fullDecim (vox p.res pts k) else []
  centroids : s'.centroids = s.centroids ++ ((big p pts ks).filter fun k => voxClass eig p pts k = .plane).map fun k =>
    barePt (voxMean p.res pts k).x (voxMean p.res pts k).y (voxMean p.res pts k).z
  planes : ∃ l, s'.planes = s.planes ++ l ∧
    List.Forall₂ (PatchOf eig p pts) ((big p pts ks).filter fun k => voxClass eig p pts k = .plane) l

theorem epVoxels_ok (norm : P3 K → K) (eig : M3 K → EigDec K) (p : EpParams K) (fuel : Nat) (pts : List (FPt K))
    (hd : 0 < p.decim) (hf : pts.length < fuel)
    (ho : ∀ k, 5 ≤ (vox p.res pts k).length → voxClass eig p pts k = .plane → 1 / 1000 < norm (voxMean p.res pts k))
    (g : List (Idx × List Nat)) (hg : ∀ e ∈ g, pointsAt pts e.2 = .ok (vox p.res pts e.1)) (s : EpState K) :
    ∃ s', epVoxels norm eig p fuel pts g s = some (.ok s') ∧ AddsAll eig p pts (g.map (·.1)) s s' := by
  induction g generalizing s with
  | nil => exact ⟨s, rfl, by constructor <;> simp [big]⟩
  | cons e g ih =>
    have h1 := hg e (List.mem_cons_self ..)
    have ih := ih (fun e he => hg e (List.mem_cons_of_mem _ he))
    by_cases h5 : 5 ≤ (vox p.res pts e.1).length
    · have hl : (vox p.res pts e.1).length ≤ pts.length := List.length_filter_le _ _
      obtain ⟨s1, h2, h3⟩ := epVoxel_ok norm eig p fuel pts e.1 hd h5 (by omega) (ho e.1 h5) s
      obtain ⟨s2, h4, h6⟩ := ih s1
      refine ⟨s2, by rw [epVoxels, h1]; simp only [h2]; exact h4, ?_⟩
      have hb : big p pts ((e :: g).map (·.1)) = e.1 :: big p pts (g.map (·.1)) := by
        unfold big; rw [List.map_cons, List.filter_cons_of_pos (by simpa using h5)]
      constructor
      · rw [h6.edges, h3.edges, hb]
        by_cases hc : voxClass eig p pts e.1 = .edge <;> simp [hc]
      · rw [h6.planePts, h3.planePts, hb]
        by_cases hc : voxClass eig p pts e.1 = .plane ∧ Steep eig p pts e.1
        · rw [if_pos hc, List.filter_cons_of_pos (by simpa using hc)]; simp
        · rw [if_neg hc, List.filter_cons_of_neg (by simpa using hc)]; simp
      · rw [h6.full, h3.full, hb]
        by_cases hc : 0 < p.fullDecim <;> simp [hc]
      · rw [h6.centroids, h3.centroids, hb]
        by_cases hc : voxClass eig p pts e.1 = .plane <;> simp [hc]
      · obtain ⟨l1, a1, b1⟩ := h3.planes
        obtain ⟨l2, a2, b2⟩ := h6.planes
        refine ⟨l1 ++ l2, by rw [a2, a1, List.append_assoc], ?_⟩
        rw [hb]
        by_cases hc : voxClass eig p pts e.1 = .plane
        · rw [List.filter_cons_of_pos (by simpa using hc)]
          rw [if_pos hc] at b1
          exact List.rel_append b1 b2
        · rw [List.filter_cons_of_neg (by simpa using hc)]
          rw [if_neg hc] at b1
          cases b1
          exact b2
    · obtain ⟨s2, h4, h6⟩ := ih s
      have hb : big p pts ((e :: g).map (·.1)) = big p pts (g.map (·.1)) := by
        unfold big; rw [List.map_cons, List.filter_cons_of_neg (by simpa using h5)]
      refine ⟨s2, ?_, ?_⟩
      · rw [epVoxels, h1]
        simp only [epVoxel, if_pos (not_le.1 h5)]
        exact h4
      · constructor
        · rw [hb]; exact h6.edges
        · rw [hb]; exact h6.planePts
        · rw [hb]; exact h6.full
        · rw [hb]; exact h6.centroids
        · rw [hb]; exact h6.planes

/-- the grid: each occupied voxel once, with its points -/
theorem gridOf_ok (res : K) (pts : List (FPt K)) (h : ∀ q ∈ pts, InRange res q) :
    ∃ g, processMulti res pts 0 [] = .ok g ∧ Voxels res pts (g.map (·.1)) ∧
      (∀ e ∈ g, pointsAt pts e.2 = .ok (vox res pts e.1)) := by
  obtain ⟨g, h1, h2⟩ := processMulti_ok res (keyAt (voxelKey res) pts) pts 0 [] (MInv.nil _) h (by
    intro j hj
    simp only [keyAt, Nat.zero_add, List.getElem?_eq_getElem hj])
  rw [Nat.zero_add] at h2
  have hp : ∀ e ∈ g, pointsAt pts e.2 = .ok (vox res pts e.1) := by
    rintro ⟨k, l⟩ he
    rw [((h2.2 k l).1 he).2]
    exact pointsAt_voxel (voxelKey res) k pts
  refine ⟨g, h1, ⟨h2.1, fun k => ?_⟩, hp⟩
  constructor
  · intro hk
    obtain ⟨⟨k', l⟩, he, rfl⟩ := List.mem_map.1 hk
    obtain ⟨a, b⟩ := (h2.2 k' l).1 he
    obtain ⟨i, hi⟩ := List.exists_mem_of_ne_nil l a
    rw [b, List.mem_filter, List.mem_range, decide_eq_true_iff] at hi
    refine ⟨pts[i]'hi.1, List.getElem_mem _, ?_⟩
    have := hi.2
    simpa [keyAt, hi.1] using this
  · rintro ⟨q, hq, rfl⟩
    obtain ⟨i, hi, rfl⟩ := List.mem_iff_getElem.1 hq
    have hm : i ∈ (List.range pts.length).filter fun j => keyAt (voxelKey res) pts j = voxelKey res pts[i] := by
      rw [List.mem_filter, List.mem_range, decide_eq_true_iff]
      exact ⟨hi, by simp [keyAt, hi]⟩
    exact List.mem_map.2 ⟨_, (h2.2 _ _).2 ⟨List.ne_nil_of_mem hm, rfl⟩, rfl⟩

/-! ### the filter -/

/-- **C75 (result).** For every cloud whose voxel indices have 32 bits, no plane voxel of which has its centroid at the sensor: the
call ends; whatever the order of the voxels, the four output layers hold just the result of this call (what they held before is
gone): from each voxel with five points or more, every `voxel_filter_decimation`-th point to the edges or to the (non-horizontal)
planes according to its eigenvalues, every `full_pointcloud_decimation`-th point to the decimated cloud, and for each plane its
centroid; one plane patch per plane voxel, with its normal towards the vehicle, is added to those the map has.  No other layer
changes.
Part of C75: the excluded cases fail (`edges_planes_std_map_empty`, `edges_planes_zero_never_ends`, `edges_planes_far_ub`, `edges_planes_origin_throws`). -/
theorem edges_planes_result_partial (norm : P3 K → K) (eig : M3 K → EigDec K) (p : EpParams K)
    (visit : List (Idx × List Nat) → List (Idx × List Nat)) (hv : ∀ g, (visit g).Perm g) (grid : GridM) (m : FMap K X)
    (planes : List (PlanePatch K)) (c : Cloud K) (hc : m.get p.inp = some (.pts c)) (hin : ∀ q ∈ c.pts, InRange p.res q)
    (ht : p.useTsl = true) (hd : 0 < p.decim)
    (ho : ∀ k, 5 ≤ (vox p.res c.pts k).length → voxClass eig p c.pts k = .plane → 1 / 1000 < norm (voxMean p.res c.pts k)) :
    ∃ ks, Voxels p.res c.pts ks ∧ ∀ fuel, c.pts.length < fuel → ∃ m' new grid',
      edgesPlanes norm eig p visit fuel grid m planes = some (.ok ((m', planes ++ new), grid')) ∧
      m'.get "edge_points" = some (simplePts (((big p c.pts ks).filter fun k => voxClass eig p c.pts k = .edge).flatMap fun k =>
        (everyNth p.decim (vox p.res c.pts k)).map strip)) ∧
      m'.get "plane_points" = some (simplePts (((big p c.pts ks).filter fun k =>
        voxClass eig p c.pts k = .plane ∧ Steep eig p c.pts k).flatMap fun k =>
        (everyNth p.decim (vox p.res c.pts k)).map strip)) ∧
      m'.get "full_decim" = some (simplePts (if 0 < p.fullDecim then (big p c.pts ks).flatMap fun k =>
        (everyNth p.fullDecim (vox p.res c.pts k)).map strip else [])) ∧
      m'.get "plane_centroids" = some (simplePts (((big p c.pts ks).filter fun k => voxClass eig p c.pts k = .plane).map fun k =>
        barePt (voxMean p.res c.pts k).x (voxMean p.res c.pts k).y (voxMean p.res c.pts k).z)) ∧
      List.Forall₂ (PatchOf eig p c.pts) ((big p c.pts ks).filter fun k => voxClass eig p c.pts k = .plane) new ∧
      ∀ n, n ∉ ["edge_points", "plane_points", "full_decim", "plane_centroids"] → m'.get n = m.get n := by
  obtain ⟨g, h1, h2, h3⟩ := gridOf_ok p.res c.pts hin
  have hmem : ∀ e ∈ visit g, e ∈ g := fun e he => (hv g).mem_iff.1 he
  refine ⟨(visit g).map (·.1), ⟨((hv g).map _).nodup_iff.2 h2.1, fun k => ?_⟩, fun fuel hf => ?_⟩
  · rw [← h2.2 k]; exact ((hv g).map _).mem_iff
  · obtain ⟨s, h4, h5⟩ := epVoxels_ok norm eig p fuel c.pts hd hf ho (visit g) (fun e he => h3 e (hmem e he))
      ⟨[], [], [], [], planes⟩
    obtain ⟨new, hn1, hn2⟩ := h5.planes
    have key : edgesPlanes norm eig p visit fuel grid m planes = some (.ok ((((((m.set "edge_points" (simplePts s.edges)).set
        "plane_points" (simplePts s.planePts)).set "full_decim" (simplePts s.full)).set "plane_centroids" (simplePts s.centroids)),
        planes ++ new), { grid with robin := g })) := by
      unfold edgesPlanes
      simp only [pointLayer, hc, ht, GridM.clear, if_true, h1, GridM.content, h4, hn1]
    refine ⟨_, new, _, key, ?_⟩
    · have e1 := h5.edges
      have e2 := h5.planePts
      have e3 := h5.full
      have e4 := h5.centroids
      simp only [List.nil_append] at e1 e2 e3 e4
      refine ⟨?_, ?_, ?_, ?_, hn2, ?_⟩
      · rw [AMap.get_set, if_neg (by decide), AMap.get_set, if_neg (by decide), AMap.get_set, if_neg (by decide), AMap.get_set, if_pos rfl, e1]
        rfl
      · rw [AMap.get_set, if_neg (by decide), AMap.get_set, if_neg (by decide), AMap.get_set, if_pos rfl, e2]
        rfl
      · rw [AMap.get_set, if_neg (by decide), AMap.get_set, if_pos rfl, e3]
        rfl
      · rw [AMap.get_set, if_pos rfl, e4]
      · intro n hn
        simp only [List.mem_cons, List.not_mem_nil, or_false, not_or] at hn
        rw [AMap.get_set, if_neg (by tauto), AMap.get_set, if_neg (by tauto), AMap.get_set, if_neg (by tauto),
          AMap.get_set, if_neg (by tauto)]

/-- **C75 (no cloud).** A missing input layer, or one that is not a point cloud, is an exception. -/
theorem edges_planes_refuses (norm : P3 K → K) (eig : M3 K → EigDec K) (p : EpParams K)
    (visit : List (Idx × List Nat) → List (Idx × List Nat)) (fuel : Nat) (grid : GridM) (m : FMap K X)
    (planes : List (PlanePatch K)) (h : ∀ c, m.get p.inp ≠ some (.pts c)) :
    edgesPlanes norm eig p visit fuel grid m planes = some .throw := by
  have : pointLayer m p.inp = .throw := by
    unfold pointLayer
    split
    · rename_i c hc; exact absurd hc (h c)
    · rfl
  unfold edgesPlanes
  rw [this]

/-- **C75 (far points).** A point whose voxel index does not fit into 32 bits, or a resolution of zero: undefined behaviour. -/
theorem edges_planes_far_ub (norm : P3 K → K) (eig : M3 K → EigDec K) (p : EpParams K)
    (visit : List (Idx × List Nat) → List (Idx × List Nat)) (fuel : Nat) (grid : GridM) (m : FMap K X)
    (planes : List (PlanePatch K)) (c : Cloud K) (hc : m.get p.inp = some (.pts c)) (q : FPt K) (hq : q ∈ c.pts)
    (hr : ¬ InRange p.res q) : edgesPlanes norm eig p visit fuel grid m planes = some .ub := by
  unfold edgesPlanes
  simp only [pointLayer, hc]
  rw [processMulti_ub _ _ _ _ fun h => hr (h q hq)]

/-- **C75 (the other container).** With `use_tsl_robin_map: false` all four layers come out empty, for every cloud, and no plane is
found. -/
theorem edges_planes_std_map_empty (norm : P3 K → K) (eig : M3 K → EigDec K) (p : EpParams K)
    (visit : List (Idx × List Nat) → List (Idx × List Nat)) (hv : ∀ g, (visit g).Perm g) (fuel : Nat) (grid : GridM) (m : FMap K X)
    (planes : List (PlanePatch K)) (ht : p.useTsl = false) (m' : FMap K X) (planes' : List (PlanePatch K)) (grid' : GridM)
    (h : edgesPlanes norm eig p visit fuel grid m planes = some (.ok ((m', planes'), grid'))) :
    planes' = planes ∧ ∀ n ∈ ["edge_points", "plane_points", "full_decim", "plane_centroids"], m'.get n = some (simplePts []) := by
  unfold edgesPlanes at h
  simp only [ht, GridM.clear, GridM.content, Bool.false_eq_true, if_false, (hv []).eq_nil, epVoxels] at h
  split at h
  · cases h
  · cases h
  · split at h
    · cases h
    · cases h
    · simp only [Option.some.injEq, Outcome.ok.injEq, Prod.mk.injEq] at h
      obtain ⟨⟨rfl, rfl⟩, -⟩ := h
      refine ⟨rfl, fun n hn => ?_⟩
      simp only [List.mem_cons, List.not_mem_nil, or_false] at hn
      rcases hn with rfl | rfl | rfl | rfl <;> simp [AMap.get_set]

/-- if the call comes to an end, every voxel was dealt with -/
theorem epVoxels_each (norm : P3 K → K) (eig : M3 K → EigDec K) (p : EpParams K) (fuel : Nat) (pts : List (FPt K))
    (g : List (Idx × List Nat)) (hg : ∀ e ∈ g, pointsAt pts e.2 = .ok (vox p.res pts e.1)) (s s' : EpState K)
    (h : epVoxels norm eig p fuel pts g s = some (.ok s')) (e : Idx × List Nat) (he : e ∈ g) :
    ∃ s1 s2, epVoxel norm eig p fuel (vox p.res pts e.1) s1 = some (.ok s2) := by
  induction g generalizing s with
  | nil => cases he
  | cons a g ih =>
    rw [epVoxels, hg a (List.mem_cons_self ..)] at h
    simp only [] at h
    cases h1 : epVoxel norm eig p fuel (vox p.res pts a.1) s with
    | none => rw [h1] at h; cases h
    | some r =>
      cases r with
      | throw => rw [h1] at h; cases h
      | ub => rw [h1] at h; cases h
      | ok s1 =>
        rw [h1] at h
        rcases List.mem_cons.1 he with rfl | he
        · exact ⟨s, s1, h1⟩
        · exact ih (fun e he => hg e (List.mem_cons_of_mem _ he)) s1 h he

theorem edgesPlanes_each (norm : P3 K → K) (eig : M3 K → EigDec K) (p : EpParams K)
    (visit : List (Idx × List Nat) → List (Idx × List Nat)) (hv : ∀ g, (visit g).Perm g) (fuel : Nat) (grid : GridM) (m : FMap K X)
    (planes : List (PlanePatch K)) (c : Cloud K) (hc : m.get p.inp = some (.pts c)) (ht : p.useTsl = true)
    (r : (FMap K X × List (PlanePatch K)) × GridM)
    (h : edgesPlanes norm eig p visit fuel grid m planes = some (.ok r)) (k : Idx) (h5 : 5 ≤ (vox p.res c.pts k).length) :
    ∃ s1 s2, epVoxel norm eig p fuel (vox p.res c.pts k) s1 = some (.ok s2) := by
  have hin : ∀ q ∈ c.pts, InRange p.res q := by
    intro q hq
    by_contra hr
    have := edges_planes_far_ub norm eig p visit fuel grid m planes c hc q hq hr
    rw [h] at this
    simp at this
  obtain ⟨g, h1, h2, h3⟩ := gridOf_ok p.res c.pts hin
  unfold edgesPlanes at h
  simp only [pointLayer, hc, ht, GridM.clear, if_true, h1, GridM.content] at h
  obtain ⟨q, hq⟩ := List.exists_mem_of_ne_nil (vox p.res c.pts k) (by intro h0; rw [h0] at h5; simp at h5)
  have hq' := List.mem_filter.1 hq
  obtain ⟨e, he, hek⟩ := List.mem_map.1 ((h2.2 k).2 ⟨q, hq'.1, by simpa using hq'.2⟩)
  split at h
  · cases h
  · cases h
  · cases h
  · rename_i s hs
    have := epVoxels_each norm eig p fuel c.pts (visit g) (fun e he => h3 e ((hv g).mem_iff.1 he)) _ s hs e ((hv g).mem_iff.2 he)
    rw [hek] at this
    exact this

/-- **C75 (decimation 0).** With `voxel_filter_decimation: 0` the call never returns if there is an edge voxel. -/
theorem edges_planes_zero_never_ends (norm : P3 K → K) (eig : M3 K → EigDec K) (p : EpParams K)
    (visit : List (Idx × List Nat) → List (Idx × List Nat)) (hv : ∀ g, (visit g).Perm g) (fuel : Nat) (grid : GridM) (m : FMap K X)
    (planes : List (PlanePatch K)) (c : Cloud K) (hc : m.get p.inp = some (.pts c)) (ht : p.useTsl = true) (hd : p.decim = 0)
    (k : Idx) (h5 : 5 ≤ (vox p.res c.pts k).length) (hk : voxClass eig p c.pts k = .edge)
    (r : (FMap K X × List (PlanePatch K)) × GridM) : edgesPlanes norm eig p visit fuel grid m planes ≠ some (.ok r) := by
  intro h
  obtain ⟨s1, s2, hs⟩ := edgesPlanes_each norm eig p visit hv fuel grid m planes c hc ht r h k h5
  have hlt : ¬ (vox p.res c.pts k).length < 5 := by omega
  have hcl : classify p (eig (stats ((vox p.res c.pts k).map xyz)).2.full).vals = .edge := hk
  obtain ⟨q, hq⟩ : ∃ q, (vox p.res c.pts k)[0]? = some q := ⟨_, List.getElem?_eq_getElem (by omega)⟩
  have hn := stride_never (vox p.res c.pts k) q 0 hq fuel
  simp only [epVoxel, if_neg hlt, hcl, reduceCtorEq, if_false, decide_true, strideIf, if_true, hd, hn, Option.bind_none] at hs

/-- **C75 (centroid at the sensor).** A plane voxel whose centroid is within a millimetre of the origin: the call never returns
normally (it throws, unless it does not end). -/
theorem edges_planes_origin_throws (norm : P3 K → K) (eig : M3 K → EigDec K) (p : EpParams K)
    (visit : List (Idx × List Nat) → List (Idx × List Nat)) (hv : ∀ g, (visit g).Perm g) (fuel : Nat) (grid : GridM) (m : FMap K X)
    (planes : List (PlanePatch K)) (c : Cloud K) (hc : m.get p.inp = some (.pts c)) (ht : p.useTsl = true)
    (k : Idx) (h5 : 5 ≤ (vox p.res c.pts k).length) (hk : voxClass eig p c.pts k = .plane)
    (hn : norm (voxMean p.res c.pts k) ≤ 1 / 1000)
    (r : (FMap K X × List (PlanePatch K)) × GridM) : edgesPlanes norm eig p visit fuel grid m planes ≠ some (.ok r) := by
  intro h
  obtain ⟨s1, s2, hs⟩ := edgesPlanes_each norm eig p visit hv fuel grid m planes c hc ht r h k h5
  have hlt : ¬ (vox p.res c.pts k).length < 5 := by omega
  have hcl : classify p (eig (stats ((vox p.res c.pts k).map xyz)).2.full).vals = .plane := hk
  have hm : (stats ((vox p.res c.pts k).map xyz)).1 = voxMean p.res c.pts k := stats_mean_eq _
  have hf : facing norm (voxMean p.res c.pts k) (eig (stats ((vox p.res c.pts k).map xyz)).2.full).vecs.1 = .throw := by
    unfold facing
    rw [Outcome.assert_false (not_lt.2 hn)]
    rfl
  simp only [epVoxel, if_neg hlt, hcl, if_true, hm, hf] at hs
  simp at hs

/-- **C75 (straight lines are not edges).** Points on a straight line never make an edge voxel, whatever the thresholds: the two
ratios are taken to the smallest eigenvalue. -/
theorem edges_planes_line_no_edge (eig : M3 K → EigDec K) (p : EpParams K) (pts : List (FPt K)) (k : Idx)
    (h3 : 3 ≤ (vox p.res pts k).length) (he : IsEig (stats ((vox p.res pts k).map xyz)).2.full (voxEig eig p.res pts k))
    (q w : P3 K) (hw : w.normSq = 1) (hl : ∀ a ∈ vox p.res pts k, ∃ t : K, xyz a = q + w.smul t) :
    voxClass eig p pts k ≠ .edge := by
  have hlen : 3 ≤ ((vox p.res pts k).map xyz).length := by simpa using h3
  have hs : Selected ((vox p.res pts k).map xyz) none (some ((vox p.res pts k).map xyz).length) ((vox p.res pts k).map xyz) :=
    ⟨le_refl _, (List.take_length).symm⟩
  have hr := estimate_sel eig _ none _ _ hs hlen
  have hd := eigen_degenerate eig _ none _ _ hs hlen _ hr he
  have hz := hd.2.1.2 ⟨q, w, hw, by
    intro a ha
    obtain ⟨b, hb, rfl⟩ := List.mem_map.1 ha
    exact hl b hb⟩
  obtain ⟨v0, v1, -⟩ := eigen_values eig _ none _ _ hs hlen _ hr he
  have e0 : (voxEig eig p.res pts k).vals.1 = 0 := le_antisymm (by rw [← hz]; exact v1) v0
  have e1 : (voxEig eig p.res pts k).vals.2.1 = 0 := hz
  have e2 : 0 ≤ (voxEig eig p.res pts k).vals.2.2 := by rw [← e1]; exact he.sorted.2
  intro hc
  have : classify p (voxEig eig p.res pts k).vals = .edge := hc
  unfold classify at this
  rw [e0, e1, mul_zero, mul_zero] at this
  rw [if_neg (by rintro ⟨-, h⟩; exact lt_irrefl _ h)] at this
  split at this <;> cases this

/-- Nor do the points of one plane. -/
theorem edges_planes_flat_no_edge (eig : M3 K → EigDec K) (p : EpParams K) (pts : List (FPt K)) (k : Idx)
    (h3 : 3 ≤ (vox p.res pts k).length) (he : IsEig (stats ((vox p.res pts k).map xyz)).2.full (voxEig eig p.res pts k))
    (q u : P3 K) (hu : u.normSq = 1) (hl : ∀ a ∈ vox p.res pts k, u.dot (xyz a - q) = 0) :
    voxClass eig p pts k ≠ .edge := by
  have hlen : 3 ≤ ((vox p.res pts k).map xyz).length := by simpa using h3
  have hs : Selected ((vox p.res pts k).map xyz) none (some ((vox p.res pts k).map xyz).length) ((vox p.res pts k).map xyz) :=
    ⟨le_refl _, (List.take_length).symm⟩
  have hr := estimate_sel eig _ none _ _ hs hlen
  have hd := eigen_degenerate eig _ none _ _ hs hlen _ hr he
  have e0 : (voxEig eig p.res pts k).vals.1 = 0 := hd.1.1.2 ⟨q, u, hu, by
    intro a ha
    obtain ⟨b, hb, rfl⟩ := List.mem_map.1 ha
    exact hl b hb⟩
  intro hc
  have : classify p (voxEig eig p.res pts k).vals = .edge := hc
  unfold classify at this
  have hv := he.sorted
  rw [e0] at hv this
  rw [mul_zero, mul_zero, if_neg (by rintro ⟨-, h⟩; exact absurd hv.1 (not_le.2 h))] at this
  split at this <;> cases this

/-- **C75 (exact planes).** If the points of a voxel lie in a plane and do not come too close to a line, it is a plane voxel for
every positive thresholds: the patch then is that plane. -/
theorem edges_planes_flat_is_plane (eig : M3 K → EigDec K) (p : EpParams K) (pts : List (FPt K)) (k : Idx)
    (h3 : 3 ≤ (vox p.res pts k).length) (he : IsEig (stats ((vox p.res pts k).map xyz)).2.full (voxEig eig p.res pts k))
    (q u : P3 K) (hu : u.normSq = 1) (hl : ∀ a ∈ vox p.res pts k, u.dot (xyz a - q) = 0)
    (h1 : p.minE1 < (voxEig eig p.res pts k).vals.2.1) (h0 : 0 < (voxEig eig p.res pts k).vals.2.1) :
    voxClass eig p pts k = .plane ∧ ∀ pp, PatchOf eig p pts k pp → ∀ a ∈ vox p.res pts k, pp.plane.n.dot (xyz a) + pp.plane.d = 0 := by
  have hlen : 3 ≤ ((vox p.res pts k).map xyz).length := by simpa using h3
  have hs : Selected ((vox p.res pts k).map xyz) none (some ((vox p.res pts k).map xyz).length) ((vox p.res pts k).map xyz) :=
    ⟨le_refl _, (List.take_length).symm⟩
  have hr := estimate_sel eig _ none _ _ hs hlen
  have hd := eigen_degenerate eig _ none _ _ hs hlen _ hr he
  have e0 : (voxEig eig p.res pts k).vals.1 = 0 := hd.1.1.2 ⟨q, u, hu, by
    intro a ha
    obtain ⟨b, hb, rfl⟩ := List.mem_map.1 ha
    exact hl b hb⟩
  have hne := edges_planes_flat_no_edge eig p pts k h3 he q u hu hl
  have hv := he.sorted
  constructor
  · unfold voxClass classify at hne ⊢
    rw [e0] at hne ⊢
    simp only [mul_zero] at hne ⊢
    by_cases h : (voxEig eig p.res pts k).vals.2.2 < 0 ∧ (voxEig eig p.res pts k).vals.2.1 < 0
    · exact absurd h.2 (not_lt.2 h0.le)
    · rw [if_neg h, if_pos ⟨lt_of_lt_of_le h0 hv.2, h0, h1⟩]
  · rintro pp ⟨c1, c2, -, c4⟩ a ha
    have hz := hd.1.2 e0 (xyz a) (List.mem_map.2 ⟨a, ha, rfl⟩)
    have hm : (stats ((vox p.res pts k).map xyz)).1 = pp.centroid := by rw [c1]; exact stats_mean_eq _
    simp only [hm] at hz
    have hz' : (voxEig eig p.res pts k).vecs.1.dot (xyz a - pp.centroid) = 0 := hz
    simp only [P3.dot, P3.sub_x, P3.sub_y, P3.sub_z] at hz' c4 ⊢
    rcases c2 with h | h
    · rw [h] at c4 ⊢; linear_combination hz' + c4
    · rw [h] at c4 ⊢
      simp only [P3.neg_x, P3.neg_y, P3.neg_z] at c4 ⊢
      linear_combination -hz' + c4

/-! ### a cloud -/

/-- the default parameters, a resolution of 10 -/
def epP : EpParams ℚ := { inp := "raw", fullDecim := 2, res := 10, decim := 3, maxE20 := 30, maxE10 := 30, minE20 := 100, minE10 := 20, minE1 := 0 }
/-- a wall `x = 5`: six points of a rectangle; two points elsewhere -/
def wall : List (FPt ℚ) := [⟨5, 1, 1, 7, 7, 7⟩, ⟨5, 3, 1, 7, 7, 7⟩, ⟨5, 1, 5, 7, 7, 7⟩, ⟨5, 3, 5, 7, 7, 7⟩, ⟨5, 2, 3, 7, 7, 7⟩,
  ⟨5, 2, 3, 7, 7, 7⟩, ⟨55, 2, 3, 7, 7, 7⟩, ⟨55, 2, 3, 7, 7, 7⟩]
def epMap : FMap ℚ Unit := [("edge_points", simplePts wall), ("raw", .pts { pts := wall, hasI := true, hasRing := true, hasT := true })]
/-- an answer of the library: the normal is `x` -/
def wallEig : M3 ℚ → EigDec ℚ := fun M => ⟨(M.a00, M.a11, M.a22), (⟨1, 0, 0⟩, ⟨0, 1, 0⟩, ⟨0, 0, 1⟩)⟩
def manh (c : P3 ℚ) : ℚ := |c.x| + |c.y| + |c.z|

/-- one plane, its normal towards the vehicle; two of its six points; the old contents of the edges layer are gone; the sparse voxel
is nowhere -/
example : (match edgesPlanes manh wallEig epP id 100 {} epMap [] with
    | some (.ok r) => match r.1.1.get "edge_points", r.1.1.get "plane_points", r.1.1.get "full_decim" with
      | some (.pts a), some (.pts b), some (.pts c) => decide (a.pts = [] ∧ b.pts = [⟨5, 1, 1, 0, 0, 0⟩, ⟨5, 3, 5, 0, 0, 0⟩] ∧
          c.pts.length = 3 ∧ r.1.2 = [⟨⟨⟨-1, 0, 0⟩, 5⟩, ⟨5, 2, 3⟩⟩])
      | _, _, _ => false
    | _ => false) = true := by
  decide +kernel
/-- the hypotheses of `edges_planes_result_partial` and `edges_planes_flat_is_plane` are met -/
example : epMap.get epP.inp = some (.pts { pts := wall, hasI := true, hasRing := true, hasT := true }) ∧
    (∀ q ∈ wall, InRange epP.res q) ∧ epP.useTsl = true ∧ 0 < epP.decim ∧ vox epP.res wall (0, 0, 0) = wall.take 6 ∧
    voxMean epP.res wall (0, 0, 0) = ⟨5, 2, 3⟩ ∧ 1 / 1000 < manh (voxMean epP.res wall (0, 0, 0)) ∧
    voxClass wallEig epP wall (0, 0, 0) = .plane ∧
    (∀ a ∈ vox epP.res wall (0, 0, 0), (⟨1, 0, 0⟩ : P3 ℚ).dot (xyz a - ⟨5, 0, 0⟩) = 0) ∧
    epP.minE1 < (voxEig wallEig epP.res wall (0, 0, 0)).vals.2.1 := by
  refine ⟨rfl, ?_, rfl, by decide, by decide +kernel, by decide +kernel, by decide +kernel, by decide +kernel, by decide +kernel,
    by decide +kernel⟩
  unfold InRange Fits
  decide +kernel
example : IsEig (stats ((vox epP.res wall (0, 0, 0)).map xyz)).2.full (voxEig wallEig epP.res wall (0, 0, 0)) := by
  constructor <;> decide +kernel

end Props
end Verif
