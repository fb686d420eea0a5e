import Mathlib.Algebra.Order.Ring.Rat
import Mathlib.Data.Rat.Floor
import Mathlib.Analysis.Real.Sqrt
import Mathlib.Tactic.NormNum
import Verif.Lemmas.Quadratic
/-
C67: FilterDecimateVoxelsQuadratic.
-/
set_option linter.unusedSectionVars false
namespace Verif
namespace Props
open Flt Vox Quad
variable {K X : Type} [Field K] [LinearOrder K] [IsStrictOrderedRing K] [FloorRing K]

/-- The layers the filter opens: the output, created if missing. -/
theorem quad_open (m : FMap K X) (out : String) (hout : out ≠ "") (ho : ∀ x, m.get out ≠ some (.other x)) :
    ∃ r, getOrCreatePointLayer (some (plainCloud : Cloud K)) m out true = .ok r ∧
      (∃ c0, (m.get out = some (.pts c0) ∨ (m.get out = none ∧ c0 = plainCloud)) ∧ AMap.get r.2 out = some (.pts c0)) ∧
      ∀ k, k ≠ out → AMap.get r.2 k = m.get k := by
  unfold getOrCreatePointLayer
  rw [if_neg hout]
  cases hg : m.get out with
  | none =>
    refine ⟨_, rfl, ⟨plainCloud, Or.inr ⟨rfl, rfl⟩, by simp⟩, fun k hk => by simp [hk]⟩
  | some L =>
    cases L with
    | other x => exact absurd hg (ho x)
    | pts c => exact ⟨_, rfl, ⟨c, Or.inl rfl, hg⟩, fun k _ => rfl⟩

/-- **C67.** With a cloud as input, whose cells fit the 32-bit indices, and whatever order the hash map is gone through: the
filter appends to the output layer (created if new) the position of one representative for each cell of the non-linear lattice
holding a point, and nothing else; all other layers are as before.  Input and output may be the same layer. -/
theorem quadratic_result (p : Quad.Params K) (hR : p.R ≠ 0) (visit : List (Idx × List Nat) → List (Idx × List Nat))
    (hv : ∀ g, (visit g).Perm g) (draws : Nat → Nat) (m : FMap K X) (hout : p.out ≠ "")
    (ho : ∀ x, m.get p.out ≠ some (.other x)) (c : Cloud K) (hc : m.get p.inp = some (.pts c))
    (hok : ∀ q ∈ c.pts, CellOk p.res p.R q) :
    ∃ m' reps meth, filterQuadratic p visit draws m = .ok m' ∧ MethodIs p meth ∧
      Quad.Decimated p.res p.R meth c.pts reps ∧ AppendedTo p.out plainCloud reps m m' := by
  have hmeth : MethodIs p p.method := by
    unfold MethodIs Params.method
    cases p.closest <;> cases p.average <;> cases p.random <;> decide
  obtain ⟨r, hr, ⟨c0, hc0, hr0⟩, hrk⟩ := quad_open m p.out hout ho
  obtain ⟨rs, h1, h2⟩ := core_ok p hR visit hv draws c.pts hok
  have hin : AMap.get r.2 p.inp = some (.pts c) := by
    by_cases h : p.inp = p.out
    · rw [h, hr0]
      rcases hc0 with h' | ⟨h', -⟩
      · rw [h, h'] at hc; exact hc
      · rw [h, h'] at hc; cases hc
    · rw [hrk _ h, hc]
  have hfold : ∀ m0 : FMap K X, rs.foldl (fun m e => insertInto m p.out (barePt e.2.x e.2.y e.2.z)) m0 =
      (rs.map fun e => barePt e.2.x e.2.y e.2.z).foldl (fun m q => insertInto m p.out q) m0 := by
    intro m0; rw [List.foldl_map]
  refine ⟨(rs.map fun e => barePt e.2.x e.2.y e.2.z).foldl (fun m q => insertInto m p.out q) r.2, _, p.method, ?_, hmeth, h2,
    ⟨c0, hc0, ?_⟩, ?_⟩
  rotate_left
  · rw [get_appendAll _ hout, if_pos rfl, hr0]; rfl
  · intro n hn
    rw [get_appendAll _ hout, if_neg hn, hrk n hn]
  · have e : (Outcome.assert (p.out ≠ "")) = .ok () := by simp [Outcome.assert, hout]
    unfold plainCloud at hr
    simp only [filterQuadratic, e, Outcome.bind, hr, hin]
    simp only [Outcome.bind_eq_ok] at h1
    obtain ⟨w, hw, g, hg, hrs⟩ := h1
    simp only [hw, Outcome.bind, hg, hrs, hfold]

/-- A missing input layer: an error, or an output layer left as it was (created empty if new). -/
theorem quadratic_missing_input (p : Quad.Params K) (visit : List (Idx × List Nat) → List (Idx × List Nat))
    (draws : Nat → Nat) (m : FMap K X) (hout : p.out ≠ "") (ho : ∀ x, m.get p.out ≠ some (.other x))
    (hne : p.inp ≠ p.out) (hc : m.get p.inp = none) :
    (p.errMissing = true → filterQuadratic p visit draws m = .throw) ∧
    (p.errMissing = false → ∃ m', filterQuadratic p visit draws m = .ok m' ∧ AppendedTo p.out plainCloud [] m m') := by
  obtain ⟨r, hr, ⟨c0, hc0, hr0⟩, hrk⟩ := quad_open m p.out hout ho
  have e : (Outcome.assert (p.out ≠ "")) = .ok () := by simp [Outcome.assert, hout]
  have hin : AMap.get r.2 p.inp = none := by rw [hrk _ hne, hc]
  unfold plainCloud at hr
  constructor
  · intro h
    simp only [filterQuadratic, e, Outcome.bind, hr, hin, h, if_true]
  · intro h
    refine ⟨r.2, by simp only [filterQuadratic, e, Outcome.bind, hr, hin, h, Bool.false_eq_true, if_false], ⟨c0, hc0, ?_⟩,
      hrk⟩
    rw [hr0]; simp

/-- … but if the missing input has the name of the output it is silently created: no error is raised, even if asked for. -/
theorem quadratic_missing_created (p : Quad.Params K) (hR : p.R ≠ 0)
    (visit : List (Idx × List Nat) → List (Idx × List Nat)) (hv : ∀ g, (visit g).Perm g)
    (draws : Nat → Nat) (m : FMap K X) (hout : p.out ≠ "") (heq : p.inp = p.out) (hc : m.get p.inp = none) :
    ∃ m', filterQuadratic p visit draws m = .ok m' ∧ m'.get p.out = some (.pts plainCloud) := by
  obtain ⟨r, hr, ⟨c0, hc0, hr0⟩, hrk⟩ := quad_open m p.out hout (by rw [← heq, hc]; intro x h; cases h)
  have e : (Outcome.assert (p.out ≠ "")) = .ok () := by simp [Outcome.assert, hout]
  have hc0 : c0 = plainCloud := by
    rcases hc0 with h | h
    · rw [← heq, hc] at h; cases h
    · exact h.2
  subst hc0
  have hv0 : visit [] = [] := List.perm_nil.1 (hv [])
  have hin : AMap.get r.2 p.inp = some (.pts plainCloud) := by rw [heq, hr0]
  refine ⟨r.2, ?_, hr0⟩
  have hp : (plainCloud : Cloud K).pts = [] := rfl
  have hr' := hr
  unfold plainCloud at hr'
  simp only [filterQuadratic, e, Outcome.bind, hr', hin, hp, warpAll, processMulti, hv0, representatives, List.foldl_nil]

/-- Refusals: no output name; an output or input layer that is not a point cloud. -/
theorem quadratic_refuses (p : Quad.Params K) (visit : List (Idx × List Nat) → List (Idx × List Nat))
    (draws : Nat → Nat) (m : FMap K X)
    (h : p.out = "" ∨ (∃ x, m.get p.out = some (.other x)) ∨ ∃ x, m.get p.inp = some (.other x)) :
    filterQuadratic p visit draws m = .throw := by
  by_cases hout : p.out = ""
  · simp [filterQuadratic, Outcome.assert, hout]
  have e : (Outcome.assert (p.out ≠ "")) = .ok () := by simp [Outcome.assert, hout]
  by_cases ho : ∃ x, m.get p.out = some (.other x)
  · obtain ⟨x, hx⟩ := ho
    simp [filterQuadratic, e, getOrCreatePointLayer, hout, hx]
  rcases h with h | h | ⟨x, hx⟩
  · exact absurd h hout
  · exact absurd h ho
  obtain ⟨r, hr, -, hrk⟩ := quad_open m p.out hout (fun x hx => ho ⟨x, hx⟩)
  have hne : p.inp ≠ p.out := fun hh => ho ⟨x, hh ▸ hx⟩
  unfold plainCloud at hr
  simp [filterQuadratic, e, hr, hrk _ hne, hx]

/-! ### the lattice -/

/-- The map of a coordinate is strictly increasing, so cells are intervals. -/
theorem warp_strictMono (R : K) (hR : 0 < R) (x y : K) (h : x < y) : warp R x < warp R y := by
  have key : ∀ a : K, |a| ≤ R → a ^ 2 / R ≤ R := by
    intro a ha
    rw [div_le_iff₀ hR]
    have := abs_le.1 ha
    nlinarith [this.1, this.2]
  unfold warp
  by_cases hx : |x| ≤ R
  · rw [if_pos hx]
    have hx' := abs_le.1 hx
    by_cases hy : |y| ≤ R
    · rw [if_pos hy]
      have hy' := abs_le.1 hy
      by_cases h0 : 0 ≤ x
      · rw [if_pos h0, if_pos (h0.trans h.le)]
        rw [div_lt_div_iff_of_pos_right hR]; nlinarith
      · rw [if_neg h0]
        push Not at h0
        by_cases h1 : 0 ≤ y
        · rw [if_pos h1]
          have : 0 < x ^ 2 / R := div_pos (by nlinarith) hR
          have : 0 ≤ y ^ 2 / R := by positivity
          linarith
        · rw [if_neg h1]
          push Not at h1
          rw [neg_lt_neg_iff, div_lt_div_iff_of_pos_right hR]; nlinarith
    · rw [if_neg hy]
      have hyR : R < y := by
        by_contra hc
        push Not at hc
        exact hy (abs_le.2 ⟨by linarith [hx'.1], hc⟩)
      have := key x hx
      split
      · linarith
      · have : 0 ≤ x ^ 2 / R := by positivity
        linarith
  · rw [if_neg hx]
    by_cases hy : |y| ≤ R
    · rw [if_pos hy]
      have hy' := abs_le.1 hy
      have hxR : x < -R := by
        by_contra hc
        push Not at hc
        exact hx (abs_le.2 ⟨hc, by linarith [hy'.2]⟩)
      have := key y hy
      split
      · have : 0 ≤ y ^ 2 / R := by positivity
        linarith
      · linarith
    · rw [if_neg hy]; exact h

/-- Beyond the reference radius the lattice is the plain one; within it, for two coordinates on the same side of the origin,
distances are multiplied by `|x + y| / R`: less than 1 (wider cells) nearer to the origin than `R / 2`, more than 1 (narrower
cells, down to half the resolution) between `R / 2` and `R`. -/
theorem warp_stretch (R : K) (hR : 0 < R) (x y : K) :
    (R < |x| → warp R x = x) ∧
    (|x| ≤ R → |y| ≤ R → 0 ≤ x → 0 ≤ y → warp R x - warp R y = (x - y) * ((x + y) / R)) ∧
    (|x| ≤ R → |y| ≤ R → x < 0 → y < 0 → warp R x - warp R y = (x - y) * (-(x + y) / R)) := by
  have hR' := hR.ne'
  refine ⟨fun h => by unfold warp; rw [if_neg (not_le.2 h)], fun h1 h2 h3 h4 => ?_, fun h1 h2 h3 h4 => ?_⟩
  · unfold warp
    rw [if_pos h1, if_pos h2, if_pos h3, if_pos h4]
    field_simp; ring
  · unfold warp
    rw [if_pos h1, if_pos h2, if_neg (not_le.2 h3), if_neg (not_le.2 h4)]
    field_simp; ring

/-- The documented "wider voxels near the origin": coordinates closer to the origin than half the radius, on the same side,
get closer than they are; so what a plain lattice puts apart only by its resolution may fall together. -/
theorem warp_wider_near_origin (R : K) (hR : 0 < R) (x y : K) (hx0 : 0 ≤ x) (hy0 : 0 ≤ y) (hx : x ≤ R / 2) (hy : y ≤ R / 2) :
    |warp R x - warp R y| ≤ |x - y| := by
  rw [(warp_stretch R hR x y).2.1 (by rw [abs_of_nonneg hx0]; linarith) (by rw [abs_of_nonneg hy0]; linarith) hx0 hy0,
    abs_mul]
  have h1 : |(x + y) / R| ≤ 1 := by
    rw [abs_of_nonneg (by positivity), div_le_one hR]; linarith
  exact mul_le_of_le_one_right (abs_nonneg _) h1

/-- … but narrower ones between half the radius and the radius (not documented). -/
theorem warp_narrower_near_radius (R : K) (hR : 0 < R) (x y : K) (hx : R / 2 ≤ x) (hy : R / 2 ≤ y) (hxR : x ≤ R)
    (hyR : y ≤ R) : |x - y| ≤ |warp R x - warp R y| := by
  rw [(warp_stretch R hR x y).2.1 (by rw [abs_of_nonneg (by linarith)]; linarith)
    (by rw [abs_of_nonneg (by linarith)]; linarith) (by linarith) (by linarith), abs_mul]
  have h1 : 1 ≤ |(x + y) / R| := by
    have : 1 ≤ (x + y) / R := by rw [le_div_iff₀ hR]; linarith
    exact this.trans (le_abs_self _)
  exact le_mul_of_one_le_right (abs_nonneg _) h1

/-- Two coordinates in the same cell are less than two sides apart in each of the lattice's coordinates. -/
theorem cell_size (res R : K) (hr : 0 < res) (p q : FPt K)
    (h : cell res R p = cell res R q) : |warp R p.x - warp R q.x| < 2 * res ∧ |warp R p.y - warp R q.y| < 2 * res ∧
      |warp R p.z - warp R q.z| < 2 * res := by
  simp only [cell, Prod.mk.injEq] at h
  obtain ⟨hx, hy, hz⟩ := h
  have aux : ∀ z w : K, truncZ (z / res) = truncZ (w / res) → z - w < 2 * res := by
    intro z w hzw
    have hz : z = z / res * res := by field_simp
    have hw : w = w / res * res := by field_simp
    generalize z / res = a at *
    generalize w / res = b at *
    have ha : a < truncZ a + 1 := by
      unfold truncZ; split
      · exact Int.lt_floor_add_one a
      · have := Int.le_ceil a; linarith
    have hb : (truncZ b : K) - 1 < b := by
      unfold truncZ; split
      · have := Int.floor_le b; linarith
      · have := Int.ceil_lt_add_one b; linarith
    rw [hzw] at ha
    rw [hz, hw]
    nlinarith
  have aux2 : ∀ z w : K, truncZ (z / res) = truncZ (w / res) → |z - w| < 2 * res := by
    intro z w hzw
    rw [abs_lt]
    constructor
    · have := aux _ _ hzw.symm; linarith
    · exact aux _ _ hzw
  exact ⟨aux2 _ _ hx, aux2 _ _ hy, aux2 _ _ hz⟩

/-! ### the inverse map -/

/-- `std::sqrt` over the reals, NaN for negative arguments -/
noncomputable def sqrtNaN (y : ℝ) : Option ℝ := if y < 0 then none else some (Real.sqrt y)

/-- `grid2real` undoes `real2grid` for coordinates that are not negative, … -/
theorem grid2real_inverse_partial (R x : ℝ) (hR : 0 < R) (hx : 0 ≤ x) :
    ∃ y, real2grid R x = .ok y ∧ grid2real sqrtNaN R y = some x := by
  refine ⟨_, real2grid_ok R x hR.ne', ?_⟩
  unfold grid2real warp
  by_cases h : |x| ≤ R
  · rw [if_pos h, if_pos hx]
    have hx' : x ≤ R := by rwa [abs_of_nonneg hx] at h
    have h1 : x ^ 2 / R ≤ R := by rw [div_le_iff₀ hR]; nlinarith
    have h0 : 0 ≤ x ^ 2 / R := by positivity
    rw [if_neg (by rw [abs_of_nonneg h0]; exact not_lt.2 h1)]
    have e : x ^ 2 / R * R = x ^ 2 := by field_simp
    rw [e, sqrtNaN, if_neg (not_lt.2 (sq_nonneg x)), Real.sqrt_sq hx]
    simp [sgn, not_lt.2 h0]
  · rw [if_neg h, if_pos (not_le.1 h)]

/-- … and gives NaN for all the negative ones within the radius. -/
theorem grid2real_negative_nan (R x : ℝ) (hR : 0 < R) (hx : x < 0) (hxR : -R ≤ x) :
    ∃ y, real2grid R x = .ok y ∧ grid2real sqrtNaN R y = none := by
  refine ⟨_, real2grid_ok R x hR.ne', ?_⟩
  unfold grid2real warp
  have h : |x| ≤ R := abs_le.2 ⟨hxR, by linarith⟩
  rw [if_pos h, if_neg (not_le.2 hx)]
  have h1 : x ^ 2 / R ≤ R := by rw [div_le_iff₀ hR]; nlinarith
  have h0 : 0 < x ^ 2 / R := div_pos (by nlinarith) hR
  rw [if_neg (by rw [abs_neg, abs_of_nonneg h0.le]; exact not_lt.2 h1)]
  have e : -(x ^ 2 / R) * R < 0 := by nlinarith
  rw [sqrtNaN, if_pos e]; rfl

/-- A reference radius of zero makes a coordinate 0 undefined. -/
theorem quadratic_zero_radius_ub (p : Quad.Params K) (hR : p.R = 0) (visit : List (Idx × List Nat) → List (Idx × List Nat))
    (draws : Nat → Nat) (m : FMap K X) (hout : p.out ≠ "") (ho : ∀ x, m.get p.out ≠ some (.other x)) (hne : p.inp ≠ p.out)
    (c : Cloud K) (hc : m.get p.inp = some (.pts c)) (q : FPt K) (hq : q ∈ c.pts) (hz : q.x = 0) :
    filterQuadratic p visit draws m = .ub := by
  have hnt : ∀ a : K, real2grid p.R a = .ub ∨ ∃ b, real2grid p.R a = .ok b := by
    intro a; unfold real2grid; rw [hR]; split
    · exact Or.inr ⟨_, rfl⟩
    · exact Or.inl (by simp)
  have hub : ∀ l : List (FPt K), q ∈ l → warpAll p.R l = .ub := by
    intro l hl
    induction l with
    | nil => cases hl
    | cons a l ih =>
      rw [warpAll]
      by_cases haq : a = q
      · subst haq
        have : real2grid p.R a.x = .ub := by unfold real2grid; rw [hz, hR]; simp
        rw [this]; rfl
      · have hl' : q ∈ l := by
          rcases List.mem_cons.1 hl with h | h
          · exact absurd h.symm haq
          · exact h
        rcases hnt a.x with h | ⟨x, h⟩ <;> rw [h]
        · rfl
        rcases hnt a.y with h | ⟨y, h⟩ <;> rw [h]
        · rfl
        rcases hnt a.z with h | ⟨z, h⟩ <;> rw [h]
        · rfl
        simp [ih hl']
  obtain ⟨r, hr, -, hrk⟩ := quad_open m p.out hout ho
  have e : (Outcome.assert (p.out ≠ "")) = .ok () := by simp [Outcome.assert, hout]
  unfold plainCloud at hr
  simp [filterQuadratic, e, hr, hrk _ hne, hc, hub _ hq]

/-! ### the hypotheses are met -/

def exQuad : FMap ℚ Unit :=
  [("raw", .pts { pts := [⟨1, 1, 0, 1, 0, 0⟩, ⟨25, 1/2, 7/2, 2, 0, 0⟩, ⟨3/2, -1, 1/2, 3, 0, 0⟩, ⟨9, 1, 0, 4, 0, 0⟩] })]
/-- a cloud without optional channels -/
def plainOf (l : List (FPt ℚ)) : Layer (Cloud ℚ) Unit := .pts { pts := l, hasI := false, hasRing := false, hasT := false }
def exQuadP (a c r : Bool) : Quad.Params ℚ :=
  { inp := "raw", out := "dec", res := 1, R := 20, average := a, closest := c, random := r }

example : (filterQuadratic (exQuadP false false false) List.reverse (fun _ => 0) exQuad).Sat fun r =>
    AMap.get r "dec" = some (plainOf [⟨9, 1, 0, 0, 0, 0⟩, ⟨25, 1/2, 7/2, 0, 0, 0⟩, ⟨1, 1, 0, 0, 0, 0⟩]) := by
  decide +kernel
example : (filterQuadratic (exQuadP true false false) id (fun _ => 0) exQuad).Sat fun r =>
    AMap.get r "dec" = some (plainOf [⟨5/4, 0, 1/4, 0, 0, 0⟩, ⟨25, 1/2, 7/2, 0, 0, 0⟩, ⟨9, 1, 0, 0, 0, 0⟩]) := by
  decide +kernel
example : ∀ q ∈ ptsOf exQuad "raw", CellOk (1 : ℚ) 20 q := by
  have h : ∀ q ∈ ptsOf exQuad "raw", (1 : ℚ) ≠ 0 ∧
      (-2 ^ 31 ≤ truncZ (warp 20 q.x / 1) ∧ truncZ (warp 20 q.x / 1) < 2 ^ 31) ∧
      (-2 ^ 31 ≤ truncZ (warp 20 q.y / 1) ∧ truncZ (warp 20 q.y / 1) < 2 ^ 31) ∧
      (-2 ^ 31 ≤ truncZ (warp 20 q.z / 1) ∧ truncZ (warp 20 q.z / 1) < 2 ^ 31) := by decide +kernel
  exact h
example : exQuad.get "dec" = none ∧ (exQuadP true true true).R ≠ 0 := by decide +kernel

end Props
end Verif
