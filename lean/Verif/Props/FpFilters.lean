import Verif.Lemmas.FpAcc
import Verif.Props.Filters
import Verif.Props.FpVoxel
/-!
C103: the box, range and intensity filters in floating point, for every value that a coordinate or an intensity can have.
-/
namespace Verif
namespace Props
open Spec Fp Flt
variable {X : Type}

/-! ### FilterBoundingBox -/

/-- The closed box; nothing that is not a number is in it. -/
def InBoxF (b : BoxParams Fl) (p : FPt Fl) : Prop :=
  (Le b.xmin p.x ∧ Le p.x b.xmax) ∧ (Le b.ymin p.y ∧ Le p.y b.ymax) ∧ (Le b.zmin p.z ∧ Le p.z b.zmax)

theorem boxContainsF_iff (b : BoxParams Fl) (p : FPt Fl) : boxContainsF b p = true ↔ InBoxF b p := by
  simp only [boxContainsF, InBoxF, Le, Bool.and_eq_true]
  tauto

open Classical in
/-- The box filter on points of any kind, with infinite coordinates and coordinates that are not numbers: each point goes to exactly one side, as the exact comparison of
its coordinates with the bounds tells. -/
theorem box_float (b : BoxParams Fl) (m : FMap Fl X) (c : Cloud Fl) (hm : m.get b.inp = some (.pts c))
    (ho : Openable [b.inside, b.outside] m)
    (hi : b.inside = b.inp → ∀ p ∈ c.pts, ¬ InBoxF b p) (hu : b.outside = b.inp → ∀ p ∈ c.pts, InBoxF b p) :
    ∃ m', (∀ fuel, c.pts.length < fuel → filterBoundingBoxF b fuel m = some (.ok m')) ∧
      Partitioned c [b.inside, b.outside] (fun p => if InBoxF b p then b.inside else b.outside) m m' := by
  have e : (fun p => if boxContainsF b p then b.inside else b.outside) =
      fun p => if InBoxF b p then b.inside else b.outside := by
    funext p
    by_cases h : InBoxF b p
    · rw [if_pos h, if_pos ((boxContainsF_iff b p).2 h)]
    · rw [if_neg h, if_neg (fun h' => h ((boxContainsF_iff b p).1 h'))]
  unfold filterBoundingBoxF
  rw [e]
  refine filterLive_partitions b.inp _ _ m c hm ho ?_ ?_
  · intro p _; by_cases h : InBoxF b p <;> simp [h]
  · intro p hp
    by_cases h : InBoxF b p
    · rw [if_pos h]; left; intro h1; exact hi h1 p hp h
    · rw [if_neg h]; left; intro h1; exact h (hu h1 p hp)

/-- A point with a coordinate that is not a number is outside of every box; one with an infinite coordinate is outside of every box with finite bounds; a bound that is not a number
leaves the box empty. -/
theorem box_float_outside (b : BoxParams Fl) (p : FPt Fl) :
    ((p.x = .nan ∨ p.y = .nan ∨ p.z = .nan) → ¬ InBoxF b p) ∧
    ((b.xmin = .nan ∨ b.xmax = .nan ∨ b.ymin = .nan ∨ b.ymax = .nan ∨ b.zmin = .nan ∨ b.zmax = .nan) → ¬ InBoxF b p) ∧
    (∀ lo hi, b.xmin = .fin lo → b.xmax = .fin hi → (p.x = .pinf ∨ p.x = .ninf) → ¬ InBoxF b p) := by
  refine ⟨?_, ?_, ?_⟩
  · rintro (h | h | h) ⟨⟨h1, -⟩, ⟨h2, -⟩, h3, -⟩
    · exact (le_ne_nan h1).2 h
    · exact (le_ne_nan h2).2 h
    · exact (le_ne_nan h3).2 h
  · rintro (h | h | h | h | h | h) ⟨⟨h1, h1'⟩, ⟨h2, h2'⟩, h3, h3'⟩
    · exact (le_ne_nan h1).1 h
    · exact (le_ne_nan h1').2 h
    · exact (le_ne_nan h2).1 h
    · exact (le_ne_nan h2').2 h
    · exact (le_ne_nan h3).1 h
    · exact (le_ne_nan h3').2 h
  · rintro lo hi h1 h2 h ⟨⟨h3, h4⟩, -⟩
    rcases h with h | h
    · rw [h, h2] at h4; simp [Le, Fl.le] at h4
    · rw [h, h1] at h3; simp [Le, Fl.le] at h3

/-! ### FilterByIntensity -/

/-- The intensity filter on any intensities: below the lower threshold, else above the upper one, else "mid"; an intensity that is not a number is "mid". -/
theorem intensity_float (r : IntensityParams Fl) (m : FMap Fl X) (c : Cloud Fl) (hm : m.get r.inp = some (.pts c))
    (ho : Openable [r.low, r.high, r.mid] m) (hs : r.low ≠ "" ∨ r.high ≠ "" ∨ r.mid ≠ "")
    (hh : c.hasI = true) (hne : c.pts ≠ []) (hl : r.lowThr ≠ .nan) (hg : r.highThr ≠ .nan) (target : FPt Fl → String)
    (htn : ∀ p, p.i = .nan → target p = r.mid)
    (htl : ∀ p, p.i ≠ .nan → ¬ Le r.lowThr p.i → target p = r.low)
    (hth : ∀ p, Le r.lowThr p.i → ¬ Le p.i r.highThr → target p = r.high)
    (htm : ∀ p, Le r.lowThr p.i → Le p.i r.highThr → target p = r.mid) :
    ∃ m', filterByIntensityF r m = .ok m' ∧ Partitioned c [r.low, r.high, r.mid] target m m' := by
  have e : (fun p : FPt Fl => if p.i.lt r.lowThr then r.low else if r.highThr.lt p.i then r.high else r.mid) = target := by
    funext p
    by_cases hn : p.i = .nan
    · rw [htn p hn, hn]
      have : r.highThr.lt .nan = false := by cases r.highThr <;> rfl
      simp [Fl.lt, this]
    · have a1 := not_lt_iff hn hl
      have a2 := not_lt_iff hg hn
      by_cases h1 : p.i.lt r.lowThr = true
      · rw [if_pos h1, htl p hn]
        intro hc
        have := a1.2 hc
        rw [h1] at this; cases this
      · rw [if_neg h1]
        have h1' : Le r.lowThr p.i := a1.1 (by simpa using h1)
        by_cases h2 : r.highThr.lt p.i = true
        · rw [if_pos h2, hth p h1']
          intro hc
          have := a2.2 hc
          rw [h2] at this; cases this
        · rw [if_neg h2, htm p h1' (a2.1 (by simpa using h2))]
  unfold filterByIntensityF
  rw [e]
  refine filterSnap_partitions _ r.inp _ _ m c hm ho ?_ hh hne ?_
  · rcases hs with h | h | h
    · exact ⟨_, by simp, h⟩
    · exact ⟨_, by simp, h⟩
    · exact ⟨_, by simp, h⟩
  · intro p _; rw [← e]; simp only []; split
    · simp
    · split <;> simp

/-! ### FilterByRange -/

/-- The range filter puts each point on exactly one side, whatever its coordinates are. -/
theorem range_float (A : Arith) (r : RangeParams Fl) (m : FMap Fl X) (c : Cloud Fl) (hm : m.get r.inp = some (.pts c))
    (ho : Openable [r.between, r.outside] m) (hi : r.between ≠ r.inp) (hu : r.outside ≠ r.inp) :
    ∃ m', (∀ fuel, c.pts.length < fuel → filterByRangeF A r fuel m = some (.ok m')) ∧
      Partitioned c [r.between, r.outside] (fun p => if rangeInsideF A r p then r.between else r.outside) m m' := by
  unfold filterByRangeF
  refine filterLive_partitions r.inp _ _ m c hm ho ?_ ?_
  · intro p _; split <;> simp
  · intro p _
    split
    · exact .inl hi
    · exact .inl hu

theorem sqrNormF_nan (A : Arith) (r : RangeParams Fl) (p : FPt Fl) (h : p.x = .nan ∨ p.y = .nan ∨ p.z = .nan) : sqrNormF A r p = .nan := by
  have hs : ∀ a : Fl, A.sub .nan a = .nan := by intro a; rfl
  have h1 : ∀ a : Fl, A.add .nan a = .nan := by intro a; rfl
  have h2 : ∀ a : Fl, A.add a .nan = .nan := by intro a; cases a <;> rfl
  have hm : A.mul .nan .nan = .nan := rfl
  unfold sqrNormF
  rcases h with h | h | h <;> rw [h, hs, hm]
  · rw [h1, h1]
  · rw [h2, h1]
  · rw [h2]

/-- A point with a coordinate that is not a number is outside of every range. -/
theorem range_float_nan (A : Arith) (r : RangeParams Fl) (p : FPt Fl) (h : p.x = .nan ∨ p.y = .nan ∨ p.z = .nan) : rangeInsideF A r p = false := by
  unfold rangeInsideF
  rw [sqrNormF_nan A r p h]
  have : (A.mul r.rmin r.rmin).le .nan = false := by cases A.mul r.rmin r.rmin <;> rfl
  rw [this]; rfl

theorem rnd_of_finite {A : Arith} {q : ℚ} (h : Finite A (.fin q)) : A.rnd q = q := by
  obtain ⟨x, hx, hr⟩ := h
  exact ((fl_fin_iff A).1 hr).1

/-- `|coordinate| ≤ B` keeps everything finite -/
theorem rnd_le_of (A : Arith) (u η x B : ℚ) (hA : Accurate A u η) (hu : u ≤ 1 / 64) (hx : |x| ≤ B) (hη : η ≤ 1) : |A.rnd x| ≤ 2 * B + 1 := by
  have h := hA x
  have h2 : |A.rnd x| ≤ |x| + |A.rnd x - x| := by
    have := abs_sub_abs_le_abs_sub (A.rnd x) x; linarith
  have h3 : u * |x| ≤ 1 / 64 * |x| := mul_le_mul_of_nonneg_right hu (abs_nonneg x)
  have := abs_nonneg x
  linarith

theorem binary32_big : (2 : ℚ) ^ 127 ≤ binary32.top := by
  show (2 : ℚ) ^ 127 ≤ 2 ^ 104 * (2 ^ 24 - 1)
  norm_num

theorem fl_of_le (x B : ℚ) (hx : |x| ≤ B) (hB : 2 * B + 1 ≤ 2 ^ 127) : binary32.fl x = .fin (binary32.rnd x) := by
  have h1 := rnd_le_of binary32 _ _ x B binary32_accurate (by norm_num) hx (by norm_num)
  have h2 := binary32_big
  have h3 := abs_le.1 h1
  exact (fl_fin_iff binary32).2 ⟨rfl, by linarith, by linarith⟩

/-- the squared norm of the filter for coordinates that do not make it overflow -/
theorem sqrNormF_fin (r : RangeParams Fl) (p : FPt Fl) (x y z a b c : ℚ)
    (hx : p.x = .fin x) (hy : p.y = .fin y) (hz : p.z = .fin z) (ha : r.cx = .fin a) (hb : r.cy = .fin b) (hc : r.cz = .fin c)
    (h1 : |x - a| ≤ 2 ^ 60) (h2 : |y - b| ≤ 2 ^ 60) (h3 : |z - c| ≤ 2 ^ 60) :
    sqrNormF binary32 r p = .fin (binary32.rnd (binary32.rnd (binary32.rnd (binary32.rnd (x - a) * binary32.rnd (x - a)) +
      binary32.rnd (binary32.rnd (y - b) * binary32.rnd (y - b))) + binary32.rnd (binary32.rnd (z - c) * binary32.rnd (z - c)))) := by
  have key : ∀ d : ℚ, |d| ≤ 2 ^ 60 → binary32.fl d = .fin (binary32.rnd d) ∧
      binary32.fl (binary32.rnd d * binary32.rnd d) = .fin (binary32.rnd (binary32.rnd d * binary32.rnd d)) ∧
      |binary32.rnd (binary32.rnd d * binary32.rnd d)| ≤ 2 ^ 123 + 2 ^ 100 := by
    intro d hd
    have e1 := rnd_le_of binary32 _ _ d _ binary32_accurate (by norm_num) hd (by norm_num)
    have e2 : |binary32.rnd d * binary32.rnd d| ≤ (2 * 2 ^ 60 + 1) * (2 * 2 ^ 60 + 1) := by
      rw [abs_mul]; exact mul_le_mul e1 e1 (abs_nonneg _) (by norm_num)
    have e3 := rnd_le_of binary32 _ _ _ _ binary32_accurate (by norm_num) e2 (by norm_num)
    exact ⟨fl_of_le d _ hd (by norm_num), fl_of_le _ _ e2 (by norm_num), e3.trans (by norm_num)⟩
  obtain ⟨x1, x2, x3⟩ := key _ h1
  obtain ⟨y1, y2, y3⟩ := key _ h2
  obtain ⟨z1, z2, z3⟩ := key _ h3
  have s1 := (abs_add_le _ _).trans (add_le_add x3 y3)
  have s2 := fl_of_le _ _ s1 (by norm_num)
  have s3 := rnd_le_of binary32 _ _ _ _ binary32_accurate (by norm_num) s1 (by norm_num)
  have s4 := (abs_add_le _ _).trans (add_le_add s3 z3)
  have s5 := fl_of_le _ _ s4 (by norm_num)
  unfold sqrNormF
  rw [hx, hy, hz, ha, hb, hc, sub_fin, sub_fin, sub_fin, x1, y1, z1]
  simp only [Arith.mul, x2, y2, z2, Arith.add, s2, s5]

/-- In `float`, for points within 2^60 of the centre: rounding puts a point on the wrong side only if its squared distance is within 8 units of 2^-24, relatively, of the square of
one of the two bounds (or within 2^-147 of it, where numbers underflow). -/
theorem range_float_margin (r : RangeParams Fl) (p : FPt Fl) (x y z a b c lo hi : ℚ)
    (hx : p.x = .fin x) (hy : p.y = .fin y) (hz : p.z = .fin z) (ha : r.cx = .fin a) (hb : r.cy = .fin b) (hc : r.cz = .fin c)
    (hlo : r.rmin = .fin lo) (hhi : r.rmax = .fin hi)
    (fx : Finite binary32 p.x) (fy : Finite binary32 p.y) (fz : Finite binary32 p.z)
    (fa : Finite binary32 r.cx) (fb : Finite binary32 r.cy) (fc : Finite binary32 r.cz)
    (h1 : |x - a| ≤ 2 ^ 60) (h2 : |y - b| ≤ 2 ^ 60) (h3 : |z - c| ≤ 2 ^ 60) (h4 : |lo| ≤ 2 ^ 60) (h5 : |hi| ≤ 2 ^ 60)
    (S : ℚ) (hS : S = (x - a) ^ 2 + (y - b) ^ 2 + (z - c) ^ 2) :
    ((1 + 8 / 2 ^ 24) * lo ^ 2 + 1 / 2 ^ 147 ≤ S → S ≤ (1 - 8 / 2 ^ 24) * hi ^ 2 - 1 / 2 ^ 147 → rangeInsideF binary32 r p = true) ∧
    (S < (1 - 8 / 2 ^ 24) * lo ^ 2 - 1 / 2 ^ 147 → rangeInsideF binary32 r p = false) ∧
    ((1 + 8 / 2 ^ 24) * hi ^ 2 + 1 / 2 ^ 147 < S → rangeInsideF binary32 r p = false) := by
  have hN := sqrNormF_fin r p x y z a b c hx hy hz ha hb hc h1 h2 h3
  have hcl := sqr_norm_close binary32 (1 / 2 ^ 24) (1 / 2 ^ 150) x y z a b c binary32_accurate binary32_add_accurate (by norm_num) (by norm_num) (by norm_num)
    (rnd_of_finite (hx ▸ fx)) (rnd_of_finite (hy ▸ fy)) (rnd_of_finite (hz ▸ fz)) (rnd_of_finite (ha ▸ fa)) (rnd_of_finite (hb ▸ fb)) (rnd_of_finite (hc ▸ fc))
    _ _ _ _ _ rfl rfl rfl rfl rfl
  rw [← hS] at hcl
  set t := binary32.rnd (binary32.rnd (binary32.rnd (binary32.rnd (x - a) * binary32.rnd (x - a)) +
      binary32.rnd (binary32.rnd (y - b) * binary32.rnd (y - b))) + binary32.rnd (binary32.rnd (z - c) * binary32.rnd (z - c))) with ht
  clear_value t
  have bound : ∀ q : ℚ, |q| ≤ 2 ^ 60 → binary32.fl (q * q) = .fin (binary32.rnd (q * q)) ∧
      (1 - 1 / 2 ^ 24) * q ^ 2 - 1 / 2 ^ 150 ≤ binary32.rnd (q * q) ∧ binary32.rnd (q * q) ≤ (1 + 1 / 2 ^ 24) * q ^ 2 + 1 / 2 ^ 150 := by
    intro q hq
    have e2 : |q * q| ≤ 2 ^ 60 * 2 ^ 60 := by rw [abs_mul]; exact mul_le_mul hq hq (abs_nonneg _) (by norm_num)
    have e3 := binary32_accurate (q * q)
    rw [abs_of_nonneg (mul_self_nonneg q), ← sq, abs_le] at e3
    refine ⟨fl_of_le _ _ e2 (by norm_num), ?_, ?_⟩
    · rw [← sq]; linarith [e3.1]
    · rw [← sq]; linarith [e3.2]
  obtain ⟨l1, l2, l3⟩ := bound lo h4
  obtain ⟨g1, g2, g3⟩ := bound hi h5
  have hin : rangeInsideF binary32 r p = true ↔ binary32.rnd (lo * lo) ≤ t ∧ t ≤ binary32.rnd (hi * hi) := by
    unfold rangeInsideF
    rw [hN, hlo, hhi]
    simp only [Arith.mul, l1, g1, Fl.le, Bool.and_eq_true, decide_eq_true_eq]
  have hS0 : 0 ≤ S := by rw [hS]; positivity
  have hlo2 := sq_nonneg lo
  have hhi2 := sq_nonneg hi
  clear hS hN ht hx hy hz ha hb hc hlo hhi fx fy fz fa fb fc h1 h2 h3 h4 h5 bound l1 g1
  generalize binary32.rnd (lo * lo) = L at *
  generalize binary32.rnd (hi * hi) = G at *
  generalize lo ^ 2 = L2 at *
  generalize hi ^ 2 = G2 at *
  obtain ⟨c1, c2⟩ := hcl
  norm_num at c1 c2 l2 l3 g2 g3
  refine ⟨fun a1 a2 => ?_, fun a1 => ?_, fun a1 => ?_⟩
  · rw [hin]
    norm_num at a1 a2
    constructor <;> linarith
  · rw [Bool.eq_false_iff]
    intro hc
    have := (hin.1 hc).1
    norm_num at a1
    linarith
  · rw [Bool.eq_false_iff]
    intro hc
    have := (hin.1 hc).2
    norm_num at a1
    linarith

/-- Far away the squares overflow: with the range from 0 to 2^65, a point 2^100 from the centre is taken to be inside. -/
theorem range_float_overflow : ∀ r : RangeParams Fl, r.cx = .fin 0 → r.cy = .fin 0 → r.cz = .fin 0 → r.rmin = .fin 0 → r.rmax = .fin (2 ^ 65) →
    rangeInsideF binary32 r ⟨.fin (2 ^ 100), .fin 0, .fin 0, .fin 0, 0, .fin 0⟩ = true := by
  intro r h1 h2 h3 h4 h5
  unfold rangeInsideF sqrNormF
  rw [h1, h2, h3, h4, h5]
  decide +kernel

/-! ### examples -/

def fpPt (x y z : Fl) : FPt Fl := ⟨x, y, z, .fin 0, 0, .fin 0⟩
def fpBox : BoxParams Fl := { inp := "raw", inside := "in", outside := "out", xmin := .fin (-1), xmax := .fin 1, ymin := .fin (-1), ymax := .pinf, zmin := .fin 0, zmax := .fin 2 }
def fpBoxMap : FMap Fl Unit := [("raw", .pts { pts := [fpPt (.fin 1) .pinf (.fin 2), fpPt .nan (.fin 0) (.fin 1), fpPt (.fin 0) (.fin 0) (.fin 3)] })]

example : InBoxF fpBox (fpPt (.fin 1) .pinf (.fin 2)) := by
  rw [← boxContainsF_iff]; decide +kernel
example : (filterBoundingBoxF fpBox 9 fpBoxMap).map (fun o => o.Sat fun m => (AMap.get m "in").isSome = true ∧ (AMap.get m "out").isSome = true) = some True := by
  rw [Option.map_eq_some_iff]
  refine ⟨_, rfl, ?_⟩
  simp only [eq_iff_iff, iff_true]
  decide +kernel
/-- a point at distance 5, in the range from 1 to 10, clear of both margins -/
example : (1 + 8 / 2 ^ 24) * (1 : ℚ) ^ 2 + 1 / 2 ^ 147 ≤ 25 ∧ (25 : ℚ) ≤ (1 - 8 / 2 ^ 24) * 10 ^ 2 - 1 / 2 ^ 147 := by norm_num

end Props
end Verif
