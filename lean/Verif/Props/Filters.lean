import Mathlib.Algebra.Order.Ring.Rat
import Mathlib.Tactic.Linarith
import Mathlib.Tactic.NormNum
import Verif.Lemmas.FilterBasic
/-
C45, C46: the filters that split a cloud.
-/
set_option linter.unusedSectionVars false
namespace Verif
namespace Props
open Flt
variable {K X : Type}

section
variable [Zero K]

/-- A filter that reads the size of its input before its loop distributes the points, whether or not an output is the
input itself. -/
theorem filterSnap_partitions (has : Cloud K → Bool) (inp : String) (outs : List String) (target : FPt K → String)
    (m : FMap K X) (c : Cloud K) (hm : m.get inp = some (.pts c)) (ho : Openable outs m)
    (hs : ∃ n ∈ outs, n ≠ "") (hh : has c = true) (hne : c.pts ≠ []) (ht : ∀ p ∈ c.pts, target p ∈ outs) :
    ∃ m', filterSnap has inp outs target m = .ok m' ∧ Partitioned c outs target m m' := by
  obtain ⟨m1, hm1, hk⟩ := openOutputs_ok (emptyLike c) outs m ho
  have hin := open_input _ _ _ _ inp c hm hk
  refine ⟨_, ?_, partitioned_of c outs target m m1 ho ht hk⟩
  have hany : (outs.any fun n => n ≠ "") = true := by
    obtain ⟨n, hn, h0⟩ := hs
    rw [List.any_eq_true]; exact ⟨n, hn, by simpa using h0⟩
  simp only [filterSnap, pointLayer, hm, hm1, Outcome.bind, hany, Outcome.assert, hin, hh]
  have := partSnap_eq inp target c.pts.length 0 m1 c.pts c [] (by simpa using hin) (by omega)
  simp only [List.drop_zero] at this
  simp [hne, this]

/-- … and it answers at all only so: in any other case it throws and says so, having no undefined behaviour. -/
theorem filterSnap_throws (has : Cloud K → Bool) (inp : String) (outs : List String) (target : FPt K → String)
    (m : FMap K X)
    (h : (∀ c, m.get inp ≠ some (.pts c)) ∨ ¬ Openable outs m ∨ (∀ n ∈ outs, n = "") ∨
      (∃ c, m.get inp = some (.pts c) ∧ (has c = false ∨ c.pts = []))) :
    filterSnap has inp outs target m = .throw := by
  by_cases h1 : ∃ c, m.get inp = some (.pts c)
  · obtain ⟨c, hc⟩ := h1
    by_cases h2 : Openable outs m
    · obtain ⟨m1, hm1, hk⟩ := openOutputs_ok (emptyLike c) outs m h2
      have hin := open_input _ _ _ _ inp c hc hk
      rcases h with h | h | h | ⟨c', hc', h⟩
      · exact absurd hc (h c)
      · exact absurd h2 h
      · have : (outs.any fun n => n ≠ "") = false := by
          rw [List.any_eq_false]; intro n hn; simp [h n hn]
        simp only [filterSnap, pointLayer, hc, hm1, Outcome.bind, this, Outcome.assert]
        rfl
      · rw [hc] at hc'
        obtain rfl : c = c' := by simpa using hc'
        simp only [filterSnap, pointLayer, hc, hm1, Outcome.bind, Outcome.assert]
        by_cases ha : (outs.any fun n => n ≠ "") = true
        · simp only [ha, if_true]
          rw [hin]
          simp only []
          rw [if_neg]
          rcases h with h | h <;> simp [h]
        · simp only [ha]; rfl
    · simp [filterSnap, pointLayer, hc, openOutputs_not _ _ _ h2]
  · have : pointLayer m inp = .throw := by
      unfold pointLayer
      split
      · rename_i c hc; exact absurd ⟨c, hc⟩ h1
      · rfl
    simp [filterSnap, this]

/-- A filter that reads the size of its input at each iteration distributes the points, provided that none of them is
sent to the input layer. -/
theorem filterLive_partitions (inp : String) (outs : List String) (target : FPt K → String)
    (m : FMap K X) (c : Cloud K) (hm : m.get inp = some (.pts c)) (ho : Openable outs m)
    (ht : ∀ p ∈ c.pts, target p ∈ outs) (hno : ∀ p ∈ c.pts, target p ≠ inp ∨ target p = "") :
    ∃ m', (∀ fuel, c.pts.length < fuel → filterLive fuel inp outs target m = some (.ok m')) ∧
      Partitioned c outs target m m' := by
  obtain ⟨m1, hm1, hk⟩ := openOutputs_ok (emptyLike c) outs m ho
  have hin := open_input _ _ _ _ inp c hm hk
  refine ⟨_, fun fuel hf => ?_, partitioned_of c outs target m m1 ho ht hk⟩
  have := partLive_eq inp target fuel 0 m1 c hin hno (by omega) (by omega)
  simp only [List.drop_zero] at this
  simp [filterLive, pointLayer, hm, hm1, this]

/-- If one point of the input is sent to the input layer itself, the loop of such a filter never ends: each copy it appends
is visited, and copied, in turn. -/
theorem filterLive_never_ends (inp : String) (hinp : inp ≠ "") (outs : List String) (target : FPt K → String)
    (hc : ∀ (c : Cloud K) p, target (conform c p) = target p)
    (m : FMap K X) (c : Cloud K) (hm : m.get inp = some (.pts c)) (ho : Openable outs m)
    (p : FPt K) (hp : p ∈ c.pts) (ht : target p = inp) (fuel : Nat) :
    filterLive fuel inp outs target m = none := by
  obtain ⟨m1, hm1, hk⟩ := openOutputs_ok (emptyLike c) outs m ho
  have hin := open_input _ _ _ _ inp c hm hk
  obtain ⟨j, hj, hpj⟩ := List.mem_iff_getElem.1 hp
  have := partLive_none inp hinp target hc fuel 0 j m1 c hin (by omega) hj (by rw [hpj, ht])
  simp [filterLive, pointLayer, hm, hm1, this]

/-- The distribution counts every point once: two output names `a`, `b` (distinct, used) grow together by the size of the
input. -/
theorem partition_counts (c : Cloud K) (a b : String) (hab : a ≠ b) (P : FPt K → Bool) (ha : a ≠ "") (hb : b ≠ "")
    (m m' : FMap K X) (h : Partitioned c [a, b] (fun p => if P p then a else b) m m') :
    sizeNow m' a + sizeNow m' b = sizeNow m a + sizeNow m b + c.pts.length := by
  have key : ∀ n ∈ [a, b], sizeNow m' n = sizeNow m n + (c.pts.filter fun p => (if P p then a else b) = n).length := by
    intro n hn
    have h1 := h n
    have h0 : n ≠ "" := by
      simp only [List.mem_cons, List.not_mem_nil, or_false] at hn
      rcases hn with rfl | rfl <;> assumption
    rw [if_pos ⟨hn, h0⟩] at h1
    obtain ⟨c0, hc0, h2⟩ := h1
    rcases hc0 with hc0 | ⟨hc0, rfl⟩ <;> simp [sizeNow, h2, hc0]
  rw [key a (by simp), key b (by simp)]
  have e1 : (c.pts.filter fun p => decide ((if P p then a else b) = a)) = c.pts.filter P := by
    congr 1; funext p; cases P p <;> simp [hab.symm]
  have e2 : (c.pts.filter fun p => decide ((if P p then a else b) = b)) = c.pts.filter (fun p => !P p) := by
    congr 1; funext p; cases P p <;> simp [hab]
  rw [e1, e2]
  have := List.length_eq_length_filter_add (l := c.pts) P
  omega

/-- A layer that is not an output is not modified by a distribution. -/
theorem partition_frame (c : Cloud K) (outs : List String) (target : FPt K → String) (m m' : FMap K X)
    (h : Partitioned c outs target m m') (n : String) (hn : n ∉ outs) : AMap.get m' n = AMap.get m n := by
  have := h n
  rwa [if_neg (fun h => hn h.1)] at this

/-- The earlier points of every layer stay, in place.
Part of C46: box and range filters do not end if they send a point to their input (`boundingBox_never_ends`, `byRange_never_ends`). -/
theorem partition_keeps_partial (c : Cloud K) (outs : List String) (target : FPt K → String) (m m' : FMap K X)
    (h : Partitioned c outs target m m') (n : String) (c0 : Cloud K) (hn : AMap.get m n = some (.pts c0)) :
    ∃ l, AMap.get m' n = some (.pts { c0 with pts := c0.pts ++ l }) := by
  have := h n
  split at this
  · obtain ⟨c1, hc1, h1⟩ := this
    rcases hc1 with hc1 | ⟨hc1, -⟩
    · rw [hn] at hc1
      obtain rfl : c0 = c1 := by simpa using hc1
      exact ⟨_, h1⟩
    · rw [hn] at hc1; cases hc1
  · exact ⟨[], by rw [this, hn]; simp⟩
end

section
variable [Field K] [LinearOrder K] [IsStrictOrderedRing K]

/-! ### FilterBoundingBox -/

/-- The closed box. -/
def InBox (b : BoxParams K) (p : FPt K) : Prop :=
  (b.xmin ≤ p.x ∧ p.x ≤ b.xmax) ∧ (b.ymin ≤ p.y ∧ p.y ≤ b.ymax) ∧ (b.zmin ≤ p.z ∧ p.z ≤ b.zmax)

theorem box_contains_iff (b : BoxParams K) (p : FPt K) : b.contains p = true ↔ InBox b p := by
  simp only [BoxParams.contains, InBox, Bool.and_eq_true, decide_eq_true_eq]
  tauto

open Classical in
/-- FilterBoundingBox sends the points of the closed box to the inside layer and the rest to the outside layer, in order,
as long as no point goes to the input layer itself. -/
theorem boundingBox_partitions_partial (b : BoxParams K) (m : FMap K X) (c : Cloud K) (hm : m.get b.inp = some (.pts c))
    (ho : Openable [b.inside, b.outside] m)
    (hi : b.inside = b.inp → ∀ p ∈ c.pts, ¬ InBox b p) (hu : b.outside = b.inp → ∀ p ∈ c.pts, InBox b p) :
    ∃ m', (∀ fuel, c.pts.length < fuel → filterBoundingBox b fuel m = some (.ok m')) ∧
      Partitioned c [b.inside, b.outside] (fun p => if InBox b p then b.inside else b.outside) m m' := by
  have e : (fun p => if b.contains p then b.inside else b.outside) =
      fun p => if InBox b p then b.inside else b.outside := by
    funext p
    by_cases h : InBox b p
    · rw [if_pos h, if_pos ((box_contains_iff b p).2 h)]
    · rw [if_neg h, if_neg (fun h' => h ((box_contains_iff b p).1 h'))]
  unfold filterBoundingBox
  rw [e]
  refine filterLive_partitions b.inp _ _ m c hm ho ?_ ?_
  · intro p _; by_cases h : InBox b p <;> simp [h]
  · intro p hp
    by_cases h : InBox b p
    · rw [if_pos h]; left; intro h1; exact hi h1 p hp h
    · rw [if_neg h]; left; intro h1; exact h (hu h1 p hp)

/-- If the input is also the inside layer (or the outside layer) and some point goes there, FilterBoundingBox never ends. -/
theorem boundingBox_never_ends (b : BoxParams K) (m : FMap K X) (c : Cloud K) (hm : m.get b.inp = some (.pts c))
    (hinp : b.inp ≠ "") (ho : Openable [b.inside, b.outside] m) (p : FPt K) (hp : p ∈ c.pts)
    (h : (b.inside = b.inp ∧ InBox b p) ∨ (b.outside = b.inp ∧ ¬ InBox b p)) (fuel : Nat) :
    filterBoundingBox b fuel m = none := by
  refine filterLive_never_ends b.inp hinp _ _ ?_ m c hm ho p hp ?_ fuel
  · intro c p; rfl
  · rcases h with ⟨h1, h2⟩ | ⟨h1, h2⟩
    · rw [if_pos ((box_contains_iff b p).2 h2), h1]
    · rw [if_neg (fun h' => h2 ((box_contains_iff b p).1 h')), h1]

/-! ### FilterByRange -/

/-- the squared distance to the centre -/
def sqDist (r : RangeParams K) (p : FPt K) : K := (p.x - r.cx) ^ 2 + (p.y - r.cy) ^ 2 + (p.z - r.cz) ^ 2

/-- For non-negative bounds the test of the filter is the one on the distance `d` itself. -/
theorem range_inside_iff (r : RangeParams K) (p : FPt K) (h0 : 0 ≤ r.rmin) (h1 : 0 ≤ r.rmax) (d : K) (hd : 0 ≤ d)
    (hsq : d ^ 2 = sqDist r p) : r.isInside p = true ↔ r.rmin ≤ d ∧ d ≤ r.rmax := by
  have e : (p.x - r.cx) * (p.x - r.cx) + (p.y - r.cy) * (p.y - r.cy) + (p.z - r.cz) * (p.z - r.cz) = d * d := by
    have : d * d = d ^ 2 := (sq d).symm
    rw [this, hsq]; simp only [sqDist, sq]
  simp only [RangeParams.isInside, e, Bool.and_eq_true, decide_eq_true_eq, ge_iff_le]
  rw [mul_self_le_mul_self_iff h0 hd, mul_self_le_mul_self_iff hd h1]

/-- With a negative lower bound it is not: a point at distance 1 is outside of `[-2, 5]`. -/
theorem range_negative_min_finding :
    RangeParams.isInside (K := ℚ) ⟨"a", "b", "c", -2, 5, 0, 0, 0⟩ ⟨1, 0, 0, 0, 0, 0⟩ = false := by decide +kernel

/-- FilterByRange distributes by the range test, as long as no point goes to the input layer itself. -/
theorem byRange_partitions_partial (r : RangeParams K) (m : FMap K X) (c : Cloud K) (hm : m.get r.inp = some (.pts c))
    (ho : Openable [r.between, r.outside] m)
    (hi : r.between = r.inp → ∀ p ∈ c.pts, ¬ (r.rmin ^ 2 ≤ sqDist r p ∧ sqDist r p ≤ r.rmax ^ 2))
    (hu : r.outside = r.inp → ∀ p ∈ c.pts, r.rmin ^ 2 ≤ sqDist r p ∧ sqDist r p ≤ r.rmax ^ 2) :
    ∃ m', (∀ fuel, c.pts.length < fuel → filterByRange r fuel m = some (.ok m')) ∧
      Partitioned c [r.between, r.outside]
        (fun p => if r.rmin ^ 2 ≤ sqDist r p ∧ sqDist r p ≤ r.rmax ^ 2 then r.between else r.outside) m m' := by
  have e : (fun p => if r.isInside p then r.between else r.outside) =
      fun p => if r.rmin ^ 2 ≤ sqDist r p ∧ sqDist r p ≤ r.rmax ^ 2 then r.between else r.outside := by
    funext p
    have : r.isInside p = true ↔ (r.rmin ^ 2 ≤ sqDist r p ∧ sqDist r p ≤ r.rmax ^ 2) := by
      simp only [RangeParams.isInside, sqDist, sq, Bool.and_eq_true, decide_eq_true_eq, ge_iff_le]
    by_cases h : r.rmin ^ 2 ≤ sqDist r p ∧ sqDist r p ≤ r.rmax ^ 2
    · rw [if_pos h, if_pos (this.2 h)]
    · rw [if_neg h, if_neg (fun h' => h (this.1 h'))]
  unfold filterByRange
  rw [e]
  refine filterLive_partitions r.inp _ _ m c hm ho ?_ ?_
  · intro p _; split <;> simp
  · intro p hp
    split
    · rename_i h; left; intro h1; exact hi h1 p hp h
    · rename_i h; left; intro h1; exact h (hu h1 p hp)

/-- If the input is also the layer that one of its points goes to, FilterByRange never ends. -/
theorem byRange_never_ends (r : RangeParams K) (m : FMap K X) (c : Cloud K) (hm : m.get r.inp = some (.pts c))
    (hinp : r.inp ≠ "") (ho : Openable [r.between, r.outside] m) (p : FPt K) (hp : p ∈ c.pts)
    (h : (r.between = r.inp ∧ r.isInside p = true) ∨ (r.outside = r.inp ∧ r.isInside p = false)) (fuel : Nat) :
    filterByRange r fuel m = none := by
  refine filterLive_never_ends r.inp hinp _ _ ?_ m c hm ho p hp ?_ fuel
  · intro c p; rfl
  · rcases h with ⟨h1, h2⟩ | ⟨h1, h2⟩ <;> simp [h1, h2]

/-! ### FilterByRing, FilterByIntensity -/

/-- FilterByRing sends the points whose ring is listed to the selected layer, the rest to the other one, also when an
output is the input layer. -/
theorem byRing_partitions (r : RingParams) (m : FMap K X) (c : Cloud K) (hm : m.get r.inp = some (.pts c))
    (ho : Openable [r.selected, r.nonSelected] m) (hs : r.selected ≠ "" ∨ r.nonSelected ≠ "")
    (hh : c.hasRing = true) (hne : c.pts ≠ []) :
    ∃ m', filterByRing r m = .ok m' ∧
      Partitioned c [r.selected, r.nonSelected] (fun p => if p.ring ∈ r.ids then r.selected else r.nonSelected) m m' := by
  have e : (fun p : FPt K => if r.ids.contains p.ring then r.selected else r.nonSelected) =
      fun p => if p.ring ∈ r.ids then r.selected else r.nonSelected := by
    funext p; by_cases h : p.ring ∈ r.ids <;> simp [h]
  unfold filterByRing
  rw [e]
  refine filterSnap_partitions _ r.inp _ _ m c hm ho ?_ hh hne ?_
  · rcases hs with h | h
    · exact ⟨_, by simp, h⟩
    · exact ⟨_, by simp, h⟩
  · intro p _; split <;> simp

/-- FilterByIntensity: low, mid (both thresholds included) and high, also when an output is the input layer. -/
theorem byIntensity_partitions (r : IntensityParams K) (m : FMap K X) (c : Cloud K) (hm : m.get r.inp = some (.pts c))
    (ho : Openable [r.low, r.high, r.mid] m) (hs : r.low ≠ "" ∨ r.high ≠ "" ∨ r.mid ≠ "")
    (hh : c.hasI = true) (hne : c.pts ≠ []) (target : FPt K → String)
    (htl : ∀ p, p.i < r.lowThr → target p = r.low)
    (hth : ∀ p, r.lowThr ≤ p.i → r.highThr < p.i → target p = r.high)
    (htm : ∀ p, r.lowThr ≤ p.i → p.i ≤ r.highThr → target p = r.mid) :
    ∃ m', filterByIntensity r m = .ok m' ∧ Partitioned c [r.low, r.high, r.mid] target m m' := by
  have e : (fun p : FPt K => if p.i < r.lowThr then r.low else if p.i > r.highThr then r.high else r.mid) = target := by
    funext p
    split
    · rename_i h; rw [htl p h]
    · rename_i h
      rw [not_lt] at h
      split
      · rename_i h2; rw [hth p h h2]
      · rename_i h2; rw [not_lt] at h2; rw [htm p h h2]
  unfold filterByIntensity
  rw [e]
  refine filterSnap_partitions _ r.inp _ _ m c hm ho ?_ hh hne ?_
  · rcases hs with h | h | h
    · exact ⟨_, by simp, h⟩
    · exact ⟨_, by simp, h⟩
    · exact ⟨_, by simp, h⟩
  · intro p _; rw [← e]; simp only []; split
    · simp
    · split <;> simp

/-- The loader of FilterByIntensity refuses exactly the configurations without a low and without a mid output: one with a
high output only, which the filter itself would run, is refused. -/
theorem byIntensity_accepted_iff (r : IntensityParams K) : r.accepted = true ↔ r.low ≠ "" ∨ r.mid ≠ "" := by
  simp [IntensityParams.accepted]

theorem byIntensity_high_only_finding :
    IntensityParams.accepted (K := ℚ) ⟨"in", "", "high", "", 1, 2⟩ = false ∧
    (filterByIntensity (K := ℚ) (X := Unit) ⟨"in", "", "high", "", 1, 2⟩
      [("in", .pts { pts := [⟨0, 0, 0, 3, 0, 0⟩] })]).Sat fun m =>
        AMap.get m "high" = some (.pts { pts := [⟨0, 0, 0, 3, 0, 0⟩] }) := by
  constructor <;> decide +kernel

/-- An empty input cloud, which the box and range filters take, is an error for the ring and intensity filters. -/
theorem empty_input_finding (r : RingParams) (q : IntensityParams K) (m : FMap K X) (c : Cloud K) (hc : c.pts = [])
    (hr : m.get r.inp = some (.pts c)) (hq : m.get q.inp = some (.pts c)) :
    filterByRing r m = .throw ∧ filterByIntensity q m = .throw :=
  ⟨filterSnap_throws _ _ _ _ _ (Or.inr (Or.inr (Or.inr ⟨c, hr, Or.inr hc⟩))),
   filterSnap_throws _ _ _ _ _ (Or.inr (Or.inr (Or.inr ⟨c, hq, Or.inr hc⟩)))⟩
end

/-! ### the hypotheses are met -/

/-- three points, in a layer "raw"; another, occupied, layer "in" -/
def exFMap : FMap ℚ Unit :=
  [("in", .pts { pts := [⟨9, 9, 9, 0, 0, 0⟩] }),
   ("raw", .pts { pts := [⟨1, 0, 0, 5, 1, 0⟩, ⟨7, 0, 0, 1, 2, 0⟩, ⟨2, 2, 0, 9, 1, 0⟩] })]

def exBox (i o : String) : BoxParams ℚ := ⟨"raw", i, o, 0, 0, 0, 2, 2, 2⟩

example : filterBoundingBox (exBox "in" "out") 10 exFMap = some (.ok
    [("in", .pts { pts := [⟨9, 9, 9, 0, 0, 0⟩, ⟨1, 0, 0, 5, 1, 0⟩, ⟨2, 2, 0, 9, 1, 0⟩] }),
     ("out", .pts { pts := [⟨7, 0, 0, 1, 2, 0⟩] }),
     ("raw", .pts { pts := [⟨1, 0, 0, 5, 1, 0⟩, ⟨7, 0, 0, 1, 2, 0⟩, ⟨2, 2, 0, 9, 1, 0⟩] })]) := by decide +kernel

theorem exFMap_openable : Openable ["in", "out"] exFMap := by
  intro n hn _ x
  simp only [List.mem_cons, List.not_mem_nil, or_false] at hn
  rcases hn with rfl | rfl <;> simp [exFMap, AMap.get]

example : ∃ m', (∀ fuel, 3 < fuel → filterBoundingBox (exBox "in" "out") fuel exFMap = some (.ok m')) ∧ True := by
  obtain ⟨m', h, -⟩ := boundingBox_partitions_partial (exBox "in" "out") exFMap _ rfl exFMap_openable
    (by intro h; exact absurd h (by decide)) (by intro h; exact absurd h (by decide))
  exact ⟨m', h, trivial⟩

/-- The output of the inside points being the input itself: no number of iterations is enough. -/
example (fuel : Nat) : filterBoundingBox (exBox "raw" "") fuel exFMap = none := by
  refine boundingBox_never_ends (exBox "raw" "") exFMap _ rfl (by decide) ?_ ⟨1, 0, 0, 5, 1, 0⟩ ?_ (Or.inl ⟨rfl, ?_⟩) fuel
  · intro n hn h0 x
    simp only [exBox, List.mem_cons, List.not_mem_nil, or_false] at hn
    rcases hn with rfl | rfl
    · simp [exFMap, AMap.get]
    · exact absurd rfl h0
  · simp
  · simp only [InBox, exBox]; norm_num

/-- The ring filter with its input as an output ends, and appends. -/
example : (filterByRing ⟨"raw", "raw", "", [1]⟩ exFMap).Sat fun m => AMap.get m "raw" = some (.pts { pts :=
    [⟨1, 0, 0, 5, 1, 0⟩, ⟨7, 0, 0, 1, 2, 0⟩, ⟨2, 2, 0, 9, 1, 0⟩, ⟨1, 0, 0, 5, 1, 0⟩, ⟨2, 2, 0, 9, 1, 0⟩] }) := by
  decide +kernel

end Props
end Verif
