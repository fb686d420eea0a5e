import Verif.Spec.FpDecimate
import Verif.Props.Voxels
import Verif.Props.FpVoxel
/-!
C106: voxel decimation in the arithmetic of the machine.
-/
namespace Verif
namespace Props
open Spec Fp Flt Vox
variable {X : Type}

/-! ### voxels -/

theorem idxF_iff (A : Arith) (res x : A.Num) (i : ℤ) : (VoxelIdx.idx res x : Outcome ℤ) = .ok i ↔ IdxF A res x i := by
  refine (coord2idxF_ok (A := A) (res := res) (x := x) (i := i)).trans ?_
  unfold IdxF
  constructor
  · rintro ⟨q, h1, h2, h3, rfl⟩; exact ⟨q, h1, rfl, by omega, by omega⟩
  · rintro ⟨q, h1, rfl, h2, h3⟩; exact ⟨q, h1, by omega, by omega, rfl⟩

theorem idxF_cases (A : Arith) (res x : A.Num) : (∃ i, (VoxelIdx.idx res x : Outcome ℤ) = .ok i) ∨ (VoxelIdx.idx res x : Outcome ℤ) = .ub := by
  show (∃ i, coord2idxF A res x = .ok i) ∨ coord2idxF A res x = .ub
  unfold coord2idxF
  split
  · split
    · exact .inl ⟨_, rfl⟩
    · exact .inr rfl
  · exact .inr rfl

theorem voxelF_iff (A : Arith) (res : A.Num) (p : FPt A.Num) (k : Idx) : voxelOf res p = .ok k ↔ VoxelF A res p k := by
  unfold voxelOf VoxelF
  simp only [Outcome.bind_eq_ok, idxF_iff, Outcome.ok.injEq]
  constructor
  · rintro ⟨i, hi, j, hj, l, hl, rfl⟩; exact ⟨hi, hj, hl⟩
  · rintro ⟨hi, hj, hl⟩; exact ⟨_, hi, _, hj, _, hl, rfl⟩

theorem voxelF_ub (A : Arith) (res : A.Num) (p : FPt A.Num) : voxelOf res p = .ub ↔ ¬ ∃ k, VoxelF A res p k := by
  constructor
  · rintro h ⟨k, hk⟩
    rw [(voxelF_iff A res p k).2 hk] at h; cases h
  · intro h
    have h' : ∀ k, voxelOf res p ≠ .ok k := fun k hk => h ⟨k, (voxelF_iff A res p k).1 hk⟩
    unfold voxelOf at h' ⊢
    rcases idxF_cases A res p.x with ⟨i, hi⟩ | hi
    · rw [hi] at h' ⊢
      rcases idxF_cases A res p.y with ⟨j, hj⟩ | hj
      · rw [hj] at h' ⊢
        rcases idxF_cases A res p.z with ⟨l, hl⟩ | hl
        · rw [hl] at h'
          exact absurd rfl (h' (i, j, l))
        · rw [hl]; rfl
      · rw [hj]; rfl
    · rw [hi]; rfl

theorem voxelF_ne_throw (A : Arith) (res : A.Num) (p : FPt A.Num) : voxelOf res p ≠ .throw := by
  by_cases h : ∃ k, VoxelF A res p k
  · obtain ⟨k, hk⟩ := h
    rw [(voxelF_iff A res p k).2 hk]; simp
  · rw [(voxelF_ub A res p).2 h]; simp

/-! ### representatives -/

theorem sumF_eq (A : Arith) (l : List A.Num) (s : A.Num) : l.foldl (· + ·) s = sumF A l s := by
  induction l generalizing s with
  | nil => rfl
  | cons x l ih => rw [List.foldl_cons, ih]; rfl

theorem meanOf_float (A : Arith) (v : List (FPt A.Num)) : meanOf v = averageF A v := by
  simp only [meanOf, averageF, barePt, sumF_eq, meanF, List.length_map]
  rfl

theorem dist2F_eq (A : Arith) (a b : FPt A.Num) : sqErr a b = dist2F A a b := rfl

theorem flt_trans {a b c : Fl} (h1 : a.lt b = true) (h2 : b.lt c = true) : a.lt c = true := by
  cases a <;> cases b <;> cases c <;> simp_all [Fl.lt]
  exact lt_trans h1 h2

theorem closestLoop_float (A : Arith) (mean : FPt A.Num) (ps seen : List (FPt A.Num)) (b : FPt A.Num)
    (hs : ∀ q ∈ seen, (dist2F A q mean).lt (dist2F A b mean) = false) (hb : b ∈ seen) :
    ∃ r, closestLoop mean ps (some b) = some r ∧ r ∈ seen ++ ps ∧
      ∀ q ∈ seen ++ ps, (dist2F A q mean).lt (dist2F A r mean) = false := by
  induction ps generalizing b seen with
  | nil => exact ⟨b, rfl, by simpa using hb, by simpa using hs⟩
  | cons p ps ih =>
    have nn : ∀ a : Fl, a.lt a = false := by intro a; cases a <;> simp [Fl.lt]
    rw [closestLoop]
    by_cases h : sqErr p mean < sqErr b mean
    · have h' : (dist2F A p mean).lt (dist2F A b mean) = true := h
      rw [if_pos h]
      obtain ⟨r, h1, h2, h3⟩ := ih (seen ++ [p]) p (by
        intro q hq
        rcases List.mem_append.1 hq with hq | hq
        · by_contra hc
          rw [Bool.not_eq_false] at hc
          have := flt_trans hc h'
          rw [hs q hq] at this; cases this
        · rw [List.mem_singleton] at hq; subst hq; exact nn _) (by simp)
      exact ⟨r, h1, by simpa using h2, by simpa using h3⟩
    · have h' : (dist2F A p mean).lt (dist2F A b mean) = false := by
        rw [← Bool.not_eq_true]; exact h
      rw [if_neg h]
      obtain ⟨r, h1, h2, h3⟩ := ih (seen ++ [p]) b (by
        intro q hq
        rcases List.mem_append.1 hq with hq | hq
        · exact hs q hq
        · rw [List.mem_singleton] at hq; subst hq; exact h') (by simp [hb])
      exact ⟨r, h1, by simpa using h2, by simpa using h3⟩

theorem representative_float (A : Arith) (meth : Method) (draw : Nat) (ps : List (FPt A.Num)) (h : ps ≠ []) :
    ∃ r, representative meth draw ps = .ok r ∧ IsRepF A meth ps r := by
  cases meth with
  | firstPoint =>
    cases ps with
    | nil => exact absurd rfl h
    | cons p ps => exact ⟨p, rfl, rfl⟩
  | voxelAverage => exact ⟨_, rfl, meanOf_float A ps⟩
  | randomPoint =>
    have hl : 0 < ps.length := List.length_pos_iff.2 h
    have hd : draw % ps.length < ps.length := Nat.mod_lt _ hl
    refine ⟨ps[draw % ps.length], ?_, List.getElem_mem hd⟩
    simp only [representative, List.getElem?_eq_getElem hd]
  | closestToAverage =>
    cases ps with
    | nil => exact absurd rfl h
    | cons p ps =>
      have nn : ∀ a : Fl, a.lt a = false := by intro a; cases a <;> simp [Fl.lt]
      obtain ⟨r, h1, h2, h3⟩ := closestLoop_float A (meanOf (p :: ps)) ps [p] p (by
        intro q hq; rw [List.mem_singleton] at hq; subst hq; exact nn _) (by simp)
      refine ⟨r, ?_, by simpa using h2, ?_⟩
      · simp only [representative, closestLoop, h1]
      · rw [← meanOf_float]; simpa using h3

/-! ### the filter -/

/-- FirstPoint: one point of the input, unchanged, per voxel as computed: the first one.  Whatever the rounding, provided all the points have a voxel. -/
theorem decimate_float_first (A : Arith) (key : FPt A.Num → Idx) (p : DecParams A.Num) (hp : p.method = .firstPoint)
    (visit1 : List (Idx × FPt A.Num) → List (Idx × FPt A.Num)) (hv : ∀ g, (visit1 g).Perm g)
    (visitM : List (Idx × List Nat) → List (Idx × List Nat)) (draws : Nat → Nat) (grid : GridM) (m : FMap A.Num X)
    (hi : GoodInputs p m) (ho : GoodOutput p m) (n : String) (l : List String) (hnl : present p m = n :: l)
    (ha : 0 < p.minPts → p.out ∉ p.inputs)
    (hr : ∀ q ∈ (bigOnes p m).flatMap (ptsOf m), VoxelF A p.res q (key q))
    (fuel : Nat) (hf : ∀ n ∈ present p m, sizeNow m n < fuel) :
    ∃ m' reps, filterDecimate p visit1 visitM draws fuel grid m = some (.ok (m', grid)) ∧
      OutputBy key (IsRepF A p.method) p.flatten ((bigOnes p m).flatMap (ptsOf m)) reps ∧
      AppendedTo p.out (classOf m n) (passed p.flatten ((smallOnes p m).flatMap (ptsOf m)) ++ reps) m m' := by
  rw [hp]
  exact decimate_first_by key p hp visit1 hv visitM draws grid m hi ho n l hnl ha
    (fun q hq => (voxelF_iff A p.res q _).2 (hr q hq)) fuel hf

/-- The other methods: one representative per voxel as computed. -/
theorem decimate_float_multi (A : Arith) (key : FPt A.Num → Idx) (p : DecParams A.Num) (hp : p.method ≠ .firstPoint) (htsl : p.useTsl = true)
    (visit1 : List (Idx × FPt A.Num) → List (Idx × FPt A.Num))
    (visitM : List (Idx × List Nat) → List (Idx × List Nat)) (hv : ∀ g, (visitM g).Perm g)
    (draws : Nat → Nat) (grid : GridM) (m : FMap A.Num X)
    (hi : GoodInputs p m) (ho : GoodOutput p m) (n : String) (l : List String) (hnl : present p m = n :: l)
    (ha : 0 < p.minPts → p.out ∉ p.inputs) (b : String) (hb : bigOnes p m = [b])
    (hr : ∀ q ∈ ptsOf m b, VoxelF A p.res q (key q))
    (fuel : Nat) (hf : ∀ n ∈ present p m, sizeNow m n < fuel) :
    ∃ m' reps grid', filterDecimate p visit1 visitM draws fuel grid m = some (.ok (m', grid')) ∧
      OutputBy key (IsRepF A p.method) p.flatten (ptsOf m b) reps ∧
      AppendedTo p.out (classOf m n) (passed p.flatten ((smallOnes p m).flatMap (ptsOf m)) ++ reps) m m' :=
  decimate_multi_by key (IsRepF A p.method) p (fun draw ps h => representative_float A p.method draw ps h) hp htsl visit1 visitM hv draws grid m
    hi ho n l hnl ha b hb (fun q hq => (voxelF_iff A p.res q _).2 (hr q hq)) fuel hf

/-- One point without a voxel among those to decimate makes the whole filter undefined. -/
theorem decimate_float_undefined (A : Arith) (p : DecParams A.Num)
    (visit1 : List (Idx × FPt A.Num) → List (Idx × FPt A.Num))
    (visitM : List (Idx × List Nat) → List (Idx × List Nat))
    (draws : Nat → Nat) (grid : GridM) (m : FMap A.Num X)
    (hi : GoodInputs p m) (ho : GoodOutput p m) (n : String) (l : List String) (hnl : present p m = n :: l)
    (ha : 0 < p.minPts → p.out ∉ p.inputs) (hb : p.method = .firstPoint ∨ (bigOnes p m).length = 1)
    (q : FPt A.Num) (hq : q ∈ (bigOnes p m).flatMap (ptsOf m)) (hr : ¬ ∃ k, VoxelF A p.res q k)
    (fuel : Nat) (hf : ∀ n ∈ present p m, sizeNow m n < fuel) :
    filterDecimate p visit1 visitM draws fuel grid m = some .ub := by
  obtain ⟨m1, h1, -, h3, h4⟩ := filterDecimate_unfold p visit1 visitM draws grid m hi ho n l hnl ha fuel hf
  rw [h1]
  congr 1
  unfold decimateCore
  by_cases hp : p.method = .firstPoint
  · rw [if_pos hp, processLayers_ub _ _ _ _ (fun q _ => voxelF_ne_throw A p.res q)
      ⟨q, by rw [h3]; exact hq, (voxelF_ub A p.res q).2 hr⟩]
    rfl
  · rw [if_neg hp]
    obtain ⟨b, hb⟩ := List.length_eq_one_iff.1 (hb.resolve_left hp)
    rw [hb] at h4 hq ⊢
    simp only [List.flatMap_cons, List.flatMap_nil, List.append_nil] at hq
    simp only [h4 b (by simp)]
    rw [processMulti_ub_by _ _ _ _ (fun q _ => voxelF_ne_throw A p.res q) ⟨q, hq, (voxelF_ub A p.res q).2 hr⟩]
    rfl

/-- In particular a point with a coordinate that is not a finite number. -/
theorem no_voxel_of_not_finite (A : Arith) (res : A.Num) (q : FPt A.Num)
    (h : ∃ c ∈ [A.val q.x, A.val q.y, A.val q.z], c = .nan ∨ c = .pinf ∨ c = .ninf) : ¬ ∃ k, VoxelF A res q k := by
  have key : ∀ c : Fl, (c = .nan ∨ c = .pinf ∨ c = .ninf) → ∀ i, ¬ IdxF A res c i := by
    intro c hc i hi
    have h1 := voxel_float_undefined A res c (by tauto)
    have h2 := (idxF_iff A res c i).2 hi
    have h3 : coord2idxF A res c = .ok i := h2
    rw [h1] at h3; cases h3
  rintro ⟨k, h1, h2, h3⟩
  obtain ⟨c, hc, hn⟩ := h
  simp only [List.mem_cons, List.not_mem_nil, or_false] at hc
  rcases hc with rfl | rfl | rfl
  · exact key _ hn _ h1
  · exact key _ hn _ h2
  · exact key _ hn _ h3

/-- A representative that is a point of the cloud is a point of its voxel. -/
theorem rep_in_voxel (A : Arith) (meth : Method) (hm : meth ≠ .voxelAverage) (v : List (FPt A.Num)) (r : FPt A.Num) (h : IsRepF A meth v r) :
    r ∈ v := by
  cases meth with
  | firstPoint => exact List.mem_of_head? h
  | randomPoint => exact h
  | closestToAverage => exact h.1
  | voxelAverage => exact absurd rfl hm

/-! ### the accuracy of the average -/

theorem sumF_inf (A : Arith) (l : List ℚ) : sumF A (l.map .fin) .pinf = .pinf ∧ sumF A (l.map .fin) .ninf = .ninf := by
  induction l with
  | nil => exact ⟨rfl, rfl⟩
  | cons x l ih => exact ih

theorem sumF_close (A : Arith) (u : ℚ) (hu : 0 ≤ u) (hA : AddAccurate A u) (l : List ℚ) (s t : ℚ) (hs : A.rnd s = s)
    (hl : ∀ x ∈ l, A.rnd x = x) (h : sumF A (l.map .fin) (.fin s) = .fin t) :
    |t - (s + l.sum)| ≤ ((1 + u) ^ l.length - 1) * (|s| + (l.map abs).sum) := by
  induction l generalizing s with
  | nil =>
    simp only [List.map_nil, sumF, Fl.fin.injEq] at h
    subst h; simp
  | cons x l ih =>
    rw [List.map_cons, sumF, Arith.add] at h
    cases hf : A.fl (s + x) with
    | pinf => rw [hf, (sumF_inf A l).1] at h; cases h
    | ninf => rw [hf, (sumF_inf A l).2] at h; cases h
    | nan => exact absurd hf (fl_ne_nan A _)
    | fin s1 =>
      rw [hf] at h
      have e := ((fl_fin_iff A).1 hf).1
      have hx := hl x (List.mem_cons_self ..)
      have ih := ih s1 (by rw [← e]; exact A.idem _) (fun y hy => hl y (List.mem_cons_of_mem _ hy)) h
      have a := hA s x hs hx
      rw [e] at a
      have hk : 1 ≤ (1 + u) ^ l.length := one_le_pow₀ (by linarith)
      have hT : 0 ≤ (l.map abs).sum := List.sum_nonneg (by simp)
      have b1 := abs_add_le s x
      have b2 : |s1| ≤ (1 + u) * (|s| + |x|) := by
        have : |s1| ≤ |s1 - (s + x)| + |s + x| := by
          have := abs_add_le (s1 - (s + x)) (s + x); rwa [sub_add_cancel] at this
        nlinarith [abs_nonneg (s + x)]
      have b3 : |s1 - (s + x)| ≤ u * (|s| + |x|) := a.trans (mul_le_mul_of_nonneg_left b1 hu)
      have b4 : |t - (s + (x + l.sum))| ≤ |t - (s1 + l.sum)| + |s1 - (s + x)| := by
        have := abs_add_le (t - (s1 + l.sum)) (s1 - (s + x))
        rwa [show t - (s1 + l.sum) + (s1 - (s + x)) = t - (s + (x + l.sum)) by ring] at this
      rw [List.sum_cons, List.map_cons, List.sum_cons, List.length_cons, pow_succ]
      have b5 : ((1 + u) ^ l.length - 1) * (|s1| + (l.map abs).sum) ≤
          ((1 + u) ^ l.length - 1) * ((1 + u) * (|s| + |x|) + (l.map abs).sum) :=
        mul_le_mul_of_nonneg_left (by linarith) (by linarith)
      have b6 : 0 ≤ u * (1 + u) ^ l.length * (l.map abs).sum := by positivity
      nlinarith

/-- the last two operations -/
theorem mean_step (u η n T S t i m k : ℚ) (hu : 0 ≤ u) (hη : 0 ≤ η) (hn : 0 < n) (hk : 1 ≤ k)
    (hT : 0 ≤ T) (hS : |S| ≤ T) (h1 : |t - S| ≤ (k - 1) * T) (h2 : |i - 1 / n| ≤ u * (1 / n) + η) (h3 : |m - t * i| ≤ u * |t * i| + η) :
    |m - S / n| ≤ (k * (1 + u) ^ 2 - 1) * (T / n) + (k * (1 + u) * T + 1) * η := by
  have ht : |t| ≤ k * T := by
    have := abs_add_le (t - S) S; rw [sub_add_cancel] at this; nlinarith
  have hin : 0 < 1 / n := by positivity
  have hi : |i| ≤ (1 + u) * (1 / n) + η := by
    have := abs_add_le (i - 1 / n) (1 / n); rw [sub_add_cancel, abs_of_pos hin] at this; linarith
  have e : m - S / n = (m - t * i) + (t * (i - 1 / n) + (t - S) * (1 / n)) := by ring
  have c1 : |t * i| ≤ k * T * ((1 + u) * (1 / n) + η) := by
    rw [abs_mul]; exact mul_le_mul ht hi (abs_nonneg _) (by positivity)
  have c2 : |t * (i - 1 / n)| ≤ k * T * (u * (1 / n) + η) := by
    rw [abs_mul]; exact mul_le_mul ht h2 (abs_nonneg _) (by positivity)
  have c3 : |(t - S) * (1 / n)| ≤ (k - 1) * T * (1 / n) := by
    rw [abs_mul, abs_of_pos hin]; exact mul_le_mul_of_nonneg_right h1 hin.le
  have c4 : u * |t * i| ≤ u * (k * T * ((1 + u) * (1 / n) + η)) := mul_le_mul_of_nonneg_left c1 hu
  rw [e]
  have d1 := abs_add_le (m - t * i) (t * (i - 1 / n) + (t - S) * (1 / n))
  have d2 := abs_add_le (t * (i - 1 / n)) ((t - S) * (1 / n))
  have f : (k * (1 + u) ^ 2 - 1) * (T / n) + (k * (1 + u) * T + 1) * η =
      u * (k * T * ((1 + u) * (1 / n) + η)) + η + k * T * (u * (1 / n) + η) + (k - 1) * T * (1 / n) := by
    rw [div_eq_mul_one_div T n]; ring
  rw [f]; linarith

/-- The mean of one coordinate over a voxel with `n` points: how far the computed one may be from the true one. -/
theorem average_float_error (A : Arith) (u η : ℚ) (hu : 0 ≤ u) (hη : 0 ≤ η) (hA : Accurate A u η) (hS : AddAccurate A u) (l : List ℚ) (hl : l ≠ [])
    (hr : ∀ x ∈ l, A.rnd x = x) (hn : A.fl l.length = .fin l.length) (m : ℚ) (h : meanF A (l.map .fin) = .fin m) :
    |m - l.sum / l.length| ≤ ((1 + u) ^ (l.length + 2) - 1) * ((l.map abs).sum / l.length) + ((1 + u) ^ (l.length + 1) * (l.map abs).sum + 1) * η := by
  have hlen : (0 : ℚ) < l.length := by exact_mod_cast List.length_pos_iff.2 hl
  unfold meanF at h
  rw [List.length_map, hn] at h
  simp only [Arith.div, if_neg hlen.ne'] at h
  cases hs : sumF A (l.map .fin) (.fin 0) with
  | nan => rw [hs] at h; simp [Arith.mul] at h
  | pinf => rw [hs] at h; cases hd : A.fl (1 / l.length) <;> rw [hd] at h <;> simp [Arith.mul, infOf] at h; split_ifs at h <;> simp [Fl.neg] at h
  | ninf => rw [hs] at h; cases hd : A.fl (1 / l.length) <;> rw [hd] at h <;> simp [Arith.mul, infOf] at h; split_ifs at h <;> simp [Fl.neg] at h
  | fin t =>
    rw [hs] at h
    have c := sumF_close A u hu hS l 0 t (rnd_zero A) hr hs
    cases hd : A.fl (1 / l.length) with
    | nan => exact absurd hd (fl_ne_nan A _)
    | pinf => rw [hd] at h; simp [Arith.mul, infOf] at h; split_ifs at h
    | ninf => rw [hd] at h; simp [Arith.mul, infOf] at h; split_ifs at h <;> simp [Fl.neg] at h
    | fin i =>
      rw [hd] at h
      have a1 := hA (1 / l.length)
      have a2 := hA (t * i)
      rw [((fl_fin_iff A).1 hd).1, abs_of_pos (show (0 : ℚ) < 1 / l.length by positivity)] at a1
      rw [((fl_fin_iff A).1 (show A.fl (t * i) = .fin m from h)).1] at a2
      rw [zero_add, abs_zero, zero_add] at c
      have hk : 1 ≤ (1 + u) ^ l.length := one_le_pow₀ (by linarith)
      have hT : 0 ≤ (l.map abs).sum := List.sum_nonneg (by simp)
      have hST : |l.sum| ≤ (l.map abs).sum := by
        clear c hs hT hd h a1 a2 hn hlen hr hl hk
        induction l with
        | nil => simp
        | cons x l ih =>
          rw [List.sum_cons, List.map_cons, List.sum_cons]
          exact (abs_add_le _ _).trans (by linarith)
      have := mean_step u η l.length _ _ t i m _ hu hη hlen hk hT hST c a1 a2
      rw [pow_add, pow_succ (1 + u) l.length]
      exact this

theorem sumF_finite (A : Arith) (u : ℚ) (hu : 0 ≤ u) (hA : AddAccurate A u) (l : List ℚ) (s : ℚ) (hs : A.rnd s = s)
    (hl : ∀ x ∈ l, A.rnd x = x) (h : (1 + u) ^ l.length * (|s| + (l.map abs).sum) ≤ A.top) :
    ∃ t, sumF A (l.map .fin) (.fin s) = .fin t ∧ |t| ≤ A.top := by
  induction l generalizing s with
  | nil => exact ⟨s, rfl, by simpa using h⟩
  | cons x l ih =>
    rw [List.map_cons, sumF, Arith.add]
    have hx := hl x (List.mem_cons_self ..)
    have a := hA s x hs hx
    have b1 := abs_add_le s x
    have hk : 1 ≤ (1 + u) ^ l.length := one_le_pow₀ (by linarith)
    have hT : 0 ≤ (l.map abs).sum := List.sum_nonneg (by simp)
    have b2 : |A.rnd (s + x)| ≤ (1 + u) * (|s| + |x|) := by
      have : |A.rnd (s + x)| ≤ |A.rnd (s + x) - (s + x)| + |s + x| := by
        have := abs_add_le (A.rnd (s + x) - (s + x)) (s + x); rwa [sub_add_cancel] at this
      nlinarith [abs_nonneg (s + x)]
    rw [List.map_cons, List.sum_cons, List.length_cons, pow_succ] at h
    have hsx : 0 ≤ |s| + |x| := by positivity
    have b3 : (1 + u) ^ l.length * (|A.rnd (s + x)| + (l.map abs).sum) ≤ A.top := by
      refine le_trans ?_ h
      have := mul_le_mul_of_nonneg_left b2 (show (0 : ℚ) ≤ (1 + u) ^ l.length by positivity)
      have : 0 ≤ u * (1 + u) ^ l.length * (l.map abs).sum := by positivity
      nlinarith
    have b4 : |A.rnd (s + x)| ≤ A.top := by
      refine le_trans ?_ b3
      nlinarith [abs_nonneg (A.rnd (s + x))]
    have hf : A.fl (s + x) = .fin (A.rnd (s + x)) := (fl_fin_iff A).2 ⟨rfl, (abs_le.1 b4).1, (abs_le.1 b4).2⟩
    rw [hf]
    exact ih (A.rnd (s + x)) (A.idem _) (fun y hy => hl y (List.mem_cons_of_mem _ hy)) b3

theorem meanF_finite (A : Arith) (u : ℚ) (hu : 0 ≤ u) (hS : AddAccurate A u) (l : List ℚ) (hl : l ≠ [])
    (hr : ∀ x ∈ l, A.rnd x = x) (hn : A.fl l.length = .fin l.length) (h : (1 + u) ^ l.length * (l.map abs).sum ≤ A.top) :
    ∃ m, meanF A (l.map .fin) = .fin m := by
  have hlen : (1 : ℚ) ≤ l.length := by exact_mod_cast List.length_pos_iff.2 hl
  obtain ⟨t, h1, h2⟩ := sumF_finite A u hu hS l 0 (rnd_zero A) hr (by rw [abs_zero, zero_add]; exact h)
  unfold meanF
  rw [List.length_map, hn, h1]
  simp only [Arith.div, if_neg (show (l.length : ℚ) ≠ 0 by linarith)]
  have i0 : 0 ≤ A.rnd (1 / l.length) := by
    have := A.mono (show (0 : ℚ) ≤ 1 / l.length by positivity); rwa [rnd_zero] at this
  have i1 : A.rnd (1 / l.length) ≤ 1 := by
    have := A.mono (show 1 / (l.length : ℚ) ≤ 1 by rw [div_le_one (by linarith)]; exact hlen); rwa [A.rnd_one] at this
  have ht := A.one_le_top
  rw [(fl_fin_iff A).2 ⟨rfl, by linarith, by linarith⟩]
  have b : |t * A.rnd (1 / l.length)| ≤ A.top := by
    rw [abs_mul, abs_of_nonneg i0]
    nlinarith [abs_nonneg t]
  have r1 := A.mono (abs_le.1 b).2
  have r2 := A.mono (abs_le.1 b).1
  rw [A.rnd_top] at r1
  rw [A.rnd_neg, A.rnd_top] at r2
  exact ⟨_, (fl_fin_iff A).2 ⟨rfl, r2, r1⟩⟩

theorem pow_le_lin (u : ℚ) (hu : 0 ≤ u) (k : ℕ) (h : 2 * k * u ≤ 1) : (1 + u) ^ k ≤ 1 + 2 * k * u := by
  induction k with
  | zero => simp
  | succ k ih =>
    push_cast at h ⊢
    have h1 : 2 * (k : ℚ) * u ≤ 1 := by nlinarith
    have h2 := ih h1
    have h3 := mul_le_mul_of_nonneg_right h2 (show 0 ≤ 1 + u by linarith)
    rw [pow_succ]
    nlinarith

/-- In `float`: with up to 2^23 - 2 points in the voxel, coordinates of at most `M`, no overflow: the computed mean of a coordinate is within `(n + 2) M / 2^23` of the true
one (and a term of the order of the smallest numbers of the format). -/
theorem average_float32_error (l : List ℚ) (hl : l ≠ []) (hn : l.length + 2 ≤ 8388608) (M : ℚ) (hM : ∀ x ∈ l, |x| ≤ M) (hM1 : l.length * M ≤ 2 ^ 126)
    (hr : ∀ x ∈ l, Finite binary32 (.fin x)) :
    ∃ m, meanF binary32 (l.map .fin) = .fin m ∧
      |m - l.sum / l.length| ≤ (l.length + 2) * M / 2 ^ 23 + (2 * (l.length * M) + 1) / 2 ^ 150 := by
  have hlen : (1 : ℚ) ≤ l.length := by exact_mod_cast List.length_pos_iff.2 hl
  have hn' : (l.length : ℚ) + 2 ≤ 8388608 := by exact_mod_cast hn
  have hr' : ∀ x ∈ l, binary32.rnd x = x := by
    intro x hx
    obtain ⟨q, hq, h⟩ := hr x hx
    exact ((fl_fin_iff _).1 h).1
  have ht : binary32.top = 2 ^ 104 * (2 ^ 24 - 1) := rfl
  have hfl : binary32.fl l.length = .fin l.length := by
    have := binary32_int l.length (by rw [abs_of_nonneg (by positivity)]; omega)
    rw [Int.cast_natCast] at this
    refine (fl_fin_iff _).2 ⟨this, ?_, ?_⟩ <;> rw [this, ht] <;> linarith
  have hT : (l.map abs).sum ≤ l.length * M := by
    clear hM1 hr hr' hfl hn hn' hlen hl
    induction l with
    | nil => simp
    | cons x l ih =>
      rw [List.map_cons, List.sum_cons, List.length_cons]
      push_cast
      have := ih (fun y hy => hM y (List.mem_cons_of_mem _ hy))
      have := hM x (List.mem_cons_self ..)
      linarith
  have hT0 : 0 ≤ (l.map abs).sum := List.sum_nonneg (by simp)
  have p0 := pow_le_lin (1 / 2 ^ 24) (by norm_num) l.length (by linarith)
  have p1 := pow_le_lin (1 / 2 ^ 24) (by norm_num) (l.length + 1) (by push_cast; linarith)
  have p2 := pow_le_lin (1 / 2 ^ 24) (by norm_num) (l.length + 2) (by push_cast; linarith)
  push_cast at p1 p2
  obtain ⟨m, hm⟩ := meanF_finite binary32 (1 / 2 ^ 24) (by norm_num) binary32_add_accurate l hl hr' hfl (by
    have q : ((1 : ℚ) + 1 / 2 ^ 24) ^ l.length ≤ 2 := by linarith
    have := mul_le_mul q hT hT0 (by norm_num)
    rw [ht]; linarith)
  refine ⟨m, hm, (average_float_error binary32 (1 / 2 ^ 24) (1 / 2 ^ 150) (by norm_num) (by norm_num) binary32_accurate binary32_add_accurate l hl hr' hfl m hm).trans ?_⟩
  have a1 : (l.map abs).sum / l.length ≤ M := by rw [div_le_iff₀ (by linarith)]; linarith
  have a0 : 0 ≤ (l.map abs).sum / l.length := by positivity
  have a2 : ((1 : ℚ) + 1 / 2 ^ 24) ^ (l.length + 2) - 1 ≤ (l.length + 2) / 2 ^ 23 := by linarith
  have a3 : (1 : ℚ) ≤ (1 + 1 / 2 ^ 24) ^ (l.length + 2) := one_le_pow₀ (by norm_num)
  have a4 := mul_le_mul a2 a1 a0 (by positivity)
  have a5 : ((1 : ℚ) + 1 / 2 ^ 24) ^ (l.length + 1) ≤ 2 := by linarith
  have a6 := mul_le_mul a5 hT hT0 (by norm_num)
  have e1 : ((l.length : ℚ) + 2) * M / 2 ^ 23 = (l.length + 2) / 2 ^ 23 * M := by ring
  rw [e1]
  have e2 : (2 * (l.length * M) + 1) / (2 : ℚ) ^ 150 = (2 * (l.length * M) + 1) * (1 / 2 ^ 150) := by ring
  rw [e2]
  have a7 : ((1 + 1 / 2 ^ 24) ^ (l.length + 1) * (l.map abs).sum + 1) * (1 / 2 ^ 150 : ℚ) ≤ (2 * (l.length * M) + 1) * (1 / 2 ^ 150) :=
    mul_le_mul_of_nonneg_right (by linarith) (by norm_num)
  exact add_le_add a4 a7

/-- `w` is the mean of `l`, whose numbers are at most `M`, up to rounding in `float`. -/
def MeanClose (l : List ℚ) (M : ℚ) (w : Fl) : Prop :=
  ∃ m, w = .fin m ∧ |m - l.sum / l.length| ≤ (l.length + 2) * M / 2 ^ 23 + (2 * (l.length * M) + 1) / 2 ^ 150

/-- The point VoxelAverage gives for a voxel with the points `v`, whose coordinates are `xs`, `ys`, `zs`, in `float`. -/
theorem average_point_close (v : List (FPt binary32.Num)) (hv : v ≠ []) (r : FPt binary32.Num) (h : IsRepF binary32 .voxelAverage v r) (xs ys zs : List ℚ)
    (hx : v.map (fun q => binary32.val q.x) = xs.map .fin) (hy : v.map (fun q => binary32.val q.y) = ys.map .fin)
    (hz : v.map (fun q => binary32.val q.z) = zs.map .fin) (M : ℚ) (hM : ∀ x ∈ xs ++ ys ++ zs, |x| ≤ M ∧ Finite binary32 (.fin x))
    (hn : v.length + 2 ≤ 8388608) (hM1 : v.length * M ≤ 2 ^ 126) :
    MeanClose xs M (binary32.val r.x) ∧ MeanClose ys M (binary32.val r.y) ∧ MeanClose zs M (binary32.val r.z) := by
  have key : ∀ (l : List ℚ) (f : FPt binary32.Num → Fl), v.map f = l.map .fin → (∀ x ∈ l, |x| ≤ M ∧ Finite binary32 (.fin x)) → MeanClose l M (meanF binary32 (v.map f)) := by
    intro l f e hl
    have hlen : l.length = v.length := by
      have := congrArg List.length e; simpa using this.symm
    rw [e]
    exact average_float32_error l (by rintro rfl; exact hv (List.length_eq_zero_iff.1 hlen.symm)) (by rw [hlen]; exact hn) M (fun x hx => (hl x hx).1) (by rw [hlen]; exact hM1)
      (fun x hx => (hl x hx).2)
  have h : r = averageF binary32 v := h
  subst h
  exact ⟨key xs _ hx (fun x hx => hM x (by simp [hx])), key ys _ hy (fun x hx => hM x (by simp [hx])), key zs _ hz (fun x hx => hM x (by simp [hx]))⟩

/-! ### what the average may do -/

/-- 41 equal points at 1, with a resolution of 1: their average is less than 1, in another voxel than the points. -/
theorem average_float_leaves_voxel :
    meanF binary32 (List.replicate 41 (.fin 1)) = .fin (16777215 / 16777216) ∧
    IdxF binary32 (.fin 1 : Fl) (.fin 1 : Fl) 1 ∧ IdxF binary32 (.fin 1 : Fl) (.fin (16777215 / 16777216) : Fl) 0 := by
  refine ⟨by decide +kernel, ⟨1, by decide +kernel, by decide +kernel, by norm_num, by norm_num⟩,
    ⟨16777215 / 16777216, by decide +kernel, by decide +kernel, by norm_num, by norm_num⟩⟩

/-- Points that are finite numbers may have an average that is not: their sum overflows. -/
theorem average_float_overflow : meanF binary32 [.fin (2 ^ 127), .fin (2 ^ 127)] = .pinf ∧ IdxF binary32 (.fin (2 ^ 100) : Fl) (.fin (2 ^ 127) : Fl) (2 ^ 27) := by
  refine ⟨by decide +kernel, ⟨2 ^ 27, by decide +kernel, by decide +kernel, by norm_num, by norm_num⟩⟩

theorem sum_ones (k : ℕ) (s : ℕ) (hs : s ≤ 16777216) :
    sumF binary32 (List.replicate k (.fin 1)) (.fin s) = .fin (min (s + k : ℕ) 16777216 : ℕ) := by
  induction k generalizing s with
  | zero => rw [List.replicate_zero, sumF]; congr 2; omega
  | succ k ih =>
    rw [List.replicate_succ, sumF, Arith.add]
    have ht : binary32.top = 2 ^ 104 * (2 ^ 24 - 1) := rfl
    rcases hs.lt_or_eq with h | h
    · have := binary32_int (s + 1 : ℕ) (by rw [abs_of_nonneg (by positivity)]; omega)
      rw [Int.cast_natCast] at this
      have h' : ((s + 1 : ℕ) : ℚ) ≤ 16777216 := by exact_mod_cast h
      have e : binary32.fl ((s : ℚ) + 1) = .fin ((s + 1 : ℕ) : ℚ) := by
        rw [show (s : ℚ) + 1 = ((s + 1 : ℕ) : ℚ) by push_cast; ring]
        refine (fl_fin_iff _).2 ⟨this, ?_, ?_⟩ <;> rw [this, ht] <;> have : (0 : ℚ) ≤ ((s + 1 : ℕ) : ℚ) := by positivity
        all_goals linarith
      rw [e, ih _ h]
      congr 3; omega
    · subst h
      have e : binary32.fl (((16777216 : ℕ) : ℚ) + 1) = .fin ((16777216 : ℕ) : ℚ) := by decide +kernel
      rw [e, ih _ le_rfl]
      congr 2; omega

/-- With many points the sum stops growing: 2^25 points, all at 1, have the average 1/2. -/
theorem average_float_stagnates : meanF binary32 (List.replicate 33554432 (.fin 1)) = .fin (1 / 2) := by
  unfold meanF
  have := sum_ones 33554432 0 (by norm_num)
  rw [Nat.cast_zero] at this
  rw [this, List.length_replicate]
  decide +kernel

end Props
end Verif
