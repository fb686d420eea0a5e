import Verif.Props.Matchers
import Verif.Props.FpQuality
import Verif.Props.FpFilters
import Verif.Props.FpIcp
import Verif.Spec.FpMatch
import Mathlib.Tactic.NormNum
/-
C105: the point matchers in the arithmetic of the machine.  What does not depend on arithmetic at all (no point used twice, layers and weights, the
memory errors of C20) is in Props/Matchers.lean, stated there for any type of numbers.
One format is used for all numbers; the code squares the threshold in `double` and puts the result in a `float`.
-/
namespace Verif.Props
open Verif Verif.Spec Verif.Fp

section
variable (D : Arith)

theorem num_le_iff (a b : D.Num) : a ≤ b ↔ Fl.le (D.val a) (D.val b) = true := Iff.rfl
theorem num_lt_iff (a b : D.Num) : a < b ↔ Fl.lt (D.val a) (D.val b) = true := Iff.rfl

theorem not_le_cases (a b : D.Num) : ¬ a ≤ b ↔ b < a ∨ a = D.num .nan ∨ b = D.num .nan := by
  rw [num_le_iff, num_lt_iff, lt_iff]
  show _ ↔ _ ∨ (a : Fl) = .nan ∨ (b : Fl) = .nan
  constructor
  · intro h
    by_cases ha : (a : Fl) = .nan
    · exact .inr (.inl ha)
    by_cases hb : (b : Fl) = .nan
    · exact .inr (.inr hb)
    · rcases le_total' ha hb with h' | h'
      · exact absurd h' h
      · exact .inl ⟨h', by simpa using h⟩
  · rintro (h | h | h) h'
    · simp [h.2] at h'
    · exact (le_ne_nan h').1 h
    · exact (le_ne_nan h').2 h

theorem not_lt_cases (a b : D.Num) : ¬ a < b ↔ b ≤ a ∨ a = D.num .nan ∨ b = D.num .nan := by
  rw [num_lt_iff, num_le_iff]
  show _ ↔ _ ∨ (a : Fl) = .nan ∨ (b : Fl) = .nan
  constructor
  · intro h
    by_cases ha : (a : Fl) = .nan
    · exact .inr (.inl ha)
    by_cases hb : (b : Fl) = .nan
    · exact .inr (.inr hb)
    · exact .inl ((not_lt_iff ha hb).1 (Bool.eq_false_iff.2 h))
  · rintro (h | h | h) h'
    · rw [lt_iff] at h'; rw [h'.2] at h; cases h
    · rw [lt_iff] at h'; exact (le_ne_nan h'.1).1 h
    · rw [lt_iff] at h'; exact (le_ne_nan h'.1).2 h

theorem num_le_trans (a b c : D.Num) (h1 : a ≤ b) (h2 : b ≤ c) : a ≤ c := le_trans' h1 h2

/-- Among machine numbers which are not NaN comparisons are those of a total order. -/
theorem totalOn_machine : TotalOn (fun a : D.Num => IsNum a) where
  le_of_lt a b _ _ h := by rw [num_lt_iff, lt_iff] at h; exact h.1
  le_of_not_lt a b ha hb h := by
    rcases (not_lt_cases D a b).1 h with h | h | h
    · exact h
    · exact absurd h ha
    · exact absurd h hb
  lt_of_not_le a b ha hb h := by
    rcases (not_le_cases D a b).1 h with h | h | h
    · exact h
    · exact absurd h ha
    · exact absurd h hb
  not_le_of_lt a b _ _ h h' := by
    rw [num_lt_iff, lt_iff] at h
    have h'' : Fl.le (D.val b) (D.val a) = true := h'
    rw [h.2] at h''; cases h''
  trans a b c _ _ _ h1 h2 := num_le_trans D a b c h1 h2

/-! ### distance threshold -/

/-- Every pairing made is of a local point with a neighbour reported for it, whose squared distance is below the limit as computed, or one of these two is not a number;
at most `pairingsPerPoint` per local point; and the threshold is a number above zero. -/
theorem match_float_dt (c : DTCfg D.Num) (tf : P3 D.Num → P3 D.Num) (g : GLayer D.Num) (gName lName : String)
    (pts : List (P3 D.Num)) (ms : MatchState D.Num) (out : Pairings D.Num) (r : MatchState D.Num × Pairings D.Num)
    (hs : ShuffleOK c.toPtsCfg) (hb : SearchBounded g) (h : dtLayer c tf g gName lName pts ms out = .ok r) :
    0 < c.thr ∧ IsNum c.thr ∧ IsNum c.angDeg ∧
    ∃ new, AddedPt out r.2 new ∧
      (∀ pr ∈ new, ∃ p nb, pts[pr.localIdx]? = some p ∧ Reported c g (tf p) nb ∧ IsPairOf pr pr.localIdx p nb ∧
        (pr.errSq < Limit c (tf p) ∨ Limit c (tf p) = D.num .nan ∨ pr.errSq = D.num .nan)) ∧
      ∀ l, (new.filter fun pr => decide (pr.localIdx = l)).length ≤ c.ppp := by
  have hthr : 0 < c.thr ∧ 0 ≤ c.angDeg := by
    unfold dtLayer at h
    simp only [Outcome.bind_def, Outcome.bind_eq_ok, Outcome.assert_eq_ok] at h
    obtain ⟨_, _, _, h1, _, h2, _⟩ := h
    exact ⟨h1, h2⟩
  refine ⟨hthr.1, fun hn => ?_, fun hn => ?_, ?_⟩
  · rw [hn] at hthr; exact num_lt_nan_right D _ hthr.1
  · exact (le_ne_nan hthr.2).2 hn
  · obtain ⟨new, h1, h2, h3, _⟩ := Lemmas.dt_sound hs h
    refine ⟨new, h1, fun pr hpr => ?_, h3 hb⟩
    obtain ⟨p, nb, a, b, c', d⟩ := h2 pr hpr
    exact ⟨p, nb, a, b, c', (not_le_cases D _ _).1 d⟩

/-- Conversely a reported neighbour whose squared distance is below the limit as computed, or not comparable with it, is paired, unless the local point had been
matched before or the global point is taken. -/
theorem match_float_dt_complete (c : DTCfg D.Num) (tf : P3 D.Num → P3 D.Num) (g : GLayer D.Num) (gName lName : String)
    (pts : List (P3 D.Num)) (ms : MatchState D.Num) (out : Pairings D.Num) (r : MatchState D.Num × Pairings D.Num)
    (hs : ShuffleOK c.toPtsCfg) (hso : SearchSorted g)
    (ho : Overlap c.toPtsCfg tf g pts (c.thr + c.eps)) (h : dtLayer c tf g gName lName pts ms out = .ok r)
    (l : Nat) (p : P3 D.Num) (nb : Nbr D.Num) (hp : pts[l]? = some p) (hrep : Reported c g (tf p) nb)
    (hlt : nb.d2 < Limit c (tf p) ∨ Limit c (tf p) = D.num .nan ∨ nb.d2 = D.num .nan) :
    (∃ pr ∈ r.2.pt2pt, IsPairOf pr l p nb) ∨ (c.allowLocal = false ∧ Flagged ms.localFlags lName l) ∨
      (c.allowGlobal = false ∧ Flagged r.1.globalFlags gName nb.idx) := by
  obtain ⟨new, h1, _, _, h4⟩ := Lemmas.dt_sound hs h
  rcases h4 (num_le_trans D) hso ho l p nb hp hrep ((not_le_cases D _ _).2 hlt) with ⟨pr, h5, h6⟩ | h5 | h5
  · exact Or.inl ⟨pr, by rw [h1]; exact List.mem_append_right _ h5, h6⟩
  · exact Or.inr (Or.inl h5)
  · exact Or.inr (Or.inr h5)

/-- Without an angular threshold, the limit is not a number for a point whose squared norm overflows. -/
theorem match_float_limit_nan (c : DTCfg D.Num) (q : P3 D.Num) (h0 : c.angSq = 0)
    (hq : q.x * q.x + q.y * q.y + q.z * q.z = D.num .pinf) : Limit c q = D.num .nan := by
  unfold Limit
  rw [h0, hq]
  have e : (0 : D.Num) * D.num .pinf = D.num .nan := by
    show infOf 0 = _
    exact infOf_zero
  rw [e]
  exact add_nan_right D _

/-- Negative: so such a point is paired with whatever neighbour is reported, however far. -/
theorem match_float_far_paired (c : DTCfg D.Num) (tf : P3 D.Num → P3 D.Num) (g : GLayer D.Num) (gName lName : String)
    (pts : List (P3 D.Num)) (ms : MatchState D.Num) (out : Pairings D.Num) (r : MatchState D.Num × Pairings D.Num)
    (hs : ShuffleOK c.toPtsCfg) (hso : SearchSorted g)
    (ho : Overlap c.toPtsCfg tf g pts (c.thr + c.eps)) (h : dtLayer c tf g gName lName pts ms out = .ok r)
    (l : Nat) (p : P3 D.Num) (nb : Nbr D.Num) (hp : pts[l]? = some p) (hrep : Reported c g (tf p) nb) (h0 : c.angSq = 0)
    (hq : (tf p).x * (tf p).x + (tf p).y * (tf p).y + (tf p).z * (tf p).z = D.num .pinf)
    (hal : c.allowLocal = true) (hag : c.allowGlobal = true) : ∃ pr ∈ r.2.pt2pt, IsPairOf pr l p nb := by
  rcases match_float_dt_complete D c tf g gName lName pts ms out r hs hso ho h l p nb hp hrep
    (.inr (.inl (match_float_limit_nan D c (tf p) h0 hq))) with h | ⟨h, -⟩ | ⟨h, -⟩
  · exact h
  · rw [hal] at h; cases h
  · rw [hag] at h; cases h

end

section
theorem sq_fin (x : ℚ) (h : |x| ≤ 2 ^ 60) : binary32.mul (.fin x) (.fin x) = .fin (binary32.rnd (x * x)) ∧ |binary32.rnd (x * x)| ≤ 2 * (2 ^ 60 * 2 ^ 60) + 1 := by
  have e2 : |x * x| ≤ 2 ^ 60 * 2 ^ 60 := by rw [abs_mul]; exact mul_le_mul h h (abs_nonneg _) (by norm_num)
  exact ⟨fl_of_le _ _ e2 (by norm_num), rnd_le_of binary32 _ _ _ _ binary32_accurate (by norm_num) e2 (by norm_num)⟩

/-- the squared norm in the limit, when nothing overflows -/
theorem norm_fin (x y z : ℚ) (fx : Finite binary32 (.fin x)) (fy : Finite binary32 (.fin y)) (fz : Finite binary32 (.fin z))
    (h1 : |x| ≤ 2 ^ 56) (h2 : |y| ≤ 2 ^ 56) (h3 : |z| ≤ 2 ^ 56) :
    ∃ n, binary32.add (binary32.add (binary32.mul (.fin x) (.fin x)) (binary32.mul (.fin y) (.fin y))) (binary32.mul (.fin z) (.fin z)) = .fin n ∧
      (1 - 5 / 2 ^ 24) * (x ^ 2 + y ^ 2 + z ^ 2) - 4 / 2 ^ 150 ≤ n ∧ n ≤ (1 + 6 / 2 ^ 24) * (x ^ 2 + y ^ 2 + z ^ 2) + 4 / 2 ^ 150 ∧ 0 ≤ n := by
  have z0 : binary32.rnd 0 = 0 := rnd_zero _
  have hcl := sqr_norm_close binary32 (1 / 2 ^ 24) (1 / 2 ^ 150) x y z 0 0 0 binary32_accurate binary32_add_accurate (by norm_num) (by norm_num) (by norm_num)
    (rnd_of_finite fx) (rnd_of_finite fy) (rnd_of_finite fz) z0 z0 z0 _ _ _ _ _ rfl rfl rfl rfl rfl
  simp only [sub_zero, rnd_of_finite fx, rnd_of_finite fy, rnd_of_finite fz] at hcl
  have w : ∀ v : ℚ, |v| ≤ 2 ^ 56 → |v| ≤ 2 ^ 60 := fun v h => h.trans (by norm_num)
  obtain ⟨x1, x2⟩ := sq_fin x (w x h1)
  obtain ⟨y1, y2⟩ := sq_fin y (w y h2)
  obtain ⟨z1, z2⟩ := sq_fin z (w z h3)
  have s1 := (abs_add_le _ _).trans (add_le_add x2 y2)
  have s2 := fl_of_le _ _ s1 (by norm_num)
  have s3 := rnd_le_of binary32 _ _ _ _ binary32_accurate (by norm_num) s1 (by norm_num)
  have s4 := (abs_add_le _ _).trans (add_le_add s3 z2)
  have s5 := fl_of_le _ _ s4 (by norm_num)
  refine ⟨binary32.rnd (binary32.rnd (binary32.rnd (x * x) + binary32.rnd (y * y)) + binary32.rnd (z * z)), ?_, ?_, ?_, ?_⟩
  · rw [x1, y1, z1]
    simp only [Arith.add, s2, s5]
  · have := hcl.1; norm_num at this ⊢; linarith
  · have := hcl.2; norm_num at this ⊢; linarith
  · rw [← z0]
    refine binary32.mono (add_nonneg ?_ ?_)
    · rw [← z0]; refine binary32.mono (add_nonneg ?_ ?_) <;> (rw [← z0]; exact binary32.mono (mul_self_nonneg _))
    · rw [← z0]; exact binary32.mono (mul_self_nonneg _)

/-- the squared distance of a neighbour, when nothing overflows -/
theorem dist_fin (p q : P3 binary32.Num) (x y z a b c : ℚ) (hp : Coords p x y z) (hq : Coords q a b c)
    (h1 : |x - a| ≤ 2 ^ 56) (h2 : |y - b| ≤ 2 ^ 56) (h3 : |z - c| ≤ 2 ^ 56) (S : ℚ) (hS : S = (x - a) ^ 2 + (y - b) ^ 2 + (z - c) ^ 2) :
    ∃ d, sqrDistM binary32 p q = binary32.num (.fin d) ∧ (1 - 5 / 2 ^ 24) * S - 4 / 2 ^ 150 ≤ d ∧ d ≤ (1 + 6 / 2 ^ 24) * S + 4 / 2 ^ 150 := by
  obtain ⟨⟨px, py, pz⟩, fx, fy, fz⟩ := hp
  obtain ⟨⟨qx, qy, qz⟩, fa, fb, fc⟩ := hq
  have w : ∀ v : ℚ, |v| ≤ 2 ^ 56 → |v| ≤ 2 ^ 60 := fun v h => h.trans (by norm_num)
  have hN := sqrNormF_fin { inp := "", between := "", outside := "", cx := .fin a, cy := .fin b, cz := .fin c, rmin := .fin 0, rmax := .fin 0 }
    ⟨.fin x, .fin y, .fin z, .fin 0, 0, .fin 0⟩ x y z a b c rfl rfl rfl rfl rfl rfl (w _ h1) (w _ h2) (w _ h3)
  have hcl := sqr_norm_close binary32 (1 / 2 ^ 24) (1 / 2 ^ 150) x y z a b c binary32_accurate binary32_add_accurate (by norm_num) (by norm_num) (by norm_num)
    (rnd_of_finite fx) (rnd_of_finite fy) (rnd_of_finite fz) (rnd_of_finite fa) (rnd_of_finite fb) (rnd_of_finite fc) _ _ _ _ _ rfl rfl rfl rfl rfl
  rw [← hS] at hcl
  refine ⟨binary32.rnd (binary32.rnd (binary32.rnd (binary32.rnd (x - a) * binary32.rnd (x - a)) +
      binary32.rnd (binary32.rnd (y - b) * binary32.rnd (y - b))) + binary32.rnd (binary32.rnd (z - c) * binary32.rnd (z - c))), ?_, ?_, ?_⟩
  · unfold sqrDistM
    rw [px, py, pz, qx, qy, qz]
    exact hN
  · have := hcl.1; norm_num at this ⊢; linarith
  · have := hcl.2; norm_num at this ⊢; linarith

/-- the limit, when nothing overflows -/
theorem limit_fin (cfg : DTCfg binary32.Num) (q : P3 binary32.Num) (x y z t a : ℚ) (hq : Coords q x y z)
    (ht : cfg.thr = binary32.num (.fin t)) (ha : cfg.angSq = binary32.num (.fin a)) (ht1 : |t| ≤ 2 ^ 60) (ha0 : 0 ≤ a) (ha1 : a ≤ 16)
    (h1 : |x| ≤ 2 ^ 56) (h2 : |y| ≤ 2 ^ 56) (h3 : |z| ≤ 2 ^ 56) (L : ℚ) (hL : L = t ^ 2 + a * (x ^ 2 + y ^ 2 + z ^ 2)) :
    ∃ l, Limit cfg q = binary32.num (.fin l) ∧ (1 - 9 / 2 ^ 24) * L - 1 / 2 ^ 142 ≤ l ∧ l ≤ (1 + 9 / 2 ^ 24) * L + 1 / 2 ^ 142 := by
  obtain ⟨⟨qx, qy, qz⟩, fx, fy, fz⟩ := hq
  obtain ⟨n, hn, n1, n2, n0⟩ := norm_fin x y z fx fy fz h1 h2 h3
  obtain ⟨t1, t2⟩ := sq_fin t ht1
  have hQ : x ^ 2 + y ^ 2 + z ^ 2 ≤ 2 ^ 114 := by
    have key : ∀ v : ℚ, |v| ≤ 2 ^ 56 → v ^ 2 ≤ 2 ^ 112 := by
      intro v hv
      rw [← sq_abs]
      calc |v| ^ 2 ≤ (2 ^ 56) ^ 2 := pow_le_pow_left₀ (abs_nonneg _) hv 2
        _ = 2 ^ 112 := by norm_num
    have := key x h1; have := key y h2; have := key z h3
    norm_num at *; linarith
  have hQ0 : 0 ≤ x ^ 2 + y ^ 2 + z ^ 2 := by positivity
  generalize x ^ 2 + y ^ 2 + z ^ 2 = Q at *
  have hn1 : n ≤ 2 ^ 115 := by norm_num at *; linarith
  have hm : |a * n| ≤ 2 ^ 119 := by
    rw [abs_of_nonneg (mul_nonneg ha0 n0)]
    calc a * n ≤ 16 * 2 ^ 115 := mul_le_mul ha1 hn1 n0 (by norm_num)
      _ = 2 ^ 119 := by norm_num
  have m1 := fl_of_le _ _ hm (by norm_num)
  have m2 := rnd_le_of binary32 _ _ _ _ binary32_accurate (by norm_num) hm (by norm_num)
  have s1 := (abs_add_le _ _).trans (add_le_add t2 m2)
  have s2 := fl_of_le _ _ s1 (by norm_num)
  have e1 := binary32_accurate (t * t)
  have e2 := binary32_accurate (a * n)
  have e3 := binary32_add_accurate _ _ (binary32.idem (t * t)) (binary32.idem (a * n))
  have g0 : 0 ≤ binary32.rnd (t * t) := by rw [← rnd_zero binary32]; exact binary32.mono (mul_self_nonneg _)
  have g1 : 0 ≤ binary32.rnd (a * n) := by rw [← rnd_zero binary32]; exact binary32.mono (mul_nonneg ha0 n0)
  rw [abs_of_nonneg (mul_self_nonneg t), abs_le] at e1
  rw [abs_of_nonneg (mul_nonneg ha0 n0), abs_le] at e2
  rw [abs_of_nonneg (add_nonneg g0 g1), abs_le] at e3
  refine ⟨binary32.rnd (binary32.rnd (t * t) + binary32.rnd (a * n)), ?_, ?_, ?_⟩
  · unfold Limit
    rw [ht, ha, qx, qy, qz]
    show binary32.add (binary32.mul (.fin t) (.fin t)) (binary32.mul (.fin a) _) = _
    have hn' : (binary32.num (.fin x) * binary32.num (.fin x) + binary32.num (.fin y) * binary32.num (.fin y) + binary32.num (.fin z) * binary32.num (.fin z) : binary32.Num) = Fl.fin n := hn
    rw [hn', t1]
    simp only [Arith.mul, m1, Arith.add, s2]
    rfl
  all_goals
    have k1 : a * n ≤ (1 + 6 / 2 ^ 24) * (a * Q) + 4 / 2 ^ 150 * 16 := by
      calc a * n ≤ a * ((1 + 6 / 2 ^ 24) * Q + 4 / 2 ^ 150) := mul_le_mul_of_nonneg_left n2 ha0
        _ = (1 + 6 / 2 ^ 24) * (a * Q) + 4 / 2 ^ 150 * a := by ring
        _ ≤ _ := by gcongr
    have k2 : (1 - 5 / 2 ^ 24) * (a * Q) - 4 / 2 ^ 150 * 16 ≤ a * n := by
      calc (1 - 5 / 2 ^ 24) * (a * Q) - 4 / 2 ^ 150 * 16 ≤ (1 - 5 / 2 ^ 24) * (a * Q) - 4 / 2 ^ 150 * a := by gcongr
        _ = a * ((1 - 5 / 2 ^ 24) * Q - 4 / 2 ^ 150) := by ring
        _ ≤ _ := mul_le_mul_of_nonneg_left n1 ha0
    have hT : 0 ≤ t * t := mul_self_nonneg t
    have hAQ : 0 ≤ a * Q := mul_nonneg ha0 hQ0
    rw [sq] at hL
    subst hL
    clear hn n1 n2 hm m1 m2 s1 s2 hn1 hQ t1 t2 ht ha
    generalize a * Q = B at *
    generalize a * n = M at *
    generalize t * t = T at *
    generalize binary32.rnd M = M' at *
    generalize binary32.rnd T = T' at *
    generalize binary32.rnd (T' + M') = R at *
    obtain ⟨e1a, e1b⟩ := e1
    obtain ⟨e2a, e2b⟩ := e2
    obtain ⟨e3a, e3b⟩ := e3
    norm_num at *
    linarith

/-- In `float`, with the distances computed by the search: rounding matters only within 16 units of 2^-24, relatively, of the documented limit (or within 2^-140 of it, where
numbers underflow).  Nearer neighbours are found to be below the limit, farther ones not.  (Coordinates up to 2^56, thresholds up to 2^60, angular factor up to 16.) -/
theorem match_float_margin (cfg : DTCfg binary32.Num) (q : P3 binary32.Num) (nb : Nbr binary32.Num) (x y z a b c t ang : ℚ)
    (hq : Coords q x y z) (hnb : Coords nb.pt a b c) (hd : nb.d2 = sqrDistM binary32 q nb.pt)
    (ht : cfg.thr = binary32.num (.fin t)) (ha : cfg.angSq = binary32.num (.fin ang)) (ht1 : |t| ≤ 2 ^ 60) (ha0 : 0 ≤ ang) (ha1 : ang ≤ 16)
    (h1 : |x| ≤ 2 ^ 56) (h2 : |y| ≤ 2 ^ 56) (h3 : |z| ≤ 2 ^ 56) (h4 : |x - a| ≤ 2 ^ 56) (h5 : |y - b| ≤ 2 ^ 56) (h6 : |z - c| ≤ 2 ^ 56)
    (S L : ℚ) (hS : S = (x - a) ^ 2 + (y - b) ^ 2 + (z - c) ^ 2) (hL : L = t ^ 2 + ang * (x ^ 2 + y ^ 2 + z ^ 2)) :
    (S ≤ (1 - 16 / 2 ^ 24) * L - 1 / 2 ^ 140 → nb.d2 < Limit cfg q) ∧ ((1 + 16 / 2 ^ 24) * L + 1 / 2 ^ 140 ≤ S → Limit cfg q ≤ nb.d2) := by
  obtain ⟨d, hd1, d1, d2⟩ := dist_fin q nb.pt x y z a b c hq hnb h4 h5 h6 S hS
  obtain ⟨l, hl1, l1, l2⟩ := limit_fin cfg q x y z t ang hq ht ha ht1 ha0 ha1 h1 h2 h3 L hL
  rw [hd, hd1, hl1]
  have hL0 : 0 ≤ L := by rw [hL]; positivity
  have hS0 : 0 ≤ S := by rw [hS]; positivity
  clear hS hL hd hd1 hl1 h1 h2 h3 h4 h5 h6 ht ha ht1 ha0 ha1 hq hnb
  constructor
  · intro h
    show Fl.lt (.fin d) (.fin l) = true
    simp only [Fl.lt, decide_eq_true_eq]
    norm_num at *
    linarith
  · intro h
    show Fl.le (.fin l) (.fin d) = true
    simp only [Fl.le, decide_eq_true_eq]
    norm_num at *
    linarith
end

/-! ### the other matchers -/

section
variable (D : Arith)

/-- Inlier ratio: if the squared distances of the neighbours are numbers, the pairings made are among the `round(n * ratio)` candidates of least error (product and
rounding as computed), one candidate per local point with a neighbour; the ratio is a number between 0 and 1. -/
theorem match_float_ir (c : IRCfg D.Num) (tf : P3 D.Num → P3 D.Num) (g : GLayer D.Num) (gName lName : String)
    (pts : List (P3 D.Num)) (ms : MatchState D.Num) (out : Pairings D.Num) (r : MatchState D.Num × Pairings D.Num)
    (hs : ShuffleOK c.toPtsCfg) (ho : Overlap c.toPtsCfg tf g pts c.eps) (hnum : ∀ q nb, g.nnSingle q = some nb → IsNum nb.d2)
    (h : irLayer c tf g gName lName pts ms out = .ok r) :
    (0 < c.ratio ∧ c.ratio < 1) ∧
    ∃ cand new, AddedPt out r.2 new ∧ (cand.map (·.localIdx)).Nodup ∧
      (∀ p ∈ cand, Sampled c.toPtsCfg pts.length p.localIdx ∧ ∃ q nb, pts[p.localIdx]? = some q ∧
        g.nnSingle (tf q) = some nb ∧ IsPairOf p p.localIdx q nb ∧ Eligible c.toPtsCfg ms lName p.localIdx) ∧
      (∀ l q nb, Sampled c.toPtsCfg pts.length l → pts[l]? = some q → g.nnSingle (tf q) = some nb →
        (c.allowLocal = true ∨ flagAt ms.localFlags lName l = .ok false) →
        ∃ p ∈ cand, p.localIdx = l ∧ p.globalIdx = nb.idx ∧ p.errSq = nb.d2) ∧
      ∃ best rest, cand = best ++ rest ∧ best.length ≤ c.round ((cand.length : D.Num) * c.ratio) ∧
        (rest ≠ [] → best.length = c.round ((cand.length : D.Num) * c.ratio)) ∧
        (∀ x ∈ best, ∀ y ∈ rest, x.errSq ≤ y.errSq) ∧ List.Sublist new best ∧
        ∀ x ∈ best, x ∈ new ∨ (c.allowGlobal = false ∧ Flagged r.1.globalFlags gName x.globalIdx) := by
  obtain ⟨hr, h1 | ⟨cand, new, h1, h2, h3, h4, h5, h6, h7, h8, _⟩⟩ := Lemmas.ir_result hs h
  · exact absurd ho h1.2
  · refine ⟨hr, cand, new, h1, h3, h5, h6, _, _, (List.take_append_drop _ cand).symm, List.length_take_le _ _, ?_, ?_, h7, h8⟩
    · intro hne
      rw [List.length_take]
      have : (cand.drop (c.round ((cand.length : D.Num) * c.ratio))).length ≠ 0 := by
        intro hh; exact hne (List.length_eq_zero_iff.mp hh)
      rw [List.length_drop] at this
      omega
    · intro x hx y hy
      have hn : ∀ p ∈ cand, IsNum p.errSq := by
        intro p hp
        obtain ⟨-, q, nb, -, hnb, hpair, -⟩ := h5 p hp
        rw [hpair.2.2.2.2]
        exact hnum _ _ hnb
      have := h4 _ (totalOn_machine D) hn
      rw [← List.take_append_drop (c.round ((cand.length : D.Num) * c.ratio)) cand, List.pairwise_append] at this
      exact this.2.2 x hx y hy

/-- Planes: each pairing belongs to a different local point, and its plane was reported for that point at a distance not above the threshold, or one of these is not
a number (nothing checks the threshold of this matcher). -/
theorem match_float_plane (c : PlCfg D.Num) (tf : P3 D.Num → P3 D.Num) (g : GLayer D.Num) (gName lName : String)
    (pts : List (P3 D.Num)) (ms : MatchState D.Num) (out : Pairings D.Num) (r : MatchState D.Num × Pairings D.Num)
    (hs : ShuffleOK c.toPtsCfg) (h : plLayer c tf g gName lName pts ms out = .ok r) :
    ∃ ls new, r.2.pt2pl = out.pt2pl ++ new ∧ ls.Nodup ∧
      List.Forall₂ (fun (l : Nat) b => pts[l]? = some b.ptLocal ∧
        ∃ d, g.nnPlane (tf b.ptLocal) c.thr = some (b.plGlobal, d) ∧ (d ≤ c.thr ∨ c.thr = D.num .nan ∨ d = D.num .nan)) ls new := by
  obtain ⟨ls, new, h1, h2, _, h4⟩ := Lemmas.pl_result hs h
  refine ⟨ls, new, h1, h2, h4.imp ?_⟩
  rintro l b ⟨a, d, e, hd⟩
  exact ⟨a, d, e, (not_lt_cases D _ _).1 hd⟩

/-- Negative: with a threshold which is not a number every plane reported is paired, however far. -/
theorem match_float_plane_nan (c : PlCfg D.Num) (tf : P3 D.Num → P3 D.Num) (g : GLayer D.Num) (gName lName : String)
    (pts : List (P3 D.Num)) (ms : MatchState D.Num) (out : Pairings D.Num) (r : MatchState D.Num × Pairings D.Num)
    (hs : ShuffleOK c.toPtsCfg) (hf : FlagsFit ms g gName lName pts.length)
    (ho : Overlap c.toPtsCfg tf g pts (c.thr + c.eps)) (h : plLayer c tf g gName lName pts ms out = .ok r)
    (l : Nat) (p : P3 D.Num) (pl : PlanePatch D.Num) (d : D.Num)
    (hsam : Sampled c.toPtsCfg pts.length l) (hp : pts[l]? = some p) (hel : Eligible c.toPtsCfg ms lName l)
    (hpl : g.nnPlane (tf p) c.thr = some (pl, d)) (hn : c.thr = D.num .nan) : (⟨pl, p⟩ : PtPlPair D.Num) ∈ r.2.pt2pl :=
  Lemmas.pl_complete hs hf ho h l p pl d hsam hp hel hpl ((not_lt_cases D _ _).2 (.inr (.inl hn)))

/-- Adaptive: the output local point by local point, with one limit for all.  If `minimumCorrDist` is a number, the limit is not below its square, and each pairing is
below the limit and within the absolute maximum as far as these are numbers. -/
theorem match_float_adaptive (c : AdCfg D.Num) (tf : P3 D.Num → P3 D.Num) (g : GLayer D.Num) (gName lName : String)
    (pts : List (P3 D.Num)) (ms : MatchState D.Num) (out : Pairings D.Num) (r : MatchState D.Num × Pairings D.Num)
    (hs : ShuffleOK c.toPtsCfg) (hf : FlagsFit ms g gName lName pts.length)
    (h : adLayer c tf g gName lName pts ms out = .ok r) :
    ∃ lim, ∃ parts : List (List (PtPair D.Num) × List (PtPlPair D.Num)),
      (IsNum (c.minCorr * c.minCorr) → c.minCorr * c.minCorr ≤ lim) ∧ (c.minCorr * c.minCorr = D.num .nan → lim = D.num .nan) ∧
      parts.length ≤ pts.length ∧
      r.2.pt2pt = out.pt2pt ++ (parts.map (·.1)).flatten ∧ r.2.pt2pl = out.pt2pl ++ (parts.map (·.2)).flatten ∧
      ∀ (l : Nat) (ch : List (PtPair D.Num) × List (PtPlPair D.Num)), parts[l]? = some ch →
        ((ch.1 = [] ∧ c.detectPlanes = true ∧ ∃ b, ch.2 = [b] ∧ pts[l]? = some b.ptLocal) ∨ (ch.2 = [] ∧ ch.1.length ≤ c.maxPt2Pt)) ∧
        ∀ x ∈ ch.1, (x.errSq < lim ∨ lim = D.num .nan ∨ x.errSq = D.num .nan) ∧
          ∃ p nb, pts[l]? = some p ∧ nb ∈ AdReported c g (tf p) ∧ IsPairOf x l p nb ∧
            (nb.d2 ≤ c.absMax * c.absMax ∨ c.absMax * c.absMax = D.num .nan ∨ nb.d2 = D.num .nan) := by
  obtain ⟨lim, parts, h1, h2, h3, h4, h5⟩ := Lemmas.ad_result hs hf h
  refine ⟨lim, parts, fun hn => ?_, fun hn => ?_, h2, h3, h4, fun l ch hch => ?_⟩
  · rcases h1 with h1 | h1
    · rw [h1]; exact le_refl' hn
    · rw [num_lt_iff, lt_iff] at h1; exact h1.1
  · rcases h1 with h1 | h1
    · rw [h1, hn]
    · rw [hn] at h1; exact absurd h1 (num_lt_nan_left D _)
  · obtain ⟨k, e, _⟩ := h5 l ch hch
    refine ⟨k, fun x hx => ?_⟩
    obtain ⟨e1, p, nb, e2, e3, e4, e5⟩ := e x hx
    exact ⟨(not_le_cases D _ _).1 e1, p, nb, e2, e3, e5, (not_lt_cases D _ _).1 e4⟩

/-- Adaptive, exactly: as in exact arithmetic (`adaptive_exact`) with the comparisons of the machine; the range of the histogram is the least to the
greatest error when all reported distances are numbers. -/
theorem match_float_adaptive_exact (c : AdCfg D.Num) (tf : P3 D.Num → P3 D.Num) (g : GLayer D.Num) (gName lName : String)
    (pts : List (P3 D.Num)) (ms : MatchState D.Num) (out : Pairings D.Num) (r : MatchState D.Num × Pairings D.Num)
    (hs : ShuffleOK c.toPtsCfg) (hf : FlagsFit ms g gName lName pts.length) (ho : Overlap c.toPtsCfg tf g pts c.eps)
    (h : adLayer c tf g gName lName pts ms out = .ok r) :
    ∃ near lo hi lim, ∃ parts : List (List (PtPair D.Num) × List (PtPlPair D.Num)),
      AdNears c tf g ms lName pts near ∧
      ((∀ q nb, nb ∈ AdReported c g q → IsNum nb.d2) → Spans (AdErr c tf g ms lName pts) lo hi) ∧
      (c.minCorr * c.minCorr < c.ciHigh lo hi (AdErrors near) → lim = c.ciHigh lo hi (AdErrors near)) ∧
      (¬ c.minCorr * c.minCorr < c.ciHigh lo hi (AdErrors near) → lim = c.minCorr * c.minCorr) ∧
      AdParts c ms gName pts lim near parts ∧
      r.2.pt2pt = out.pt2pt ++ (parts.map (·.1)).flatten ∧ r.2.pt2pl = out.pt2pl ++ (parts.map (·.2)).flatten := by
  obtain ⟨_, near, lo, hi, parts, h1, h2, h3, h4⟩ := Lemmas.ad_exact hs hf ho h
  exact ⟨near, lo, hi, _, parts, h1, fun hn => h2 _ (totalOn_machine D) (fun q nb hnb _ => hn q nb hnb),
    fun hlt => by rw [stdMax, if_pos hlt], fun hlt => by rw [stdMax, if_neg hlt], h3, h4⟩

/-! ### memory safety, paired ratio -/

/-- C20 in machine numbers: the matchers are memory-safe with any limit and any shuffle (distance threshold: without a limit below the size of the cloud; adaptive:
`adaptive_defined_iff`), for clouds of up to `n` points where integers up to `n` survive the rounding. -/
theorem match_float_safe (m : PtMatcher D.Num) (hs : ShuffleOK m.base)
    (tf : P3 D.Num → P3 D.Num) (g : GLayer D.Num) (gName lName : String) (pts : List (P3 D.Num)) (ms : MatchState D.Num) (out : Pairings D.Num)
    (hm : match m with
      | .distanceThreshold c => c.maxLocal = 0 ∨ pts.length ≤ c.maxLocal
      | .inlierRatio c => RoundOKUpTo c.round pts.length
      | .adaptive _ => False
      | _ => True)
    (hf : FlagsFit ms g gName lName pts.length) : m.layer tf g gName lName pts ms out ≠ .ub := by
  refine Lemmas.layer_not_ub_any m hs ?_ hf
  cases m with
  | inlierRatio c =>
    intro k hk h0 h1
    refine hm k hk _ ?_
    have hk0 : Le (.fin 0) (D.fl (k : ℚ)) := by
      unfold Le; rw [← fl_zero D]; exact fl_mono D (by positivity)
    show Fl.le (D.mul (D.fl (k : ℚ)) c.ratio) (D.fl (k : ℚ)) = true
    have h0' : Fl.lt (.fin 0) (D.val c.ratio) = true := h0
    have h1' : Fl.lt (D.val c.ratio) (.fin 1) = true := h1
    change Fl.le (D.mul (D.fl (k : ℚ)) (D.val c.ratio)) (D.fl (k : ℚ)) = true
    generalize D.val c.ratio = ρ at h0' h1'
    cases ρ with
    | fin q =>
      simp only [Fl.lt, decide_eq_true_eq] at h0' h1'
      unfold Le at hk0
      cases hfl : D.fl (k : ℚ) with
      | fin w =>
        rw [hfl] at hk0
        simp only [Fl.le, decide_eq_true_eq] at hk0
        have := (fl_fin_iff D).1 hfl
        have hid : D.fl w = .fin w := (fl_fin_iff D).2 ⟨by rw [← this.1, D.idem], by rw [← this.1, D.idem]; exact this.2.1, by rw [← this.1, D.idem]; exact this.2.2⟩
        show Fl.le (D.fl (w * q)) (.fin w) = true
        rw [← hid]
        exact fl_mono D (by nlinarith)
      | pinf =>
        show Fl.le (infOf q) .pinf = true
        rw [infOf_pos h0']; rfl
      | ninf => rw [hfl] at hk0; simp [Fl.le] at hk0
      | nan => exact absurd hfl (fl_ne_nan D _)
    | pinf => simp [Fl.lt] at h1'
    | ninf => simp [Fl.lt] at h0'
    | nan => simp [Fl.lt] at h0'
  | distanceThreshold c => exact hm
  | point2plane c => trivial
  | point2line c => trivial
  | adaptive c => exact hm.elim

/-- C16 in machine numbers: the paired ratio of what `run_matchers` returns for any list of point matchers is a number from 0 to 1, zero if nothing could be paired, one if all
was paired. -/
theorem match_float_paired_ratio {Pose : Type} (matchers : List (Matcher D.Num Pose (MatchState D.Num)))
    (iter : Nat) (pose : Pose) (tf : Pose → P3 D.Num → P3 D.Num) (globals : AMap String (GLayer D.Num))
    (locals : AMap String (Option (List (P3 D.Num))))
    (hm : ∀ M ∈ matchers, ∃ m, AccCfg m ∧ M.impl = (m.toMatcher tf globals locals).impl)
    (hb : ∀ gl ∈ globals, SearchBounded gl.2) (ms0 ms1 : MatchState D.Num) (prs : Pairings D.Num)
    (h : runMatchers matchers iter pose ms0 = .ok (ms1, prs)) (minRatio : D.Num) (n : ℚ) (hn : D.fl (prs.potential : ℚ) = .fin n) :
    prs.size ≤ prs.potential ∧ Unit01 (pairedRatio minRatio prs).1 ∧ (prs.potential = 0 → ((pairedRatio minRatio prs).1 : Fl) = .fin 0) ∧
    (prs.potential ≠ 0 → prs.size = prs.potential → ((pairedRatio minRatio prs).1 : Fl) = .fin 1) := by
  have hacc : prs.size ≤ prs.potential := Lemmas.runMatchers_acc matchers iter pose ms0 ms1 prs (by
    intro M hM ms b ms' out hout
    obtain ⟨m, hcfg, himpl⟩ := hm M hM
    rw [himpl] at hout
    simp only [PtMatcher.toMatcher, Outcome.bind_eq_ok, Outcome.ok.injEq, Prod.mk.injEq] at hout
    obtain ⟨r, hr, _, _, rfl⟩ := hout
    exact Lemmas.pointsMatch_acc m hcfg _ _ globals hb locals ms r hr) h
  obtain ⟨h1, h2, h3, _⟩ := paired_ratio_float D minRatio prs hacc n hn
  exact ⟨hacc, h1, h2, h3⟩

end

/-! ### examples -/

/-- a map with one point, at the origin -/
def fpGlobal : GLayer binary32.Num :=
  { nnSingle := fun q => some ⟨0, ⟨0, 0, 0⟩, sqrDistM binary32 q ⟨0, 0, 0⟩⟩
    nnPlane := fun q _ => some (⟨⟨⟨0, 0, 1⟩, 0⟩, ⟨0, 0, 0⟩⟩, q.z) }

/-- threshold of 1/2 m, no angular threshold -/
def fpDT : DTCfg binary32.Num :=
  { eps := binary32.num (.fin (1/4)), thr := binary32.num (.fin (1/2)), angDeg := 0, angSq := 0, allowLocal := true, allowGlobal := true }

/-- Negative: a point at x = 2^70 m is paired with the origin although the threshold is half a metre; the one at x = 2 is not, the one at 1/4 is. -/
theorem match_float_far_example :
    (dtLayer fpDT (fun p => p) fpGlobal "g" "l"
      [⟨binary32.num (.fin (1/4)), 0, 0⟩, ⟨binary32.num (.fin 2), 0, 0⟩, ⟨binary32.num (.fin (2 ^ 70)), 0, 0⟩] {} {}).Sat
      fun r => r.2.pt2pt.map (fun p => (p.localIdx, binary32.val p.errSq)) = [(0, .fin (1/16)), (2, .pinf)] := by decide +kernel

/-- with the default angular threshold (about 0.5 degrees; squared 2^-14 here) it is not -/
example : (dtLayer { fpDT with angDeg := 1, angSq := binary32.num (.fin (1 / 2 ^ 14)) } (fun p => p) fpGlobal "g" "l"
      [⟨binary32.num (.fin (1/4)), 0, 0⟩, ⟨binary32.num (.fin 2), 0, 0⟩, ⟨binary32.num (.fin (2 ^ 70)), 0, 0⟩] {} {}).Sat
      fun r => r.2.pt2pt.map (·.localIdx) = [0] := by decide +kernel

/-- a threshold which is not a number is refused by this matcher ... -/
example : dtLayer { fpDT with thr := binary32.num .nan } (fun p => p) fpGlobal "g" "l" [⟨0, 0, 0⟩] {} {} = .throw :=
  Outcome.eq_throw_of (by decide +kernel)

/-- ... and accepted by that of planes, which then pairs a point 1000 m from its plane -/
example : (plLayer { eps := 0, thr := binary32.num .nan } (fun p => p) fpGlobal "g" "l" [⟨0, 0, binary32.num (.fin 1000)⟩]
    { localFlags := [("l", ⟨some [false], []⟩)] } {}).Sat fun r => r.2.pt2pl.length = 1 := by decide +kernel

/-- a threshold of 2^-80 m is a number above zero, but its square is zero: not even a point at distance zero is paired -/
theorem match_float_tiny_threshold :
    (dtLayer { fpDT with thr := binary32.num (.fin (1 / 2 ^ 80)) } (fun p => p) fpGlobal "g" "l" [⟨0, 0, 0⟩] {} {}).Sat
      fun r => r.2.pt2pt.length = 0 := by decide +kernel

example : Coords (A := binary32) ⟨binary32.num (.fin (1/4)), 0, 0⟩ (1/4) 0 0 := by
  have h : ∀ q : ℚ, binary32.fl q = .fin q → Finite binary32 (.fin q) := fun q h => ⟨q, rfl, h⟩
  exact ⟨⟨rfl, rfl, rfl⟩, h _ (by decide +kernel), h _ (by decide +kernel), h _ (by decide +kernel)⟩

end Verif.Props
