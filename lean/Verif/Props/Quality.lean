import Mathlib.Algebra.Order.Ring.Rat
import Mathlib.Data.Rat.Floor
import Mathlib.Algebra.BigOperators.Group.List.Basic
import Mathlib.Algebra.Order.BigOperators.Group.List
import Mathlib.Analysis.SpecialFunctions.Exp
import Mathlib.Tactic.NormNum
import Mathlib.Tactic.Linarith
import Mathlib.Tactic.FieldSimp
import Verif.Model.Quality
import Verif.Props.MoreFilters
/-
C70: QualityEvaluator_RangeImageSimilarity.  C71: QualityEvaluator_Voxels.
-/
set_option linter.unusedSectionVars false
namespace Verif
namespace Props
open Vox Qual
variable {K : Type} [Field K] [LinearOrder K] [IsStrictOrderedRing K] [FloorRing K]

/-! ### C70: the range images -/

/-- The point, in the frame of the camera, is seen at row `r` and column `k`. -/
def Hits (c : Qual.RangeParams K) (p : P3 K) (r k : Nat) : Prop :=
  p.x ≠ 0 ∧ truncZ (c.cx + c.fx * (-p.y / p.x)) = k ∧ truncZ (c.cy + c.fy * (-p.z / p.x)) = r

/-- The pixel coordinates of the point are integers of 32 bits. -/
def Projects (c : Qual.RangeParams K) (p : P3 K) : Prop :=
  p.x ≠ 0 ∧ -2 ^ 31 ≤ truncZ (c.cx + c.fx * (-p.y / p.x)) ∧ truncZ (c.cx + c.fx * (-p.y / p.x)) < 2 ^ 31 ∧
    -2 ^ 31 ≤ truncZ (c.cy + c.fy * (-p.z / p.x)) ∧ truncZ (c.cy + c.fy * (-p.z / p.x)) < 2 ^ 31

/-- The image holds, for each pixel, the range of the nearest point seen there, and 0 if there is none. -/
def IsRangeImage (E : RangeExt K) (c : Qual.RangeParams K) (ps : List (P3 K)) (I : Img K) : Prop :=
  ∀ r k, r < c.nrows → k < c.ncols →
    ((∀ p ∈ ps, ¬ Hits c p r k) → I r k = 0) ∧
    ((∃ p ∈ ps, Hits c p r k) → (∃ p ∈ ps, Hits c p r k ∧ I r k = E.norm p) ∧ ∀ p ∈ ps, Hits c p r k → I r k ≤ E.norm p)

theorem pixel_ok (c : Qual.RangeParams K) (p : P3 K) (h : Projects c p) :
    pixel c p = .ok (truncZ (c.cx + c.fx * (-p.y / p.x)), truncZ (c.cy + c.fy * (-p.z / p.x))) := by
  unfold pixel
  rw [if_neg h.1]
  simp only []
  rw [if_pos ⟨h.2.1, h.2.2.1, h.2.2.2.1, h.2.2.2.2⟩]

theorem pixel_ub (c : Qual.RangeParams K) (p : P3 K) (h : ¬ Projects c p) : pixel c p = .ub := by
  unfold pixel
  by_cases h0 : p.x = 0
  · rw [if_pos h0]
  · rw [if_neg h0]
    simp only []
    rw [if_neg]
    rintro ⟨h1, h2, h3, h4⟩
    exact h ⟨h0, h1, h2, h3, h4⟩

/-- one point more -/
theorem projStep_image (E : RangeExt K) (hn : ∀ p : P3 K, p.x ≠ 0 → 0 < E.norm p) (c : Qual.RangeParams K)
    (T : Option (Pose3 K)) (done : List (P3 K)) (I : Img K) (hI : IsRangeImage E c done I) (p : P3 K)
    (hp : Projects c (viewed T p)) :
    ∃ I', projStep E c T I p = .ok I' ∧ IsRangeImage E c (done ++ [viewed T p]) I' := by
  unfold projStep
  simp only []
  generalize viewed T p = q at hp
  rw [pixel_ok c q hp]
  simp only [Outcome.bind]
  by_cases hout : truncZ (c.cx + c.fx * (-q.y / q.x)) < 0 ∨ truncZ (c.cy + c.fy * (-q.z / q.x)) < 0 ∨
      truncZ (c.cx + c.fx * (-q.y / q.x)) ≥ c.ncols ∨ truncZ (c.cy + c.fy * (-q.z / q.x)) ≥ c.nrows
  · rw [if_pos hout]
    refine ⟨I, rfl, fun r k hr hk => ?_⟩
    have hno : ¬ Hits c q r k := by
      rintro ⟨-, h1, h2⟩
      rw [h1, h2] at hout; omega
    obtain ⟨h1, h2⟩ := hI r k hr hk
    constructor
    · intro h
      exact h1 fun p hp => h p (List.mem_append_left _ hp)
    · rintro ⟨a, ha, hah⟩
      rcases List.mem_append.1 ha with ha | ha
      · obtain ⟨⟨b, hb, hbh⟩, h3⟩ := h2 ⟨a, ha, hah⟩
        refine ⟨⟨b, List.mem_append_left _ hb, hbh⟩, fun d hd hdh => ?_⟩
        rcases List.mem_append.1 hd with hd | hd
        · exact h3 d hd hdh
        · rw [List.mem_singleton] at hd; subst hd; exact absurd hdh hno
      · rw [List.mem_singleton] at ha; subst ha; exact absurd hah hno
  · rw [if_neg hout]
    push Not at hout
    obtain ⟨hx0, hy0, hx1, hy1⟩ := hout
    obtain ⟨kx, hkx⟩ := Int.eq_ofNat_of_zero_le hx0
    obtain ⟨ky, hky⟩ := Int.eq_ofNat_of_zero_le hy0
    rw [hkx] at hx1
    rw [hky] at hy1
    rw [hkx, hky]
    simp only [Int.toNat_natCast]
    have hhit : ∀ r k, Hits c q r k ↔ k = kx ∧ r = ky := by
      intro r k
      unfold Hits
      rw [hkx, hky]
      constructor
      · rintro ⟨-, h1, h2⟩
        exact ⟨by exact_mod_cast h1.symm, by exact_mod_cast h2.symm⟩
      · rintro ⟨rfl, rfl⟩; exact ⟨hp.1, rfl, rfl⟩
    have hky' : ky < c.nrows := by exact_mod_cast hy1
    have hkx' : kx < c.ncols := by exact_mod_cast hx1
    have hq0 : 0 < E.norm q := hn q hp.1
    obtain ⟨g1, g2⟩ := hI ky kx hky' hkx'
    have hpos : I ky kx ≠ 0 → ∃ a ∈ done, Hits c a ky kx := by
      intro h
      by_contra h'
      push Not at h'
      exact h (g1 h')
    have other : ∀ r k, ¬ (r = ky ∧ k = kx) → r < c.nrows → k < c.ncols →
        ((∀ p ∈ done ++ [q], ¬ Hits c p r k) → I r k = 0) ∧
        ((∃ p ∈ done ++ [q], Hits c p r k) → (∃ p ∈ done ++ [q], Hits c p r k ∧ I r k = E.norm p) ∧
          ∀ p ∈ done ++ [q], Hits c p r k → I r k ≤ E.norm p) := by
      intro r k hne hr hk
      have hno : ¬ Hits c q r k := by rw [hhit]; rintro ⟨h1, h2⟩; exact hne ⟨h2, h1⟩
      obtain ⟨h1, h2⟩ := hI r k hr hk
      constructor
      · intro h; exact h1 fun p hp => h p (List.mem_append_left _ hp)
      · rintro ⟨a, ha, hah⟩
        rcases List.mem_append.1 ha with ha | ha
        · obtain ⟨⟨b, hb, hbh⟩, h3⟩ := h2 ⟨a, ha, hah⟩
          refine ⟨⟨b, List.mem_append_left _ hb, hbh⟩, fun d hd hdh => ?_⟩
          rcases List.mem_append.1 hd with hd | hd
          · exact h3 d hd hdh
          · rw [List.mem_singleton] at hd; subst hd; exact absurd hdh hno
        · rw [List.mem_singleton] at ha; subst ha; exact absurd hah hno
    by_cases hst : I ky kx = 0 ∨ E.norm q < I ky kx
    · rw [if_pos hst]
      refine ⟨_, rfl, fun r k hr hk => ?_⟩
      by_cases hrk : r = ky ∧ k = kx
      · obtain ⟨rfl, rfl⟩ := hrk
        simp only [and_self, if_true]
        refine ⟨fun h => absurd ((hhit r k).2 ⟨rfl, rfl⟩) (h q (by simp)), fun _ => ⟨⟨q, by simp, (hhit r k).2 ⟨rfl, rfl⟩, rfl⟩, ?_⟩⟩
        intro d hd hdh
        rcases List.mem_append.1 hd with hd | hd
        · obtain ⟨⟨b, hb, hb1, hb2⟩, h3⟩ := g2 ⟨d, hd, hdh⟩
          have hne : I r k ≠ 0 := by rw [hb2]; exact (hn b hb1.1).ne'
          rcases hst with h | h
          · exact absurd h hne
          · exact h.le.trans (h3 d hd hdh)
        · rw [List.mem_singleton] at hd; rw [hd]
      · simp only [hrk, if_false]
        exact other r k hrk hr hk
    · rw [if_neg hst]
      push Not at hst
      refine ⟨I, rfl, fun r k hr hk => ?_⟩
      by_cases hrk : r = ky ∧ k = kx
      · obtain ⟨rfl, rfl⟩ := hrk
        obtain ⟨a, ha, hah⟩ := hpos hst.1
        obtain ⟨⟨b, hb, hbh⟩, h3⟩ := g2 ⟨a, ha, hah⟩
        refine ⟨fun h => absurd hah (h a (List.mem_append_left _ ha)), fun _ => ⟨⟨b, List.mem_append_left _ hb, hbh⟩, ?_⟩⟩
        intro d hd hdh
        rcases List.mem_append.1 hd with hd | hd
        · exact h3 d hd hdh
        · rw [List.mem_singleton] at hd; rw [hd]; exact hst.2
      · exact other r k hrk hr hk

theorem projLoop_image (E : RangeExt K) (hn : ∀ p : P3 K, p.x ≠ 0 → 0 < E.norm p) (c : Qual.RangeParams K)
    (T : Option (Pose3 K)) (ps done : List (P3 K)) (I : Img K) (hI : IsRangeImage E c done I)
    (hp : ∀ p ∈ ps, Projects c (viewed T p)) :
    ∃ I', projLoop E c T ps I = .ok I' ∧ IsRangeImage E c (done ++ ps.map (viewed T)) I' := by
  induction ps generalizing done I with
  | nil => exact ⟨I, rfl, by simpa using hI⟩
  | cons p ps ih =>
    obtain ⟨I1, h1, h2⟩ := projStep_image E hn c T done I hI p (hp p (List.mem_cons_self ..))
    obtain ⟨I2, h3, h4⟩ := ih _ I1 h2 (fun q hq => hp q (List.mem_cons_of_mem _ hq))
    refine ⟨I2, by rw [projLoop, h1]; exact h3, ?_⟩
    simpa using h4

/-- **C70 (images).** The image of a cloud seen from a pose holds in each pixel the range of the nearest of the points that fall
there, and zero elsewhere; whatever the number and the order of the points. -/
theorem range_image (E : RangeExt K) (hn : ∀ p : P3 K, p.x ≠ 0 → 0 < E.norm p) (c : Qual.RangeParams K)
    (T : Option (Pose3 K)) (ps : List (P3 K)) (hp : ∀ p ∈ ps, Projects c (viewed T p)) :
    ∃ I, projectPoints E c T ps = .ok I ∧ IsRangeImage E c (ps.map (viewed T)) I := by
  obtain ⟨I, h1, h2⟩ := projLoop_image E hn c T ps [] (fun _ _ => 0) (by
    intro r k _ _
    exact ⟨fun _ => rfl, by rintro ⟨p, hp, -⟩; cases hp⟩) hp
  exact ⟨I, h1, by simpa using h2⟩

/-- A point in the plane `x = 0` of the camera, or whose pixel does not fit an `int`, makes the behaviour undefined. -/
theorem range_image_ub (E : RangeExt K) (c : Qual.RangeParams K) (T : Option (Pose3 K)) (ps : List (P3 K)) (p : P3 K)
    (hp : p ∈ ps) (h : ¬ Projects c (viewed T p)) : projectPoints E c T ps = .ub := by
  unfold projectPoints
  generalize (fun _ _ => (0 : K)) = I
  induction ps generalizing I with
  | nil => cases hp
  | cons q ps ih =>
    rw [projLoop]
    by_cases hq : Projects c (viewed T q)
    · have hpq : p ∈ ps := by
        rcases List.mem_cons.1 hp with rfl | h'
        · exact absurd hq h
        · exact h'
      have : ∃ I', projStep E c T I q = .ok I' := by
        unfold projStep
        simp only []
        rw [pixel_ok _ _ hq]
        simp only [Outcome.bind]
        split
        · exact ⟨_, rfl⟩
        · split <;> exact ⟨_, rfl⟩
      obtain ⟨I', hI'⟩ := this
      rw [hI']
      exact ih hpq I'
    · unfold projStep
      simp only []
      rw [pixel_ub _ _ hq]; rfl

/-! ### C70: the score -/

theorem foldl_sum (l : List K) (a : K) : l.foldl (· + ·) a = a + l.sum := by
  induction l generalizing a with
  | nil => simp
  | cons x l ih => rw [List.foldl_cons, ih, List.sum_cons, add_assoc]

/-- the final score from the two lists -/
def meanScore (s1 s2 : List K) : K := if 0 < s1.length + s2.length then (s1.sum + s2.sum) / (s1.length + s2.length : Nat) else 0

theorem evalRange_eq (E : RangeExt K) (c : Qual.RangeParams K) (g l : List (P3 K)) (pose : Pose3 K) (q : K) :
    evalRange E c g l pose = .ok q ↔ ∃ I11 I12 I22 I21, projectPoints E c none g = .ok I11 ∧
      projectPoints E c (some pose) g = .ok I12 ∧ projectPoints E c none l = .ok I22 ∧
      projectPoints E c (some pose.inv) l = .ok I21 ∧ q = meanScore (scores E c I11 I21) (scores E c I12 I22) := by
  simp only [evalRange, Outcome.bind_eq_ok, Outcome.ok.injEq, foldl_sum, zero_add, meanScore]
  constructor
  · rintro ⟨a, h1, b, h2, d, h3, e, h4, h5⟩
    exact ⟨a, b, d, e, h1, h2, h3, h4, h5.symm⟩
  · rintro ⟨a, b, d, e, h1, h2, h3, h4, h5⟩
    exact ⟨a, h1, b, h2, d, h3, e, h4, h5.symm⟩

theorem score_range (E : RangeExt K) (hphi : ∀ x, 0 ≤ x → 0 ≤ E.phi x ∧ E.phi x ≤ 1) (c : Qual.RangeParams K)
    (hpen : 0 ≤ c.penalty) (A B : Img K) : ∀ s ∈ scores E c A B, 0 ≤ s ∧ s ≤ 1 := by
  intro s hs
  obtain ⟨q, -, hq⟩ := List.mem_filterMap.1 hs
  unfold score at hq
  split at hq
  · cases hq
  · split at hq <;> rw [Option.some.injEq] at hq <;> subst hq
    · have := hphi _ hpen; constructor <;> linarith
    · have := hphi |(A q.1 q.2 - B q.1 q.2) / c.sigma| (abs_nonneg _); constructor <;> linarith

theorem sum_range (l : List K) (h : ∀ s ∈ l, 0 ≤ s ∧ s ≤ 1) : 0 ≤ l.sum ∧ l.sum ≤ l.length := by
  induction l with
  | nil => simp
  | cons a l ih =>
    have h1 := h a (List.mem_cons_self ..)
    have h2 := ih fun s hs => h s (List.mem_cons_of_mem _ hs)
    rw [List.sum_cons, List.length_cons]; push_cast
    constructor <;> linarith

/-- **C70 (range).** With a penalty that is not negative, the quality, if there is one, is between 0 and 1, for all clouds and
poses (`phi` = `erf(x/√2)`, between 0 and 1 for non-negative arguments). -/
theorem range_quality_in_range (E : RangeExt K) (hphi : ∀ x, 0 ≤ x → 0 ≤ E.phi x ∧ E.phi x ≤ 1)
    (c : Qual.RangeParams K) (hpen : 0 ≤ c.penalty) (g l : List (P3 K)) (pose : Pose3 K) (q : K)
    (h : evalRange E c g l pose = .ok q) : 0 ≤ q ∧ q ≤ 1 := by
  obtain ⟨A, B, C, D, -, -, -, -, rfl⟩ := (evalRange_eq ..).1 h
  unfold meanScore
  split
  · rename_i hpos
    have h1 := sum_range _ (score_range E hphi c hpen A D)
    have h2 := sum_range _ (score_range E hphi c hpen B C)
    have hp : (0 : K) < ((scores E c A D).length + (scores E c B C).length : Nat) := by exact_mod_cast hpos
    constructor
    · exact div_nonneg (by linarith) hp.le
    · rw [div_le_one hp]; push_cast; linarith
  · exact ⟨le_refl _, zero_le_one⟩

theorem score_comm (E : RangeExt K) (c : Qual.RangeParams K) (a b : K) : score E c a b = score E c b a := by
  unfold score
  simp only [and_comm (a := a = 0), or_comm (a := a = 0)]
  rw [show (a - b) / c.sigma = -((b - a) / c.sigma) by ring, abs_neg]

theorem scores_comm (E : RangeExt K) (c : Qual.RangeParams K) (A B : Img K) : scores E c A B = scores E c B A := by
  unfold scores
  congr 1
  funext q
  exact score_comm ..

theorem inv_inv_pose (T : Pose3 K) (h : Spec.IsRotation T.R) : T.inv.inv = T := by
  have h3 := inv_compose T h 0
  obtain ⟨⟨a00, a01, a02, a10, a11, a12, a20, a21, a22⟩, ⟨x, y, z⟩⟩ := T
  simp only [Pose3.composePoint, Pose3.inv, M3.mulVec, M3.transpose, P3.ext_iff, P3.add_x, P3.add_y, P3.add_z, P3.neg_x,
      P3.neg_y, P3.neg_z, P3.zero_x, P3.zero_y, P3.zero_z, mul_zero, add_zero, zero_add] at h3
  obtain ⟨h1, h2, h4⟩ := h3
  simp only [Pose3.inv, M3.transpose, M3.mulVec, Pose3.mk.injEq, true_and, P3.ext_iff, P3.neg_x, P3.neg_y, P3.neg_z]
  refine ⟨?_, ?_, ?_⟩
  · linear_combination -h1
  · linear_combination -h2
  · linear_combination -h4

/-- **C70 (symmetry).** The two maps play the same role: swapping them and inverting the pose gives the same quality. -/
theorem range_quality_symmetric (E : RangeExt K) (c : Qual.RangeParams K) (g l : List (P3 K)) (pose : Pose3 K)
    (hrot : Spec.IsRotation pose.R) (q : K) (h : evalRange E c g l pose = .ok q) : evalRange E c l g pose.inv = .ok q := by
  obtain ⟨A, B, C, D, h1, h2, h3, h4, rfl⟩ := (evalRange_eq ..).1 h
  rw [evalRange_eq]
  refine ⟨C, D, A, B, h3, h4, h1, by rw [inv_inv_pose pose hrot]; exact h2, ?_⟩
  rw [scores_comm E c C B, scores_comm E c D A]
  unfold meanScore
  rw [add_comm (scores E c A D).length, add_comm (scores E c A D).sum]

theorem scores_self (E : RangeExt K) (h0 : E.phi 0 = 0) (c : Qual.RangeParams K) (A : Img K) :
    scores E c A A = ((pixels c).filter fun q => A q.1 q.2 ≠ 0).map fun _ => 1 := by
  unfold scores
  induction pixels c with
  | nil => rfl
  | cons q l ih =>
    by_cases h : A q.1 q.2 = 0
    · rw [List.filterMap_cons_none (by simp [score, h]), List.filter_cons_of_neg (by simp [h]), ih]
    · rw [List.filterMap_cons_some (b := 1) (by simp [score, h, h0]), List.filter_cons_of_pos (by simp [h]), List.map_cons, ih]

theorem view_view (T : Pose3 K) (ps : List (P3 K)) (f : Option (Pose3 K)) (E : RangeExt K) (c : Qual.RangeParams K)
    (ps' : List (P3 K)) (hv : ps.map (viewed (some T)) = ps'.map (viewed f)) :
    projectPoints E c (some T) ps = projectPoints E c f ps' := by
  unfold projectPoints
  generalize (fun _ _ => (0 : K)) = I
  induction ps generalizing ps' I with
  | nil =>
    cases ps' with
    | nil => rfl
    | cons a l => simp at hv
  | cons p ps ih =>
    cases ps' with
    | nil => simp at hv
    | cons a l =>
      simp only [List.map_cons, List.cons.injEq] at hv
      rw [projLoop, projLoop]
      have : projStep E c (some T) I p = projStep E c f I a := by
        unfold projStep
        rw [hv.1]
      rw [this]
      cases projStep E c f I a with
      | ok I' => exact ih l hv.2 I'
      | throw => rfl
      | ub => rfl

/-- **C70 (perfect score).** The evaluator gives 1 (if anything is seen, else 0) when the *local* cloud is the global one
composed with the pose …
Part of C70: this is the inverse of the ICP's pose convention (`range_quality_of_registration`). -/
theorem range_quality_perfect_partial (E : RangeExt K) (hn : ∀ p : P3 K, p.x ≠ 0 → 0 < E.norm p) (h0 : E.phi 0 = 0)
    (c : Qual.RangeParams K) (g : List (P3 K)) (pose : Pose3 K) (hrot : Spec.IsRotation pose.R)
    (h1 : ∀ p ∈ g, Projects c p) (h2 : ∀ p ∈ g, Projects c (pose.composePoint p)) :
    ∃ q, evalRange E c g (g.map pose.composePoint) pose = .ok q ∧
      ((∃ p ∈ g, ∃ r k, r < c.nrows ∧ k < c.ncols ∧ (Hits c p r k ∨ Hits c (pose.composePoint p) r k)) → q = 1) ∧
      ((∀ p ∈ g, ∀ r k, r < c.nrows → k < c.ncols → ¬ Hits c p r k ∧ ¬ Hits c (pose.composePoint p) r k) → q = 0) := by
  obtain ⟨A, hA, hA'⟩ := range_image E hn c none g h1
  obtain ⟨B, hB, hB'⟩ := range_image E hn c (some pose) g h2
  have hC : projectPoints E c none (g.map pose.composePoint) = .ok B := by
    rw [← view_view pose g none E c (g.map pose.composePoint) (by
      simp [List.map_map, viewed])]
    exact hB
  have hD : projectPoints E c (some pose.inv) (g.map pose.composePoint) = .ok A := by
    rw [view_view pose.inv (g.map pose.composePoint) none E c g ?_]
    · exact hA
    · rw [List.map_map]
      apply List.map_congr_left
      intro p _
      have hi : Spec.IsRotation pose.inv.R := by
        have h5 := inv_inv_pose pose hrot
        -- the transpose of a rotation is a rotation
        obtain ⟨e1, e2⟩ := hrot
        have e3 : pose.R.mul pose.R.transpose = M3.one := by
          have hh := fun v => inv_compose ⟨pose.R, 0⟩ ⟨e1, e2⟩ v
          have a := hh ⟨1, 0, 0⟩; have b := hh ⟨0, 1, 0⟩; have d := hh ⟨0, 0, 1⟩
          simp only [Pose3.composePoint, Pose3.inv, M3.mulVec, M3.transpose, P3.ext_iff, P3.add_x, P3.add_y, P3.add_z, P3.neg_x,
            P3.neg_y, P3.neg_z, P3.zero_x, P3.zero_y, P3.zero_z, mul_zero, add_zero, zero_add, mul_one, neg_zero] at a b d
          simp only [M3.mul, M3.transpose, M3.one, M3.mk.injEq]
          exact ⟨a.1, b.1, d.1, a.2.1, b.2.1, d.2.1, a.2.2, b.2.2, d.2.2⟩
        refine ⟨?_, ?_⟩
        · show pose.R.transpose.transpose.mul pose.R.transpose = M3.one
          exact e3
        · show pose.R.transpose.det = 1
          rw [← e2]
          simp only [M3.det, M3.transpose]; ring
      have := inv_compose pose.inv hi p
      rw [inv_inv_pose pose hrot] at this
      exact this
  refine ⟨_, (evalRange_eq ..).2 ⟨A, B, B, A, hA, hB, hC, hD, rfl⟩, ?_, ?_⟩
  · rintro ⟨p, hp, r, k, hr, hk, hh⟩
    rw [scores_self E h0, scores_self E h0]
    unfold meanScore
    have hpix : (r, k) ∈ pixels c := by simp [pixels, hr, hk]
    have hpos : 0 < (((pixels c).filter fun q => A q.1 q.2 ≠ 0).map fun _ => (1 : K)).length +
        (((pixels c).filter fun q => B q.1 q.2 ≠ 0).map fun _ => (1 : K)).length := by
      rw [List.length_map, List.length_map]
      rcases hh with hh | hh
      · have : A r k ≠ 0 := by
          obtain ⟨⟨b, _, hb1, hb2⟩, -⟩ := (hA' r k hr hk).2 ⟨p, List.mem_map.2 ⟨p, hp, rfl⟩, hh⟩
          rw [hb2]; exact (hn b hb1.1).ne'
        have : (r, k) ∈ (pixels c).filter fun q => A q.1 q.2 ≠ 0 := by simp [hpix, this]
        have := List.length_pos_of_mem this
        omega
      · have : B r k ≠ 0 := by
          obtain ⟨⟨b, _, hb1, hb2⟩, -⟩ := (hB' r k hr hk).2 ⟨_, List.mem_map.2 ⟨p, hp, rfl⟩, hh⟩
          rw [hb2]; exact (hn b hb1.1).ne'
        have : (r, k) ∈ (pixels c).filter fun q => B q.1 q.2 ≠ 0 := by simp [hpix, this]
        have := List.length_pos_of_mem this
        omega
    rw [if_pos hpos]
    have hs : ∀ l : List (Nat × Nat), (l.map fun _ => (1 : K)).sum = (l.map fun _ => (1 : K)).length := by
      intro l; induction l with
      | nil => simp
      | cons a l ih => rw [List.map_cons, List.sum_cons, ih, List.length_cons]; push_cast; ring
    rw [hs, hs, ← Nat.cast_add, div_self]
    exact_mod_cast hpos.ne'
  · intro h
    have e1 : ∀ q ∈ pixels c, A q.1 q.2 = 0 ∧ B q.1 q.2 = 0 := by
      rintro ⟨r, k⟩ hq
      simp only [pixels, List.mem_flatMap, List.mem_range, List.mem_map, Prod.mk.injEq] at hq
      obtain ⟨r', hr, k', hk, rfl, rfl⟩ := hq
      constructor
      · apply (hA' r' k' hr hk).1
        intro p hp
        obtain ⟨p', hp', rfl⟩ := List.mem_map.1 hp
        exact (h p' hp' r' k' hr hk).1
      · apply (hB' r' k' hr hk).1
        intro p hp
        obtain ⟨p', hp', rfl⟩ := List.mem_map.1 hp
        exact (h p' hp' r' k' hr hk).2
    rw [scores_self E h0, scores_self E h0]
    have f1 : (pixels c).filter (fun q => A q.1 q.2 ≠ 0) = [] := by
      rw [List.filter_eq_nil_iff]; intro q hq; simp [(e1 q hq).1]
    have f2 : (pixels c).filter (fun q => B q.1 q.2 ≠ 0) = [] := by
      rw [List.filter_eq_nil_iff]; intro q hq; simp [(e1 q hq).2]
    rw [f1, f2]; rfl

/-- the pose that only translates along the first axis -/
def shiftX (d : K) : Pose3 K := ⟨M3.one, ⟨d, 0, 0⟩⟩

/-- one point on the optical axis -/
theorem single_image (E : RangeExt K) (c : Qual.RangeParams K) (kx ky : Nat) (hkx : truncZ c.cx = kx) (hky : truncZ c.cy = ky)
    (hxc : kx < c.ncols) (hyc : ky < c.nrows) (hcx : (kx : ℤ) < 2 ^ 31) (hcy : (ky : ℤ) < 2 ^ 31)
    (T : Option (Pose3 K)) (p : P3 K) (z : K) (hz : z ≠ 0) (hp : viewed T p = ⟨z, 0, 0⟩) :
    projectPoints E c T [p] = .ok fun r k => if r = ky ∧ k = kx then E.norm ⟨z, 0, 0⟩ else 0 := by
  have hpr : Projects c ⟨z, 0, 0⟩ := by
    refine ⟨hz, ?_⟩
    simp only [neg_zero, zero_div, mul_zero, add_zero, hkx, hky]
    omega
  simp only [projectPoints, projLoop, projStep, hp, pixel_ok c _ hpr, Outcome.bind, neg_zero, zero_div, mul_zero, add_zero,
    hkx, hky]
  rw [if_neg (by omega), if_pos (Or.inl trivial)]
  simp only [Int.toNat_natCast]

/-- … which is the inverse of what the ICP means by the pose of the local map (global = pose ⊕ local): for a perfect
registration in that sense, with the pose a displacement by `d` along the optical axis, the quality is that of a mismatch of
`2 d` in range. -/
theorem range_quality_of_registration (E : RangeExt K) (hn : ∀ x : K, 0 < x → E.norm ⟨x, 0, 0⟩ = x)
    (c : Qual.RangeParams K) (hs : 0 < c.sigma) (kx ky : Nat) (hkx : truncZ c.cx = kx) (hky : truncZ c.cy = ky)
    (hxc : kx < c.ncols) (hyc : ky < c.nrows) (hcx : (kx : ℤ) < 2 ^ 31) (hcy : (ky : ℤ) < 2 ^ 31) (x d : K) (hd : 0 < d)
    (hx : d < x) :
    ([⟨x, 0, 0⟩] : List (P3 K)).map (shiftX d).composePoint = [⟨x + d, 0, 0⟩] ∧
    evalRange E c [⟨x + d, 0, 0⟩] [⟨x, 0, 0⟩] (shiftX d) = .ok (1 - E.phi (2 * d / c.sigma)) := by
  have hx0 : 0 < x := hd.trans hx
  refine ⟨by simp [Pose3.composePoint, shiftX, M3.one, M3.mulVec, P3.ext_iff], ?_⟩
  have i11 := single_image E c kx ky hkx hky hxc hyc hcx hcy none ⟨x + d, 0, 0⟩ (x + d) (by linarith) rfl
  have i12 := single_image E c kx ky hkx hky hxc hyc hcx hcy (some (shiftX d)) ⟨x + d, 0, 0⟩ (x + d + d) (by linarith)
    (by simp [viewed, Pose3.composePoint, shiftX, M3.one, M3.mulVec, P3.ext_iff])
  have i22 := single_image E c kx ky hkx hky hxc hyc hcx hcy none ⟨x, 0, 0⟩ x hx0.ne' rfl
  have i21 := single_image E c kx ky hkx hky hxc hyc hcx hcy (some (shiftX d).inv) ⟨x, 0, 0⟩ (x - d) (by linarith)
    (by simp [viewed, Pose3.composePoint, Pose3.inv, shiftX, M3.one, M3.mulVec, M3.transpose, P3.ext_iff]; ring)
  rw [hn _ (by linarith)] at i11 i12 i22 i21
  have key : ∀ a b : K, 0 < a → 0 < b → ∀ l : List (Nat × Nat),
      (l.filterMap fun q => score E c (if q.1 = ky ∧ q.2 = kx then a else 0) (if q.1 = ky ∧ q.2 = kx then b else 0)) =
      (l.filter fun q => q = (ky, kx)).map fun _ => 1 - E.phi |(a - b) / c.sigma| := by
    intro a b ha hb l
    induction l with
    | nil => rfl
    | cons q l ih =>
      by_cases hq : q = (ky, kx)
      · subst hq
        rw [List.filterMap_cons_some (b := 1 - E.phi |(a - b) / c.sigma|) (by simp [score, ha.ne', hb.ne']),
          List.filter_cons_of_pos (by simp), List.map_cons, ih]
      · have : ¬ (q.1 = ky ∧ q.2 = kx) := fun h => hq (Prod.ext h.1 h.2)
        rw [List.filterMap_cons_none (by simp [score, this]), List.filter_cons_of_neg (by simpa using hq), ih]
  rw [evalRange_eq]
  refine ⟨_, _, _, _, i11, i12, i22, i21, ?_⟩
  have e1 : |(x + d - (x - d)) / c.sigma| = 2 * d / c.sigma := by
    rw [abs_of_nonneg (by apply div_nonneg _ hs.le; linarith)]; congr 1; ring
  have e2 : |(x + d + d - x) / c.sigma| = 2 * d / c.sigma := by
    rw [abs_of_nonneg (by apply div_nonneg _ hs.le; linarith)]; congr 1; ring
  unfold scores
  simp only []
  rw [key (x + d) (x - d) (by linarith) (by linarith), key (x + d + d) x (by linarith) hx0, e1, e2]
  generalize hF : (pixels c).filter (fun q => decide (q = (ky, kx))) = F
  have hmem : (ky, kx) ∈ F := by rw [← hF]; simp [pixels, hxc, hyc]
  have hlen : 0 < F.length := List.length_pos_of_mem hmem
  have hs : ∀ (l : List (Nat × Nat)) (v : K), (l.map fun _ => v).sum = l.length * v := by
    intro l v; induction l with
    | nil => simp
    | cons a l ih => rw [List.map_cons, List.sum_cons, ih, List.length_cons]; push_cast; ring
  unfold meanScore
  rw [if_pos (by simp; omega), hs]
  simp only [List.length_map]
  have : (F.length : K) ≠ 0 := by exact_mod_cast hlen.ne'
  push_cast
  field_simp

/-- A negative penalty breaks the range: a pixel seen from one side only then counts more than 1 if `phi` is negative there (as
`erf` is). -/
theorem range_penalty_negative (E : RangeExt K) (c : Qual.RangeParams K) (h : E.phi c.penalty < 0) (r : K) (hr : r ≠ 0) :
    ∃ v, score E c r 0 = some v ∧ 1 < v :=
  ⟨1 - E.phi c.penalty, by simp [score, hr], by linarith⟩

/-! ### C71: voxels -/

/-- The score of a pair of voxels: it depends on how far the two probabilities are from each other, and on how far their sum is
from one. -/
theorem loss_form (x y : K) : loss x y = 2 - (x + y - 1) ^ 2 / 2 - 23 / 2 * (x - y) ^ 2 := by
  unfold loss; ring

/-- The best score is that of two voxels nothing is known of; for equal ones, the surer the lower. -/
theorem loss_best (x y : K) : loss x y ≤ 2 ∧ (loss x y = 2 ↔ x = 1 / 2 ∧ y = 1 / 2) ∧ loss x x = 2 - (2 * x - 1) ^ 2 / 2 ∧
    loss y x = loss x y := by
  refine ⟨?_, ?_, ?_, ?_⟩
  · rw [loss_form]; nlinarith [sq_nonneg (x + y - 1), sq_nonneg (x - y)]
  · rw [loss_form]
    constructor
    · intro h
      have h1 : (x - y) ^ 2 = 0 := le_antisymm (by nlinarith [sq_nonneg (x + y - 1)]) (sq_nonneg _)
      have h2 : (x + y - 1) ^ 2 = 0 := le_antisymm (by nlinarith [sq_nonneg (x - y)]) (sq_nonneg _)
      have h3 := pow_eq_zero_iff (two_ne_zero) |>.1 h1
      have h4 := pow_eq_zero_iff (two_ne_zero) |>.1 h2
      constructor <;> linarith
    · rintro ⟨rfl, rfl⟩; norm_num
  · rw [loss_form]; ring
  · rw [loss_form, loss_form]; ring

/-- The pairs of occupancies (local, global) compared for the voxels `cells` of one map, given which voxel of the other map
each one falls in. -/
def compared (other : ℤ × ℤ × ℤ → Option K) (cells : List ((ℤ × ℤ × ℤ) × K)) : List (K × K) :=
  (cells.filterMap fun e => (other e.1).map fun o => (e.2, o)).filter fun q =>
    decide (1 / 100 ≤ |q.1 - 1 / 2|) && decide (1 / 100 ≤ |q.2 - 1 / 2|)

theorem localLoop_eq (E : VoxExt K) (g l : Grid K) (T : Pose3 K) (cells : List ((ℤ × ℤ × ℤ) × K)) (a : K × Nat) :
    localLoop E g l T cells a =
      (a.1 + ((compared (fun k => g.find (E.toCoord g.res (T.composePoint (E.toPos l.res k)))) cells).map fun q =>
        loss q.1 q.2).sum,
       a.2 + (compared (fun k => g.find (E.toCoord g.res (T.composePoint (E.toPos l.res k)))) cells).length) := by
  induction cells generalizing a with
  | nil => simp [localLoop, compared]
  | cons e rest ih =>
    obtain ⟨k, o⟩ := e
    rw [localLoop]
    cases h : g.find (E.toCoord g.res (T.composePoint (E.toPos l.res k))) with
    | none => simp only []; rw [ih]; simp [compared, h]
    | some go =>
      simp only []
      by_cases hb : barely go ∨ barely o
      · rw [if_pos hb, ih]
        have : ¬ (1 / 100 ≤ |o - 1 / 2| ∧ 1 / 100 ≤ |go - 1 / 2|) := by
          rintro ⟨h1, h2⟩
          rcases hb with hb | hb
          · exact absurd hb (not_lt.2 h2)
          · exact absurd hb (not_lt.2 h1)
        have e : compared (fun k => g.find (E.toCoord g.res (T.composePoint (E.toPos l.res k)))) ((k, o) :: rest) =
            compared (fun k => g.find (E.toCoord g.res (T.composePoint (E.toPos l.res k)))) rest := by
          unfold compared
          rw [List.filterMap_cons_some (b := (o, go)) (by simp [h]), List.filter_cons_of_neg (by simpa using this)]
        rw [e]
      · rw [if_neg hb, ih]
        have : 1 / 100 ≤ |o - 1 / 2| ∧ 1 / 100 ≤ |go - 1 / 2| := by
          rw [not_or] at hb; exact ⟨not_lt.1 hb.2, not_lt.1 hb.1⟩
        have e : compared (fun k => g.find (E.toCoord g.res (T.composePoint (E.toPos l.res k)))) ((k, o) :: rest) =
            (o, go) :: compared (fun k => g.find (E.toCoord g.res (T.composePoint (E.toPos l.res k)))) rest := by
          unfold compared
          rw [List.filterMap_cons_some (b := (o, go)) (by simp [h]), List.filter_cons_of_pos (by simpa using this)]
        rw [e, List.map_cons, List.sum_cons, List.length_cons]
        simp only [Prod.mk.injEq]
        constructor
        · ring
        · omega

theorem globalLoop_eq (E : VoxExt K) (g l : Grid K) (T : Pose3 K) (cells : List ((ℤ × ℤ × ℤ) × K)) (a : K × Nat) :
    globalLoop E g l T cells a =
      (a.1 + ((compared (fun k => l.find (E.toCoord l.res (T.inv.composePoint (E.toPos l.res k)))) cells).map fun q =>
        loss q.1 q.2).sum,
       a.2 + (compared (fun k => l.find (E.toCoord l.res (T.inv.composePoint (E.toPos l.res k)))) cells).length) := by
  induction cells generalizing a with
  | nil => simp [globalLoop, compared]
  | cons e rest ih =>
    obtain ⟨k, o⟩ := e
    rw [globalLoop]
    cases h : l.find (E.toCoord l.res (T.inv.composePoint (E.toPos l.res k))) with
    | none => simp only []; rw [ih]; simp [compared, h]
    | some go =>
      simp only []
      by_cases hb : barely o ∨ barely go
      · rw [if_pos hb, ih]
        have : ¬ (1 / 100 ≤ |o - 1 / 2| ∧ 1 / 100 ≤ |go - 1 / 2|) := by
          rintro ⟨h1, h2⟩
          rcases hb with hb | hb
          · exact absurd hb (not_lt.2 h1)
          · exact absurd hb (not_lt.2 h2)
        have e : compared (fun k => l.find (E.toCoord l.res (T.inv.composePoint (E.toPos l.res k)))) ((k, o) :: rest) =
            compared (fun k => l.find (E.toCoord l.res (T.inv.composePoint (E.toPos l.res k)))) rest := by
          unfold compared
          rw [List.filterMap_cons_some (b := (o, go)) (by simp [h]), List.filter_cons_of_neg (by simpa using this)]
        rw [e]
      · rw [if_neg hb, ih]
        have : 1 / 100 ≤ |o - 1 / 2| ∧ 1 / 100 ≤ |go - 1 / 2| := by
          rw [not_or] at hb; exact ⟨not_lt.1 hb.1, not_lt.1 hb.2⟩
        have e : compared (fun k => l.find (E.toCoord l.res (T.inv.composePoint (E.toPos l.res k)))) ((k, o) :: rest) =
            (o, go) :: compared (fun k => l.find (E.toCoord l.res (T.inv.composePoint (E.toPos l.res k)))) rest := by
          unfold compared
          rw [List.filterMap_cons_some (b := (o, go)) (by simp [h]), List.filter_cons_of_pos (by simpa using this)]
        rw [e, List.map_cons, List.sum_cons, List.length_cons, (loss_best o go).2.2.2]
        simp only [Prod.mk.injEq]
        constructor
        · ring
        · omega

/-- The quality for the pairs of occupancies compared: the logistic function of the scaled mean score, 0 if there is none. -/
def voxelQuality (exp : K → K) (scale : K) (pairs : List (K × K)) : K :=
  if pairs = [] then 0 else 1 / (1 + exp (-scale * ((pairs.map fun q => loss q.1 q.2).sum / pairs.length)))

/-- **C71.** What the evaluator computes: each voxel of each map observed enough is compared with the one of the other map it
falls in, if that was observed enough too. -/
theorem voxels_quality (E : VoxExt K) (scale : K) (g l : Grid K) (T : Pose3 K) :
    evalVoxels E scale (some g) (some l) T = .ok (voxelQuality E.exp scale
      (compared (fun k => g.find (E.toCoord g.res (T.composePoint (E.toPos l.res k)))) l.cells ++
       compared (fun k => l.find (E.toCoord l.res (T.inv.composePoint (E.toPos l.res k)))) g.cells)) := by
  simp only [evalVoxels, localLoop_eq, globalLoop_eq, voxelQuality, zero_add]
  congr 1
  generalize compared (fun k => g.find (E.toCoord g.res (T.composePoint (E.toPos l.res k)))) l.cells = A
  generalize compared (fun k => l.find (E.toCoord l.res (T.inv.composePoint (E.toPos l.res k)))) g.cells = B
  rw [List.map_append, List.sum_append, List.length_append]
  by_cases h : A ++ B = []
  · rw [if_pos h]
    rw [List.append_eq_nil_iff] at h
    rw [h.1, h.2]; simp
  · rw [if_neg h, if_pos]
    intro h0
    apply h
    rw [← List.length_eq_zero_iff, List.length_append]; exact h0

theorem voxels_refused (E : VoxExt K) (scale : K) (g l : Option (Grid K)) (T : Pose3 K) (h : g = none ∨ l = none) :
    evalVoxels E scale g l T = .throw := by
  rcases h with rfl | rfl
  · simp [evalVoxels]
  · cases g <;> simp [evalVoxels]

theorem meanLoss_le (ps : List (K × K)) (h : ps ≠ []) : (ps.map fun q => loss q.1 q.2).sum / ps.length ≤ 2 := by
  have hl : (0 : K) < ps.length := by exact_mod_cast List.length_pos_iff.2 h
  rw [div_le_iff₀ hl]
  clear h hl
  induction ps with
  | nil => simp
  | cons a l ih =>
    rw [List.map_cons, List.sum_cons, List.length_cons]
    have := (loss_best a.1 a.2).1
    push_cast; linarith

/-- **C71 (range).** The quality is between 0 and 1, below 1, and in fact at most that of two unobserved maps: with a scale
that is not negative no pair of maps reaches more than `1 / (1 + exp(-2 scale))`. -/
theorem voxels_quality_in_range (E : VoxExt K) (hexp : ∀ x, 0 < E.exp x) (hmono : ∀ x y, x ≤ y → E.exp x ≤ E.exp y)
    (scale : K) (g l : Grid K) (T : Pose3 K) (q : K) (h : evalVoxels E scale (some g) (some l) T = .ok q) :
    0 ≤ q ∧ q < 1 ∧ (0 ≤ scale → q ≤ 1 / (1 + E.exp (-scale * 2))) := by
  rw [voxels_quality, Outcome.ok.injEq] at h
  subst h
  generalize (_ ++ _ : List (K × K)) = ps
  unfold voxelQuality
  have h2 := hexp (-scale * 2)
  by_cases hp : ps = []
  · rw [if_pos hp]
    refine ⟨le_refl _, zero_lt_one, fun _ => ?_⟩
    apply div_nonneg <;> linarith
  · rw [if_neg hp]
    have hm := meanLoss_le ps hp
    generalize (ps.map fun q => loss q.1 q.2).sum / ps.length = d at hm
    have h1 := hexp (-scale * d)
    refine ⟨by apply div_nonneg <;> linarith, by rw [div_lt_one] <;> linarith, fun hs => ?_⟩
    apply one_div_le_one_div_of_le (by linarith)
    have := hmono (-scale * 2) (-scale * d) (by nlinarith)
    linarith

/-- Swapping the maps and inverting the pose gives the same quality if the voxels of both are of the same size … -/
theorem voxels_symmetric_partial (E : VoxExt K) (scale : K) (g l : Grid K) (T : Pose3 K) (hrot : Spec.IsRotation T.R)
    (hres : g.res = l.res) : evalVoxels E scale (some l) (some g) T.inv = evalVoxels E scale (some g) (some l) T := by
  rw [voxels_quality, voxels_quality, inv_inv_pose T hrot, hres]
  congr 1
  generalize compared (fun k => g.find (E.toCoord l.res (T.composePoint (E.toPos l.res k)))) l.cells = A
  generalize compared (fun k => l.find (E.toCoord l.res (T.inv.composePoint (E.toPos l.res k)))) g.cells = B
  unfold voxelQuality
  have e : A ++ B = [] ↔ B ++ A = [] := by rw [List.append_eq_nil_iff, List.append_eq_nil_iff, and_comm]
  simp only [e, List.map_append, List.sum_append, List.length_append, add_comm]

/-- A map compared with itself at the identity: every voxel observed enough is compared with itself, twice. -/
theorem voxels_self (E : VoxExt K) (scale : K) (g : Grid K) (hE : ∀ k, E.toCoord g.res (E.toPos g.res k) = k)
    (hnd : (g.cells.map (·.1)).Nodup) :
    evalVoxels E scale (some g) (some g) Pose3.identity = .ok (voxelQuality E.exp scale
      (let s := (g.cells.filter fun e => decide (1 / 100 ≤ |e.2 - 1 / 2|)).map fun e => (e.2, e.2)
       s ++ s)) := by
  rw [voxels_quality]
  have hid : (Pose3.identity : Pose3 K).inv = Pose3.identity := by
    simp [Pose3.inv, Pose3.identity, M3.transpose, M3.one, M3.mulVec, Pose3.mk.injEq, P3.ext_iff]
  have hfind : ∀ l : List ((ℤ × ℤ × ℤ) × K), (l.map (·.1)).Nodup → ∀ e ∈ l,
      (l.find? fun x => x.1 = e.1).map (·.2) = some e.2 := by
    intro l hl e he
    induction l with
    | nil => cases he
    | cons a l ih =>
      rw [List.map_cons, List.nodup_cons] at hl
      by_cases h : a.1 = e.1
      · rw [List.find?_cons_of_pos (by simpa using h)]
        rcases List.mem_cons.1 he with rfl | he
        · rfl
        · exact absurd (List.mem_map.2 ⟨e, he, h.symm⟩) hl.1
      · rw [List.find?_cons_of_neg (by simpa using h)]
        rcases List.mem_cons.1 he with rfl | he
        · exact absurd rfl h
        · exact ih hl.2 he
  have key : compared (fun k => g.find (E.toCoord g.res ((Pose3.identity : Pose3 K).composePoint (E.toPos g.res k)))) g.cells =
      (g.cells.filter fun e => decide (1 / 100 ≤ |e.2 - 1 / 2|)).map fun e => (e.2, e.2) := by
    have : ∀ l : List ((ℤ × ℤ × ℤ) × K), (∀ e ∈ l, e ∈ g.cells) →
        compared (fun k => g.find (E.toCoord g.res ((Pose3.identity : Pose3 K).composePoint (E.toPos g.res k)))) l =
        (l.filter fun e => decide (1 / 100 ≤ |e.2 - 1 / 2|)).map fun e => (e.2, e.2) := by
      intro l hl
      induction l with
      | nil => rfl
      | cons e l ih =>
        have he := hfind g.cells hnd e (hl e (List.mem_cons_self ..))
        have ih := ih fun x hx => hl x (List.mem_cons_of_mem _ hx)
        unfold compared at ih ⊢
        rw [List.filterMap_cons_some (b := (e.2, e.2)) (by beta_reduce; rw [identity_compose, hE]; simp only [Grid.find, he]; rfl)]
        by_cases hb : 1 / 100 ≤ |e.2 - 1 / 2|
        · rw [List.filter_cons_of_pos (by simpa using hb), List.filter_cons_of_pos (by simpa using hb), List.map_cons, ih]
        · rw [List.filter_cons_of_neg (by simpa using hb), List.filter_cons_of_neg (by simpa using hb), ih]
    exact this g.cells fun e he => he
  rw [hid, key]

/-! ### examples -/

/-- a camera of 4 × 3 pixels -/
def exCam : Qual.RangeParams ℚ := ⟨4, 3, 2, 1, 2, 2, 1/2, 1⟩
/-- a norm (the maximum norm) and a function between 0 and 1 with value 0 at 0 meet the contracts of `RangeExt` -/
def exRangeExt : RangeExt ℚ := ⟨fun p => max |p.x| (max |p.y| |p.z|), fun x => |x| / (1 + |x|)⟩

example : ∀ p : P3 ℚ, p.x ≠ 0 → 0 < exRangeExt.norm p := fun p h => lt_max_of_lt_left (abs_pos.2 h)
example : ∀ x : ℚ, 0 < x → exRangeExt.norm ⟨x, 0, 0⟩ = x := fun x h => by
  simp [exRangeExt, abs_of_pos h, h.le]
example : ∀ x : ℚ, 0 ≤ x → 0 ≤ exRangeExt.phi x ∧ exRangeExt.phi x ≤ 1 := fun x _ => by
  have := abs_nonneg x
  constructor
  · exact div_nonneg this (by linarith)
  · show |x| / (1 + |x|) ≤ 1
    rw [div_le_one (by linarith)]; linarith
example : exRangeExt.phi 0 = 0 := by decide +kernel

instance (c : Qual.RangeParams ℚ) (p : P3 ℚ) : Decidable (Projects c p) := by unfold Projects; infer_instance
instance (c : Qual.RangeParams ℚ) (p : P3 ℚ) (r k : Nat) : Decidable (Hits c p r k) := by unfold Hits; infer_instance

/-- two points on the same pixel and one on another: the nearest counts -/
def exSeen : List (P3 ℚ) := [⟨4, 1, 0⟩, ⟨2, 1/2, 0⟩, ⟨5, -3, 2⟩, ⟨3, 3/4, 0⟩]
example : ∀ p ∈ exSeen, Projects exCam p := by decide +kernel
example : ∀ p ∈ exSeen, Projects exCam ((shiftX (1 : ℚ)).composePoint p) := by decide +kernel
example : (projectPoints exRangeExt exCam none exSeen).Sat fun I =>
    I 1 1 = 2 ∧ I 0 3 = 5 ∧ I 0 0 = 0 := by decide +kernel
example : ∃ p ∈ exSeen, ∃ r k, r < exCam.nrows ∧ k < exCam.ncols ∧ Hits exCam p r k :=
  ⟨⟨2, 1/2, 0⟩, by simp [exSeen], 1, 1, by decide +kernel, by decide +kernel, by decide +kernel⟩
example : (evalRange exRangeExt exCam exSeen (exSeen.map (shiftX (1 : ℚ)).composePoint) (shiftX 1)).Sat fun q => q = 1 := by
  decide +kernel
/-- the perfect registration in the sense of the ICP is scored as a mismatch (here by 4 standard deviations) -/
example : (evalRange exRangeExt exCam [⟨3, 0, 0⟩] [⟨2, 0, 0⟩] (shiftX 1)).Sat fun q => q = 1 - exRangeExt.phi 4 ∧ q = 1/5 := by
  decide +kernel
/-- the side view `x = 0` -/
example : projectPoints exRangeExt exCam none [⟨1, 0, 0⟩, ⟨0, 1, 0⟩] = .ub := Outcome.eq_ub_of (by decide +kernel)
/-- `erf` is negative for negative penalties -/
def exOddExt : RangeExt ℚ := ⟨exRangeExt.norm, fun x => x / (1 + |x|)⟩
example : exOddExt.phi (-1) < 0 := by decide +kernel

/-- the real exponential meets the contract of `VoxExt.exp` -/
example : (∀ x : ℝ, 0 < Real.exp x) ∧ ∀ x y : ℝ, x ≤ y → Real.exp x ≤ Real.exp y :=
  ⟨Real.exp_pos, fun _ _ h => Real.exp_le_exp.2 h⟩

/-- voxels as cubes from their corner on; any positive increasing function will do for `exp` in the computed examples -/
def exVoxExt : VoxExt ℚ :=
  ⟨fun r k => ⟨r * k.1, r * k.2.1, r * k.2.2⟩, fun r p => (⌊p.x / r⌋, ⌊p.y / r⌋, ⌊p.z / r⌋),
    fun x => if x < 0 then 1 / (1 - x) else 1 + x⟩
example : ∀ k, exVoxExt.toCoord (1/2) (exVoxExt.toPos (1/2) k) = k := by
  have h : ∀ z : ℤ, ⌊(2 : ℚ)⁻¹ * z * 2⌋ = z := fun z => by
    rw [show (2 : ℚ)⁻¹ * z * 2 = z by ring]; exact Int.floor_intCast z
  intro k; simp [exVoxExt, h]
example : ∀ x, 0 < exVoxExt.exp x := by
  intro x; simp only [exVoxExt]
  split
  · apply div_pos <;> linarith
  · linarith
example : ∀ x y, x ≤ y → exVoxExt.exp x ≤ exVoxExt.exp y := by
  intro x y h; simp only [exVoxExt]
  split <;> split
  · apply one_div_le_one_div_of_le <;> linarith
  · have : 1 / (1 - x) ≤ 1 := by rw [div_le_one] <;> linarith
    linarith
  · linarith
  · linarith
def exFine : Grid ℚ := ⟨1/2, [((3, 0, 0), 9/10), ((0, 1, 0), 1/10), ((1, 1, 0), 501/1000)]⟩
example : (exFine.cells.map (·.1)).Nodup := by decide +kernel
/-- the two voxels observed enough, twice each; their mean score is 2 - 0.32 -/
example : (evalVoxels exVoxExt (1/10) (some exFine) (some exFine) Pose3.identity).Sat fun q =>
    q = 1 / (1 + exVoxExt.exp (-(1/10) * (42/25))) := by decide +kernel

/-- … and not otherwise: the positions of the global voxels are computed with the size of the local ones.  Here a fine map is
compared with a coarse one: the pair of voxels is seen from one side only. -/
theorem voxels_symmetry_fails :
    (evalVoxels exVoxExt (1/10) (some ⟨1, [((1, 0, 0), 9/10)]⟩) (some exFine) Pose3.identity).Sat (fun q => q ≠ 0) ∧
    (evalVoxels exVoxExt (1/10) (some exFine) (some ⟨1, [((1, 0, 0), 9/10)]⟩) (Pose3.identity : Pose3 ℚ).inv).Sat
      (fun q => q = 0) := by
  constructor <;> decide +kernel

end Props
end Verif
