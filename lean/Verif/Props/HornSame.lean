import Verif.Lemmas.HornSame
import Verif.Props.FrameFree
/-
C124: Horn's solution for the same pairs seen otherwise.
-/
namespace Verif.Props
open Verif Verif.Spec Verif.Lemmas.HS
set_option linter.unusedSectionVars false
variable {K : Type} [Field K] [LinearOrder K] [IsStrictOrderedRing K]
  {e : HornEnv K} {p p' : Pairings K} {wp wp' : WeightParams K}

/-- C124: with the local and the map points of all pairs swapped, Horn's solver gives the inverse motion. -/
theorem swapped_gives_inverse (heig : ∀ N, IsTopEigen N (e.eig N)) (hp : FitPairs e p wp) (hone : OneBestFit p.pt2pt)
    (hp' : PlainPoints p' wp') (hs : Swapped p.pt2pt p'.pt2pt) :
    ∃ r r', optimalTfHorn e p wp = .ok (some r) ∧ optimalTfHorn e p' wp' = .ok (some r') ∧ r'.pose = r.pose.inv := by
  have hl : p'.pt2pt.length = p.pt2pt.length := by rw [← length_points, hs, List.length_map, length_points]
  exact transfer heig heig hp ⟨hp', hl ▸ hp.three, far_swap hs hp.far⟩ hone Pose3.inv Pose3.inv (fun _ h => inv_rot h) (fun _ h => inv_rot h)
    (fun _ h => inv_inv h) (fun _ h => inv_inv h) one_pos fun _ hT => cost_swap hs hT

/-- C124: with the local points moved by any rigid motion `A` and the map points by any rigid motion `B`, it gives `B T A⁻¹` for `T`. -/
theorem moved_gives_moved (heig : ∀ N, IsTopEigen N (e.eig N)) (hn : IsNorm e.norm) (hp : FitPairs e p wp) (hone : OneBestFit p.pt2pt)
    (hp' : PlainPoints p' wp') {A B : Pose3 K} (hA : IsRotation A.R) (hB : IsRotation B.R) (hs : Moved A B p.pt2pt p'.pt2pt) :
    ∃ r r', optimalTfHorn e p wp = .ok (some r) ∧ optimalTfHorn e p' wp' = .ok (some r') ∧
      r'.pose = B.compose (r.pose.compose A.inv) := by
  have hl : p'.pt2pt.length = p.pt2pt.length := by rw [← length_points, hs, List.length_map, length_points]
  refine transfer heig heig hp ⟨hp', hl ▸ hp.three, far_moved hn hA hB hs hp.far⟩ hone (fun T => B.inv.compose (T.compose A))
    (fun T => B.compose (T.compose A.inv)) (fun T h => compose_rot (inv_rot hB) (compose_rot h hA))
    (fun T h => compose_rot hB (compose_rot h (inv_rot hA))) (fun T _ => pose_ext fun x => ?_) (fun T _ => pose_ext fun x => ?_) one_pos
    fun T _ => cost_moved hB hs T
  · simp only [Lemmas.compose_composePoint, inv_point hB, inv_point hA]
  · simp only [Lemmas.compose_composePoint, point_inv hB, point_inv hA]

/-- C124: in another unit of length (all coordinates times `s > 0`) it gives the same rotation, and the translation in the new unit, if also in
the new unit no pair is within the solver's fixed distance of a centroid. -/
theorem scaled_gives_scaled (heig : ∀ N, IsTopEigen N (e.eig N)) (hp : FitPairs e p wp) (hone : OneBestFit p.pt2pt)
    (hp' : PlainPoints p' wp') {s : K} (h0 : 0 < s) (hs : Scaled s p.pt2pt p'.pt2pt) (hfar : AwayFromCentroids e.norm e.eps p'.pt2pt) :
    ∃ r r', optimalTfHorn e p wp = .ok (some r) ∧ optimalTfHorn e p' wp' = .ok (some r') ∧ r'.pose.R = r.pose.R ∧
      r'.pose.t = r.pose.t.smul s := by
  have hl : p'.pt2pt.length = p.pt2pt.length := by rw [← length_points, hs, List.length_map, length_points]
  obtain ⟨r, r', h1, h2, h3⟩ := transfer heig heig hp ⟨hp', hl ▸ hp.three, hfar⟩ hone (stretch s⁻¹) (stretch s) (fun _ h => h) (fun _ h => h)
    (fun T _ => by have := stretch_back (inv_ne_zero h0.ne') T; rwa [_root_.inv_inv] at this) (fun T _ => stretch_back h0.ne' T)
    (pow_pos h0 2) fun T _ => cost_scaled h0.ne' hs T
  exact ⟨r, r', h1, h2, by rw [h3]; rfl, by rw [h3]; rfl⟩

/-- C124: giving each pair `k` times instead of once, and in any order, changes nothing. -/
theorem repeated_changes_nothing (heig : ∀ N, IsTopEigen N (e.eig N)) (hp : FitPairs e p wp) (hone : OneBestFit p.pt2pt)
    (hp' : PlainPoints p' wp') {k : Nat} (hk : k ≠ 0) (hs : Repeated k p.pt2pt p'.pt2pt) :
    ∃ r r', optimalTfHorn e p wp = .ok (some r) ∧ optimalTfHorn e p' wp' = .ok (some r') ∧ r'.pose = r.pose := by
  have hl : p'.pt2pt.length = k * p.pt2pt.length := by rw [← length_points, hs.length_eq]; simp [length_points]
  have h3 : 3 ≤ p'.pt2pt.length := by
    have := hp.three
    rw [hl]
    exact this.trans (Nat.le_mul_of_pos_left _ (Nat.pos_of_ne_zero hk))
  exact transfer heig heig hp ⟨hp', h3, far_times hk hs hp.far⟩ hone id id (fun _ h => h) (fun _ h => h) (fun _ _ => rfl) (fun _ _ => rfl)
    (by exact_mod_cast Nat.pos_of_ne_zero hk) fun T _ => cost_times hs T

/-- C124 (negative, any two sets of pairs): if all pairs of both are within the solver's fixed distance of a centroid, it succeeds on both, and
gives the same rotation for both. -/
theorem tiny_all_alike (hp : PlainPoints p wp) (h3 : 3 ≤ p.pt2pt.length) (hp' : PlainPoints p' wp') (h3' : 3 ≤ p'.pt2pt.length)
    (hnear : ∀ q ∈ p.pt2pt, e.norm (q.global - mean (p.pt2pt.map (·.global))) < e.eps ∨ e.norm (q.local - mean (p.pt2pt.map (·.local))) < e.eps)
    (hnear' : ∀ q ∈ p'.pt2pt, e.norm (q.global - mean (p'.pt2pt.map (·.global))) < e.eps ∨
      e.norm (q.local - mean (p'.pt2pt.map (·.local))) < e.eps) :
    ∃ r r', optimalTfHorn e p wp = .ok (some r) ∧ optimalTfHorn e p' wp' = .ok (some r') ∧ r'.pose.R = r.pose.R := by
  obtain ⟨r, a, b⟩ := horn_blind hp h3 hnear
  obtain ⟨r', a', b'⟩ := horn_blind hp' h3' hnear'
  exact ⟨r, r', a, a', by rw [b, b']⟩

/-! ### Four pairs that do not fit exactly -/

/-- Four pairs, two of which cannot be matched by a rigid motion. -/
def noisyPairs : Pairings ℝ :=
  { pt2pt := [⟨0, 0, ⟨2, 0, 0⟩, ⟨1, 0, 0⟩, 0⟩, ⟨1, 1, ⟨-2, 0, 0⟩, ⟨-1, 0, 0⟩, 0⟩, ⟨2, 2, ⟨0, 1, 0⟩, ⟨0, 1, 0⟩, 0⟩, ⟨3, 3, ⟨0, -1, 0⟩, ⟨0, -1, 0⟩, 0⟩] }

theorem noisy_points : pointsOf noisyPairs.pt2pt = widePairs := rfl

theorem plain_params {p : Pairings ℝ} (h1 : p.pt2ln = []) (h2 : p.pt2pl = []) (h3 : p.ln2ln = []) (h4 : p.pl2pl = []) (h5 : p.pointWeights = []) :
    PlainPoints p exParams :=
  ⟨h1, h2, h3, h4, h5, rfl, rfl, by simp [exParams], by simp [exParams], by simp [exParams]⟩

theorem noisy_fit : FitPairs realHorn noisyPairs exParams := by
  refine ⟨plain_params rfl rfl rfl rfl rfl, by simp [noisyPairs], ?_⟩
  rw [far_points, noisy_points]
  have h1 : mean (widePairs.map (·.1)) = ⟨0, 0, 0⟩ := by ext <;> simp [mean, widePairs]
  have h2 : mean (widePairs.map (·.2)) = ⟨0, 0, 0⟩ := by ext <;> simp [mean, widePairs]
  rw [h1, h2]
  intro q hq
  refine ⟨realNorm_far ?_, realNorm_far ?_⟩ <;> revert q <;> norm_num [widePairs, P3.normSq, P3.dot]

theorem noisy_best {A : Pose3 ℝ} (hA : IsRotation A.R) (hmin : BestFit noisyPairs.pt2pt A) : A = Pose3.identity := by
  have hcost : ∀ T : Pose3 ℝ, IsRotation T.R →
      pointCost noisyPairs.pt2pt T = 2 + 8 * (1 - T.R.a00) + 4 * (1 - T.R.a11) + 4 * (T.t.x ^ 2 + T.t.y ^ 2 + T.t.z ^ 2) := by
    intro T hT
    have r := Lemmas.rotRel hT
    rw [cost_points, noisy_points]
    simp only [widePairs, List.map_cons, List.map_nil, List.sum_cons, List.sum_nil, M3.mulVec, P3.distSq, P3.normSq, P3.dot, P3.sub_x, P3.sub_y,
      P3.sub_z, Pose3.composePoint, P3.add_x, P3.add_y, P3.add_z]
    linear_combination 2 * r.c00 + 2 * r.c11
  have hone : IsRotation (M3.one : M3 ℝ) := by
    constructor
    · ext <;> simp [M3.mul, M3.transpose, M3.one]
    · simp [M3.det, M3.one]
  have h1 := hmin Pose3.identity hone
  rw [hcost A hA, hcost _ hone] at h1
  simp only [Pose3.identity, M3.one, P3.zero_x, P3.zero_y, P3.zero_z] at h1
  have r := Lemmas.rotRel hA
  have b0 : A.R.a00 ≤ 1 := by nlinarith [r.c00, sq_nonneg A.R.a10, sq_nonneg A.R.a20, sq_nonneg (A.R.a00 - 1)]
  have b1 : A.R.a11 ≤ 1 := by nlinarith [r.c11, sq_nonneg A.R.a01, sq_nonneg A.R.a21, sq_nonneg (A.R.a11 - 1)]
  have x2 := sq_nonneg A.t.x
  have y2 := sq_nonneg A.t.y
  have z2 := sq_nonneg A.t.z
  have e0 : A.R.a00 = 1 := by nlinarith
  have e1 : A.R.a11 = 1 := by nlinarith
  have tx : A.t.x = 0 := by nlinarith
  have ty : A.t.y = 0 := by nlinarith
  have tz : A.t.z = 0 := by nlinarith
  have c0 := r.c00
  have c1 := r.c11
  rw [e0] at c0
  rw [e1] at c1
  have e10 : A.R.a10 = 0 := by nlinarith [sq_nonneg A.R.a10, sq_nonneg A.R.a20]
  have e20 : A.R.a20 = 0 := by nlinarith [sq_nonneg A.R.a10, sq_nonneg A.R.a20]
  have e01 : A.R.a01 = 0 := by nlinarith [sq_nonneg A.R.a01, sq_nonneg A.R.a21]
  have e21 : A.R.a21 = 0 := by nlinarith [sq_nonneg A.R.a01, sq_nonneg A.R.a21]
  have k20 := r.k20
  have k02 := r.k02
  have k12 := r.k12
  have k22 := r.k22
  rw [e0, e1, e01, e10] at k22
  rw [e10, e21, e1, e20] at k02
  rw [e01, e20, e0, e21] at k12
  refine Pose3.ext ?_ (P3.ext tx ty tz)
  refine M3.ext e0 e01 ?_ e10 e1 ?_ e20 e21 ?_ <;> simp only [Pose3.identity, M3.one] <;> linarith

theorem noisy_one_best : OneBestFit noisyPairs.pt2pt := by
  intro A B hA hB h1 h2
  rw [noisy_best hA h1, noisy_best hB h2]

/-- The hypotheses of the four theorems hold of them: swapped, and moved by `exT` and back, three times as large, each pair twice. -/
example : (∃ p', PlainPoints p' exParams ∧ Swapped noisyPairs.pt2pt p'.pt2pt ∧
      ∃ r r', optimalTfHorn realHorn noisyPairs exParams = .ok (some r) ∧ optimalTfHorn realHorn p' exParams = .ok (some r') ∧
        r'.pose = r.pose.inv) ∧
    (∃ p', PlainPoints p' exParams ∧ Repeated 2 noisyPairs.pt2pt p'.pt2pt ∧
      ∃ r r', optimalTfHorn realHorn noisyPairs exParams = .ok (some r) ∧ optimalTfHorn realHorn p' exParams = .ok (some r') ∧
        r'.pose = r.pose) := by
  have heig : ∀ N, IsTopEigen N (realHorn.eig N) := fun N => Lemmas.top_of_eigenvector (realHorn_top N)
  refine ⟨⟨{ pt2pt := noisyPairs.pt2pt.map fun q => { q with global := q.local, «local» := q.global } }, plain_params rfl rfl rfl rfl rfl, rfl, ?_⟩,
    ⟨{ pt2pt := noisyPairs.pt2pt ++ noisyPairs.pt2pt }, plain_params rfl rfl rfl rfl rfl, .refl _, ?_⟩⟩
  · exact swapped_gives_inverse heig noisy_fit noisy_one_best (plain_params rfl rfl rfl rfl rfl) rfl
  · exact repeated_changes_nothing heig noisy_fit noisy_one_best (plain_params rfl rfl rfl rfl rfl) two_ne_zero (.refl _)

example (A B : Pose3 ℝ) (hA : IsRotation A.R) (hB : IsRotation B.R) : ∃ p', PlainPoints p' exParams ∧ Moved A B noisyPairs.pt2pt p'.pt2pt ∧
    ∃ r r', optimalTfHorn realHorn noisyPairs exParams = .ok (some r) ∧ optimalTfHorn realHorn p' exParams = .ok (some r') ∧
      r'.pose = B.compose (r.pose.compose A.inv) := by
  have heig : ∀ N, IsTopEigen N (realHorn.eig N) := fun N => Lemmas.top_of_eigenvector (realHorn_top N)
  exact ⟨{ pt2pt := noisyPairs.pt2pt.map fun q => { q with global := B.composePoint q.global, «local» := A.composePoint q.local } },
    plain_params rfl rfl rfl rfl rfl, rfl,
    moved_gives_moved heig realNorm_ok noisy_fit noisy_one_best (plain_params rfl rfl rfl rfl rfl) hA hB rfl⟩

example : ∃ p', PlainPoints p' exParams ∧ Scaled 3 noisyPairs.pt2pt p'.pt2pt ∧
    ∃ r r', optimalTfHorn realHorn noisyPairs exParams = .ok (some r) ∧ optimalTfHorn realHorn p' exParams = .ok (some r') ∧
      r'.pose.R = r.pose.R ∧ r'.pose.t = r.pose.t.smul 3 := by
  have heig : ∀ N, IsTopEigen N (realHorn.eig N) := fun N => Lemmas.top_of_eigenvector (realHorn_top N)
  refine ⟨{ pt2pt := noisyPairs.pt2pt.map fun q => { q with global := q.global.smul 3, «local» := q.local.smul 3 } },
    plain_params rfl rfl rfl rfl rfl, rfl,
    scaled_gives_scaled heig noisy_fit noisy_one_best (plain_params rfl rfl rfl rfl rfl) (by norm_num) rfl ?_⟩
  rw [far_points]
  have hw : pointsOf (noisyPairs.pt2pt.map fun q => { q with global := q.global.smul 3, «local» := q.local.smul 3 }) =
      widePairs.map fun q => (q.1.smul 3, q.2.smul 3) := rfl
  rw [hw]
  have h1 : mean ((widePairs.map fun q : P3 ℝ × P3 ℝ => (q.1.smul 3, q.2.smul 3)).map (·.1)) = ⟨0, 0, 0⟩ := by ext <;> simp [mean, widePairs]
  have h2 : mean ((widePairs.map fun q : P3 ℝ × P3 ℝ => (q.1.smul 3, q.2.smul 3)).map (·.2)) = ⟨0, 0, 0⟩ := by ext <;> simp [mean, widePairs]
  rw [h1, h2]
  intro q hq
  refine ⟨realNorm_far ?_, realNorm_far ?_⟩ <;> revert q <;> norm_num [widePairs, P3.normSq, P3.dot, P3.smul]

/-- The same pairs with the map turned half a turn about `x`. -/
def turnedPairs : Pairings ℝ :=
  { pt2pt := [⟨0, 0, ⟨2, 0, 0⟩, ⟨1, 0, 0⟩, 0⟩, ⟨1, 1, ⟨-2, 0, 0⟩, ⟨-1, 0, 0⟩, 0⟩, ⟨2, 2, ⟨0, -1, 0⟩, ⟨0, 1, 0⟩, 0⟩, ⟨3, 3, ⟨0, 1, 0⟩, ⟨0, -1, 0⟩, 0⟩] }

/-- All pairs in a unit a hundred thousand times as long. -/
noncomputable def shrunk (p : Pairings ℝ) : Pairings ℝ :=
  { pt2pt := p.pt2pt.map fun q => { q with global := q.global.smul (1 / 100000), «local» := q.local.smul (1 / 100000) } }

theorem realNorm_small {v : P3 ℝ} (h : v.normSq < 1 / 100000000) : realHorn.norm v < realHorn.eps := by
  have a := realNorm_ok v
  have h2 : realHorn.norm v = realNorm v := rfl
  have h3 : realHorn.eps = 1 / 10000 := rfl
  rw [h2, h3]
  by_contra hc
  push Not at hc
  have : (1 / 10000 : ℝ) * (1 / 10000) ≤ realNorm v * realNorm v := mul_le_mul hc hc (by norm_num) a.1
  rw [a.2] at this
  linarith

theorem half_turn_rot : IsRotation (⟨rotXpi, ⟨0, 0, 0⟩⟩ : Pose3 ℝ).R := by
  constructor
  · ext <;> simp [rotXpi, M3.transpose, M3.mul, M3.one]
  · simp [rotXpi, M3.det]

theorem turned_moved : Moved Pose3.identity ⟨rotXpi, ⟨0, 0, 0⟩⟩ noisyPairs.pt2pt turnedPairs.pt2pt := by
  simp [Moved, pointsOf, noisyPairs, turnedPairs, Pose3.identity, Pose3.composePoint, M3.mulVec, M3.one, rotXpi, P3.ext_iff]

theorem shrunk_scaled (p : Pairings ℝ) : Scaled (1 / 100000) p.pt2pt (shrunk p).pt2pt := by
  simp [Scaled, pointsOf, shrunk, List.map_map, Function.comp_def]

/-- C124, negative: the solver's fixed distance (0.0001) makes the answer depend on the unit of length: for one of two sets of four pairs, each with one
best motion and a centroid far from all its points, the rotation is another one when all coordinates are divided by 100000. -/
theorem unit_matters : ∃ p : Pairings ℝ, FitPairs realHorn p exParams ∧ OneBestFit p.pt2pt ∧
    Scaled (1 / 100000) p.pt2pt (shrunk p).pt2pt ∧ PlainPoints (shrunk p) exParams ∧
    ∃ r r', optimalTfHorn realHorn p exParams = .ok (some r) ∧ optimalTfHorn realHorn (shrunk p) exParams = .ok (some r') ∧
      r'.pose.R ≠ r.pose.R := by
  have heig : ∀ N, IsTopEigen N (realHorn.eig N) := fun N => Lemmas.top_of_eigenvector (realHorn_top N)
  have hid : IsRotation (Pose3.identity : Pose3 ℝ).R := by
    constructor
    · ext <;> simp [Pose3.identity, M3.mul, M3.transpose, M3.one]
    · simp [Pose3.identity, M3.det, M3.one]
  have hpl : ∀ p : Pairings ℝ, PlainPoints (shrunk p) exParams := fun p => plain_params rfl rfl rfl rfl rfl
  have htp : PlainPoints turnedPairs exParams := plain_params rfl rfl rfl rfl rfl
  obtain ⟨r1, r2, h1, h2, h3⟩ := moved_gives_moved heig realNorm_ok noisy_fit noisy_one_best htp hid half_turn_rot turned_moved
  have hr1 : r1.pose = Pose3.identity := by
    obtain ⟨r, a1, a2, a3⟩ := horn_fits heig noisy_fit
    rw [h1, Outcome.ok.injEq, Option.some.injEq] at a1
    rw [a1]
    exact noisy_best a2 a3
  have g1 : ∀ q ∈ (shrunk noisyPairs).pt2pt, realHorn.norm (q.global - mean ((shrunk noisyPairs).pt2pt.map (·.global))) < realHorn.eps ∨
      realHorn.norm (q.local - mean ((shrunk noisyPairs).pt2pt.map (·.local))) < realHorn.eps := by
    have hm : mean ((shrunk noisyPairs).pt2pt.map (·.local)) = ⟨0, 0, 0⟩ := by ext <;> simp [mean, shrunk, noisyPairs]
    intro q hq
    refine .inr (realNorm_small ?_)
    rw [hm]
    revert q
    norm_num [shrunk, noisyPairs, P3.normSq, P3.dot]
  have g2 : ∀ q ∈ (shrunk turnedPairs).pt2pt, realHorn.norm (q.global - mean ((shrunk turnedPairs).pt2pt.map (·.global))) < realHorn.eps ∨
      realHorn.norm (q.local - mean ((shrunk turnedPairs).pt2pt.map (·.local))) < realHorn.eps := by
    have hm : mean ((shrunk turnedPairs).pt2pt.map (·.local)) = ⟨0, 0, 0⟩ := by ext <;> simp [mean, shrunk, turnedPairs]
    intro q hq
    refine .inr (realNorm_small ?_)
    rw [hm]
    revert q
    norm_num [shrunk, turnedPairs, P3.normSq, P3.dot]
  obtain ⟨s1, s2, k1, k2, k3⟩ := tiny_all_alike (hpl noisyPairs) (by simp [shrunk, noisyPairs]) (hpl turnedPairs) (by simp [shrunk, turnedPairs])
    g1 g2
  by_cases hc : s1.pose.R = r1.pose.R
  · refine ⟨turnedPairs, ⟨htp, by simp [turnedPairs], far_moved realNorm_ok hid half_turn_rot turned_moved noisy_fit.far⟩,
      one_best_moved hid half_turn_rot turned_moved noisy_one_best, shrunk_scaled _, hpl _, r2, s2, h2, k2, ?_⟩
    rw [k3, hc, h3, hr1]
    intro hh
    have := congrArg (fun M : M3 ℝ => M.a11) hh
    norm_num [Pose3.identity, Pose3.compose, Pose3.inv, M3.mul, M3.transpose, M3.one, rotXpi] at this
  · exact ⟨noisyPairs, noisy_fit, noisy_one_best, shrunk_scaled _, hpl _, r1, s1, h1, k1, hc⟩

end Verif.Props
