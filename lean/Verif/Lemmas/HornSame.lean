import Verif.Spec.HornSame
import Verif.Lemmas.FrameFree
import Verif.Props.Solvers
/-
Lemmas for C124.
-/
namespace Verif.Lemmas.HS
open Verif Verif.Spec Verif.Lemmas
set_option linter.unusedSectionVars false
variable {K : Type} [Field K] [LinearOrder K] [IsStrictOrderedRing K]

theorem pose_ext {A B : Pose3 K} (h : ∀ x, A.composePoint x = B.composePoint x) : A = B := by
  have h0 := h ⟨0, 0, 0⟩
  have h1 := h ⟨1, 0, 0⟩
  have h2 := h ⟨0, 1, 0⟩
  have h3 := h ⟨0, 0, 1⟩
  simp only [Pose3.composePoint, M3.mulVec, P3.ext_iff, P3.add_x, P3.add_y, P3.add_z, mul_zero, mul_one, add_zero, zero_add] at h0 h1 h2 h3
  obtain ⟨x1, x2, x3⟩ := h0
  rw [x1, x2, x3] at h1 h2 h3
  simp only [add_left_inj] at h1 h2 h3
  refine Pose3.ext ?_ (P3.ext x1 x2 x3)
  ext
  · exact h1.1
  · exact h2.1
  · exact h3.1
  · exact h1.2.1
  · exact h2.2.1
  · exact h3.2.1
  · exact h1.2.2
  · exact h2.2.2
  · exact h3.2.2

theorem one_mulVec (v : P3 K) : (M3.one : M3 K).mulVec v = v := by
  ext <;> simp [M3.mulVec, M3.one]

theorem inv_rot {T : Pose3 K} (h : IsRotation T.R) : IsRotation T.inv.R := (transpose_rot h).2

theorem compose_rot {A B : Pose3 K} (ha : IsRotation A.R) (hb : IsRotation B.R) : IsRotation (A.compose B).R := rot_mul ha hb

theorem inv_point {T : Pose3 K} (h : IsRotation T.R) (x : P3 K) : T.inv.composePoint (T.composePoint x) = x := by
  have e : T.inv.composePoint (T.composePoint x) = T.R.transpose.mulVec (T.R.mulVec x) := by
    simp only [Pose3.inv, Pose3.composePoint]
    ext <;> simp [M3.mulVec] <;> ring
  rw [e, ← mul_mulVec, h.1, one_mulVec]

theorem point_inv {T : Pose3 K} (h : IsRotation T.R) (x : P3 K) : T.composePoint (T.inv.composePoint x) = x := by
  have e : T.composePoint (T.inv.composePoint x) = (T.R.mul T.R.transpose).mulVec (x - T.t) + T.t := by
    rw [mul_mulVec]
    simp only [Pose3.inv, Pose3.composePoint]
    ext <;> simp [M3.mulVec] <;> ring
  rw [e, (transpose_rot h).1, one_mulVec]
  ext <;> simp

theorem inv_inv {T : Pose3 K} (h : IsRotation T.R) : T.inv.inv = T := by
  refine pose_ext fun x => ?_
  have := inv_point (inv_rot h) (T.composePoint x)
  rwa [inv_point h] at this

theorem cost_points (ps : List (PtPair K)) (T : Pose3 K) :
    pointCost ps T = ((pointsOf ps).map fun q => P3.distSq (T.composePoint q.1) q.2).sum := by
  simp [pointCost, pointsOf, List.map_map, Function.comp_def]

theorem mean_locals (ps : List (PtPair K)) : ps.map (·.local) = (pointsOf ps).map (·.1) := by
  simp [pointsOf, List.map_map, Function.comp_def]

theorem mean_globals (ps : List (PtPair K)) : ps.map (·.global) = (pointsOf ps).map (·.2) := by
  simp [pointsOf, List.map_map, Function.comp_def]

theorem far_points {norm : P3 K → K} {eps : K} {ps : List (PtPair K)} : AwayFromCentroids norm eps ps ↔
    ∀ q ∈ pointsOf ps, ¬ norm (q.2 - mean ((pointsOf ps).map (·.2))) < eps ∧ ¬ norm (q.1 - mean ((pointsOf ps).map (·.1))) < eps := by
  unfold AwayFromCentroids
  rw [mean_locals, mean_globals]
  constructor
  · intro h q hq
    obtain ⟨x, hx, rfl⟩ := List.mem_map.mp hq
    exact h x hx
  · intro h x hx
    exact h (x.local, x.global) (List.mem_map.mpr ⟨x, hx, rfl⟩)

theorem length_points (ps : List (PtPair K)) : (pointsOf ps).length = ps.length := by simp [pointsOf]

/-- What Horn's solver says of good pairs. -/
theorem horn_fits {e : HornEnv K} {p : Pairings K} {wp : WeightParams K} (heig : ∀ N, IsTopEigen N (e.eig N)) (h : FitPairs e p wp) :
    ∃ r, optimalTfHorn e p wp = .ok (some r) ∧ IsRotation r.pose.R ∧ BestFit p.pt2pt r.pose := by
  obtain ⟨r, h1, -, h2, h3⟩ := Props.horn_optimal_partial heig h.plain h.three fun q hq => not_or.mpr (h.far q hq)
  exact ⟨r, h1, h2, h3⟩

/-- If the costs of two sets of pairs agree up to a change of pose and a factor, so do the answers. -/
theorem transfer {e e' : HornEnv K} {p p' : Pairings K} {wp wp' : WeightParams K} (heig : ∀ N, IsTopEigen N (e.eig N))
    (heig' : ∀ N, IsTopEigen N (e'.eig N)) (hp : FitPairs e p wp) (hp' : FitPairs e' p' wp') (hone : OneBestFit p.pt2pt)
    (phi psi : Pose3 K → Pose3 K) (h1 : ∀ T, IsRotation T.R → IsRotation (phi T).R) (h2 : ∀ T, IsRotation T.R → IsRotation (psi T).R)
    (h12 : ∀ T, IsRotation T.R → phi (psi T) = T) (h21 : ∀ T, IsRotation T.R → psi (phi T) = T) {a : K} (ha : 0 < a)
    (hcost : ∀ T, IsRotation T.R → pointCost p'.pt2pt T = a * pointCost p.pt2pt (phi T)) :
    ∃ r r', optimalTfHorn e p wp = .ok (some r) ∧ optimalTfHorn e' p' wp' = .ok (some r') ∧ r'.pose = psi r.pose := by
  obtain ⟨r, a1, a2, a3⟩ := horn_fits heig hp
  obtain ⟨r', b1, b2, b3⟩ := horn_fits heig' hp'
  refine ⟨r, r', a1, b1, ?_⟩
  have : phi r'.pose = r.pose := by
    refine hone _ _ (h1 _ b2) a2 (fun T hT => ?_) a3
    have := b3 (psi T) (h2 T hT)
    rw [hcost _ b2, hcost _ (h2 T hT), h12 T hT] at this
    exact le_of_mul_le_mul_left this ha
  rw [← this, h21 _ b2]

theorem far_swap {norm : P3 K → K} {eps : K} {ps ps' : List (PtPair K)} (h : Swapped ps ps') (hf : AwayFromCentroids norm eps ps) :
    AwayFromCentroids norm eps ps' := by
  rw [far_points] at hf ⊢
  rw [h, List.map_map, List.map_map]
  intro q hq
  obtain ⟨x, hx, rfl⟩ := List.mem_map.mp hq
  exact (hf x hx).symm

theorem cost_swap {ps ps' : List (PtPair K)} (h : Swapped ps ps') {T : Pose3 K} (hT : IsRotation T.R) :
    pointCost ps' T = 1 * pointCost ps T.inv := by
  rw [cost_points, cost_points, h, List.map_map, one_mul]
  congr 1
  refine List.map_congr_left fun q _ => ?_
  show P3.distSq (T.composePoint q.2) q.1 = P3.distSq (T.inv.composePoint q.1) q.2
  rw [← distSq_frame hT (T.inv.composePoint q.1) q.2, point_inv hT]
  simp only [P3.distSq, P3.normSq, P3.dot, P3.sub_x, P3.sub_y, P3.sub_z]
  ring

theorem norm_rot {norm : P3 K → K} (hn : IsNorm norm) {R : M3 K} (hR : IsRotation R) (v : P3 K) : norm (R.mulVec v) = norm v := by
  have a := hn v
  have b := hn (R.mulVec v)
  rw [rot_normSq hR, ← a.2] at b
  exact (mul_self_inj b.1 a.1).mp b.2

theorem far_moved {norm : P3 K → K} (hn : IsNorm norm) {eps : K} {A B : Pose3 K} (hA : IsRotation A.R) (hB : IsRotation B.R)
    {ps ps' : List (PtPair K)} (h : Moved A B ps ps') (hf : AwayFromCentroids norm eps ps) : AwayFromCentroids norm eps ps' := by
  rw [far_points] at hf ⊢
  have e1 : (pointsOf ps').map (·.1) = ((pointsOf ps).map (·.1)).map A.composePoint := by
    rw [h, List.map_map, List.map_map]; rfl
  have e2 : (pointsOf ps').map (·.2) = ((pointsOf ps).map (·.2)).map B.composePoint := by
    rw [h, List.map_map, List.map_map]; rfl
  rw [e1, e2]
  intro q hq
  rw [h] at hq
  obtain ⟨x, hx, rfl⟩ := List.mem_map.mp hq
  have hne : pointsOf ps ≠ [] := List.ne_nil_of_mem hx
  rw [mean_frame A (by simpa using hne), mean_frame B (by simpa using hne)]
  simp only [composePoint_sub]
  rw [norm_rot hn hA, norm_rot hn hB]
  exact hf x hx

theorem cost_moved {A B : Pose3 K} (hB : IsRotation B.R) {ps ps' : List (PtPair K)} (h : Moved A B ps ps') (T : Pose3 K) :
    pointCost ps' T = 1 * pointCost ps (B.inv.compose (T.compose A)) := by
  rw [cost_points, cost_points, h, List.map_map, one_mul]
  congr 1
  refine List.map_congr_left fun q _ => ?_
  show P3.distSq (T.composePoint (A.composePoint q.1)) (B.composePoint q.2) = P3.distSq ((B.inv.compose (T.compose A)).composePoint q.1) q.2
  rw [← distSq_frame hB _ q.2, compose_composePoint, compose_composePoint, point_inv hB]

/-- The same rotation, the translation times `s`. -/
def stretch (s : K) (T : Pose3 K) : Pose3 K := ⟨T.R, T.t.smul s⟩

theorem stretch_back {s : K} (hs : s ≠ 0) (T : Pose3 K) : stretch s (stretch s⁻¹ T) = T := by
  refine Pose3.ext rfl ?_
  ext <;> simp [stretch, hs]

theorem cost_scaled {s : K} (hs : s ≠ 0) {ps ps' : List (PtPair K)} (h : Scaled s ps ps') (T : Pose3 K) :
    pointCost ps' T = s ^ 2 * pointCost ps (stretch s⁻¹ T) := by
  rw [cost_points, cost_points, h, List.map_map, ← List.sum_map_mul_left]
  congr 1
  refine List.map_congr_left fun q _ => ?_
  simp only [Function.comp, stretch, P3.distSq, P3.normSq, P3.dot, P3.sub_x, P3.sub_y, P3.sub_z, Pose3.composePoint, M3.mulVec, P3.add_x, P3.add_y,
    P3.add_z, P3.smul_x, P3.smul_y, P3.smul_z]
  field_simp

theorem sum_times {α : Type} (f : α → K) (l : List α) (k : Nat) : (((List.replicate k l).flatten).map f).sum = k * (l.map f).sum := by
  induction k with
  | zero => simp
  | succ k ih =>
    rw [List.replicate_succ, List.flatten_cons, List.map_append, List.sum_append, ih]
    push_cast; ring

theorem mean_times {k : Nat} (hk : k ≠ 0) (l : List (P3 K)) : mean (List.replicate k l).flatten = mean l := by
  have h : (k : K) ≠ 0 := by exact_mod_cast hk
  have hl : (((List.replicate k l).flatten.length : Nat) : K) = k * l.length := by simp
  unfold mean
  rw [hl, sum_times, sum_times, sum_times]
  ext <;> simp only <;> rw [mul_div_mul_left _ _ h]

theorem far_times {norm : P3 K → K} {eps : K} {k : Nat} (hk : k ≠ 0) {ps ps' : List (PtPair K)} (h : Repeated k ps ps')
    (hf : AwayFromCentroids norm eps ps) : AwayFromCentroids norm eps ps' := by
  rw [far_points] at hf ⊢
  have e1 : mean ((pointsOf ps').map (·.1)) = mean ((pointsOf ps).map (·.1)) := by
    rw [mean_perm (h.map (·.1)), List.map_flatten, List.map_replicate, mean_times hk]
  have e2 : mean ((pointsOf ps').map (·.2)) = mean ((pointsOf ps).map (·.2)) := by
    rw [mean_perm (h.map (·.2)), List.map_flatten, List.map_replicate, mean_times hk]
  rw [e1, e2]
  intro q hq
  obtain ⟨l, hl, hql⟩ := List.mem_flatten.mp (h.mem_iff.mp hq)
  rw [(List.mem_replicate.mp hl).2] at hql
  exact hf q hql

theorem cost_times {k : Nat} {ps ps' : List (PtPair K)} (h : Repeated k ps ps') (T : Pose3 K) :
    pointCost ps' T = k * pointCost ps T := by
  rw [cost_points, cost_points, (h.map _).sum_eq, sum_times]

/-- Only one motion fits the moved pairs best, if only one fits the pairs. -/
theorem one_best_moved {A B : Pose3 K} (hA : IsRotation A.R) (hB : IsRotation B.R) {ps ps' : List (PtPair K)} (h : Moved A B ps ps')
    (hone : OneBestFit ps) : OneBestFit ps' := by
  have key : ∀ X : Pose3 K, BestFit ps' X → BestFit ps (B.inv.compose (X.compose A)) := by
    intro X hX T hT
    have := hX (B.compose (T.compose A.inv)) (compose_rot hB (compose_rot hT (inv_rot hA)))
    rw [cost_moved hB h, cost_moved hB h, one_mul, one_mul] at this
    have e : B.inv.compose ((B.compose (T.compose A.inv)).compose A) = T := by
      refine pose_ext fun x => ?_
      simp only [compose_composePoint, inv_point hB, inv_point hA]
    rwa [e] at this
  intro X Y hX hY bX bY
  have e := hone _ _ (compose_rot (inv_rot hB) (compose_rot hX hA)) (compose_rot (inv_rot hB) (compose_rot hY hA)) (key X bX) (key Y bY)
  refine pose_ext fun x => ?_
  have := congrArg (fun P => B.composePoint (P.composePoint (A.inv.composePoint x))) e
  simpa only [compose_composePoint, point_inv hB, point_inv hA] using this

/-- The attitude the solver gives when it has looked at no pair. -/
def blindTurn (e : HornEnv K) : M3 K :=
  (if (e.eig (hornN M3.zero)).r < 0 then ⟨-(e.eig (hornN M3.zero)).r, -(e.eig (hornN M3.zero)).x, -(e.eig (hornN M3.zero)).y,
    -(e.eig (hornN M3.zero)).z⟩ else e.eig (hornN M3.zero) : Quat K).toMatrix

/-- With all pairs near a centroid, the solver looks at none. -/
theorem horn_blind {e : HornEnv K} {p : Pairings K} {wp : WeightParams K} (h : PlainPoints p wp) (hn : 3 ≤ p.pt2pt.length)
    (hnear : ∀ q ∈ p.pt2pt, e.norm (q.global - mean (p.pt2pt.map (·.global))) < e.eps ∨
      e.norm (q.local - mean (p.pt2pt.map (·.local))) < e.eps) :
    ∃ r, optimalTfHorn e p wp = .ok (some r) ∧ r.pose.R = blindTurn e := by
  have hcen := centroids_ok p {} (by simp) (by simp) (by simp; omega)
  simp only [inliers_nil] at hcen
  set ctL := mean (p.pt2pt.map (·.local)) with hL
  set ctG := mean (p.pt2pt.map (·.global)) with hG
  have hwa : 0 < (visitCfg p wp ctL ctG false e.norm e.eps).waPoints := by
    have := h.wPt
    have hnk : (0 : K) < p.pt2pt.length := by exact_mod_cast (by omega : 0 < p.pt2pt.length)
    simp only [visitCfg, h.ln2ln, h.pl2pl, List.length_nil, Nat.cast_zero, mul_zero, add_zero]
    positivity
  obtain ⟨s', h1, h3⟩ := plain_loop_near (c := visitCfg p wp ctL ctG false e.norm e.eps) h.noKernel h.noScale rfl hwa
    p.pt2pt.length p.pt2pt ⟨[(p.pt2pt.length, 1)], 0, [], [], [], 0⟩ 0 rfl rfl rfl (by omega)
  have hv0 : s'.visited = [] := by
    rw [h3, List.nil_append, List.map_eq_nil_iff, List.filter_eq_nil_iff]
    intro q hq
    have := hnear q hq
    show ¬ (!decide (e.norm (q.global - ctG) < e.eps ∨ e.norm (q.local - ctL) < e.eps)) = true
    rw [decide_eq_true this]; simp
  have hc : corrs p = p.pt2pt.map .pt := by simp [corrs, h.ln2ln, h.pl2pl]
  have hv : visitCorrespondences p wp ctL ctG [] false e.norm e.eps = .ok ⟨[], s'.wSum, s'.newOutl⟩ := by
    have hw : 0 < wp.pairWeights.pt2pt + wp.pairWeights.ln2ln + wp.pairWeights.pl2pl := by
      have := h.wPt; have := h.wLn; have := h.wPl; linarith
    unfold visitCorrespondences
    simp only [h.pt2ln, h.pt2pl, h.noTable, hc, List.isEmpty_nil, if_true, Outcome.bind_def, List.length_nil,
      Outcome.assert, hw, Outcome.bind, h1, Outcome.pure_def, hv0]
  have hS : hornS (⟨[], s'.wSum, s'.newOutl⟩ : VisitOut K) = M3.zero := by
    unfold hornS
    simp only [List.foldl_nil]
    split
    · ext <;> simp [M3.smul, M3.zero]
    · rfl
  refine ⟨⟨poseFromRot (blindTurn e) ctL ctG, s'.newOutl⟩, ?_, rfl⟩
  have hse : se3L2Internal e p wp ctL ctG [] =
      .ok (some ((if (e.eig (hornN M3.zero)).r < 0 then ⟨-(e.eig (hornN M3.zero)).r, -(e.eig (hornN M3.zero)).x, -(e.eig (hornN M3.zero)).y,
        -(e.eig (hornN M3.zero)).z⟩ else e.eig (hornN M3.zero) : Quat K), s'.newOutl)) := by
    unfold se3L2Internal
    simp only [h.pt2ln, h.pt2pl, h.ln2ln, h.pl2pl, List.length_nil, Outcome.bind_def, Outcome.assert, if_true, Outcome.bind,
      Nat.add_zero, hv, Outcome.pure_def, hS]
    rw [if_neg (by omega)]
  unfold optimalTfHorn
  have h1 := h.wPt.le
  simp only [Outcome.assert, h1, h.wLn, h.wPl, if_true, Outcome.bind_def, Outcome.bind, hcen, hse, h.noScale,
    Bool.false_eq_true, false_and, if_false, Outcome.pure_def, blindTurn]

end Verif.Lemmas.HS
