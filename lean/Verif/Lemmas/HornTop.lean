import Verif.Lemmas.Horn
import Verif.Lemmas.Visit
import Verif.Lemmas.Pairings
import Verif.Spec.Pairings
/-
Horn's solver as a whole.
-/
namespace Verif.Lemmas
open Verif Verif.Spec
set_option linter.unusedSectionVars false
variable {K : Type} [Field K] [LinearOrder K] [IsStrictOrderedRing K]

/-- The vector given to the callback: scaled to unit length if asked for. -/
def unitIf (nrm : Bool) (norm : P3 K → K) (v : P3 K) : P3 K := if nrm then P3.smul (1 / norm v) v else v

omit [IsStrictOrderedRing K] in
theorem plain_loop {c : VisitCfg K} (hk : c.wp.kernel = .none) (hs : c.wp.useScaleOutlier = false)
    (hw : 0 < c.waPoints) (n : Nat) (ps : List (PtPair K)) :
    ∀ (s : VisitState K) (i : Nat), s.blocks = [(n, 1)] → s.start = 0 → s.outl = [] → i + ps.length ≤ n →
      (∀ q ∈ ps, ¬ (c.norm (q.global - c.ctGlobal) < c.eps ∨ c.norm (q.local - c.ctLocal) < c.eps)) →
      ∃ s', visitLoop c s i (ps.map .pt) = .ok s' ∧ s'.newOutl = s.newOutl ∧
        s'.visited = s.visited ++ ps.map (fun q => ⟨unitIf c.normalize c.norm (q.global - c.ctGlobal),
          unitIf c.normalize c.norm (q.local - c.ctLocal), c.waPoints⟩) ∧
        s'.wSum = s.wSum + ps.length * c.waPoints := by
  induction ps with
  | nil =>
    intro s i _ _ _ _ _
    exact ⟨s, rfl, rfl, by simp, by simp⟩
  | cons q ps ih =>
    intro s i hb hst ho hlen hnear
    simp only [List.length_cons] at hlen
    have hq := hnear q List.mem_cons_self
    have hblk : blockStep i s.blocks s.start = .ok (s.blocks, s.start, 1) := by
      rw [hb, hst]; simp only [blockStep]; rw [if_neg (by omega)]
    have hstep : visitStep c s i (.pt q) = .ok
        { s with visited := s.visited ++ [⟨unitIf c.normalize c.norm (q.global - c.ctGlobal),
                   unitIf c.normalize c.norm (q.local - c.ctLocal), c.waPoints⟩],
                 wSum := s.wSum + c.waPoints } := by
      unfold visitStep
      rw [ho]
      simp only [List.head?_nil, reduceCtorEq, if_false, hblk, Outcome.bind_def, Outcome.bind]
      rw [if_neg hq, if_neg (by rw [hs]; simp)]
      simp only [mul_one]
      unfold visitPair robustWeight
      rw [hk]
      simp [createRobustKernel, Outcome.assert, hw, unitIf]
    obtain ⟨s', h1, h2, h3, h4⟩ := ih
      { s with visited := s.visited ++ [⟨unitIf c.normalize c.norm (q.global - c.ctGlobal),
                 unitIf c.normalize c.norm (q.local - c.ctLocal), c.waPoints⟩],
               wSum := s.wSum + c.waPoints } (i + 1) hb hst ho (by omega)
      (fun x hx => hnear x (List.mem_cons_of_mem _ hx))
    refine ⟨s', ?_, h2, ?_, ?_⟩
    · simp only [List.map_cons, visitLoop, hstep, Outcome.bind]; exact h1
    · rw [h3]; simp
    · rw [h4]; simp; ring

/-- The walk in the plain case. -/
theorem plain_visit' {p : Pairings K} {wp : WeightParams K} (h : PlainPoints p wp) (hn : 0 < p.pt2pt.length)
    (ctL ctG : P3 K) (nrm : Bool) (norm : P3 K → K) (eps : K)
    (hnear : ∀ q ∈ p.pt2pt, ¬ (norm (q.global - ctG) < eps ∨ norm (q.local - ctL) < eps)) :
    ∃ o w, visitCorrespondences p wp ctL ctG [] nrm norm eps = .ok o ∧ 0 < w ∧ o.outliers = [] ∧ 0 < o.wSum ∧
      o.visited = p.pt2pt.map (fun q => ⟨unitIf nrm norm (q.global - ctG), unitIf nrm norm (q.local - ctL), w⟩) := by
  have hnk : (0 : K) < p.pt2pt.length := by exact_mod_cast hn
  have hwa : 0 < (visitCfg p wp ctL ctG nrm norm eps).waPoints := by
    have := h.wPt
    simp only [visitCfg, h.ln2ln, h.pl2pl, List.length_nil, Nat.cast_zero, mul_zero, add_zero]
    positivity
  obtain ⟨s', h1, h2, h3, h4⟩ := plain_loop (c := visitCfg p wp ctL ctG nrm norm eps) h.noKernel h.noScale hwa
    p.pt2pt.length p.pt2pt ⟨[(p.pt2pt.length, 1)], 0, [], [], [], 0⟩ 0 rfl rfl rfl (by omega) hnear
  have hc : corrs p = p.pt2pt.map .pt := by simp [corrs, h.ln2ln, h.pl2pl]
  refine ⟨⟨s'.visited, s'.wSum, s'.newOutl⟩, _, ?_, hwa, h2, ?_, by simp only; rw [h3]; rfl⟩
  · unfold visitCorrespondences
    have hw : 0 < wp.pairWeights.pt2pt + wp.pairWeights.ln2ln + wp.pairWeights.pl2pl := by
      have := h.wPt; have := h.wLn; have := h.wPl; linarith
    simp only [h.pt2ln, h.pt2pl, h.noTable, hc, List.isEmpty_nil, if_true, Outcome.bind_def, List.length_nil,
      Outcome.assert, hw, Outcome.bind, h1, Outcome.pure_def]
  · simp only; rw [h4]
    simp only [zero_add]
    positivity

theorem plain_visit {p : Pairings K} {wp : WeightParams K} (h : PlainPoints p wp) (hn : 0 < p.pt2pt.length)
    (ctL ctG : P3 K) (norm : P3 K → K) (eps : K)
    (hnear : ∀ q ∈ p.pt2pt, ¬ (norm (q.global - ctG) < eps ∨ norm (q.local - ctL) < eps)) :
    ∃ o w, visitCorrespondences p wp ctL ctG [] false norm eps = .ok o ∧ 0 < w ∧ o.outliers = [] ∧ 0 < o.wSum ∧
      o.visited = p.pt2pt.map (fun q => ⟨q.global - ctG, q.local - ctL, w⟩) := by
  have := plain_visit' h hn ctL ctG false norm eps hnear
  simpa [unitIf] using this

theorem negQuat_top {N : Sym4 K} {v : Quat K} (h : IsTopEigen N v) :
    IsTopEigen N (if v.r < 0 then ⟨-v.r, -v.x, -v.y, -v.z⟩ else v) := by
  split
  · have e1 : dot4 (⟨-v.r, -v.x, -v.y, -v.z⟩ : Quat K) ⟨-v.r, -v.x, -v.y, -v.z⟩ = dot4 v v := by
      simp only [dot4]; ring
    have e2 : dot4 (⟨-v.r, -v.x, -v.y, -v.z⟩ : Quat K) (N.mulVec ⟨-v.r, -v.x, -v.y, -v.z⟩) = dot4 v (N.mulVec v) := by
      simp only [dot4, Sym4.mulVec]; ring
    exact ⟨by rw [e1]; exact h.1, fun u => by rw [e2]; exact h.2 u⟩
  · exact h

theorem top_rotation {N : Sym4 K} {v : Quat K} (h : IsTopEigen N v) : IsRotation v.toMatrix :=
  quat_rotation (by have := h.1; simpa [dot4, Quat.normSq] using this)

theorem inliers_nil (ps : List (PtPair K)) : inliers [] ps = ps := by
  unfold inliers
  simp

theorem distSq_nonneg (a b : P3 K) : 0 ≤ P3.distSq a b := by
  simp only [P3.distSq, P3.normSq, P3.dot]
  have h1 := mul_self_nonneg (a - b).x
  have h2 := mul_self_nonneg (a - b).y
  have h3 := mul_self_nonneg (a - b).z
  linarith

omit [LinearOrder K] [IsStrictOrderedRing K] in
/-- Sum of the coordinates after centring. -/
theorem centred_sum (f : PtPair K → P3 K) (c : P3 K) (ps : List (PtPair K)) (a : P3 K) :
    (ps.map fun q => a.dot (f q - c)).sum =
      a.x * ((ps.map fun q => (f q).x).sum - ps.length * c.x) + a.y * ((ps.map fun q => (f q).y).sum - ps.length * c.y) +
        a.z * ((ps.map fun q => (f q).z).sum - ps.length * c.z) := by
  induction ps with
  | nil => simp
  | cons q ps ih =>
    rw [List.map_cons, List.sum_cons, ih]
    simp only [List.map_cons, List.sum_cons, List.length_cons, Nat.cast_succ, P3.dot, P3.sub_x, P3.sub_y, P3.sub_z]
    ring

/-- Decomposition of the point cost about the centroids. -/
theorem pointCost_split {R : M3 K} (t : P3 K) (ps : List (PtPair K)) (hne : ps ≠ []) (cl cg : P3 K)
    (hl : cl = mean (ps.map (·.local))) (hg : cg = mean (ps.map (·.global))) :
    pointCost ps ⟨R, t⟩ = (ps.map fun q => P3.distSq (R.mulVec (q.local - cl)) (q.global - cg)).sum +
      ps.length * P3.distSq (t + R.mulVec cl) cg := by
  have hlen : (ps.length : K) ≠ 0 := by
    have : ps.length ≠ 0 := fun h => hne (List.length_eq_zero_iff.mp h)
    exact_mod_cast this
  have h1 : ∀ d : P3 K, (ps.map fun q => d.dot (q.local - cl)).sum = 0 := by
    intro d
    rw [centred_sum, hl]
    simp only [mean, List.map_map, List.length_map, Function.comp_def]
    field_simp
    ring
  have h2 : ∀ d : P3 K, (ps.map fun q => d.dot (q.global - cg)).sum = 0 := by
    intro d
    rw [centred_sum, hg]
    simp only [mean, List.map_map, List.length_map, Function.comp_def]
    field_simp
    ring
  have h3 : pointCost ps ⟨R, t⟩ = (ps.map fun q => P3.distSq (R.mulVec (q.local - cl)) (q.global - cg)).sum +
      ps.length * P3.distSq (t + R.mulVec cl) cg +
      2 * (ps.map fun q => (R.transpose.mulVec (t + R.mulVec cl - cg)).dot (q.local - cl)).sum -
      2 * (ps.map fun q => (t + R.mulVec cl - cg).dot (q.global - cg)).sum := by
    clear h1 h2 hl hg hlen hne
    unfold pointCost
    induction ps with
    | nil => simp
    | cons q ps ih =>
      simp only [List.map_cons, List.sum_cons, ih, List.length_cons, Nat.cast_succ]
      simp only [P3.distSq, P3.normSq, P3.dot, Pose3.composePoint, M3.mulVec, M3.transpose, P3.sub_x, P3.sub_y, P3.sub_z,
        P3.add_x, P3.add_y, P3.add_z]
      ring
  rw [h3, h1, h2]; ring

omit [LinearOrder K] [IsStrictOrderedRing K] in
theorem attitudeCost_map (ps : List (PtPair K)) (cl cg : P3 K) (w : K) (R : M3 K) :
    attitudeCost (ps.map fun q => (⟨q.global - cg, q.local - cl, w⟩ : Visited K)) R =
      w * (ps.map fun q => P3.distSq (R.mulVec (q.local - cl)) (q.global - cg)).sum := by
  unfold attitudeCost
  induction ps with
  | nil => simp
  | cons q ps ih => simp only [List.map_cons, List.sum_cons, ih]; ring

/-- Horn's solver in the plain case: it succeeds, with the optimal rigid motion. -/
theorem horn_plain {e : HornEnv K} {p : Pairings K} {wp : WeightParams K} (heig : ∀ N, IsTopEigen N (e.eig N))
    (h : PlainPoints p wp) (hn : 3 ≤ p.pt2pt.length)
    (hnear : ∀ q ∈ p.pt2pt, ¬ (e.norm (q.global - mean (p.pt2pt.map (·.global))) < e.eps ∨
      e.norm (q.local - mean (p.pt2pt.map (·.local))) < e.eps)) :
    ∃ r, optimalTfHorn e p wp = .ok (some r) ∧ r.outliers = [] ∧ IsRotation r.pose.R ∧
      ∀ T : Pose3 K, IsRotation T.R → pointCost p.pt2pt r.pose ≤ pointCost p.pt2pt T := by
  have hne : p.pt2pt ≠ [] := by intro hh; rw [hh] at hn; simp at hn
  have hcen := centroids_ok p {} (by simp) (by simp) (by simp; omega)
  simp only [inliers_nil] at hcen
  obtain ⟨o, w, hv, hw, ho, _, hvis⟩ := plain_visit h (by omega) (mean (p.pt2pt.map (·.local)))
    (mean (p.pt2pt.map (·.global))) e.norm e.eps hnear
  have htop := negQuat_top (heig (hornN (hornS o)))
  set q : Quat K := if (e.eig (hornN (hornS o))).r < 0 then
    ⟨-(e.eig (hornN (hornS o))).r, -(e.eig (hornN (hornS o))).x, -(e.eig (hornN (hornS o))).y,
      -(e.eig (hornN (hornS o))).z⟩ else e.eig (hornN (hornS o)) with hq
  have hse : se3L2Internal e p wp (mean (p.pt2pt.map (·.local))) (mean (p.pt2pt.map (·.global))) [] =
      .ok (some (q, [])) := by
    unfold se3L2Internal
    simp only [h.pt2ln, h.pt2pl, h.ln2ln, h.pl2pl, List.length_nil, Outcome.bind_def, Outcome.assert, if_true, Outcome.bind,
      Nat.add_zero, hv, Outcome.pure_def, ho]
    rw [if_neg (by omega)]
  have hrot : IsRotation q.toMatrix := top_rotation htop
  have hopt : ∀ R, IsRotation R → attitudeCost o.visited q.toMatrix ≤ attitudeCost o.visited R :=
    fun R hR => horn_attitude htop hR
  refine ⟨⟨poseFromRot q.toMatrix (mean (p.pt2pt.map (·.local))) (mean (p.pt2pt.map (·.global))), []⟩, ?_, rfl, hrot, ?_⟩
  · unfold optimalTfHorn
    have h1 := h.wPt.le
    simp only [Outcome.assert, h1, h.wLn, h.wPl, if_true, Outcome.bind_def, Outcome.bind, hcen, hse, h.noScale,
      Bool.false_eq_true, false_and, if_false, Outcome.pure_def]
  · intro T hT
    obtain ⟨R, t⟩ := T
    have e1 := pointCost_split (R := q.toMatrix) (mean (p.pt2pt.map (·.global)) -
      (q.toMatrix.mulVec (mean (p.pt2pt.map (·.local))) + 0)) p.pt2pt hne _ _ rfl rfl
    have e2 := pointCost_split (R := R) t p.pt2pt hne _ _ rfl rfl
    have h1 := hopt R hT
    rw [hvis, attitudeCost_map, attitudeCost_map] at h1
    have h2 := le_of_mul_le_mul_left h1 hw
    have h3 : P3.distSq (mean (p.pt2pt.map (·.global)) -
      (q.toMatrix.mulVec (mean (p.pt2pt.map (·.local))) + 0) + q.toMatrix.mulVec (mean (p.pt2pt.map (·.local))))
      (mean (p.pt2pt.map (·.global))) = 0 := by
      simp only [P3.distSq, P3.normSq, P3.dot, P3.sub_x, P3.sub_y, P3.sub_z, P3.add_x, P3.add_y, P3.add_z, P3.zero_x,
        P3.zero_y, P3.zero_z]
      ring
    simp only [poseFromRot]
    rw [e1, e2, h3, mul_zero, add_zero]
    have h4 : (0 : K) ≤ p.pt2pt.length * P3.distSq (t + R.mulVec (mean (p.pt2pt.map (·.local)))) (mean (p.pt2pt.map (·.global))) :=
      mul_nonneg (Nat.cast_nonneg _) (distSq_nonneg _ _)
    linarith

theorem distSq_eq_zero {a b : P3 K} (h : P3.distSq a b = 0) : a = b := by
  simp only [P3.distSq, P3.normSq, P3.dot, P3.sub_x, P3.sub_y, P3.sub_z] at h
  have h1 := mul_self_nonneg (a.x - b.x)
  have h2 := mul_self_nonneg (a.y - b.y)
  have h3 := mul_self_nonneg (a.z - b.z)
  have e1 : (a.x - b.x) * (a.x - b.x) = 0 := by linarith
  have e2 : (a.y - b.y) * (a.y - b.y) = 0 := by linarith
  have e3 : (a.z - b.z) * (a.z - b.z) = 0 := by linarith
  ext
  · exact sub_eq_zero.mp (mul_self_eq_zero.mp e1)
  · exact sub_eq_zero.mp (mul_self_eq_zero.mp e2)
  · exact sub_eq_zero.mp (mul_self_eq_zero.mp e3)

theorem pointCost_zero {ps : List (PtPair K)} {T : Pose3 K} (h : pointCost ps T ≤ 0) :
    ∀ q ∈ ps, T.composePoint q.local = q.global := by
  have hnn : ∀ ps : List (PtPair K), 0 ≤ pointCost ps T := by
    intro ps
    unfold pointCost
    apply List.sum_nonneg
    intro x hx
    obtain ⟨q, _, rfl⟩ := List.mem_map.mp hx
    exact distSq_nonneg _ _
  induction ps with
  | nil => simp
  | cons q ps ih =>
    have h1 : pointCost (q :: ps) T = P3.distSq (T.composePoint q.local) q.global + pointCost ps T := by
      simp [pointCost]
    rw [h1] at h
    have h2 := hnn ps
    have h3 := distSq_nonneg (T.composePoint q.local) q.global
    intro x hx
    rcases List.mem_cons.mp hx with rfl | hx
    · exact distSq_eq_zero (by linarith)
    · exact ih (by linarith) x hx

/-- Two rigid motions which agree on three points not on a line are equal. -/
theorem rigid_unique {A B : Pose3 K} (ha : IsRotation A.R) (hb : IsRotation B.R) {a b c : P3 K} (hnc : NotCollinear a b c)
    (h1 : A.composePoint a = B.composePoint a) (h2 : A.composePoint b = B.composePoint b)
    (h3 : A.composePoint c = B.composePoint c) : A = B := by
  have d1 : A.R.mulVec (b - a) = B.R.mulVec (b - a) := by
    rw [mulVec_sub, mulVec_sub]
    simp only [Pose3.composePoint, P3.ext_iff, P3.add_x, P3.add_y, P3.add_z, P3.sub_x, P3.sub_y, P3.sub_z] at h1 h2 ⊢
    refine ⟨?_, ?_, ?_⟩ <;> linarith [h1.1, h1.2.1, h1.2.2, h2.1, h2.2.1, h2.2.2]
  have d2 : A.R.mulVec (c - a) = B.R.mulVec (c - a) := by
    rw [mulVec_sub, mulVec_sub]
    simp only [Pose3.composePoint, P3.ext_iff, P3.add_x, P3.add_y, P3.add_z, P3.sub_x, P3.sub_y, P3.sub_z] at h1 h3 ⊢
    refine ⟨?_, ?_, ?_⟩ <;> linarith [h1.1, h1.2.1, h1.2.2, h3.1, h3.2.1, h3.2.2]
  have d3 : A.R.mulVec ((b - a).cross (c - a)) = B.R.mulVec ((b - a).cross (c - a)) := by
    rw [rot_cross ha, rot_cross hb, d1, d2]
  have hR : A.R = B.R := by
    refine eq_of_basis (a := b - a) (b := c - a) (c := (b - a).cross (c - a)) ?_ d1 d2 d3
    intro hz
    refine hnc ?_
    set v := (b - a).cross (c - a)
    have : P3.distSq v 0 = 0 := by
      simp only [P3.distSq, P3.normSq, P3.dot, P3.sub_x, P3.sub_y, P3.sub_z, P3.zero_x, P3.zero_y, P3.zero_z, sub_zero]
      exact hz
    exact distSq_eq_zero this
  have ht : A.t = B.t := by
    simp only [Pose3.composePoint, hR, P3.ext_iff, P3.add_x, P3.add_y, P3.add_z] at h1
    ext
    · linarith [h1.1]
    · linarith [h1.2.1]
    · linarith [h1.2.2]
  exact Pose3.ext hR ht

end Verif.Lemmas
