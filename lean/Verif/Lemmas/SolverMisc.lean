import Verif.Lemmas.OlaeTop
import Verif.Lemmas.PtConv
/-
Further lemmas on the solvers: sum of the weights, kernels, missing estimate, structure of Horn's result.
-/
namespace Verif.Lemmas
open Verif Verif.Spec
set_option linter.unusedSectionVars false
variable {K : Type} [Field K] [LinearOrder K] [IsStrictOrderedRing K]

theorem sorted_range {idx : List Nat} {n : Nat} (hs : idx.Pairwise (· < ·)) (h : ∀ j, j ∈ idx ↔ j < n) :
    idx = List.range n := by
  have h2 : (List.range n).Pairwise (· < ·) := List.pairwise_lt_range
  have hp : idx.Perm (List.range n) := by
    apply List.perm_iff_count.mpr
    intro a
    have n1 : idx.Nodup := hs.imp (fun h => Nat.ne_of_lt h)
    have n2 : (List.range n).Nodup := List.nodup_range
    by_cases ha : a < n
    · rw [List.count_eq_one_of_mem n1 ((h a).mpr ha), List.count_eq_one_of_mem n2 (List.mem_range.mpr ha)]
    · rw [List.count_eq_zero_of_not_mem (fun hh => ha ((h a).mp hh)),
        List.count_eq_zero_of_not_mem (fun hh => ha (List.mem_range.mp hh))]
  exact hp.eq_of_pairwise (fun a b _ _ h1 h2 => absurd h1 (Nat.lt_asymm h2)) hs h2

/-- Sum of the weights over all correspondences. -/
theorem base_sum {p : Pairings K} {w : PairWeights K} {ws : List K} (hk : kindTotal p w ≠ 0)
    (hl : (pointWeightList p).length = p.pt2pt.length)
    (h : List.Forall₂ (IsBaseWeight p w) (List.range (numCorr p)) ws) :
    ws.sum = (w.pt2pt * (pointWeightList p).sum + w.ln2ln * p.ln2ln.length + w.pl2pl * p.pl2pl.length) / kindTotal p w := by
  have hws : ws = (pointWeightList p).map (fun bw => w.pt2pt / kindTotal p w * bw) ++
      List.replicate p.ln2ln.length (w.ln2ln / kindTotal p w) ++ List.replicate p.pl2pl.length (w.pl2pl / kindTotal p w) := by
    have hlen := h.length_eq
    rw [List.length_range] at hlen
    apply List.ext_getElem
    · simp only [List.length_append, List.length_map, List.length_replicate, hl]; rw [← hlen]; rfl
    · intro i h1 h2
      have hi : IsBaseWeight p w i ws[i] := by
        have := List.Forall₂.get h (i := i) (by simpa [hlen] using h1) h1
        simpa using this
      have hnum : i < numCorr p := by omega
      unfold numCorr at hnum
      rcases hi with ⟨bw, hlt, hbw, hx⟩ | ⟨h3, h4, hx⟩ | ⟨h3, hx⟩
      · rw [hx, List.getElem_append_left (by simp [hl]; omega), List.getElem_append_left (by simp [hl]; omega)]
        rw [List.getElem_map]
        congr 1
        exact ((List.getElem?_eq_some_iff.mp hbw).2).symm
      · rw [hx, List.getElem_append_left (by simp [hl]; omega), List.getElem_append_right (by simp [hl]; omega)]
        simp
      · rw [hx, List.getElem_append_right (by simp [hl]; omega)]
        simp
  rw [hws, List.sum_append, List.sum_append, List.sum_replicate, List.sum_replicate]
  have hm : ∀ l : List K, (l.map (fun bw => w.pt2pt / kindTotal p w * bw)).sum = w.pt2pt / kindTotal p w * l.sum := by
    intro l
    induction l with
    | nil => simp
    | cons a l ih => simp only [List.map_cons, List.sum_cons, ih]; ring
  rw [hm]
  simp only [nsmul_eq_mul]
  field_simp

theorem pointWeightList_length {p : Pairings K} (h : BlocksCover p) : (pointWeightList p).length = p.pt2pt.length := by
  unfold pointWeightList
  split
  · simp
  · rename_i hne
    rw [expand_length, h.2 hne]

/-- With no kernel and no pair left out, the weights of the walk add up as said. -/
theorem visit_wsum {p : Pairings K} {wp : WeightParams K} {ctL ctG : P3 K} {nrm : Bool} {norm : P3 K → K} {eps : K}
    (hB : BlocksCover p) (hkern : wp.kernel = .none) (hk : kindTotal p wp.pairWeights ≠ 0) {o : VisitOut K}
    (ho : visitCorrespondences p wp ctL ctG [] nrm norm eps = .ok o) (hout : o.outliers = [])
    (hcen : ∀ i, ¬ OnCentroid p ctL ctG norm eps i) :
    o.wSum = (wp.pairWeights.pt2pt * (pointWeightList p).sum + wp.pairWeights.ln2ln * p.ln2ln.length +
      wp.pairWeights.pl2pl * p.pl2pl.length) / kindTotal p wp.pairWeights := by
  obtain ⟨_, hspec⟩ := visit_spec (p := p) (wp := wp) (ctL := ctL) (ctG := ctG) (nrm := nrm) (norm := norm)
    (eps := eps) (outl := []) hB.1 hB.2 (by simp) (by simp)
  obtain ⟨_, _, hsum, idx, hsrt, _, hfor, hidx⟩ := hspec o ho
  have hr : idx = List.range (numCorr p) := by
    apply sorted_range hsrt
    intro j
    rw [(hidx j).1, hout]
    constructor
    · exact fun h => h.1
    · exact fun h => ⟨h, by simp, hcen j⟩
  subst hr
  rw [hsum]
  apply base_sum hk (pointWeightList_length hB)
  rw [List.forall₂_map_right_iff]
  refine hfor.imp ?_
  rintro i v ⟨b, r, bw, _, hbw, _, _, h1, _⟩
  rw [h1 hkern]; exact hbw

/-- Without a pose estimate, a robust kernel lets no pair be visited. -/
theorem visitLoop_no_estimate {c : VisitCfg K} (hk : c.wp.kernel ≠ .none) (he : c.wp.estimate = none) (ms : List (Corr K)) :
    ∀ (s s' : VisitState K) (i : Nat), visitLoop c s i ms = .ok s' → s'.visited = s.visited := by
  have hpair : ∀ (b r : P3 K) (w : K) (s : VisitState K), visitPair c b r w s = .throw := by
    intro b r w s
    unfold visitPair robustWeight
    rw [he]
    cases hkk : c.wp.kernel with
    | none => exact absurd hkk hk
    | gemanMcClure => rfl
    | cauchy => rfl
  induction ms with
  | nil => intro s s' i h; cases h; rfl
  | cons m ms ih =>
    intro s s' i h
    simp only [visitLoop, Outcome.bind_eq_ok] at h
    obtain ⟨s1, h1, h2⟩ := h
    rw [ih s1 s' (i + 1) h2]
    unfold visitStep at h1
    split at h1
    · cases h1; rfl
    · cases m with
      | pt q =>
        simp only [Outcome.bind_def, Outcome.bind_eq_ok] at h1
        obtain ⟨⟨bl, st, bw⟩, _, h1⟩ := h1
        simp only [hpair] at h1
        split at h1
        · cases h1; rfl
        · split at h1
          · cases h1; rfl
          · cases h1
      | ln b r => simp only [hpair] at h1; cases h1
      | pl b r => simp only [hpair] at h1; cases h1

theorem visit_no_estimate {p : Pairings K} {wp : WeightParams K} {ctL ctG : P3 K} {nrm : Bool} {norm : P3 K → K} {eps : K}
    {outl : List Nat} (hk : wp.kernel ≠ .none) (he : wp.estimate = none) {o : VisitOut K}
    (h : visitCorrespondences p wp ctL ctG outl nrm norm eps = .ok o) : o.visited = [] := by
  unfold visitCorrespondences at h
  simp only [Outcome.bind_def, Outcome.pure_def, Outcome.bind_eq_ok, Outcome.assert_eq_ok] at h
  obtain ⟨_, _, _, _, _, _, s, hs, ho⟩ := h
  cases ho
  exact visitLoop_no_estimate (c := visitCfg p wp ctL ctG nrm norm eps) hk he _ _ _ _ hs

/-- Shape of Horn's result when the scale-based detection is off. -/
theorem horn_shape {e : HornEnv K} {p : Pairings K} {wp : WeightParams K} (hs : wp.useScaleOutlier = false)
    {res : TFResult K} (h : optimalTfHorn e p wp = .ok (some res)) :
    p.pt2pt ≠ [] ∧ 3 ≤ numCorr p ∧ ∃ o q,
      visitCorrespondences p wp (mean (p.pt2pt.map (·.local))) (mean (p.pt2pt.map (·.global))) [] false e.norm e.eps = .ok o ∧
      (q = if (e.eig (hornN (hornS o))).r < 0 then ⟨-(e.eig (hornN (hornS o))).r, -(e.eig (hornN (hornS o))).x,
        -(e.eig (hornN (hornS o))).y, -(e.eig (hornN (hornS o))).z⟩ else e.eig (hornN (hornS o))) ∧
      res.pose = poseFromRot q.toMatrix (mean (p.pt2pt.map (·.local))) (mean (p.pt2pt.map (·.global))) ∧
      res.outliers = o.outliers := by
  by_cases hne : p.pt2pt = []
  · exfalso
    unfold optimalTfHorn at h
    simp only [Outcome.bind_def, Outcome.pure_def, Outcome.bind_eq_ok, Outcome.assert_eq_ok] at h
    obtain ⟨_, _, _, _, _, _, _, hce, _⟩ := h
    simp [evalCentroidsRobust, hne, Outcome.assert, Outcome.bind] at hce
  have hlen : 0 < p.pt2pt.length := List.length_pos_iff.mpr hne
  have hcen := centroids_ok p {} (by simp) (by simp) (by simpa using hlen)
  simp only [inliers_nil] at hcen
  unfold optimalTfHorn at h
  simp only [hcen, Outcome.bind_def, Outcome.pure_def, Outcome.bind_eq_ok, Outcome.assert_eq_ok] at h
  obtain ⟨_, _, _, _, _, _, _, hx, ores, hse, hres⟩ := h
  cases hx
  cases ores with
  | none => simp at hres
  | some qo =>
    obtain ⟨q, outl⟩ := qo
    unfold se3L2Internal at hse
    simp only [Outcome.bind_def, Outcome.pure_def, Outcome.bind_eq_ok, Outcome.assert_eq_ok] at hse
    obtain ⟨_, _, _, _, hse⟩ := hse
    split at hse
    · simp at hse
    rename_i h3
    simp only [Outcome.bind_eq_ok] at hse
    obtain ⟨o, ho, hse⟩ := hse
    simp only [Outcome.ok.injEq, Option.some.injEq, Prod.mk.injEq] at hse
    obtain ⟨rfl, rfl⟩ := hse
    simp only [hs, Bool.false_eq_true, false_and, if_false] at hres
    cases hres
    exact ⟨hne, by unfold numCorr; omega, o, _, ho, rfl, rfl, rfl⟩

/-- Moving the translation by `d` changes the weighted cost as a parabola. -/
theorem weightedCost_shift (ps : List (PtPair K × K)) (R : M3 K) (t d : P3 K) :
    weightedCost ps ⟨R, t + d⟩ = weightedCost ps ⟨R, t⟩ + d.normSq * (ps.map (·.2)).sum +
      2 * (ps.map fun p => p.2 * d.dot (R.mulVec p.1.local + t - p.1.global)).sum := by
  unfold weightedCost
  induction ps with
  | nil => simp
  | cons p ps ih =>
    simp only [List.map_cons, List.sum_cons, ih]
    simp only [P3.distSq, P3.normSq, P3.dot, Pose3.composePoint, P3.sub_x, P3.sub_y, P3.sub_z, P3.add_x, P3.add_y, P3.add_z]
    ring

end Verif.Lemmas
