import Verif.Spec.Overlap
import Verif.Lemmas.EndToEnd
/-
Lemmas for C118.
-/
namespace Verif.Lemmas.Ov
open Verif Verif.Spec Verif.Lemmas
set_option linter.unusedSectionVars false
variable {K : Type} [Field K] [LinearOrder K] [IsStrictOrderedRing K]

theorem shared_mem {gpts pts : List (P3 K)} {T : Pose3 K} {x : P3 K} : x ∈ sharedPts gpts pts T ↔ x ∈ pts ∧ T.composePoint x ∈ gpts := by
  simp [sharedPts]

theorem shared_pairs (gpts pts : List (P3 K)) (T : Pose3 K) :
    (pts.zipIdx.filter fun x => decide (T.composePoint x.1 ∈ gpts)).map Prod.fst = sharedPts gpts pts T := by
  unfold sharedPts
  conv_rhs => rw [← List.zipIdx_map_fst 0 pts, List.filter_map]
  rfl

theorem shared_length {gpts pts : List (P3 K)} {T : Pose3 K} {prs : Pairings K} (h : SharedMatched gpts pts T prs) :
    prs.pt2pt.length = (sharedPts gpts pts T).length := by
  have h1 := congrArg List.length h.pairs
  rw [List.length_map, List.length_map] at h1
  rw [h1, ← shared_pairs, List.length_map]

theorem shared_paired {gpts pts : List (P3 K)} {T : Pose3 K} {prs : Pairings K} (h : SharedMatched gpts pts T prs) :
    PairedWith (sharedPts gpts pts T) T prs := by
  refine ⟨?_, _, h.rest⟩
  have h1 := congrArg (List.map fun x : Nat × P3 K × P3 K => x.2) h.pairs
  simp only [List.map_map, Function.comp_def] at h1
  rw [h1, ← shared_pairs, List.map_map]
  rfl

theorem range_zip (pts : List (P3 K)) (P : P3 K → Bool) (f : P3 K → P3 K) :
    (List.range pts.length).filterMap (fun i => (pts[i]?).bind fun p => if P p = true then some (i, p, f p) else none) =
      (pts.zipIdx.filter fun x => P x.1).map fun x => (x.2, x.1, f x.1) := by
  induction pts using List.reverseRecOn with
  | nil => simp
  | append_singleton l a ih =>
    rw [List.length_append, List.length_singleton, List.range_succ, List.filterMap_append, List.zipIdx_append, List.filter_append, List.map_append, ← ih]
    congr 1
    · apply List.filterMap_congr
      intro i hi
      rw [List.getElem?_append_left (List.mem_range.mp hi)]
    · by_cases h : P a = true <;> simp [h]

theorem cand_shared {c : DTCfg K} {g : GLayer K} {gpts pts : List (P3 K)} {T T0 : Pose3 K} (hg : ServesPoints g gpts)
    (hc : PlainMatcher c pts.length) (hcl : CloseShared pts gpts c T T0) {i : Nat} (hi : i < pts.length) (hin : T.composePoint pts[i] ∈ gpts) :
    ∃ idx d2, cand c T0.composePoint g pts i = some ⟨idx, i, T.composePoint pts[i], pts[i], d2⟩ ∧
      gpts[idx]? = some (T.composePoint pts[i]) := by
  have hmem : pts[i] ∈ pts := List.getElem_mem hi
  obtain ⟨nb, h1, h2, h3, h4⟩ := hg.nearest (T0.composePoint pts[i])
  have hpt : nb.pt = T.composePoint pts[i] := by
    by_contra hne
    exact absurd (h4 _ hin) (not_le.mpr (hcl.nearest _ hmem hin nb.pt (List.mem_of_getElem? h2) hne))
  have hlim : nb.d2 < dtLimit c (T0.composePoint pts[i]) := by
    rw [h3, hpt]
    refine lt_of_lt_of_le (hcl.within _ hmem hin) ?_
    unfold dtLimit
    have := mul_nonneg hc.angSq (add_nonneg (add_nonneg (mul_self_nonneg (T0.composePoint pts[i]).x) (mul_self_nonneg (T0.composePoint pts[i]).y))
      (mul_self_nonneg (T0.composePoint pts[i]).z))
    linarith
  refine ⟨nb.idx, nb.d2, ?_, by rw [h2, hpt]⟩
  simp [cand, List.getElem?_eq_getElem hi, h1, hlim, hpt]

theorem cand_alone {c : DTCfg K} {g : GLayer K} {gpts pts : List (P3 K)} {T T0 : Pose3 K} (hg : ServesPoints g gpts)
    (hcl : CloseShared pts gpts c T T0) {i : Nat} (hi : i < pts.length) (hout : T.composePoint pts[i] ∉ gpts) :
    cand c T0.composePoint g pts i = none := by
  have hmem : pts[i] ∈ pts := List.getElem_mem hi
  obtain ⟨nb, h1, h2, h3, h4⟩ := hg.nearest (T0.composePoint pts[i])
  have hlim : ¬ nb.d2 < dtLimit c (T0.composePoint pts[i]) := by
    rw [h3, not_lt]
    refine le_trans (le_of_eq ?_) (hcl.alone _ hmem hout nb.pt (List.mem_of_getElem? h2))
    unfold dtLimit
    simp only [P3.normSq, P3.dot]
  simp [cand, List.getElem?_eq_getElem hi, h1, hlim]

/-- From every pose that close, the matcher finds exactly the true pairings. -/
theorem match_shared {c : DTCfg K} {s : Solver K (Pose3 K)} {mr : K} {name : String} {g : GLayer K} {gpts pts : List (P3 K)}
    {dense : Bool} {ops : PoseOps K (Pose3 K)} {p : IcpParams K} {T T0 : Pose3 K} (hs : OverlapSetting ops c mr g gpts pts T p)
    (hcl : CloseShared pts gpts c T T0) (it : Nat) :
    ∃ ms prs, runMatchers (simpleIcp c s mr name g gpts.length dense pts).matchers it T0
        (simpleIcp c s mr name g gpts.length dense pts).freshMS = .ok (ms, prs) ∧ SharedMatched gpts pts T prs := by
  have hg := hs.serves
  have hc := hs.matcher
  obtain ⟨x, hx⟩ := List.exists_mem_of_ne_nil _ hs.overlap
  obtain ⟨hx1, hx2⟩ := shared_mem.mp hx
  have hin : ∀ i q, cand c T0.composePoint g pts i = some q → ∃ hi : i < pts.length, T.composePoint pts[i] ∈ gpts := by
    intro i q h1
    have hi : i < pts.length := by
      by_contra hh
      simp [cand, List.getElem?_eq_none (not_lt.mp hh)] at h1
    refine ⟨hi, ?_⟩
    by_contra hh
    rw [cand_alone hg hcl hi hh] at h1
    cases h1
  have hinj : ∀ i j q r, cand c T0.composePoint g pts i = some q → cand c T0.composePoint g pts j = some r →
      q.globalIdx = r.globalIdx → i = j := by
    intro i j q r h1 h2 h3
    obtain ⟨hi, ti⟩ := hin i q h1
    obtain ⟨hj, tj⟩ := hin j r h2
    obtain ⟨x, d, e1, e2⟩ := cand_shared hg hc hcl hi ti
    obtain ⟨y, d', f1, f2⟩ := cand_shared hg hc hcl hj tj
    rw [h1] at e1; rw [h2] at f1
    cases e1; cases f1
    simp only at h3
    subst h3
    rw [e2] at f2
    exact (List.Nodup.getElem_inj_iff hs.distinct).mp (rotation_inj hs.rot (Option.some.inj f2))
  have hbox : g.boxesMeet (pts.map T0.composePoint) (c.thr + c.eps) = true := by
    refine hg.boxes _ _ ⟨_, List.mem_map.mpr ⟨x, hx1, rfl⟩, _, hx2, ?_, ?_⟩
    · linarith [hc.thr, hc.eps]
    · have := hcl.within x hx1 hx2
      have h2 : c.thr * c.thr ≤ (c.thr + c.eps) * (c.thr + c.eps) :=
        mul_self_le_mul_self hc.thr.le (by linarith [hc.eps])
      linarith
  obtain ⟨ms, hm⟩ := simple_match (s := s) (mr := mr) (name := name) (dense := dense) hg hc (List.ne_nil_of_mem hx1) it T0 (Or.inr hinj) (Or.inl hbox)
  refine ⟨ms, _, hm, ?_, rfl⟩
  simp only [List.map_filterMap]
  rw [← range_zip pts (fun x => decide (T.composePoint x ∈ gpts)) T.composePoint]
  apply List.filterMap_congr
  intro i hi
  have hi := List.mem_range.mp hi
  rw [List.getElem?_eq_getElem hi]
  by_cases hh : T.composePoint pts[i] ∈ gpts
  · obtain ⟨y, d, e1, -⟩ := cand_shared hg hc hcl hi hh
    simp [e1, hh]
  · simp [cand_alone hg hcl hi hh, hh]

theorem shared_quality {c : DTCfg K} {s : Solver K (Pose3 K)} {mr : K} {name : String} {g : GLayer K} {ng : Nat} {gpts pts : List (P3 K)} {dense : Bool}
    {T : Pose3 K} {prs : Pairings K} (hne : pts ≠ []) (hr : mr ≤ ((sharedPts gpts pts T).length : K) / (pts.length : K))
    (hm : SharedMatched gpts pts T prs) (it : Nat) (fin : Bool) (pose : Pose3 K) :
    evaluateQuality (simpleIcp c s mr name g ng dense pts).quality it fin pose prs = .ok (((sharedPts gpts pts T).length : K) / (pts.length : K)) := by
  have hp : prs.potential = pts.length := by rw [hm.rest]
  have hsz : prs.size = (sharedPts gpts pts T).length := by
    rw [hm.rest]; simp [Pairings.size, shared_length hm]
  have hq : pairedRatio mr prs = (((sharedPts gpts pts T).length : K) / (pts.length : K), false) := by
    have h0 : pts.length ≠ 0 := by have := List.length_pos_iff.mpr hne; omega
    simp [pairedRatio, hp, hsz, h0, not_lt.mpr hr]
  simp [evaluateQuality, evaluateQualityLoop, simpleIcp, pairedRatioEval, hq, Outcome.assert, Outcome.bind]

theorem shared_found {gpts pts : List (P3 K)} {T : Pose3 K} {prs : Pairings K} (hne : sharedPts gpts pts T ≠ []) (hm : SharedMatched gpts pts T prs) :
    prs.isEmpty = false := by
  have h1 := shared_length hm
  have := List.length_pos_iff.mpr hne
  cases hp : prs.pt2pt with
  | nil => rw [hp] at h1; simp at h1; omega
  | cons a l => simp [Pairings.isEmpty, hp]

theorem pts_ne {gpts pts : List (P3 K)} {T : Pose3 K} (h : sharedPts gpts pts T ≠ []) : pts ≠ [] := by
  rintro rfl
  exact h (by simp [sharedPts])

end Verif.Lemmas.Ov
