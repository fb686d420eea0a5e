import Verif.Spec.Rest
import Verif.Lemmas.EndToEnd
import Mathlib.Data.Fintype.BigOperators
import Mathlib.Data.Fintype.Option
/-
Lemmas for C121.
-/
namespace Verif.Lemmas.Rest
open Verif Verif.Spec Verif.Lemmas
variable {K : Type} [Field K] [LinearOrder K] [IsStrictOrderedRing K]

/-- What an iteration with a successful solver did. -/
theorem event_detail {ops : PoseOps K (Pose3 K)} {e : HornEnv K} {nearOne : P3 K → Bool} {ratio : K} {wp : WeightParams K}
    {c : DTCfg K} {mr : K} {name : String} {g : GLayer K} {gpts pts : List (P3 K)} {dense : Bool}
    (hs : FitSetting ops e wp c g gpts pts) {it : Nat} {T : Pose3 K} {ms : MatchState K} {prs : Pairings K}
    {out s : Sol K (Pose3 K)} {sc : SolverCtx (Pose3 K)} {fin fin' : List Nat}
    (hm : runMatchers (simpleIcp c (hornAsSolver e nearOne ratio wp) mr name g gpts.length dense pts).matchers it T
      (simpleIcp c (hornAsSolver e nearOne ratio wp) mr name g gpts.length dense pts).freshMS = .ok (ms, prs))
    (hr : runSolvers ops.tnorm (simpleIcp c (hornAsSolver e nearOne ratio wp) mr name g gpts.length dense pts).solvers
      prs out sc fin = .ok (true, s, fin')) (hsz : prs.size ≠ 0) :
    prs = { pt2pt := (List.range pts.length).filterMap (cand c T.composePoint g pts), potential := pts.length } ∧
      IsRotation s.pose.R ∧ (AwayFromCentroids e.norm e.eps prs.pt2pt → BestFit prs.pt2pt s.pose) := by
  have hne : pts ≠ [] := by
    rintro rfl
    have : runMatchers (simpleIcp c (hornAsSolver e nearOne ratio wp) mr name g gpts.length dense []).matchers it T
      (simpleIcp c (hornAsSolver e nearOne ratio wp) mr name g gpts.length dense []).freshMS =
        .ok (freshState name gpts.length dense 0, {}) := by
      have hc := hs.matcher
      have hl : dtLayer c T.composePoint g name name [] (freshState name gpts.length dense 0) {} =
          .ok (freshState name gpts.length dense 0, {}) := by
        unfold dtLayer layerFrame
        simp [hc.ppp, hc.thr, hc.angDeg, hs.serves.capable, Outcome.assert, Outcome.bind]
      simp only [runMatchers, simpleIcp, runMatchersLoop, Matcher.run, PtMatcher.toMatcher, PtMatcher.base, PtMatcher.layer]
      simp [pointsMatch, foldOutcome, globalLayerStep, hc.noTable, localLayersFor, localLayerStep, AMap.get, hl, Outcome.bind,
        Pairings.pushBackCopy]
    rw [this] at hm
    cases hm
    exact hsz rfl
  have hbox : g.boxesMeet (pts.map T.composePoint) (c.thr + c.eps) = true := by
    by_contra hb
    rw [simple_match_apart hs.serves hs.matcher hne it T hb] at hm
    cases hm
    exact hsz rfl
  obtain ⟨ms', hm'⟩ := simple_match (s := hornAsSolver e nearOne ratio wp) (mr := mr) (name := name) (dense := dense)
    hs.serves hs.matcher hne it T (Or.inl hs.many) (Or.inl hbox)
  rw [hm] at hm'
  cases hm'
  refine ⟨rfl, ?_⟩
  set ps := (List.range pts.length).filterMap (cand c T.composePoint g pts) with hps
  have hpos : 0 < ps.length := by
    simp only [Pairings.size, List.length_nil, Nat.add_zero] at hsz; omega
  by_cases h3 : 3 ≤ ps.length
  · obtain ⟨r, hho⟩ := horn_total (e := e) hs.solver ps pts.length h3
    rw [simple_solve ops.tnorm ps pts.length out sc fin hho] at hr
    simp only [hornAnswer, Outcome.ok.injEq, Prod.mk.injEq, true_and] at hr
    obtain ⟨rfl, -⟩ := hr
    refine ⟨horn_rot hs.eig hs.solver hho, fun ha T' hT => ?_⟩
    have h5 := horn_near (p := { pt2pt := ps, potential := pts.length }) hs.eig hs.norm
      ⟨rfl, rfl, rfl, rfl, rfl, hs.solver.noKernel, hs.solver.noScale, hs.solver.wPt, hs.solver.wLn, hs.solver.wPl⟩ hho T' hT
    have h6 := (nearSlack_bounds hs.norm (not_lt.mpr hs.eps) ps).2.1 ha
    simp only at h5
    rw [h6, add_zero] at h5
    exact h5
  · have hho := horn_too_few (e := e) hs.solver ps pts.length hpos (by omega)
    rw [simple_solve ops.tnorm ps pts.length out sc fin hho] at hr
    simp [hornAnswer] at hr

/-- The misfit bounds the cost of the pairings, exactly so at the pose they were made at. -/
theorem misfit_pairs {c : DTCfg K} {g : GLayer K} {gpts pts : List (P3 K)} (hg : ServesPoints g gpts) (hang : c.angSq = 0)
    (T : Pose3 K) : ∃ k : K, misfit c.thr gpts pts T = pointCost ((List.range pts.length).filterMap (cand c T.composePoint g pts)) T + k ∧
      ∀ T' : Pose3 K, misfit c.thr gpts pts T' ≤ pointCost ((List.range pts.length).filterMap (cand c T.composePoint g pts)) T' + k := by
  obtain ⟨k, k1, k2⟩ := misfit_split (c := c) (pts := pts) hg T pts.length le_rfl
  simp only [List.take_length] at k1 k2
  have h : ∀ T' : Pose3 K, misfit c.thr gpts pts T' =
      (pts.map fun p => ptMisfit (dtLimit c (T.composePoint p)) gpts (T'.composePoint p)).sum := by
    intro T'
    rw [← misfitAt_eq, hang, misfitAt_noAngle]
  exact ⟨k, by rw [h, k1], fun T' => by rw [h]; exact k2 T'⟩

/-- Which map point each local point was paired with. -/
def code (c : DTCfg K) (T : Pose3 K) (g : GLayer K) (pts : List (P3 K)) (m : Nat) (i : Fin pts.length) : Option (Fin m) :=
  (cand c T.composePoint g pts i).bind fun q => if h : q.globalIdx < m then some ⟨q.globalIdx, h⟩ else none

theorem cand_idx {c : DTCfg K} {tf : P3 K → P3 K} {g : GLayer K} {gpts pts : List (P3 K)} (hg : ServesPoints g gpts)
    {i : Nat} {q : PtPair K} (h : cand c tf g pts i = some q) :
    pts[i]? = some q.local ∧ gpts[q.globalIdx]? = some q.global := by
  simp only [cand, Option.bind_eq_some_iff] at h
  obtain ⟨p, hp, nb, hnb, h⟩ := h
  obtain ⟨nb', h1, h2, h3, h4⟩ := hg.nearest (tf p)
  rw [hnb] at h1; cases h1
  split at h
  · cases h; exact ⟨hp, h2⟩
  · cases h

/-- The pairs, as points: the code tells them all. -/
theorem code_tells {c : DTCfg K} {g : GLayer K} {gpts pts : List (P3 K)} (hg : ServesPoints g gpts) {T T' : Pose3 K}
    (h : code c T g pts gpts.length = code c T' g pts gpts.length) :
    ((List.range pts.length).filterMap (cand c T.composePoint g pts)).map (fun q => (q.local, q.global)) =
      ((List.range pts.length).filterMap (cand c T'.composePoint g pts)).map fun q => (q.local, q.global) := by
  rw [List.map_filterMap, List.map_filterMap]
  refine List.filterMap_congr fun i hi => ?_
  have hi : i < pts.length := List.mem_range.mp hi
  have hc := congrFun h ⟨i, hi⟩
  have key : ∀ S : Pose3 K, (cand c S.composePoint g pts i).map (fun q => (q.local, q.global)) =
      (code c S g pts gpts.length ⟨i, hi⟩).bind fun j => some (pts[i], gpts[j]) := by
    intro S
    unfold code
    cases hcs : cand c S.composePoint g pts i with
    | none => simp [hcs]
    | some q =>
      obtain ⟨a, b⟩ := cand_idx hg hcs
      have hlt : q.globalIdx < gpts.length := (List.getElem?_eq_some_iff.mp b).1
      have a' : pts[i] = q.local := (List.getElem?_eq_some_iff.mp a).2
      have b' : gpts[q.globalIdx] = q.global := (List.getElem?_eq_some_iff.mp b).2
      simp [hcs, hlt, a', b']
  rw [key, key, hc]

theorem cost_of_points {ps qs : List (PtPair K)} (h : ps.map (fun q => (q.local, q.global)) = qs.map fun q => (q.local, q.global))
    (T : Pose3 K) : pointCost ps T = pointCost qs T := by
  have e : ∀ l : List (PtPair K), pointCost l T = ((l.map fun q => (q.local, q.global)).map fun x => P3.distSq (T.composePoint x.1) x.2).sum := by
    intro l; simp [pointCost, List.map_map, Function.comp_def]
  rw [e, e, h]

/-- More indices than codes: two of them have the same. -/
theorem two_alike {c : DTCfg K} {g : GLayer K} {gpts pts : List (P3 K)} (T : Nat → Pose3 K) {n : Nat}
    (hn : (gpts.length + 1) ^ pts.length < n) :
    ∃ j k, j < k ∧ k < n ∧ code c (T j) g pts gpts.length = code c (T k) g pts gpts.length := by
  have hcard : Fintype.card (Fin pts.length → Option (Fin gpts.length)) < Fintype.card (Fin n) := by
    rw [Fintype.card_fun, Fintype.card_option, Fintype.card_fin, Fintype.card_fin, Fintype.card_fin]
    exact hn
  obtain ⟨x, y, hne, hxy⟩ := Fintype.exists_ne_map_eq_of_card_lt (fun i : Fin n => code c (T i) g pts gpts.length) hcard
  rcases lt_or_gt_of_ne hne with hl | hl
  · exact ⟨x, y, hl, y.2, hxy⟩
  · exact ⟨y, x, hl, x.2, hxy.symm⟩

end Verif.Lemmas.Rest
