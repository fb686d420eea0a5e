import Verif.Spec.EndToEnd
import Verif.Lemmas.MatchersTop
import Verif.Lemmas.OlaeTop
import Verif.Lemmas.IcpThread
import Verif.Lemmas.SolverMisc
/-
Lemmas for whole registrations (C93, C94).
-/
namespace Verif.Lemmas
open Verif Verif.Spec
set_option linter.unusedSectionVars false
variable {K : Type} [Field K] [LinearOrder K] [IsStrictOrderedRing K]

/-- The pairing of local point `i`: with its nearest neighbour, if within the limit. -/
def cand (c : DTCfg K) (tf : P3 K → P3 K) (g : GLayer K) (pts : List (P3 K)) (i : Nat) : Option (PtPair K) :=
  (pts[i]?).bind fun p => (g.nnSingle (tf p)).bind fun nb =>
    if nb.d2 < dtLimit c (tf p) then some ⟨nb.idx, i, nb.pt, p, nb.d2⟩ else none

/-- State after `n` local points. -/
structure CandInv (c : DTCfg K) (tf : P3 K → P3 K) (g : GLayer K) (gn ln : String) (pts : List (P3 K)) (out : Pairings K)
    (n : Nat) (s : MatchState K × Pairings K) : Prop where
  out : s.2 = { out with pt2pt := out.pt2pt ++ (List.range n).filterMap (cand c tf g pts) }
  rl : ∀ i, i < pts.length → Readable s.1.localFlags ln i
  rg : ∀ i q, cand c tf g pts i = some q → Readable s.1.globalFlags gn q.globalIdx
  fl : ∀ i, Flagged s.1.localFlags ln i → i < n
  fg : ∀ j, Flagged s.1.globalFlags gn j → ∃ i q, i < n ∧ cand c tf g pts i = some q ∧ q.globalIdx = j

theorem not_flagged_read {f : AMap String BitField} {l : String} {i : Nat} (hr : Readable f l i) (hf : ¬ Flagged f l i) :
    flagAt f l i = .ok false := by
  obtain ⟨x, hx⟩ := readable_read hr
  cases x with
  | false => exact hx
  | true => exact absurd hx hf

theorem candInv_step {c : DTCfg K} {tf : P3 K → P3 K} {g : GLayer K} {gn ln : String} {pts : List (P3 K)} {out : Pairings K}
    {n : Nat} {s : MatchState K × Pairings K} (hp : c.ppp = 1)
    (hinj : c.allowGlobal = true ∨ ∀ i j q r, cand c tf g pts i = some q → cand c tf g pts j = some r →
      q.globalIdx = r.globalIdx → i = j)
    (hn : n < pts.length) (hi : CandInv c tf g gn ln pts out n s) :
    ∃ s', dtStep c g gn ln pts ⟨none, pts.map tf⟩ s n = .ok s' ∧ CandInv c tf g gn ln pts out (n + 1) s' := by
  have hpn : pts[n]? = some pts[n] := List.getElem?_eq_getElem hn
  have hskip : skipLocal c.toPtsCfg s.1 ln n = .ok false := by
    unfold skipLocal
    split
    · rfl
    · exact not_flagged_read (hi.rl n hn) (fun h => absurd (hi.fl n h) (lt_irrefl _))
  have hq : vecAt (pts.map tf) n = .ok (tf pts[n]) := by
    rw [vecAt_ok]; simp [hpn]
  have hstep : dtStep c g gn ln pts ⟨none, pts.map tf⟩ s n =
      dtNbrLoop c gn ln pts n (dtLimit c (tf pts[n])) s (g.nnSingle (tf pts[n])).toList := by
    simp [dtStep, TLocal.index, hskip, hq, dtSearch, hp, Outcome.bind]
  rw [hstep]
  have hnone : ∀ s', s' = s → cand c tf g pts n = none → CandInv c tf g gn ln pts out (n + 1) s' := by
    rintro s' rfl hc
    refine ⟨?_, hi.rl, hi.rg, fun i h => Nat.lt_succ_of_lt (hi.fl i h), fun j h => ?_⟩
    · rw [hi.out, List.range_succ, List.filterMap_append]; simp [hc]
    · obtain ⟨i, q, h1, h2, h3⟩ := hi.fg j h
      exact ⟨i, q, by omega, h2, h3⟩
  cases hnb : g.nnSingle (tf pts[n]) with
  | none =>
    exact ⟨s, rfl, hnone s rfl (by simp [cand, hpn, hnb])⟩
  | some nb =>
    simp only [Option.toList, dtNbrLoop]
    by_cases hd : nb.d2 ≥ dtLimit c (tf pts[n])
    · rw [if_pos hd]
      exact ⟨s, rfl, hnone s rfl (by simp [cand, hpn, hnb, not_lt.mpr hd])⟩
    · rw [if_neg hd]
      have hc : cand c tf g pts n = some ⟨nb.idx, n, nb.pt, pts[n], nb.d2⟩ := by
        simp [cand, hpn, hnb, not_le.mp hd]
      have hsg : skipGlobal c.toPtsCfg s.1 gn nb.idx = .ok false := by
        unfold skipGlobal
        split
        · rfl
        · rename_i hag
          refine not_flagged_read (hi.rg n _ hc) (fun h => ?_)
          obtain ⟨i, q, h1, h2, h3⟩ := hi.fg _ h
          rcases hinj with h | h
          · exact hag h
          · exact absurd (h i n q _ h2 hc h3) (by omega)
      have hout : ∀ ms, CandInv c tf g gn ln pts out (n + 1)
          (ms, { s.2 with pt2pt := s.2.pt2pt ++ [⟨nb.idx, n, nb.pt, pts[n], nb.d2⟩] }) ↔
          ((∀ i, i < pts.length → Readable ms.localFlags ln i) ∧
           (∀ i q, cand c tf g pts i = some q → Readable ms.globalFlags gn q.globalIdx) ∧
           (∀ i, Flagged ms.localFlags ln i → i < n + 1) ∧
           (∀ j, Flagged ms.globalFlags gn j → ∃ i q, i < n + 1 ∧ cand c tf g pts i = some q ∧ q.globalIdx = j)) := by
        intro ms
        constructor
        · exact fun h => ⟨h.rl, h.rg, h.fl, h.fg⟩
        · rintro ⟨h1, h2, h3, h4⟩
          refine ⟨?_, h1, h2, h3, h4⟩
          rw [hi.out, List.range_succ, List.filterMap_append]
          simp [hc, List.append_assoc]
      simp only [dtAddPair, hsg, Outcome.bind, Bool.false_eq_true, if_false, vecAt_lt _ _ hn, pushPt]
      by_cases hag : c.allowGlobal = true
      · simp only [hag, if_true]
        refine ⟨_, rfl, (hout _).mpr ⟨hi.rl, hi.rg, fun i h => Nat.lt_succ_of_lt (hi.fl i h), fun j h => ?_⟩⟩
        obtain ⟨i, q, h1, h2, h3⟩ := hi.fg j h
        exact ⟨i, q, by omega, h2, h3⟩
      · simp only [hag, if_false]
        obtain ⟨m1, hm1⟩ := markLocal_total (ms := { s.1 with ghost := s.1.ghost ++
          [(gn, ln, (⟨nb.idx, n, nb.pt, pts[n], nb.d2⟩ : PtPair K))] }) (hi.rl n hn)
        obtain ⟨a1, a2, -⟩ := markLocal_ok hm1
        have hr1 : Readable m1.globalFlags gn nb.idx := by rw [a2]; exact hi.rg n _ hc
        obtain ⟨m2, hm2⟩ := markGlobal_total hr1
        obtain ⟨b1, b2, -⟩ := markGlobal_ok hm2
        simp only [hm1, hm2, Bool.false_eq_true, if_false]
        refine ⟨_, rfl, (hout _).mpr ⟨?_, ?_, ?_, ?_⟩⟩
        · intro i hi'; rw [b2]; exact readable_mark a1 (hi.rl i hi')
        · intro i q hq; refine readable_mark b1 ?_; rw [a2]; exact hi.rg i q hq
        · intro i hf
          rw [b2] at hf
          rcases flagMark_inv a1 hf with h | ⟨-, h⟩
          · exact Nat.lt_succ_of_lt (hi.fl i h)
          · omega
        · intro j hf
          rcases flagMark_inv b1 hf with h | ⟨-, h⟩
          · rw [a2] at h
            obtain ⟨i, q, h1, h2, h3⟩ := hi.fg j h
            exact ⟨i, q, by omega, h2, h3⟩
          · exact ⟨n, _, by omega, hc, h.symm⟩

theorem candInv_fold {c : DTCfg K} {tf : P3 K → P3 K} {g : GLayer K} {gn ln : String} {pts : List (P3 K)} {out : Pairings K}
    {s : MatchState K × Pairings K} (hp : c.ppp = 1)
    (hinj : c.allowGlobal = true ∨ ∀ i j q r, cand c tf g pts i = some q → cand c tf g pts j = some r →
      q.globalIdx = r.globalIdx → i = j)
    (hi : CandInv c tf g gn ln pts out 0 s) (n : Nat) (hn : n ≤ pts.length) :
    ∃ s', foldOutcome (dtStep c g gn ln pts ⟨none, pts.map tf⟩) s (List.range n) = .ok s' ∧
      CandInv c tf g gn ln pts out n s' := by
  induction n with
  | zero => exact ⟨s, rfl, hi⟩
  | succ n ih =>
    obtain ⟨s1, h1, i1⟩ := ih (by omega)
    obtain ⟨s2, h2, i2⟩ := candInv_step hp hinj (by omega) i1
    refine ⟨s2, ?_, i2⟩
    rw [List.range_succ, fold_append, h1]
    simp [foldOutcome, h2, Outcome.bind]

/-- The flags of a fresh state: readable, none set. -/
theorem fresh_flags (name : String) (n : Nat) (d : Bool) :
    (∀ i, (d = true → i < n) → Readable (initFlags [(name, some (n, d))] []) name i) ∧
    ∀ i, ¬ Flagged (initFlags [(name, some (n, d))] []) name i := by
  have h : (initFlags [(name, some (n, d))] []).get name = some ((({} : BitField)).assign n d) := by
    simp [initFlags, initFlagsLoop, AMap.set, AMap.get, AMap.erase, AMap.insertNew]
  constructor
  · intro i hi
    refine ⟨_, h, fun v hv => ?_⟩
    cases d with
    | false => simp [BitField.assign] at hv
    | true =>
      simp only [BitField.assign, if_true, Option.some.injEq] at hv
      subst hv
      simpa using hi rfl
  · intro i hf
    unfold Flagged flagAt at hf
    rw [h] at hf
    cases d with
    | false => simp [BitField.assign, BitField.get] at hf
    | true =>
      simp only [BitField.assign, if_true, BitField.get, List.getElem?_replicate] at hf
      by_cases hi : i < n <;> simp [hi] at hf

/-- The matcher of the simple pipeline, exactly. -/
theorem simple_match {c : DTCfg K} {s : Solver K (Pose3 K)} {mr : K} {name : String} {g : GLayer K} {gpts pts : List (P3 K)}
    {dense : Bool} (hg : ServesPoints g gpts) (hc : PlainMatcher c pts.length) (hne : pts ≠ []) (it : Nat) (T : Pose3 K)
    (hinj : c.allowGlobal = true ∨ ∀ i j q r, cand c T.composePoint g pts i = some q →
      cand c T.composePoint g pts j = some r → q.globalIdx = r.globalIdx → i = j)
    (hbox : g.boxesMeet (pts.map T.composePoint) (c.thr + c.eps) = true ∨ ∀ i, cand c T.composePoint g pts i = none) :
    ∃ ms, runMatchers (simpleIcp c s mr name g gpts.length dense pts).matchers it T
        (simpleIcp c s mr name g gpts.length dense pts).freshMS =
      .ok (ms, { pt2pt := (List.range pts.length).filterMap (cand c T.composePoint g pts), potential := pts.length }) := by
  have hlayer : ∃ ms, dtLayer c T.composePoint g name name pts (freshState name gpts.length dense pts.length) {} =
      .ok (ms, { pt2pt := (List.range pts.length).filterMap (cand c T.composePoint g pts), potential := pts.length }) := by
    have htl : transformLocal c.toPtsCfg T.composePoint pts = .ok ⟨none, pts.map T.composePoint⟩ := by
      simp [transformLocal, hc.all]
    have hemp : pts.isEmpty = false := by simpa using hne
    unfold dtLayer layerFrame
    simp only [hc.ppp, hc.thr, ge_iff_le, le_refl, gt_iff_lt, hc.angDeg, hg.capable, Outcome.bind_def, Outcome.assert, if_true,
      Outcome.bind, hg.nonempty, hemp, Bool.or_self, Bool.false_eq_true, if_false, htl, mul_one, Nat.zero_add]
    by_cases hb : g.boxesMeet (pts.map T.composePoint) (c.thr + c.eps) = true
    · simp only [hb, if_true]
      have h0 : CandInv c T.composePoint g name name pts ({ potential := pts.length } : Pairings K) 0
          (freshState name gpts.length dense pts.length, { potential := pts.length }) := by
        refine ⟨by simp, ?_, ?_, ?_, ?_⟩
        · intro i hi; exact (fresh_flags name pts.length true).1 i (fun _ => hi)
        · intro i q hq
          refine (fresh_flags name gpts.length dense).1 _ (fun _ => ?_)
          simp only [cand, Option.bind_eq_some_iff] at hq
          obtain ⟨p, -, nb, hnb, hq⟩ := hq
          split at hq
          · obtain ⟨nb', h1, h2, -⟩ := hg.nearest (T.composePoint p)
            rw [hnb] at h1; cases h1
            cases hq
            exact (List.getElem?_eq_some_iff.mp h2).1
          · cases hq
        · intro i hf; exact absurd hf ((fresh_flags name pts.length true).2 i)
        · intro i hf; exact absurd hf ((fresh_flags name gpts.length dense).2 i)
      obtain ⟨s', h1, h2⟩ := candInv_fold hc.ppp hinj h0 pts.length le_rfl
      refine ⟨s'.1, ?_⟩
      have := h2.out
      simp only [List.nil_append] at this
      rw [h1, ← this]
    · simp only [hb, if_false]
      refine ⟨freshState name gpts.length dense pts.length, ?_⟩
      rcases hbox with h | h
      · exact absurd h hb
      · rw [List.filterMap_eq_nil_iff.mpr (fun i _ => h i)]
        simp
  obtain ⟨ms, hl⟩ := hlayer
  refine ⟨ms, ?_⟩
  have hpm : pointsMatch (dtLayer c T.composePoint) c.weights [(name, g)] [(name, some pts)]
      (freshState name gpts.length dense pts.length) =
      .ok (ms, { pt2pt := (List.range pts.length).filterMap (cand c T.composePoint g pts), potential := pts.length }) := by
    simp [pointsMatch, foldOutcome, globalLayerStep, hc.noTable, localLayersFor, localLayerStep, AMap.get, hl, Outcome.bind]
  simp only [runMatchers, simpleIcp, runMatchersLoop, Matcher.run, PtMatcher.toMatcher, PtMatcher.base, PtMatcher.layer, hpm]
  simp [Outcome.bind, Pairings.pushBackCopy]

/-- If the boxes are apart, nothing is paired. -/
theorem simple_match_apart {c : DTCfg K} {s : Solver K (Pose3 K)} {mr : K} {name : String} {g : GLayer K} {gpts pts : List (P3 K)}
    {dense : Bool} (hg : ServesPoints g gpts) (hc : PlainMatcher c pts.length) (hne : pts ≠ []) (it : Nat) (T : Pose3 K)
    (hb : ¬ g.boxesMeet (pts.map T.composePoint) (c.thr + c.eps) = true) :
    runMatchers (simpleIcp c s mr name g gpts.length dense pts).matchers it T
        (simpleIcp c s mr name g gpts.length dense pts).freshMS =
      .ok (freshState name gpts.length dense pts.length, { potential := pts.length }) := by
  have hl : dtLayer c T.composePoint g name name pts (freshState name gpts.length dense pts.length) {} =
      .ok (freshState name gpts.length dense pts.length, { potential := pts.length }) := by
    have htl : transformLocal c.toPtsCfg T.composePoint pts = .ok ⟨none, pts.map T.composePoint⟩ := by
      simp [transformLocal, hc.all]
    have hemp : pts.isEmpty = false := by simpa using hne
    unfold dtLayer layerFrame
    simp only [hc.ppp, hc.thr, ge_iff_le, le_refl, gt_iff_lt, hc.angDeg, hg.capable, Outcome.bind_def, Outcome.assert, if_true,
      Outcome.bind, hg.nonempty, hemp, Bool.or_self, Bool.false_eq_true, if_false, htl, mul_one, Nat.zero_add, hb]
  have hpm : pointsMatch (dtLayer c T.composePoint) c.weights [(name, g)] [(name, some pts)]
      (freshState name gpts.length dense pts.length) =
      .ok (freshState name gpts.length dense pts.length, { potential := pts.length }) := by
    simp [pointsMatch, foldOutcome, globalLayerStep, hc.noTable, localLayersFor, localLayerStep, AMap.get, hl, Outcome.bind]
  simp only [runMatchers, simpleIcp, runMatchersLoop, Matcher.run, PtMatcher.toMatcher, PtMatcher.base, PtMatcher.layer, hpm]
  simp [Outcome.bind, Pairings.pushBackCopy]

/-! ### the Horn solver -/

/-- The walk in the plain case never fails. -/
theorem plain_loop_total {c : VisitCfg K} (hk : c.wp.kernel = .none) (hs : c.wp.useScaleOutlier = false)
    (hw : 0 < c.waPoints) (n : Nat) (ps : List (PtPair K)) :
    ∀ (s : VisitState K) (i : Nat), s.blocks = [(n, 1)] → s.start = 0 → s.outl = [] → i + ps.length ≤ n →
      ∃ s', visitLoop c s i (ps.map .pt) = .ok s' ∧ s'.newOutl = s.newOutl := by
  induction ps with
  | nil => intro s i _ _ _ _; exact ⟨s, rfl, rfl⟩
  | cons q ps ih =>
    intro s i hb hst ho hlen
    simp only [List.length_cons] at hlen
    have hblk : blockStep i s.blocks s.start = .ok (s.blocks, s.start, 1) := by
      rw [hb, hst]; simp only [blockStep]; rw [if_neg (by omega)]
    have hstep : ∃ s1, visitStep c s i (.pt q) = .ok s1 ∧ s1.blocks = s.blocks ∧ s1.start = s.start ∧ s1.outl = s.outl ∧
        s1.newOutl = s.newOutl := by
      unfold visitStep
      rw [ho]
      simp only [List.head?_nil, reduceCtorEq, if_false, hblk, Outcome.bind_def, Outcome.bind]
      split
      · exact ⟨_, rfl, rfl, rfl, by simp [ho], rfl⟩
      · rw [if_neg (by rw [hs]; simp)]
        simp only [mul_one]
        unfold visitPair robustWeight
        rw [hk]
        simp [createRobustKernel, Outcome.assert, hw, ho]
    obtain ⟨s1, h1, a1, a2, a3, a4⟩ := hstep
    obtain ⟨s', h2, h3⟩ := ih s1 (i + 1) (by rw [a1, hb]) (by rw [a2, hst]) (by rw [a3, ho]) (by omega)
    exact ⟨s', by simp only [List.map_cons, visitLoop, h1, Outcome.bind]; exact h2, by rw [h3, a4]⟩

/-- The Horn solver on point pairs only, default weights: a result for three pairs or more. -/
theorem horn_total {e : HornEnv K} {wp : WeightParams K} (hw : PlainSolver wp) (ps : List (PtPair K)) (n : Nat)
    (h3 : 3 ≤ ps.length) : ∃ r, optimalTfHorn e { pt2pt := ps, potential := n } wp = .ok (some r) := by
  have hcen := centroids_ok { pt2pt := ps, potential := n } {} (by simp) (by simp) (by simp; omega)
  simp only [inliers_nil] at hcen
  have hwa : 0 < (visitCfg { pt2pt := ps, potential := n } wp (mean (ps.map (·.local))) (mean (ps.map (·.global))) false
      e.norm e.eps).waPoints := by
    have := hw.wPt
    have hnk : (0 : K) < ps.length := by exact_mod_cast (by omega : 0 < ps.length)
    simp only [visitCfg, List.length_nil, Nat.cast_zero, mul_zero, add_zero]
    positivity
  obtain ⟨s', h1, h2⟩ := plain_loop_total (c := visitCfg { pt2pt := ps, potential := n } wp (mean (ps.map (·.local)))
    (mean (ps.map (·.global))) false e.norm e.eps) hw.noKernel hw.noScale hwa ps.length ps
    ⟨[(ps.length, 1)], 0, [], [], [], 0⟩ 0 rfl rfl rfl (by omega)
  have hv : visitCorrespondences { pt2pt := ps, potential := n } wp (mean (ps.map (·.local))) (mean (ps.map (·.global))) []
      false e.norm e.eps = .ok ⟨s'.visited, s'.wSum, s'.newOutl⟩ := by
    unfold visitCorrespondences
    have hw : 0 < wp.pairWeights.pt2pt + wp.pairWeights.ln2ln + wp.pairWeights.pl2pl := by
      have := hw.wPt; have := hw.wLn; have := hw.wPl; linarith
    have hc : corrs ({ pt2pt := ps, potential := n } : Pairings K) = ps.map .pt := by simp [corrs]
    simp only [hc, List.isEmpty_nil, if_true, Outcome.bind_def, List.length_nil,
      Outcome.assert, hw, Outcome.bind, h1, Outcome.pure_def]
  unfold optimalTfHorn
  have h1' := hw.wPt.le
  simp only [Outcome.assert, h1', hw.wLn, hw.wPl, if_true, Outcome.bind_def, Outcome.bind, hcen, se3L2Internal, List.length_nil,
    Nat.add_zero, if_neg (show ¬ ps.length < 3 by omega), hv, hw.noScale, Outcome.pure_def, Bool.false_eq_true, false_and,
    if_false]
  exact ⟨_, rfl⟩

/-- Fewer than three pairs: no result. -/
theorem horn_too_few {e : HornEnv K} {wp : WeightParams K} (hw : PlainSolver wp) (ps : List (PtPair K)) (n : Nat)
    (h1 : 0 < ps.length) (h3 : ps.length < 3) : optimalTfHorn e { pt2pt := ps, potential := n } wp = .ok none := by
  have hcen := centroids_ok { pt2pt := ps, potential := n } {} (by simp) (by simp) (by simpa using h1)
  have h1' := hw.wPt.le
  unfold optimalTfHorn
  simp only [Outcome.assert, h1', hw.wLn, hw.wPl, if_true, Outcome.bind_def, Outcome.bind, hcen, se3L2Internal, List.length_nil,
    Nat.add_zero, if_pos h3, Outcome.pure_def]

/-- `run_solvers` of the simple pipeline. -/
theorem simple_solve {c : DTCfg K} {e : HornEnv K} {nearOne : P3 K → Bool} {ratio : K} {wp : WeightParams K} {mr : K}
    {name : String} {g : GLayer K} {ng : Nat} {dense : Bool} {pts : List (P3 K)} (tnorm : Pose3 K → K)
    (ps : List (PtPair K)) (n : Nat) (out : Sol K (Pose3 K)) (sc : SolverCtx (Pose3 K)) (fin : List Nat)
    {r : Option (TFResult K)} (h : optimalTfHorn e { pt2pt := ps, potential := n } wp = .ok r) :
    runSolvers tnorm (simpleIcp c (hornAsSolver e nearOne ratio wp) mr name g ng dense pts).solvers
      { pt2pt := ps, potential := n } out sc fin = .ok ((hornAnswer r).1, (hornAnswer r).2, fin) := by
  have hwin : (hornAsSolver e nearOne ratio wp).outsideWindow sc = false := by
    unfold Solver.outsideWindow
    cases sc.iter <;> simp [hornAsSolver]
  have hs : solverHorn e nearOne ratio wp { pt2pt := ps, potential := n } sc.guess = .ok r := by
    simp [solverHorn, h]
  simp only [simpleIcp, runSolvers, Solver.optimalPose, hwin]
  simp only [hornAsSolver, Bool.not_true, Bool.false_eq_true, if_false, gt_iff_lt, lt_irrefl, false_and, hs, Outcome.bind]
  cases r <;> simp [hornAnswer]

/-! ### one iteration near the true pose -/

theorem matched_length {pts : List (P3 K)} {T : Pose3 K} {prs : Pairings K} (h : AllMatched pts T prs) :
    prs.pt2pt.length = pts.length := by
  have := congrArg List.length h.pairs
  simpa using this

theorem matched_size {pts : List (P3 K)} {T : Pose3 K} {prs : Pairings K} (h : AllMatched pts T prs) :
    prs.size = pts.length := by
  rw [h.rest]; simp [Pairings.size, (matched_length h)]

theorem matched_locals {pts : List (P3 K)} {T : Pose3 K} {prs : Pairings K} (h : AllMatched pts T prs) :
    prs.pt2pt.map (·.local) = pts ∧ prs.pt2pt.map (·.global) = pts.map T.composePoint := by
  have h1 := congrArg (List.map fun x : Nat × P3 K × P3 K => x.2.1) h.pairs
  have h2 := congrArg (List.map fun x : Nat × P3 K × P3 K => x.2.2) h.pairs
  simp only [List.map_map, Function.comp_def] at h1 h2
  refine ⟨by rw [h1]; exact List.zipIdx_map_fst _ _, ?_⟩
  rw [h2]
  have : (fun x : P3 K × Nat => T.composePoint x.1) = T.composePoint ∘ Prod.fst := rfl
  rw [this, ← List.map_map, List.zipIdx_map_fst]

theorem cand_close {c : DTCfg K} {g : GLayer K} {gpts pts : List (P3 K)} {T T0 : Pose3 K} (hg : ServesPoints g gpts)
    (hc : PlainMatcher c pts.length) (hin : ∀ p ∈ pts, T.composePoint p ∈ gpts) (hcl : CloseEnough pts gpts c.thr T T0)
    {i : Nat} (hi : i < pts.length) :
    ∃ idx d2, cand c T0.composePoint g pts i = some ⟨idx, i, T.composePoint pts[i], pts[i], d2⟩ ∧
      gpts[idx]? = some (T.composePoint pts[i]) := by
  have hmem : pts[i] ∈ pts := List.getElem_mem hi
  obtain ⟨nb, h1, h2, h3, h4⟩ := hg.nearest (T0.composePoint pts[i])
  have hpt : nb.pt = T.composePoint pts[i] := by
    by_contra hne
    have := hcl.nearest _ hmem nb.pt (List.mem_of_getElem? h2) hne
    exact absurd (h4 _ (hin _ hmem)) (not_le.mpr this)
  have hlim : nb.d2 < dtLimit c (T0.composePoint pts[i]) := by
    rw [h3, hpt]
    have h5 := hcl.within _ hmem
    have h6 := hc.angSq
    have key : ∀ v : P3 K, c.thr * c.thr ≤ dtLimit c v := by
      intro v
      unfold dtLimit
      have : 0 ≤ c.angSq * (v.x * v.x + v.y * v.y + v.z * v.z) :=
        mul_nonneg h6 (by linarith [mul_self_nonneg v.x, mul_self_nonneg v.y, mul_self_nonneg v.z])
      linarith
    exact lt_of_lt_of_le h5 (key _)
  refine ⟨nb.idx, nb.d2, ?_, by rw [h2, hpt]⟩
  simp [cand, List.getElem?_eq_getElem hi, h1, hlim, hpt]

theorem rotation_inj {T : Pose3 K} (hT : IsRotation T.R) {p q : P3 K} (h : T.composePoint p = T.composePoint q) : p = q := by
  have h1 : T.R.mulVec p = T.R.mulVec q := by
    simp only [Pose3.composePoint, P3.ext_iff, P3.add_x, P3.add_y, P3.add_z, add_left_inj] at h
    ext
    · exact h.1
    · exact h.2.1
    · exact h.2.2
  have key : ∀ v, T.R.transpose.mulVec (T.R.mulVec v) = v := by
    intro v
    have := hT.1
    rw [M3.ext_iff] at this
    simp only [M3.mul, M3.transpose, M3.one] at this
    obtain ⟨a1, a2, a3, a4, a5, a6, a7, a8, a9⟩ := this
    ext <;> simp only [M3.mulVec, M3.transpose]
    · linear_combination v.x * a1 + v.y * a2 + v.z * a3
    · linear_combination v.x * a4 + v.y * a5 + v.z * a6
    · linear_combination v.x * a7 + v.y * a8 + v.z * a9
  rw [← key p, ← key q, h1]

/-- The matchers find the true pairings from any pose close enough. -/
theorem match_close {c : DTCfg K} {s : Solver K (Pose3 K)} {mr : K} {name : String} {g : GLayer K} {gpts pts : List (P3 K)}
    {dense : Bool} {T T0 : Pose3 K} (hg : ServesPoints g gpts) (hc : PlainMatcher c pts.length) (hne : pts ≠ [])
    (hnd : pts.Nodup) (hT : IsRotation T.R) (hin : ∀ p ∈ pts, T.composePoint p ∈ gpts)
    (hcl : CloseEnough pts gpts c.thr T T0) (it : Nat) :
    ∃ ms prs, runMatchers (simpleIcp c s mr name g gpts.length dense pts).matchers it T0
        (simpleIcp c s mr name g gpts.length dense pts).freshMS = .ok (ms, prs) ∧ AllMatched pts T prs := by
  have hinj : ∀ i j q r, cand c T0.composePoint g pts i = some q → cand c T0.composePoint g pts j = some r →
      q.globalIdx = r.globalIdx → i = j := by
    intro i j q r h1 h2 h3
    have hi : i < pts.length := by
      by_contra hh
      simp [cand, List.getElem?_eq_none (not_lt.mp hh)] at h1
    have hj : j < pts.length := by
      by_contra hh
      simp [cand, List.getElem?_eq_none (not_lt.mp hh)] at h2
    obtain ⟨x, d, e1, e2⟩ := cand_close hg hc hin hcl hi
    obtain ⟨y, d', f1, f2⟩ := cand_close hg hc hin hcl hj
    rw [h1] at e1; rw [h2] at f1
    cases e1; cases f1
    simp only at h3
    subst h3
    rw [e2] at f2
    exact (List.Nodup.getElem_inj_iff hnd).mp (rotation_inj hT (Option.some.inj f2))
  have hbox : g.boxesMeet (pts.map T0.composePoint) (c.thr + c.eps) = true := by
    obtain ⟨p, hp⟩ := List.exists_mem_of_ne_nil _ hne
    refine hg.boxes _ _ ⟨_, List.mem_map.mpr ⟨p, hp, rfl⟩, _, hin p hp, ?_, ?_⟩
    · linarith [hc.thr, hc.eps]
    · have := hcl.within p hp
      have h2 : c.thr * c.thr ≤ (c.thr + c.eps) * (c.thr + c.eps) :=
        mul_self_le_mul_self hc.thr.le (by linarith [hc.eps])
      linarith
  obtain ⟨ms, hm⟩ := simple_match (s := s) (mr := mr) (name := name) (dense := dense) hg hc hne it T0 (Or.inr hinj) (Or.inl hbox)
  refine ⟨ms, _, hm, ?_, rfl⟩
  have hall : ∀ i : Fin pts.length, ∃ q, cand c T0.composePoint g pts i = some q ∧
      (q.localIdx, q.local, q.global) = (i.1, pts[i], T.composePoint pts[i]) := by
    intro i
    obtain ⟨x, d, e1, -⟩ := cand_close hg hc hin hcl i.2
    exact ⟨_, e1, rfl⟩
  simp only [List.map_filterMap]
  have : (List.range pts.length).filterMap (fun i => Option.map (fun q : PtPair K => (q.localIdx, q.local, q.global))
      (cand c T0.composePoint g pts i)) = (List.range pts.length).filterMap (fun i => (pts[i]?).map fun p =>
        (i, p, T.composePoint p)) := by
    apply List.filterMap_congr
    intro i hi
    have hi := List.mem_range.mp hi
    obtain ⟨q, h1, h2⟩ := hall ⟨i, hi⟩
    rw [h1, List.getElem?_eq_getElem hi]
    simpa using h2
  rw [this]
  apply List.ext_getElem?
  intro k
  by_cases hk : k < pts.length
  · have e : (List.range pts.length).filterMap (fun i => (pts[i]?).map fun p => (i, p, T.composePoint p)) =
        (List.range pts.length).map (fun i => (i, pts.getD i 0, T.composePoint (pts.getD i 0))) := by
      rw [← List.filterMap_eq_map]
      apply List.filterMap_congr
      intro i hi
      have hi := List.mem_range.mp hi
      simp [List.getElem?_eq_getElem hi]
    rw [e]
    simp [List.getElem?_range, hk]
  · have e : ((List.range pts.length).filterMap (fun i => (pts[i]?).map fun p => (i, p, T.composePoint p))).length ≤ k :=
      le_trans (List.length_filterMap_le _ _) (by simpa using hk)
    rw [List.getElem?_eq_none e, List.getElem?_eq_none (by simpa using hk)]

theorem norm_rot {norm : P3 K → K} (hn : IsNorm norm) {R : M3 K} (hR : IsRotation R) (v : P3 K) :
    norm (R.mulVec v) = norm v := by
  have h1 := hn (R.mulVec v)
  have h2 := hn v
  have h3 : (R.mulVec v).normSq = v.normSq := by
    have := hR.1
    rw [M3.ext_iff] at this
    simp only [M3.mul, M3.transpose, M3.one] at this
    obtain ⟨a1, a2, a3, a4, a5, a6, a7, a8, a9⟩ := this
    simp only [P3.normSq, P3.dot, M3.mulVec]
    linear_combination v.x * v.x * a1 + v.x * v.y * a2 + v.x * v.z * a3 + v.y * v.x * a4 + v.y * v.y * a5 + v.y * v.z * a6 +
      v.z * v.x * a7 + v.z * v.y * a8 + v.z * v.z * a9
  have h4 : norm (R.mulVec v) * norm (R.mulVec v) = norm v * norm v := by rw [h1.2, h2.2, h3]
  exact (mul_self_inj h1.1 h2.1).mp h4

theorem paired_length {pts : List (P3 K)} {T : Pose3 K} {prs : Pairings K} (h : PairedWith pts T prs) : prs.pt2pt.length = pts.length := by
  have := congrArg List.length h.pairs
  simpa using this

theorem paired_locals {pts : List (P3 K)} {T : Pose3 K} {prs : Pairings K} (h : PairedWith pts T prs) :
    prs.pt2pt.map (·.local) = pts ∧ prs.pt2pt.map (·.global) = pts.map T.composePoint := by
  have h1 := congrArg (List.map Prod.fst) h.pairs
  have h2 := congrArg (List.map Prod.snd) h.pairs
  simp only [List.map_map, Function.comp_def, List.map_id'] at h1 h2
  exact ⟨h1, h2⟩

theorem matched_paired {pts : List (P3 K)} {T : Pose3 K} {prs : Pairings K} (h : AllMatched pts T prs) : PairedWith pts T prs := by
  refine ⟨?_, _, h.rest⟩
  have h1 := congrArg (List.map fun x : Nat × P3 K × P3 K => x.2) h.pairs
  simp only [List.map_map, Function.comp_def] at h1
  rw [h1]
  calc _ = (pts.zipIdx.map Prod.fst).map fun x => (x, T.composePoint x) := by
        rw [List.map_map]; rfl
    _ = _ := by rw [List.zipIdx_map_fst]

/-- The true pairings are noise-free, and two of their vectors are not parallel. -/
theorem paired_data {norm : P3 K → K} {eps : K} {pts : List (P3 K)} {T : Pose3 K} {prs : Pairings K}
    (hn : IsNorm norm) (hne0 : pts ≠ []) (hT : IsRotation T.R) (hsp : Spread norm eps pts)
    (hm : PairedWith pts T prs) : NoiseFree prs T ∧ BlocksCover prs ∧ prs.pt2pt ≠ [] ∧
      TwoDirections prs norm eps (mean (prs.pt2pt.map (·.local))) (mean (prs.pt2pt.map (·.global))) := by
  obtain ⟨hl, hgl⟩ := paired_locals hm
  have hpt : ∀ q ∈ prs.pt2pt, T.composePoint q.local = q.global := by
    intro q hq
    have h1 : (q.local, q.global) ∈ prs.pt2pt.map (fun q => (q.local, q.global)) :=
      List.mem_map.mpr ⟨q, hq, rfl⟩
    rw [hm.pairs] at h1
    obtain ⟨x, -, hx⟩ := List.mem_map.mp h1
    simp only [Prod.mk.injEq] at hx
    rw [← hx.1, ← hx.2]
  obtain ⟨n, hrest⟩ := hm.rest
  have hnf : NoiseFree prs T := by
    refine ⟨hT, hpt, ?_, ?_⟩ <;> · rw [hrest]; simp
  have hbc : BlocksCover prs := by
    refine ⟨?_, ?_⟩ <;> · rw [hrest]; simp
  have hne : prs.pt2pt ≠ [] := by
    intro hh
    have := paired_length hm
    rw [hh] at this
    exact hne0 (List.length_eq_zero_iff.mp this.symm)
  refine ⟨hnf, hbc, hne, ?_⟩
  have hmean := mean_moved hpt hne
  rw [hmean]
  obtain ⟨a, ha, b, hb, ha1, hb1, hab⟩ := hsp
  have hget : ∀ a ∈ pts, ¬ norm (a - mean pts) < eps → ∃ i q, prs.pt2pt[i]? = some q ∧ q.local = a ∧
      ¬ OnCentroid prs (mean (prs.pt2pt.map (·.local))) (T.composePoint (mean (prs.pt2pt.map (·.local)))) norm eps i := by
    intro a ha hna
    rw [← hl] at ha
    obtain ⟨q, hq, rfl⟩ := List.mem_map.mp ha
    obtain ⟨i, hi⟩ := List.mem_iff_getElem?.mp hq
    refine ⟨i, q, hi, rfl, ?_⟩
    rintro ⟨q', hq', h⟩
    rw [hi] at hq'; cases hq'
    have h2 : norm (q.global - T.composePoint (mean (prs.pt2pt.map (·.local)))) = norm (q.local - mean pts) := by
      rw [← hpt q hq, ← norm_rot hn hT (q.local - mean pts), hl]
      congr 1
      rw [mulVec_sub]
      ext <;> simp only [Pose3.composePoint, P3.sub_x, P3.sub_y, P3.sub_z, P3.add_x, P3.add_y, P3.add_z] <;> ring
    rw [h2, hl] at h
    rcases h with h | h <;> exact hna h
  obtain ⟨i, q, hi, rfl, hi2⟩ := hget a ha ha1
  obtain ⟨j, q', hj, rfl, hj2⟩ := hget b hb hb1
  refine ⟨i, j, _, _, _, _, Or.inl ⟨q, hi, rfl, rfl⟩, Or.inl ⟨q', hj, rfl, rfl⟩, hi2, hj2, ?_⟩
  rw [hl]; exact hab

/-- The same for all points matched. -/
theorem matched_data {norm : P3 K → K} {eps : K} {pts : List (P3 K)} {T : Pose3 K} {prs : Pairings K}
    (hn : IsNorm norm) (hne0 : pts ≠ []) (hT : IsRotation T.R) (hsp : Spread norm eps pts)
    (hm : AllMatched pts T prs) : NoiseFree prs T ∧ BlocksCover prs ∧ prs.pt2pt ≠ [] ∧
      TwoDirections prs norm eps (mean (prs.pt2pt.map (·.local))) (mean (prs.pt2pt.map (·.global))) :=
  paired_data hn hne0 hT hsp (matched_paired hm)

/-- The solver, given the true pairings, finds the true pose. -/
theorem paired_solve {e : HornEnv K} {wp : WeightParams K} {pts : List (P3 K)} {T : Pose3 K} {prs : Pairings K}
    (heig : ∀ N, IsTopEigen N (e.eig N)) (hn : IsNorm e.norm) (he : 0 < e.eps) (hw : PlainSolver wp) (h3 : 3 ≤ pts.length)
    (hT : IsRotation T.R) (hsp : Spread e.norm e.eps pts) (hm : PairedWith pts T prs) :
    ∃ r, optimalTfHorn e prs wp = .ok (some r) ∧ r.pose = T := by
  obtain ⟨n, hrest⟩ := hm.rest
  obtain ⟨r, hr⟩ := horn_total (e := e) hw prs.pt2pt n (by rw [paired_length hm]; exact h3)
  rw [← hrest] at hr
  obtain ⟨h1, h2, -, h4⟩ := paired_data hn (List.length_pos_iff.mp (by omega)) hT hsp hm
  exact ⟨r, hr, (horn_exact heig hn he h1 h2 (by rw [hw.noScale]; simp) h4 hr).1⟩

/-- The solver, given the true pairings, finds the true pose. -/
theorem solve_close {e : HornEnv K} {wp : WeightParams K} {pts : List (P3 K)} {T : Pose3 K} {prs : Pairings K}
    (heig : ∀ N, IsTopEigen N (e.eig N)) (hn : IsNorm e.norm) (he : 0 < e.eps) (hw : PlainSolver wp) (h3 : 3 ≤ pts.length)
    (hT : IsRotation T.R) (hsp : Spread e.norm e.eps pts) (hm : AllMatched pts T prs) :
    ∃ r, optimalTfHorn e prs wp = .ok (some r) ∧ r.pose = T :=
  paired_solve heig hn he hw h3 hT hsp (matched_paired hm)

/-- The OLAE solver on point pairs only, default weights, always has a result. -/
theorem olae_total {e : OlaeEnv K} {wp : WeightParams K} (hw : PlainSolver wp) (ps : List (PtPair K)) (n : Nat)
    (h1 : 0 < ps.length) : ∃ r, optimalTfOlae e { pt2pt := ps, potential := n } wp = .ok r := by
  have hcen := centroids_ok { pt2pt := ps, potential := n } {} (by simp) (by simp) (by simpa using h1)
  simp only [inliers_nil] at hcen
  have hwa : 0 < (visitCfg { pt2pt := ps, potential := n } wp (mean (ps.map (·.local))) (mean (ps.map (·.global))) true
      e.norm e.eps).waPoints := by
    have := hw.wPt
    have hnk : (0 : K) < ps.length := by exact_mod_cast h1
    simp only [visitCfg, List.length_nil, Nat.cast_zero, mul_zero, add_zero]
    positivity
  obtain ⟨s', h1, h2⟩ := plain_loop_total (c := visitCfg { pt2pt := ps, potential := n } wp (mean (ps.map (·.local)))
    (mean (ps.map (·.global))) true e.norm e.eps) hw.noKernel hw.noScale hwa ps.length ps
    ⟨[(ps.length, 1)], 0, [], [], [], 0⟩ 0 rfl rfl rfl (by omega)
  have hv : visitCorrespondences { pt2pt := ps, potential := n } wp (mean (ps.map (·.local))) (mean (ps.map (·.global))) []
      true e.norm e.eps = .ok ⟨s'.visited, s'.wSum, s'.newOutl⟩ := by
    unfold visitCorrespondences
    have hw : 0 < wp.pairWeights.pt2pt + wp.pairWeights.ln2ln + wp.pairWeights.pl2pl := by
      have := hw.wPt; have := hw.wLn; have := hw.wPl; linarith
    have hc : corrs ({ pt2pt := ps, potential := n } : Pairings K) = ps.map .pt := by simp [corrs]
    simp only [hc, List.isEmpty_nil, if_true, Outcome.bind_def, List.length_nil,
      Outcome.assert, hw, Outcome.bind, h1, Outcome.pure_def]
  simp only at h2
  unfold optimalTfOlae olaeBuild
  have h1' := hw.wPt.le
  simp only [Outcome.assert, h1', hw.wLn, hw.wPl, if_true, Outcome.bind_def, Outcome.bind, hcen, hv, Outcome.pure_def, h2, ne_eq,
    not_true_eq_false, if_false]
  exact ⟨_, rfl⟩

/-- `run_solvers` with the OLAE solver alone. -/
theorem olae_solve {e : OlaeEnv K} {nearOne : P3 K → Bool} {ratio : K} {wp : WeightParams K} (tnorm : Pose3 K → K)
    (ps : List (PtPair K)) (n : Nat) (out : Sol K (Pose3 K)) (sc : SolverCtx (Pose3 K)) (fin : List Nat)
    {r : TFResult K} (h : optimalTfOlae e { pt2pt := ps, potential := n } wp = .ok r) :
    runSolvers tnorm [olaeAsSolver e nearOne ratio wp] { pt2pt := ps, potential := n } out sc fin =
      .ok (true, ⟨r.pose, 1⟩, fin) := by
  have hwin : (olaeAsSolver e nearOne ratio wp).outsideWindow sc = false := by
    unfold Solver.outsideWindow
    cases sc.iter <;> simp [olaeAsSolver]
  have hs : solverOlae e nearOne ratio wp { pt2pt := ps, potential := n } sc.guess = .ok r := by
    simp [solverOlae, h]
  simp only [runSolvers, Solver.optimalPose, hwin]
  simp only [olaeAsSolver, Bool.not_true, Bool.false_eq_true, if_false, gt_iff_lt, lt_irrefl, false_and, hs, Outcome.bind]
  simp

/-- The OLAE solver finds the true motion from the true pairings. -/
theorem olae_solves {e : OlaeEnv K} {nearOne : P3 K → Bool} {ratio : K} {wp : WeightParams K} {tnorm : Pose3 K → K}
    {pts : List (P3 K)} {T : Pose3 K} (hne : pts ≠ []) (hT : IsRotation T.R) (ho : OlaeExact e wp pts T) :
    SolvesExactly (olaeAsSolver e nearOne ratio wp) tnorm pts T := by
  intro prs hm out sc fin
  obtain ⟨h1, h2, h3, h4⟩ := matched_data ho.norm hne hT ho.spread hm
  obtain ⟨r, hr⟩ := olae_total (e := e) ho.solver prs.pt2pt pts.length (List.length_pos_iff.mpr h3)
  have hsolve := olae_solve (nearOne := nearOne) (ratio := ratio) tnorm prs.pt2pt pts.length out sc fin hr
  rw [← hm.rest] at hsolve hr
  have hU : UnitDirections prs := by
    refine ⟨?_, ?_⟩ <;> · rw [hm.rest]; simp
  rw [hsolve, (olae_exact ho.sqrt ho.solve ho.norm ho.epsPos h1 h2 hU ho.axis (by rw [ho.solver.noScale]; simp) h4 hr).1]

theorem full_quality {c : DTCfg K} {s : Solver K (Pose3 K)} {mr : K} {name : String} {g : GLayer K} {ng : Nat}
    {pts : List (P3 K)} {dense : Bool} {T : Pose3 K} {prs : Pairings K} (h3 : 0 < pts.length) (hr : mr ≤ 1)
    (hm : AllMatched pts T prs) (it : Nat) (fin : Bool) (pose : Pose3 K) :
    evaluateQuality (simpleIcp c s mr name g ng dense pts).quality it fin pose prs = .ok 1 := by
  have hp : prs.potential = pts.length := by rw [hm.rest]
  have hnk : (pts.length : K) ≠ 0 := by
    have : (0 : K) < pts.length := by exact_mod_cast h3
    exact ne_of_gt this
  have hq : pairedRatio mr prs = (1, false) := by
    have h0 : pts.length ≠ 0 := by omega
    simp [pairedRatio, hp, (matched_size hm), h0, not_lt.mpr hr]
  simp [evaluateQuality, evaluateQualityLoop, simpleIcp, pairedRatioEval, hq, Outcome.assert, Outcome.bind]

/-- One iteration from a pose close enough. -/
theorem body_close {ops : PoseOps K (Pose3 K)} {sv : Solver K (Pose3 K)} {c : DTCfg K} {mr : K} {name : String} {g : GLayer K} {gpts pts : List (P3 K)} {dense : Bool} {T : Pose3 K}
    {p : IcpParams K} (hs : RegSetting ops c mr g gpts pts T p)
    (init : Pose3 K) (s : LoopState K (Pose3 K))
    (hsv : SolvesFrom sv ops.tnorm pts T s.sol.pose)
    (hcl : CloseEnough pts gpts c.thr T s.sol.pose) (hlog : p.saveIterationDetails = true → s.log.isSome = true) :
    ∃ s' brk, icpBody ops (simpleIcp c sv mr name g gpts.length dense pts) p init s =
        .ok (s', brk) ∧
      s'.n = s.n ∧ s'.sol = ⟨T, 1⟩ ∧ AllMatched pts T s'.pairings ∧ s'.log.isSome = s.log.isSome ∧
      (∃ ev, s'.trace = s.trace ++ [ev] ∧ AllMatched pts T ev.pairings) ∧
      ((isStalled p (stepNorms ops T s.prev s.prev2) = true ∧ brk = some .stalled) ∨
       (isStalled p (stepNorms ops T s.prev s.prev2) = false ∧ brk = none ∧ s'.prev = T ∧ s'.prev2 = some s.prev)) := by
  have hne : pts ≠ [] := hs.nonempty
  have hlen : 0 < pts.length := List.length_pos_iff.mpr hne
  obtain ⟨ms, prs, hm1, hm2⟩ := match_close (s := sv) (mr := mr) (name := name) (dense := dense)
    hs.serves hs.matcher hne hs.distinct hs.rot hs.there hcl s.n
  have hsolve : ∀ out sc fin, sc.guess = some s.sol.pose →
      runSolvers ops.tnorm (simpleIcp c sv mr name g gpts.length dense pts).solvers prs out sc fin = .ok (true, ⟨T, 1⟩, fin) := hsv prs hm2
  have hemp : prs.isEmpty = false := by
    have h1 := (matched_length hm2)
    cases hp : prs.pt2pt with
    | nil => rw [hp] at h1; simp at h1; omega
    | cons a l => simp [Pairings.isEmpty, hp]
  have hck : checkpointFails (simpleIcp c sv mr name g gpts.length dense pts) p s.n T prs =
      .ok false := by
    unfold checkpointFails
    cases hl : p.qualityCheckpoints.lookup s.n with
    | none => rfl
    | some q =>
      have hmem : (s.n, q) ∈ p.qualityCheckpoints := by
        have := List.lookup_eq_some_iff.mp hl
        obtain ⟨l1, l2, h1, -⟩ := this
        rw [h1]; simp
      have := hs.checks _ hmem
      simp only [full_quality hlen hs.ratio hm2, Outcome.bind]
      simpa using this
  have hsave : ∃ log, saveDetails p s.n (isStalled p (stepNorms ops T s.prev s.prev2)) T prs s.log = .ok log ∧
      log.isSome = s.log.isSome := by
    unfold saveDetails
    split
    · rename_i h
      simp only [Bool.and_eq_true] at h
      have := hlog h.1
      cases hh : s.log with
      | none => rw [hh] at this; simp at this
      | some l => exact ⟨_, rfl, rfl⟩
    · exact ⟨_, rfl, rfl⟩
  obtain ⟨log, hlog1, hlog2⟩ := hsave
  have hook : ∀ n prs sol, hookStops (simpleIcp c sv mr name g gpts.length dense pts) n prs sol =
      false := fun _ _ _ => rfl
  unfold icpBody
  simp only [hm1, Outcome.bind, hemp, Bool.false_eq_true, if_false, hsolve, Bool.not_true, hlog1]
  cases hst : isStalled p (stepNorms ops T s.prev s.prev2) with
  | true => exact ⟨_, _, rfl, rfl, rfl, hm2, hlog2, ⟨_, rfl, hm2⟩, Or.inl (by simp)⟩
  | false =>
    simp only [Bool.false_eq_true, if_false, hck, hook]
    exact ⟨_, _, rfl, rfl, rfl, hm2, hlog2, ⟨_, rfl, hm2⟩, Or.inr (by simp)⟩

theorem close_self {pts gpts : List (P3 K)} {thr : K} (ht : 0 < thr) (T : Pose3 K) : CloseEnough pts gpts thr T T := by
  have h0 : ∀ v : P3 K, P3.distSq v v = 0 := by intro v; simp [P3.distSq, P3.normSq, P3.dot]
  refine ⟨fun p _ y _ hy => ?_, fun p _ => ?_⟩
  · rw [h0]
    refine lt_of_le_of_ne (distSq_nonneg _ _) (fun h => hy (distSq_eq_zero h.symm).symm)
  · rw [h0]; exact mul_pos ht ht

theorem stalled_self {ops : PoseOps K (Pose3 K)} (ho : PoseDiffs ops) {p : IcpParams K} (h1 : 0 < p.minAbsStepTrans)
    (h2 : 0 < p.minAbsStepRot) (T : Pose3 K) (q : Option (Pose3 K)) : isStalled p (stepNorms ops T T q) = true := by
  cases q with
  | none => simp [isStalled, stepNorms, ho.refl, absK, h1, h2]
  | some q =>
    have hn := ho.nonneg (ops.sub T q)
    simp [isStalled, stepNorms, ho.refl, absK, h1, h2, keepMin, not_lt.mpr hn.1, not_lt.mpr hn.2]

/-- The whole run. -/
theorem align_exact_from {ops : PoseOps K (Pose3 K)} {sv : Solver K (Pose3 K)} {c : DTCfg K} {mr : K} {name : String} {g : GLayer K} {gpts pts : List (P3 K)} {dense : Bool} {T T0 : Pose3 K}
    {p : IcpParams K} (hs : RegSetting ops c mr g gpts pts T p)
    (hsv0 : SolvesFrom sv ops.tnorm pts T T0) (hsv : SolvesFrom sv ops.tnorm pts T T) (hcl : CloseEnough pts gpts c.thr T T0)
    (wantsLog : Bool) (hlog : LogThere p wantsLog) (hit : 1 ≤ p.maxIterations) :
    ∃ r, align ops (simpleIcp c sv mr name g gpts.length dense pts) p T0 1 wantsLog = .ok r ∧
      r.pose = T ∧ r.scale = 1 ∧ r.quality = 1 ∧ AllMatched pts T r.pairings ∧ r.nIterations ≤ 1 ∧
      (2 ≤ p.maxIterations → r.reason = .stalled) ∧ ∀ ev ∈ r.trace, AllMatched pts T ev.pairings := by
  set env := simpleIcp c sv mr name g gpts.length dense pts with henv
  set s0 : LoopState K (Pose3 K) :=
    { n := 0, sol := ⟨T0, 1⟩, pairings := {}, prev := T0, prev2 := none, lastCorr := none,
      fin := [], log := if wantsLog || p.generateDebugFiles then some [] else none,
      reason := .undefined, trace := [] } with hs0
  have hlog0 : p.saveIterationDetails = true → s0.log.isSome = true := by
    intro h
    rcases hlog h with h | h <;> simp [hs0, h]
  have hloop : ∃ s, icpLoop ops env p T0 p.maxIterations s0 = .ok s ∧ s.sol = ⟨T, 1⟩ ∧ AllMatched pts T s.pairings ∧
      s.n ≤ 1 ∧ (2 ≤ p.maxIterations → s.reason = .stalled) ∧ ∀ ev ∈ s.trace, AllMatched pts T ev.pairings := by
    obtain ⟨m, hm⟩ : ∃ m, p.maxIterations = m + 1 := ⟨p.maxIterations - 1, by omega⟩
    obtain ⟨s1, b1, h1, n1, o1, a1, l1, ⟨v1, t1, w1⟩, c1⟩ := body_close (name := name) (dense := dense)
      hs T0 s0 hsv0 hcl hlog0
    rw [hm]
    simp only [icpLoop, henv, h1, Outcome.bind]
    rcases c1 with ⟨-, rfl⟩ | ⟨-, rfl, p1, q1⟩
    · exact ⟨_, rfl, o1, a1, (by show s1.n ≤ 1; rw [n1]; simp [hs0]),
        fun _ => rfl, by simp only [t1]; simpa [hs0] using w1⟩
    · cases m with
      | zero => exact ⟨_, rfl, o1, a1, by simp [hs0], fun h => by omega, by simp only [t1]; simpa [hs0] using w1⟩
      | succ m =>
        obtain ⟨s2, b2, h2, n2, o2, a2, l2, ⟨v2, t2, w2⟩, c2⟩ := body_close (name := name)
          (dense := dense) hs T0 { s1 with n := s0.n + 1 } (by simp only [o1]; exact hsv) (by simp only [o1]; exact close_self hs.matcher.thr T)
          (fun h => by simp only [l1]; exact hlog0 h)
        simp only [icpLoop, h2, Outcome.bind]
        simp only [p1, stalled_self hs.ops hs.stepT hs.stepR] at c2
        rcases c2 with ⟨-, rfl⟩ | ⟨h, -⟩
        · exact ⟨_, rfl, o2, a2, by simp only [n2]; simp [hs0], fun _ => rfl,
            by simp only [t2, t1]; simpa [hs0] using ⟨w1, w2⟩⟩
        · cases h
  obtain ⟨s, h1, h2, h3, h4, h5, h6⟩ := hloop
  have hq := full_quality (c := c) (s := sv) (name := name) (g := g) (ng := gpts.length)
    (dense := dense) (List.length_pos_iff.mpr hs.nonempty) hs.ratio h3 s.n true s.sol.pose
  rw [← henv] at hq
  refine ⟨⟨s.n, if s.n ≥ p.maxIterations then .maxIterations else s.reason, s.sol.pose, s.sol.scale, s.pairings, 1, s.log,
    s.trace⟩, ?_, by simp [h2],
    by simp [h2], rfl, h3, h4, ?_, h6⟩
  · unfold align
    have e1 : env.matchers ≠ [] ∧ env.solvers ≠ [] ∧ env.quality ≠ [] := by simp [henv, simpleIcp]
    have e2 : env.globalEmpty = false ∧ env.localEmpty = false := ⟨rfl, rfl⟩
    have e3 : decide (p.maxIterations > 0) = true := by simp; omega
    simp only [Outcome.assert, e1, e2, if_true, Outcome.bind_def, Outcome.bind, ne_eq, not_false_eq_true, and_self, ← hs0, h1, hq,
      e3, Bool.or_true, Bool.not_true, Bool.and_false, Bool.false_eq_true, if_false, Outcome.pure_def]
  · intro h
    simp only [if_neg (show ¬ s.n ≥ p.maxIterations by omega)]
    exact h5 h

/-- The whole run, with a solver that does not need a good guess. -/
theorem align_exact {ops : PoseOps K (Pose3 K)} {sv : Solver K (Pose3 K)} {c : DTCfg K} {mr : K} {name : String} {g : GLayer K} {gpts pts : List (P3 K)} {dense : Bool} {T T0 : Pose3 K}
    {p : IcpParams K} (hs : RegSetting ops c mr g gpts pts T p)
    (hsv : SolvesExactly sv ops.tnorm pts T) (hcl : CloseEnough pts gpts c.thr T T0)
    (wantsLog : Bool) (hlog : LogThere p wantsLog) (hit : 1 ≤ p.maxIterations) :
    ∃ r, align ops (simpleIcp c sv mr name g gpts.length dense pts) p T0 1 wantsLog = .ok r ∧
      r.pose = T ∧ r.scale = 1 ∧ r.quality = 1 ∧ AllMatched pts T r.pairings ∧ r.nIterations ≤ 1 ∧
      (2 ≤ p.maxIterations → r.reason = .stalled) ∧ ∀ ev ∈ r.trace, AllMatched pts T ev.pairings :=
  align_exact_from hs (fun prs h out sc fin _ => hsv prs h out sc fin) (fun prs h out sc fin _ => hsv prs h out sc fin) hcl wantsLog hlog hit

/-- The Horn solver finds the true motion from the true pairings. -/
theorem horn_solves {e : HornEnv K} {nearOne : P3 K → Bool} {ratio : K} {wp : WeightParams K} {tnorm : Pose3 K → K}
    {pts : List (P3 K)} {T : Pose3 K} (heig : ∀ N, IsTopEigen N (e.eig N)) (hn : IsNorm e.norm) (he : 0 < e.eps)
    (hw : PlainSolver wp) (h3 : 3 ≤ pts.length) (hT : IsRotation T.R) (hsp : Spread e.norm e.eps pts) :
    SolvesExactly (hornAsSolver e nearOne ratio wp) tnorm pts T := by
  intro prs hm out sc fin
  obtain ⟨r, hr, hpose⟩ := solve_close heig hn he hw h3 hT hsp hm
  have hsolve := simple_solve (K := K) (c := { thr := 0, angDeg := 0, angSq := 0, eps := 0 }) (nearOne := nearOne)
    (ratio := ratio) (mr := 0) (name := "") (g := { nnSingle := fun _ => none })
    (ng := 0) (dense := true) (pts := pts) tnorm prs.pt2pt pts.length out sc fin (by rw [← hm.rest]; exact hr)
  rw [← hm.rest] at hsolve
  simpa [hornAnswer, hpose, simpleIcp] using hsolve

/-- The same with the points that have their place in the map. -/
theorem horn_solves_paired {e : HornEnv K} {nearOne : P3 K → Bool} {ratio : K} {wp : WeightParams K} {tnorm : Pose3 K → K}
    {pts : List (P3 K)} {T : Pose3 K} (heig : ∀ N, IsTopEigen N (e.eig N)) (hn : IsNorm e.norm) (he : 0 < e.eps)
    (hw : PlainSolver wp) (h3 : 3 ≤ pts.length) (hT : IsRotation T.R) (hsp : Spread e.norm e.eps pts) {prs : Pairings K}
    (hm : PairedWith pts T prs) (out : Sol K (Pose3 K)) (sc : SolverCtx (Pose3 K)) (fin : List Nat) :
    runSolvers tnorm [hornAsSolver e nearOne ratio wp] prs out sc fin = .ok (true, ⟨T, 1⟩, fin) := by
  obtain ⟨r, hr, hpose⟩ := paired_solve heig hn he hw h3 hT hsp hm
  obtain ⟨n, hrest⟩ := hm.rest
  have hsolve := simple_solve (K := K) (c := { thr := 0, angDeg := 0, angSq := 0, eps := 0 }) (nearOne := nearOne)
    (ratio := ratio) (mr := 0) (name := "") (g := { nnSingle := fun _ => none })
    (ng := 0) (dense := true) (pts := pts) tnorm prs.pt2pt n out sc fin (by rw [← hrest]; exact hr)
  rw [← hrest] at hsolve
  simpa [hornAnswer, hpose, simpleIcp] using hsolve

/-- The whole run with the Horn solver. -/
theorem align_close {ops : PoseOps K (Pose3 K)} {e : HornEnv K} {nearOne : P3 K → Bool} {ratio : K} {wp : WeightParams K}
    {c : DTCfg K} {mr : K} {name : String} {g : GLayer K} {gpts pts : List (P3 K)} {dense : Bool} {T T0 : Pose3 K}
    {p : IcpParams K} (hs : ExactSetting ops e wp c mr g gpts pts T p) (hcl : CloseEnough pts gpts c.thr T T0)
    (wantsLog : Bool) (hlog : LogThere p wantsLog) (hit : 1 ≤ p.maxIterations) :
    ∃ r, align ops (simpleIcp c (hornAsSolver e nearOne ratio wp) mr name g gpts.length dense pts) p T0 1 wantsLog = .ok r ∧
      r.pose = T ∧ r.scale = 1 ∧ r.quality = 1 ∧ AllMatched pts T r.pairings ∧ r.nIterations ≤ 1 ∧
      (2 ≤ p.maxIterations → r.reason = .stalled) ∧ ∀ ev ∈ r.trace, AllMatched pts T ev.pairings :=
  align_exact ⟨hs.ops, hs.serves, hs.matcher, List.length_pos_iff.mp (by have := hs.enough; omega), hs.distinct, hs.rot,
    hs.there, hs.ratio, hs.checks, hs.stepT, hs.stepR⟩
    (horn_solves hs.eig hs.norm hs.epsPos hs.solver hs.enough hs.rot hs.spread) hcl wantsLog hlog hit

/-- Too few points: the Horn solver fails, and the run ends with the identity. -/
theorem align_few {ops : PoseOps K (Pose3 K)} {e : HornEnv K} {nearOne : P3 K → Bool} {ratio : K} {wp : WeightParams K}
    {c : DTCfg K} {mr : K} {name : String} {g : GLayer K} {gpts pts : List (P3 K)} {dense : Bool} {T T0 : Pose3 K}
    {p : IcpParams K} (hw : PlainSolver wp) (hg : ServesPoints g gpts) (hc : PlainMatcher c pts.length) (hne : pts ≠ [])
    (hfew : pts.length < 3) (hnd : pts.Nodup) (hT : IsRotation T.R) (hin : ∀ x ∈ pts, T.composePoint x ∈ gpts) (hr : mr ≤ 1)
    (hcl : CloseEnough pts gpts c.thr T T0) (wantsLog : Bool) (hit : 1 ≤ p.maxIterations) :
    ∃ r, align ops (simpleIcp c (hornAsSolver e nearOne ratio wp) mr name g gpts.length dense pts) p T0 1 wantsLog = .ok r ∧
      r.pose = Pose3.identity ∧ r.reason = .solverError ∧ r.quality = 1 ∧ r.nIterations = 0 ∧ AllMatched pts T r.pairings := by
  obtain ⟨ms, prs, hm1, hm2⟩ := match_close (s := hornAsSolver e nearOne ratio wp) (mr := mr) (name := name) (dense := dense)
    hg hc hne hnd hT hin hcl 0
  have hlen : 0 < pts.length := List.length_pos_iff.mpr hne
  have hz := horn_too_few (e := e) hw prs.pt2pt pts.length (by rw [(matched_length hm2)]; exact hlen) (by rw [(matched_length hm2)]; exact hfew)
  have hsolve := fun out sc fin => simple_solve (c := c) (nearOne := nearOne) (ratio := ratio) (mr := mr) (name := name) (g := g)
    (ng := gpts.length) (dense := dense) (pts := pts) ops.tnorm prs.pt2pt pts.length out sc fin hz
  simp only [← hm2.rest] at hsolve
  have hemp : prs.isEmpty = false := by
    have h1 := (matched_length hm2)
    cases hp : prs.pt2pt with
    | nil => rw [hp] at h1; simp at h1; omega
    | cons a l => simp [Pairings.isEmpty, hp]
  set env := simpleIcp c (hornAsSolver e nearOne ratio wp) mr name g gpts.length dense pts with henv
  have hq : ∀ it fin pose, evaluateQuality env.quality it fin pose prs = .ok 1 := fun it fin pose => by
    rw [henv]; exact full_quality hlen hr hm2 it fin pose
  have e1 : env.matchers ≠ [] ∧ env.solvers ≠ [] ∧ env.quality ≠ [] := by simp [henv, simpleIcp]
  have e2 : env.globalEmpty = false ∧ env.localEmpty = false := ⟨rfl, rfl⟩
  have e3 : decide (p.maxIterations > 0) = true := by simp; omega
  obtain ⟨m, hm⟩ : ∃ m, p.maxIterations = m + 1 := ⟨p.maxIterations - 1, by omega⟩
  have hn0 : ¬ 0 ≥ p.maxIterations := by omega
  unfold align
  simp only [Outcome.assert, e1, e2, if_true, Outcome.bind_def, Outcome.bind, ne_eq, not_false_eq_true, and_self]
  conv in icpLoop _ _ _ _ _ _ => rw [hm]
  simp only [icpLoop, icpBody, hm1, hemp, Outcome.bind, hsolve, hornAnswer, Bool.not_false, Bool.false_eq_true, if_false, if_true,
    if_neg hn0, hq, e3, Bool.or_true, Bool.not_true, Bool.and_false, Outcome.pure_def]
  exact ⟨_, rfl, rfl, rfl, rfl, rfl, hm2⟩

/-! ### the fit does not get worse -/

theorem foldr_min_le (l : List K) (b : K) : l.foldr min b ≤ b ∧ ∀ x ∈ l, l.foldr min b ≤ x := by
  induction l with
  | nil => simp
  | cons a l ih =>
    simp only [List.foldr_cons, List.mem_cons]
    refine ⟨le_trans (min_le_right _ _) ih.1, ?_⟩
    rintro x (rfl | hx)
    · exact min_le_left _ _
    · exact le_trans (min_le_right _ _) (ih.2 x hx)

theorem le_foldr_min (l : List K) (b m : K) (hb : m ≤ b) (hl : ∀ x ∈ l, m ≤ x) : m ≤ l.foldr min b := by
  induction l with
  | nil => simpa using hb
  | cons a l ih =>
    simp only [List.foldr_cons]
    exact le_min (hl a List.mem_cons_self) (ih fun x hx => hl x (List.mem_cons_of_mem _ hx))

theorem foldr_min_mem (l : List K) (b : K) : l.foldr min b ∈ b :: l := by
  induction l with
  | nil => simp
  | cons a l ih =>
    simp only [List.foldr_cons]
    rcases min_choice a (l.foldr min b) with h | h
    · rw [h]; simp
    · rw [h]
      rcases List.mem_cons.mp ih with h | h
      · simp [h]
      · simp [h]

/-- The misfit of one point. -/
def ptMisfit (lim : K) (gpts : List (P3 K)) (q : P3 K) : K := (gpts.map fun y => P3.distSq q y).foldr min lim

theorem misfitAt_eq (c : DTCfg K) (gpts pts : List (P3 K)) (T0 T : Pose3 K) :
    misfitAt c.thr c.angSq gpts pts T0 T =
      (pts.map fun p => ptMisfit (dtLimit c (T0.composePoint p)) gpts (T.composePoint p)).sum := rfl

theorem misfitAt_noAngle (thr : K) (gpts pts : List (P3 K)) (T0 T : Pose3 K) :
    misfitAt thr 0 gpts pts T0 T = misfit thr gpts pts T := by
  simp [misfitAt, misfit]

theorem cand_some {c : DTCfg K} {tf : P3 K → P3 K} {g : GLayer K} {gpts pts : List (P3 K)} (hg : ServesPoints g gpts)
    {i : Nat} {q : PtPair K} (h : cand c tf g pts i = some q) :
    pts[i]? = some q.local ∧ q.global ∈ gpts ∧ P3.distSq (tf q.local) q.global < dtLimit c (tf q.local) ∧
      ∀ x ∈ gpts, P3.distSq (tf q.local) q.global ≤ P3.distSq (tf q.local) x := by
  simp only [cand, Option.bind_eq_some_iff] at h
  obtain ⟨p, hp, nb, hnb, h⟩ := h
  obtain ⟨nb', h1, h2, h3, h4⟩ := hg.nearest (tf p)
  rw [hnb] at h1; cases h1
  split at h
  · rename_i hd
    cases h
    refine ⟨hp, List.mem_of_getElem? h2, ?_, h4⟩
    simpa [h3] using hd
  · cases h

theorem cand_none {c : DTCfg K} {tf : P3 K → P3 K} {g : GLayer K} {gpts pts : List (P3 K)} (hg : ServesPoints g gpts)
    {i : Nat} {p : P3 K} (hp : pts[i]? = some p) (h : cand c tf g pts i = none) :
    ∀ x ∈ gpts, dtLimit c (tf p) ≤ P3.distSq (tf p) x := by
  obtain ⟨nb, h1, h2, h3, h4⟩ := hg.nearest (tf p)
  simp only [cand, hp, h1, Option.bind_some] at h
  split at h
  · cases h
  · rename_i hd
    simp only [not_lt, h3] at hd
    exact fun x hx => le_trans hd (h4 x hx)

/-- Over the first `n` points: the misfit at the pose of the search is the cost of the pairings plus a constant, which is
not exceeded at any other pose. -/
theorem misfit_split {c : DTCfg K} {g : GLayer K} {gpts pts : List (P3 K)} (hg : ServesPoints g gpts)
    (T : Pose3 K) (n : Nat) (hn : n ≤ pts.length) :
    ∃ k : K, ((pts.take n).map fun p => ptMisfit (dtLimit c (T.composePoint p)) gpts (T.composePoint p)).sum =
        pointCost ((List.range n).filterMap (cand c T.composePoint g pts)) T + k ∧
      ∀ T' : Pose3 K, ((pts.take n).map fun p => ptMisfit (dtLimit c (T.composePoint p)) gpts (T'.composePoint p)).sum ≤
        pointCost ((List.range n).filterMap (cand c T.composePoint g pts)) T' + k := by
  induction n with
  | zero => exact ⟨0, by simp [pointCost], by simp [pointCost]⟩
  | succ n ih =>
    obtain ⟨k, h1, h2⟩ := ih (by omega)
    have hlt : n < pts.length := by omega
    have hp : pts[n]? = some pts[n] := List.getElem?_eq_getElem hlt
    have hsplit : ∀ T' : Pose3 K, ((pts.take (n + 1)).map fun p => ptMisfit (dtLimit c (T.composePoint p)) gpts (T'.composePoint p)).sum =
        ((pts.take n).map fun p => ptMisfit (dtLimit c (T.composePoint p)) gpts (T'.composePoint p)).sum + ptMisfit (dtLimit c (T.composePoint pts[n])) gpts (T'.composePoint pts[n]) := by
      intro T'
      rw [List.take_add_one, hp]
      simp only [Option.toList_some, List.map_append, List.map_cons, List.map_nil, List.sum_append, List.sum_cons, List.sum_nil,
        add_zero]
    simp only [hsplit, List.range_succ, List.filterMap_append]
    cases hc : cand c T.composePoint g pts n with
    | none =>
      have hfar := cand_none hg hp hc
      refine ⟨k + dtLimit c (T.composePoint pts[n]), ?_, ?_⟩
      · have : ptMisfit (dtLimit c (T.composePoint pts[n])) gpts (T.composePoint pts[n]) = dtLimit c (T.composePoint pts[n]) := by
          refine le_antisymm (foldr_min_le _ _).1 (le_foldr_min _ _ _ le_rfl ?_)
          intro x hx
          obtain ⟨y, hy, rfl⟩ := List.mem_map.mp hx
          exact hfar y hy
        rw [h1, this]; simp [hc]; ring
      · intro T'
        have h3 := h2 T'
        have h4 : ptMisfit (dtLimit c (T.composePoint pts[n])) gpts (T'.composePoint pts[n]) ≤ dtLimit c (T.composePoint pts[n]) := (foldr_min_le _ _).1
        simp only [List.filterMap_cons, hc, List.filterMap_nil, List.append_nil]
        linarith
    | some q =>
      obtain ⟨q1, q2, q3, q4⟩ := cand_some hg hc
      rw [hp] at q1
      have q1 : pts[n] = q.local := Option.some.inj q1
      have hcost : ∀ (l : List (PtPair K)) (T' : Pose3 K), pointCost (l ++ [q]) T' =
          pointCost l T' + P3.distSq (T'.composePoint q.local) q.global := by
        intro l T'; simp [pointCost]
      simp only [List.filterMap_cons, hc, List.filterMap_nil, hcost, q1]
      refine ⟨k, ?_, ?_⟩
      · have : ptMisfit (dtLimit c (T.composePoint q.local)) gpts (T.composePoint q.local) = P3.distSq (T.composePoint q.local) q.global := by
          refine le_antisymm ((foldr_min_le _ _).2 _ (List.mem_map.mpr ⟨_, q2, rfl⟩)) (le_foldr_min _ _ _ q3.le ?_)
          intro x hx
          obtain ⟨y, hy, rfl⟩ := List.mem_map.mp hx
          exact q4 y hy
        rw [h1, this]; ring
      · intro T'
        have h3 := h2 T'
        have h4 : ptMisfit (dtLimit c (T.composePoint q.local)) gpts (T'.composePoint q.local) ≤ P3.distSq (T'.composePoint q.local) q.global :=
          (foldr_min_le _ _).2 _ (List.mem_map.mpr ⟨_, q2, rfl⟩)
        linarith

theorem horn_rot {e : HornEnv K} {wp : WeightParams K} (heig : ∀ N, IsTopEigen N (e.eig N)) (hw : PlainSolver wp)
    {p : Pairings K} {r : TFResult K} (h : optimalTfHorn e p wp = .ok (some r)) : IsRotation r.pose.R := by
  obtain ⟨_, _, o, q, ho, hq, hpose, hout⟩ := horn_shape hw.noScale h
  have htop := negQuat_top (heig (hornN (hornS o)))
  rw [← hq] at htop
  rw [hpose]; exact top_rotation htop

/-! ### pairs left out by the solver -/

theorem plain_loop_near {c : VisitCfg K} (hk : c.wp.kernel = .none) (hs : c.wp.useScaleOutlier = false)
    (hnrm : c.normalize = false) (hw : 0 < c.waPoints) (n : Nat) (ps : List (PtPair K)) :
    ∀ (s : VisitState K) (i : Nat), s.blocks = [(n, 1)] → s.start = 0 → s.outl = [] → i + ps.length ≤ n →
      ∃ s', visitLoop c s i (ps.map .pt) = .ok s' ∧
        s'.visited = s.visited ++ (ps.filter fun q => !decide (c.norm (q.global - c.ctGlobal) < c.eps ∨
          c.norm (q.local - c.ctLocal) < c.eps)).map (fun q => ⟨q.global - c.ctGlobal, q.local - c.ctLocal, c.waPoints⟩) := by
  induction ps with
  | nil => intro s i _ _ _ _; exact ⟨s, rfl, by simp⟩
  | cons q ps ih =>
    intro s i hb hst ho hlen
    simp only [List.length_cons] at hlen
    have hblk : blockStep i s.blocks s.start = .ok (s.blocks, s.start, 1) := by
      rw [hb, hst]; simp only [blockStep]; rw [if_neg (by omega)]
    by_cases hq : c.norm (q.global - c.ctGlobal) < c.eps ∨ c.norm (q.local - c.ctLocal) < c.eps
    · have hstep : visitStep c s i (.pt q) = .ok s := by
        unfold visitStep
        rw [ho]
        simp only [List.head?_nil, reduceCtorEq, if_false, hblk, Outcome.bind_def, Outcome.bind]
        rw [if_pos hq]
        cases s; simp_all
      obtain ⟨s', h1, h3⟩ := ih s (i + 1) hb hst ho (by omega)
      refine ⟨s', ?_, ?_⟩
      · simp only [List.map_cons, visitLoop, hstep, Outcome.bind]; exact h1
      · rw [h3, List.filter_cons_of_neg (by rw [decide_eq_true hq]; simp)]
    · have hstep : visitStep c s i (.pt q) = .ok
          { s with visited := s.visited ++ [⟨q.global - c.ctGlobal, q.local - c.ctLocal, c.waPoints⟩],
                   wSum := s.wSum + c.waPoints } := by
        unfold visitStep
        rw [ho]
        simp only [List.head?_nil, reduceCtorEq, if_false, hblk, Outcome.bind_def, Outcome.bind]
        rw [if_neg hq, if_neg (by rw [hs]; simp)]
        simp only [mul_one]
        unfold visitPair robustWeight
        rw [hk]
        simp [createRobustKernel, Outcome.assert, hw, hnrm]
      obtain ⟨s', h1, h3⟩ := ih
        { s with visited := s.visited ++ [⟨q.global - c.ctGlobal, q.local - c.ctLocal, c.waPoints⟩],
                 wSum := s.wSum + c.waPoints } (i + 1) hb hst ho (by omega)
      refine ⟨s', ?_, ?_⟩
      · simp only [List.map_cons, visitLoop, hstep, Outcome.bind]; exact h1
      · rw [h3, List.filter_cons_of_pos (by rw [decide_eq_false hq]; simp)]; simp

theorem sum_split {α : Type} (P : α → Bool) (f : α → K) (l : List α) :
    (l.map f).sum = ((l.filter P).map f).sum + ((l.filter fun x => !P x).map f).sum := by
  induction l with
  | nil => simp
  | cons a l ih =>
    cases h : P a <;> simp [h, ih] <;> ring

theorem dot_le {norm : P3 K → K} (hn : IsNorm norm) (a b : P3 K) :
    a.dot b ≤ norm a * norm b ∧ -(norm a * norm b) ≤ a.dot b := by
  have h1 := hn a
  have h2 := hn b
  have hcs : a.dot b * a.dot b ≤ (norm a * norm b) * (norm a * norm b) := by
    have e : (norm a * norm b) * (norm a * norm b) = a.normSq * b.normSq := by
      rw [← h1.2, ← h2.2]; ring
    rw [e]
    simp only [P3.normSq, P3.dot]
    nlinarith [sq_nonneg (a.x * b.y - a.y * b.x), sq_nonneg (a.x * b.z - a.z * b.x), sq_nonneg (a.y * b.z - a.z * b.y)]
  have h0 : 0 ≤ norm a * norm b := mul_nonneg h1.1 h2.1
  have := abs_le_of_sq_le_sq (a := a.dot b) (b := norm a * norm b) (by rw [sq, sq]; exact hcs) h0
  exact ⟨(abs_le.mp this).2, (abs_le.mp this).1⟩

theorem rot_change {norm : P3 K → K} (hn : IsNorm norm) {R R' : M3 K} (hR : IsRotation R) (hR' : IsRotation R') (r b : P3 K) :
    P3.distSq (R.mulVec r) b ≤ P3.distSq (R'.mulVec r) b + 4 * (norm b * norm r) := by
  have h1 := dot_le hn b (R.mulVec r)
  have h2 := dot_le hn b (R'.mulVec r)
  rw [norm_rot hn hR] at h1
  rw [norm_rot hn hR'] at h2
  have e : ∀ u : P3 K, P3.distSq u b = u.normSq + b.normSq - 2 * b.dot u := by
    intro u; simp only [P3.distSq, P3.normSq, P3.dot, P3.sub_x, P3.sub_y, P3.sub_z]; ring
  have e1 : (R.mulVec r).normSq = r.normSq := by
    rw [← (hn (R.mulVec r)).2, ← (hn r).2, norm_rot hn hR]
  have e2 : (R'.mulVec r).normSq = r.normSq := by
    rw [← (hn (R'.mulVec r)).2, ← (hn r).2, norm_rot hn hR']
  rw [e, e, e1, e2]
  linarith [h1.1, h1.2, h2.1, h2.2]

/-- Horn's solver on points only: nearly optimal whatever the pairs. -/
theorem horn_near {e : HornEnv K} {p : Pairings K} {wp : WeightParams K} (heig : ∀ N, IsTopEigen N (e.eig N))
    (hn : IsNorm e.norm) (h : PlainPoints p wp) {r : TFResult K} (hr : optimalTfHorn e p wp = .ok (some r)) :
    ∀ T : Pose3 K, IsRotation T.R → pointCost p.pt2pt r.pose ≤ pointCost p.pt2pt T + nearSlack e.norm e.eps p.pt2pt := by
  obtain ⟨hne, -, o, q, ho, hq, hpose, -⟩ := horn_shape h.noScale hr
  have hlen : 0 < p.pt2pt.length := List.length_pos_iff.mpr hne
  set ctL := mean (p.pt2pt.map (·.local)) with hL
  set ctG := mean (p.pt2pt.map (·.global)) with hG
  have hwa : 0 < (visitCfg p wp ctL ctG false e.norm e.eps).waPoints := by
    have := h.wPt
    have hnk : (0 : K) < p.pt2pt.length := by exact_mod_cast hlen
    simp only [visitCfg, h.ln2ln, h.pl2pl, List.length_nil, Nat.cast_zero, mul_zero, add_zero]
    positivity
  obtain ⟨s', h1, h3⟩ := plain_loop_near (c := visitCfg p wp ctL ctG false e.norm e.eps) h.noKernel h.noScale rfl hwa
    p.pt2pt.length p.pt2pt ⟨[(p.pt2pt.length, 1)], 0, [], [], [], 0⟩ 0 rfl rfl rfl (by omega)
  have hc : corrs p = p.pt2pt.map .pt := by simp [corrs, h.ln2ln, h.pl2pl]
  have hv : o.visited = s'.visited := by
    have hw : 0 < wp.pairWeights.pt2pt + wp.pairWeights.ln2ln + wp.pairWeights.pl2pl := by
      have := h.wPt; have := h.wLn; have := h.wPl; linarith
    unfold visitCorrespondences at ho
    simp only [h.pt2ln, h.pt2pl, h.noTable, hc, List.isEmpty_nil, if_true, Outcome.bind_def, List.length_nil,
      Outcome.assert, hw, Outcome.bind, h1, Outcome.pure_def, Outcome.ok.injEq] at ho
    rw [← ho]
  have htop := negQuat_top (heig (hornN (hornS o)))
  rw [← hq] at htop
  have hrot : IsRotation q.toMatrix := top_rotation htop
  intro T hT
  obtain ⟨R, t⟩ := T
  have h4 := horn_attitude htop hT
  rw [hv, h3] at h4
  simp only [visitCfg, List.nil_append] at h4
  rw [attitudeCost_map, attitudeCost_map] at h4
  have h5 : ((p.pt2pt.filter fun x => !decide (e.norm (x.global - ctG) < e.eps ∨ e.norm (x.local - ctL) < e.eps)).map
        fun x => P3.distSq (q.toMatrix.mulVec (x.local - ctL)) (x.global - ctG)).sum ≤
      ((p.pt2pt.filter fun x => !decide (e.norm (x.global - ctG) < e.eps ∨ e.norm (x.local - ctL) < e.eps)).map
        fun x => P3.distSq (R.mulVec (x.local - ctL)) (x.global - ctG)).sum := le_of_mul_le_mul_left h4 hwa
  rw [hpose]
  simp only [poseFromRot]
  rw [pointCost_split _ p.pt2pt hne ctL ctG hL hG, pointCost_split _ p.pt2pt hne ctL ctG hL hG]
  have h6 : P3.distSq (ctG - (q.toMatrix.mulVec ctL + 0) + q.toMatrix.mulVec ctL) ctG = 0 := by
    simp only [P3.distSq, P3.normSq, P3.dot, P3.sub_x, P3.sub_y, P3.sub_z, P3.add_x, P3.add_y, P3.add_z, P3.zero_x,
      P3.zero_y, P3.zero_z]
    ring
  rw [h6, mul_zero, add_zero]
  have h7 : (0 : K) ≤ p.pt2pt.length * P3.distSq (t + R.mulVec ctL) ctG := mul_nonneg (Nat.cast_nonneg _) (distSq_nonneg _ _)
  set near : PtPair K → Bool := fun q => decide (e.norm (q.global - ctG) < e.eps ∨ e.norm (q.local - ctL) < e.eps) with hnear
  rw [sum_split near, sum_split near (fun q => P3.distSq (R.mulVec (q.local - ctL)) (q.global - ctG))]
  have h8 : ∀ l : List (PtPair K), (l.map fun x => P3.distSq (q.toMatrix.mulVec (x.local - ctL)) (x.global - ctG)).sum ≤
      (l.map fun x => P3.distSq (R.mulVec (x.local - ctL)) (x.global - ctG)).sum +
        4 * (l.map fun x => e.norm (x.global - ctG) * e.norm (x.local - ctL)).sum := by
    intro l
    induction l with
    | nil => simp
    | cons a l ih =>
      simp only [List.map_cons, List.sum_cons]
      have := rot_change hn hrot hT (a.local - ctL) (a.global - ctG)
      linarith
  have h9 := h8 (p.pt2pt.filter near)
  have h10 : nearSlack e.norm e.eps p.pt2pt = 4 * ((p.pt2pt.filter near).map fun x => e.norm (x.global - ctG) * e.norm (x.local - ctL)).sum := rfl
  rw [h10]
  linarith

theorem nearSlack_bounds {norm : P3 K → K} (hn : IsNorm norm) {eps : K} (he : ¬ eps < 0) (ps : List (PtPair K)) :
    0 ≤ nearSlack norm eps ps ∧ (AwayFromCentroids norm eps ps → nearSlack norm eps ps = 0) ∧
    nearSlack norm eps ps ≤ 4 * eps * (ps.map fun q =>
      norm (q.global - mean (ps.map (·.global))) + norm (q.local - mean (ps.map (·.local)))).sum := by
  set ctL := mean (ps.map (·.local)) with hL
  set ctG := mean (ps.map (·.global)) with hG
  have hval : nearSlack norm eps ps = 4 * ((ps.filter fun q => decide (norm (q.global - ctG) < eps ∨
    norm (q.local - ctL) < eps)).map fun q => norm (q.global - ctG) * norm (q.local - ctL)).sum := rfl
  rw [hval]
  refine ⟨?_, ?_, ?_⟩
  · refine mul_nonneg (by norm_num) (List.sum_nonneg ?_)
    intro x hx
    obtain ⟨q, -, rfl⟩ := List.mem_map.mp hx
    exact mul_nonneg (hn _).1 (hn _).1
  · intro hf
    rw [List.filter_eq_nil_iff.mpr]
    · simp
    · intro q hq
      have := hf q hq
      simpa [not_or] using this
  · clear_value ctL ctG
    clear hval hL hG
    have : ∀ l : List (PtPair K), ((l.filter fun q => decide (norm (q.global - ctG) < eps ∨
        norm (q.local - ctL) < eps)).map fun q => norm (q.global - ctG) * norm (q.local - ctL)).sum ≤
        eps * (l.map fun q => norm (q.global - ctG) + norm (q.local - ctL)).sum := by
      intro l
      induction l with
      | nil => simp
      | cons a l ih =>
        have a1 := (hn (a.global - ctG)).1
        have a2 := (hn (a.local - ctL)).1
        have hpos : 0 ≤ eps := not_lt.mp he
        by_cases hq : norm (a.global - ctG) < eps ∨ norm (a.local - ctL) < eps
        · rw [List.filter_cons_of_pos (by simpa using hq)]
          simp only [List.map_cons, List.sum_cons]
          have : norm (a.global - ctG) * norm (a.local - ctL) ≤ eps * (norm (a.global - ctG) + norm (a.local - ctL)) := by
            rcases hq with hq | hq <;> nlinarith
          linarith
        · rw [List.filter_cons_of_neg (by simpa using hq)]
          simp only [List.map_cons, List.sum_cons]
          have : 0 ≤ eps * (norm (a.global - ctG) + norm (a.local - ctL)) := mul_nonneg hpos (add_nonneg a1 a2)
          linarith
    linarith [this ps]

/-- One event of the run. -/
theorem event_fit {ops : PoseOps K (Pose3 K)} {e : HornEnv K} {nearOne : P3 K → Bool} {ratio : K} {wp : WeightParams K}
    {c : DTCfg K} {mr : K} {name : String} {g : GLayer K} {gpts pts : List (P3 K)} {dense : Bool}
    (hs : FitSetting ops e wp c g gpts pts) {it : Nat} {T : Pose3 K} {ms : MatchState K} {prs : Pairings K}
    {out s : Sol K (Pose3 K)} {sc : SolverCtx (Pose3 K)} {fin fin' : List Nat}
    (hm : runMatchers (simpleIcp c (hornAsSolver e nearOne ratio wp) mr name g gpts.length dense pts).matchers it T
      (simpleIcp c (hornAsSolver e nearOne ratio wp) mr name g gpts.length dense pts).freshMS = .ok (ms, prs))
    (hr : runSolvers ops.tnorm (simpleIcp c (hornAsSolver e nearOne ratio wp) mr name g gpts.length dense pts).solvers
      prs out sc fin = .ok (true, s, fin')) (hsz : prs.size ≠ 0) :
    IsRotation s.pose.R ∧
      (IsRotation T.R → misfitAt c.thr c.angSq gpts pts T s.pose ≤ misfitAt c.thr c.angSq gpts pts T T + nearSlack e.norm e.eps prs.pt2pt) := by
  have hne : pts ≠ [] := by
    rintro rfl
    have : runMatchers (simpleIcp c (hornAsSolver e nearOne ratio wp) mr name g gpts.length dense []).matchers it T
      (simpleIcp c (hornAsSolver e nearOne ratio wp) mr name g gpts.length dense []).freshMS =
        .ok (freshState name gpts.length dense 0, {}) := by
      have hc := hs.matcher
      have hl : dtLayer c T.composePoint g name name [] (freshState name gpts.length dense 0) {} =
          .ok (freshState name gpts.length dense 0, {}) := by
        unfold dtLayer layerFrame
        simp [hc.ppp, hc.thr, hc.angDeg, hs.serves.capable, Outcome.assert, Outcome.bind]
      simp only [runMatchers, simpleIcp, runMatchersLoop, Matcher.run, PtMatcher.toMatcher, PtMatcher.base, PtMatcher.layer]
      simp [pointsMatch, foldOutcome, globalLayerStep, hc.noTable, localLayersFor, localLayerStep, AMap.get, hl, Outcome.bind,
        Pairings.pushBackCopy]
    rw [this] at hm
    cases hm
    exact hsz rfl
  have hbox : g.boxesMeet (pts.map T.composePoint) (c.thr + c.eps) = true := by
    by_contra hb
    rw [simple_match_apart hs.serves hs.matcher hne it T hb] at hm
    cases hm
    exact hsz rfl
  obtain ⟨ms', hm'⟩ := simple_match (s := hornAsSolver e nearOne ratio wp) (mr := mr) (name := name) (dense := dense)
    hs.serves hs.matcher hne it T (Or.inl hs.many) (Or.inl hbox)
  rw [hm] at hm'
  cases hm'
  set ps := (List.range pts.length).filterMap (cand c T.composePoint g pts) with hps
  have hpos : 0 < ps.length := by
    simp only [Pairings.size, List.length_nil, Nat.add_zero] at hsz; omega
  by_cases h3 : 3 ≤ ps.length
  · obtain ⟨r, hho⟩ := horn_total (e := e) hs.solver ps pts.length h3
    rw [simple_solve ops.tnorm ps pts.length out sc fin hho] at hr
    simp only [hornAnswer, Outcome.ok.injEq, Prod.mk.injEq, true_and] at hr
    obtain ⟨rfl, -⟩ := hr
    refine ⟨horn_rot hs.eig hs.solver hho, fun hT => ?_⟩
    have h5 := horn_near (p := { pt2pt := ps, potential := pts.length }) hs.eig hs.norm
      ⟨rfl, rfl, rfl, rfl, rfl, hs.solver.noKernel, hs.solver.noScale, hs.solver.wPt, hs.solver.wLn, hs.solver.wPl⟩ hho T hT
    obtain ⟨k, k1, k2⟩ := misfit_split hs.serves T pts.length le_rfl
    rw [List.take_length, ← hps] at k1
    have k2 := k2 r.pose
    rw [List.take_length, ← hps] at k2
    rw [misfitAt_eq, misfitAt_eq, k1]
    simp only at h5
    linarith
  · have hho := horn_too_few (e := e) hs.solver ps pts.length hpos (by omega)
    rw [simple_solve ops.tnorm ps pts.length out sc fin hho] at hr
    simp [hornAnswer] at hr

end Verif.Lemmas
