import Verif.Lemmas.MatchersTop
import Verif.Lemmas.MatchersBase
/- Layer-level results for the adaptive matcher (C23). -/
namespace Verif.Lemmas
open Verif Verif.Spec
variable {K : Type} [LT K] [DecidableLT K] [LE K] [DecidableLE K] [Zero K] [Add K] [Mul K] [One K] [NatCast K]

theorem eligible_iff {c : PtsCfg K} {ms : MatchState K} {g : GLayer K} {gName lName : String} {n l : Nat}
    (hf : FlagsFit ms g gName lName n) (hl : l < n) :
    skipLocal c ms lName l = .ok false ↔ Eligible c ms lName l := by
  obtain ⟨b, hb⟩ := skipLocal_total (c := c) hf hl
  rw [hb]
  unfold skipLocal at hb
  unfold Eligible Flagged
  split at hb
  · rename_i h; simp_all
  · rename_i h
    rw [hb]
    cases b <;> simp_all

theorem adSearch_eq (c : AdCfg K) (g : GLayer K) (q : P3 K) : adSearch c g q = AdReported c g q := rfl

/-- The candidates after the first loop. -/
theorem ad_cands {c : AdCfg K} {tf : P3 K → P3 K} {g : GLayer K} {gName lName : String} {pts : List (P3 K)}
    {ms : MatchState K} {tl : TLocal K} (hs : ShuffleOK c.toPtsCfg) (htl : transformLocal c.toPtsCfg tf pts = .ok tl)
    (hgood : TLGood tf pts tl) (hf : FlagsFit ms g gName lName pts.length) {a : AdState K}
    (hi : AdInv c tf g lName pts tl ms tl.xs.length a) :
    (∀ l m, a.cand[l]? = some m → ∃ p, pts[l]? = some p ∧ (m = adCands c tf g l p ∨ m = [])) ∧
    (a.lims = none ↔ NothingFound c tf g ms lName pts) := by
  constructor
  · intro l m hm
    have hlt : l < tl.xs.length := by rw [← hi.len]; exact (List.getElem?_eq_some_iff.mp hm).1
    have hsam : Sampled c.toPtsCfg pts.length l := by
      refine ⟨lt_of_lt_of_le hlt hgood.le, ?_⟩
      obtain ⟨tl', htl', _, h1, h2⟩ := transformLocal_good c.toPtsCfg hs tf pts
      rw [htl] at htl'; cases htl'
      by_cases hc : c.maxLocal = 0 ∨ pts.length ≤ c.maxLocal
      · rcases hc with hc | hc
        · exact Or.inl hc
        · right; have := hgood.le; omega
      · right; rw [← (h2 hc).2]; exact hlt
    obtain ⟨i, hil, hix⟩ := sampled_index hs htl hsam
    have hp : pts[l]? = some (pts[l]'hsam.1) := List.getElem?_eq_getElem hsam.1
    obtain ⟨h1, h2⟩ := hi.done i l _ hil hix hp
    refine ⟨_, hp, ?_⟩
    by_cases hsk : skipLocal c.toPtsCfg ms lName l = .ok false
    · rw [h1 hsk] at hm; cases hm; exact Or.inl rfl
    · rw [h2 hsk] at hm; cases hm; exact Or.inr rfl
  · rw [hi.lims]
    constructor
    · intro h l p hsam hp hel nb hnb
      obtain ⟨i, hil, hix⟩ := sampled_index hs htl hsam
      obtain ⟨j, hj, he⟩ := List.mem_iff_getElem.mp hnb
      have hj2 : j < 2 := by simp only [List.length_take] at hj; omega
      refine h i l p hil hix hp ((eligible_iff hf hsam.1).mpr hel) j nb ?_ (by omega)
      rw [adSearch_eq]
      have : ((AdReported c g (tf p)).take 2)[j]? = some nb := by rw [← he]; exact List.getElem?_eq_getElem hj
      rw [List.getElem?_take] at this
      rwa [if_pos hj2] at this
    · intro h i l p hil hix hp hsk j nb hj hj1
      have hsam := index_sampled hs htl hil hix
      refine h l p hsam hp ((eligible_iff hf hsam.1).mp hsk) nb ?_
      refine List.mem_iff_getElem?.mpr ⟨j, ?_⟩
      rw [List.getElem?_take, if_pos (by omega)]
      exact hj

theorem adCands_mem {c : AdCfg K} {tf : P3 K → P3 K} {g : GLayer K} {l : Nat} {p : P3 K} {x : PtPair K}
    (h : x ∈ adCands c tf g l p) : ∃ nb ∈ AdReported c g (tf p), ¬ c.absMax * c.absMax < nb.d2 ∧
      IsPairOf x l p nb := by
  have h := List.mem_of_mem_take h
  obtain ⟨nb, hnb, rfl⟩ := List.mem_map.mp h
  rw [List.mem_filter] at hnb
  exact ⟨nb, hnb.1, by simpa using hnb.2, rfl, rfl, rfl, rfl, rfl⟩

theorem ad_frame {c : AdCfg K} {tf : P3 K → P3 K} {g : GLayer K} {gName lName : String} {pts : List (P3 K)}
    {ms : MatchState K} {out : Pairings K} (hs : ShuffleOK c.toPtsCfg)
    (hf : FlagsFit ms g gName lName pts.length) (hnn : g.nnCapable = true)
    (ho : Overlap c.toPtsCfg tf g pts c.eps) :
    ∃ tl a, transformLocal c.toPtsCfg tf pts = .ok tl ∧ TLGood tf pts tl ∧
      AdInv c tf g lName pts tl ms tl.xs.length a ∧
      adLayer c tf g gName lName pts ms out = adOut c gName lName pts a
        (ms, { out with potential := out.potential + pts.length * c.maxPt2Pt }) := by
  obtain ⟨tl, htl, hgood, _⟩ := transformLocal_good c.toPtsCfg hs tf pts
  obtain ⟨a, ha, hi⟩ := adInv_fold (c := c) hgood hf _ (le_refl _)
  refine ⟨tl, a, htl, hgood, hi, ?_⟩
  unfold adLayer
  simp only [Outcome.bind_def]
  rw [Outcome.assert_true hnn]
  simp only [Outcome.bind]
  unfold layerFrame
  have hne : pts.isEmpty = false := by
    cases hp : pts with
    | nil => exact absurd hp ho.2.1
    | cons => rfl
  rw [ho.1, hne, if_neg (by simp), htl]
  simp only [Outcome.bind]
  rw [ho.2.2 tl htl, if_pos rfl, ha]

theorem ad_ub_iff {c : AdCfg K} {tf : P3 K → P3 K} {g : GLayer K} {gName lName : String} {pts : List (P3 K)}
    {ms : MatchState K} {out : Pairings K} (hs : ShuffleOK c.toPtsCfg)
    (hf : FlagsFit ms g gName lName pts.length) (hnn : g.nnCapable = true)
    (ho : Overlap c.toPtsCfg tf g pts c.eps) (h3 : 3 ≤ c.planeMinFound) :
    (NothingFound c tf g ms lName pts → adLayer c tf g gName lName pts ms out = .ub) ∧
    (¬ NothingFound c tf g ms lName pts → ∃ r, adLayer c tf g gName lName pts ms out = .ok r) := by
  obtain ⟨tl, a, htl, hgood, hi, he⟩ := ad_frame (out := out) hs hf hnn ho
  obtain ⟨hc1, hc2⟩ := ad_cands hs htl hgood hf hi
  rw [he, ← hc2]
  unfold adOut
  constructor
  · intro h; rw [h]
  · intro h
    cases hl : a.lims with
    | none => exact absurd hl h
    | some lh =>
      obtain ⟨lo, hi'⟩ := lh
      simp only
      obtain ⟨s', hs', _⟩ := fold_ok (step := adOutStep c gName lName pts (adMaxCorr c a lo hi'))
        (fun s => FlagsFit s.1 g gName lName pts.length) a.cand
        (fun s m hm hs => by
          obtain ⟨l, hlm⟩ := List.mem_iff_getElem?.mp hm
          obtain ⟨p, hp, hmm⟩ := hc1 l m hlm
          have hl := (List.getElem?_eq_some_iff.mp hp).1
          have hx : ∀ x ∈ m, x.localIdx = l ∧ Readable s.1.globalFlags gName x.globalIdx := by
            intro x hx
            rcases hmm with rfl | rfl
            · obtain ⟨nb, hnb, _, hpr⟩ := adCands_mem hx
              refine ⟨hpr.1, ?_⟩
              rw [hpr.2.2.1]
              unfold AdReported at hnb
              generalize (if c.detectPlanes then c.planeSearch else c.maxPt2Pt) = k at hnb
              split at hnb
              · rw [Option.mem_toList] at hnb; exact hs.global.1 _ _ hnb
              · exact hs.global.2.2 _ _ _ _ hnb
            · simp at hx
          obtain ⟨s', hs'⟩ := adOutStep_total (c := c) (gName := gName) (lName := lName)
            (mc := adMaxCorr c a lo hi') h3 (s := s) (m := m) (pts := pts)
            (fun x h => (hx x h).1 ▸ hl) (fun x h => (hx x h).1 ▸ hs.local l hl) (fun x h => (hx x h).2)
          exact ⟨s', hs', flagsFit_grows (adOutStep_grows hs') hs⟩) (ms, _) hf
      exact ⟨s', hs'⟩

theorem stdMax_or (a b : K) : stdMax a b = a ∨ a < stdMax a b := by
  unfold stdMax
  split
  · right; assumption
  · left; rfl

theorem ad_result {c : AdCfg K} {tf : P3 K → P3 K} {g : GLayer K} {gName lName : String} {pts : List (P3 K)}
    {ms : MatchState K} {out : Pairings K} {r : MatchState K × Pairings K} (hs : ShuffleOK c.toPtsCfg)
    (hf : FlagsFit ms g gName lName pts.length) (h : adLayer c tf g gName lName pts ms out = .ok r) :
    ∃ lim, ∃ parts : List (List (PtPair K) × List (PtPlPair K)),
      (lim = c.minCorr * c.minCorr ∨ c.minCorr * c.minCorr < lim) ∧ parts.length ≤ pts.length ∧
      r.2.pt2pt = out.pt2pt ++ (parts.map (·.1)).flatten ∧
      r.2.pt2pl = out.pt2pl ++ (parts.map (·.2)).flatten ∧
      ∀ (l : Nat) (ch : List (PtPair K) × List (PtPlPair K)), parts[l]? = some ch →
        AdaptivePartM c tf g pts lim l ch.1 ch.2 := by
  have hnn : g.nnCapable = true := by
    unfold adLayer at h
    simp only [Outcome.bind_def, Outcome.bind_eq_ok, Outcome.assert_eq_ok] at h
    obtain ⟨_, h1, _⟩ := h
    exact h1
  by_cases ho : Overlap c.toPtsCfg tf g pts c.eps
  · obtain ⟨tl, a, htl, hgood, hi, he⟩ := ad_frame (out := out) hs hf hnn ho
    obtain ⟨hc1, hc2⟩ := ad_cands hs htl hgood hf hi
    rw [he] at h
    unfold adOut at h
    split at h
    · simp at h
    · rename_i lo hi' hl
      obtain ⟨_, chunks, h1, h2, h3⟩ := adOut_chunks _ h
      refine ⟨adMaxCorr c a lo hi', chunks, stdMax_or _ _, ?_, h1, h2, ?_⟩
      · rw [← h3.length_eq, hi.len]; exact hgood.le
      · intro l ch hch
        obtain ⟨hlt, hce⟩ := List.getElem?_eq_some_iff.mp hch
        have hlt' : l < a.cand.length := by rw [h3.length_eq]; exact hlt
        have hrel := List.forall₂_iff_get.mp h3 |>.2 l hlt' hlt
        simp only [List.get_eq_getElem] at hrel
        rw [hce] at hrel
        obtain ⟨p, hp, hm⟩ := hc1 l _ (List.getElem?_eq_getElem hlt')
        have hmem : ∀ x ∈ a.cand[l], ∃ nb ∈ AdReported c g (tf p), ¬ c.absMax * c.absMax < nb.d2 ∧
            IsPairOf x l p nb := by
          intro x hx
          rcases hm with hm | hm
          · rw [hm] at hx; exact adCands_mem hx
          · rw [hm] at hx; simp at hx
        refine ⟨?_, ?_, ?_⟩
        · rcases hrel.kind with ⟨k1, b, p0, rest, k2, k3, k4, _, k5⟩ | k
          · left
            refine ⟨k1, k4, b, k2, ?_⟩
            obtain ⟨_, _, _, hpr⟩ := hmem p0 (by rw [k3]; exact List.mem_cons_self)
            rw [← hpr.1]; exact k5
          · exact Or.inr k
        · intro x hx
          refine ⟨(hrel.lim x hx).1, p, ?_⟩
          obtain ⟨nb, h1, h2, h3⟩ := hmem x (hrel.sub.subset hx)
          exact ⟨nb, hp, h1, h2, h3⟩
        · intro x hx p' hp' nb0 hnb0
          rw [hp] at hp'; cases hp'
          have hx' := hrel.sub.subset hx
          rcases hm with hm | hm
          · have hhead : (a.cand[l]).head? = some (mkPair l p nb0) := by
              rw [hm]
              unfold adCands
              rw [List.head?_take, if_neg (by simp), List.head?_map]
              change Option.map _ (List.filter _ (AdReported c g (tf p))).head? = _
              rw [hnb0]; rfl
            rcases (hrel.lim x hx).2 _ hhead with h | h
            · left; rw [h]; rfl
            · exact Or.inr h
          · rw [hm] at hx'; simp at hx'
  · unfold adLayer at h
    simp only [Outcome.bind_def, Outcome.bind_eq_ok] at h
    obtain ⟨_, _, h⟩ := h
    refine ⟨c.minCorr * c.minCorr, [], .inl rfl, by simp, ?_, ?_, by simp⟩
    all_goals
      rcases layerFrame_ok h with rfl | ⟨tl, htl, o1, o2, o3, _⟩
      · simp
      · exfalso
        refine ho ⟨o1, o2, fun tl' htl' => ?_⟩
        rw [htl] at htl'; cases htl'; exact o3

end Verif.Lemmas

namespace Verif.Lemmas
open Verif Verif.Spec
variable {K : Type} [LT K] [DecidableLT K] [LE K] [DecidableLE K] [Zero K] [Add K] [Mul K] [One K] [NatCast K]

theorem pl_complete {c : PlCfg K} {tf : P3 K → P3 K} {g : GLayer K} {gName lName : String} {pts : List (P3 K)}
    {ms : MatchState K} {out : Pairings K} {r : MatchState K × Pairings K} (hs : ShuffleOK c.toPtsCfg)
    (hf : FlagsFit ms g gName lName pts.length) (ho : Overlap c.toPtsCfg tf g pts (c.thr + c.eps))
    (h : plLayer c tf g gName lName pts ms out = .ok r) (l : Nat) (p : P3 K) (pl : PlanePatch K) (d : K)
    (hsam : Sampled c.toPtsCfg pts.length l) (hp : pts[l]? = some p) (hel : Eligible c.toPtsCfg ms lName l)
    (hpl : g.nnPlane (tf p) c.thr = some (pl, d)) (hd : ¬ c.thr < d) :
    (⟨pl, p⟩ : PtPlPair K) ∈ r.2.pt2pl := by
  unfold plLayer at h
  simp only [Outcome.bind_def, Outcome.bind_eq_ok] at h
  obtain ⟨_, _, h⟩ := h
  obtain ⟨tl, htl, hgood, _⟩ := transformLocal_good c.toPtsCfg hs tf pts
  unfold layerFrame at h
  have hne : pts.isEmpty = false := by
    cases hp : pts with
    | nil => exact absurd hp ho.2.1
    | cons => rfl
  rw [ho.1, hne, if_neg (by simp), htl] at h
  simp only [Outcome.bind] at h
  rw [ho.2.2 tl htl, if_pos rfl] at h
  obtain ⟨i, hil, hix⟩ := sampled_index hs htl hsam
  have hrange : List.range tl.xs.length =
      List.range i ++ (i :: (List.range' (i + 1) (tl.xs.length - i - 1))) := by
    rw [List.range_eq_range', List.range_eq_range']
    have : tl.xs.length = i + (1 + (tl.xs.length - i - 1)) := by omega
    conv_lhs => rw [this]
    rw [← List.range'_append_1, Nat.zero_add, Nat.add_comm 1, List.range'_succ]
  rw [hrange, fold_append] at h
  simp only [Outcome.bind_eq_ok, foldOutcome] at h
  obtain ⟨a, ha, b, hb, h⟩ := h
  have hga : Grows _ a := fold_rel Grows Grows.refl Grows.trans (fun _ _ _ h => plStep_grows h) _ _ _ ha
  have hgr : Grows b r := fold_rel Grows Grows.refl Grows.trans (fun _ _ _ h => plStep_grows h) _ _ _ h
  have hfa : FlagsFit a.1 g gName lName pts.length := flagsFit_grows hga hf
  obtain ⟨hone, _, hcomp⟩ := plStep_one hgood hb
  obtain ⟨p', hp', hq⟩ := hgood.idx i l _ hix (List.getElem?_eq_getElem hil)
  rw [hp] at hp'; cases hp'
  have hskip : skipLocal c.toPtsCfg a.1 lName l = .ok false := by
    rw [eligible_iff hfa hsam.1]
    rcases hel with hel | hel
    · exact Or.inl hel
    · right
      intro hfl
      rcases localFlags_fold (fun s i s' h => (plStep_one hgood h).2.1) i ha lName l hfl with h | ⟨_, j, hj, hjl⟩
      · exact hel h
      · have := hgood.inj j i l (by omega) hil hjl hix
        omega
  obtain ⟨_, b0, hb0⟩ := hcomp l _ pl d hix (List.getElem?_eq_getElem hil) (hq ▸ hpl) hd hskip
  have hmem : (⟨pl, p⟩ : PtPlPair K) ∈ b.2.pt2pl := by
    rcases hone with hone | ⟨l', p', b', e1, e2, ⟨e3, d', e4, _⟩, e5⟩
    · have := congrArg List.length (hone.symm.trans hb0)
      simp at this
    · rw [hix] at e1; cases e1
      rw [hp] at e2; cases e2
      rw [hpl] at e4; cases e4
      have : (⟨b'.plGlobal, b'.ptLocal⟩ : PtPlPair K) ∈ b.2.pt2pl := by
        have e5 : b.2.pt2pl = a.2.pt2pl ++ [b'] := e5
        rw [e5]; simp
      rw [e3] at this
      exact this
  obtain ⟨new, hnew⟩ := hgr.pl
  rw [hnew]
  exact List.mem_append_left _ hmem

end Verif.Lemmas

namespace Verif.Lemmas
open Verif Verif.Spec
variable {K : Type} [LT K] [DecidableLT K] [LE K] [DecidableLE K] [Zero K] [Add K] [Mul K] [One K] [NatCast K]

theorem layer_onlyAdds (m : PtMatcher K) (tf : P3 K → P3 K) : OnlyAdds (m.layer tf) := by
  intro g gn ln pts ms out r h
  have hg := layer_grows m h
  obtain ⟨new, _, h2⟩ := hg.pt
  exact ⟨⟨_, h2⟩, hg.pw⟩

theorem layers_exact (m : PtMatcher K) (tf : P3 K → P3 K) (weights : AMap String (AMap String K))
    (globals : AMap String (GLayer K)) (locals : AMap String (Option (List (P3 K)))) (ms : MatchState K)
    (r : MatchState K × Pairings K) (hg : globals.Sorted)
    (hw : ∀ gn ls, weights.get gn = some ls → ls.Sorted)
    (h : pointsMatch (m.layer tf) weights globals locals ms = .ok r) :
    (∀ gn ln, (globals.get gn).isSome → (ListedWeight weights gn ln).isSome → (locals.get ln).isSome) ∧
    ∃ calls, LayerCalls (m.layer tf) (ms, {}) calls r ∧
      (calls.map fun c => (c.gName, c.lName)).Nodup ∧
      (∀ gn ln, (gn, ln) ∈ calls.map (fun c => (c.gName, c.lName)) ↔
        (globals.get gn).isSome ∧ Wanted weights gn ln ∧ (locals.get ln).isSome) ∧
      (∀ c ∈ calls, globals.get c.gName = some c.g ∧ locals.get c.lName = some (some c.pts) ∧
        c.w = ListedWeight weights c.gName c.lName) ∧
      r.2.pt2pt.length = (calls.map (·.n)).sum ∧
      r.2.pointWeights = (calls.map LayerCall.block).flatten := by
  have hf := layer_onlyAdds m tf
  obtain ⟨h1, calls, h2, h3, h4⟩ := pointsMatch_calls hf weights locals globals h
  have hmemG : ∀ gn, (globals.get gn).isSome ↔ ∃ g, (gn, g) ∈ globals := by
    intro gn
    constructor
    · intro hh
      obtain ⟨g, hh⟩ := Option.isSome_iff_exists.mp hh
      exact ⟨g, AMap.mem_of_get _ _ _ hh⟩
    · rintro ⟨g, hh⟩
      rw [AMap.get_eq_some_of_mem _ hg _ _ hh]; rfl
  have hmem : ∀ gn ln w, (gn, ln, w) ∈ calls.map (fun c => (c.gName, c.lName, c.w)) ↔
      (globals.get gn).isSome ∧ Wanted weights gn ln ∧ (locals.get ln).isSome ∧
        w = ListedWeight weights gn ln := by
    intro gn ln w
    rw [h4, List.mem_flatMap, hmemG]
    constructor
    · rintro ⟨gl, hgl, hx⟩
      obtain ⟨lw, hlw, he⟩ := List.mem_map.mp hx
      simp only [Prod.mk.injEq] at he
      obtain ⟨rfl, rfl, rfl⟩ := he
      rw [List.mem_filter] at hlw
      have := (mem_localLayersFor weights gl.1 hw lw.1 lw.2).mp hlw.1
      exact ⟨⟨gl.2, hgl⟩, this.1, hlw.2, this.2⟩
    · rintro ⟨⟨g, hgl⟩, hwt, hl, rfl⟩
      refine ⟨(gn, g), hgl, List.mem_map.mpr ⟨(ln, ListedWeight weights gn ln), ?_, rfl⟩⟩
      rw [List.mem_filter]
      exact ⟨(mem_localLayersFor weights gn hw _ _).mpr ⟨hwt, rfl⟩, hl⟩
  obtain ⟨h5, h6⟩ := layerCalls_counts hf h2
  refine ⟨?_, calls, h2, ?_, ?_, ?_, by simpa using h5, by simpa using h6⟩
  · intro gn ln hgn hln
    obtain ⟨g, hgl⟩ := (hmemG gn).mp hgn
    have hwt : Wanted weights gn ln := by
      right
      unfold ListedWeight at hln
      cases hg' : weights.get gn with
      | none => simp [hg'] at hln
      | some ls => rw [hg'] at hln; exact ⟨ls, rfl, hln⟩
    exact h1 (gn, g) hgl (ln, ListedWeight weights gn ln) ((mem_localLayersFor weights gn hw _ _).mpr ⟨hwt, rfl⟩) hln
  · have : (calls.map fun c => (c.gName, c.lName)) =
        ((calls.map (fun c => (c.gName, c.lName, c.w))).map fun y => (y.1, y.2.1)) := by
      rw [List.map_map]; rfl
    rw [this, h4]
    refine flatMap_nodup_pairs globals _ (keys_nodup _ hg) ?_ ?_
    · intro x y hy
      obtain ⟨lw, _, rfl⟩ := List.mem_map.mp hy
      rfl
    · intro x
      rw [List.map_map]
      have hnd := localLayersFor_nodup weights x.1 hw
      have hsub := (List.filter_sublist (l := localLayersFor weights x.1)
        (p := fun lw => (locals.get lw.1).isSome)).map (·.1)
      have hnd' := hnd.sublist hsub
      have : (List.map ((fun y : String × String × Option K => (y.1, y.2.1)) ∘ fun lw => (x.1, lw.1, lw.2))
          (List.filter (fun lw => (locals.get lw.1).isSome) (localLayersFor weights x.1))) =
          (List.map (·.1) (List.filter (fun lw => (locals.get lw.1).isSome)
            (localLayersFor weights x.1))).map fun n => (x.1, n) := by
        rw [List.map_map]; rfl
      rw [this]
      exact hnd'.map fun a b h => by simpa using h
  · intro gn ln
    constructor
    · intro hx
      obtain ⟨c, hc, he⟩ := List.mem_map.mp hx
      simp only [Prod.mk.injEq] at he
      obtain ⟨rfl, rfl⟩ := he
      have := (hmem c.gName c.lName c.w).mp (List.mem_map.mpr ⟨c, hc, rfl⟩)
      exact ⟨this.1, this.2.1, this.2.2.1⟩
    · rintro ⟨a, b, d⟩
      obtain ⟨c, hc, he⟩ := List.mem_map.mp ((hmem gn ln _).mpr ⟨a, b, d, rfl⟩)
      simp only [Prod.mk.injEq] at he
      exact List.mem_map.mpr ⟨c, hc, by simp [he.1, he.2.1]⟩
  · intro c hc
    obtain ⟨a, b⟩ := h3 c hc
    have := (hmem c.gName c.lName c.w).mp (List.mem_map.mpr ⟨c, hc, rfl⟩)
    exact ⟨AMap.get_eq_some_of_mem _ hg _ _ a, b, this.2.2.2⟩

end Verif.Lemmas
