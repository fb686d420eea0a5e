import Verif.Lemmas.MatchersFrame
import Verif.Lemmas.MatcherSolver
/-
One-to-one matching (C18).
-/
namespace Verif.Lemmas
open Verif Verif.Spec
variable {K : Type}

/-- Invariant: with respect to the flags at the start, what was recorded so far used each point once, is now
flagged and was not flagged at the start. -/
structure OnceInv (ms0 ms : MatchState K) : Prop where
  once : UsedOnce ms.ghost
  gset : ∀ t ∈ ms.ghost, Flagged ms.globalFlags t.1 t.2.2.globalIdx
  lset : ∀ t ∈ ms.ghost, Flagged ms.localFlags t.2.1 t.2.2.localIdx
  gnew : ∀ t ∈ ms.ghost, ¬ Flagged ms0.globalFlags t.1 t.2.2.globalIdx
  lnew : ∀ t ∈ ms.ghost, ¬ Flagged ms0.localFlags t.2.1 t.2.2.localIdx
  gmono : ∀ l i, Flagged ms0.globalFlags l i → Flagged ms.globalFlags l i
  lmono : ∀ l i, Flagged ms0.localFlags l i → Flagged ms.localFlags l i

theorem onceInv_push {ms0 ms ms1 ms2 : MatchState K} {out : Pairings K} {gName lName : String} {p : PtPair K}
    (hi : OnceInv ms0 ms) (hg : ¬ Flagged ms.globalFlags gName p.globalIdx)
    (hl : ¬ Flagged ms.localFlags lName p.localIdx)
    (h1 : markLocal (pushPt ms out gName lName p).1 lName p.localIdx = .ok ms1)
    (h2 : markGlobal ms1 gName p.globalIdx = .ok ms2) : OnceInv ms0 ms2 := by
  obtain ⟨a1, a2, a3⟩ := markLocal_ok h1
  obtain ⟨b1, b2, b3⟩ := markGlobal_ok h2
  have hgh : ms2.ghost = ms.ghost ++ [(gName, lName, p)] := by rw [b3, a3]; rfl
  have hlf : flagMark ms.localFlags lName p.localIdx = .ok ms2.localFlags := by rw [b2]; exact a1
  have hgf : flagMark ms.globalFlags gName p.globalIdx = .ok ms2.globalFlags := by
    have : ms1.globalFlags = ms.globalFlags := a2
    rw [← this]; exact b1
  refine ⟨?_, ?_, ?_, ?_, ?_, ?_, ?_⟩
  · unfold UsedOnce
    rw [hgh, List.pairwise_append]
    refine ⟨hi.once, List.pairwise_singleton _ _, ?_⟩
    intro a ha b hb
    simp only [List.mem_singleton] at hb
    subst hb
    constructor
    · intro he
      simp only [Prod.mk.injEq] at he
      exact hg (he.1 ▸ he.2 ▸ hi.gset a ha)
    · intro he
      simp only [Prod.mk.injEq] at he
      exact hl (he.1 ▸ he.2 ▸ hi.lset a ha)
  · intro t ht
    rw [hgh, List.mem_append, List.mem_singleton] at ht
    rcases ht with ht | rfl
    · exact flagMark_mono hgf (hi.gset t ht)
    · exact flagMark_self hgf
  · intro t ht
    rw [hgh, List.mem_append, List.mem_singleton] at ht
    rcases ht with ht | rfl
    · exact flagMark_mono hlf (hi.lset t ht)
    · exact flagMark_self hlf
  · intro t ht
    rw [hgh, List.mem_append, List.mem_singleton] at ht
    rcases ht with ht | rfl
    · exact hi.gnew t ht
    · exact fun h => hg (hi.gmono _ _ h)
  · intro t ht
    rw [hgh, List.mem_append, List.mem_singleton] at ht
    rcases ht with ht | rfl
    · exact hi.lnew t ht
    · exact fun h => hl (hi.lmono _ _ h)
  · exact fun l i h => flagMark_mono hgf (hi.gmono l i h)
  · exact fun l i h => flagMark_mono hlf (hi.lmono l i h)

/-- Marking a local point alone keeps the invariant. -/
theorem onceInv_markLocal {ms0 ms ms1 : MatchState K} {lName : String} {i : Nat} (hi : OnceInv ms0 ms)
    (h1 : markLocal ms lName i = .ok ms1) : OnceInv ms0 ms1 := by
  obtain ⟨a1, a2, a3⟩ := markLocal_ok h1
  refine ⟨by rw [a3]; exact hi.once, ?_, ?_, ?_, ?_, ?_, ?_⟩
  · rw [a3, a2]; exact hi.gset
  · rw [a3]; exact fun t ht => flagMark_mono a1 (hi.lset t ht)
  · rw [a3]; exact hi.gnew
  · rw [a3]; exact hi.lnew
  · rw [a2]; exact hi.gmono
  · exact fun l i h => flagMark_mono a1 (hi.lmono l i h)

variable [LT K] [DecidableLT K] [LE K] [DecidableLE K] [Zero K] [Add K] [Mul K] [One K] [NatCast K]

theorem dtAddPair_once {ms0 : MatchState K} {c : DTCfg K} {gName lName : String} {pts : List (P3 K)} {l : Nat}
    {s s' : MatchState K × Pairings K} {nb : Nbr K} (hc : c.allowGlobal = false)
    (h : dtAddPair c gName lName pts l s nb = .ok s') (hl : ¬ Flagged s.1.localFlags lName l)
    (hi : OnceInv ms0 s.1) : OnceInv ms0 s'.1 := by
  unfold dtAddPair at h
  simp only [Outcome.bind_eq_ok] at h
  obtain ⟨sk, hsk, h⟩ := h
  split at h
  · simp only [Outcome.ok.injEq] at h; subst h; exact hi
  · rename_i hs
    simp only [Outcome.bind_eq_ok] at h
    obtain ⟨p, _, h⟩ := h
    rw [if_neg (by simp [hc])] at h
    simp only [Outcome.bind_eq_ok, Outcome.ok.injEq] at h
    obtain ⟨m1, h1, m2, h2, rfl⟩ := h
    refine onceInv_push hi ?_ hl h1 h2
    simp only [skipGlobal, hc, Bool.false_eq_true, if_false] at hsk
    simp only [Flagged, hsk]
    simpa using hs

theorem skipLocal_false {c : PtsCfg K} {ms : MatchState K} {lName : String} {l : Nat}
    (hc : c.allowLocal = false) (h : skipLocal c ms lName l = .ok false) :
    ¬ Flagged ms.localFlags lName l := by
  simp only [skipLocal, hc, Bool.false_eq_true, if_false] at h
  simp [Flagged, h]

theorem dtStep_once {ms0 : MatchState K} {c : DTCfg K} {g : GLayer K} {gName lName : String}
    {pts : List (P3 K)} {tl : TLocal K} {s s' : MatchState K × Pairings K} {i : Nat} (hp : c.ppp = 1)
    (hc : c.allowGlobal = false) (hc' : c.allowLocal = false)
    (h : dtStep c g gName lName pts tl s i = .ok s') (hi : OnceInv ms0 s.1) : OnceInv ms0 s'.1 := by
  unfold dtStep at h
  simp only [Outcome.bind_eq_ok] at h
  obtain ⟨l, _, sk, hsk, h⟩ := h
  split at h
  · simp only [Outcome.ok.injEq] at h; subst h; exact hi
  · rename_i hs
    simp only [Bool.not_eq_true] at hs
    subst hs
    simp only [Outcome.bind_eq_ok] at h
    obtain ⟨q, _, h⟩ := h
    simp only [dtSearch, hp, if_true] at h
    have hl := skipLocal_false hc' hsk
    cases hn : g.nnSingle q with
    | none => simp only [hn, Option.toList, dtNbrLoop, Outcome.ok.injEq] at h; subst h; exact hi
    | some nb =>
      simp only [hn, Option.toList, dtNbrLoop] at h
      split at h
      · simp only [Outcome.ok.injEq] at h; subst h; exact hi
      · simp only [Outcome.bind_eq_ok, Outcome.ok.injEq] at h
        obtain ⟨a, ha, rfl⟩ := h
        exact dtAddPair_once hc ha hl hi

/-! InlierRatio: candidates -/

theorem mem_insertLower (p x : PtPair K) (l : List (PtPair K)) : x ∈ insertLower p l ↔ x = p ∨ x ∈ l := by
  induction l with
  | nil => simp [insertLower]
  | cons e es ih =>
    unfold insertLower
    split
    · simp only [List.mem_cons, ih]; tauto
    · simp

theorem insertLower_perm (p : PtPair K) (l : List (PtPair K)) : (insertLower p l).Perm (p :: l) := by
  induction l with
  | nil => simp [insertLower]
  | cons e es ih =>
    unfold insertLower
    split
    · exact (List.Perm.cons e ih).trans (List.Perm.swap p e es)
    · exact List.Perm.refl _

/-- The candidate list after running over some positions: its entries come from these positions, each at most
once. -/
structure CandOK (c : IRCfg K) (g : GLayer K) (lName : String) (pts : List (P3 K)) (tl : TLocal K)
    (ms : MatchState K) (is : List Nat) (cand : List (PtPair K)) : Prop where
  nodup : (cand.map (·.localIdx)).Nodup
  from_ : ∀ p ∈ cand, ∃ i ∈ is, ∃ q nb, tl.index i = .ok p.localIdx ∧ tl.xs[i]? = some q ∧
    g.nnSingle q = some nb ∧ pts[p.localIdx]? = some p.local ∧ p.globalIdx = nb.idx ∧ p.global = nb.pt ∧
    p.errSq = nb.d2 ∧ skipLocal c.toPtsCfg ms lName p.localIdx = .ok false
  all_ : ∀ i ∈ is, ∀ l q nb, tl.index i = .ok l → tl.xs[i]? = some q → g.nnSingle q = some nb →
    skipLocal c.toPtsCfg ms lName l = .ok false →
    ∃ p ∈ cand, p.localIdx = l ∧ p.globalIdx = nb.idx ∧ p.errSq = nb.d2
  sorted : ∀ S : K → Prop, TotalOn S → (∀ p ∈ cand, S p.errSq) → cand.Pairwise fun a b => a.errSq ≤ b.errSq

theorem insertLower_sorted {S : K → Prop} (hS : TotalOn S) (p : PtPair K) (l : List (PtPair K)) (hp : S p.errSq)
    (hl : ∀ x ∈ l, S x.errSq) (h : l.Pairwise fun a b => a.errSq ≤ b.errSq) :
    (insertLower p l).Pairwise fun a b => a.errSq ≤ b.errSq := by
  induction l with
  | nil => simp [insertLower]
  | cons e es ih =>
    rw [List.pairwise_cons] at h
    unfold insertLower
    split
    · rename_i hlt
      rw [List.pairwise_cons]
      refine ⟨?_, ih (fun x hx => hl x (List.mem_cons_of_mem _ hx)) h.2⟩
      intro x hx
      rcases (mem_insertLower _ _ _).mp hx with rfl | hx
      · exact hS.le_of_lt _ _ (hl e List.mem_cons_self) hp hlt
      · exact h.1 x hx
    · rename_i hlt
      rw [List.pairwise_cons, List.pairwise_cons]
      refine ⟨?_, h⟩
      have hlt := hS.le_of_not_lt _ _ (hl e List.mem_cons_self) hp hlt
      intro x hx
      rcases List.mem_cons.mp hx with rfl | hx
      · exact hlt
      · exact hS.trans _ _ _ hp (hl e List.mem_cons_self) (hl x (List.mem_cons_of_mem _ hx)) hlt (h.1 x hx)

theorem irCandStep_ok {c : IRCfg K} {g : GLayer K} {lName : String} {tf : P3 K → P3 K} {pts : List (P3 K)}
    {tl : TLocal K} {ms : MatchState K} {is : List Nat} {acc acc' : List (PtPair K)} {i : Nat}
    (hg : TLGood tf pts tl) (his : ∀ j ∈ is, j < tl.xs.length) (hilt : i < tl.xs.length) (hni : i ∉ is)
    (hc : CandOK c g lName pts tl ms is acc) (h : irCandStep c g lName pts tl ms acc i = .ok acc') :
    CandOK c g lName pts tl ms (is ++ [i]) acc' := by
  have hsame : (∀ l q nb, tl.index i = .ok l → tl.xs[i]? = some q → g.nnSingle q = some nb →
      skipLocal c.toPtsCfg ms lName l = .ok false → False) → CandOK c g lName pts tl ms (is ++ [i]) acc := by
    intro hno
    refine ⟨hc.nodup, ?_, ?_, hc.sorted⟩
    · intro p hp
      obtain ⟨j, hj, r⟩ := hc.from_ p hp
      exact ⟨j, List.mem_append_left _ hj, r⟩
    · intro j hj l q nb h1 h2 h3 h4
      rcases List.mem_append.mp hj with hj | hj
      · exact hc.all_ j hj l q nb h1 h2 h3 h4
      · rw [List.mem_singleton] at hj; subst hj
        exact (hno l q nb h1 h2 h3 h4).elim
  unfold irCandStep at h
  simp only [Outcome.bind_eq_ok] at h
  obtain ⟨l, hl, sk, hsk, h⟩ := h
  split at h
  · rename_i hs
    simp only [Outcome.ok.injEq] at h; subst h
    subst hs
    refine hsame ?_
    intro l' q nb h1 h2 h3 h4
    rw [hl] at h1; cases h1
    rw [hsk] at h4; cases h4
  · rename_i hs
    simp only [Bool.not_eq_true] at hs
    subst hs
    simp only [Outcome.bind_eq_ok, vecAt_ok] at h
    obtain ⟨q, hq, h⟩ := h
    split at h
    · rename_i hn
      simp only [Outcome.ok.injEq] at h; subst h
      refine hsame ?_
      intro l' q' nb h1 h2 h3 h4
      rw [hq] at h2; cases h2
      rw [hn] at h3; cases h3
    · rename_i nb hn
      simp only [Outcome.bind_eq_ok, Outcome.ok.injEq, vecAt_ok] at h
      obtain ⟨p, hp, rfl⟩ := h
      refine ⟨?_, ?_, ?_, fun S hS hall => insertLower_sorted hS _ _ (hall _ ((mem_insertLower _ _ _).mpr (Or.inl rfl)))
        (fun x hx => hall x ((mem_insertLower _ _ _).mpr (Or.inr hx)))
        (hc.sorted S hS fun x hx => hall x ((mem_insertLower _ _ _).mpr (Or.inr hx)))⟩
      · have := (insertLower_perm ⟨nb.idx, l, nb.pt, p, nb.d2⟩ acc).map (·.localIdx)
        rw [this.nodup_iff]
        simp only [List.map_cons, List.nodup_cons]
        refine ⟨?_, hc.nodup⟩
        intro hmem
        obtain ⟨x, hx, hxl⟩ := List.mem_map.mp hmem
        obtain ⟨j, hj, q', nb', h1, _⟩ := hc.from_ x hx
        rw [hxl] at h1
        exact hni (hg.inj j i l (his j hj) hilt h1 hl ▸ hj)
      · intro x hx
        rcases (mem_insertLower _ _ _).mp hx with rfl | hx
        · exact ⟨i, by simp, q, nb, hl, hq, hn, hp, rfl, rfl, rfl, hsk⟩
        · obtain ⟨j, hj, r⟩ := hc.from_ x hx
          exact ⟨j, List.mem_append_left _ hj, r⟩
      · intro j hj l' q' nb' h1 h2 h3 h4
        rcases List.mem_append.mp hj with hj | hj
        · obtain ⟨x, hx, r⟩ := hc.all_ j hj l' q' nb' h1 h2 h3 h4
          exact ⟨x, (mem_insertLower _ _ _).mpr (Or.inr hx), r⟩
        · rw [List.mem_singleton] at hj; subst hj
          rw [hl] at h1; cases h1
          rw [hq] at h2; cases h2
          rw [hn] at h3; cases h3
          exact ⟨_, (mem_insertLower _ _ _).mpr (Or.inl rfl), rfl, rfl, rfl⟩

theorem irCand_ok {c : IRCfg K} {g : GLayer K} {lName : String} {tf : P3 K → P3 K} {pts : List (P3 K)}
    {tl : TLocal K} {ms : MatchState K} (hg : TLGood tf pts tl) (n : Nat) (hn : n ≤ tl.xs.length)
    {cand : List (PtPair K)}
    (h : foldOutcome (irCandStep c g lName pts tl ms) [] (List.range n) = .ok cand) :
    CandOK c g lName pts tl ms (List.range n) cand := by
  induction n generalizing cand with
  | zero =>
    simp only [List.range_zero, foldOutcome, Outcome.ok.injEq] at h
    subst h
    exact ⟨by simp, by simp, by simp, by simp⟩
  | succ n ih =>
    rw [List.range_succ, fold_append] at h
    simp only [Outcome.bind_eq_ok, foldOutcome, Outcome.ok.injEq] at h
    obtain ⟨acc, ha, acc', hb, rfl⟩ := h
    rw [List.range_succ]
    refine irCandStep_ok hg ?_ (by omega) (by simp) (ih (by omega) ha) hb
    intro j hj
    have := List.mem_range.mp hj
    omega

theorem irKeepFold_once {ms0 : MatchState K} {c : IRCfg K} {gName lName : String}
    (hc : c.allowGlobal = false) (ps : List (PtPair K)) (hnd : (ps.map (·.localIdx)).Nodup)
    {s s' : MatchState K × Pairings K}
    (hfree : ∀ p ∈ ps, ¬ Flagged s.1.localFlags lName p.localIdx)
    (h : foldOutcome (irKeepStep c gName lName) s ps = .ok s') (hi : OnceInv ms0 s.1) : OnceInv ms0 s'.1 := by
  induction ps generalizing s with
  | nil => simp only [foldOutcome, Outcome.ok.injEq] at h; subst h; exact hi
  | cons p ps ih =>
    simp only [foldOutcome, Outcome.bind_eq_ok] at h
    obtain ⟨a, ha, hb⟩ := h
    simp only [List.map_cons, List.nodup_cons] at hnd
    have hkeep : OnceInv ms0 a.1 ∧ ∀ x ∈ ps, ¬ Flagged a.1.localFlags lName x.localIdx := by
      unfold irKeepStep at ha
      simp only [Outcome.bind_eq_ok] at ha
      obtain ⟨sk, hsk, ha⟩ := ha
      split at ha
      · simp only [Outcome.ok.injEq] at ha; subst ha
        exact ⟨hi, fun x hx => hfree x (List.mem_cons_of_mem _ hx)⟩
      · rename_i hs
        simp only [Outcome.bind_eq_ok, Outcome.ok.injEq] at ha
        obtain ⟨m1, h1, m2, h2, rfl⟩ := ha
        refine ⟨onceInv_push hi ?_ (hfree p List.mem_cons_self) h1 h2, ?_⟩
        · simp only [skipGlobal, hc, Bool.false_eq_true, if_false] at hsk
          simp only [Flagged, hsk]
          simpa using hs
        · intro x hx hfl
          obtain ⟨a1, a2, a3⟩ := markLocal_ok h1
          obtain ⟨b1, b2, b3⟩ := markGlobal_ok h2
          simp only [b2] at hfl
          rcases flagMark_inv a1 hfl with hfl | ⟨_, hfl⟩
          · exact hfree x (List.mem_cons_of_mem _ hx) hfl
          · exact hnd.1 (hfl ▸ List.mem_map_of_mem hx)
    exact ih hnd.2 hkeep.2 hb hkeep.1

theorem layer_once {ms0 : MatchState K} (m : PtMatcher K) (ho : OneToOne m) {tf : P3 K → P3 K} {g : GLayer K}
    {gName lName : String} {pts : List (P3 K)} {ms : MatchState K} {out : Pairings K}
    {r : MatchState K × Pairings K} (h : m.layer tf g gName lName pts ms out = .ok r) (hi : OnceInv ms0 ms) :
    OnceInv ms0 r.1 := by
  cases m with
  | distanceThreshold c =>
    simp only [PtMatcher.layer, dtLayer, Outcome.bind_def, Outcome.bind_eq_ok] at h
    obtain ⟨_, _, _, _, _, _, _, _, h⟩ := h
    rcases layerFrame_ok h with rfl | ⟨tl, _, _, _, _, h2⟩
    · exact hi
    · exact fold_inv (fun s => OnceInv ms0 s.1) _
        (fun s i s' _ hs hst => dtStep_once ho.1 ho.2.2 ho.2.1 hst hs) _ _ h2 hi
  | inlierRatio c =>
    simp only [PtMatcher.layer, irLayer, Outcome.bind_def, Outcome.bind_eq_ok] at h
    obtain ⟨_, _, _, _, _, _, h⟩ := h
    rcases layerFrame_ok h with rfl | ⟨tl, htl, _, _, _, h2⟩
    · exact hi
    · simp only [Outcome.bind_eq_ok] at h2
      obtain ⟨cand, hcand, h2⟩ := h2
      obtain ⟨tl', htl', hgood, _⟩ := transformLocal_good c.toPtsCfg ho.2.2 tf pts
      rw [htl] at htl'; cases htl'
      have hok := irCand_ok hgood _ (le_refl _) hcand
      unfold irKeep at h2
      split at h2
      · simp at h2
      · split at h2
        · simp at h2
        · refine irKeepFold_once ho.2.1 _ ?_ ?_ h2 hi
          · exact hok.nodup.sublist ((List.take_sublist _ _).map _)
          · intro p hp
            obtain ⟨i, _, q, nb, _, _, _, _, _, _, _, hsk⟩ := hok.from_ p (List.mem_of_mem_take hp)
            exact skipLocal_false ho.1 hsk
  | point2plane c =>
    simp only [PtMatcher.layer, plLayer, Outcome.bind_def, Outcome.bind_eq_ok] at h
    obtain ⟨_, _, h⟩ := h
    rcases layerFrame_ok h with rfl | ⟨tl, htl, _, _, _, h2⟩
    · exact hi
    · refine fold_inv (fun s => OnceInv ms0 s.1) _ (fun s i s' _ hs hst => ?_) _ _ h2 hi
      unfold plStep at hst
      simp only [Outcome.bind_eq_ok] at hst
      obtain ⟨l, _, sk, _, hst⟩ := hst
      split at hst
      · simp only [Outcome.ok.injEq] at hst; subst hst; exact hs
      · simp only [Outcome.bind_eq_ok] at hst
        obtain ⟨q, _, hst⟩ := hst
        split at hst
        · simp only [Outcome.ok.injEq] at hst; subst hst; exact hs
        · split at hst
          · simp only [Outcome.ok.injEq] at hst; subst hst; exact hs
          · simp only [Outcome.bind_eq_ok, Outcome.ok.injEq] at hst
            obtain ⟨p, _, m1, h1, rfl⟩ := hst
            exact onceInv_markLocal hs h1
  | point2line c =>
    simp only [PtMatcher.layer, lnLayer, Outcome.bind_def, Outcome.bind_eq_ok] at h
    obtain ⟨_, _, h⟩ := h
    rcases layerFrame_ok h with rfl | ⟨tl, htl, _, _, _, h2⟩
    · exact hi
    · refine fold_inv (fun s => OnceInv ms0 s.1) _ (fun s i s' _ hs hst => ?_) _ _ h2 hi
      unfold lnStep at hst
      simp only [Outcome.bind_eq_ok] at hst
      obtain ⟨l, _, sk, _, hst⟩ := hst
      split at hst
      · simp only [Outcome.ok.injEq] at hst; subst hst; exact hs
      · simp only [Outcome.bind_eq_ok] at hst
        obtain ⟨q, _, hst⟩ := hst
        split at hst
        · simp only [Outcome.ok.injEq] at hst; subst hst; exact hs
        · simp only [Outcome.bind_eq_ok] at hst
          obtain ⟨e, _, hst⟩ := hst
          split at hst
          · simp only [Outcome.ok.injEq] at hst; subst hst; exact hs
          · split at hst
            · simp only [Outcome.ok.injEq] at hst; subst hst; exact hs
            · simp only [Outcome.bind_eq_ok, Outcome.ok.injEq] at hst
              obtain ⟨p, _, m1, h1, rfl⟩ := hst
              exact onceInv_markLocal hs h1
  | adaptive c => exact ho.elim

/-! Lifting to `impl_match` and `run_matchers`. -/

theorem pointsMatch_rel (R : MatchState K × Pairings K → MatchState K × Pairings K → Prop)
    (hrefl : ∀ s, R s s) (htrans : ∀ a b c, R a b → R b c → R a c) (f : LayerFn K)
    (hf : ∀ g gn ln pts ms out r, f g gn ln pts ms out = .ok r → R (ms, out) r)
    (hw : ∀ (ms : MatchState K) (out : Pairings K) w, R (ms, out) (ms, { out with pointWeights := w }))
    (weights : AMap String (AMap String K)) (globals : AMap String (GLayer K))
    (locals : AMap String (Option (List (P3 K)))) (ms : MatchState K) (r : MatchState K × Pairings K)
    (h : pointsMatch f weights globals locals ms = .ok r) : R (ms, {}) r := by
  refine fold_rel R hrefl htrans (fun s gl s' hs => ?_) _ _ _ h
  refine fold_rel R hrefl htrans (fun s lw s' hs => ?_) _ _ _ hs
  unfold localLayerStep at hs
  split at hs
  · simp only [Outcome.ok.injEq] at hs; subst hs; exact hrefl _
  · simp at hs
  · simp at hs
  · simp only [Outcome.bind_eq_ok] at hs
    obtain ⟨r, hr, hs⟩ := hs
    have := hf _ _ _ _ _ _ _ hr
    split at hs
    · simp only [Outcome.ok.injEq] at hs; subst hs; exact this
    · split at hs
      · simp only [Outcome.ok.injEq] at hs; subst hs; exact this
      · simp only [Outcome.ok.injEq] at hs; subst hs; exact htrans _ _ _ this (hw _ _ _)

/-- Ghost record and pairings grow together in `impl_match`. -/
theorem pointsMatch_logged (m : PtMatcher K) (tf : P3 K → P3 K) (weights : AMap String (AMap String K))
    (globals : AMap String (GLayer K)) (locals : AMap String (Option (List (P3 K)))) (ms : MatchState K)
    (r : MatchState K × Pairings K) (h : pointsMatch (m.layer tf) weights globals locals ms = .ok r) :
    r.1.ghost.map (·.2.2) = ms.ghost.map (·.2.2) ++ r.2.pt2pt := by
  have := pointsMatch_rel (K := K)
    (fun s s' => ∃ new, s'.1.ghost = s.1.ghost ++ new ∧ s'.2.pt2pt = s.2.pt2pt ++ new.map (·.2.2))
    (fun s => ⟨[], by simp, by simp⟩)
    (fun a b c ⟨n1, h1, h2⟩ ⟨n2, h3, h4⟩ => ⟨n1 ++ n2, by simp [h3, h1], by simp [h4, h2]⟩)
    (m.layer tf) (fun g gn ln pts ms out r hr => (layer_grows m hr).pt)
    (fun ms out w => ⟨[], by simp, by simp⟩) weights globals locals ms r h
  obtain ⟨new, h1, h2⟩ := this
  simp only at h1 h2
  rw [h1, h2]; simp

theorem runMatchersLoop_once {Pose : Type} (matchers : List (Matcher K Pose (MatchState K))) (iter : Nat)
    (pose : Pose) (tf : Pose → P3 K → P3 K) (globals : AMap String (GLayer K))
    (locals : AMap String (Option (List (P3 K))))
    (hm : ∀ M ∈ matchers, ∃ m, OneToOne m ∧ M.impl = (m.toMatcher tf globals locals).impl)
    (ms0 ms ms1 : MatchState K) (acc prs : Pairings K) (hi : OnceInv ms0 ms)
    (hacc : ms.ghost.map (·.2.2) = acc.pt2pt)
    (h : runMatchersLoop iter pose matchers ms acc = .ok (ms1, prs)) :
    OnceInv ms0 ms1 ∧ ms1.ghost.map (·.2.2) = prs.pt2pt := by
  induction matchers generalizing ms acc with
  | nil =>
    simp only [runMatchersLoop, Outcome.ok.injEq, Prod.mk.injEq] at h
    obtain ⟨rfl, rfl⟩ := h
    exact ⟨hi, hacc⟩
  | cons M rest ih =>
    simp only [runMatchersLoop, Outcome.bind_eq_ok] at h
    obtain ⟨⟨b, ms', pc⟩, hrun, hrest⟩ := h
    refine ih (fun M hM => hm M (List.mem_cons_of_mem _ hM)) ms' _ ?_ ?_ hrest
    all_goals
      unfold Matcher.run at hrun
      split at hrun
      · simp only [Outcome.ok.injEq, Prod.mk.injEq] at hrun
        obtain ⟨_, rfl, rfl⟩ := hrun
        first | exact hi | simpa [Pairings.pushBackCopy] using hacc
      · split at hrun
        · simp only [Outcome.ok.injEq, Prod.mk.injEq] at hrun
          obtain ⟨_, rfl, rfl⟩ := hrun
          first | exact hi | simpa [Pairings.pushBackCopy] using hacc
        · split at hrun
          · simp only [Outcome.ok.injEq, Prod.mk.injEq] at hrun
            obtain ⟨_, rfl, rfl⟩ := hrun
            first | exact hi | simpa [Pairings.pushBackCopy] using hacc
          · obtain ⟨m, ho, himpl⟩ := hm M List.mem_cons_self
            rw [himpl] at hrun
            simp only [PtMatcher.toMatcher, Outcome.bind_eq_ok, Outcome.ok.injEq, Prod.mk.injEq] at hrun
            obtain ⟨r, hr, _, rfl, rfl⟩ := hrun
            first
            | exact pointsMatch_rel (fun s s' => OnceInv ms0 s.1 → OnceInv ms0 s'.1) (fun _ h => h)
                (fun _ _ _ h1 h2 h => h2 (h1 h)) _
                (fun g gn ln pts ms out r hr hi => layer_once m ho hr hi) (fun _ _ _ h => h) _ _ _ _ _ hr hi
            | rw [pointsMatch_logged m _ _ _ _ _ _ hr, hacc]; simp [Pairings.pushBackCopy]

end Verif.Lemmas
