import Verif.Lemmas.MatchersBase
/-
Accounting of potential pairings for the concrete matchers (C16).
-/
namespace Verif.Lemmas
open Verif Verif.Spec
variable {K : Type}

theorem count_bound {α : Type} (key : α → Nat) (k : Nat) (n : Nat) (l : List α) (h1 : ∀ x ∈ l, key x < n)
    (h2 : ∀ j, j < n → (l.filter fun x => decide (key x = j)).length ≤ k) : l.length ≤ n * k := by
  induction n generalizing l with
  | zero =>
    cases l with
    | nil => simp
    | cons x l => exact absurd (h1 x List.mem_cons_self) (by omega)
  | succ n ih =>
    have hsplit := List.length_eq_length_filter_add (l := l) (fun x => decide (key x = n))
    have h3 := h2 n (by omega)
    have h4 := ih (l.filter fun x => !decide (key x = n)) (by
        intro x hx
        rw [List.mem_filter] at hx
        have := h1 x hx.1
        simp only [Bool.not_eq_true', decide_eq_false_iff_not] at hx
        omega) (by
        intro j hj
        refine le_trans ?_ (h2 j (by omega))
        rw [List.filter_filter]
        apply List.Sublist.length_le
        apply List.monotone_filter_right
        intro x hx
        simp only [Bool.and_eq_true] at hx
        exact hx.1)
    rw [Nat.succ_mul]
    omega

theorem nodup_bound (l : List Nat) (n : Nat) (hnd : l.Nodup) (h : ∀ x ∈ l, x < n) : l.length ≤ n := by
  have : l.Subperm (List.range n) := List.subperm_of_subset hnd fun x hx => List.mem_range.mpr (h x hx)
  simpa using this.length_le

/-- The lists of lines and planes are as before. -/
structure OnlyPt (s s' : MatchState K × Pairings K) : Prop where
  ln : s'.2.pt2ln = s.2.pt2ln
  pl : s'.2.pt2pl = s.2.pt2pl

theorem OnlyPt.refl (s : MatchState K × Pairings K) : OnlyPt s s := ⟨rfl, rfl⟩
theorem OnlyPt.trans (a b c : MatchState K × Pairings K) (h1 : OnlyPt a b) (h2 : OnlyPt b c) : OnlyPt a c :=
  ⟨by rw [h2.1, h1.1], by rw [h2.2, h1.2]⟩

variable [LT K] [DecidableLT K] [LE K] [DecidableLE K] [Zero K] [Add K] [Mul K] [One K] [NatCast K]

theorem dtNbrLoop_onlyPt {c : DTCfg K} {gName lName : String} {pts : List (P3 K)} {l : Nat} {lim : K}
    {s s' : MatchState K × Pairings K} {nbs : List (Nbr K)}
    (h : dtNbrLoop c gName lName pts l lim s nbs = .ok s') : OnlyPt s s' := by
  induction nbs generalizing s with
  | nil => simp only [dtNbrLoop, Outcome.ok.injEq] at h; subst h; exact .refl _
  | cons nb nbs ih =>
    simp only [dtNbrLoop] at h
    split at h
    · simp only [Outcome.ok.injEq] at h; subst h; exact .refl _
    · simp only [Outcome.bind_eq_ok] at h
      obtain ⟨a, ha, hb⟩ := h
      refine .trans _ _ _ ?_ (ih hb)
      unfold dtAddPair at ha
      simp only [Outcome.bind_eq_ok] at ha
      obtain ⟨sk, _, ha⟩ := ha
      split at ha
      · simp only [Outcome.ok.injEq] at ha; subst ha; exact .refl _
      · simp only [Outcome.bind_eq_ok] at ha
        obtain ⟨p, _, ha⟩ := ha
        split at ha
        · simp only [Outcome.ok.injEq] at ha; subst ha; exact ⟨rfl, rfl⟩
        · simp only [Outcome.bind_eq_ok, Outcome.ok.injEq] at ha
          obtain ⟨m1, h1, m2, h2, rfl⟩ := ha
          exact ⟨rfl, rfl⟩

theorem dtStep_onlyPt {c : DTCfg K} {g : GLayer K} {gName lName : String} {pts : List (P3 K)} {tl : TLocal K}
    {s s' : MatchState K × Pairings K} {i : Nat} (h : dtStep c g gName lName pts tl s i = .ok s') :
    OnlyPt s s' := by
  unfold dtStep at h
  simp only [Outcome.bind_eq_ok] at h
  obtain ⟨l, _, sk, _, h⟩ := h
  split at h
  · simp only [Outcome.ok.injEq] at h; subst h; exact .refl _
  · simp only [Outcome.bind_eq_ok] at h
    obtain ⟨q, _, h⟩ := h
    exact dtNbrLoop_onlyPt h

theorem dtSearch_len {c : DTCfg K} {g : GLayer K} (hb : SearchBounded g) (q : P3 K) :
    (dtSearch c g q).length ≤ c.ppp := by
  unfold dtSearch
  split
  · rename_i h; rw [h]; cases g.nnSingle q <;> simp
  · split
    · exact hb.2 _ _ _
    · exact hb.1 _ _

/-- Bookkeeping relation: at most as many pairings added as potential pairings counted. -/
def Acc (s s' : MatchState K × Pairings K) : Prop :=
  s'.2.size + s.2.potential ≤ s.2.size + s'.2.potential

theorem Acc.refl (s : MatchState K × Pairings K) : Acc s s := by unfold Acc; omega
theorem Acc.trans (a b c : MatchState K × Pairings K) (h1 : Acc a b) (h2 : Acc b c) : Acc a c := by
  unfold Acc at *; omega

theorem dtLayer_acc {c : DTCfg K} {tf : P3 K → P3 K} {g : GLayer K} {gName lName : String} {pts : List (P3 K)}
    {ms : MatchState K} {out : Pairings K} {r : MatchState K × Pairings K} (hs : ShuffleOK c.toPtsCfg)
    (hb : SearchBounded g) (h : dtLayer c tf g gName lName pts ms out = .ok r) : Acc (ms, out) r := by
  have hg := layer_grows (.distanceThreshold c) h
  have honly : r.2.pt2ln = out.pt2ln ∧ r.2.pt2pl = out.pt2pl := by
    have h' := h
    unfold dtLayer at h'
    simp only [Outcome.bind_def, Outcome.bind_eq_ok] at h'
    obtain ⟨_, _, _, _, _, _, _, _, h'⟩ := h'
    rcases layerFrame_ok h' with rfl | ⟨tl, _, _, _, _, h2⟩
    · exact ⟨rfl, rfl⟩
    · have := fold_rel OnlyPt OnlyPt.refl OnlyPt.trans (fun _ _ _ h => dtStep_onlyPt h) _ _ _ h2
      exact ⟨this.1, this.2⟩
  obtain ⟨_, hpot, hcase⟩ := dtLayer_ok hs h
  unfold Acc Pairings.size
  simp only
  rw [honly.1, honly.2, hg.ll, hg.pp, hpot]
  rcases hcase with ⟨_, h2, _⟩ | ⟨new, hi⟩
  · rw [h2]; simp only; omega
  · have : new.length ≤ pts.length * c.ppp := by
      apply count_bound (fun pr => pr.localIdx) c.ppp
      · exact fun x hx => (hi.sound x hx).1
      · intro j hj
        refine le_trans (hi.count j pts[j] (List.getElem?_eq_getElem hj)) ?_
        refine le_trans (List.takeWhile_sublist _).length_le (dtSearch_len hb _)
    rw [hi.eq, List.length_append]; simp only; omega

/-- The loop of a matcher that leaves the potential counter and the other lists alone. -/
theorem irKeepFold_only {c : IRCfg K} {gName lName : String} (ps : List (PtPair K))
    {s s' : MatchState K × Pairings K} (h : foldOutcome (irKeepStep c gName lName) s ps = .ok s') :
    OnlyPt s s' ∧ s'.2.potential = s.2.potential := by
  refine fold_rel (fun s s' => OnlyPt s s' ∧ s'.2.potential = s.2.potential) (fun s => ⟨.refl _, rfl⟩)
    (fun a b c h1 h2 => ⟨.trans _ _ _ h1.1 h2.1, by rw [h2.2, h1.2]⟩) (fun s p s' ha => ?_) _ _ _ h
  unfold irKeepStep at ha
  simp only [Outcome.bind_eq_ok] at ha
  obtain ⟨sk, _, ha⟩ := ha
  split at ha
  · simp only [Outcome.ok.injEq] at ha; subst ha; exact ⟨.refl _, rfl⟩
  · simp only [Outcome.bind_eq_ok, Outcome.ok.injEq] at ha
    obtain ⟨m1, h1, m2, h2, rfl⟩ := ha
    exact ⟨⟨rfl, rfl⟩, rfl⟩

theorem irLayer_acc {c : IRCfg K} {tf : P3 K → P3 K} {g : GLayer K} {gName lName : String} {pts : List (P3 K)}
    {ms : MatchState K} {out : Pairings K} {r : MatchState K × Pairings K} (hs : ShuffleOK c.toPtsCfg)
    (h : irLayer c tf g gName lName pts ms out = .ok r) : Acc (ms, out) r := by
  have hg := layer_grows (.inlierRatio c) h
  unfold irLayer at h
  simp only [Outcome.bind_def, Outcome.bind_eq_ok] at h
  obtain ⟨_, _, _, _, _, _, h⟩ := h
  unfold Acc Pairings.size
  rcases layerFrame_ok h with rfl | ⟨tl, htl, _, _, _, h2⟩
  · simp only; omega
  · obtain ⟨tl', htl', hgood, _⟩ := transformLocal_good c.toPtsCfg hs tf pts
    rw [htl] at htl'; cases htl'
    simp only [Outcome.bind_eq_ok] at h2
    obtain ⟨cand, hcand, h2⟩ := h2
    have hok := irCand_ok hgood _ (le_refl _) hcand
    have hclen : cand.length ≤ pts.length := by
      have := nodup_bound (cand.map (·.localIdx)) pts.length hok.nodup (by
        intro x hx
        obtain ⟨p, hp, rfl⟩ := List.mem_map.mp hx
        obtain ⟨_, _, _, _, _, _, _, h4, _⟩ := hok.from_ p hp
        exact (List.getElem?_eq_some_iff.mp h4).1)
      simpa using this
    unfold irKeep at h2
    split at h2
    · simp at h2
    · split at h2
      · simp at h2
      · obtain ⟨honly, hpot⟩ := irKeepFold_only _ h2
        obtain ⟨new, h3, h4, _⟩ := irKeepFold_new _ h2
        have := h4.length_le
        rw [List.length_take] at this
        simp only
        rw [honly.1, honly.2, hg.ll, hg.pp, hpot, h3, List.length_append]
        simp only
        omega

theorem plLayer_acc {c : PlCfg K} {tf : P3 K → P3 K} {g : GLayer K} {gName lName : String} {pts : List (P3 K)}
    {ms : MatchState K} {out : Pairings K} {r : MatchState K × Pairings K} (hs : ShuffleOK c.toPtsCfg)
    (h : plLayer c tf g gName lName pts ms out = .ok r) : Acc (ms, out) r := by
  have hg := layer_grows (.point2plane c) (gName := gName) h
  unfold plLayer at h
  simp only [Outcome.bind_def, Outcome.bind_eq_ok] at h
  obtain ⟨_, _, h⟩ := h
  unfold Acc Pairings.size
  rcases layerFrame_ok h with rfl | ⟨tl, htl, _, _, _, h2⟩
  · simp only; omega
  · obtain ⟨tl', htl', hgood, _⟩ := transformLocal_good c.toPtsCfg hs tf pts
    rw [htl] at htl'; cases htl'
    obtain ⟨ls, new, hp⟩ := perPoint_fold hgood (fun s i s' h => (plStep_one (c := c) hgood h).1) _
      (le_refl _) h2
    have hlen : new.length ≤ pts.length := by
      rw [← hp.rel.length_eq]
      refine nodup_bound _ _ hp.nodup ?_
      intro l hl
      obtain ⟨i, hi, hil⟩ := hp.src l hl
      obtain ⟨l', hl', hlt, _⟩ := hgood.tot i hi
      rw [hil] at hl'; cases hl'; exact hlt
    have hrest := fold_rel (fun s s' : MatchState K × Pairings K => s'.2.pt2pt = s.2.pt2pt ∧
        s'.2.pt2ln = s.2.pt2ln ∧ s'.2.potential = s.2.potential) (fun s => ⟨rfl, rfl, rfl⟩)
      (fun a b c h1 h2 => ⟨by rw [h2.1, h1.1], by rw [h2.2.1, h1.2.1], by rw [h2.2.2, h1.2.2]⟩)
      (fun s i s' hst => by
        unfold plStep at hst
        simp only [Outcome.bind_eq_ok] at hst
        obtain ⟨l, _, sk, _, hst⟩ := hst
        split at hst
        · simp only [Outcome.ok.injEq] at hst; subst hst; exact ⟨rfl, rfl, rfl⟩
        · simp only [Outcome.bind_eq_ok] at hst
          obtain ⟨q, _, hst⟩ := hst
          split at hst
          · simp only [Outcome.ok.injEq] at hst; subst hst; exact ⟨rfl, rfl, rfl⟩
          · split at hst
            · simp only [Outcome.ok.injEq] at hst; subst hst; exact ⟨rfl, rfl, rfl⟩
            · simp only [Outcome.bind_eq_ok, Outcome.ok.injEq] at hst
              obtain ⟨p, _, m1, h1, rfl⟩ := hst
              exact ⟨rfl, rfl, rfl⟩) _ _ _ h2
    have heq := hp.eq
    simp only at heq hrest ⊢
    rw [hrest.1, hrest.2.1, hg.ll, hg.pp, hrest.2.2, heq, List.length_append]
    simp only
    omega

theorem lnLayer_acc {c : LnCfg K} {tf : P3 K → P3 K} {g : GLayer K} {gName lName : String} {pts : List (P3 K)}
    {ms : MatchState K} {out : Pairings K} {r : MatchState K × Pairings K} (hs : ShuffleOK c.toPtsCfg)
    (h : lnLayer c tf g gName lName pts ms out = .ok r) : Acc (ms, out) r := by
  have hg := layer_grows (.point2line c) (gName := gName) h
  unfold lnLayer at h
  simp only [Outcome.bind_def, Outcome.bind_eq_ok] at h
  obtain ⟨_, _, h⟩ := h
  unfold Acc Pairings.size
  rcases layerFrame_ok h with rfl | ⟨tl, htl, _, _, _, h2⟩
  · simp only; omega
  · obtain ⟨tl', htl', hgood, _⟩ := transformLocal_good c.toPtsCfg hs tf pts
    rw [htl] at htl'; cases htl'
    obtain ⟨ls, new, hp⟩ := perPoint_fold hgood (fun s i s' h => lnStep_one (c := c) hgood h) _
      (le_refl _) h2
    have hlen : new.length ≤ pts.length := by
      rw [← hp.rel.length_eq]
      refine nodup_bound _ _ hp.nodup ?_
      intro l hl
      obtain ⟨i, hi, hil⟩ := hp.src l hl
      obtain ⟨l', hl', hlt, _⟩ := hgood.tot i hi
      rw [hil] at hl'; cases hl'; exact hlt
    have hrest := fold_rel (fun s s' : MatchState K × Pairings K => s'.2.pt2pt = s.2.pt2pt ∧
        s'.2.pt2pl = s.2.pt2pl ∧ s'.2.potential = s.2.potential) (fun s => ⟨rfl, rfl, rfl⟩)
      (fun a b c h1 h2 => ⟨by rw [h2.1, h1.1], by rw [h2.2.1, h1.2.1], by rw [h2.2.2, h1.2.2]⟩)
      (fun s i s' hst => by
        unfold lnStep at hst
        simp only [Outcome.bind_eq_ok] at hst
        obtain ⟨l, _, sk, _, hst⟩ := hst
        split at hst
        · simp only [Outcome.ok.injEq] at hst; subst hst; exact ⟨rfl, rfl, rfl⟩
        · simp only [Outcome.bind_eq_ok] at hst
          obtain ⟨q, _, hst⟩ := hst
          split at hst
          · simp only [Outcome.ok.injEq] at hst; subst hst; exact ⟨rfl, rfl, rfl⟩
          · simp only [Outcome.bind_eq_ok] at hst
            obtain ⟨e, _, hst⟩ := hst
            split at hst
            · simp only [Outcome.ok.injEq] at hst; subst hst; exact ⟨rfl, rfl, rfl⟩
            · split at hst
              · simp only [Outcome.ok.injEq] at hst; subst hst; exact ⟨rfl, rfl, rfl⟩
              · simp only [Outcome.bind_eq_ok, Outcome.ok.injEq] at hst
                obtain ⟨p, _, m1, h1, rfl⟩ := hst
                exact ⟨rfl, rfl, rfl⟩) _ _ _ h2
    have heq := hp.eq
    simp only at heq hrest ⊢
    rw [hrest.1, hrest.2.1, hg.ll, hg.pp, hrest.2.2, heq, List.length_append]
    simp only
    omega

theorem adChunks_len {c : AdCfg K} {pts : List (P3 K)} {mc : K} (hk : 1 ≤ c.maxPt2Pt)
    {cands : List (List (PtPair K))} {chunks : List (List (PtPair K) × List (PtPlPair K))}
    (h : List.Forall₂ (fun m ch => AdChunk c pts mc m ch.1 ch.2) cands chunks) :
    ((chunks.map (·.1)).flatten).length + ((chunks.map (·.2)).flatten).length ≤ cands.length * c.maxPt2Pt := by
  induction h with
  | nil => simp
  | @cons m ch cands chunks h1 _ ih =>
    simp only [List.map_cons, List.flatten_cons, List.length_append, List.length_cons, Nat.succ_mul]
    rcases h1.kind with ⟨a, b, p0, rest, hb, _⟩ | ⟨a, b⟩
    · rw [a, hb]; simp only [List.length_nil, List.length_cons]; omega
    · rw [a]; simp only [List.length_nil]; omega

theorem adCandFold_len {c : AdCfg K} {g : GLayer K} {lName : String} {pts : List (P3 K)} {tl : TLocal K}
    {ms : MatchState K} (l : List Nat) {s s' : AdState K}
    (h : foldOutcome (adCandStep c g lName pts tl ms) s l = .ok s') : s'.cand.length = s.cand.length := by
  refine fold_rel (fun s s' : AdState K => s'.cand.length = s.cand.length) (fun _ => rfl)
    (fun a b c h1 h2 => by rw [h2, h1]) (fun s i s' hst => ?_) _ _ _ h
  have key : ∀ (nbs : List (Nbr K)) (l k : Nat) (s s' : AdState K), adNbrLoop c pts l k s nbs = .ok s' →
      s'.cand.length = s.cand.length := by
    intro nbs l
    induction nbs with
    | nil => intro k s s' h; simp only [adNbrLoop, Outcome.ok.injEq] at h; subst h; rfl
    | cons nb nbs ih =>
      intro k s s' h
      simp only [adNbrLoop] at h
      split at h
      · exact ih _ _ _ h
      · simp only [Outcome.bind_eq_ok] at h
        obtain ⟨cand', hc, h⟩ := h
        rw [ih _ _ _ h]
        simp only
        unfold adAddPair at hc
        split at hc
        · simp at hc
        · split at hc
          · simp only [Outcome.ok.injEq] at hc; rw [hc]
          · simp only [Outcome.bind_eq_ok, Outcome.ok.injEq] at hc
            obtain ⟨p, _, rfl⟩ := hc
            simp
  unfold adCandStep at hst
  simp only [Outcome.bind_eq_ok] at hst
  obtain ⟨l, _, sk, _, hst⟩ := hst
  split at hst
  · simp only [Outcome.ok.injEq] at hst; subst hst; rfl
  · simp only [Outcome.bind_eq_ok] at hst
    obtain ⟨q, _, hst⟩ := hst
    exact key _ _ _ _ _ hst

theorem adOutStep_ln {c : AdCfg K} {gName lName : String} {pts : List (P3 K)} {mc : K}
    {s s' : MatchState K × Pairings K} {m : List (PtPair K)}
    (h : adOutStep c gName lName pts mc s m = .ok s') : s'.2.pt2ln = s.2.pt2ln := by
  unfold adOutStep at h
  simp only [Outcome.bind_eq_ok] at h
  obtain ⟨pl, hpl, h⟩ := h
  have key : ∀ (ps : List (PtPair K)) (i : Nat) (e0 : K) (s s' : MatchState K × Pairings K),
      adPtLoop c gName lName mc e0 i s ps = .ok s' → s'.2.pt2ln = s.2.pt2ln := by
    intro ps
    induction ps with
    | nil => intro i e0 s s' h; simp only [adPtLoop, Outcome.ok.injEq] at h; subst h; rfl
    | cons p ps ih =>
      intro i e0 s s' h
      simp only [adPtLoop, Outcome.bind_eq_ok] at h
      obtain ⟨sk, _, h⟩ := h
      split at h
      · exact ih _ _ _ _ h
      · split at h
        · exact ih _ _ _ _ h
        · split at h
          · simp only [Outcome.ok.injEq] at h; subst h; rfl
          · split at h
            · have := ih _ _ _ _ h; exact this
            · simp only [Outcome.bind_eq_ok] at h
              obtain ⟨m1, _, h⟩ := h
              have := ih _ _ _ _ h; exact this
  split at h
  · simp only [Outcome.bind_eq_ok, Outcome.ok.injEq] at h
    obtain ⟨p, hp, m1, h1, rfl⟩ := h
    rfl
  · simp only [Outcome.ok.injEq] at h; subst h; rfl
  · exact key _ _ _ _ _ h

theorem adLayer_acc {c : AdCfg K} {tf : P3 K → P3 K} {g : GLayer K} {gName lName : String} {pts : List (P3 K)}
    {ms : MatchState K} {out : Pairings K} {r : MatchState K × Pairings K} (hs : ShuffleOK c.toPtsCfg)
    (hk : 1 ≤ c.maxPt2Pt) (h : adLayer c tf g gName lName pts ms out = .ok r) : Acc (ms, out) r := by
  have hg := layer_grows (.adaptive c) h
  unfold adLayer at h
  simp only [Outcome.bind_def, Outcome.bind_eq_ok] at h
  obtain ⟨_, _, h⟩ := h
  unfold Acc Pairings.size
  rcases layerFrame_ok h with rfl | ⟨tl, htl, _, _, _, h2⟩
  · simp only; omega
  · obtain ⟨tl', htl', hgood, _⟩ := transformLocal_good c.toPtsCfg hs tf pts
    rw [htl] at htl'; cases htl'
    simp only [Outcome.bind_eq_ok] at h2
    obtain ⟨a, ha, h2⟩ := h2
    have hclen := adCandFold_len _ ha
    simp only [List.length_replicate] at hclen
    unfold adOut at h2
    split at h2
    · simp at h2
    · have hln := fold_rel (fun s s' : MatchState K × Pairings K => s'.2.pt2ln = s.2.pt2ln) (fun _ => rfl)
        (fun a b c h1 h2 => by rw [h2, h1]) (fun _ _ _ h => adOutStep_ln h) _ _ _ h2
      obtain ⟨hpot, chunks, h3, h4, h5⟩ := adOut_chunks _ h2
      have hlen := adChunks_len hk h5
      have hmono : a.cand.length * c.maxPt2Pt ≤ pts.length * c.maxPt2Pt :=
        Nat.mul_le_mul_right _ (by rw [hclen]; exact hgood.le)
      simp only at hln h3 h4 hpot ⊢
      rw [hln, hg.ll, hg.pp, hpot, h3, h4, List.length_append, List.length_append]
      simp only
      omega

/-- Each point matcher counts at least as many potential pairings as pairings it makes. -/
theorem layer_acc (m : PtMatcher K) (hm : AccCfg m) {tf : P3 K → P3 K} {g : GLayer K} (hb : SearchBounded g)
    {gName lName : String} {pts : List (P3 K)} {ms : MatchState K} {out : Pairings K}
    {r : MatchState K × Pairings K} (h : m.layer tf g gName lName pts ms out = .ok r) : Acc (ms, out) r := by
  cases m with
  | distanceThreshold c => exact dtLayer_acc hm hb h
  | inlierRatio c => exact irLayer_acc hm h
  | point2plane c => exact plLayer_acc (gName := gName) hm h
  | point2line c => exact lnLayer_acc (gName := gName) hm h
  | adaptive c => exact adLayer_acc hm.2 hm.1 h

/-- `impl_match`: not more pairings than potential pairings. -/
theorem pointsMatch_acc (m : PtMatcher K) (hm : AccCfg m) (tf : P3 K → P3 K)
    (weights : AMap String (AMap String K)) (globals : AMap String (GLayer K))
    (hb : ∀ gl ∈ globals, SearchBounded gl.2)
    (locals : AMap String (Option (List (P3 K)))) (ms : MatchState K) (r : MatchState K × Pairings K)
    (h : pointsMatch (m.layer tf) weights globals locals ms = .ok r) : r.2.size ≤ r.2.potential := by
  have key := fold_inv (fun s : MatchState K × Pairings K => s.2.size ≤ s.2.potential) globals
    (step := globalLayerStep (m.layer tf) weights locals) (fun s gl s' hgl hs hst => by
      refine fold_inv (fun s : MatchState K × Pairings K => s.2.size ≤ s.2.potential) _
        (step := localLayerStep (m.layer tf) gl.1 gl.2 locals) (fun s lw s' _ hs hst => ?_) _ _ hst hs
      unfold localLayerStep at hst
      split at hst
      · simp only [Outcome.ok.injEq] at hst; subst hst; exact hs
      · simp at hst
      · simp at hst
      · simp only [Outcome.bind_eq_ok] at hst
        obtain ⟨r, hr, hst⟩ := hst
        have hacc := layer_acc m hm (hb gl hgl) hr
        unfold Acc at hacc
        have : r.2.size ≤ r.2.potential := by simp only at hacc; omega
        split at hst
        · simp only [Outcome.ok.injEq] at hst; subst hst; exact this
        · split at hst
          · simp only [Outcome.ok.injEq] at hst; subst hst; exact this
          · simp only [Outcome.ok.injEq] at hst; subst hst; exact this) (ms, {}) r h
  exact key (by simp [Pairings.size])

end Verif.Lemmas
