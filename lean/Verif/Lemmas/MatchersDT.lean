import Verif.Lemmas.MatchersOnce
/-
Matcher_Points_DistanceThreshold: exact output, memory safety (C19, C20).
-/
namespace Verif.Lemmas
open Verif Verif.Spec
variable {K : Type} [LT K] [DecidableLT K] [LE K] [DecidableLE K] [Zero K] [Add K] [Mul K] [One K] [NatCast K]

theorem fold_each {σ ι : Type} {step : σ → ι → Outcome σ} {l : List ι} {s s' : σ}
    (h : foldOutcome step s l = .ok s') : ∀ i ∈ l, ∃ a b, step a i = .ok b := by
  induction l generalizing s with
  | nil => simp
  | cons j l ih =>
    simp only [foldOutcome, Outcome.bind_eq_ok] at h
    obtain ⟨a, ha, hb⟩ := h
    intro i hi
    rcases List.mem_cons.mp hi with rfl | hi
    · exact ⟨_, _, ha⟩
    · exact ih hb i hi

theorem dtStep_index {c : DTCfg K} {g : GLayer K} {gName lName : String} {pts : List (P3 K)} {tl : TLocal K}
    {s s' : MatchState K × Pairings K} {i : Nat} (h : dtStep c g gName lName pts tl s i = .ok s') :
    ∃ l, tl.index i = .ok l := by
  unfold dtStep at h
  simp only [Outcome.bind_eq_ok] at h
  obtain ⟨l, hl, _⟩ := h
  exact ⟨l, hl⟩

/-- If the loop over the whole cloud ends normally, no subset was taken. -/
theorem dtFold_all {c : DTCfg K} {tf : P3 K → P3 K} {g : GLayer K} {gName lName : String} {pts : List (P3 K)}
    {tl : TLocal K} {s s' : MatchState K × Pairings K} (hs : ShuffleOK c.toPtsCfg)
    (htl : transformLocal c.toPtsCfg tf pts = .ok tl)
    (h : foldOutcome (dtStep c g gName lName pts tl) s (List.range pts.length) = .ok s') :
    (c.maxLocal = 0 ∨ pts.length ≤ c.maxLocal) ∧ tl.idxs = none ∧ tl.xs = pts.map tf := by
  obtain ⟨tl', htl', _, h1, h2⟩ := transformLocal_good c.toPtsCfg hs tf pts
  rw [htl] at htl'; cases htl'
  by_cases hc : c.maxLocal = 0 ∨ pts.length ≤ c.maxLocal
  · exact ⟨hc, h1 hc⟩
  · exfalso
    obtain ⟨h3, h4⟩ := h2 hc
    have hmem : c.maxLocal ∈ List.range pts.length := by rw [List.mem_range]; omega
    obtain ⟨a, b, hab⟩ := fold_each h _ hmem
    obtain ⟨l, hl⟩ := dtStep_index hab
    simp only [TLocal.index, h3, vecAt_ok] at hl
    obtain ⟨hlt, _⟩ := List.getElem?_eq_some_iff.mp hl
    rw [(hs c.maxLocal).length_eq, List.length_range] at hlt
    omega

/-- The pairing of local point `l` at `p` with a neighbour. -/
def mkPair (l : Nat) (p : P3 K) (nb : Nbr K) : PtPair K := ⟨nb.idx, l, nb.pt, p, nb.d2⟩

theorem dtAddPair_new {c : DTCfg K} {gName lName : String} {pts : List (P3 K)} {l : Nat} {p : P3 K}
    {s s' : MatchState K × Pairings K} {nb : Nbr K} (hp : pts[l]? = some p)
    (h : dtAddPair c gName lName pts l s nb = .ok s') :
    (s'.2.pt2pt = s.2.pt2pt ++ [mkPair l p nb] ∨
      (s'.2.pt2pt = s.2.pt2pt ∧ c.allowGlobal = false ∧ Flagged s'.1.globalFlags gName nb.idx)) ∧
    ∀ ln j, Flagged s'.1.localFlags ln j → Flagged s.1.localFlags ln j ∨ (ln = lName ∧ j = l) := by
  unfold dtAddPair at h
  simp only [Outcome.bind_eq_ok] at h
  obtain ⟨sk, hsk, h⟩ := h
  split at h
  · rename_i hs
    simp only [Outcome.ok.injEq] at h; subst h
    refine ⟨Or.inr ⟨rfl, ?_⟩, fun _ _ h => Or.inl h⟩
    subst hs
    unfold skipGlobal at hsk
    split at hsk
    · simp at hsk
    · rename_i hg
      exact ⟨by simpa using hg, hsk⟩
  · simp only [Outcome.bind_eq_ok, vecAt_ok] at h
    obtain ⟨p', hp', h⟩ := h
    rw [hp] at hp'; cases hp'
    split at h
    · simp only [Outcome.ok.injEq] at h; subst h
      exact ⟨Or.inl rfl, fun _ _ h => Or.inl h⟩
    · simp only [Outcome.bind_eq_ok, Outcome.ok.injEq] at h
      obtain ⟨m1, h1, m2, h2, rfl⟩ := h
      refine ⟨Or.inl rfl, ?_⟩
      intro ln j hf
      obtain ⟨a1, _, _⟩ := markLocal_ok h1
      obtain ⟨_, b2, _⟩ := markGlobal_ok h2
      simp only [b2] at hf
      exact flagMark_inv a1 hf

/-- What one local point adds. -/
structure NbrNew (c : DTCfg K) (gName lName : String) (l : Nat) (p : P3 K) (cands : List (Nbr K))
    (s s' : MatchState K × Pairings K) (new : List (PtPair K)) : Prop where
  eq : s'.2.pt2pt = s.2.pt2pt ++ new
  sub : List.Sublist new (cands.map (mkPair l p))
  compl : ∀ nb ∈ cands, mkPair l p nb ∈ new ∨ (c.allowGlobal = false ∧ Flagged s'.1.globalFlags gName nb.idx)
  free : ∀ ln j, Flagged s'.1.localFlags ln j → Flagged s.1.localFlags ln j ∨ (ln = lName ∧ j = l)

theorem dtNbrLoop_new {c : DTCfg K} {gName lName : String} {pts : List (P3 K)} {l : Nat} {p : P3 K} {lim : K}
    {s s' : MatchState K × Pairings K} {nbs : List (Nbr K)} (hp : pts[l]? = some p)
    (h : dtNbrLoop c gName lName pts l lim s nbs = .ok s') :
    ∃ new, NbrNew c gName lName l p (nbs.takeWhile fun nb => decide (¬ lim ≤ nb.d2)) s s' new := by
  induction nbs generalizing s with
  | nil =>
    simp only [dtNbrLoop, Outcome.ok.injEq] at h; subst h
    exact ⟨[], by simp, by simp, by simp, fun _ _ h => Or.inl h⟩
  | cons nb nbs ih =>
    simp only [dtNbrLoop] at h
    split at h
    · rename_i hge
      simp only [Outcome.ok.injEq] at h; subst h
      have : lim ≤ nb.d2 := hge
      exact ⟨[], by simp, by simp, by simp [this], fun _ _ h => Or.inl h⟩
    · rename_i hlt
      have hlt : ¬ lim ≤ nb.d2 := hlt
      simp only [Outcome.bind_eq_ok] at h
      obtain ⟨a, ha, hb⟩ := h
      obtain ⟨new, hn⟩ := ih hb
      have hgr := dtNbrLoop_grows hb
      obtain ⟨h1, h2⟩ := dtAddPair_new hp ha
      have htw : (nb :: nbs).takeWhile (fun nb => decide (¬ lim ≤ nb.d2)) =
          nb :: nbs.takeWhile (fun nb => decide (¬ lim ≤ nb.d2)) := by simp [hlt]
      rw [htw]
      have hfree : ∀ ln j, Flagged s'.1.localFlags ln j →
          Flagged s.1.localFlags ln j ∨ (ln = lName ∧ j = l) := by
        intro ln j hf
        rcases hn.free ln j hf with hf | hf
        · exact h2 ln j hf
        · exact Or.inr hf
      rcases h1 with h1 | ⟨h1, hg, hfl⟩
      · refine ⟨mkPair l p nb :: new, by rw [hn.eq, h1]; simp, ?_, ?_, hfree⟩
        · simp only [List.map_cons]; exact hn.sub.cons_cons _
        · intro x hx
          rcases List.mem_cons.mp hx with rfl | hx
          · exact Or.inl List.mem_cons_self
          · rcases hn.compl x hx with h | h
            · exact Or.inl (List.mem_cons_of_mem _ h)
            · exact Or.inr h
      · refine ⟨new, by rw [hn.eq, h1], ?_, ?_, hfree⟩
        · simp only [List.map_cons]; exact hn.sub.cons _
        · intro x hx
          rcases List.mem_cons.mp hx with rfl | hx
          · exact Or.inr ⟨hg, hgr.gf _ _ hfl⟩
          · exact hn.compl x hx

/-- Candidates for a local point: the reported neighbours up to the first that fails the test. -/
def dtCands (c : DTCfg K) (tf : P3 K → P3 K) (g : GLayer K) (p : P3 K) : List (Nbr K) :=
  (dtSearch c g (tf p)).takeWhile fun nb => decide (¬ dtLimit c (tf p) ≤ nb.d2)

/-- Invariant of the loop over local points, after `n` of them. -/
structure DTInv (c : DTCfg K) (tf : P3 K → P3 K) (g : GLayer K) (gName lName : String) (pts : List (P3 K))
    (ms : MatchState K) (out : Pairings K) (n : Nat) (s : MatchState K × Pairings K)
    (new : List (PtPair K)) : Prop where
  eq : s.2.pt2pt = out.pt2pt ++ new
  sound : ∀ pr ∈ new, pr.localIdx < n ∧ ∃ p nb, pts[pr.localIdx]? = some p ∧ nb ∈ dtCands c tf g p ∧
    pr = mkPair pr.localIdx p nb
  count : ∀ l p, pts[l]? = some p →
    (new.filter fun pr => decide (pr.localIdx = l)).length ≤ (dtCands c tf g p).length
  free : ∀ j, n ≤ j → Flagged s.1.localFlags lName j → Flagged ms.localFlags lName j
  compl : ∀ l p nb, l < n → pts[l]? = some p → nb ∈ dtCands c tf g p →
    (c.allowLocal = false ∧ Flagged ms.localFlags lName l) ∨ mkPair l p nb ∈ new ∨
    (c.allowGlobal = false ∧ Flagged s.1.globalFlags gName nb.idx)

theorem dtInv_step {c : DTCfg K} {tf : P3 K → P3 K} {g : GLayer K} {gName lName : String} {pts : List (P3 K)}
    {tl : TLocal K} {ms : MatchState K} {out : Pairings K} {n : Nat} {s s' : MatchState K × Pairings K}
    {new : List (PtPair K)} (hidx : tl.idxs = none) (hxs : tl.xs = pts.map tf) (hn : n < pts.length)
    (hi : DTInv c tf g gName lName pts ms out n s new)
    (h : dtStep c g gName lName pts tl s n = .ok s') :
    ∃ new', DTInv c tf g gName lName pts ms out (n + 1) s' new' := by
  unfold dtStep at h
  simp only [Outcome.bind_eq_ok, TLocal.index, hidx, Outcome.ok.injEq] at h
  obtain ⟨_, rfl, sk, hsk, h⟩ := h
  have hpn : pts[n]? = some pts[n] := List.getElem?_eq_getElem hn
  have hcount0 : (new.filter fun pr => decide (pr.localIdx = n)) = [] := by
    rw [List.filter_eq_nil_iff]
    intro pr hpr
    have := (hi.sound pr hpr).1
    simp; omega
  split at h
  · rename_i hs
    subst hs
    simp only [Outcome.ok.injEq] at h; subst h
    have hfl : c.allowLocal = false ∧ Flagged s.1.localFlags lName n := by
      unfold skipLocal at hsk
      split at hsk
      · simp at hsk
      · rename_i hl; exact ⟨by simpa using hl, hsk⟩
    refine ⟨new, hi.eq, ?_, hi.count, fun j hj => hi.free j (by omega), ?_⟩
    · intro pr hpr
      obtain ⟨h1, h2⟩ := hi.sound pr hpr
      exact ⟨by omega, h2⟩
    · intro l p nb hl hp hnb
      by_cases hln : l = n
      · subst hln
        exact Or.inl ⟨hfl.1, hi.free l (le_refl _) hfl.2⟩
      · exact hi.compl l p nb (by omega) hp hnb
  · simp only [Outcome.bind_eq_ok, vecAt_ok, hxs, List.getElem?_map, hpn, Option.map_some,
      Option.some.injEq] at h
    obtain ⟨_, rfl, h⟩ := h
    have hgr := dtNbrLoop_grows h
    obtain ⟨nw, hnw⟩ := dtNbrLoop_new hpn h
    change NbrNew c gName lName n pts[n] (dtCands c tf g pts[n]) s s' nw at hnw
    have hall : ∀ pr ∈ nw, pr.localIdx = n := by
      intro pr hpr
      obtain ⟨nb, _, rfl⟩ := List.mem_map.mp (hnw.sub.subset hpr)
      rfl
    refine ⟨new ++ nw, by rw [hnw.eq, hi.eq]; simp, ?_, ?_, ?_, ?_⟩
    · intro pr hpr
      rcases List.mem_append.mp hpr with hpr | hpr
      · obtain ⟨h1, h2⟩ := hi.sound pr hpr
        exact ⟨by omega, h2⟩
      · have hl := hall pr hpr
        obtain ⟨nb, hnb, rfl⟩ := List.mem_map.mp (hnw.sub.subset hpr)
        exact ⟨by omega, pts[n], nb, hpn, hnb, rfl⟩
    · intro l p hp
      rw [List.filter_append, List.length_append]
      by_cases hln : l = n
      · subst hln
        rw [hpn] at hp; cases hp
        rw [hcount0]
        have := List.length_filter_le (fun pr : PtPair K => decide (pr.localIdx = l)) nw
        have h2 := hnw.sub.length_le
        rw [List.length_map] at h2
        simp only [List.length_nil]; omega
      · have : (nw.filter fun pr => decide (pr.localIdx = l)) = [] := by
          rw [List.filter_eq_nil_iff]
          intro pr hpr
          have := hall pr hpr
          simp; omega
        rw [this]
        simpa using hi.count l p hp
    · intro j hj hf
      rcases hnw.free lName j hf with hf | ⟨_, hf⟩
      · exact hi.free j (by omega) hf
      · omega
    · intro l p nb hl hp hnb
      by_cases hln : l = n
      · subst hln
        rw [hpn] at hp; cases hp
        rcases hnw.compl nb hnb with h | h
        · exact Or.inr (Or.inl (List.mem_append_right _ h))
        · exact Or.inr (Or.inr h)
      · rcases hi.compl l p nb (by omega) hp hnb with h | h | h
        · exact Or.inl h
        · exact Or.inr (Or.inl (List.mem_append_left _ h))
        · exact Or.inr (Or.inr ⟨h.1, hgr.gf _ _ h.2⟩)

theorem dtInv_fold {c : DTCfg K} {tf : P3 K → P3 K} {g : GLayer K} {gName lName : String} {pts : List (P3 K)}
    {tl : TLocal K} {ms : MatchState K} {out : Pairings K} (hidx : tl.idxs = none) (hxs : tl.xs = pts.map tf)
    (n : Nat) (hn : n ≤ pts.length) {s s' : MatchState K × Pairings K} (hs : s.1 = ms)
    (hso : s.2.pt2pt = out.pt2pt)
    (h : foldOutcome (dtStep c g gName lName pts tl) s (List.range n) = .ok s') :
    ∃ new, DTInv c tf g gName lName pts ms out n s' new := by
  induction n generalizing s' with
  | zero =>
    simp only [List.range_zero, foldOutcome, Outcome.ok.injEq] at h
    subst h
    exact ⟨[], by simp [hso], by simp, by simp, by simp [hs], by simp⟩
  | succ n ih =>
    rw [List.range_succ, fold_append] at h
    simp only [Outcome.bind_eq_ok, foldOutcome, Outcome.ok.injEq] at h
    obtain ⟨a, ha, b, hb, rfl⟩ := h
    obtain ⟨new, hi⟩ := ih (by omega) ha
    exact dtInv_step hidx hxs (by omega) hi hb

/-- The whole one-layer function. -/
theorem dtLayer_ok {c : DTCfg K} {tf : P3 K → P3 K} {g : GLayer K} {gName lName : String} {pts : List (P3 K)}
    {ms : MatchState K} {out : Pairings K} {r : MatchState K × Pairings K} (hs : ShuffleOK c.toPtsCfg)
    (h : dtLayer c tf g gName lName pts ms out = .ok r) :
    (1 ≤ c.ppp ∧ 0 < c.thr) ∧ r.2.potential = out.potential + pts.length * c.ppp ∧
    ((r.1 = ms ∧ r.2.pt2pt = out.pt2pt ∧
        (g.isEmpty = true ∨ pts = [] ∨ ∃ tl, transformLocal c.toPtsCfg tf pts = .ok tl ∧
          g.boxesMeet tl.xs (c.thr + c.eps) = false)) ∨
      ∃ new, DTInv c tf g gName lName pts ms out pts.length r new) := by
  unfold dtLayer at h
  simp only [Outcome.bind_def, Outcome.bind_eq_ok, Outcome.assert_eq_ok] at h
  obtain ⟨_, h1, _, h2, _, _, _, _, h⟩ := h
  refine ⟨⟨h1, h2⟩, ?_⟩
  have hfr := h
  unfold layerFrame at h
  simp only at h
  split at h
  · rename_i he
    simp only [Outcome.ok.injEq] at h; subst h
    refine ⟨rfl, Or.inl ⟨rfl, rfl, ?_⟩⟩
    simp only [Bool.or_eq_true, List.isEmpty_iff] at he
    rcases he with he | he
    · exact Or.inl he
    · exact Or.inr (Or.inl he)
  · simp only [Outcome.bind_eq_ok] at h
    obtain ⟨tl, htl, h⟩ := h
    split at h
    · obtain ⟨_, h3, h4⟩ := dtFold_all hs htl h
      refine ⟨?_, Or.inr (dtInv_fold h3 h4 _ (le_refl _) rfl rfl h)⟩
      refine fold_inv (fun s => s.2.potential = out.potential + pts.length * c.ppp) _ ?_ _ _ h rfl
      intro s i s' _ hP hst
      -- the potential counter is not touched by the loop
      have key : ∀ {s s' : MatchState K × Pairings K} {nbs l lim},
          dtNbrLoop c gName lName pts l lim s nbs = .ok s' → s'.2.potential = s.2.potential := by
        intro s s' nbs l lim hh
        induction nbs generalizing s with
        | nil => simp only [dtNbrLoop, Outcome.ok.injEq] at hh; subst hh; rfl
        | cons nb nbs ih =>
          simp only [dtNbrLoop] at hh
          split at hh
          · simp only [Outcome.ok.injEq] at hh; subst hh; rfl
          · simp only [Outcome.bind_eq_ok] at hh
            obtain ⟨a, ha, hb⟩ := hh
            rw [ih hb]
            unfold dtAddPair at ha
            simp only [Outcome.bind_eq_ok] at ha
            obtain ⟨sk, _, ha⟩ := ha
            split at ha
            · simp only [Outcome.ok.injEq] at ha; subst ha; rfl
            · simp only [Outcome.bind_eq_ok] at ha
              obtain ⟨p, _, ha⟩ := ha
              split at ha
              · simp only [Outcome.ok.injEq] at ha; subst ha; rfl
              · simp only [Outcome.bind_eq_ok, Outcome.ok.injEq] at ha
                obtain ⟨m1, h1, m2, h2, rfl⟩ := ha
                rfl
      unfold dtStep at hst
      simp only [Outcome.bind_eq_ok] at hst
      obtain ⟨l, _, sk, _, hst⟩ := hst
      split at hst
      · simp only [Outcome.ok.injEq] at hst; subst hst; exact hP
      · simp only [Outcome.bind_eq_ok] at hst
        obtain ⟨q, _, hst⟩ := hst
        rw [key hst]; exact hP
    · rename_i hm
      simp only [Outcome.ok.injEq] at h; subst h
      exact ⟨rfl, Or.inl ⟨rfl, rfl, Or.inr (Or.inr ⟨tl, htl, by simpa using hm⟩)⟩⟩

/-! ### no undefined behaviour -/

theorem flagsFit_grows {ms ms' : MatchState K} {g : GLayer K} {gName lName : String} {n : Nat}
    {o o' : Pairings K} (hg : Grows (ms, o) (ms', o')) (h : FlagsFit ms g gName lName n) :
    FlagsFit ms' g gName lName n := by
  refine ⟨fun i hi => hg.lr _ _ (h.local i hi), ?_, ?_, ?_⟩
  · exact fun q nb hq => hg.gr _ _ (h.global.1 q nb hq)
  · exact fun q k nb hq => hg.gr _ _ (h.global.2.1 q k nb hq)
  · exact fun q r k nb hq => hg.gr _ _ (h.global.2.2 q r k nb hq)

theorem skipLocal_total {c : PtsCfg K} {ms : MatchState K} {g : GLayer K} {gName lName : String} {n l : Nat}
    (h : FlagsFit ms g gName lName n) (hl : l < n) : ∃ b, skipLocal c ms lName l = .ok b := by
  unfold skipLocal
  split
  · exact ⟨_, rfl⟩
  · exact readable_read (h.local l hl)

theorem skipGlobal_total {c : PtsCfg K} {ms : MatchState K} {gName : String} {i : Nat}
    (h : Readable ms.globalFlags gName i) : ∃ b, skipGlobal c ms gName i = .ok b := by
  unfold skipGlobal
  split
  · exact ⟨_, rfl⟩
  · exact readable_read h

theorem markLocal_total {ms : MatchState K} {lName : String} {i : Nat} (h : Readable ms.localFlags lName i) :
    ∃ ms', markLocal ms lName i = .ok ms' := by
  obtain ⟨f, hf⟩ := readable_markable h
  exact ⟨_, by simp [markLocal, hf]; rfl⟩

theorem markGlobal_total {ms : MatchState K} {gName : String} {i : Nat} (h : Readable ms.globalFlags gName i) :
    ∃ ms', markGlobal ms gName i = .ok ms' := by
  obtain ⟨f, hf⟩ := readable_markable h
  exact ⟨_, by simp [markGlobal, hf]; rfl⟩

theorem dtAddPair_total {c : DTCfg K} {gName lName : String} {pts : List (P3 K)} {l : Nat}
    {s : MatchState K × Pairings K} {nb : Nbr K} (hl : l < pts.length)
    (h1 : Readable s.1.localFlags lName l) (h2 : Readable s.1.globalFlags gName nb.idx) :
    ∃ s', dtAddPair c gName lName pts l s nb = .ok s' := by
  unfold dtAddPair
  obtain ⟨b, hb⟩ := skipGlobal_total (c := c.toPtsCfg) h2
  rw [hb]
  simp only [Outcome.bind]
  split
  · exact ⟨_, rfl⟩
  · rw [vecAt_lt _ _ hl]
    simp only [Outcome.bind]
    split
    · exact ⟨_, rfl⟩
    · obtain ⟨m1, hm1⟩ := markLocal_total (ms := (pushPt s.1 s.2 gName lName
        ⟨nb.idx, l, nb.pt, pts[l], nb.d2⟩).1) h1
      obtain ⟨a1, a2, a3⟩ := markLocal_ok hm1
      have h3 : Readable m1.globalFlags gName nb.idx := by rw [a2]; exact h2
      obtain ⟨m2, hm2⟩ := markGlobal_total h3
      exact ⟨(m2, _), by rw [hm1]; simp only [Outcome.bind]; rw [hm2]⟩

theorem dtNbrLoop_total {c : DTCfg K} {gName lName : String} {pts : List (P3 K)} {l : Nat} {lim : K}
    {s : MatchState K × Pairings K} {nbs : List (Nbr K)} (hl : l < pts.length)
    (h1 : Readable s.1.localFlags lName l) (h2 : ∀ nb ∈ nbs, Readable s.1.globalFlags gName nb.idx) :
    ∃ s', dtNbrLoop c gName lName pts l lim s nbs = .ok s' := by
  induction nbs generalizing s with
  | nil => exact ⟨_, rfl⟩
  | cons nb nbs ih =>
    simp only [dtNbrLoop]
    split
    · exact ⟨_, rfl⟩
    · obtain ⟨a, ha⟩ := dtAddPair_total (c := c) (gName := gName) hl h1 (h2 nb List.mem_cons_self)
      have hg := dtAddPair_grows ha
      obtain ⟨b, hb⟩ := ih (s := a) (hg.lr _ _ h1)
        (fun nb hnb => hg.gr _ _ (h2 nb (List.mem_cons_of_mem _ hnb)))
      exact ⟨b, by rw [ha]; exact hb⟩

theorem dtSearch_readable {c : DTCfg K} {g : GLayer K} {f : AMap String BitField} {gName : String} {q : P3 K}
    (h : NbrsReadable g f gName) : ∀ nb ∈ dtSearch c g q, Readable f gName nb.idx := by
  intro nb hnb
  unfold dtSearch at hnb
  split at hnb
  · rw [Option.mem_toList] at hnb; exact h.1 q nb hnb
  · split at hnb
    · exact h.2.2 _ _ _ _ hnb
    · exact h.2.1 _ _ _ hnb

theorem dtStep_total {c : DTCfg K} {tf : P3 K → P3 K} {g : GLayer K} {gName lName : String} {pts : List (P3 K)}
    {tl : TLocal K} {s : MatchState K × Pairings K} {i : Nat} (hg : TLGood tf pts tl) (hi : i < tl.xs.length)
    (hf : FlagsFit s.1 g gName lName pts.length) :
    ∃ s', dtStep c g gName lName pts tl s i = .ok s' ∧ FlagsFit s'.1 g gName lName pts.length := by
  obtain ⟨l, hl, hlt, _⟩ := hg.tot i hi
  have hex : ∃ s', dtStep c g gName lName pts tl s i = .ok s' := by
    unfold dtStep
    rw [hl]
    simp only [Outcome.bind]
    obtain ⟨b, hb⟩ := skipLocal_total (c := c.toPtsCfg) hf hlt
    rw [hb]
    simp only
    split
    · exact ⟨_, rfl⟩
    · rw [vecAt_lt _ _ hi]
      simp only
      exact dtNbrLoop_total hlt (hf.local l hlt) (dtSearch_readable hf.global)
  obtain ⟨s', hs'⟩ := hex
  exact ⟨s', hs', flagsFit_grows (dtStep_grows hs') hf⟩

end Verif.Lemmas
