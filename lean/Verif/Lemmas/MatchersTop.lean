import Verif.Lemmas.MatchersAcc
import Verif.Lemmas.MatchersServe
import Verif.Lemmas.MatchersAdaptive
/-
Layer-level results for the point matchers (C19-C23).
-/
namespace Verif.Lemmas
open Verif Verif.Spec

theorem fold_not_ub {σ ι : Type} {step : σ → ι → Outcome σ} (P : σ → Prop) (l : List ι)
    (hstep : ∀ s i, i ∈ l → P s → step s i ≠ .ub ∧ ∀ s', step s i = .ok s' → P s')
    (s : σ) (hP : P s) : foldOutcome step s l ≠ .ub := by
  induction l generalizing s with
  | nil => simp [foldOutcome]
  | cons i l ih =>
    obtain ⟨h1, h2⟩ := hstep s i List.mem_cons_self hP
    simp only [foldOutcome]
    intro h
    rcases Outcome.bind_eq_ub.mp h with h | ⟨a, ha, h⟩
    · exact h1 h
    · exact ih (fun s i hi => hstep s i (List.mem_cons_of_mem _ hi)) a (h2 a ha) h

theorem not_ub_of_ok {α : Type} {x : Outcome α} (h : ∃ a, x = .ok a) : x ≠ .ub := by
  obtain ⟨a, rfl⟩ := h; simp

variable {K : Type} [LT K] [DecidableLT K] [LE K] [DecidableLE K] [Zero K] [Add K] [Mul K] [One K] [NatCast K]

theorem totalOn_true {K : Type} [LinearOrder K] : TotalOn (K := K) fun _ => True where
  le_of_lt _ _ _ _ h := h.le
  le_of_not_lt _ _ _ _ h := not_lt.mp h
  lt_of_not_le _ _ _ _ h := not_le.mp h
  not_le_of_lt _ _ _ _ h := not_le.mpr h
  trans _ _ _ _ _ _ h1 h2 := le_trans h1 h2

/-! ### DistanceThreshold -/

theorem dtSearch_reported (c : DTCfg K) (g : GLayer K) (q : P3 K) (nb : Nbr K) :
    nb ∈ dtSearch c g q ↔ Reported c g q nb := by
  unfold dtSearch Reported
  by_cases h1 : c.ppp = 1
  · simp [h1]
  · by_cases h2 : c.tbb = true
    · simp [h1, h2]
    · simp [h1, h2]

theorem mem_takeWhile_lt {α : Type} (f : α → K) (lim : K) (l : List α)
    (htr : ∀ a b c : K, a ≤ b → b ≤ c → a ≤ c) (hs : l.Pairwise fun a b => f a ≤ f b) (x : α) :
    x ∈ l.takeWhile (fun y => decide (¬ lim ≤ f y)) ↔ x ∈ l ∧ ¬ lim ≤ f x := by
  induction l with
  | nil => simp
  | cons a l ih =>
    rw [List.pairwise_cons] at hs
    by_cases ha : ¬ lim ≤ f a
    · rw [List.takeWhile_cons_of_pos (by simpa using ha)]
      simp only [List.mem_cons, ih hs.2]
      constructor
      · rintro (rfl | ⟨h1, h2⟩)
        · exact ⟨Or.inl rfl, ha⟩
        · exact ⟨Or.inr h1, h2⟩
      · rintro ⟨rfl | h1, h2⟩
        · exact Or.inl rfl
        · exact Or.inr ⟨h1, h2⟩
    · rw [List.takeWhile_cons_of_neg (by simpa using ha)]
      simp only [List.not_mem_nil, false_iff, not_and, List.mem_cons]
      rintro (rfl | h1) h2
      · exact ha h2
      · exact h2 (htr _ _ _ (not_not.mp ha) (hs.1 x h1))

theorem mem_takeWhile_imp' {α : Type} {p : α → Bool} {l : List α} {x : α} (h : x ∈ l.takeWhile p) :
    p x = true := by
  induction l with
  | nil => simp at h
  | cons a l ih =>
    by_cases ha : p a = true
    · rw [List.takeWhile_cons_of_pos ha] at h
      rcases List.mem_cons.mp h with rfl | h
      · exact ha
      · exact ih h
    · rw [List.takeWhile_cons_of_neg ha] at h; simp at h

theorem dtSearch_sorted {c : DTCfg K} {g : GLayer K} (hs : SearchSorted g) (q : P3 K) :
    (dtSearch c g q).Pairwise fun a b => a.d2 ≤ b.d2 := by
  unfold dtSearch
  split
  · cases g.nnSingle q <;> simp
  · split
    · exact hs.2 _ _ _
    · exact hs.1 _ _

theorem dt_sound {c : DTCfg K} {tf : P3 K → P3 K} {g : GLayer K} {gName lName : String} {pts : List (P3 K)}
    {ms : MatchState K} {out : Pairings K} {r : MatchState K × Pairings K} (hs : ShuffleOK c.toPtsCfg)
    (h : dtLayer c tf g gName lName pts ms out = .ok r) :
    ∃ new, r.2.pt2pt = out.pt2pt ++ new ∧
      (∀ pr ∈ new, ∃ p nb, pts[pr.localIdx]? = some p ∧ Reported c g (tf p) nb ∧
        IsPairOf pr pr.localIdx p nb ∧ ¬ Limit c (tf p) ≤ pr.errSq) ∧
      (SearchBounded g → ∀ l, (new.filter fun pr => decide (pr.localIdx = l)).length ≤ c.ppp) ∧
      ((∀ a b c : K, a ≤ b → b ≤ c → a ≤ c) → SearchSorted g → Overlap c.toPtsCfg tf g pts (c.thr + c.eps) →
        ∀ l p nb, pts[l]? = some p → Reported c g (tf p) nb → ¬ Limit c (tf p) ≤ nb.d2 →
          (∃ pr ∈ new, IsPairOf pr l p nb) ∨
          (c.allowLocal = false ∧ Flagged ms.localFlags lName l) ∨
          (c.allowGlobal = false ∧ Flagged r.1.globalFlags gName nb.idx)) := by
  obtain ⟨⟨hppp, _⟩, _, hcase⟩ := dtLayer_ok hs h
  rcases hcase with ⟨_, h2, hwhy⟩ | ⟨new, hi⟩
  · refine ⟨[], by simp [h2], by simp, by simp, ?_⟩
    rintro - - ⟨o1, o2, o3⟩
    rcases hwhy with hwhy | hwhy | ⟨tl, htl, hwhy⟩
    · rw [o1] at hwhy; cases hwhy
    · exact absurd hwhy o2
    · rw [o3 tl htl] at hwhy; cases hwhy
  · refine ⟨new, hi.eq, ?_, ?_, ?_⟩
    · intro pr hpr
      obtain ⟨_, p, nb, h1, h2, h3⟩ := hi.sound pr hpr
      have hnb := (List.takeWhile_sublist _).subset h2
      have hlt := mem_takeWhile_imp' h2
      refine ⟨p, nb, h1, (dtSearch_reported ..).mp hnb, ?_, ?_⟩
      · rw [h3]; exact ⟨rfl, rfl, rfl, rfl, rfl⟩
      · rw [h3]
        have : ¬ dtLimit c (tf p) ≤ nb.d2 := by simpa using hlt
        exact this
    · intro hb l
      by_cases hl : l < pts.length
      · refine le_trans (hi.count l pts[l] (List.getElem?_eq_getElem hl)) ?_
        exact le_trans (List.takeWhile_sublist _).length_le (dtSearch_len hb _)
      · have : (new.filter fun pr => decide (pr.localIdx = l)) = [] := by
          rw [List.filter_eq_nil_iff]
          intro pr hpr
          have := (hi.sound pr hpr).1
          simp; omega
        rw [this]; simp
    · intro htr hso _ l p nb hp hrep hlt
      have hmem : nb ∈ dtCands c tf g p := by
        unfold dtCands
        rw [mem_takeWhile_lt (fun nb : Nbr K => nb.d2) _ _ htr (dtSearch_sorted hso _)]
        exact ⟨(dtSearch_reported ..).mpr hrep, hlt⟩
      rcases hi.compl l p nb (List.getElem?_eq_some_iff.mp hp).1 hp hmem with h | h | h
      · exact Or.inr (Or.inl h)
      · exact Or.inl ⟨_, h, rfl, rfl, rfl, rfl, rfl⟩
      · exact Or.inr (Or.inr h)

theorem dtIndexUb {c : DTCfg K} {g : GLayer K} {gName lName : String} {pts : List (P3 K)} {tl : TLocal K}
    {v : List Nat} (hv : tl.idxs = some v) (s : MatchState K × Pairings K) :
    dtStep c g gName lName pts tl s v.length = .ub := by
  unfold dtStep
  have : tl.index v.length = .ub := by simp [TLocal.index, hv, vecAt]
  rw [this]; rfl

theorem dt_subset_ub {c : DTCfg K} {tf : P3 K → P3 K} {g : GLayer K} {gName lName : String} {pts : List (P3 K)}
    {ms : MatchState K} {out : Pairings K} (hs : ShuffleOK c.toPtsCfg) (hc : 1 ≤ c.ppp ∧ 0 < c.thr ∧ 0 ≤ c.angDeg)
    (hnn : g.nnCapable = true) (hm : 0 < c.maxLocal) (hn : c.maxLocal < pts.length)
    (ho : Overlap c.toPtsCfg tf g pts (c.thr + c.eps)) (hf : FlagsFit ms g gName lName pts.length) :
    dtLayer c tf g gName lName pts ms out = .ub := by
  obtain ⟨tl, htl, hgood, _, h2⟩ := transformLocal_good c.toPtsCfg hs tf pts
  obtain ⟨h3, h4⟩ := h2 (by omega)
  unfold dtLayer
  simp only [Outcome.bind_def]
  rw [Outcome.assert_true hc.1, Outcome.assert_true hc.2.1, Outcome.assert_true hc.2.2, Outcome.assert_true hnn]
  simp only [Outcome.bind]
  unfold layerFrame
  have hne : pts.isEmpty = false := by
    cases hp : pts with
    | nil => exact absurd hp ho.2.1
    | cons => rfl
  rw [ho.1, hne, if_neg (by simp), htl]
  simp only [Outcome.bind]
  rw [ho.2.2 tl htl, if_pos rfl]
  have hlen : (c.shuffle c.maxLocal).length = c.maxLocal := by rw [(hs c.maxLocal).length_eq]; simp
  have hrange : List.range pts.length =
      List.range c.maxLocal ++ (c.maxLocal :: (List.range' (c.maxLocal + 1) (pts.length - c.maxLocal - 1))) := by
    rw [List.range_eq_range', List.range_eq_range']
    have : pts.length = c.maxLocal + (1 + (pts.length - c.maxLocal - 1)) := by omega
    conv_lhs => rw [this]
    rw [← List.range'_append_1, Nat.zero_add, Nat.add_comm 1, List.range'_succ]
  rw [hrange, fold_append]
  obtain ⟨s', hs', _⟩ := fold_ok (step := dtStep c g gName lName pts tl)
    (fun s => FlagsFit s.1 g gName lName pts.length) (List.range c.maxLocal)
    (fun s i hi hs => dtStep_total hgood (by rw [h4]; exact List.mem_range.mp hi) hs) (ms, _) hf
  rw [hs']
  simp only [Outcome.bind, foldOutcome]
  have := dtIndexUb (c := c) (g := g) (gName := gName) (lName := lName) (pts := pts) h3 s'
  rw [hlen] at this
  rw [this]

theorem dt_subset_not_ok {c : DTCfg K} {tf : P3 K → P3 K} {g : GLayer K} {gName lName : String}
    {pts : List (P3 K)} {ms : MatchState K} {out : Pairings K} (hs : ShuffleOK c.toPtsCfg)
    (hm : 0 < c.maxLocal) (hn : c.maxLocal < pts.length)
    (ho : Overlap c.toPtsCfg tf g pts (c.thr + c.eps)) (r : MatchState K × Pairings K) :
    dtLayer c tf g gName lName pts ms out ≠ .ok r := by
  intro h
  unfold dtLayer at h
  simp only [Outcome.bind_def, Outcome.bind_eq_ok] at h
  obtain ⟨_, _, _, _, _, _, _, _, h⟩ := h
  unfold layerFrame at h
  have hne : pts.isEmpty = false := by
    cases hp : pts with
    | nil => exact absurd hp ho.2.1
    | cons => rfl
  rw [ho.1, hne, if_neg (by simp)] at h
  simp only [Outcome.bind_eq_ok] at h
  obtain ⟨tl, htl, h⟩ := h
  rw [ho.2.2 tl htl, if_pos rfl] at h
  have := (dtFold_all hs htl h).1
  omega

/-! ### memory safety -/

theorem frame_not_ub {c : PtsCfg K} (hs : ShuffleOK c) {tf : P3 K → P3 K} {g : GLayer K} {pts : List (P3 K)} {n : Nat}
    {margin : K} {ms : MatchState K} {out : Pairings K}
    {body : TLocal K → MatchState K × Pairings K → Outcome (MatchState K × Pairings K)}
    (hb : ∀ tl, transformLocal c tf pts = .ok tl → TLGood tf pts tl → pts ≠ [] →
      body tl (ms, { out with potential := out.potential + n }) ≠ .ub) :
    layerFrame c tf g pts n margin ms out body ≠ .ub := by
  obtain ⟨tl, htl, hgood, _⟩ := transformLocal_good c hs tf pts
  unfold layerFrame
  split
  · simp
  · rename_i hne
    rw [htl]
    simp only [Outcome.bind]
    split
    · refine hb tl htl hgood ?_
      intro h; subst h; simp at hne
    · simp

theorem plStep_total {c : PlCfg K} {tf : P3 K → P3 K} {g : GLayer K} {gName lName : String} {pts : List (P3 K)}
    {tl : TLocal K} {s : MatchState K × Pairings K} {i : Nat} (hg : TLGood tf pts tl) (hi : i < tl.xs.length)
    (hf : FlagsFit s.1 g gName lName pts.length) :
    ∃ s', plStep c g lName pts tl s i = .ok s' ∧ FlagsFit s'.1 g gName lName pts.length := by
  obtain ⟨l, hl, hlt, _⟩ := hg.tot i hi
  have hex : ∃ s', plStep c g lName pts tl s i = .ok s' := by
    unfold plStep
    rw [hl]
    simp only [Outcome.bind]
    obtain ⟨b, hb⟩ := skipLocal_total (c := c.toPtsCfg) hf hlt
    rw [hb]
    simp only
    split
    · exact ⟨_, rfl⟩
    · rw [vecAt_lt _ _ hi]
      simp only
      split
      · exact ⟨_, rfl⟩
      · split
        · exact ⟨_, rfl⟩
        · rw [vecAt_lt _ _ hlt]
          obtain ⟨m1, hm1⟩ := markLocal_total (hf.local l hlt)
          simp only
          rw [hm1]
          exact ⟨_, rfl⟩
  obtain ⟨s', hs'⟩ := hex
  exact ⟨s', hs', flagsFit_grows (plStep_grows hs') hf⟩

theorem lnStep_not_ub {c : LnCfg K} {tf : P3 K → P3 K} {g : GLayer K} {gName lName : String} {pts : List (P3 K)}
    {tl : TLocal K} {s : MatchState K × Pairings K} {i : Nat} (hg : TLGood tf pts tl) (hi : i < tl.xs.length)
    (hf : FlagsFit s.1 g gName lName pts.length) : lnStep c g lName pts tl s i ≠ .ub := by
  obtain ⟨l, hl, hlt, _⟩ := hg.tot i hi
  unfold lnStep
  rw [hl]
  simp only [Outcome.bind]
  obtain ⟨b, hb⟩ := skipLocal_total (c := c.toPtsCfg) hf hlt
  rw [hb]
  simp only
  split
  · simp
  · rw [vecAt_lt _ _ hi]
    simp only
    split
    · simp
    · by_cases h3 : ((g.nnMultiple tl.xs[i] c.knn).map (·.pt)).length < 3
      · simp only [estimateEigen, if_pos h3]; simp
      · simp only [estimateEigen, if_neg h3]
        split
        · simp
        · split
          · simp
          · rw [vecAt_lt _ _ hlt]
            obtain ⟨m1, hm1⟩ := markLocal_total (hf.local l hlt)
            simp only
            rw [hm1]
            simp

theorem layer_not_ub_any (m : PtMatcher K) (hs : ShuffleOK m.base) {tf : P3 K → P3 K} {g : GLayer K}
    {gName lName : String} {pts : List (P3 K)} (hm : SafeOptionsM pts.length m) {ms : MatchState K} {out : Pairings K}
    (hf : FlagsFit ms g gName lName pts.length) : m.layer tf g gName lName pts ms out ≠ .ub := by
  have hassert : ∀ {p : Prop} [Decidable p] {α : Type} {f : Unit → Outcome α}, (f () ≠ .ub) →
      (Outcome.assert p).bind f ≠ .ub := by
    intro p _ α f hne h
    rcases Outcome.bind_eq_ub.mp h with h | ⟨_, _, h⟩
    · exact Outcome.assert_ne_ub h
    · exact hne h
  cases m with
  | distanceThreshold c =>
    simp only [PtMatcher.layer, dtLayer, Outcome.bind_def]
    refine hassert (hassert (hassert (hassert ?_)))
    refine frame_not_ub hs fun tl htl hgood _ => ?_
    obtain ⟨tl', htl', _, h1, _⟩ := transformLocal_good c.toPtsCfg hs tf pts
    have htl : transformLocal c.toPtsCfg tf pts = .ok tl := htl
    rw [htl] at htl'; cases htl'
    obtain ⟨_, hxs⟩ := h1 hm
    obtain ⟨s', hs', _⟩ := fold_ok (step := dtStep c g gName lName pts tl)
      (fun s => FlagsFit s.1 g gName lName pts.length) (List.range pts.length)
      (fun s i hi hs => dtStep_total hgood (by rw [hxs]; simpa using hi) hs) (ms, _) hf
    rw [hs']; simp
  | inlierRatio c =>
    simp only [PtMatcher.layer, irLayer, Outcome.bind_def]
    intro h
    rcases Outcome.bind_eq_ub.mp h with h | ⟨_, hr0, h⟩
    · exact Outcome.assert_ne_ub h
    rcases Outcome.bind_eq_ub.mp h with h | ⟨_, hr1, h⟩
    · exact Outcome.assert_ne_ub h
    refine hassert ?_ h
    refine frame_not_ub hs fun tl htl hgood _ => ?_
    obtain ⟨cand, hcand, _⟩ := fold_ok (step := irCandStep c g lName pts tl ms) (fun _ => True)
      (List.range tl.xs.length)
      (fun acc i hi _ => by
        obtain ⟨a, ha⟩ := irCandStep_total (c := c) (gName := gName) (acc := acc) hgood (List.mem_range.mp hi) hf
        exact ⟨a, ha, trivial⟩) [] trivial
    rw [hcand]
    simp only [Outcome.bind]
    have hok := irCand_ok hgood _ (le_refl _) hcand
    unfold irKeep
    split
    · simp
    · split
      · rename_i hgt
        exfalso
        have hlt : c.ratio < 1 := Outcome.assert_eq_ok.mp hr1
        have hlen : cand.length ≤ pts.length := by
          have hsub : ∀ i ∈ cand.map (·.localIdx), i < pts.length := by
            intro i hi
            obtain ⟨p, hp, rfl⟩ := List.mem_map.mp hi
            obtain ⟨_, _, _, _, _, _, _, h4, _⟩ := hok.from_ p hp
            exact (List.getElem?_eq_some_iff.mp h4).1
          have := (List.subperm_of_subset hok.nodup (l₂ := List.range pts.length)
            (fun i hi => List.mem_range.mpr (hsub i hi))).length_le
          simpa using this
        exact absurd (hm cand.length hlen (Outcome.assert_eq_ok.mp hr0) hlt) (by omega)
      · obtain ⟨s', hs', _⟩ := fold_ok (step := irKeepStep c gName lName)
          (fun s => FlagsFit s.1 g gName lName pts.length)
          (cand.take (c.round ((cand.length : K) * c.ratio)))
          (fun s p hp hs => by
            obtain ⟨i, hi, q, nb, h1, h2, h3, h4, h5, _⟩ := hok.from_ p (List.mem_of_mem_take hp)
            obtain ⟨s', hs'⟩ := irKeepStep_total (c := c) (hs.local p.localIdx (List.getElem?_eq_some_iff.mp h4).1)
              (h5 ▸ hs.global.1 q nb h3)
            exact ⟨s', hs', flagsFit_grows (irKeepStep_grows hs') hs⟩) (ms, _) hf
        rw [hs']; simp
  | point2plane c =>
    simp only [PtMatcher.layer, plLayer, Outcome.bind_def]
    refine hassert ?_
    refine frame_not_ub hs fun tl htl hgood _ => ?_
    obtain ⟨s', hs', _⟩ := fold_ok (step := plStep c g lName pts tl)
      (fun s => FlagsFit s.1 g gName lName pts.length) (List.range tl.xs.length)
      (fun s i hi hs => plStep_total hgood (List.mem_range.mp hi) hs) (ms, _) hf
    rw [hs']; simp
  | point2line c =>
    simp only [PtMatcher.layer, lnLayer, Outcome.bind_def]
    refine hassert ?_
    refine frame_not_ub hs fun tl htl hgood _ => ?_
    refine fold_not_ub (fun s => FlagsFit s.1 g gName lName pts.length) _ (fun s i hi hs => ?_) (ms, _) hf
    exact ⟨lnStep_not_ub hgood (List.mem_range.mp hi) hs,
      fun s' hs' => flagsFit_grows (lnStep_grows hs') hs⟩
  | adaptive c => exact hm.elim

theorem layer_not_ub {K : Type} [Field K] [LinearOrder K] [IsStrictOrderedRing K] (m : PtMatcher K) (hs : ShuffleOK m.base)
    {tf : P3 K → P3 K} {g : GLayer K}
    {gName lName : String} {pts : List (P3 K)} (hm : SafeOptions pts.length m) {ms : MatchState K} {out : Pairings K}
    (hf : FlagsFit ms g gName lName pts.length) : m.layer tf g gName lName pts ms out ≠ .ub := by
  refine layer_not_ub_any m hs ?_ hf
  cases m with
  | inlierRatio c =>
    intro n _ _ hlt
    have : (n : K) * c.ratio ≤ (n : K) := by
      have h0 : (0 : K) ≤ (n : K) := Nat.cast_nonneg _
      calc (n : K) * c.ratio ≤ (n : K) * 1 := mul_le_mul_of_nonneg_left hlt.le h0
        _ = _ := mul_one _
    exact hm _ _ this
  | distanceThreshold c => exact hm
  | point2plane c => trivial
  | point2line c => trivial
  | adaptive c => exact hm.elim

/-! ### which points are sampled -/

theorem index_sampled {c : PtsCfg K} (hs : ShuffleOK c) {tf : P3 K → P3 K} {pts : List (P3 K)} {tl : TLocal K}
    (htl : transformLocal c tf pts = .ok tl) {i l : Nat} (hi : i < tl.xs.length) (hl : tl.index i = .ok l) :
    Sampled c pts.length l := by
  obtain ⟨tl', htl', hgood, h1, h2⟩ := transformLocal_good c hs tf pts
  rw [htl] at htl'; cases htl'
  obtain ⟨l', hl', hlt, hlx⟩ := hgood.tot i hi
  rw [hl] at hl'; cases hl'
  refine ⟨hlt, ?_⟩
  by_cases h : c.maxLocal = 0 ∨ pts.length ≤ c.maxLocal
  · omega
  · have := (h2 h).2; omega

/-! ### InlierRatio -/

theorem ir_result {c : IRCfg K} {tf : P3 K → P3 K} {g : GLayer K} {gName lName : String} {pts : List (P3 K)}
    {ms : MatchState K} {out : Pairings K} {r : MatchState K × Pairings K} (hs : ShuffleOK c.toPtsCfg)
    (h : irLayer c tf g gName lName pts ms out = .ok r) :
    (0 < c.ratio ∧ c.ratio < 1) ∧
    ((r.2.pt2pt = out.pt2pt ∧ ¬ Overlap c.toPtsCfg tf g pts c.eps) ∨
    ∃ cand new, r.2.pt2pt = out.pt2pt ++ new ∧ cand ≠ [] ∧ (cand.map (·.localIdx)).Nodup ∧
      (∀ S : K → Prop, TotalOn S → (∀ p ∈ cand, S p.errSq) → cand.Pairwise (fun a b => a.errSq ≤ b.errSq)) ∧
      (∀ p ∈ cand, Sampled c.toPtsCfg pts.length p.localIdx ∧ ∃ q nb, pts[p.localIdx]? = some q ∧
        g.nnSingle (tf q) = some nb ∧ IsPairOf p p.localIdx q nb ∧
        (c.allowLocal = true ∨ ¬ Flagged ms.localFlags lName p.localIdx)) ∧
      (∀ l q nb, Sampled c.toPtsCfg pts.length l → pts[l]? = some q → g.nnSingle (tf q) = some nb →
        (c.allowLocal = true ∨ flagAt ms.localFlags lName l = .ok false) →
        ∃ p ∈ cand, p.localIdx = l ∧ p.globalIdx = nb.idx ∧ p.errSq = nb.d2) ∧
      List.Sublist new (cand.take (c.round ((cand.length : K) * c.ratio))) ∧
      (∀ p ∈ cand.take (c.round ((cand.length : K) * c.ratio)),
        p ∈ new ∨ (c.allowGlobal = false ∧ Flagged r.1.globalFlags gName p.globalIdx)) ∧
      ¬ cand.length < c.round ((cand.length : K) * c.ratio) ∧
      Serve c.allowGlobal true gName lName (ms, { out with potential := out.potential + pts.length })
        (cand.take (c.round ((cand.length : K) * c.ratio))) r) := by
  unfold irLayer at h
  simp only [Outcome.bind_def, Outcome.bind_eq_ok, Outcome.assert_eq_ok] at h
  obtain ⟨_, hr0, _, hr1, _, _, h⟩ := h
  refine ⟨⟨hr0, hr1⟩, ?_⟩
  obtain ⟨tl, htl, hgood, hn1, hn2⟩ := transformLocal_good c.toPtsCfg hs tf pts
  unfold layerFrame at h
  simp only at h
  split at h
  · rename_i hemp
    simp only [Outcome.ok.injEq] at h; subst h
    left
    refine ⟨rfl, ?_⟩
    rintro ⟨o1, o2, _⟩
    rw [o1] at hemp
    cases pts with
    | nil => exact o2 rfl
    | cons a b => simp at hemp
  · rw [htl] at h
    simp only [Outcome.bind] at h
    split at h
    · right
      change Outcome.bind _ _ = _ at h
      simp only [Outcome.bind_eq_ok] at h
      obtain ⟨cand, hcand, h⟩ := h
      have hok := irCand_ok hgood _ (le_refl _) hcand
      unfold irKeep at h
      split at h
      · simp at h
      · rename_i hne
        split at h
        · simp at h
        · obtain ⟨new, h3, h4, h5⟩ := irKeepFold_new _ h
          refine ⟨cand, new, h3, by intro hh; simp [hh] at hne, hok.nodup, hok.sorted, ?_, ?_, h4, h5, by rename_i hle; exact hle,
            irKeepFold_serve _ h⟩
          · intro p hp
            obtain ⟨i, hi, q, nb, e1, e2, e3, e4, e5, e6, e7, e8⟩ := hok.from_ p hp
            have hi' := List.mem_range.mp hi
            refine ⟨index_sampled hs htl hi' e1, p.local, nb, e4, ?_, ⟨rfl, rfl, e5, e6, e7⟩, ?_⟩
            · obtain ⟨p', hp', hq⟩ := hgood.idx i _ _ e1 e2
              rw [e4] at hp'; cases hp'; rw [← hq]; exact e3
            · unfold skipLocal at e8
              split at e8
              · rename_i ha; exact Or.inl ha
              · right; unfold Flagged; rw [e8]; simp
          · intro l q nb hsam hq hnb hfl
            have hex : ∃ i, i < tl.xs.length ∧ tl.index i = .ok l := by
              by_cases hc : c.maxLocal = 0 ∨ pts.length ≤ c.maxLocal
              · obtain ⟨a1, a2⟩ := hn1 hc
                exact ⟨l, by rw [a2]; simpa using hsam.1, by simp [TLocal.index, a1]⟩
              · obtain ⟨a1, a2⟩ := hn2 hc
                have hlt : l < c.maxLocal := by rcases hsam.2 with h | h <;> omega
                have hmem : l ∈ c.shuffle c.maxLocal := (hs c.maxLocal).mem_iff.mpr (List.mem_range.mpr hlt)
                obtain ⟨i, hi, he⟩ := List.mem_iff_getElem.mp hmem
                have hlen : (c.shuffle c.maxLocal).length = c.maxLocal := by
                  rw [(hs c.maxLocal).length_eq]; simp
                refine ⟨i, by omega, ?_⟩
                simp only [TLocal.index, a1]
                rw [vecAt_lt _ _ hi, he]
            obtain ⟨i, hi, hil⟩ := hex
            obtain ⟨p', hp', hq'⟩ := hgood.idx i l _ hil (List.getElem?_eq_getElem hi)
            rw [hq] at hp'; cases hp'
            refine hok.all_ i (List.mem_range.mpr hi) l _ nb hil (List.getElem?_eq_getElem hi) (hq' ▸ hnb) ?_
            unfold skipLocal
            rcases hfl with hfl | hfl
            · rw [if_pos hfl]
            · split
              · rfl
              · exact hfl
    · rename_i hbox
      simp only [Outcome.ok.injEq] at h; subst h
      left
      refine ⟨rfl, ?_⟩
      rintro ⟨_, _, o3⟩
      exact hbox (o3 tl htl)

/-! ### Point2Plane / Point2Line -/

/-- Position of a sampled point. -/
theorem sampled_index {c : PtsCfg K} (hs : ShuffleOK c) {tf : P3 K → P3 K} {pts : List (P3 K)} {tl : TLocal K}
    (htl : transformLocal c tf pts = .ok tl) {l : Nat} (hsam : Sampled c pts.length l) :
    ∃ i, i < tl.xs.length ∧ tl.index i = .ok l := by
  obtain ⟨tl', htl', hgood, hn1, hn2⟩ := transformLocal_good c hs tf pts
  rw [htl] at htl'; cases htl'
  by_cases hc : c.maxLocal = 0 ∨ pts.length ≤ c.maxLocal
  · obtain ⟨a1, a2⟩ := hn1 hc
    exact ⟨l, by rw [a2]; simpa using hsam.1, by simp [TLocal.index, a1]⟩
  · obtain ⟨a1, a2⟩ := hn2 hc
    have hlt : l < c.maxLocal := by rcases hsam.2 with h | h <;> omega
    have hmem : l ∈ c.shuffle c.maxLocal := (hs c.maxLocal).mem_iff.mpr (List.mem_range.mpr hlt)
    obtain ⟨i, hi, he⟩ := List.mem_iff_getElem.mp hmem
    have hlen : (c.shuffle c.maxLocal).length = c.maxLocal := by
      rw [(hs c.maxLocal).length_eq]; simp
    refine ⟨i, by omega, ?_⟩
    simp only [TLocal.index, a1]
    rw [vecAt_lt _ _ hi, he]

theorem pl_result {c : PlCfg K} {tf : P3 K → P3 K} {g : GLayer K} {gName lName : String} {pts : List (P3 K)}
    {ms : MatchState K} {out : Pairings K} {r : MatchState K × Pairings K} (hs : ShuffleOK c.toPtsCfg)
    (h : plLayer c tf g gName lName pts ms out = .ok r) :
    ∃ ls new, r.2.pt2pl = out.pt2pl ++ new ∧ ls.Nodup ∧
      (∀ l ∈ ls, Sampled c.toPtsCfg pts.length l) ∧
      List.Forall₂ (fun l b => pts[l]? = some b.ptLocal ∧
        ∃ d, g.nnPlane (tf b.ptLocal) c.thr = some (b.plGlobal, d) ∧ ¬ c.thr < d) ls new := by
  unfold plLayer at h
  simp only [Outcome.bind_def, Outcome.bind_eq_ok] at h
  obtain ⟨_, _, h⟩ := h
  rcases layerFrame_ok h with rfl | ⟨tl, htl, _, _, _, h2⟩
  · exact ⟨[], [], by simp, by simp, by simp, .nil⟩
  · obtain ⟨tl', htl', hgood, _⟩ := transformLocal_good c.toPtsCfg hs tf pts
    rw [htl] at htl'; cases htl'
    obtain ⟨ls, new, hp⟩ := perPoint_fold hgood (fun s i s' h => (plStep_one (c := c) hgood h).1) _
      (le_refl _) h2
    refine ⟨ls, new, hp.eq, hp.nodup, ?_, hp.rel.imp ?_⟩
    · intro l hl
      obtain ⟨i, hi, hil⟩ := hp.src l hl
      exact index_sampled hs htl hi hil
    · rintro l b ⟨p, h1, rfl, d, h3, h4⟩
      exact ⟨h1, d, h3, h4⟩

theorem ln_result {c : LnCfg K} {tf : P3 K → P3 K} {g : GLayer K} {gName lName : String} {pts : List (P3 K)}
    {ms : MatchState K} {out : Pairings K} {r : MatchState K × Pairings K} (hs : ShuffleOK c.toPtsCfg)
    (h : lnLayer c tf g gName lName pts ms out = .ok r) :
    ∃ ls new, r.2.pt2ln = out.pt2ln ++ new ∧ ls.Nodup ∧
      (∀ l ∈ ls, Sampled c.toPtsCfg pts.length l) ∧
      List.Forall₂ (fun l b => ∃ p, pts[l]? = some p ∧ LnQ c tf g l p b) ls new := by
  unfold lnLayer at h
  simp only [Outcome.bind_def, Outcome.bind_eq_ok] at h
  obtain ⟨_, _, h⟩ := h
  rcases layerFrame_ok h with rfl | ⟨tl, htl, _, _, _, h2⟩
  · exact ⟨[], [], by simp, by simp, by simp, .nil⟩
  · obtain ⟨tl', htl', hgood, _⟩ := transformLocal_good c.toPtsCfg hs tf pts
    rw [htl] at htl'; cases htl'
    obtain ⟨ls, new, hp⟩ := perPoint_fold hgood (fun s i s' h => lnStep_one (c := c) hgood h) _
      (le_refl _) h2
    refine ⟨ls, new, hp.eq, hp.nodup, ?_, hp.rel⟩
    intro l hl
    obtain ⟨i, hi, hil⟩ := hp.src l hl
    exact index_sampled hs htl hi hil

end Verif.Lemmas
