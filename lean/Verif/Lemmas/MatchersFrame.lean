import Verif.Lemmas.Matchers
/-
What every one-layer matcher does to match state and output: things are only added.
-/
namespace Verif.Lemmas
open Verif Verif.Spec
variable {K : Type}

/-- Things are only added; the ghost record and the point-to-point list get the same new pairings. -/
structure Grows (s s' : MatchState K × Pairings K) : Prop where
  pt : ∃ new, s'.1.ghost = s.1.ghost ++ new ∧ s'.2.pt2pt = s.2.pt2pt ++ new.map (·.2.2)
  ln : ∃ new, s'.2.pt2ln = s.2.pt2ln ++ new
  pl : ∃ new, s'.2.pt2pl = s.2.pt2pl ++ new
  ll : s'.2.ln2ln = s.2.ln2ln
  pp : s'.2.pl2pl = s.2.pl2pl
  pw : s'.2.pointWeights = s.2.pointWeights
  lf : ∀ l i, Flagged s.1.localFlags l i → Flagged s'.1.localFlags l i
  gf : ∀ l i, Flagged s.1.globalFlags l i → Flagged s'.1.globalFlags l i
  lr : ∀ l i, Readable s.1.localFlags l i → Readable s'.1.localFlags l i
  gr : ∀ l i, Readable s.1.globalFlags l i → Readable s'.1.globalFlags l i
  pot : s.2.potential ≤ s'.2.potential

theorem Grows.refl (s : MatchState K × Pairings K) : Grows s s :=
  ⟨⟨[], by simp, by simp⟩, ⟨[], by simp⟩, ⟨[], by simp⟩, rfl, rfl, rfl, fun _ _ h => h, fun _ _ h => h,
   fun _ _ h => h, fun _ _ h => h, le_refl _⟩

theorem Grows.trans (a b c : MatchState K × Pairings K) (h1 : Grows a b) (h2 : Grows b c) : Grows a c := by
  obtain ⟨⟨n1, g1, p1⟩, ⟨l1, hl1⟩, ⟨q1, hq1⟩, a1, b1, c1, d1, e1, f1, i1, k1⟩ := h1
  obtain ⟨⟨n2, g2, p2⟩, ⟨l2, hl2⟩, ⟨q2, hq2⟩, a2, b2, c2, d2, e2, f2, i2, k2⟩ := h2
  refine ⟨⟨n1 ++ n2, by simp [g2, g1], by simp [p2, p1]⟩, ⟨l1 ++ l2, by simp [hl2, hl1]⟩,
    ⟨q1 ++ q2, by simp [hq2, hq1]⟩, by rw [a2, a1], by rw [b2, b1], by rw [c2, c1], fun l i h => d2 _ _ (d1 _ _ h),
    fun l i h => e2 _ _ (e1 _ _ h), fun l i h => f2 _ _ (f1 _ _ h), fun l i h => i2 _ _ (i1 _ _ h), by omega⟩

theorem grows_push (ms : MatchState K) (out : Pairings K) (gName lName : String) (p : PtPair K) :
    Grows (ms, out) (pushPt ms out gName lName p) := by
  refine ⟨⟨[(gName, lName, p)], rfl, rfl⟩, ⟨[], by simp [pushPt]⟩, ⟨[], by simp [pushPt]⟩, rfl, rfl, rfl,
    fun _ _ h => h, fun _ _ h => h, fun _ _ h => h, fun _ _ h => h, le_refl _⟩

theorem grows_markLocal {ms ms' : MatchState K} {l : String} {i : Nat} (h : markLocal ms l i = .ok ms')
    (out : Pairings K) : Grows (ms, out) (ms', out) := by
  obtain ⟨h1, h2, h3⟩ := markLocal_ok h
  refine ⟨⟨[], by simp [h3], by simp⟩, ⟨[], by simp⟩, ⟨[], by simp⟩, rfl, rfl, rfl,
    fun _ _ h => flagMark_mono h1 h, fun _ _ h => by simpa [h2] using h, fun _ _ h => readable_mark h1 h,
    fun _ _ h => by simpa [h2] using h, le_refl _⟩

theorem grows_markGlobal {ms ms' : MatchState K} {l : String} {i : Nat} (h : markGlobal ms l i = .ok ms')
    (out : Pairings K) : Grows (ms, out) (ms', out) := by
  obtain ⟨h1, h2, h3⟩ := markGlobal_ok h
  refine ⟨⟨[], by simp [h3], by simp⟩, ⟨[], by simp⟩, ⟨[], by simp⟩, rfl, rfl, rfl,
    fun _ _ h => by simpa [h2] using h, fun _ _ h => flagMark_mono h1 h, fun _ _ h => by simpa [h2] using h,
    fun _ _ h => readable_mark h1 h, le_refl _⟩

theorem grows_pot (ms : MatchState K) (out : Pairings K) (n : Nat) :
    Grows (ms, out) (ms, { out with potential := out.potential + n }) :=
  ⟨⟨[], by simp, by simp⟩, ⟨[], by simp⟩, ⟨[], by simp⟩, rfl, rfl, rfl, fun _ _ h => h, fun _ _ h => h,
   fun _ _ h => h, fun _ _ h => h, by simp⟩

theorem grows_pl (ms : MatchState K) (out : Pairings K) (p : PtPlPair K) :
    Grows (ms, out) (ms, { out with pt2pl := out.pt2pl ++ [p] }) :=
  ⟨⟨[], by simp, by simp⟩, ⟨[], by simp⟩, ⟨[p], by simp⟩, rfl, rfl, rfl, fun _ _ h => h, fun _ _ h => h,
   fun _ _ h => h, fun _ _ h => h, le_refl _⟩

theorem grows_ln (ms : MatchState K) (out : Pairings K) (p : PtLnPair K) :
    Grows (ms, out) (ms, { out with pt2ln := out.pt2ln ++ [p] }) :=
  ⟨⟨[], by simp, by simp⟩, ⟨[p], by simp⟩, ⟨[], by simp⟩, rfl, rfl, rfl, fun _ _ h => h, fun _ _ h => h,
   fun _ _ h => h, fun _ _ h => h, le_refl _⟩

variable [LT K] [DecidableLT K] [LE K] [DecidableLE K] [Zero K] [Add K] [Mul K] [One K] [NatCast K]

/-- How a one-layer matcher may end normally. -/
theorem layerFrame_ok {c : PtsCfg K} {tf : P3 K → P3 K} {g : GLayer K} {pts : List (P3 K)} {n : Nat}
    {margin : K} {ms : MatchState K} {out : Pairings K}
    {body : TLocal K → MatchState K × Pairings K → Outcome (MatchState K × Pairings K)}
    {r : MatchState K × Pairings K} (h : layerFrame c tf g pts n margin ms out body = .ok r) :
    r = (ms, { out with potential := out.potential + n }) ∨
    ∃ tl, transformLocal c tf pts = .ok tl ∧ g.isEmpty = false ∧ pts ≠ [] ∧
      g.boxesMeet tl.xs margin = true ∧
      body tl (ms, { out with potential := out.potential + n }) = .ok r := by
  unfold layerFrame at h
  simp only at h
  split at h
  · simp only [Outcome.ok.injEq] at h; exact Or.inl h.symm
  · rename_i he
    simp only [Outcome.bind_eq_ok] at h
    obtain ⟨tl, htl, hb⟩ := h
    split at hb
    · rename_i hm
      simp only [Bool.or_eq_true, List.isEmpty_iff, not_or, Bool.not_eq_true] at he
      exact Or.inr ⟨tl, htl, he.1, he.2, hm, hb⟩
    · simp only [Outcome.ok.injEq] at hb; exact Or.inl hb.symm

theorem grows_frame {c : PtsCfg K} {tf : P3 K → P3 K} {g : GLayer K} {pts : List (P3 K)} {n : Nat}
    {margin : K} {ms : MatchState K} {out : Pairings K}
    {body : TLocal K → MatchState K × Pairings K → Outcome (MatchState K × Pairings K)}
    {r : MatchState K × Pairings K} (h : layerFrame c tf g pts n margin ms out body = .ok r)
    (hb : ∀ tl s s', body tl s = .ok s' → Grows s s') : Grows (ms, out) r := by
  rcases layerFrame_ok h with rfl | ⟨tl, _, _, _, _, h2⟩
  · exact grows_pot _ _ _
  · exact Grows.trans _ _ _ (grows_pot _ _ _) (hb _ _ _ h2)

theorem dtAddPair_grows {c : DTCfg K} {gName lName : String} {pts : List (P3 K)} {l : Nat}
    {s s' : MatchState K × Pairings K} {nb : Nbr K} (h : dtAddPair c gName lName pts l s nb = .ok s') :
    Grows s s' := by
  unfold dtAddPair at h
  simp only [Outcome.bind_eq_ok] at h
  obtain ⟨sk, _, h⟩ := h
  split at h
  · simp only [Outcome.ok.injEq] at h; subst h; exact Grows.refl _
  · simp only [Outcome.bind_eq_ok] at h
    obtain ⟨p, _, h⟩ := h
    have hp := grows_push s.1 s.2 gName lName ⟨nb.idx, l, nb.pt, p, nb.d2⟩
    split at h
    · simp only [Outcome.ok.injEq] at h; subst h; exact hp
    · simp only [Outcome.bind_eq_ok, Outcome.ok.injEq] at h
      obtain ⟨m1, h1, m2, h2, rfl⟩ := h
      exact Grows.trans _ _ _ hp (Grows.trans _ _ _ (grows_markLocal h1 _) (grows_markGlobal h2 _))

theorem dtNbrLoop_grows {c : DTCfg K} {gName lName : String} {pts : List (P3 K)} {l : Nat} {lim : K}
    {s s' : MatchState K × Pairings K} {nbs : List (Nbr K)}
    (h : dtNbrLoop c gName lName pts l lim s nbs = .ok s') : Grows s s' := by
  induction nbs generalizing s with
  | nil => simp only [dtNbrLoop, Outcome.ok.injEq] at h; subst h; exact Grows.refl _
  | cons nb nbs ih =>
    simp only [dtNbrLoop] at h
    split at h
    · simp only [Outcome.ok.injEq] at h; subst h; exact Grows.refl _
    · simp only [Outcome.bind_eq_ok] at h
      obtain ⟨a, ha, hb⟩ := h
      exact Grows.trans _ _ _ (dtAddPair_grows ha) (ih hb)

theorem dtStep_grows {c : DTCfg K} {g : GLayer K} {gName lName : String} {pts : List (P3 K)} {tl : TLocal K}
    {s s' : MatchState K × Pairings K} {i : Nat} (h : dtStep c g gName lName pts tl s i = .ok s') :
    Grows s s' := by
  unfold dtStep at h
  simp only [Outcome.bind_eq_ok] at h
  obtain ⟨l, _, sk, _, h⟩ := h
  split at h
  · simp only [Outcome.ok.injEq] at h; subst h; exact Grows.refl _
  · simp only [Outcome.bind_eq_ok] at h
    obtain ⟨q, _, h⟩ := h
    exact dtNbrLoop_grows h

theorem irKeepStep_grows {c : IRCfg K} {gName lName : String} {s s' : MatchState K × Pairings K}
    {p : PtPair K} (h : irKeepStep c gName lName s p = .ok s') : Grows s s' := by
  unfold irKeepStep at h
  simp only [Outcome.bind_eq_ok] at h
  obtain ⟨sk, _, h⟩ := h
  split at h
  · simp only [Outcome.ok.injEq] at h; subst h; exact Grows.refl _
  · simp only [Outcome.bind_eq_ok, Outcome.ok.injEq] at h
    obtain ⟨m1, h1, m2, h2, rfl⟩ := h
    exact Grows.trans _ _ _ (grows_push s.1 s.2 gName lName p)
      (Grows.trans _ _ _ (grows_markLocal h1 _) (grows_markGlobal h2 _))

theorem irKeep_grows {c : IRCfg K} {gName lName : String} {s s' : MatchState K × Pairings K}
    {cand : List (PtPair K)} (h : irKeep c gName lName cand s = .ok s') : Grows s s' := by
  unfold irKeep at h
  split at h
  · simp at h
  · split at h
    · simp at h
    · exact fold_rel Grows Grows.refl Grows.trans (fun _ _ _ h => irKeepStep_grows h) _ _ _ h

theorem plStep_grows {c : PlCfg K} {g : GLayer K} {lName : String} {pts : List (P3 K)} {tl : TLocal K}
    {s s' : MatchState K × Pairings K} {i : Nat} (h : plStep c g lName pts tl s i = .ok s') : Grows s s' := by
  unfold plStep at h
  simp only [Outcome.bind_eq_ok] at h
  obtain ⟨l, _, sk, _, h⟩ := h
  split at h
  · simp only [Outcome.ok.injEq] at h; subst h; exact Grows.refl _
  · simp only [Outcome.bind_eq_ok] at h
    obtain ⟨q, _, h⟩ := h
    split at h
    · simp only [Outcome.ok.injEq] at h; subst h; exact Grows.refl _
    · split at h
      · simp only [Outcome.ok.injEq] at h; subst h; exact Grows.refl _
      · simp only [Outcome.bind_eq_ok, Outcome.ok.injEq] at h
        obtain ⟨p, _, m1, h1, rfl⟩ := h
        exact Grows.trans _ _ _ (grows_markLocal h1 _) (grows_pl _ _ _)

theorem lnStep_grows {c : LnCfg K} {g : GLayer K} {lName : String} {pts : List (P3 K)} {tl : TLocal K}
    {s s' : MatchState K × Pairings K} {i : Nat} (h : lnStep c g lName pts tl s i = .ok s') : Grows s s' := by
  unfold lnStep at h
  simp only [Outcome.bind_eq_ok] at h
  obtain ⟨l, _, sk, _, h⟩ := h
  split at h
  · simp only [Outcome.ok.injEq] at h; subst h; exact Grows.refl _
  · simp only [Outcome.bind_eq_ok] at h
    obtain ⟨q, _, h⟩ := h
    split at h
    · simp only [Outcome.ok.injEq] at h; subst h; exact Grows.refl _
    · simp only [Outcome.bind_eq_ok] at h
      obtain ⟨e, _, h⟩ := h
      split at h
      · simp only [Outcome.ok.injEq] at h; subst h; exact Grows.refl _
      · split at h
        · simp only [Outcome.ok.injEq] at h; subst h; exact Grows.refl _
        · simp only [Outcome.bind_eq_ok, Outcome.ok.injEq] at h
          obtain ⟨p, _, m1, h1, rfl⟩ := h
          exact Grows.trans _ _ _ (grows_markLocal h1 _) (grows_ln _ _ _)

theorem adPtLoop_grows {c : AdCfg K} {gName lName : String} {mc e0 : K} {i : Nat}
    {s s' : MatchState K × Pairings K} {ps : List (PtPair K)}
    (h : adPtLoop c gName lName mc e0 i s ps = .ok s') : Grows s s' := by
  induction ps generalizing s i with
  | nil => simp only [adPtLoop, Outcome.ok.injEq] at h; subst h; exact Grows.refl _
  | cons p ps ih =>
    simp only [adPtLoop, Outcome.bind_eq_ok] at h
    obtain ⟨sk, _, h⟩ := h
    split at h
    · exact ih h
    · split at h
      · exact ih h
      · split at h
        · simp only [Outcome.ok.injEq] at h; subst h; exact Grows.refl _
        · split at h
          · exact Grows.trans _ _ _ (grows_push s.1 s.2 gName lName p) (ih h)
          · simp only [Outcome.bind_eq_ok] at h
            obtain ⟨m1, h1, h⟩ := h
            exact Grows.trans _ _ _ (grows_push s.1 s.2 gName lName p)
              (Grows.trans _ _ _ (grows_markLocal h1 _) (ih h))

theorem adOutStep_grows {c : AdCfg K} {gName lName : String} {pts : List (P3 K)} {mc : K}
    {s s' : MatchState K × Pairings K} {m : List (PtPair K)}
    (h : adOutStep c gName lName pts mc s m = .ok s') : Grows s s' := by
  unfold adOutStep at h
  simp only [Outcome.bind_eq_ok] at h
  obtain ⟨pl, _, h⟩ := h
  split at h
  · simp only [Outcome.bind_eq_ok, Outcome.ok.injEq] at h
    obtain ⟨p, _, m1, h1, rfl⟩ := h
    exact Grows.trans _ _ _ (grows_markLocal h1 _) (grows_pl _ _ _)
  · simp only [Outcome.ok.injEq] at h; subst h; exact Grows.refl _
  · exact adPtLoop_grows h

theorem adOut_grows {c : AdCfg K} {gName lName : String} {pts : List (P3 K)} {a : AdState K}
    {s s' : MatchState K × Pairings K} (h : adOut c gName lName pts a s = .ok s') : Grows s s' := by
  unfold adOut at h
  split at h
  · simp at h
  · exact fold_rel Grows Grows.refl Grows.trans (fun _ _ _ h => adOutStep_grows h) _ _ _ h

/-- Every one-layer matcher only adds. -/
theorem layer_grows (m : PtMatcher K) {tf : P3 K → P3 K} {g : GLayer K} {gName lName : String}
    {pts : List (P3 K)} {ms : MatchState K} {out : Pairings K} {r : MatchState K × Pairings K}
    (h : m.layer tf g gName lName pts ms out = .ok r) : Grows (ms, out) r := by
  cases m with
  | distanceThreshold c =>
    simp only [PtMatcher.layer, dtLayer, Outcome.bind_def, Outcome.bind_eq_ok] at h
    obtain ⟨_, _, _, _, _, _, _, _, h⟩ := h
    exact grows_frame h fun tl s s' hb => fold_rel Grows Grows.refl Grows.trans
      (fun _ _ _ h => dtStep_grows h) _ _ _ hb
  | inlierRatio c =>
    simp only [PtMatcher.layer, irLayer, Outcome.bind_def, Outcome.bind_eq_ok] at h
    obtain ⟨_, _, _, _, _, _, h⟩ := h
    refine grows_frame h fun tl s s' hb => ?_
    simp only [Outcome.bind_eq_ok] at hb
    obtain ⟨cand, _, hb⟩ := hb
    exact irKeep_grows hb
  | point2plane c =>
    simp only [PtMatcher.layer, plLayer, Outcome.bind_def, Outcome.bind_eq_ok] at h
    obtain ⟨_, _, h⟩ := h
    exact grows_frame h fun tl s s' hb => fold_rel Grows Grows.refl Grows.trans
      (fun _ _ _ h => plStep_grows h) _ _ _ hb
  | point2line c =>
    simp only [PtMatcher.layer, lnLayer, Outcome.bind_def, Outcome.bind_eq_ok] at h
    obtain ⟨_, _, h⟩ := h
    exact grows_frame h fun tl s s' hb => fold_rel Grows Grows.refl Grows.trans
      (fun _ _ _ h => lnStep_grows h) _ _ _ hb
  | adaptive c =>
    simp only [PtMatcher.layer, adLayer, Outcome.bind_def, Outcome.bind_eq_ok] at h
    obtain ⟨_, _, h⟩ := h
    refine grows_frame h fun tl s s' hb => ?_
    simp only [Outcome.bind_eq_ok] at hb
    obtain ⟨cand, _, hb⟩ := hb
    exact adOut_grows hb

end Verif.Lemmas
