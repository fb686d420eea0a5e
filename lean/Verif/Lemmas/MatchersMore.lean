import Verif.Lemmas.MatchersDT
/-
InlierRatio, Point2Plane, Point2Line, Adaptive: output and memory safety (C21, C22, C23).
-/
namespace Verif.Lemmas
open Verif Verif.Spec
variable {K : Type} [LT K] [DecidableLT K] [LE K] [DecidableLE K] [Zero K] [Add K] [Mul K] [One K] [NatCast K]

/-! ### InlierRatio -/

theorem irKeepStep_new {c : IRCfg K} {gName lName : String} {s s' : MatchState K × Pairings K} {p : PtPair K}
    (h : irKeepStep c gName lName s p = .ok s') :
    s'.2.pt2pt = s.2.pt2pt ++ [p] ∨
    (s'.2.pt2pt = s.2.pt2pt ∧ c.allowGlobal = false ∧ Flagged s'.1.globalFlags gName p.globalIdx) := by
  unfold irKeepStep at h
  simp only [Outcome.bind_eq_ok] at h
  obtain ⟨sk, hsk, h⟩ := h
  split at h
  · rename_i hs
    subst hs
    simp only [Outcome.ok.injEq] at h; subst h
    refine Or.inr ⟨rfl, ?_⟩
    unfold skipGlobal at hsk
    split at hsk
    · simp at hsk
    · rename_i hg; exact ⟨by simpa using hg, hsk⟩
  · simp only [Outcome.bind_eq_ok, Outcome.ok.injEq] at h
    obtain ⟨m1, h1, m2, h2, rfl⟩ := h
    exact Or.inl rfl

theorem irKeepFold_new {c : IRCfg K} {gName lName : String} (ps : List (PtPair K))
    {s s' : MatchState K × Pairings K} (h : foldOutcome (irKeepStep c gName lName) s ps = .ok s') :
    ∃ new, s'.2.pt2pt = s.2.pt2pt ++ new ∧ List.Sublist new ps ∧
      ∀ p ∈ ps, p ∈ new ∨ (c.allowGlobal = false ∧ Flagged s'.1.globalFlags gName p.globalIdx) := by
  induction ps generalizing s with
  | nil =>
    simp only [foldOutcome, Outcome.ok.injEq] at h; subst h
    exact ⟨[], by simp, by simp, by simp⟩
  | cons p ps ih =>
    simp only [foldOutcome, Outcome.bind_eq_ok] at h
    obtain ⟨a, ha, hb⟩ := h
    obtain ⟨new, h1, h2, h3⟩ := ih hb
    have hg : Grows a s' := fold_rel Grows Grows.refl Grows.trans (fun _ _ _ h => irKeepStep_grows h) _ _ _ hb
    rcases irKeepStep_new ha with ha | ⟨ha, hfg, hfl⟩
    · refine ⟨p :: new, by rw [h1, ha]; simp, h2.cons_cons _, ?_⟩
      intro x hx
      rcases List.mem_cons.mp hx with rfl | hx
      · exact Or.inl List.mem_cons_self
      · rcases h3 x hx with h | h
        · exact Or.inl (List.mem_cons_of_mem _ h)
        · exact Or.inr h
    · refine ⟨new, by rw [h1, ha], h2.cons _, ?_⟩
      intro x hx
      rcases List.mem_cons.mp hx with rfl | hx
      · exact Or.inr ⟨hfg, hg.gf _ _ hfl⟩
      · exact h3 x hx

theorem irKeepStep_total {c : IRCfg K} {gName lName : String} {s : MatchState K × Pairings K} {p : PtPair K}
    (h1 : Readable s.1.localFlags lName p.localIdx) (h2 : Readable s.1.globalFlags gName p.globalIdx) :
    ∃ s', irKeepStep c gName lName s p = .ok s' := by
  unfold irKeepStep
  obtain ⟨b, hb⟩ := skipGlobal_total (c := c.toPtsCfg) h2
  rw [hb]
  simp only [Outcome.bind]
  split
  · exact ⟨_, rfl⟩
  · obtain ⟨m1, hm1⟩ := markLocal_total (ms := (pushPt s.1 s.2 gName lName p).1) h1
    obtain ⟨a1, a2, a3⟩ := markLocal_ok hm1
    have h3 : Readable m1.globalFlags gName p.globalIdx := by rw [a2]; exact h2
    obtain ⟨m2, hm2⟩ := markGlobal_total h3
    exact ⟨(m2, _), by rw [hm1]; simp only [Outcome.bind]; rw [hm2]⟩

theorem irCandStep_total {c : IRCfg K} {tf : P3 K → P3 K} {g : GLayer K} {gName lName : String}
    {pts : List (P3 K)} {tl : TLocal K} {ms : MatchState K} {acc : List (PtPair K)} {i : Nat}
    (hg : TLGood tf pts tl) (hi : i < tl.xs.length) (hf : FlagsFit ms g gName lName pts.length) :
    ∃ acc', irCandStep c g lName pts tl ms acc i = .ok acc' := by
  obtain ⟨l, hl, hlt, _⟩ := hg.tot i hi
  unfold irCandStep
  rw [hl]
  simp only [Outcome.bind]
  obtain ⟨b, hb⟩ := skipLocal_total (c := c.toPtsCfg) hf hlt
  rw [hb]
  simp only
  split
  · exact ⟨_, rfl⟩
  · rw [vecAt_lt _ _ hi]
    simp only
    split
    · exact ⟨_, rfl⟩
    · rw [vecAt_lt _ _ hlt]
      exact ⟨_, rfl⟩

/-! ### one pairing per local point (planes and lines) -/

/-- Invariant of loops adding at most one thing per local point. -/
structure PerPoint {β : Type} (proj : Pairings K → List β) (Q : Nat → P3 K → β → Prop)
    (pts : List (P3 K)) (tl : TLocal K) (n : Nat) (s s' : MatchState K × Pairings K) (ls : List Nat)
    (new : List β) : Prop where
  eq : proj s'.2 = proj s.2 ++ new
  rel : List.Forall₂ (fun l b => ∃ p, pts[l]? = some p ∧ Q l p b) ls new
  nodup : ls.Nodup
  src : ∀ l ∈ ls, ∃ i, i < n ∧ tl.index i = .ok l

/-- A step which adds at most one thing for local point `tl.index i`. -/
def OneStep {β : Type} (proj : Pairings K → List β) (Q : Nat → P3 K → β → Prop) (pts : List (P3 K))
    (tl : TLocal K) (s s' : MatchState K × Pairings K) (i : Nat) : Prop :=
  proj s'.2 = proj s.2 ∨
  ∃ l p b, tl.index i = .ok l ∧ pts[l]? = some p ∧ Q l p b ∧ proj s'.2 = proj s.2 ++ [b]

theorem perPoint_fold {β : Type} {proj : Pairings K → List β} {Q : Nat → P3 K → β → Prop} {tf : P3 K → P3 K}
    {pts : List (P3 K)} {tl : TLocal K} (hg : TLGood tf pts tl)
    {step : MatchState K × Pairings K → Nat → Outcome (MatchState K × Pairings K)}
    (hstep : ∀ s i s', step s i = .ok s' → OneStep proj Q pts tl s s' i) (n : Nat) (hn : n ≤ tl.xs.length)
    {s s' : MatchState K × Pairings K} (h : foldOutcome step s (List.range n) = .ok s') :
    ∃ ls new, PerPoint proj Q pts tl n s s' ls new := by
  induction n generalizing s' with
  | zero =>
    simp only [List.range_zero, foldOutcome, Outcome.ok.injEq] at h
    subst h
    exact ⟨[], [], by simp, .nil, by simp, by simp⟩
  | succ n ih =>
    rw [List.range_succ, fold_append] at h
    simp only [Outcome.bind_eq_ok, foldOutcome, Outcome.ok.injEq] at h
    obtain ⟨a, ha, b, hb, rfl⟩ := h
    obtain ⟨ls, new, hp⟩ := ih (by omega) ha
    have hsrc : ∀ l ∈ ls, ∃ i, i < n + 1 ∧ tl.index i = .ok l := by
      intro l hl
      obtain ⟨i, hi, hil⟩ := hp.src l hl
      exact ⟨i, by omega, hil⟩
    rcases hstep _ _ _ hb with hst | ⟨l, p, x, hl, hpl, hq, hst⟩
    · exact ⟨ls, new, by rw [hst, hp.eq], hp.rel, hp.nodup, hsrc⟩
    · refine ⟨ls ++ [l], new ++ [x], by rw [hst, hp.eq]; simp, ?_, ?_, ?_⟩
      · exact List.rel_append hp.rel (.cons ⟨p, hpl, hq⟩ .nil)
      · rw [List.nodup_append]
        refine ⟨hp.nodup, by simp, ?_⟩
        intro x hx y hy hxy
        rw [List.mem_singleton] at hy
        subst hy; subst hxy
        obtain ⟨i, hi, hil⟩ := hp.src x hx
        have := hg.inj i n x (by omega) (by omega) hil hl
        omega
      · intro x hx
        rcases List.mem_append.mp hx with hx | hx
        · exact hsrc x hx
        · rw [List.mem_singleton] at hx; subst hx
          exact ⟨n, by omega, hl⟩

/-- Local flags set by a loop over the positions are those of the points visited. -/
theorem localFlags_fold {lName : String} {tl : TLocal K}
    {step : MatchState K × Pairings K → Nat → Outcome (MatchState K × Pairings K)}
    (hstep : ∀ s i s', step s i = .ok s' → ∀ ln j, Flagged s'.1.localFlags ln j →
      Flagged s.1.localFlags ln j ∨ (ln = lName ∧ tl.index i = .ok j)) (n : Nat)
    {s s' : MatchState K × Pairings K} (h : foldOutcome step s (List.range n) = .ok s') (ln : String) (j : Nat)
    (hf : Flagged s'.1.localFlags ln j) :
    Flagged s.1.localFlags ln j ∨ (ln = lName ∧ ∃ i, i < n ∧ tl.index i = .ok j) := by
  induction n generalizing s' with
  | zero =>
    simp only [List.range_zero, foldOutcome, Outcome.ok.injEq] at h
    subst h
    exact Or.inl hf
  | succ n ih =>
    rw [List.range_succ, fold_append] at h
    simp only [Outcome.bind_eq_ok, foldOutcome, Outcome.ok.injEq] at h
    obtain ⟨a, ha, b, hb, rfl⟩ := h
    rcases hstep _ _ _ hb ln j hf with hf | ⟨h1, h2⟩
    · rcases ih ha hf with h | ⟨h1, i, hi, h2⟩
      · exact Or.inl h
      · exact Or.inr ⟨h1, i, by omega, h2⟩
    · exact Or.inr ⟨h1, n, by omega, h2⟩

/-- The pairing condition of the plane matcher. -/
def PlQ (c : PlCfg K) (tf : P3 K → P3 K) (g : GLayer K) (_l : Nat) (p : P3 K) (b : PtPlPair K) : Prop :=
  b.ptLocal = p ∧ ∃ d, g.nnPlane (tf p) c.thr = some (b.plGlobal, d) ∧ ¬ c.thr < d

theorem plStep_one {c : PlCfg K} {tf : P3 K → P3 K} {g : GLayer K} {lName : String} {pts : List (P3 K)}
    {tl : TLocal K} (hg : TLGood tf pts tl) {s s' : MatchState K × Pairings K} {i : Nat}
    (h : plStep c g lName pts tl s i = .ok s') :
    OneStep (·.pt2pl) (PlQ c tf g) pts tl s s' i ∧
    (∀ ln j, Flagged s'.1.localFlags ln j → Flagged s.1.localFlags ln j ∨ (ln = lName ∧ tl.index i = .ok j)) ∧
    (∀ l q pl d, tl.index i = .ok l → tl.xs[i]? = some q → g.nnPlane q c.thr = some (pl, d) → ¬ c.thr < d →
      skipLocal c.toPtsCfg s.1 lName l = .ok false → Flagged s'.1.localFlags lName l ∧
      ∃ b, s'.2.pt2pl = s.2.pt2pl ++ [b]) := by
  unfold plStep at h
  simp only [Outcome.bind_eq_ok] at h
  obtain ⟨l, hl, sk, hsk, h⟩ := h
  split at h
  · rename_i hs
    subst hs
    simp only [Outcome.ok.injEq] at h; subst h
    refine ⟨Or.inl rfl, fun _ _ h => Or.inl h, ?_⟩
    intro l' q pl d h1 _ _ _ h5
    rw [hl] at h1; cases h1
    rw [hsk] at h5; cases h5
  · simp only [Outcome.bind_eq_ok, vecAt_ok] at h
    obtain ⟨q, hq, h⟩ := h
    split at h
    · rename_i hn
      simp only [Outcome.ok.injEq] at h; subst h
      refine ⟨Or.inl rfl, fun _ _ h => Or.inl h, ?_⟩
      intro l' q' pl d h1 h2 h3 _ _
      rw [hq] at h2; cases h2
      rw [hn] at h3; cases h3
    · rename_i pl d hn
      split at h
      · rename_i hd
        simp only [Outcome.ok.injEq] at h; subst h
        refine ⟨Or.inl rfl, fun _ _ h => Or.inl h, ?_⟩
        intro l' q' pl' d' h1 h2 h3 h4 _
        rw [hq] at h2; cases h2
        rw [hn] at h3; cases h3
        exact (h4 hd).elim
      · rename_i hd
        simp only [Outcome.bind_eq_ok, Outcome.ok.injEq, vecAt_ok] at h
        obtain ⟨p, hp, m1, h1, rfl⟩ := h
        obtain ⟨a1, a2, a3⟩ := markLocal_ok h1
        obtain ⟨p', hp', hq'⟩ := hg.idx i l q hl hq
        rw [hp] at hp'; cases hp'
        refine ⟨Or.inr ⟨l, p, ⟨pl, p⟩, hl, hp, ⟨rfl, d, hq' ▸ hn, hd⟩, rfl⟩, ?_, ?_⟩
        · intro ln j hf
          rcases flagMark_inv a1 hf with hf | ⟨h1, h2⟩
          · exact Or.inl hf
          · exact Or.inr ⟨h1, h2 ▸ hl⟩
        · intro l' q' pl' d' h1 _ _ _ _
          rw [hl] at h1; cases h1
          exact ⟨flagMark_self a1, _, rfl⟩

/-- The pairing condition of the line matcher. -/
def LnQ (c : LnCfg K) (tf : P3 K → P3 K) (g : GLayer K) (_l : Nat) (p : P3 K) (b : PtLnPair K) : Prop :=
  b.ptLocal = p ∧
  b.lnGlobal = ⟨(c.eig ((g.nnMultiple (tf p) c.knn).map (·.pt))).mean,
    c.unit (c.eig ((g.nnMultiple (tf p) c.knn).map (·.pt))).vecs.2.2⟩ ∧
  c.minPts ≤ lnCut (c.thr * c.thr) ((g.nnMultiple (tf p) c.knn).map (·.d2)) ∧
  3 ≤ (g.nnMultiple (tf p) c.knn).length

theorem lnStep_one {c : LnCfg K} {tf : P3 K → P3 K} {g : GLayer K} {lName : String} {pts : List (P3 K)}
    {tl : TLocal K} (hg : TLGood tf pts tl) {s s' : MatchState K × Pairings K} {i : Nat}
    (h : lnStep c g lName pts tl s i = .ok s') : OneStep (·.pt2ln) (LnQ c tf g) pts tl s s' i := by
  unfold lnStep at h
  simp only [Outcome.bind_eq_ok] at h
  obtain ⟨l, hl, sk, hsk, h⟩ := h
  split at h
  · simp only [Outcome.ok.injEq] at h; subst h; exact Or.inl rfl
  · simp only [Outcome.bind_eq_ok, vecAt_ok] at h
    obtain ⟨q, hq, h⟩ := h
    split at h
    · simp only [Outcome.ok.injEq] at h; subst h; exact Or.inl rfl
    · rename_i hmin
      simp only [Outcome.bind_eq_ok] at h
      obtain ⟨e, he, h⟩ := h
      unfold estimateEigen at he
      split at he
      · simp at he
      · rename_i h3
        simp only [Outcome.ok.injEq] at he
        subst he
        split at h
        · simp only [Outcome.ok.injEq] at h; subst h; exact Or.inl rfl
        · split at h
          · simp only [Outcome.ok.injEq] at h; subst h; exact Or.inl rfl
          · simp only [Outcome.bind_eq_ok, Outcome.ok.injEq, vecAt_ok] at h
            obtain ⟨p, hp, m1, h1, rfl⟩ := h
            obtain ⟨p', hp', hq'⟩ := hg.idx i l q hl hq
            rw [hp] at hp'; cases hp'
            subst hq'
            rw [List.length_map] at h3
            exact Or.inr ⟨l, p, _, hl, hp, ⟨rfl, rfl, by omega, by omega⟩, rfl⟩

end Verif.Lemmas
