import Verif.Lemmas.MatchersMore
/-
Matcher_Adaptive (C23).
-/
namespace Verif.Lemmas
open Verif Verif.Spec
variable {K : Type} [LT K] [DecidableLT K] [LE K] [DecidableLE K] [Zero K] [Add K] [Mul K] [One K] [NatCast K]

/-- Candidates of local point `l` at `p`. -/
def adCands (c : AdCfg K) (tf : P3 K → P3 K) (g : GLayer K) (l : Nat) (p : P3 K) : List (PtPair K) :=
  (((adSearch c g (tf p)).filter fun nb => decide (¬ c.absMax * c.absMax < nb.d2)).map (mkPair l p)).take 10

theorem adNbrLoop_cand {c : AdCfg K} {pts : List (P3 K)} {l : Nat} {p : P3 K} (hp : pts[l]? = some p)
    (nbs : List (Nbr K)) (k : Nat) (s : AdState K) (ps : List (PtPair K)) (hps : s.cand[l]? = some ps)
    (hle : ps.length ≤ 10) :
    ∃ s', adNbrLoop c pts l k s nbs = .ok s' ∧
      s'.cand = s.cand.set l ((ps ++ (nbs.filter fun nb => decide (¬ c.absMax * c.absMax < nb.d2)).map
        (mkPair l p)).take 10) := by
  induction nbs generalizing k s ps with
  | nil =>
    refine ⟨s, rfl, ?_⟩
    simp only [List.filter_nil, List.map_nil, List.append_nil]
    rw [List.take_of_length_le hle]
    obtain ⟨h1, h2⟩ := List.getElem?_eq_some_iff.mp hps
    rw [← h2, List.set_getElem_self]
  | cons nb nbs ih =>
    simp only [adNbrLoop]
    split
    · rename_i hgt
      obtain ⟨s', h1, h2⟩ := ih (k + 1) s ps hps hle
      refine ⟨s', h1, ?_⟩
      rw [h2]
      have : c.absMax * c.absMax < nb.d2 := hgt
      simp [this]
    · rename_i hgt
      have hle2 : ¬ c.absMax * c.absMax < nb.d2 := hgt
      have hlt : l < s.cand.length := (List.getElem?_eq_some_iff.mp hps).1
      by_cases h10 : ps.length ≥ 10
      · have h1 : adAddPair pts l nb s.cand = .ok s.cand := by
          simp [adAddPair, hps, maxCorrsPerLocal, h10]
        rw [h1]
        simp only [Outcome.bind]
        obtain ⟨s', h2, h3⟩ := ih (k + 1) ⟨s.cand, adLims k nb.d2 s.lims⟩ ps hps hle
        refine ⟨s', h2, ?_⟩
        rw [h3]
        simp only
        congr 1
        rw [List.take_append_of_le_length (by omega), List.take_append_of_le_length (by omega)]
      · have h1 : adAddPair pts l nb s.cand = .ok (s.cand.set l (ps ++ [mkPair l p nb])) := by
          simp [adAddPair, hps, maxCorrsPerLocal, h10, vecAt, hp, mkPair]
        rw [h1]
        simp only [Outcome.bind]
        obtain ⟨s', h2, h3⟩ := ih (k + 1) ⟨s.cand.set l (ps ++ [mkPair l p nb]), adLims k nb.d2 s.lims⟩
          (ps ++ [mkPair l p nb]) (by simp [hlt]) (by simp; omega)
        refine ⟨s', h2, ?_⟩
        rw [h3]
        simp [hle2]

theorem adNbrLoop_lims {c : AdCfg K} {pts : List (P3 K)} {l : Nat} (nbs : List (Nbr K)) (k : Nat)
    (s s' : AdState K) (h : adNbrLoop c pts l k s nbs = .ok s') :
    s'.lims = none ↔ s.lims = none ∧
      ∀ (j : Nat) nb, nbs[j]? = some nb → k + j ≤ 1 → c.absMax * c.absMax < nb.d2 := by
  induction nbs generalizing k s with
  | nil => simp only [adNbrLoop, Outcome.ok.injEq] at h; subst h; simp
  | cons x nbs ih =>
    have hsplit : (∀ (j : Nat) nb, (x :: nbs)[j]? = some nb → k + j ≤ 1 → c.absMax * c.absMax < nb.d2) ↔
        (k ≤ 1 → c.absMax * c.absMax < x.d2) ∧
        ∀ (j : Nat) nb, nbs[j]? = some nb → (k + 1) + j ≤ 1 → c.absMax * c.absMax < nb.d2 := by
      constructor
      · intro hh
        exact ⟨fun hk => hh 0 x rfl (by omega), fun j nb hj hk => hh (j + 1) nb (by simpa using hj) (by omega)⟩
      · rintro ⟨h0, h1⟩ j nb hj hk
        cases j with
        | zero => simp only [List.getElem?_cons_zero, Option.some.injEq] at hj; subst hj; exact h0 (by omega)
        | succ j => exact h1 j nb (by simpa using hj) (by omega)
    rw [hsplit]
    simp only [adNbrLoop] at h
    split at h
    · rename_i hgt
      rw [ih (k + 1) s h]
      exact ⟨fun ⟨a, b⟩ => ⟨a, fun _ => hgt, b⟩, fun ⟨a, _, b⟩ => ⟨a, b⟩⟩
    · rename_i hgt
      simp only [Outcome.bind_eq_ok] at h
      obtain ⟨cand', _, h⟩ := h
      rw [ih (k + 1) _ h]
      simp only
      have hl : adLims k x.d2 s.lims = none ↔ s.lims = none ∧ ¬ k ≤ 1 := by
        unfold adLims
        split
        · rename_i hk; cases s.lims <;> simp [hk]
        · rename_i hk; simp [hk]
      rw [hl]
      constructor
      · rintro ⟨⟨a, b⟩, d⟩; exact ⟨a, fun hk => (b hk).elim, d⟩
      · rintro ⟨a, b, d⟩; exact ⟨⟨a, fun hk => hgt (b hk)⟩, d⟩

/-- Invariant of the first loop, after `n` positions. -/
structure AdInv (c : AdCfg K) (tf : P3 K → P3 K) (g : GLayer K) (lName : String) (pts : List (P3 K))
    (tl : TLocal K) (ms : MatchState K) (n : Nat) (s : AdState K) : Prop where
  len : s.cand.length = tl.xs.length
  done : ∀ i l p, i < n → tl.index i = .ok l → pts[l]? = some p →
    (skipLocal c.toPtsCfg ms lName l = .ok false → s.cand[l]? = some (adCands c tf g l p)) ∧
    (skipLocal c.toPtsCfg ms lName l ≠ .ok false → s.cand[l]? = some [])
  todo : ∀ i l, n ≤ i → i < tl.xs.length → tl.index i = .ok l → s.cand[l]? = some []
  lims : s.lims = none ↔ ∀ i l p, i < n → tl.index i = .ok l → pts[l]? = some p →
    skipLocal c.toPtsCfg ms lName l = .ok false →
    ∀ (j : Nat) nb, (adSearch c g (tf p))[j]? = some nb → j ≤ 1 → c.absMax * c.absMax < nb.d2

theorem adInv_step {c : AdCfg K} {tf : P3 K → P3 K} {g : GLayer K} {gName lName : String} {pts : List (P3 K)}
    {tl : TLocal K} {ms : MatchState K} {n : Nat} {s : AdState K} (hg : TLGood tf pts tl)
    (hn : n < tl.xs.length) (hf : FlagsFit ms g gName lName pts.length)
    (hi : AdInv c tf g lName pts tl ms n s) :
    ∃ s', adCandStep c g lName pts tl ms s n = .ok s' ∧ AdInv c tf g lName pts tl ms (n + 1) s' := by
  obtain ⟨l, hl, hlt, hlx⟩ := hg.tot n hn
  have hp : pts[l]? = some pts[l] := List.getElem?_eq_getElem hlt
  obtain ⟨b, hb⟩ := skipLocal_total (c := c.toPtsCfg) hf hlt
  unfold adCandStep
  rw [hl]
  simp only [Outcome.bind]
  rw [hb]
  simp only
  cases b with
  | true =>
    rw [if_pos rfl]
    refine ⟨s, rfl, hi.len, ?_, fun i l hni => hi.todo i l (by omega), ?_⟩
    · intro i l' p hin hil hpl
      by_cases h : i = n
      · subst h
        rw [hl] at hil; cases hil
        rw [hb]
        refine ⟨fun h => (by cases h), fun _ => hi.todo i l (le_refl _) hn hl⟩
      · exact hi.done i l' p (by omega) hil hpl
    · rw [hi.lims]
      constructor
      · intro hh i l' p hin hil hpl hsk
        by_cases h : i = n
        · subst h
          rw [hl] at hil; cases hil
          rw [hb] at hsk; cases hsk
        · exact hh i l' p (by omega) hil hpl hsk
      · intro hh i l' p hin
        exact hh i l' p (by omega)
  | false =>
    rw [if_neg (by simp)]
    rw [vecAt_lt _ _ hn]
    simp only
    obtain ⟨p', hp', hq⟩ := hg.idx n l _ hl (List.getElem?_eq_getElem hn)
    rw [hp] at hp'; cases hp'
    rw [hq]
    obtain ⟨s', h1, h2⟩ := adNbrLoop_cand (c := c) hp (adSearch c g (tf pts[l])) 0 s []
      (hi.todo n l (le_refl _) hn hl) (by simp)
    simp only [List.nil_append] at h2
    change s'.cand = s.cand.set l (adCands c tf g l pts[l]) at h2
    refine ⟨s', h1, by rw [h2, List.length_set]; exact hi.len, ?_, ?_, ?_⟩
    · intro i l' p hin hil hpl
      by_cases h : i = n
      · subst h
        rw [hl] at hil; cases hil
        rw [hp] at hpl; cases hpl
        rw [h2]
        have : l < s.cand.length := by rw [hi.len]; exact hlx
        exact ⟨fun _ => by simp [this], fun h => (h hb).elim⟩
      · have hne : l ≠ l' := by
          intro he; subst he
          exact h (hg.inj i n l (by omega) hn hil hl)
        have := hi.done i l' p (by omega) hil hpl
        rw [h2, List.getElem?_set_ne hne]
        exact this
    · intro i l' hin hix hil
      have hne : l ≠ l' := by
        intro he; subst he
        have := hg.inj i n l hix hn hil hl
        omega
      rw [h2, List.getElem?_set_ne hne]
      exact hi.todo i l' (by omega) hix hil
    · rw [adNbrLoop_lims _ _ _ _ h1, hi.lims]
      constructor
      · rintro ⟨hh, h0⟩ i l' p hin hil hpl hsk
        by_cases h : i = n
        · subst h
          rw [hl] at hil; cases hil
          rw [hp] at hpl; cases hpl
          intro j nb hj hj1
          exact h0 j nb hj (by omega)
        · exact hh i l' p (by omega) hil hpl hsk
      · intro hh
        refine ⟨fun i l' p hin => hh i l' p (by omega), ?_⟩
        intro j nb hj hj1
        exact hh n l _ (by omega) hl hp hb j nb hj (by omega)

theorem adInv_fold {c : AdCfg K} {tf : P3 K → P3 K} {g : GLayer K} {gName lName : String} {pts : List (P3 K)}
    {tl : TLocal K} {ms : MatchState K} (hg : TLGood tf pts tl)
    (hf : FlagsFit ms g gName lName pts.length) (n : Nat) (hn : n ≤ tl.xs.length) :
    ∃ s, foldOutcome (adCandStep c g lName pts tl ms) ⟨List.replicate tl.xs.length [], none⟩ (List.range n)
      = .ok s ∧ AdInv c tf g lName pts tl ms n s := by
  induction n with
  | zero =>
    refine ⟨_, rfl, by simp, by simp, ?_, by simp⟩
    intro i l _ hi hil
    obtain ⟨l', hl', _, hlx⟩ := hg.tot i hi
    rw [hil] at hl'; cases hl'
    simp [hlx]
  | succ n ih =>
    obtain ⟨s, h1, h2⟩ := ih (by omega)
    obtain ⟨s', h3, h4⟩ := adInv_step hg (by omega) hf h2
    refine ⟨s', ?_, h4⟩
    rw [List.range_succ, fold_append, h1]
    simp [foldOutcome, h3]

/-! second loop -/

theorem adPtLoop_new {c : AdCfg K} {gName lName : String} {mc e0 : K} (ps : List (PtPair K)) (i : Nat)
    {s s' : MatchState K × Pairings K} (h : adPtLoop c gName lName mc e0 i s ps = .ok s') :
    s'.2.pt2pl = s.2.pt2pl ∧ s'.2.potential = s.2.potential ∧ ∃ new, s'.2.pt2pt = s.2.pt2pt ++ new ∧ List.Sublist new ps ∧
      ∀ x ∈ new, ¬ mc ≤ x.errSq ∧
        ((i = 0 ∧ ps.head? = some x) ∨ ¬ e0 * (c.first2second * c.first2second) < x.errSq) := by
  induction ps generalizing s i with
  | nil =>
    simp only [adPtLoop, Outcome.ok.injEq] at h; subst h
    exact ⟨rfl, rfl, [], by simp, by simp, by simp⟩
  | cons p ps ih =>
    simp only [adPtLoop, Outcome.bind_eq_ok] at h
    obtain ⟨sk, _, h⟩ := h
    have hweak : ∀ {t : MatchState K × Pairings K}, adPtLoop c gName lName mc e0 (i + 1) t ps = .ok s' →
        s'.2.pt2pl = t.2.pt2pl ∧ s'.2.potential = t.2.potential ∧ ∃ new, s'.2.pt2pt = t.2.pt2pt ++ new ∧ List.Sublist new ps ∧
          ∀ x ∈ new, ¬ mc ≤ x.errSq ∧ ¬ e0 * (c.first2second * c.first2second) < x.errSq := by
      intro t ht
      obtain ⟨h0, h00, new, h1, h2, h3⟩ := ih (i + 1) ht
      refine ⟨h0, h00, new, h1, h2, fun x hx => ?_⟩
      obtain ⟨a, b⟩ := h3 x hx
      refine ⟨a, ?_⟩
      rcases b with ⟨b, _⟩ | b
      · omega
      · exact b
    have hskip : adPtLoop c gName lName mc e0 (i + 1) s ps = .ok s' → s'.2.pt2pl = s.2.pt2pl ∧
        s'.2.potential = s.2.potential ∧
        ∃ new, s'.2.pt2pt = s.2.pt2pt ++ new ∧ List.Sublist new (p :: ps) ∧
          ∀ x ∈ new, ¬ mc ≤ x.errSq ∧
            ((i = 0 ∧ (p :: ps).head? = some x) ∨ ¬ e0 * (c.first2second * c.first2second) < x.errSq) := by
      intro ht
      obtain ⟨h0, h00, new, h1, h2, h3⟩ := hweak ht
      exact ⟨h0, h00, new, h1, h2.cons _, fun x hx => ⟨(h3 x hx).1, Or.inr (h3 x hx).2⟩⟩
    split at h
    · exact hskip h
    · split at h
      · exact hskip h
      · rename_i hmc
        split at h
        · simp only [Outcome.ok.injEq] at h; subst h
          exact ⟨rfl, rfl, [], by simp, by simp, by simp⟩
        · rename_i hrat
          have hp : ¬ mc ≤ p.errSq ∧
              ((i = 0 ∧ (p :: ps).head? = some p) ∨ ¬ e0 * (c.first2second * c.first2second) < p.errSq) := by
            refine ⟨hmc, ?_⟩
            by_cases hi0 : i = 0
            · exact Or.inl ⟨hi0, rfl⟩
            · right
              intro hcon
              exact hrat ⟨hi0, hcon⟩
          split at h
          · obtain ⟨h0, h00, new, h1, h2, h3⟩ := hweak h
            refine ⟨h0, h00, p :: new, by rw [h1]; simp [pushPt], h2.cons_cons _, ?_⟩
            intro x hx
            rcases List.mem_cons.mp hx with rfl | hx
            · exact hp
            · exact ⟨(h3 x hx).1, Or.inr (h3 x hx).2⟩
          · simp only [Outcome.bind_eq_ok] at h
            obtain ⟨m1, hm1, h⟩ := h
            obtain ⟨h0, h00, new, h1, h2, h3⟩ := hweak h
            refine ⟨h0, h00, p :: new, by rw [h1]; simp [pushPt], h2.cons_cons _, ?_⟩
            intro x hx
            rcases List.mem_cons.mp hx with rfl | hx
            · exact hp
            · exact ⟨(h3 x hx).1, Or.inr (h3 x hx).2⟩

/-- What the second loop adds for one local point. -/
structure AdChunk (c : AdCfg K) (pts : List (P3 K)) (mc : K) (mspl : List (PtPair K)) (newPt : List (PtPair K))
    (newPl : List (PtPlPair K)) : Prop where
  kind : (newPt = [] ∧ ∃ b p0 rest, newPl = [b] ∧ mspl = p0 :: rest ∧ c.detectPlanes = true ∧
      c.planeMinFound ≤ mspl.length ∧ pts[p0.localIdx]? = some b.ptLocal) ∨
    (newPl = [] ∧ newPt.length ≤ c.maxPt2Pt)
  sub : List.Sublist newPt mspl
  lim : ∀ x ∈ newPt, ¬ mc ≤ x.errSq ∧ ∀ p0, mspl.head? = some p0 → x = p0 ∨
    ¬ p0.errSq * (c.first2second * c.first2second) < x.errSq

theorem adOutStep_new {c : AdCfg K} {gName lName : String} {pts : List (P3 K)} {mc : K}
    {s s' : MatchState K × Pairings K} {m : List (PtPair K)}
    (h : adOutStep c gName lName pts mc s m = .ok s') :
    s'.2.potential = s.2.potential ∧
    ∃ newPt newPl, s'.2.pt2pt = s.2.pt2pt ++ newPt ∧ s'.2.pt2pl = s.2.pt2pl ++ newPl ∧
      AdChunk c pts mc m newPt newPl := by
  unfold adOutStep at h
  simp only [Outcome.bind_eq_ok] at h
  obtain ⟨pl, hpl, h⟩ := h
  split at h
  · rename_i patch p0 rest
    simp only [Outcome.bind_eq_ok, Outcome.ok.injEq, vecAt_ok] at h
    obtain ⟨p, hp, m1, h1, rfl⟩ := h
    refine ⟨rfl, [], [⟨patch, p⟩], by simp, rfl, Or.inl ⟨rfl, _, p0, rest, rfl, rfl, ?_, ?_, hp⟩, by simp,
      by simp⟩
    all_goals
      unfold adPlane at hpl
      split at hpl
      · rename_i hc; simp only [Bool.and_eq_true, decide_eq_true_eq] at hc
        first | exact hc.1 | exact hc.2
      · simp at hpl
  · simp only [Outcome.ok.injEq] at h; subst h
    exact ⟨rfl, [], [], by simp, by simp, Or.inr ⟨rfl, by simp⟩, by simp, by simp⟩
  · rename_i p0 rest
    obtain ⟨h0, h00, new, h1, h2, h3⟩ := adPtLoop_new _ _ h
    refine ⟨h00, new, [], h1, by simp [h0], Or.inr ⟨rfl, ?_⟩, h2.trans (List.take_sublist _ _), ?_⟩
    · have := h2.length_le
      simp only [List.length_take] at this
      omega
    · intro x hx
      obtain ⟨a, b⟩ := h3 x hx
      refine ⟨a, ?_⟩
      intro q hq
      simp only [List.head?_cons, Option.some.injEq] at hq
      subst hq
      rcases b with ⟨_, b⟩ | b
      · left
        cases hk : c.maxPt2Pt with
        | zero => simp [hk] at b
        | succ k => simpa [hk, eq_comm] using b
      · exact Or.inr b

theorem adOut_chunks {c : AdCfg K} {gName lName : String} {pts : List (P3 K)} {mc : K}
    (cands : List (List (PtPair K))) {s s' : MatchState K × Pairings K}
    (h : foldOutcome (adOutStep c gName lName pts mc) s cands = .ok s') :
    s'.2.potential = s.2.potential ∧
    ∃ chunks : List (List (PtPair K) × List (PtPlPair K)),
      s'.2.pt2pt = s.2.pt2pt ++ (chunks.map (·.1)).flatten ∧
      s'.2.pt2pl = s.2.pt2pl ++ (chunks.map (·.2)).flatten ∧
      List.Forall₂ (fun m ch => AdChunk c pts mc m ch.1 ch.2) cands chunks := by
  induction cands generalizing s with
  | nil =>
    simp only [foldOutcome, Outcome.ok.injEq] at h; subst h
    exact ⟨rfl, [], by simp, by simp, .nil⟩
  | cons m cands ih =>
    simp only [foldOutcome, Outcome.bind_eq_ok] at h
    obtain ⟨a, ha, hb⟩ := h
    obtain ⟨p1, chunks, h1, h2, h3⟩ := ih hb
    obtain ⟨p2, npt, npl, h4, h5, h6⟩ := adOutStep_new ha
    exact ⟨by rw [p1, p2], (npt, npl) :: chunks, by rw [h1, h4]; simp, by rw [h2, h5]; simp, .cons h6 h3⟩

theorem adPtLoop_total {c : AdCfg K} {gName lName : String} {mc e0 : K} (ps : List (PtPair K)) (i : Nat)
    {s : MatchState K × Pairings K} (h1 : ∀ p ∈ ps, Readable s.1.localFlags lName p.localIdx)
    (h2 : ∀ p ∈ ps, Readable s.1.globalFlags gName p.globalIdx) :
    ∃ s', adPtLoop c gName lName mc e0 i s ps = .ok s' := by
  induction ps generalizing s i with
  | nil => exact ⟨_, rfl⟩
  | cons p ps ih =>
    simp only [adPtLoop]
    obtain ⟨b, hb⟩ := skipGlobal_total (c := c.toPtsCfg) (h2 p List.mem_cons_self)
    rw [hb]
    simp only [Outcome.bind]
    have hskip := ih (i + 1) (s := s) (fun x hx => h1 x (List.mem_cons_of_mem _ hx))
      (fun x hx => h2 x (List.mem_cons_of_mem _ hx))
    split
    · exact hskip
    · split
      · exact hskip
      · split
        · exact ⟨_, rfl⟩
        · split
          · exact ih (i + 1) (s := pushPt s.1 s.2 gName lName p)
              (fun x hx => h1 x (List.mem_cons_of_mem _ hx)) (fun x hx => h2 x (List.mem_cons_of_mem _ hx))
          · obtain ⟨m1, hm1⟩ := markLocal_total (ms := (pushPt s.1 s.2 gName lName p).1)
              (h1 p List.mem_cons_self)
            rw [hm1]
            obtain ⟨a1, a2, a3⟩ := markLocal_ok hm1
            refine ih (i + 1) (s := (m1, _)) (fun x hx => ?_) (fun x hx => ?_)
            · exact readable_mark a1 (h1 x (List.mem_cons_of_mem _ hx))
            · simp only [a2]; exact h2 x (List.mem_cons_of_mem _ hx)

theorem adPlane_total {c : AdCfg K} (h3 : 3 ≤ c.planeMinFound) (m : List (PtPair K)) :
    ∃ o, adPlane c m = .ok o := by
  unfold adPlane
  split
  · rename_i hc
    simp only [Bool.and_eq_true, decide_eq_true_eq] at hc
    have : ¬ (m.map (·.global)).length < 3 := by rw [List.length_map]; omega
    unfold estimateEigen
    rw [if_neg this]
    simp only [Outcome.bind]
    split
    · cases m with
      | nil => simp only [List.length_nil] at hc; omega
      | cons p0 r =>
        simp only
        split
        · exact ⟨_, rfl⟩
        · exact ⟨_, rfl⟩
    · exact ⟨_, rfl⟩
  · exact ⟨_, rfl⟩

theorem adOutStep_total {c : AdCfg K} {gName lName : String} {pts : List (P3 K)} {mc : K}
    (h3 : 3 ≤ c.planeMinFound) {s : MatchState K × Pairings K} {m : List (PtPair K)}
    (hl : ∀ p ∈ m, p.localIdx < pts.length)
    (h1 : ∀ p ∈ m, Readable s.1.localFlags lName p.localIdx)
    (h2 : ∀ p ∈ m, Readable s.1.globalFlags gName p.globalIdx) :
    ∃ s', adOutStep c gName lName pts mc s m = .ok s' := by
  unfold adOutStep
  obtain ⟨o, ho⟩ := adPlane_total h3 m
  rw [ho]
  simp only [Outcome.bind]
  cases m with
  | nil => cases o <;> exact ⟨s, rfl⟩
  | cons p0 rest =>
    cases o with
    | some patch =>
      simp only
      rw [vecAt_lt _ _ (hl p0 List.mem_cons_self)]
      simp only
      obtain ⟨m1, hm1⟩ := markLocal_total (ms := s.1) (h1 p0 List.mem_cons_self)
      rw [hm1]
      exact ⟨_, rfl⟩
    | none =>
      simp only
      exact adPtLoop_total _ _ (fun p hp => h1 p (List.mem_of_mem_take hp))
        (fun p hp => h2 p (List.mem_of_mem_take hp))

end Verif.Lemmas
