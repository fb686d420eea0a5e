import Verif.Lemmas.MatchersAdTop
import Verif.Spec.MatchAdaptive
/- The adaptive matcher: exact output and limit (C23). -/
namespace Verif.Lemmas
open Verif Verif.Spec
variable {K : Type} [LT K] [DecidableLT K] [LE K] [DecidableLE K] [Zero K] [Add K] [Mul K] [One K] [NatCast K]

/-! ### range of the histogram -/

/-- The limits kept so far are those of `E`. -/
def RangeOf (E : K → Prop) : Option (K × K) → Prop
  | none => ∀ e, ¬ E e
  | some (lo, hi) => Spans E lo hi

theorem RangeOf.congr {E F : K → Prop} {o : Option (K × K)} (h : RangeOf E o) (he : ∀ e, E e ↔ F e) : RangeOf F o := by
  have : E = F := funext fun e => propext (he e)
  rw [← this]; exact h

theorem totalOn_refl {S : K → Prop} (hS : TotalOn S) {a : K} (ha : S a) : a ≤ a := by
  by_cases h : a < a
  · exact hS.le_of_lt _ _ ha ha h
  · exact hS.le_of_not_lt _ _ ha ha h

theorem rangeOf_add {S E : K → Prop} (hS : TotalOn S) (hE : ∀ e, E e → S e) {d : K} (hd : S d) {o : Option (K × K)}
    (h : RangeOf E o) (k : Nat) (hk : k ≤ 1) : RangeOf (fun e => E e ∨ e = d) (adLims k d o) := by
  unfold adLims
  rw [if_pos hk]
  cases o with
  | none =>
    refine ⟨.inr rfl, .inr rfl, fun e he => ?_⟩
    rcases he with he | he
    · exact (h e he).elim
    · rw [he]; exact ⟨totalOn_refl hS hd, totalOn_refl hS hd⟩
  | some lh =>
    obtain ⟨lo, hi⟩ := lh
    obtain ⟨h1, h2, h3⟩ := h
    have hlo := hE _ h1
    have hhi := hE _ h2
    have a1 : keepMin lo d ≤ d ∧ keepMin lo d ≤ lo ∧ (keepMin lo d = lo ∨ keepMin lo d = d) := by
      unfold keepMin
      split
      · rename_i h; exact ⟨totalOn_refl hS hd, hS.le_of_lt _ _ hd hlo h, .inr rfl⟩
      · rename_i h; exact ⟨hS.le_of_not_lt _ _ hd hlo h, totalOn_refl hS hlo, .inl rfl⟩
    have a2 : d ≤ keepMax hi d ∧ hi ≤ keepMax hi d ∧ (keepMax hi d = hi ∨ keepMax hi d = d) := by
      unfold keepMax
      split
      · rename_i h; exact ⟨totalOn_refl hS hd, hS.le_of_lt _ _ hhi hd h, .inr rfl⟩
      · rename_i h; exact ⟨hS.le_of_not_lt _ _ hhi hd h, totalOn_refl hS hhi, .inl rfl⟩
    have s1 : S (keepMin lo d) := by rcases a1.2.2 with h | h <;> rw [h] <;> assumption
    have s2 : S (keepMax hi d) := by rcases a2.2.2 with h | h <;> rw [h] <;> assumption
    refine ⟨?_, ?_, fun e he => ?_⟩
    · rcases a1.2.2 with h | h <;> rw [h]
      · exact .inl h1
      · exact .inr rfl
    · rcases a2.2.2 with h | h <;> rw [h]
      · exact .inl h2
      · exact .inr rfl
    · rcases he with he | rfl
      · have := h3 e he
        exact ⟨hS.trans _ _ _ s1 hlo (hE _ he) a1.2.1 this.1, hS.trans _ _ _ (hE _ he) hhi s2 this.2 a2.2.1⟩
      · exact ⟨a1.1, a2.1⟩

theorem adNbrLoop_range {c : AdCfg K} {pts : List (P3 K)} {l : Nat} {S : K → Prop} (hS : TotalOn S)
    (nbs : List (Nbr K)) (k : Nat) (s s' : AdState K) (E : K → Prop) (hE : ∀ e, E e → S e)
    (hn : ∀ nb ∈ nbs, ¬ c.absMax * c.absMax < nb.d2 → S nb.d2)
    (h : adNbrLoop c pts l k s nbs = .ok s') (hr : RangeOf E s.lims) :
    RangeOf (fun e => E e ∨ ∃ (j : Nat) (nb : Nbr K), nbs[j]? = some nb ∧ k + j ≤ 1 ∧ ¬ c.absMax * c.absMax < nb.d2 ∧ nb.d2 = e)
      s'.lims := by
  induction nbs generalizing k s E with
  | nil =>
    simp only [adNbrLoop, Outcome.ok.injEq] at h; subst h
    exact hr.congr fun e => by simp
  | cons x nbs ih =>
    have hx : ∀ nb ∈ nbs, ¬ c.absMax * c.absMax < nb.d2 → S nb.d2 := fun nb h => hn nb (List.mem_cons_of_mem _ h)
    have hsplit : ∀ e, (∃ (j : Nat) (nb : Nbr K), (x :: nbs)[j]? = some nb ∧ k + j ≤ 1 ∧ ¬ c.absMax * c.absMax < nb.d2 ∧ nb.d2 = e) ↔
        (k ≤ 1 ∧ ¬ c.absMax * c.absMax < x.d2 ∧ x.d2 = e) ∨
        ∃ (j : Nat) (nb : Nbr K), nbs[j]? = some nb ∧ (k + 1) + j ≤ 1 ∧ ¬ c.absMax * c.absMax < nb.d2 ∧ nb.d2 = e := by
      intro e
      constructor
      · rintro ⟨j, nb, hj, hk, hb⟩
        cases j with
        | zero => simp only [List.getElem?_cons_zero, Option.some.injEq] at hj; subst hj; exact .inl ⟨by omega, hb⟩
        | succ j => exact .inr ⟨j, nb, by simpa using hj, by omega, hb⟩
      · rintro (⟨hk, hb⟩ | ⟨j, nb, hj, hk, hb⟩)
        · exact ⟨0, x, rfl, by omega, hb⟩
        · exact ⟨j + 1, nb, by simpa using hj, by omega, hb⟩
    simp only [adNbrLoop] at h
    split at h
    · rename_i hgt
      refine (ih (k + 1) s E hE hx h hr).congr fun e => ?_
      rw [hsplit]
      have hgt : c.absMax * c.absMax < x.d2 := hgt
      simp [hgt]
    · rename_i hgt
      simp only [Outcome.bind_eq_ok] at h
      obtain ⟨cand', _, h⟩ := h
      by_cases hk : k ≤ 1
      · have hd : S x.d2 := hn x List.mem_cons_self hgt
        refine (ih (k + 1) _ (fun e => E e ∨ e = x.d2) ?_ hx h (rangeOf_add hS hE hd hr k hk)).congr fun e => ?_
        · rintro e (he | rfl)
          · exact hE e he
          · exact hd
        · rw [hsplit, or_assoc]
          have hgt : ¬ c.absMax * c.absMax < x.d2 := hgt
          simp only [hk, hgt, not_false_eq_true, true_and]
          rw [eq_comm (a := e)]
      · have : adLims k x.d2 s.lims = s.lims := by unfold adLims; rw [if_neg hk]
        refine (ih (k + 1) _ E hE hx h (by simp only [this]; exact hr)).congr fun e => ?_
        rw [hsplit]
        simp [hk]

/-- Errors seen up to position `n`. -/
def ErrUpTo (c : AdCfg K) (tf : P3 K → P3 K) (g : GLayer K) (lName : String) (pts : List (P3 K)) (tl : TLocal K)
    (ms : MatchState K) (n : Nat) (e : K) : Prop :=
  ∃ i l p, i < n ∧ tl.index i = .ok l ∧ pts[l]? = some p ∧ skipLocal c.toPtsCfg ms lName l = .ok false ∧
    ∃ (j : Nat) (nb : Nbr K), (adSearch c g (tf p))[j]? = some nb ∧ j ≤ 1 ∧ ¬ c.absMax * c.absMax < nb.d2 ∧ nb.d2 = e

theorem adFold_range {c : AdCfg K} {tf : P3 K → P3 K} {g : GLayer K} {gName lName : String} {pts : List (P3 K)}
    {tl : TLocal K} {ms : MatchState K} (hg : TLGood tf pts tl)
    (hf : FlagsFit ms g gName lName pts.length) {S : K → Prop} (hS : TotalOn S)
    (hn : ∀ q nb, nb ∈ adSearch c g q → ¬ c.absMax * c.absMax < nb.d2 → S nb.d2)
    (n : Nat) (hnl : n ≤ tl.xs.length) (s : AdState K)
    (h : foldOutcome (adCandStep c g lName pts tl ms) ⟨List.replicate tl.xs.length [], none⟩ (List.range n) = .ok s) :
    RangeOf (ErrUpTo c tf g lName pts tl ms n) s.lims := by
  induction n generalizing s with
  | zero =>
    simp only [List.range_zero, foldOutcome, Outcome.ok.injEq] at h; subst h
    rintro e ⟨i, l, p, hi, _⟩
    omega
  | succ n ih =>
    rw [List.range_succ, fold_append] at h
    simp only [Outcome.bind_eq_ok] at h
    obtain ⟨a, ha, h⟩ := h
    have hr := ih (by omega) a ha
    simp only [foldOutcome, Outcome.bind_eq_ok, Outcome.ok.injEq] at h
    obtain ⟨s', h, rfl⟩ := h
    obtain ⟨l, hl, hlt, hlx⟩ := hg.tot n (by omega)
    have hp : pts[l]? = some pts[l] := List.getElem?_eq_getElem hlt
    obtain ⟨b, hb⟩ := skipLocal_total (c := c.toPtsCfg) hf hlt
    unfold adCandStep at h
    rw [hl] at h
    simp only [Outcome.bind] at h
    rw [hb] at h
    simp only at h
    cases b with
    | true =>
      rw [if_pos rfl] at h
      simp only [Outcome.ok.injEq] at h; subst h
      refine hr.congr fun e => ⟨?_, ?_⟩
      · rintro ⟨i, l', p, hi, hh⟩; exact ⟨i, l', p, by omega, hh⟩
      · rintro ⟨i, l', p, hi, h1, h2, h3, h4⟩
        refine ⟨i, l', p, ?_, h1, h2, h3, h4⟩
        by_contra hcon
        have : i = n := by omega
        subst this
        rw [hl] at h1; cases h1
        rw [hb] at h3; cases h3
    | false =>
      rw [if_neg (by simp), vecAt_lt _ _ (by omega)] at h
      simp only at h
      obtain ⟨p', hp', hq⟩ := hg.idx n l _ hl (List.getElem?_eq_getElem (by omega))
      rw [hp] at hp'; cases hp'
      rw [hq] at h
      refine (adNbrLoop_range hS _ 0 a _ _ ?_ (hn _) h hr).congr fun e => ?_
      · rintro e ⟨i, l', p, _, _, _, _, j, nb, hj, _, h1, rfl⟩
        exact hn _ nb (List.mem_of_getElem? hj) h1
      · constructor
        · rintro (⟨i, l', p, hi, hh⟩ | ⟨j, nb, hj, h1, h2⟩)
          · exact ⟨i, l', p, by omega, hh⟩
          · exact ⟨n, l, _, by omega, hl, hp, hb, j, nb, hj, by omega, h2⟩
        · rintro ⟨i, l', p, hi, h1, h2, h3, j, nb, h4, h5, h6⟩
          by_cases hin : i < n
          · exact .inl ⟨i, l', p, hin, h1, h2, h3, j, nb, h4, h5, h6⟩
          · have : i = n := by omega
            subst this
            rw [hl] at h1; cases h1
            rw [hp] at h2; cases h2
            exact .inr ⟨j, nb, h4, by omega, h6⟩

theorem errUpTo_iff {c : AdCfg K} {tf : P3 K → P3 K} {g : GLayer K} {gName lName : String} {pts : List (P3 K)}
    {ms : MatchState K} {tl : TLocal K} (hs : ShuffleOK c.toPtsCfg) (htl : transformLocal c.toPtsCfg tf pts = .ok tl)
    (hf : FlagsFit ms g gName lName pts.length) (e : K) :
    ErrUpTo c tf g lName pts tl ms tl.xs.length e ↔ AdErr c tf g ms lName pts e := by
  constructor
  · rintro ⟨i, l, p, hil, hix, hp, hsk, j, nb, hj, hj1, h1, h2⟩
    have hsam := index_sampled hs htl hil hix
    refine ⟨l, p, nb, hsam, hp, (eligible_iff hf hsam.1).mp hsk, ?_, h1, h2⟩
    refine List.mem_iff_getElem?.mpr ⟨j, ?_⟩
    rw [List.getElem?_take, if_pos (by omega)]
    exact hj
  · rintro ⟨l, p, nb, hsam, hp, hel, hnb, h1, h2⟩
    obtain ⟨i, hil, hix⟩ := sampled_index hs htl hsam
    obtain ⟨j, hj, he⟩ := List.mem_iff_getElem.mp hnb
    have hj2 : j < 2 := by simp only [List.length_take] at hj; omega
    refine ⟨i, l, p, hil, hix, hp, (eligible_iff hf hsam.1).mpr hel, j, nb, ?_, by omega, h1, h2⟩
    rw [adSearch_eq]
    have : ((AdReported c g (tf p)).take 2)[j]? = some nb := by rw [← he]; exact List.getElem?_eq_getElem hj
    rw [List.getElem?_take] at this
    rwa [if_pos hj2] at this

/-! ### candidates -/

theorem adCands_near (c : AdCfg K) (tf : P3 K → P3 K) (g : GLayer K) (l : Nat) (p : P3 K) :
    adCands c tf g l p = (AdNear c g (tf p)).map (mkPair l p) := by
  unfold adCands AdNear
  rw [List.map_take, adSearch_eq]

theorem sampled_lt {c : AdCfg K} {tf : P3 K → P3 K} {pts : List (P3 K)} {tl : TLocal K} (hs : ShuffleOK c.toPtsCfg)
    (htl : transformLocal c.toPtsCfg tf pts = .ok tl) (l : Nat) :
    l < tl.xs.length ↔ Sampled c.toPtsCfg pts.length l := by
  obtain ⟨tl', htl', hg, h1, h2⟩ := transformLocal_good c.toPtsCfg hs tf pts
  rw [htl] at htl'; cases htl'
  unfold Sampled
  by_cases hc : c.maxLocal = 0 ∨ pts.length ≤ c.maxLocal
  · rw [(h1 hc).2, List.length_map]
    omega
  · rw [(h2 hc).2]; omega

theorem ad_nears {c : AdCfg K} {tf : P3 K → P3 K} {g : GLayer K} {gName lName : String} {pts : List (P3 K)}
    {ms : MatchState K} {tl : TLocal K} (hs : ShuffleOK c.toPtsCfg) (htl : transformLocal c.toPtsCfg tf pts = .ok tl)
    (hf : FlagsFit ms g gName lName pts.length) {a : AdState K}
    (hi : AdInv c tf g lName pts tl ms tl.xs.length a) :
    ∃ near : List (List (Nbr K)), AdNears c tf g ms lName pts near ∧ near.length = a.cand.length ∧
      (∀ (l : Nat) (m : List (Nbr K)) (p : P3 K), near[l]? = some m → pts[l]? = some p → a.cand[l]? = some (m.map (mkPair l p))) ∧
      (a.cand.map fun m => (m.take 2).map (·.errSq)).flatten = AdErrors near := by
  classical
  let near : List (List (Nbr K)) := (List.range a.cand.length).map fun l =>
    if Eligible c.toPtsCfg ms lName l then ((pts[l]?).map fun p => AdNear c g (tf p)).getD [] else []
  have hlen : near.length = a.cand.length := by simp [near]
  have hsl : ∀ l, l < near.length ↔ Sampled c.toPtsCfg pts.length l := by
    intro l; rw [hlen, hi.len]; exact sampled_lt hs htl l
  have hget : ∀ l, l < near.length → near[l]? = some (if Eligible c.toPtsCfg ms lName l then
      ((pts[l]?).map fun p => AdNear c g (tf p)).getD [] else []) := by
    intro l hl
    rw [hlen] at hl
    simp [near, hl]
  have hc : ∀ (l : Nat) (m : List (Nbr K)) (p : P3 K), near[l]? = some m → pts[l]? = some p → a.cand[l]? = some (m.map (mkPair l p)) := by
    intro l m p hm hp
    have hlt := (List.getElem?_eq_some_iff.mp hm).1
    have hsam := (hsl l).mp hlt
    obtain ⟨i, hil, hix⟩ := sampled_index hs htl hsam
    obtain ⟨h1, h2⟩ := hi.done i l p hil hix hp
    rw [hget l hlt] at hm
    by_cases hel : Eligible c.toPtsCfg ms lName l
    · rw [if_pos hel, hp] at hm
      simp only [Option.map_some, Option.getD_some, Option.some.injEq] at hm
      rw [h1 ((eligible_iff hf hsam.1).mpr hel), adCands_near, hm]
    · rw [if_neg hel] at hm
      cases hm
      rw [h2 (fun h => hel ((eligible_iff hf hsam.1).mp h))]; rfl
  refine ⟨near, ⟨hsl, ?_, ?_⟩, hlen, hc, ?_⟩
  · intro l p hsam hp hel
    rw [hget l ((hsl l).mpr hsam), if_pos hel, hp]; rfl
  · intro l hsam hel
    rw [hget l ((hsl l).mpr hsam), if_neg hel]
  · unfold AdErrors
    rw [List.flatMap_def]
    congr 1
    apply List.ext_getElem?
    intro l
    rw [List.getElem?_map, List.getElem?_map]
    by_cases hl : l < near.length
    · have hsam := (hsl l).mp hl
      have hp : pts[l]? = some (pts[l]'hsam.1) := List.getElem?_eq_getElem hsam.1
      have hm : near[l]? = some near[l] := List.getElem?_eq_getElem hl
      rw [hc l _ _ hm hp, hm]
      simp only [Option.map_some, Option.some.injEq]
      rw [← List.map_take, List.map_map]
      rfl
    · rw [List.getElem?_eq_none (by omega), List.getElem?_eq_none (by omega)]
      rfl

/-! ### second loop -/

open Classical in
theorem adPtLoop_exact {c : AdCfg K} {gName lName : String} {mc e0 : K} (ps : List (PtPair K)) (i : Nat)
    {s s' : MatchState K × Pairings K} (h : adPtLoop c gName lName mc e0 i s ps = .ok s') :
    s'.1.globalFlags = s.1.globalFlags ∧ s'.2.pt2pl = s.2.pt2pl ∧
    s'.2.pt2pt = s.2.pt2pt ++ ((((ps.zipIdx i).filter fun x =>
      decide ((c.allowGlobal = true ∨ ¬ Flagged s.1.globalFlags gName x.1.globalIdx) ∧ ¬ mc ≤ x.1.errSq)).takeWhile fun x =>
        decide (x.2 = 0 ∨ ¬ e0 * (c.first2second * c.first2second) < x.1.errSq)).map (·.1)) := by
  induction ps generalizing s i with
  | nil =>
    simp only [adPtLoop, Outcome.ok.injEq] at h; subst h
    exact ⟨rfl, rfl, by simp⟩
  | cons p ps ih =>
    simp only [adPtLoop, Outcome.bind_eq_ok] at h
    obtain ⟨sk, hsk, h⟩ := h
    have hskv : sk = false ↔ (c.allowGlobal = true ∨ ¬ Flagged s.1.globalFlags gName p.globalIdx) := by
      unfold skipGlobal at hsk
      split at hsk
      · rename_i ha
        cases hsk
        exact ⟨fun _ => .inl ha, fun _ => rfl⟩
      · rename_i ha
        unfold Flagged
        rw [hsk]
        cases sk <;> simp [ha]
    rw [List.zipIdx_cons, List.filter_cons]
    split at h
    · rename_i h1
      have : ¬ ((c.allowGlobal = true ∨ ¬ Flagged s.1.globalFlags gName p.globalIdx) ∧ ¬ mc ≤ p.errSq) := by
        rw [← hskv]; rintro ⟨h2, _⟩; rw [h2] at h1; cases h1
      rw [if_neg (by simpa using this)]
      exact ih (i + 1) h
    · rename_i h1
      have hsf : sk = false := by simpa using h1
      split at h
      · rename_i h2
        have : ¬ ((c.allowGlobal = true ∨ ¬ Flagged s.1.globalFlags gName p.globalIdx) ∧ ¬ mc ≤ p.errSq) := by
          rintro ⟨_, h3⟩; exact h3 h2
        rw [if_neg (by simpa using this)]
        exact ih (i + 1) h
      · rename_i h2
        have : (c.allowGlobal = true ∨ ¬ Flagged s.1.globalFlags gName p.globalIdx) ∧ ¬ mc ≤ p.errSq :=
          ⟨hskv.mp hsf, h2⟩
        rw [if_pos (by simpa using this), List.takeWhile_cons]
        split at h
        · rename_i h3
          simp only [Outcome.ok.injEq] at h; subst h
          have : ¬ (i = 0 ∨ ¬ e0 * (c.first2second * c.first2second) < p.errSq) := by
            rintro (h4 | h4)
            · exact h3.1 h4
            · exact h4 h3.2
          rw [if_neg (by simpa using this)]
          exact ⟨rfl, rfl, by simp⟩
        · rename_i h3
          have : i = 0 ∨ ¬ e0 * (c.first2second * c.first2second) < p.errSq := by
            by_cases h4 : i = 0
            · exact .inl h4
            · exact .inr fun h5 => h3 ⟨h4, h5⟩
          rw [if_pos (by simpa using this)]
          have key : ∀ {t : MatchState K × Pairings K}, t.1.globalFlags = s.1.globalFlags → t.2.pt2pl = s.2.pt2pl →
              t.2.pt2pt = s.2.pt2pt ++ [p] → adPtLoop c gName lName mc e0 (i + 1) t ps = .ok s' → _ :=
            fun {t} t1 t2 t3 ht => by
              have := ih (i + 1) ht
              rw [t1, t2, t3] at this
              exact this
          have fin : s'.1.globalFlags = s.1.globalFlags ∧ s'.2.pt2pl = s.2.pt2pl ∧
              s'.2.pt2pt = (s.2.pt2pt ++ [p]) ++ ((((ps.zipIdx (i + 1)).filter fun x =>
                decide ((c.allowGlobal = true ∨ ¬ Flagged s.1.globalFlags gName x.1.globalIdx) ∧ ¬ mc ≤ x.1.errSq)).takeWhile fun x =>
                decide (x.2 = 0 ∨ ¬ e0 * (c.first2second * c.first2second) < x.1.errSq)).map (·.1)) := by
            split at h
            · exact key (t := pushPt s.1 s.2 gName lName p) rfl rfl rfl h
            · simp only [Outcome.bind_eq_ok] at h
              obtain ⟨m1, hm1, h⟩ := h
              obtain ⟨_, a2, _⟩ := markLocal_ok hm1
              exact key (t := (m1, (pushPt s.1 s.2 gName lName p).2)) a2 rfl rfl h
          refine ⟨fin.1, fin.2.1, ?_⟩
          rw [fin.2.2, List.map_cons]
          simp

theorem adPlane_exact {c : AdCfg K} {l : Nat} {p : P3 K} {m : List (Nbr K)} {o : Option (PlanePatch K)}
    (h : adPlane c (m.map (mkPair l p)) = .ok o) :
    (∀ patch, o = some patch → AdPlaneOf c p m ⟨patch, p⟩) ∧ (o = none → ¬ ∃ b, AdPlaneOf c p m b) := by
  have hm : (m.map (mkPair l p)).map (·.global) = m.map (·.pt) := by rw [List.map_map]; rfl
  unfold adPlane at h
  rw [hm] at h
  split at h
  · rename_i hc
    simp only [Bool.and_eq_true, decide_eq_true_eq, List.length_map] at hc
    unfold estimateEigen at h
    split at h
    · simp [Outcome.bind] at h
    · simp only [Outcome.bind] at h
      split at h
      · rename_i hv
        cases m with
        | nil => simp at h
        | cons nb m =>
          simp only [List.map_cons] at h
          split at h
          · rename_i hd
            simp only [Outcome.ok.injEq] at h; subst h
            refine ⟨fun patch hp => ?_, by simp⟩
            simp only [Option.some.injEq] at hp; subst hp
            exact ⟨hc.1, hc.2, by simp, hv.1, hv.2, hd, rfl⟩
          · rename_i hd
            simp only [Outcome.ok.injEq] at h; subst h
            refine ⟨by simp, fun _ => ?_⟩
            rintro ⟨b, _, _, _, _, _, h6, _⟩
            exact hd h6
      · rename_i hv
        simp only [Outcome.ok.injEq] at h; subst h
        refine ⟨by simp, fun _ => ?_⟩
        rintro ⟨b, _, _, _, h4, h5, _⟩
        exact hv ⟨h4, h5⟩
  · rename_i hc
    simp only [Outcome.ok.injEq] at h; subst h
    refine ⟨by simp, fun _ => ?_⟩
    rintro ⟨b, h1, h2, _⟩
    apply hc
    simp [h1, h2]

theorem zipIdx_map_fst {α β : Type} (f : α → β) (l : List α) (i : Nat) :
    (l.map f).zipIdx i = (l.zipIdx i).map fun x => (f x.1, x.2) := by
  induction l generalizing i with
  | nil => rfl
  | cons a l ih => simp [List.zipIdx_cons, ih]

theorem adPoints_eq {c : AdCfg K} {ms : MatchState K} {gName : String} {lim : K} {l : Nat} {p : P3 K} {nb0 : Nbr K}
    {m : List (Nbr K)} [DecidablePred fun x : PtPair K × Nat =>
      (c.allowGlobal = true ∨ ¬ Flagged ms.globalFlags gName x.1.globalIdx) ∧ ¬ lim ≤ x.1.errSq] :
    AdPoints c ms gName lim l p (nb0 :: m) = ((((((nb0 :: m).map (mkPair l p)).take c.maxPt2Pt).zipIdx 0).filter fun x =>
      decide ((c.allowGlobal = true ∨ ¬ Flagged ms.globalFlags gName x.1.globalIdx) ∧ ¬ lim ≤ x.1.errSq)).takeWhile fun x =>
        decide (x.2 = 0 ∨ ¬ nb0.d2 * (c.first2second * c.first2second) < x.1.errSq)).map (·.1) := by
  classical
  unfold AdPoints
  rw [← List.map_take, zipIdx_map_fst, List.filter_map, List.takeWhile_map, List.map_map]
  congr 1
  · congr 1
    · funext x
      simp only [Function.comp_apply, List.head?_cons, Option.some.injEq, forall_eq', mkPair]
    · congr 1
      funext x
      simp [mkPair]

theorem adOutStep_exact {c : AdCfg K} {gName lName : String} {pts : List (P3 K)} {mc : K}
    {s s' : MatchState K × Pairings K} {l : Nat} {p : P3 K} {m : List (Nbr K)} (hp : pts[l]? = some p)
    (h : adOutStep c gName lName pts mc s (m.map (mkPair l p)) = .ok s') :
    s'.1.globalFlags = s.1.globalFlags ∧ ∃ ch : List (PtPair K) × List (PtPlPair K),
      s'.2.pt2pt = s.2.pt2pt ++ ch.1 ∧ s'.2.pt2pl = s.2.pt2pl ++ ch.2 ∧
      ((∃ b, AdPlaneOf c p m b ∧ ch = ([], [b])) ∨
        ((¬ ∃ b, AdPlaneOf c p m b) ∧ ch = (AdPoints c s.1 gName mc l p m, []))) := by
  classical
  unfold adOutStep at h
  simp only [Outcome.bind_eq_ok] at h
  obtain ⟨o, ho, h⟩ := h
  obtain ⟨h1, h2⟩ := adPlane_exact ho
  cases m with
  | nil =>
    have hno : ¬ ∃ b, AdPlaneOf c p ([] : List (Nbr K)) b := by rintro ⟨b, hb⟩; exact hb.2.2.1 rfl
    have hs : s' = s := by
      cases o <;> simp only [List.map_nil, Outcome.ok.injEq] at h <;> exact h.symm
    subst hs
    exact ⟨rfl, ([], []), by simp, by simp, .inr ⟨hno, by simp [AdPoints]⟩⟩
  | cons nb0 m =>
    cases o with
    | some patch =>
      simp only [List.map_cons, Outcome.bind_eq_ok, Outcome.ok.injEq, vecAt_ok] at h
      obtain ⟨p', hp', m1, hm1, rfl⟩ := h
      have : p' = p := by
        have hp' : pts[l]? = some p' := hp'
        rw [hp] at hp'; cases hp'; rfl
      subst this
      obtain ⟨_, a2, _⟩ := markLocal_ok hm1
      exact ⟨a2, ([], [⟨patch, p'⟩]), by simp, rfl, .inl ⟨_, h1 _ rfl, rfl⟩⟩
    | none =>
      simp only [List.map_cons] at h
      obtain ⟨g1, g2, g3⟩ := adPtLoop_exact _ _ h
      refine ⟨g1, (AdPoints c s.1 gName mc l p (nb0 :: m), []), ?_, by simp [g2], .inr ⟨h2 rfl, rfl⟩⟩
      rw [g3, adPoints_eq]
      rfl

theorem adOut_exact {c : AdCfg K} {gName lName : String} {pts : List (P3 K)} {mc : K}
    (cands : List (List (PtPair K))) (l0 : Nat) (near : List (List (Nbr K)))
    (hlen : near.length = cands.length)
    (hn : ∀ l m, near[l]? = some m → ∃ p, pts[l0 + l]? = some p ∧ cands[l]? = some (m.map (mkPair (l0 + l) p)))
    {s s' : MatchState K × Pairings K}
    (h : foldOutcome (adOutStep c gName lName pts mc) s cands = .ok s') :
    s'.1.globalFlags = s.1.globalFlags ∧ ∃ parts : List (List (PtPair K) × List (PtPlPair K)),
      parts.length = near.length ∧
      s'.2.pt2pt = s.2.pt2pt ++ (parts.map (·.1)).flatten ∧
      s'.2.pt2pl = s.2.pt2pl ++ (parts.map (·.2)).flatten ∧
      ∀ l m p ch, near[l]? = some m → pts[l0 + l]? = some p → parts[l]? = some ch →
        (∃ b, AdPlaneOf c p m b ∧ ch = ([], [b])) ∨
        ((¬ ∃ b, AdPlaneOf c p m b) ∧ ch = (AdPoints c s.1 gName mc (l0 + l) p m, [])) := by
  induction cands generalizing l0 near s with
  | nil =>
    simp only [foldOutcome, Outcome.ok.injEq] at h; subst h
    refine ⟨rfl, [], by simpa using hlen.symm, by simp, by simp, by simp⟩
  | cons x cands ih =>
    cases near with
    | nil => simp at hlen
    | cons m near =>
      simp only [foldOutcome, Outcome.bind_eq_ok] at h
      obtain ⟨a, ha, hb⟩ := h
      obtain ⟨p, hp, hx⟩ := hn 0 m rfl
      simp only [Nat.add_zero, List.getElem?_cons_zero, Option.some.injEq] at hp hx
      subst hx
      obtain ⟨g1, ch, c1, c2, c3⟩ := adOutStep_exact hp ha
      obtain ⟨g2, parts, d0, d1, d2, d3⟩ := ih (l0 + 1) near (by simpa using hlen) (fun l m' hm => by
        obtain ⟨p', h1, h2⟩ := hn (l + 1) m' (by simpa using hm)
        have e : l0 + (l + 1) = l0 + 1 + l := by omega
        rw [e] at h1 h2
        exact ⟨p', h1, by simpa using h2⟩) hb
      refine ⟨g2.trans g1, ch :: parts, by simp [d0], by rw [d1, c1]; simp, by rw [d2, c2]; simp, ?_⟩
      intro l m' p' ch' hm hp' hch
      cases l with
      | zero =>
        simp only [List.getElem?_cons_zero, Option.some.injEq, Nat.add_zero] at hm hch hp'
        subst hm; subst hch
        rw [hp] at hp'; cases hp'
        exact c3
      | succ l =>
        have e : l0 + (l + 1) = l0 + 1 + l := by omega
        rw [e] at hp' ⊢
        have := d3 l m' p' ch' (by simpa using hm) hp' (by simpa using hch)
        have hfl : ∀ q n', AdPoints c a.1 gName mc n' q m' = AdPoints c s.1 gName mc n' q m' := by
          intro q n'; unfold AdPoints; rw [g1]
        rw [hfl] at this
        exact this

theorem ad_exact {c : AdCfg K} {tf : P3 K → P3 K} {g : GLayer K} {gName lName : String} {pts : List (P3 K)}
    {ms : MatchState K} {out : Pairings K} {r : MatchState K × Pairings K} (hs : ShuffleOK c.toPtsCfg)
    (hf : FlagsFit ms g gName lName pts.length) (ho : Overlap c.toPtsCfg tf g pts c.eps)
    (h : adLayer c tf g gName lName pts ms out = .ok r) :
    r.1.globalFlags = ms.globalFlags ∧
    ∃ near lo hi, ∃ parts : List (List (PtPair K) × List (PtPlPair K)),
      AdNears c tf g ms lName pts near ∧
      (∀ S : K → Prop, TotalOn S → (∀ q nb, nb ∈ AdReported c g q → ¬ c.absMax * c.absMax < nb.d2 → S nb.d2) →
        Spans (AdErr c tf g ms lName pts) lo hi) ∧
      AdParts c ms gName pts (stdMax (c.minCorr * c.minCorr) (c.ciHigh lo hi (AdErrors near))) near parts ∧
      r.2.pt2pt = out.pt2pt ++ (parts.map (·.1)).flatten ∧
      r.2.pt2pl = out.pt2pl ++ (parts.map (·.2)).flatten := by
  have hnn : g.nnCapable = true := by
    unfold adLayer at h
    simp only [Outcome.bind_def, Outcome.bind_eq_ok, Outcome.assert_eq_ok] at h
    obtain ⟨_, h1, _⟩ := h
    exact h1
  obtain ⟨tl, htl, hgood, _⟩ := transformLocal_good c.toPtsCfg hs tf pts
  obtain ⟨a, ha, hi⟩ := adInv_fold (c := c) hgood hf _ (le_refl _)
  have he : adLayer c tf g gName lName pts ms out = adOut c gName lName pts a
        (ms, { out with potential := out.potential + pts.length * c.maxPt2Pt }) := by
    unfold adLayer
    simp only [Outcome.bind_def]
    rw [Outcome.assert_true hnn]
    simp only [Outcome.bind]
    unfold layerFrame
    have hne : pts.isEmpty = false := by
      cases hp : pts with
      | nil => exact absurd hp ho.2.1
      | cons => rfl
    rw [ho.1, hne, if_neg (by simp), htl]
    simp only [Outcome.bind]
    rw [ho.2.2 tl htl, if_pos rfl, ha]
  rw [he] at h
  obtain ⟨near, hn, hlen, hc, herr⟩ := ad_nears hs htl hf hi
  unfold adOut at h
  split at h
  · simp at h
  · rename_i lo hi' hl
    obtain ⟨g1, parts, d0, d1, d2, d3⟩ := adOut_exact a.cand 0 near hlen (fun l m hm => by
      have hlt := (List.getElem?_eq_some_iff.mp hm).1
      have hsam := (hn.len l).mp hlt
      refine ⟨pts[l]'hsam.1, by simp, ?_⟩
      rw [Nat.zero_add]
      exact hc l m _ hm (List.getElem?_eq_getElem hsam.1)) h
    refine ⟨g1, near, lo, hi', parts, hn, ?_, ⟨d0, ?_⟩, d1, d2⟩
    · intro S hS hnb
      have := adFold_range hgood hf hS (fun q nb h => hnb q nb h) _ (le_refl _) a ha
      rw [hl] at this
      exact RangeOf.congr (o := some (lo, hi')) this (errUpTo_iff hs htl hf)
    · intro l m p ch hm hp hch
      have := d3 l m p ch hm (by simpa using hp) hch
      unfold adMaxCorr at this
      rw [herr, Nat.zero_add] at this
      exact this

theorem ad_apart {c : AdCfg K} {tf : P3 K → P3 K} {g : GLayer K} {gName lName : String} {pts : List (P3 K)}
    {ms : MatchState K} {out : Pairings K} {r : MatchState K × Pairings K} (ho : ¬ Overlap c.toPtsCfg tf g pts c.eps)
    (h : adLayer c tf g gName lName pts ms out = .ok r) :
    r.1.globalFlags = ms.globalFlags ∧ r.2.pt2pt = out.pt2pt ∧ r.2.pt2pl = out.pt2pl := by
  unfold adLayer at h
  simp only [Outcome.bind_def, Outcome.bind_eq_ok] at h
  obtain ⟨_, _, h⟩ := h
  rcases layerFrame_ok h with rfl | ⟨tl, htl, o1, o2, o3, _⟩
  · exact ⟨rfl, rfl, rfl⟩
  · exfalso
    refine ho ⟨o1, o2, fun tl' htl' => ?_⟩
    rw [htl] at htl'; cases htl'; exact o3

end Verif.Lemmas
