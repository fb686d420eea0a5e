import Mathlib.Algebra.Order.Field.Basic
import Mathlib.Tactic.Ring
import Mathlib.Tactic.Linarith
import Verif.Model.Curvature
import Verif.Spec.Curvature
import Verif.Lemmas.FilterBasic
set_option linter.unusedSectionVars false
namespace Verif
namespace Flt
variable {K X : Type} [Field K] [LinearOrder K] [IsStrictOrderedRing K]

theorem infDist_lt_iff (p q : FPt K) (clr : K) : infDist p q < clr ↔ Close clr p q := by
  unfold infDist Close; rw [max_lt_iff, max_lt_iff]

omit [IsStrictOrderedRing K] in
theorem thinned_nil (clr : K) (r : Nat) : Thinned clr ([] : List (FPt K)) r [] := by
  refine ⟨List.Pairwise.nil, by simp, by simp, by simp⟩

omit [IsStrictOrderedRing K] in
theorem Thinned.lt {clr : K} {l : List (FPt K)} {r : Nat} {ks : List Nat} (h : Thinned clr l r ks) {k : Nat} (hk : k ∈ ks) :
    k < l.length := by
  obtain ⟨p, hp, -⟩ := h.2.1 k hk
  exact (List.getElem?_eq_some_iff.1 hp).1

omit [IsStrictOrderedRing K] in
/-- a point of another ring, or one close to the last kept -/
theorem Thinned.snoc_skip {clr : K} {l : List (FPt K)} {r : Nat} {ks : List Nat} (h : Thinned clr l r ks) (p : FPt K)
    (hp : p.ring = (r : Int) → ∃ k q, k ∈ ks ∧ l[k]? = some q ∧ Close clr p q ∧ ∀ k' ∈ ks, k' ≤ k) :
    Thinned clr (l ++ [p]) r ks := by
  have hget : ∀ k ∈ ks, (l ++ [p])[k]? = l[k]? := fun k hk => List.getElem?_append_left (h.lt hk)
  refine ⟨h.1, ?_, ?_, ?_⟩
  · intro k hk; rw [hget k hk]; exact h.2.1 k hk
  · intro j a b p' q' ha hb hp' hq'
    rw [hget a (List.mem_of_getElem? ha)] at hp'
    rw [hget b (List.mem_of_getElem? hb)] at hq'
    exact h.2.2.1 j a b p' q' ha hb hp' hq'
  · intro i p' hi hr hn
    by_cases hl : i < l.length
    · rw [List.getElem?_append_left hl] at hi
      obtain ⟨k, q, hk, hki, hq, hc, hm⟩ := h.2.2.2 i p' hi hr hn
      exact ⟨k, q, hk, hki, by rw [hget k hk]; exact hq, hc, hm⟩
    · have hil : i = l.length := by
        have := (List.getElem?_eq_some_iff.1 hi).1
        simp only [List.length_append, List.length_cons, List.length_nil] at this; omega
      subst hil
      simp only [List.getElem?_concat_length, Option.some.injEq] at hi
      subst hi
      obtain ⟨k, q, hk, hq, hc, hm⟩ := hp hr
      exact ⟨k, q, hk, h.lt hk, by rw [hget k hk]; exact hq, hc, fun k' hk' _ => hm k' hk'⟩

omit [IsStrictOrderedRing K] in
theorem Thinned.snoc_keep {clr : K} {l : List (FPt K)} {r : Nat} {ks : List Nat} (h : Thinned clr l r ks) (p : FPt K)
    (hr : p.ring = (r : Int)) (hp : ∀ k q, ks.getLast? = some k → l[k]? = some q → ¬ Close clr p q) :
    Thinned clr (l ++ [p]) r (ks ++ [l.length]) := by
  have hget : ∀ k ∈ ks, (l ++ [p])[k]? = l[k]? := fun k hk => List.getElem?_append_left (h.lt hk)
  refine ⟨?_, ?_, ?_, ?_⟩
  · rw [List.pairwise_append]
    exact ⟨h.1, List.pairwise_singleton _ _, fun a ha b hb => by
      rw [List.mem_singleton] at hb; subst hb; exact h.lt ha⟩
  · intro k hk
    rcases List.mem_append.1 hk with hk | hk
    · rw [hget k hk]; exact h.2.1 k hk
    · rw [List.mem_singleton] at hk; subst hk; exact ⟨p, by simp, hr⟩
  · intro j a b p' q' ha hb hp' hq'
    by_cases hj : j + 1 < ks.length
    · rw [List.getElem?_append_left (by omega)] at ha hb
      rw [hget a (List.mem_of_getElem? ha)] at hp'
      rw [hget b (List.mem_of_getElem? hb)] at hq'
      exact h.2.2.1 j a b p' q' ha hb hp' hq'
    · have hj' : j + 1 = ks.length := by
        have := (List.getElem?_eq_some_iff.1 hb).1
        simp only [List.length_append, List.length_cons, List.length_nil] at this; omega
      rw [hj', List.getElem?_concat_length, Option.some.injEq] at hb
      subst hb
      rw [List.getElem?_concat_length, Option.some.injEq] at hq'
      subst hq'
      rw [List.getElem?_append_left (by omega)] at ha
      rw [hget a (List.mem_of_getElem? ha)] at hp'
      refine hp a p' ?_ hp'
      rw [List.getLast?_eq_getElem?, ← ha]; congr 1; omega
  · intro i p' hi hr' hn
    have hn' : i ∉ ks := fun hh => hn (List.mem_append_left _ hh)
    have hl : i < l.length := by
      have := (List.getElem?_eq_some_iff.1 hi).1
      simp only [List.length_append, List.length_cons, List.length_nil] at this
      rcases Nat.lt_or_ge i l.length with h1 | h1
      · exact h1
      · exact absurd (List.mem_append_right _ (by simp; omega)) hn
    rw [List.getElem?_append_left hl] at hi
    obtain ⟨k, q, hk, hki, hq, hc, hm⟩ := h.2.2.2 i p' hi hr' hn'
    refine ⟨k, q, List.mem_append_left _ hk, hki, by rw [hget k hk]; exact hq, hc, ?_⟩
    intro k' hk' hlt
    rcases List.mem_append.1 hk' with hk' | hk'
    · exact hm k' hk' hlt
    · rw [List.mem_singleton] at hk'; omega

/-- all rings thinned -/
def AllThin (clr : K) (l : List (FPt K)) (rings : List (List Nat)) : Prop :=
  ∀ (r : Nat) ks, rings[r]? = some ks → Thinned clr l r ks

theorem last_max {ks : List Nat} (h : ks.Pairwise (· < ·)) {k : Nat} (hk : ks.getLast? = some k) : ∀ k' ∈ ks, k' ≤ k := by
  intro k' hk'
  rcases List.eq_nil_or_concat ks with rfl | ⟨l, a, rfl⟩
  · cases hk'
  · rw [List.concat_eq_append] at *
    rw [List.getLast?_concat, Option.some.injEq] at hk
    subst hk
    rcases List.mem_append.1 hk' with h1 | h1
    · exact le_of_lt ((List.pairwise_append.1 h).2.2 k' h1 a (by simp))
    · simp at h1; omega

theorem curvKeep_ok (clr : K) (pts : List (FPt K)) (rings : List (List Nat)) (i : Nat) (p : FPt K) (hi : pts[i]? = some p)
    (h0 : 0 ≤ p.ring) (hr : p.ring.toNat < rings.length) (h : AllThin clr (pts.take i) rings) :
    ∃ rings', curvKeep clr pts rings i = .ok rings' ∧ rings'.length = rings.length ∧ AllThin clr (pts.take (i + 1)) rings' := by
  have hil : i < pts.length := (List.getElem?_eq_some_iff.1 hi).1
  have htake : pts.take (i + 1) = pts.take i ++ [p] := by
    rw [List.take_add_one, hi]; rfl
  have hlen : (pts.take i).length = i := by rw [List.length_take]; omega
  have hring : ∀ r : Nat, p.ring = (r : Int) ↔ p.ring.toNat = r := by intro r; omega
  obtain ⟨trg, htrg⟩ : ∃ trg, rings[p.ring.toNat]? = some trg := ⟨_, List.getElem?_eq_getElem hr⟩
  have hthin := h _ _ htrg
  have hset : (∀ k q, trg.getLast? = some k → (pts.take i)[k]? = some q → ¬ Close clr p q) →
      AllThin clr (pts.take (i + 1)) (rings.set p.ring.toNat (trg ++ [i])) := by
    intro hc r ks hks
    rw [htake]
    by_cases hrr : p.ring.toNat = r
    · subst hrr
      rw [List.getElem?_set_self hr, Option.some.injEq] at hks
      subst hks
      have := hthin.snoc_keep p ((hring _).2 rfl) hc
      rwa [hlen] at this
    · rw [List.getElem?_set_ne hrr] at hks
      exact (h r ks hks).snoc_skip p (fun hh => absurd ((hring r).1 hh) hrr)
  unfold curvKeep
  rw [hi]; simp only []
  rw [htrg]; simp only []
  cases hlast : trg.getLast? with
  | none => exact ⟨_, rfl, by simp, hset (by simp [hlast])⟩
  | some li =>
    simp only []
    have hli := hthin.lt (List.mem_of_getLast? hlast)
    have hq : pts[li]? = (pts.take i)[li]? := by rw [List.getElem?_take_of_lt (by omega)]
    obtain ⟨q, hq'⟩ : ∃ q, (pts.take i)[li]? = some q := ⟨_, List.getElem?_eq_getElem hli⟩
    rw [hq, hq']
    simp only []
    by_cases hc : infDist p q < clr
    · rw [if_pos hc]
      refine ⟨_, rfl, rfl, ?_⟩
      intro r ks hks
      rw [htake]
      refine (h r ks hks).snoc_skip p (fun hh => ?_)
      rw [hring] at hh; subst hh
      rw [htrg, Option.some.injEq] at hks; subst hks
      exact ⟨li, q, List.mem_of_getLast? hlast, hq', (infDist_lt_iff p q clr).1 hc, last_max hthin.1 hlast⟩
    · rw [if_neg hc]
      refine ⟨_, rfl, by simp, hset ?_⟩
      intro k q' hk hkq
      rw [hlast, Option.some.injEq] at hk; subst hk
      rw [hq', Option.some.injEq] at hkq; subst hkq
      rwa [← infDist_lt_iff]

theorem curvScan_ok (clr : K) (pts : List (FPt K)) (k i : Nat) (rings : List (List Nat)) (hk : i + k = pts.length)
    (h0 : ∀ p ∈ pts, 0 ≤ p.ring ∧ p.ring.toNat < rings.length) (h : AllThin clr (pts.take i) rings) :
    ∃ rings', curvScan clr pts k i rings = .ok rings' ∧ rings'.length = rings.length ∧ AllThin clr pts rings' := by
  induction k generalizing i rings with
  | zero =>
    refine ⟨rings, rfl, rfl, ?_⟩
    rwa [List.take_of_length_le (by omega)] at h
  | succ k ih =>
    have hi : i < pts.length := by omega
    have hmem := h0 pts[i] (List.getElem_mem hi)
    obtain ⟨r1, h1, hl1, ht1⟩ := curvKeep_ok clr pts rings i pts[i] (List.getElem?_eq_getElem hi) hmem.1 hmem.2 h
    obtain ⟨r2, h2, hl2, ht2⟩ := ih (i + 1) r1 (by omega) (by rwa [hl1]) ht1
    exact ⟨r2, by simp [curvScan, h1, h2], by omega, ht2⟩

/-- insertion of a list of labelled points -/
def insertAll (m : FMap K X) (as : List (FPt K × String)) : FMap K X := as.foldl (fun m a => insertInto m a.2 a.1) m

omit [LinearOrder K] [IsStrictOrderedRing K] in
theorem insertAll_append (m : FMap K X) (a b : List (FPt K × String)) : insertAll m (a ++ b) = insertAll (insertAll m a) b := by
  simp [insertAll]

omit [LinearOrder K] [IsStrictOrderedRing K] in
theorem get_insertAll (as : List (FPt K × String)) (m : FMap K X) (k : String) :
    AMap.get (insertAll m as) k =
      if k = "" then m.get k else addPts (m.get k) ((as.filter fun a => a.2 = k).map Prod.fst) := by
  induction as generalizing m with
  | nil => simp [insertAll]
  | cons p ps ih =>
    have : insertAll m (p :: ps) = insertAll (insertInto m p.2 p.1) ps := rfl
    rw [this, ih, get_insertInto]
    by_cases h0 : k = ""
    · subst h0
      rw [if_pos rfl, if_pos rfl, if_neg]
      rintro ⟨h, h'⟩; exact h' h.symm
    · rw [if_neg h0, if_neg h0]
      by_cases hk : k = p.2
      · subst hk
        rw [if_pos ⟨rfl, h0⟩, addPts_addPts, List.filter_cons_of_pos (by simp)]; rfl
      · rw [if_neg (fun h => hk h.1), List.filter_cons_of_neg (by simpa using Ne.symm hk)]

/-- the layer `inp` holds `pts` and perhaps more points after them -/
def Holds (m : FMap K X) (inp : String) (pts : List (FPt K)) : Prop :=
  ∃ (c : Cloud K) (l : List (FPt K)), m.get inp = some (.pts c) ∧ c.pts = pts ++ l

omit [LinearOrder K] [IsStrictOrderedRing K] in
theorem Holds.insertInto {m : FMap K X} {inp : String} {pts : List (FPt K)} (h : Holds m inp pts) (n : String) (p : FPt K) :
    Holds (insertInto m n p) inp pts := by
  obtain ⟨c, l, hc, hl⟩ := h
  obtain ⟨l', hl'⟩ := insertInto_prefix m n p inp c hc
  exact ⟨_, l ++ l', hl', by simp [hl]⟩

omit [LinearOrder K] [IsStrictOrderedRing K] in
theorem Holds.insertAll {m : FMap K X} {inp : String} {pts : List (FPt K)} (h : Holds m inp pts) (as : List (FPt K × String)) :
    Holds (insertAll m as) inp pts := by
  induction as generalizing m with
  | nil => exact h
  | cons a as ih => exact ih (h.insertInto a.2 a.1)

omit [LinearOrder K] [IsStrictOrderedRing K] in
theorem Holds.pointAt {m : FMap K X} {inp : String} {pts : List (FPt K)} (h : Holds m inp pts) {i : Nat} {p : FPt K}
    (hi : pts[i]? = some p) : pointAt m inp i = .ok p := by
  obtain ⟨c, l, hc, hl⟩ := h
  have : c.pts[i]? = some p := by
    rw [hl, List.getElem?_append_left (List.getElem?_eq_some_iff.1 hi).1, hi]
  simp [Flt.pointAt, hc, this]

theorem sqDist_nonneg (a b : FPt K) : 0 ≤ sqDist a b :=
  add_nonneg (add_nonneg (mul_self_nonneg _) (mul_self_nonneg _)) (mul_self_nonneg _)

theorem curvTarget_class (sq : K → K) (hsq : IsSqrt sq) (P : CurvParams K) (hmc : 0 ≤ P.maxCos) (a b c : FPt K) :
    ∃ k, curvTarget sq P a b c = P.name k ∧ IsClass P.maxCos P.maxGap a b c k := by
  have e1 : ∀ a b : FPt K, sqDist a b = dist2 a b := by intro a b; unfold sqDist dist2; ring
  have e2 : ∀ a : FPt K, sqNorm a = range2 a := by intro a; unfold sqNorm range2; ring
  have e3 : P.maxGap * P.maxGap = P.maxGap ^ 2 := by ring
  have e4 : (|curvDot a b c| < P.maxCos * sq (sqDist b a) * sq (sqDist c b)) ↔
      turn a b c ^ 2 < P.maxCos ^ 2 * (dist2 b a * dist2 c b) := by
    obtain ⟨p1, q1⟩ := hsq (sqDist b a) (sqDist_nonneg b a)
    obtain ⟨p2, q2⟩ := hsq (sqDist c b) (sqDist_nonneg c b)
    have h0 : 0 ≤ P.maxCos * sq (sqDist b a) * sq (sqDist c b) := mul_nonneg (mul_nonneg hmc p1) p2
    have : P.maxCos ^ 2 * (dist2 b a * dist2 c b) = (P.maxCos * sq (sqDist b a) * sq (sqDist c b)) ^ 2 := by
      rw [← e1, ← e1]
      calc P.maxCos ^ 2 * (sqDist b a * sqDist c b)
          = P.maxCos ^ 2 * ((sq (sqDist b a) * sq (sqDist b a)) * (sq (sqDist c b) * sq (sqDist c b))) := by rw [q1, q2]
        _ = _ := by ring
    rw [this, sq_lt_sq, abs_of_nonneg h0]; rfl
  unfold curvTarget IsClass
  simp only [e1, e2, e3, gt_iff_lt] at *
  by_cases hg : P.maxGap ^ 2 < dist2 b a ∨ P.maxGap ^ 2 < dist2 b c
  · simp only [hg, if_true]
    by_cases h : range2 b < range2 a
    · exact ⟨.larger, by simp [h, CurvParams.name], by simp [h]⟩
    · exact ⟨.other, by simp [h, CurvParams.name], by simp [h]⟩
  · simp only [hg, if_false]
    by_cases h : turn a b c ^ 2 < P.maxCos ^ 2 * (dist2 b a * dist2 c b)
    · exact ⟨.larger, by simp [e4.2 h, CurvParams.name], by simp [h]⟩
    · exact ⟨.smaller, by rw [if_neg (fun hh => h (e4.1 hh))]; rfl, by simp [h]⟩

omit [LinearOrder K] [IsStrictOrderedRing K] in
theorem idxAt_ok {idxs : List Nat} {j i : Nat} (h : idxs[j]? = some i) : idxAt idxs j = .ok i := by simp [idxAt, h]

theorem getAll (pts : List (FPt K)) (idxs : List Nat) (hidx : ∀ i ∈ idxs, i < pts.length) (j : Nat) (hj : j < idxs.length) :
    ∃ i p, idxs[j]? = some i ∧ pts[i]? = some p :=
  ⟨idxs[j], pts[idxs[j]]'(hidx _ (List.getElem_mem hj)), List.getElem?_eq_getElem hj, List.getElem?_eq_getElem _⟩

/-- the points with these labels -/
def labelled (P : CurvParams K) (pts : List (FPt K)) (lab : List (Nat × CurvClass)) : List (FPt K × String) :=
  lab.filterMap fun a => pts[a.1]?.map fun p => (p, P.name a.2)

theorem curvFew_ok (P : CurvParams K) (pts : List (FPt K)) (idxs : List Nat) (hidx : ∀ i ∈ idxs, i < pts.length)
    (k j : Nat) (hk : j + k = idxs.length) (m : FMap K X) (hm : Holds m P.inp pts) :
    curvFew P idxs k j m = .ok (insertAll m (labelled P pts ((idxs.drop j).map fun i => (i, CurvClass.larger)))) := by
  induction k generalizing j m with
  | zero => simp [curvFew, List.drop_eq_nil_of_le (by omega : idxs.length ≤ j), insertAll, labelled]
  | succ k ih =>
    have hj : j < idxs.length := by omega
    obtain ⟨i, p, hi, hp⟩ := getAll pts idxs hidx j hj
    have hd : idxs.drop j = i :: idxs.drop (j + 1) := by
      rw [List.drop_eq_getElem_cons hj]
      rw [List.getElem?_eq_getElem hj, Option.some.injEq] at hi; rw [hi]
    simp only [curvFew, idxAt_ok hi, hm.pointAt hp, Outcome.bind]
    rw [ih (j + 1) (by omega) _ (hm.insertInto _ _), hd]
    simp [labelled, hp, insertAll, CurvParams.name]

theorem curvMany_ok (sq : K → K) (hsq : IsSqrt sq) (P : CurvParams K) (hmc : 0 ≤ P.maxCos) (pts : List (FPt K)) (idxs : List Nat)
    (hidx : ∀ i ∈ idxs, i < pts.length) (h3 : 3 < idxs.length) (k j : Nat) (hk : j + k = idxs.length) (m : FMap K X)
    (hm : Holds m P.inp pts) :
    ∃ cl : List CurvClass, cl.length = k ∧ (∀ t c, cl[t]? = some c → LabelOk P pts idxs (j + t) c) ∧
      curvMany sq P idxs k j m = .ok (insertAll m (labelled P pts ((idxs.drop j).zip cl))) := by
  induction k generalizing j m with
  | zero =>
    exact ⟨[], rfl, by simp, by simp [curvMany, insertAll, labelled]⟩
  | succ k ih =>
    have hj : j < idxs.length := by omega
    obtain ⟨i, p, hi, hp⟩ := getAll pts idxs hidx j hj
    have hd : idxs.drop j = i :: idxs.drop (j + 1) := by
      rw [List.drop_eq_getElem_cons hj]
      rw [List.getElem?_eq_getElem hj, Option.some.injEq] at hi; rw [hi]
    have e1 : (if j > 0 then j - 1 else idxs.length - 1) = (j + idxs.length - 1) % idxs.length := by
      split
      · rw [show j + idxs.length - 1 = (j - 1) + idxs.length by omega, Nat.add_mod_right, Nat.mod_eq_of_lt (by omega)]
      · rw [show j = 0 by omega, Nat.mod_eq_of_lt (by omega)]; omega
    have e2 : (if j < idxs.length - 1 then j + 1 else 0) = (j + 1) % idxs.length := by
      split
      · rw [Nat.mod_eq_of_lt (by omega)]
      · rw [show j + 1 = idxs.length by omega, Nat.mod_self]
    obtain ⟨im, pm, him, hpm⟩ := getAll pts idxs hidx ((j + idxs.length - 1) % idxs.length) (Nat.mod_lt _ (by omega))
    obtain ⟨ip, pp, hip, hpp⟩ := getAll pts idxs hidx ((j + 1) % idxs.length) (Nat.mod_lt _ (by omega))
    obtain ⟨c, hc, hcl⟩ := curvTarget_class sq hsq P hmc pm p pp
    obtain ⟨cl, hlen, hlab, hrun⟩ := ih (j + 1) (by omega) (insertInto m (curvTarget sq P pm p pp) p) (hm.insertInto _ _)
    refine ⟨c :: cl, by simp [hlen], ?_, ?_⟩
    · intro t c' ht
      cases t with
      | zero =>
        simp only [List.getElem?_cons_zero, Option.some.injEq] at ht; subst ht
        unfold LabelOk
        rw [if_neg (by omega)]
        exact ⟨im, i, ip, pm, p, pp, him, hi, hip, hpm, hp, hpp, hcl⟩
      | succ t =>
        simp only [List.getElem?_cons_succ] at ht
        rw [show j + (t + 1) = j + 1 + t by omega]
        exact hlab t c' ht
    · simp only [curvMany, e1, e2, idxAt_ok hi, idxAt_ok him, idxAt_ok hip, hm.pointAt hp, hm.pointAt hpm, hm.pointAt hpp,
        Outcome.bind]
      rw [hrun, hd]
      simp [labelled, hp, insertAll, hc]

theorem curvRing_ok (sq : K → K) (hsq : IsSqrt sq) (P : CurvParams K) (hmc : 0 ≤ P.maxCos) (pts : List (FPt K)) (idxs : List Nat)
    (hidx : ∀ i ∈ idxs, i < pts.length) (m : FMap K X) (hm : Holds m P.inp pts) :
    ∃ lab : List (Nat × CurvClass), lab.map Prod.fst = idxs ∧ (∀ j i c, lab[j]? = some (i, c) → LabelOk P pts idxs j c) ∧
      curvRing sq P idxs m = .ok (insertAll m (labelled P pts lab)) := by
  unfold curvRing
  by_cases h : idxs.length ≤ 3
  · rw [if_pos h]
    refine ⟨idxs.map fun i => (i, .larger), by simp [Function.comp_def], ?_, ?_⟩
    · intro j i c hj
      simp only [List.getElem?_map, Option.map_eq_some_iff] at hj
      obtain ⟨a, -, ha⟩ := hj
      simp only [Prod.mk.injEq] at ha
      unfold LabelOk; rw [if_pos h]; exact ha.2.symm
    · rw [curvFew_ok P pts idxs hidx idxs.length 0 (by omega) m hm]; simp
  · rw [if_neg h]
    obtain ⟨cl, hlen, hlab, hrun⟩ := curvMany_ok sq hsq P hmc pts idxs hidx (by omega) idxs.length 0 (by omega) m hm
    refine ⟨idxs.zip cl, by rw [List.map_fst_zip]; omega, ?_, ?_⟩
    · intro j i c hj
      have := (List.getElem?_zip_eq_some.1 hj).2
      simpa using hlab j c this
    · rw [hrun]; simp

theorem curvRings_ok (sq : K → K) (hsq : IsSqrt sq) (P : CurvParams K) (hmc : 0 ≤ P.maxCos) (pts : List (FPt K))
    (rings : List (List Nat)) (hidx : ∀ idxs ∈ rings, ∀ i ∈ idxs, i < pts.length) (m : FMap K X) (hm : Holds m P.inp pts) :
    ∃ labs : List (List (Nat × CurvClass)), labs.map (fun l => l.map Prod.fst) = rings ∧
      (∀ lab ∈ labs, ∀ j i c, lab[j]? = some (i, c) → LabelOk P pts (lab.map Prod.fst) j c) ∧
      foldOutcome (fun m idxs => curvRing sq P idxs m) m rings = .ok (insertAll m (labelled P pts labs.flatten)) := by
  induction rings generalizing m with
  | nil => exact ⟨[], rfl, by simp, by simp [foldOutcome, insertAll, labelled]⟩
  | cons r rings ih =>
    obtain ⟨lab, h1, h2, h3⟩ := curvRing_ok sq hsq P hmc pts r (hidx r (by simp)) m hm
    obtain ⟨labs, k1, k2, k3⟩ := ih (fun i hi => hidx i (by simp [hi])) _ (hm.insertAll (labelled P pts lab))
    refine ⟨lab :: labs, by simp [h1, k1], ?_, ?_⟩
    · intro l hl
      rcases List.mem_cons.1 hl with rfl | hl
      · rw [h1]; exact h2
      · exact k2 l hl
    · simp only [foldOutcome, h3, Outcome.bind, k3, List.flatten_cons]
      rw [← insertAll_append]
      simp [labelled]

/-- ring count -/
theorem foldl_max_le (pts : List (FPt K)) (a b : Nat) (ha : a ≤ b) (h : ∀ p ∈ pts, p.ring.toNat ≤ b) :
    pts.foldl (fun a p => max a p.ring.toNat) a ≤ b := by
  induction pts generalizing a with
  | nil => exact ha
  | cons p pts ih => exact ih _ (max_le ha (h p (by simp))) (fun q hq => h q (by simp [hq]))

theorem le_foldl_max (pts : List (FPt K)) (a : Nat) :
    a ≤ pts.foldl (fun a p => max a p.ring.toNat) a ∧ ∀ p ∈ pts, p.ring.toNat ≤ pts.foldl (fun a p => max a p.ring.toNat) a := by
  induction pts generalizing a with
  | nil => simp
  | cons p pts ih =>
    obtain ⟨h1, h2⟩ := ih (max a p.ring.toNat)
    refine ⟨le_trans (le_max_left _ _) h1, fun q hq => ?_⟩
    rcases List.mem_cons.1 hq with rfl | hq
    · exact le_trans (le_max_right _ _) h1
    · exact h2 q hq

end Flt
end Verif
