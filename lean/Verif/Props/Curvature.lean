import Mathlib.Algebra.Order.Ring.Rat
import Mathlib.Analysis.Real.Sqrt
import Mathlib.Tactic.NormNum
import Mathlib.Tactic.Tauto
import Verif.Lemmas.Curvature
/-
C53: the curvature filter.
-/
set_option linter.unusedSectionVars false
namespace Verif
namespace Props
open Flt
theorem flatMap_getD {α : Type} (labs : List (List α)) (N : Nat) (h : labs.length ≤ N) :
    (List.range N).flatMap (fun r => labs[r]?.getD []) = labs.flatten := by
  have hsplit : List.range N = List.range labs.length ++ (List.range (N - labs.length)).map (labs.length + ·) := by
    rw [← List.range_add]; congr 1; omega
  rw [hsplit, List.flatMap_append]
  have h1 : (List.range labs.length).flatMap (fun r => labs[r]?.getD []) = labs.flatten := by
    rw [List.flatMap_def]
    congr 1
    apply List.ext_getElem
    · simp
    · intro i h1 h2; simp [List.getElem?_eq_getElem h2]
  have h2 : (((List.range (N - labs.length)).map (labs.length + ·)).flatMap fun r => labs[r]?.getD []) = [] := by
    rw [List.flatMap_eq_nil_iff]
    intro r hr
    simp only [List.mem_map, List.mem_range] at hr
    obtain ⟨a, -, rfl⟩ := hr
    rw [List.getElem?_eq_none (by omega)]; rfl
  rw [h1, h2, List.append_nil]

section
variable {K X : Type} [Field K] [LinearOrder K] [IsStrictOrderedRing K]

/-- For a cloud with ring ids below 4999, the filter thins each ring and labels each kept point by its two neighbours on the ring
(cyclically); each output gets the kept points with its label, ring after ring, in the order of the cloud, after the points
it already had; the other layers are untouched.  This holds also if an output is the input layer.
Part of C53: ring ids from 4999 on are excluded; ring 65535 divides by zero (`curvature_ring_overflow_ub`). -/
theorem curvature_result_partial (sq : K → K) (hsq : IsSqrt sq) (P : CurvParams K) (hmc : 0 ≤ P.maxCos) (m : FMap K X) (c : Cloud K)
    (hm : m.get P.inp = some (.pts c)) (hr : c.hasRing = true) (hne : c.pts ≠ [])
    (hring : ∀ p ∈ c.pts, 0 ≤ p.ring ∧ p.ring < 4999)
    (ho : Openable [P.larger, P.smaller, P.other] m) (hs : P.larger ≠ "" ∨ P.smaller ≠ "") :
    ∃ (lab : Nat → List (Nat × CurvClass)) (m' : FMap K X), filterCurvature sq P m = .ok m' ∧
      (∀ r, Thinned P.clearance c.pts r ((lab r).map Prod.fst)) ∧
      (∀ r (j : Nat) i k, (lab r)[j]? = some (i, k) → LabelOk P c.pts ((lab r).map Prod.fst) j k) ∧
      ∀ n, if n ∈ [P.larger, P.smaller, P.other] ∧ n ≠ "" then
          ∃ c0, (m.get n = some (.pts c0) ∨ (m.get n = none ∧ c0 = { c with pts := [] })) ∧
            m'.get n = some (.pts { c0 with pts := c0.pts ++
              (((List.range 4999).flatMap lab).filterMap fun a =>
                if P.name a.2 = n then c.pts[a.1]?.map (conform c0) else none) })
        else m'.get n = m.get n := by
  obtain ⟨m1, hm1, hk⟩ := openOutputs_ok (emptyLike c) _ m ho
  have hin := open_input _ _ _ _ P.inp c hm hk
  have hmax : c.pts.foldl (fun a p => max a p.ring.toNat) 0 ≤ 4998 :=
    foldl_max_le _ _ _ (by omega) (fun p hp => by have := hring p hp; omega)
  have hn : nRings c.pts = 1 + c.pts.foldl (fun a p => max a p.ring.toNat) 0 := by
    unfold nRings; rw [Nat.mod_eq_of_lt (by omega)]
  obtain ⟨rings, hscan, hlen, hthin⟩ := curvScan_ok P.clearance c.pts c.pts.length 0 (List.replicate (nRings c.pts) []) (by omega)
    (fun p hp => ⟨(hring p hp).1, by
      rw [List.length_replicate, hn]
      have := (le_foldl_max c.pts 0).2 p hp
      omega⟩)
    (by
      intro r ks hks
      rw [List.getElem?_replicate] at hks
      split at hks
      · simp only [Option.some.injEq] at hks; subst hks; simpa using thinned_nil P.clearance r
      · cases hks)
  rw [List.length_replicate] at hlen
  have hholds : Holds m1 P.inp c.pts := ⟨c, [], hin, by simp⟩
  obtain ⟨labs, k1, k2, k3⟩ := curvRings_ok sq hsq P hmc c.pts rings
    (fun idxs hidxs i hi => by
      obtain ⟨r, hr⟩ := List.getElem?_of_mem hidxs
      exact (hthin r idxs hr).lt hi) m1 hholds
  have hll : labs.length = nRings c.pts := by rw [← hlen, ← k1, List.length_map]
  have hflat := flatMap_getD labs 4999 (by omega)
  refine ⟨fun r => labs[r]?.getD [], insertAll m1 (labelled P c.pts labs.flatten), ?_, ?_, ?_, ?_⟩
  · have hra : (!c.hasRing || c.pts.isEmpty) = false := by simp [hr, hne]
    simp only [filterCurvature, pointLayer, hm, Outcome.bind, hm1, Outcome.assert, hs, if_true, hra]
    rw [if_neg (by simp), if_neg (by omega), if_pos ⟨by omega, by omega⟩]
    simp only [hscan, k3]
  · intro r
    beta_reduce
    by_cases hrl : r < labs.length
    · refine hthin r _ ?_
      rw [← k1, List.getElem?_map, List.getElem?_eq_getElem hrl]; rfl
    · rw [List.getElem?_eq_none (by omega)]
      refine ⟨by simp, by simp, by simp, ?_⟩
      intro i p hi hpr _
      have := (le_foldl_max c.pts 0).2 p (List.mem_of_getElem? hi)
      omega
  · intro r j i k hj
    beta_reduce at hj ⊢
    by_cases hrl : r < labs.length
    · rw [List.getElem?_eq_getElem hrl] at hj ⊢
      exact k2 _ (List.getElem_mem hrl) j i k hj
    · rw [List.getElem?_eq_none (l := labs) (i := r) (by omega)] at hj; simp at hj
  · intro n
    rw [get_insertAll, hflat]
    have hlabs : ∀ c0 : Cloud K, ((labelled P c.pts labs.flatten).filter fun a => a.2 = n).map (fun a => conform c0 a.1) =
        labs.flatten.filterMap fun a => if P.name a.2 = n then c.pts[a.1]?.map (conform c0) else none := by
      intro c0
      unfold labelled
      generalize labs.flatten = L
      induction L with
      | nil => rfl
      | cons a L ih =>
        cases hp : c.pts[a.1]? with
        | none => simp only [List.filterMap_cons, hp, Option.map_none, ite_self]; exact ih
        | some p =>
          by_cases hn : P.name a.2 = n
          · simp only [List.filterMap_cons, hp, Option.map_some, hn, if_true]
            rw [List.filter_cons_of_pos (by simp), List.map_cons, ih]
          · simp only [List.filterMap_cons, hp, Option.map_some, hn, if_false]
            rw [List.filter_cons_of_neg (by simpa using hn), ih]
    by_cases hno : n ∈ [P.larger, P.smaller, P.other] ∧ n ≠ ""
    · rw [if_pos hno, if_neg hno.2, hk]
      cases hg : m.get n with
      | none =>
        refine ⟨{ c with pts := [] }, Or.inr ⟨rfl, rfl⟩, ?_⟩
        rw [if_pos ⟨hno.1, hno.2, rfl⟩, ← hlabs]
        simp [addPts, emptyLike, List.map_map, Function.comp_def]
      | some l =>
        cases l with
        | other x => exact absurd hg (ho n hno.1 hno.2 x)
        | pts c0 =>
          refine ⟨c0, Or.inl rfl, ?_⟩
          rw [if_neg (by simp), ← hlabs]
          simp [addPts, List.map_map, Function.comp_def]
    · rw [if_neg hno]
      have h1 : m1.get n = m.get n := by rw [hk, if_neg (fun hh => hno ⟨hh.1, hh.2.1⟩)]
      by_cases h0 : n = ""
      · rw [if_pos h0, h1]
      · rw [if_neg h0, h1]
        have : ((labelled P c.pts labs.flatten).filter fun a => a.2 = n) = [] := by
          rw [List.filter_eq_nil_iff]
          intro a ha hq
          simp only [decide_eq_true_eq] at hq
          obtain ⟨b, hb, hab⟩ := List.mem_filterMap.1 ha
          rw [Option.map_eq_some_iff] at hab
          obtain ⟨p, -, rfl⟩ := hab
          refine hno ⟨?_, h0⟩
          rw [← hq]
          rcases b with ⟨i, k⟩
          cases k <;> simp [CurvParams.name]
        rw [this, List.map_nil, addPts_nil]

/-- No point is output twice, on one output or on two: the positions kept on all rings are distinct. -/
theorem curvature_once (clr : K) (pts : List (FPt K)) (ks : Nat → List Nat) (h : ∀ r, Thinned clr pts r (ks r)) (n : Nat) :
    ((List.range n).flatMap ks).Nodup := by
  rw [List.nodup_flatMap]
  refine ⟨fun r _ => (h r).1.imp (fun hlt => Nat.ne_of_lt hlt), ?_⟩
  refine List.Pairwise.imp (R := fun a b => a ≠ b) ?_ List.nodup_range
  intro a b hab
  simp only [Function.onFun, List.disjoint_left]
  intro i ha hb
  obtain ⟨p, hp, hpa⟩ := (h a).2.1 i ha
  obtain ⟨q, hq, hqb⟩ := (h b).2.1 i hb
  rw [hp, Option.some.injEq] at hq; subst hq
  omega

/-- The specification of the thinning leaves no choice. -/
theorem thinned_unique (clr : K) (pts : List (FPt K)) (r : Nat) (ks ks' : List Nat) (h : Thinned clr pts r ks)
    (h' : Thinned clr pts r ks') : ks = ks' := by
  -- membership agrees below every bound
  have key : ∀ N i, i < N → (i ∈ ks ↔ i ∈ ks') := by
    have close_of : ∀ (ks : List Nat), Thinned clr pts r ks → ∀ i ∈ ks, ∀ k ∈ ks, k < i → (∀ k' ∈ ks, k' < i → k' ≤ k) →
        ∀ p q, pts[i]? = some p → pts[k]? = some q → ¬ Close clr p q := by
      intro ks h i hi k hk hki hmx p q hp hq
      obtain ⟨a, ha⟩ := List.getElem?_of_mem hi
      obtain ⟨b, hb⟩ := List.getElem?_of_mem hk
      have hmono := List.pairwise_iff_getElem.1 h.1
      obtain ⟨hal, ha'⟩ := List.getElem?_eq_some_iff.1 ha
      obtain ⟨hbl, hb'⟩ := List.getElem?_eq_some_iff.1 hb
      have hba : b < a := by
        rcases Nat.lt_trichotomy b a with h1 | h1 | h1
        · exact h1
        · subst h1; omega
        · have := hmono a b hal hbl h1; omega
      have : a = b + 1 := by
        by_contra hne
        have h1 := hmono (b + 1) a (by omega) hal (by omega)
        have h2 := hmono b (b + 1) hbl (by omega) (by omega)
        have h3 := hmx ks[b + 1] (List.getElem_mem _) (by omega)
        omega
      subst this
      exact h.2.2.1 b k i q p hb ha hq hp
    intro N
    induction N with
    | zero => intro i hi; omega
    | succ N ih =>
      have half : ∀ (ks ks' : List Nat), Thinned clr pts r ks → Thinned clr pts r ks' → (∀ i < N, i ∈ ks ↔ i ∈ ks') →
          N ∈ ks → N ∈ ks' := by
        intro ks ks' h h' ih hN
        by_contra hN'
        obtain ⟨p, hp, hpr⟩ := h.2.1 N hN
        obtain ⟨k, q, hk, hkN, hq, hc, hmx⟩ := h'.2.2.2 N p hp hpr hN'
        refine close_of ks h N hN k ((ih k hkN).2 hk) hkN ?_ p q hp hq hc
        intro k' hk' hlt
        exact hmx k' ((ih k' hlt).1 hk') hlt
      intro i hi
      rcases Nat.lt_or_ge i N with h1 | h1
      · exact ih i h1
      · obtain rfl : i = N := by omega
        exact ⟨half ks ks' h h' ih, half ks' ks h' h (fun i hi => (ih i hi).symm)⟩
  have hperm : ks.Perm ks' := by
    rw [List.perm_ext_iff_of_nodup (h.1.imp Nat.ne_of_lt) (h'.1.imp Nat.ne_of_lt)]
    intro a; exact key (a + 1) a (by omega)
  exact List.Perm.eq_of_pairwise (fun a b _ _ h1 h2 => absurd h1 (by omega)) h.1 h'.1 hperm

/-- A cloud whose largest ring id is 65535 makes the ring count wrap to 0, which is used as a divisor. -/
theorem curvature_ring_overflow_ub (sq : K → K) (P : CurvParams K) (m : FMap K X) (c : Cloud K)
    (hm : m.get P.inp = some (.pts c)) (hr : c.hasRing = true) (hring : ∀ p ∈ c.pts, p.ring ≤ 65535)
    (hmax : ∃ p ∈ c.pts, p.ring = 65535)
    (ho : Openable [P.larger, P.smaller, P.other] m) (hs : P.larger ≠ "" ∨ P.smaller ≠ "") :
    filterCurvature sq P m = .ub := by
  obtain ⟨m1, hm1, hk⟩ := openOutputs_ok (emptyLike c) _ m ho
  obtain ⟨p, hp, hpr⟩ := hmax
  have h1 : c.pts.foldl (fun a p => max a p.ring.toNat) 0 ≤ 65535 :=
    foldl_max_le _ _ _ (by omega) (fun p hp => by have := hring p hp; omega)
  have h2 := (le_foldl_max c.pts 0).2 p hp
  have hn : nRings c.pts = 0 := by
    have : c.pts.foldl (fun a p => max a p.ring.toNat) 0 = 65535 := by omega
    unfold nRings; rw [this]
  have hra : (!c.hasRing || c.pts.isEmpty) = false := by
    have : c.pts ≠ [] := by rintro h; rw [h] at hp; cases hp
    simp [hr, this]
  simp only [filterCurvature, pointLayer, hm, Outcome.bind, hm1, Outcome.assert, hs, if_true, hra, hn]
  rfl

/-- Ring ids from 4999 to 65534 are refused, as are empty clouds, clouds without rings, and two empty names. -/
theorem curvature_refuses (sq : K → K) (P : CurvParams K) (m : FMap K X) (c : Cloud K)
    (hm : m.get P.inp = some (.pts c)) (hring : ∀ p ∈ c.pts, p.ring < 65535)
    (h : c.hasRing = false ∨ c.pts = [] ∨ (P.larger = "" ∧ P.smaller = "") ∨ ∃ p ∈ c.pts, 4999 ≤ p.ring) :
    filterCurvature sq P m = .throw := by
  by_cases ho : Openable [P.larger, P.smaller, P.other] m
  · obtain ⟨m1, hm1, hk⟩ := openOutputs_ok (emptyLike c) _ m ho
    simp only [filterCurvature, pointLayer, hm, Outcome.bind, hm1, Outcome.assert]
    by_cases hs : P.larger ≠ "" ∨ P.smaller ≠ ""
    · simp only [hs, if_true]
      by_cases hra : (!c.hasRing || c.pts.isEmpty) = true
      · rw [if_pos hra]
      · rw [if_neg hra]
        simp only [Bool.or_eq_true, Bool.not_eq_true', List.isEmpty_iff, not_or] at hra
        obtain ⟨p, hp, hpr⟩ : ∃ p ∈ c.pts, 4999 ≤ p.ring := by
          rcases h with h | h | h | h
          · exact absurd h hra.1
          · exact absurd h hra.2
          · tauto
          · exact h
        have h1 : c.pts.foldl (fun a p => max a p.ring.toNat) 0 ≤ 65534 :=
          foldl_max_le _ _ _ (by omega) (fun p hp => by have := hring p hp; omega)
        have h2 := (le_foldl_max c.pts 0).2 p hp
        have hn : nRings c.pts = 1 + c.pts.foldl (fun a p => max a p.ring.toNat) 0 := by
          unfold nRings; rw [Nat.mod_eq_of_lt (by omega)]
        rw [if_neg (by omega), if_neg (by omega)]
    · rw [if_neg hs]
  · simp [filterCurvature, pointLayer, hm, openOutputs_not _ _ _ ho]

end

/-! ### examples -/

/-- The hypotheses on the square root are met by the real one. -/
theorem isSqrt_real : IsSqrt Real.sqrt := fun a ha => ⟨Real.sqrt_nonneg a, Real.mul_self_sqrt ha⟩

/-- Ring 0: a square corner walked in five steps, with one point too near to another; ring 2: two points. -/
def exCurv : FMap ℚ Unit :=
  [("raw", .pts { pts := [⟨1, 0, 0, 0, 0, 0⟩, ⟨2, 0, 0, 0, 0, 0⟩, ⟨9, 9, 9, 0, 2, 0⟩, ⟨2, 1/100, 0, 0, 0, 0⟩, ⟨3, 0, 0, 0, 0, 0⟩,
    ⟨3, 1, 0, 0, 0, 0⟩, ⟨7, 7, 7, 0, 2, 0⟩, ⟨3, 2, 0, 0, 0, 0⟩] })]
def exCurvP : CurvParams ℚ := ⟨"raw", "L", "S", "O", 1/2, 1/50, 1⟩
example : (filterCurvature id exCurvP exCurv).Sat fun r =>
    AMap.get r "L" = some (.pts { pts := [⟨1, 0, 0, 0, 0, 0⟩, ⟨3, 0, 0, 0, 0, 0⟩, ⟨9, 9, 9, 0, 2, 0⟩, ⟨7, 7, 7, 0, 2, 0⟩] }) ∧
    AMap.get r "S" = some (.pts { pts := [⟨2, 0, 0, 0, 0, 0⟩, ⟨3, 1, 0, 0, 0, 0⟩] }) ∧
    AMap.get r "O" = some (.pts { pts := [⟨3, 2, 0, 0, 0, 0⟩] }) := by decide +kernel

/-- The rule for borders looks at the neighbour before only, so the near side of a gap gets class `larger` when the scan comes from
the far side, and not when it comes from the near side: near surface at range 2, far surface at range 9. -/
theorem curvature_border_depends_on_direction :
    curvTarget id exCurvP ⟨9, 1, 0, 0, 0, 0⟩ ⟨2, 1, 0, 0, 0, 0⟩ ⟨2, 0, 0, 0, 0, 0⟩ = "L" ∧
    curvTarget id exCurvP ⟨2, 0, 0, 0, 0, 0⟩ ⟨2, 1, 0, 0, 0, 0⟩ ⟨9, 1, 0, 0, 0, 0⟩ = "O" := by
  decide +kernel
end Props
end Verif
