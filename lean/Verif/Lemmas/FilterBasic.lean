import Mathlib.Data.String.Basic
import Mathlib.Data.List.Basic
import Verif.Lemmas.AMap
import Verif.Spec.FilterBasic
set_option linter.unusedSectionVars false
namespace Verif
namespace Flt
variable {K X : Type} [Zero K]

/-- a layer with some points appended -/
def addPts (o : Option (Layer (Cloud K) X)) (ps : List (FPt K)) : Option (Layer (Cloud K) X) :=
  match o with
  | some (.pts c) => some (.pts { c with pts := c.pts ++ ps.map (conform c) })
  | o => o

@[simp] theorem addPts_nil (o : Option (Layer (Cloud K) X)) : addPts o [] = o := by
  unfold addPts; split <;> simp

theorem addPts_addPts (o : Option (Layer (Cloud K) X)) (a b : List (FPt K)) :
    addPts (addPts o a) b = addPts o (a ++ b) := by
  rcases o with _ | (c | x)
  · rfl
  · simp only [addPts, List.map_append, List.append_assoc, Option.some.injEq, Layer.pts.injEq, Cloud.mk.injEq, and_self,
      and_true, List.append_cancel_left_eq]
    rfl
  · rfl

theorem get_insertInto (m : FMap K X) (n : String) (p : FPt K) (k : String) :
    AMap.get (insertInto m n p) k = if k = n ∧ n ≠ "" then addPts (m.get k) [p] else m.get k := by
  unfold insertInto
  by_cases h : n = ""
  · simp [h]
  · simp only [h, if_false, ne_eq, not_false_eq_true, and_true]
    by_cases hk : k = n
    · subst hk
      cases hg : m.get k with
      | none => simp [addPts, hg]
      | some l => cases l <;> simp [addPts, hg]
    · cases hg : m.get n with
      | none => simp [hk]
      | some l => cases l <;> simp [hk]

theorem get_foldl_insertInto (target : FPt K → String) (ps : List (FPt K)) (m : FMap K X) (k : String) :
    AMap.get (ps.foldl (fun m p => insertInto m (target p) p) m) k =
      if k = "" then m.get k else addPts (m.get k) (ps.filter fun p => target p = k) := by
  induction ps generalizing m with
  | nil => simp
  | cons p ps ih =>
    rw [List.foldl_cons, ih, get_insertInto]
    by_cases h0 : k = ""
    · subst h0
      rw [if_pos rfl, if_pos rfl, if_neg]
      rintro ⟨h, h'⟩; exact h' h.symm
    · rw [if_neg h0, if_neg h0]
      by_cases hk : k = target p
      · subst hk
        rw [if_pos ⟨rfl, h0⟩, addPts_addPts, List.filter_cons_of_pos (by simp)]; rfl
      · rw [if_neg (fun h => hk h.1), List.filter_cons_of_neg (by simpa using Ne.symm hk)]

theorem getOrCreate_ok (e : Cloud K) (m : FMap K X) (n : String) (h : n ≠ "" → ∀ x, m.get n ≠ some (.other x)) :
    ∃ r, getOrCreatePointLayer (some e) m n true = .ok r ∧
      ∀ k, AMap.get r.2 k = if k = n ∧ n ≠ "" ∧ m.get k = none then some (.pts e) else m.get k := by
  unfold getOrCreatePointLayer
  by_cases h0 : n = ""
  · simp [h0]
  · rw [if_neg h0]
    cases hg : m.get n with
    | none =>
      refine ⟨_, rfl, fun k => ?_⟩
      by_cases hk : k = n
      · subst hk; simp [hg, h0]
      · simp [hk]
    | some l =>
      cases l with
      | other x => exact absurd hg (h h0 x)
      | pts c =>
        refine ⟨_, rfl, fun k => ?_⟩
        rw [if_neg]
        rintro ⟨rfl, -, h'⟩; rw [hg] at h'; cases h'

theorem openOutputs_ok (e : Cloud K) (outs : List String) (m : FMap K X) (h : Openable outs m) :
    ∃ m1, openOutputs e outs m = .ok m1 ∧
      ∀ k, AMap.get m1 k = if k ∈ outs ∧ k ≠ "" ∧ m.get k = none then some (.pts e) else m.get k := by
  induction outs generalizing m with
  | nil => exact ⟨m, rfl, by simp⟩
  | cons n outs ih =>
    obtain ⟨r, hr, hk⟩ := getOrCreate_ok e m n (h n (List.mem_cons_self ..))
    obtain ⟨m1, hm1, hk1⟩ := ih r.2 (by
      intro k hko hk0 x hx
      rw [hk] at hx
      split at hx
      · cases hx
      · exact h k (List.mem_cons_of_mem _ hko) hk0 x hx)
    refine ⟨m1, by simp [openOutputs, hr, hm1], fun k => ?_⟩
    rw [hk1, hk]
    by_cases h1 : k = n
    · subst h1
      by_cases h2 : k = "" <;> by_cases h3 : m.get k = none <;> simp [h2, h3]
      all_goals simp_all
    · by_cases h2 : k ∈ outs <;> simp [h1, h2]

theorem openOutputs_not (e : Cloud K) (outs : List String) (m : FMap K X) (h : ¬ Openable outs m) :
    openOutputs e outs m = .throw := by
  induction outs generalizing m with
  | nil => exact absurd (by intro n hn; cases hn) h
  | cons n outs ih =>
    by_cases h1 : n ≠ "" → ∀ x, m.get n ≠ some (.other x)
    · obtain ⟨r, hr, hk⟩ := getOrCreate_ok e m n h1
      have : ¬ Openable outs r.2 := by
        intro h2
        apply h
        intro k hko hk0 x hx
        rcases List.mem_cons.1 hko with rfl | hko
        · exact h1 hk0 x hx
        · apply h2 k hko hk0 x
          rw [hk, if_neg (by simp [hx])]; exact hx
      simp [openOutputs, hr, ih r.2 this]
    · simp only [ne_eq, not_forall, not_not] at h1
      obtain ⟨h0, x, hx⟩ := h1
      simp [openOutputs, getOrCreatePointLayer, h0, hx]

/-- appended points of one layer are a suffix -/
theorem insertInto_prefix (m : FMap K X) (n : String) (p : FPt K) (inp : String) (c : Cloud K)
    (h : m.get inp = some (.pts c)) :
    ∃ l, AMap.get (insertInto m n p) inp = some (.pts { c with pts := c.pts ++ l }) := by
  rw [get_insertInto, h]
  split
  · exact ⟨_, rfl⟩
  · exact ⟨[], by simp⟩

theorem partSnap_eq (inp : String) (target : FPt K → String) (k i : Nat) (m : FMap K X) (ps : List (FPt K))
    (c : Cloud K) (l : List (FPt K)) (hm : m.get inp = some (.pts { c with pts := ps ++ l })) (hk : i + k = ps.length) :
    partSnap inp target k i m = .ok ((ps.drop i).foldl (fun m p => insertInto m (target p) p) m) := by
  induction k generalizing i m l with
  | zero => simp [partSnap, List.drop_eq_nil_of_le (by omega : ps.length ≤ i)]
  | succ k ih =>
    have hi : i < ps.length := by omega
    have hp : pointAt m inp i = .ok ps[i] := by
      simp [pointAt, hm, List.getElem?_append_left hi, List.getElem?_eq_getElem hi]
    obtain ⟨l', hl'⟩ := insertInto_prefix m (target ps[i]) ps[i] inp _ hm
    simp only [List.append_assoc] at hl'
    rw [partSnap, hp]
    simp only [Outcome.bind]
    rw [ih (i + 1) _ (l ++ l') hl' (by omega), List.drop_eq_getElem_cons hi, List.foldl_cons]

theorem partLive_eq (inp : String) (target : FPt K → String) (fuel i : Nat) (m : FMap K X) (c : Cloud K)
    (hm : m.get inp = some (.pts c)) (ht : ∀ p ∈ c.pts, target p ≠ inp ∨ target p = "") (hf : c.pts.length < fuel + i)
    (hi : i ≤ c.pts.length) :
    partLive inp target fuel i m = some (.ok ((c.pts.drop i).foldl (fun m p => insertInto m (target p) p) m)) := by
  induction fuel generalizing i m with
  | zero => omega
  | succ fuel ih =>
    by_cases hl : i < c.pts.length
    · have hp : pointAt m inp i = .ok c.pts[i] := by
        simp [pointAt, hm, List.getElem?_eq_getElem hl]
      have hm' : AMap.get (insertInto m (target c.pts[i]) c.pts[i]) inp = some (.pts c) := by
        rw [get_insertInto, if_neg, hm]
        rintro ⟨h1, h2⟩
        rcases ht _ (List.getElem_mem hl) with h | h
        · exact h h1.symm
        · exact h2 h
      have hs : i < sizeNow m inp := by simpa [sizeNow, hm] using hl
      rw [partLive, if_pos hs, hp]
      simp only []
      rw [ih (i + 1) _ hm' (by omega) (by omega), List.drop_eq_getElem_cons hl, List.foldl_cons]
    · have hs : ¬ i < sizeNow m inp := by simpa [sizeNow, hm] using hl
      rw [partLive, if_neg hs, List.drop_eq_nil_of_le (by omega)]; rfl

theorem partLive_none (inp : String) (hinp : inp ≠ "") (target : FPt K → String)
    (hc : ∀ (c : Cloud K) p, target (conform c p) = target p) (fuel i j : Nat) (m : FMap K X) (c : Cloud K)
    (hm : m.get inp = some (.pts c)) (hij : i ≤ j) (hj : j < c.pts.length) (ht : target c.pts[j] = inp) :
    partLive inp target fuel i m = none := by
  induction fuel generalizing i j m c with
  | zero => rfl
  | succ fuel ih =>
    have hl : i < c.pts.length := by omega
    have hp : pointAt m inp i = .ok c.pts[i] := by
      simp [pointAt, hm, List.getElem?_eq_getElem hl]
    have hs : i < sizeNow m inp := by simpa [sizeNow, hm] using hl
    rw [partLive, if_pos hs, hp]
    simp only []
    by_cases h : i = j
    · subst h
      have hm' : AMap.get (insertInto m (target c.pts[i]) c.pts[i]) inp =
          some (.pts { c with pts := c.pts ++ [conform c c.pts[i]] }) := by
        rw [get_insertInto, ht, if_pos ⟨rfl, hinp⟩, hm]; rfl
      refine ih (i + 1) c.pts.length _ _ hm' (by omega) (by simp) ?_
      simp [hc, ht]
    · obtain ⟨l, hl'⟩ := insertInto_prefix m (target c.pts[i]) c.pts[i] inp _ hm
      refine ih (i + 1) j _ _ hl' (by omega) (by simp; omega) ?_
      simp only [List.getElem_append_left hj]
      exact ht

/-- opening the outputs does not change the input -/
theorem open_input (e : Cloud K) (outs : List String) (m m1 : FMap K X) (inp : String) (c : Cloud K)
    (hm : m.get inp = some (.pts c))
    (h : ∀ k, AMap.get m1 k = if k ∈ outs ∧ k ≠ "" ∧ m.get k = none then some (.pts e) else m.get k) :
    m1.get inp = some (.pts c) := by
  rw [h, if_neg (by simp [hm]), hm]

theorem partitioned_of (c : Cloud K) (outs : List String) (target : FPt K → String) (m m1 : FMap K X)
    (ho : Openable outs m) (ht : ∀ p ∈ c.pts, target p ∈ outs)
    (h : ∀ k, AMap.get m1 k = if k ∈ outs ∧ k ≠ "" ∧ m.get k = none then some (.pts (emptyLike c)) else m.get k) :
    Partitioned c outs target m (c.pts.foldl (fun m p => insertInto m (target p) p) m1) := by
  intro n
  rw [get_foldl_insertInto]
  by_cases hn : n ∈ outs ∧ n ≠ ""
  · rw [if_pos hn, if_neg hn.2, h]
    cases hg : m.get n with
    | none =>
      refine ⟨{ c with pts := [] }, Or.inr ⟨rfl, rfl⟩, ?_⟩
      rw [if_pos ⟨hn.1, hn.2, rfl⟩]; rfl
    | some l =>
      cases l with
      | other x => exact absurd hg (ho n hn.1 hn.2 x)
      | pts c0 =>
        refine ⟨c0, Or.inl rfl, ?_⟩
        rw [if_neg (by simp)]; rfl
  · rw [if_neg hn]
    have h1 : m1.get n = m.get n := by rw [h, if_neg (fun hh => hn ⟨hh.1, hh.2.1⟩)]
    by_cases h0 : n = ""
    · rw [if_pos h0, h1]
    · rw [if_neg h0, h1]
      have : (c.pts.filter fun p => target p = n) = [] := by
        rw [List.filter_eq_nil_iff]
        intro p hp hq
        simp only [decide_eq_true_eq] at hq
        exact hn ⟨hq ▸ ht p hp, h0⟩
      rw [this, addPts_nil]

end Flt
end Verif
