import Mathlib.Data.List.Basic
import Mathlib.Data.List.Nodup
import Mathlib.Tactic.Ring
import Verif.Lemmas.FilterBasic
import Verif.Spec.Deskew
set_option linter.unusedSectionVars false
namespace Verif
namespace Flt
variable {K X Q : Type} [Field K] [LinearOrder K]

/-- the slots of the new points when the iterations `D` have run -/
def slots (n : Nat) (res : Nat → FPt K) (D : List Nat) : List (FPt K) :=
  (List.range n).map fun i => if i ∈ D then res i else blankPt

theorem slots_nil (n : Nat) (res : Nat → FPt K) : slots n res [] = List.replicate n blankPt := by
  apply List.ext_getElem
  · simp [slots]
  · intro i h1 h2; simp [slots]

theorem slots_set (n : Nat) (res : Nat → FPt K) (D : List Nat) (i : Nat) :
    (slots n res D).set i (res i) = slots n res (i :: D) := by
  apply List.ext_getElem
  · simp [slots]
  · intro j h1 h2
    simp only [slots, List.getElem_set, List.getElem_map, List.getElem_range, List.mem_cons]
    by_cases h : i = j
    · subst h; simp
    · simp [h, Ne.symm h]

theorem slots_mem (n : Nat) (res : Nat → FPt K) (D : List Nat) (i : Nat) (hi : res i = blankPt) :
    slots n res (i :: D) = slots n res D := by
  apply List.ext_getElem
  · simp [slots]
  · intro j h1 h2
    simp only [slots, List.getElem_map, List.getElem_range, List.mem_cons]
    by_cases h : j = i
    · subst h; simp [hi]
    · simp [h]

/-- a cloud with more points -/
abbrev more (c : Cloud K) (l : List (FPt K)) : Cloud K := { c with pts := c.pts ++ l }

/-- what the loop writes for point `p` -/
def deskewRes (e : RotEnv K Q) (vw : P3 K × P3 K) (poses : Option (AMap K Q)) (c c0 : Cloud K) (p : FPt K) : FPt K :=
  if p.x = 0 ∧ p.y = 0 ∧ p.z = 0 then blankPt else deskewWrite e vw poses c c0 p blankPt

theorem deskewLoop_eq (e : RotEnv K Q) (vw : P3 K × P3 K) (poses : Option (AMap K Q)) (inp out : String) (c c0 : Cloud K)
    (hio : inp = out → c0 = c) (order : List Nat) (D : List Nat) (m : FMap K X)
    (hnd : (order ++ D).Nodup) (hlt : ∀ i ∈ order, i < c.pts.length)
    (hin : inp ≠ out → m.get inp = some (.pts c))
    (hout : m.get out = some (.pts (more c0 (slots c.pts.length (fun i => (c.pts[i]?.map (deskewRes e vw poses c c0)).getD blankPt) D)))) :
    ∃ m', deskewLoop e vw poses inp out c0.pts.length order m = .ok m' ∧
      m'.get out = some (.pts (more c0 (slots c.pts.length (fun i => (c.pts[i]?.map (deskewRes e vw poses c c0)).getD blankPt) (order.reverse ++ D)))) ∧
      ∀ n, n ≠ out → m'.get n = m.get n := by
  induction order generalizing D m with
  | nil => exact ⟨m, rfl, hout, fun _ _ => rfl⟩
  | cons i order ih =>
    set res := fun i : Nat => (c.pts[i]?.map (deskewRes e vw poses c c0)).getD blankPt with hres
    have hi : i < c.pts.length := hlt i (by simp)
    have hiD : i ∉ D := by
      have := (List.nodup_append.1 hnd).2.2
      intro h; exact this i (by simp) i h rfl
    -- the input as it is read now
    obtain ⟨cin, hcin, hcp, hcI, hcR, hcT⟩ : ∃ cin : Cloud K, m.get inp = some (.pts cin) ∧ cin.pts[i]? = some c.pts[i] ∧
        cin.hasI = c.hasI ∧ cin.hasRing = c.hasRing ∧ cin.hasT = c.hasT := by
      by_cases h : inp = out
      · have h0 := hio h
        subst h; subst h0
        exact ⟨_, hout, by simp [List.getElem?_append_left hi], rfl, rfl, rfl⟩
      · exact ⟨c, hin h, List.getElem?_eq_getElem hi, rfl, rfl, rfl⟩
    have hold : (c0.pts ++ slots c.pts.length res D)[c0.pts.length + i]? = some blankPt := by
      rw [List.getElem?_append_right (by omega), Nat.add_sub_cancel_left]
      simp [slots, hi, hiD]
    have hresi : res i = deskewRes e vw poses c c0 c.pts[i] := by simp [hres, hi]
    have hnd' : (order ++ (i :: D)).Nodup := by
      have : (order ++ (i :: D)).Perm (i :: order ++ D) := by
        simpa using List.perm_middle
      exact this.nodup_iff.2 hnd
    -- the step
    obtain ⟨m1, hm1, hg, hrest⟩ : ∃ m1, deskewStep e vw poses inp out c0.pts.length m i = .ok m1 ∧
        m1.get out = some (.pts (more c0 (slots c.pts.length res (i :: D)))) ∧
        ∀ n, n ≠ out → m1.get n = m.get n := by
      unfold deskewStep
      simp only [hcin, hout, hcp, hold]
      by_cases hz : (c.pts[i]).x = 0 ∧ (c.pts[i]).y = 0 ∧ (c.pts[i]).z = 0
      · rw [if_pos hz]
        refine ⟨m, rfl, ?_, fun _ _ => rfl⟩
        rw [slots_mem _ _ _ _ (by rw [hresi]; unfold deskewRes; rw [if_pos hz])]
        exact hout
      · rw [if_neg hz]
        refine ⟨_, rfl, ?_, fun n hn => by simp [hn]⟩
        rw [AMap.get_set, if_pos rfl]
        have hw : deskewWrite e vw poses cin (more c0 (slots c.pts.length res D)) c.pts[i] blankPt = res i := by
          rw [hresi]; unfold deskewRes; rw [if_neg hz]
          simp only [deskewWrite, hcI, hcR, hcT]
        rw [hw, List.set_append_right _ _ (by omega), Nat.add_sub_cancel_left, slots_set]
    obtain ⟨m2, hm2, hg2, hr2⟩ := ih (i :: D) m1 hnd' (fun j hj => hlt j (by simp [hj]))
      (fun h => by rw [hrest inp h]; exact hin h) hg
    refine ⟨m2, ?_, ?_, fun n hn => by rw [hr2 n hn, hrest n hn]⟩
    · have hm2' := hm2
      unfold deskewLoop at hm2' ⊢
      simp only [foldOutcome, hm1, Outcome.bind, hm2']
    · rw [hg2]; simp

theorem slots_full (c : Cloud K) (f : FPt K → FPt K) (order : List Nat) (h : order.Perm (List.range c.pts.length)) :
    slots c.pts.length (fun i => (c.pts[i]?.map f).getD blankPt) (order.reverse ++ []) = c.pts.map f := by
  apply List.ext_getElem
  · simp [slots]
  · intro i h1 h2
    have hi : i < c.pts.length := by simpa using h2
    have hmem : i ∈ order := h.mem_iff.2 (by simpa using hi)
    simp [slots, hi, hmem]

end Flt
end Verif
