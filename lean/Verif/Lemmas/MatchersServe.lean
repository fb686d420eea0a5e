import Verif.Spec.MatchExact
import Verif.Lemmas.MatchersFrame
/-
First come, first served: how wished pairings are granted and flags set.
-/
namespace Verif.Lemmas
open Verif Verif.Spec
variable {K : Type}

theorem firstCome_append (t : Nat → Prop) (ps qs : List (PtPair K)) :
    firstCome t (ps ++ qs) =
      firstCome t ps ++ firstCome (fun i => t i ∨ ∃ p ∈ firstCome t ps, p.globalIdx = i) qs := by
  induction ps generalizing t with
  | nil => simp [firstCome]
  | cons p ps ih =>
    simp only [List.cons_append, firstCome]
    by_cases h : t p.globalIdx
    · rw [if_pos h, if_pos h, ih]
    · rw [if_neg h, if_neg h, ih, List.cons_append]
      congr 3
      funext i
      simp only [List.mem_cons, exists_eq_or_imp, or_assoc, eq_comm (a := i)]

/-- The pairings `ps` were wished one after the other from state `s`, leading to `s'`. -/
structure Serve (allowG mark : Bool) (gName lName : String) (s : MatchState K × Pairings K) (ps : List (PtPair K))
    (s' : MatchState K × Pairings K) : Prop where
  out : s'.2 = { s.2 with pt2pt := s.2.pt2pt ++ Granted allowG (Flagged s.1.globalFlags gName) ps }
  gf : FlagsGained s.1.globalFlags s'.1.globalFlags gName fun i =>
    mark = true ∧ ∃ p ∈ Granted allowG (Flagged s.1.globalFlags gName) ps, p.globalIdx = i
  lf : FlagsGained s.1.localFlags s'.1.localFlags lName fun i =>
    mark = true ∧ ∃ p ∈ Granted allowG (Flagged s.1.globalFlags gName) ps, p.localIdx = i

theorem granted_nil (a : Bool) (t : Nat → Prop) : Granted (K := K) a t [] = [] := by
  unfold Granted; split <;> rfl

theorem Serve.refl {a m : Bool} {gName lName : String} (s : MatchState K × Pairings K) : Serve a m gName lName s [] s := by
  refine ⟨by simp [granted_nil], ?_, ?_⟩ <;> intro l i <;> simp [granted_nil]

theorem flags_regroup {A L M P Q : Prop} : ((A ∨ L ∧ M ∧ P) ∨ L ∧ M ∧ Q) ↔ A ∨ L ∧ M ∧ (P ∨ Q) := by tauto

theorem Serve.append {a m : Bool} (hm : a = false → m = true) {gName lName : String} {s s' s'' : MatchState K × Pairings K}
    {ps qs : List (PtPair K)} (h1 : Serve a m gName lName s ps s') (h2 : Serve a m gName lName s' qs s'') :
    Serve a m gName lName s (ps ++ qs) s'' := by
  have hg : Granted a (Flagged s.1.globalFlags gName) (ps ++ qs) =
      Granted a (Flagged s.1.globalFlags gName) ps ++ Granted a (Flagged s'.1.globalFlags gName) qs := by
    unfold Granted
    by_cases ha : a = true
    · simp [ha]
    · have hmt := hm (by simpa using ha)
      rw [if_neg ha, if_neg ha, if_neg ha, firstCome_append]
      congr 2
      funext i
      apply propext
      rw [h1.gf gName i]
      simp [hmt, Granted, ha]
  refine ⟨?_, ?_, ?_⟩
  · rw [h2.out, h1.out, hg]; simp
  · intro l i
    rw [h2.gf l i, h1.gf l i, hg]
    simp only [List.mem_append, or_and_right, exists_or]
    exact flags_regroup
  · intro l i
    rw [h2.lf l i, h1.lf l i, hg]
    simp only [List.mem_append, or_and_right, exists_or]
    exact flags_regroup

theorem flagsGained_mark {f f' : AMap String BitField} {l : String} {i : Nat} (h : flagMark f l i = .ok f') :
    FlagsGained f f' l fun j => j = i := by
  intro l' j
  constructor
  · exact flagMark_inv h
  · rintro (hf | ⟨rfl, rfl⟩)
    · exact flagMark_mono h hf
    · exact flagMark_self h

/-- One wished pairing, with marks. -/
theorem serve_marked {a : Bool} {gName lName : String} {s : MatchState K × Pairings K} {p : PtPair K}
    (hf : a = true ∨ ¬ Flagged s.1.globalFlags gName p.globalIdx) {m1 m2 : MatchState K}
    (h1 : markLocal (pushPt s.1 s.2 gName lName p).1 lName p.localIdx = .ok m1)
    (h2 : markGlobal m1 gName p.globalIdx = .ok m2) :
    Serve a true gName lName s [p] (m2, (pushPt s.1 s.2 gName lName p).2) := by
  have hg : Granted a (Flagged s.1.globalFlags gName) [p] = [p] := by
    unfold Granted
    rcases hf with hf | hf
    · simp [hf]
    · simp [firstCome, hf]
  obtain ⟨a1, a2, _⟩ := markLocal_ok h1
  obtain ⟨b1, b2, _⟩ := markGlobal_ok h2
  refine ⟨by rw [hg]; rfl, ?_, ?_⟩
  · rw [hg]
    intro l i
    rw [a2] at b1
    rw [flagsGained_mark b1 l i]
    simp [pushPt, eq_comm]
  · rw [hg]
    intro l i
    show Flagged m2.localFlags l i ↔ _
    rw [b2, flagsGained_mark a1 l i]
    simp [pushPt, eq_comm]

/-- One wished pairing whose global point is taken. -/
theorem serve_taken {a m : Bool} {gName lName : String} {s : MatchState K × Pairings K} {p : PtPair K}
    (ha : a = false) (hf : Flagged s.1.globalFlags gName p.globalIdx) : Serve a m gName lName s [p] s := by
  have hg : Granted a (Flagged s.1.globalFlags gName) [p] = [] := by simp [Granted, ha, firstCome, hf]
  refine ⟨by rw [hg]; simp, ?_, ?_⟩ <;> rw [hg] <;> intro l i <;> simp

theorem skipGlobal_cases {c : PtsCfg K} {ms : MatchState K} {gName : String} {i : Nat} {b : Bool}
    (h : skipGlobal c ms gName i = .ok b) :
    (b = true → c.allowGlobal = false ∧ Flagged ms.globalFlags gName i) ∧
    (b = false → c.allowGlobal = true ∨ ¬ Flagged ms.globalFlags gName i) := by
  unfold skipGlobal at h
  split at h
  · rename_i hg
    simp only [Outcome.ok.injEq] at h; subst h
    exact ⟨fun h => (Bool.noConfusion h), fun _ => Or.inl hg⟩
  · rename_i hg
    refine ⟨?_, ?_⟩
    · rintro rfl
      exact ⟨by simpa using hg, h⟩
    · rintro rfl
      right; unfold Flagged; rw [h]; simp

variable [LT K] [DecidableLT K] [LE K] [DecidableLE K] [Zero K] [Add K] [Mul K] [One K] [NatCast K]

theorem irKeepStep_serve {c : IRCfg K} {gName lName : String} {s s' : MatchState K × Pairings K} {p : PtPair K}
    (h : irKeepStep c gName lName s p = .ok s') : Serve c.allowGlobal true gName lName s [p] s' := by
  unfold irKeepStep at h
  simp only [Outcome.bind_eq_ok] at h
  obtain ⟨sk, hsk, h⟩ := h
  obtain ⟨k1, k2⟩ := skipGlobal_cases hsk
  split at h
  · rename_i hs
    simp only [Outcome.ok.injEq] at h; subst h
    exact serve_taken (k1 hs).1 (k1 hs).2
  · rename_i hs
    simp only [Outcome.bind_eq_ok, Outcome.ok.injEq] at h
    obtain ⟨m1, h1, m2, h2, rfl⟩ := h
    exact serve_marked (k2 (by simpa using hs)) h1 h2

theorem irKeepFold_serve {c : IRCfg K} {gName lName : String} (ps : List (PtPair K))
    {s s' : MatchState K × Pairings K} (h : foldOutcome (irKeepStep c gName lName) s ps = .ok s') :
    Serve c.allowGlobal true gName lName s ps s' := by
  induction ps generalizing s with
  | nil =>
    simp only [foldOutcome, Outcome.ok.injEq] at h; subst h
    exact Serve.refl _
  | cons p ps ih =>
    simp only [foldOutcome, Outcome.bind_eq_ok] at h
    obtain ⟨a, ha, hb⟩ := h
    exact Serve.append (by simp) (irKeepStep_serve ha) (ih hb)

end Verif.Lemmas
