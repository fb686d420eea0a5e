import Verif.Model.LogFile
import Verif.Spec.LogFile
import Mathlib.Data.List.Nodup
import Mathlib.Data.List.Range
import Mathlib.Data.Nat.Digits.Defs
namespace Verif.Lemmas
open Verif Verif.Spec

theorem selected_iff (d v : Nat) : logSelected d v = true ↔ Selected d v := by
  unfold logSelected Selected
  simp only [Bool.not_eq_true', Bool.and_eq_false_iff, decide_eq_false_iff_not, Nat.dvd_iff_mod_eq_zero]
  constructor
  · rintro (h | h)
    · left; omega
    · right; omega
  · rintro (h | h)
    · left; omega
    · right; omega

section
variable {Tid : Type} [DecidableEq Tid]

/-- the id a thread has just taken and whose file has still to be dealt with -/
structure LogInv (s : LogState Tid) : Prop where
  crit : ∀ t, (∃ d, s.pc t = .locked d) ∨ (∃ d v, s.pc t = .loaded d v) ∨ (∃ d v, s.pc t = .stored d v) →
    s.owner = some t
  counter : s.counter = u32 s.issued.length
  loaded : ∀ t d v, s.pc t = .loaded d v → v = s.counter
  ids : s.issued.map (fun e => e.2.1) = (List.range s.issued.length).map u32

theorem logInv_step {s s' : LogState Tid} (h : LogInv s) (st : LogStep s s') : LogInv s' := by
  obtain ⟨hc, hn, hl, hi⟩ := h
  have own : ∀ t u, s.owner = some t → s.owner = some u → u = t := by
    intro t u h1 h2; rw [h1] at h2; cases h2; rfl
  cases st with
  | call t d h =>
    refine ⟨?_, hn, ?_, hi⟩
    · intro u hu
      by_cases hut : u = t
      · subst hut; simp [setPC] at hu
      · simp [setPC, hut] at hu; exact hc u hu
    · intro u d v hu
      by_cases hut : u = t
      · subst hut; simp [setPC] at hu
      · simp [setPC, hut] at hu; exact hl u d v hu
  | lock t d h ho =>
    refine ⟨?_, hn, ?_, hi⟩
    · intro u hu
      by_cases hut : u = t
      · subst hut; rfl
      · simp [setPC, hut] at hu
        have := hc u hu
        rw [ho] at this; cases this
    · intro u d v hu
      by_cases hut : u = t
      · subst hut; simp [setPC] at hu
      · simp [setPC, hut] at hu; exact hl u d v hu
  | load t d h =>
    have hot := hc t (Or.inl ⟨d, h⟩)
    refine ⟨?_, hn, ?_, hi⟩
    · intro u hu
      by_cases hut : u = t
      · subst hut; exact hot
      · simp [setPC, hut] at hu; exact hc u hu
    · intro u d v hu
      by_cases hut : u = t
      · subst hut; simp [setPC] at hu; exact hu.2.symm
      · simp [setPC, hut] at hu; exact hl u d v hu
  | store t d v h =>
    have hot := hc t (Or.inr (Or.inl ⟨d, v, h⟩))
    have hv := hl t d v h
    refine ⟨?_, ?_, ?_, ?_⟩
    · intro u hu
      by_cases hut : u = t
      · subst hut; exact hot
      · simp [setPC, hut] at hu; exact hc u hu
    · simp only [List.length_append, List.length_cons, List.length_nil]
      rw [hv, hn]; unfold u32; omega
    · intro u d' v' hu
      by_cases hut : u = t
      · subst hut; simp [setPC] at hu
      · simp [setPC, hut] at hu
        exact absurd (own t u hot (hc u (Or.inr (Or.inl ⟨d', v', hu⟩)))) hut
    · simp only [List.map_append, List.length_append, List.length_cons, List.length_nil]
      rw [hi, List.range_succ, List.map_append, hv, hn]; rfl
  | skip t d v h hd =>
    have hot := hc t (Or.inr (Or.inr ⟨d, v, h⟩))
    refine ⟨?_, hn, ?_, hi⟩
    · intro u hu
      by_cases hut : u = t
      · subst hut; simp [setPC] at hu
      · simp [setPC, hut] at hu
        exact absurd (own t u hot (hc u hu)) hut
    · intro u d v hu
      by_cases hut : u = t
      · subst hut; simp [setPC] at hu
      · simp [setPC, hut] at hu; exact hl u d v hu
  | keep t d v h hd =>
    have hot := hc t (Or.inr (Or.inr ⟨d, v, h⟩))
    refine ⟨?_, hn, ?_, hi⟩
    · intro u hu
      by_cases hut : u = t
      · subst hut; simp [setPC] at hu
      · simp [setPC, hut] at hu
        exact absurd (own t u hot (hc u hu)) hut
    · intro u d v hu
      by_cases hut : u = t
      · subst hut; simp [setPC] at hu
      · simp [setPC, hut] at hu; exact hl u d v hu
  | write t v h =>
    refine ⟨?_, hn, ?_, hi⟩
    · intro u hu
      by_cases hut : u = t
      · subst hut; simp [setPC] at hu
      · simp [setPC, hut] at hu; exact hc u hu
    · intro u d v hu
      by_cases hut : u = t
      · subst hut; simp [setPC] at hu
      · simp [setPC, hut] at hu; exact hl u d v hu

theorem logInv_reach {s : LogState Tid} (h : LogReach s) : LogInv s := by
  induction h with
  | init =>
    refine ⟨?_, rfl, ?_, rfl⟩
    · intro t ht; simp [LogState.init] at ht
    · intro t d v ht; simp [LogState.init] at ht
  | step _ st ih => exact logInv_step ih st

theorem ids_nodup {s : LogState Tid} (h : LogReach s) (hn : s.issued.length ≤ 4294967296) :
    (s.issued.map (fun e => e.2.1)) = List.range s.issued.length := by
  rw [(logInv_reach h).ids]
  conv_rhs => rw [← List.map_id (List.range s.issued.length)]
  apply List.map_congr_left
  intro a ha
  simp at ha
  simp [u32]; omega

/-- file bookkeeping -/
structure FileInv (s : LogState Tid) : Prop where
  stored : ∀ t d v, s.pc t = .stored d v → (t, v, d) ∈ s.issued ∧ v ∉ s.files
  writing : ∀ t v, s.pc t = .writing v → (∃ d, (t, v, d) ∈ s.issued ∧ Selected d v) ∧ v ∉ s.files
  sound : ∀ v ∈ s.files, ∃ t d, (t, v, d) ∈ s.issued ∧ Selected d v
  nodup : s.files.Nodup
  complete : ∀ t v d, (t, v, d) ∈ s.issued → Selected d v →
    v ∈ s.files ∨ (∃ u, s.pc u = .writing v) ∨ (∃ u d', s.pc u = .stored d' v)
  once : ∀ t u v, (s.pc t = .writing v ∨ ∃ d, s.pc t = .stored d v) →
    (s.pc u = .writing v ∨ ∃ d, s.pc u = .stored d v) → t = u

theorem issued_unique {s : LogState Tid} (h : LogReach s) (hn : s.issued.length ≤ 4294967296)
    {t t' : Tid} {v d d' : Nat} (h1 : (t, v, d) ∈ s.issued) (h2 : (t', v, d') ∈ s.issued) :
    t = t' ∧ d = d' := by
  have hnd : (s.issued.map (fun e => e.2.1)).Nodup := by rw [ids_nodup h hn]; exact List.nodup_range
  have := List.inj_on_of_nodup_map hnd h1 h2 rfl
  cases this; exact ⟨rfl, rfl⟩

theorem step_length {s s' : LogState Tid} (st : LogStep s s') : s.issued.length ≤ s'.issued.length := by
  cases st <;> simp

theorem fileInv_step {s s' : LogState Tid} (hr : LogReach s) (st : LogStep s s')
    (hn : s'.issued.length ≤ 4294967296) (h : FileInv s) : FileInv s' := by
  have hn' : s.issued.length ≤ 4294967296 := le_trans (step_length st) hn
  obtain ⟨hs, hw, hso, hnd, hcp, hon⟩ := h
  have hI := logInv_reach hr
  cases st with
  | call t d h =>
    refine ⟨?_, ?_, hso, hnd, ?_, ?_⟩
    · intro u d v hu
      by_cases hut : u = t
      · subst hut; simp [setPC] at hu
      · simp [setPC, hut] at hu; exact hs u d v hu
    · intro u v hu
      by_cases hut : u = t
      · subst hut; simp [setPC] at hu
      · simp [setPC, hut] at hu; exact hw u v hu
    · intro t' v' d' hm hsel
      rcases hcp t' v' d' hm hsel with h1 | ⟨u, h1⟩ | ⟨u, d2, h1⟩
      · exact Or.inl h1
      · have : u ≠ t := by rintro rfl; rw [h] at h1; cases h1
        exact Or.inr (Or.inl ⟨u, by simp [setPC, this, h1]⟩)
      · have : u ≠ t := by rintro rfl; rw [h] at h1; cases h1
        exact Or.inr (Or.inr ⟨u, d2, by simp [setPC, this, h1]⟩)
    · intro a b v ha hb
      by_cases hat : a = t
      · subst hat; simp [setPC] at ha
      · by_cases hbt : b = t
        · subst hbt; simp [setPC] at hb
        · simp [setPC, hat] at ha; simp [setPC, hbt] at hb; exact hon a b v ha hb
  | lock t d h ho =>
    refine ⟨?_, ?_, hso, hnd, ?_, ?_⟩
    · intro u d v hu
      by_cases hut : u = t
      · subst hut; simp [setPC] at hu
      · simp [setPC, hut] at hu; exact hs u d v hu
    · intro u v hu
      by_cases hut : u = t
      · subst hut; simp [setPC] at hu
      · simp [setPC, hut] at hu; exact hw u v hu
    · intro t' v' d' hm hsel
      rcases hcp t' v' d' hm hsel with h1 | ⟨u, h1⟩ | ⟨u, d2, h1⟩
      · exact Or.inl h1
      · have : u ≠ t := by rintro rfl; rw [h] at h1; cases h1
        exact Or.inr (Or.inl ⟨u, by simp [setPC, this, h1]⟩)
      · have : u ≠ t := by rintro rfl; rw [h] at h1; cases h1
        exact Or.inr (Or.inr ⟨u, d2, by simp [setPC, this, h1]⟩)
    · intro a b v ha hb
      by_cases hat : a = t
      · subst hat; simp [setPC] at ha
      · by_cases hbt : b = t
        · subst hbt; simp [setPC] at hb
        · simp [setPC, hat] at ha; simp [setPC, hbt] at hb; exact hon a b v ha hb
  | load t d h =>
    refine ⟨?_, ?_, hso, hnd, ?_, ?_⟩
    · intro u d v hu
      by_cases hut : u = t
      · subst hut; simp [setPC] at hu
      · simp [setPC, hut] at hu; exact hs u d v hu
    · intro u v hu
      by_cases hut : u = t
      · subst hut; simp [setPC] at hu
      · simp [setPC, hut] at hu; exact hw u v hu
    · intro t' v' d' hm hsel
      rcases hcp t' v' d' hm hsel with h1 | ⟨u, h1⟩ | ⟨u, d2, h1⟩
      · exact Or.inl h1
      · have : u ≠ t := by rintro rfl; rw [h] at h1; cases h1
        exact Or.inr (Or.inl ⟨u, by simp [setPC, this, h1]⟩)
      · have : u ≠ t := by rintro rfl; rw [h] at h1; cases h1
        exact Or.inr (Or.inr ⟨u, d2, by simp [setPC, this, h1]⟩)
    · intro a b v ha hb
      by_cases hat : a = t
      · subst hat; simp [setPC] at ha
      · by_cases hbt : b = t
        · subst hbt; simp [setPC] at hb
        · simp [setPC, hat] at ha; simp [setPC, hbt] at hb; exact hon a b v ha hb
  | store t d v h =>
    have hnew : ∀ t' d', (t', v, d') ∉ s.issued := by
      intro t' d' hm
      have h1 := ids_nodup (LogReach.step hr (LogStep.store s t d v h)) hn
      simp only [List.map_append, List.map_cons, List.map_nil] at h1
      have h2 : (s.issued.map (fun e => e.2.1) ++ [v]).Nodup := by rw [h1]; exact List.nodup_range
      rw [List.nodup_append] at h2
      exact h2.2.2 v (List.mem_map.mpr ⟨_, hm, rfl⟩) v (by simp) rfl
    have hnf : v ∉ s.files := fun hm => by
      obtain ⟨t', d', hm', -⟩ := hso v hm
      exact hnew _ _ hm'
    refine ⟨?_, ?_, ?_, hnd, ?_, ?_⟩
    · intro u d' v' hu
      by_cases hut : u = t
      · subst hut; simp [setPC] at hu; obtain ⟨rfl, rfl⟩ := hu; exact ⟨by simp, hnf⟩
      · simp [setPC, hut] at hu
        exact ⟨by simp [(hs u d' v' hu).1], (hs u d' v' hu).2⟩
    · intro u v' hu
      by_cases hut : u = t
      · subst hut; simp [setPC] at hu
      · simp [setPC, hut] at hu
        obtain ⟨⟨d', hm, hsel⟩, hf⟩ := hw u v' hu
        exact ⟨⟨d', by simp [hm], hsel⟩, hf⟩
    · intro v' hv'
      obtain ⟨t', d', hm, hsel⟩ := hso v' hv'
      exact ⟨t', d', by simp [hm], hsel⟩
    · intro t' v' d' hm hsel
      simp only [List.mem_append, List.mem_singleton, Prod.mk.injEq] at hm
      rcases hm with hm | ⟨rfl, rfl, rfl⟩
      · rcases hcp t' v' d' hm hsel with h1 | ⟨u, h1⟩ | ⟨u, d2, h1⟩
        · exact Or.inl h1
        · have : u ≠ t := by rintro rfl; rw [h] at h1; cases h1
          exact Or.inr (Or.inl ⟨u, by simp [setPC, this, h1]⟩)
        · have : u ≠ t := by rintro rfl; rw [h] at h1; cases h1
          exact Or.inr (Or.inr ⟨u, d2, by simp [setPC, this, h1]⟩)
      · exact Or.inr (Or.inr ⟨t', d', by simp [setPC]⟩)
    · have hno : ∀ u v', u ≠ t → (s.pc u = .writing v' ∨ ∃ d, s.pc u = .stored d v') → v' ≠ v := by
        rintro u v' - (h1 | ⟨d1, h1⟩) rfl
        · obtain ⟨⟨d', hm, -⟩, -⟩ := hw u v' h1; exact hnew _ _ hm
        · exact hnew _ _ (hs u d1 v' h1).1
      intro a b v' ha hb
      by_cases hat : a = t
      · by_cases hbt : b = t
        · rw [hat, hbt]
        · subst hat; simp [setPC] at ha
          simp [setPC, hbt] at hb
          exact absurd ha.symm (hno b v' hbt hb)
      · by_cases hbt : b = t
        · subst hbt; simp [setPC] at hb
          simp [setPC, hat] at ha
          exact absurd hb.symm (hno a v' hat ha)
        · simp [setPC, hat] at ha; simp [setPC, hbt] at hb; exact hon a b v' ha hb
  | skip t d v h hd =>
    have hnsel : ¬ Selected d v := fun hc => by rw [(selected_iff d v).mpr hc] at hd; cases hd
    refine ⟨?_, ?_, hso, hnd, ?_, ?_⟩
    · intro u d v hu
      by_cases hut : u = t
      · subst hut; simp [setPC] at hu
      · simp [setPC, hut] at hu; exact hs u d v hu
    · intro u v hu
      by_cases hut : u = t
      · subst hut; simp [setPC] at hu
      · simp [setPC, hut] at hu; exact hw u v hu
    · intro t' v' d' hm hsel
      rcases hcp t' v' d' hm hsel with h1 | ⟨u, h1⟩ | ⟨u, d2, h1⟩
      · exact Or.inl h1
      · have : u ≠ t := by rintro rfl; rw [h] at h1; cases h1
        exact Or.inr (Or.inl ⟨u, by simp [setPC, this, h1]⟩)
      · have : u ≠ t := by
          rintro rfl; rw [h] at h1; cases h1
          have := (issued_unique hr hn' (hs u d v h).1 hm).2
          subst this
          exact hnsel hsel
        exact Or.inr (Or.inr ⟨u, d2, by simp [setPC, this, h1]⟩)
    · intro a b v ha hb
      by_cases hat : a = t
      · subst hat; simp [setPC] at ha
      · by_cases hbt : b = t
        · subst hbt; simp [setPC] at hb
        · simp [setPC, hat] at ha; simp [setPC, hbt] at hb; exact hon a b v ha hb
  | keep t d v h hd =>
    refine ⟨?_, ?_, hso, hnd, ?_, ?_⟩
    · intro u d v hu
      by_cases hut : u = t
      · subst hut; simp [setPC] at hu
      · simp [setPC, hut] at hu; exact hs u d v hu
    · intro u v' hu
      by_cases hut : u = t
      · subst hut; simp [setPC] at hu; subst hu
        exact ⟨⟨d, (hs u d v h).1, (selected_iff d v).mp hd⟩, (hs u d v h).2⟩
      · simp [setPC, hut] at hu; exact hw u v' hu
    · intro t' v' d' hm hsel
      rcases hcp t' v' d' hm hsel with h1 | ⟨u, h1⟩ | ⟨u, d2, h1⟩
      · exact Or.inl h1
      · have : u ≠ t := by rintro rfl; rw [h] at h1; cases h1
        exact Or.inr (Or.inl ⟨u, by simp [setPC, this, h1]⟩)
      · by_cases hut : u = t
        · subst hut; rw [h] at h1; cases h1
          exact Or.inr (Or.inl ⟨u, by simp [setPC]⟩)
        · exact Or.inr (Or.inr ⟨u, d2, by simp [setPC, hut, h1]⟩)
    · intro a b v' ha hb
      have conv : ∀ c, (setPC s.pc t (.writing v) c = .writing v' ∨
          ∃ d, setPC s.pc t (.writing v) c = .stored d v') →
          (s.pc c = .writing v' ∨ ∃ d, s.pc c = .stored d v') := by
        intro c hc
        by_cases hct : c = t
        · subst hct; simp [setPC] at hc; subst hc; exact Or.inr ⟨d, h⟩
        · simpa [setPC, hct] using hc
      exact hon a b v' (conv a ha) (conv b hb)
  | write t v h =>
    have hwt := hw t v h
    refine ⟨?_, ?_, ?_, ?_, ?_, ?_⟩
    · intro u d' v' hu
      by_cases hut : u = t
      · subst hut; simp [setPC] at hu
      · simp [setPC, hut] at hu
        refine ⟨(hs u d' v' hu).1, ?_⟩
        simp only [List.mem_append, List.mem_singleton, not_or]
        refine ⟨(hs u d' v' hu).2, ?_⟩
        rintro rfl
        exact hut (hon u t v' (Or.inr ⟨d', hu⟩) (Or.inl h))
    · intro u v' hu
      by_cases hut : u = t
      · subst hut; simp [setPC] at hu
      · simp [setPC, hut] at hu
        refine ⟨(hw u v' hu).1, ?_⟩
        simp only [List.mem_append, List.mem_singleton, not_or]
        refine ⟨(hw u v' hu).2, ?_⟩
        rintro rfl
        exact hut (hon u t v' (Or.inl hu) (Or.inl h))
    · intro v' hv'
      simp only [List.mem_append, List.mem_singleton] at hv'
      rcases hv' with hv' | rfl
      · exact hso v' hv'
      · obtain ⟨⟨d, hm⟩, -⟩ := hwt; exact ⟨t, d, hm⟩
    · rw [List.nodup_append]
      refine ⟨hnd, by simp, ?_⟩
      intro a ha b hb
      simp at hb; subst hb
      rintro rfl; exact hwt.2 ha
    · intro t' v' d' hm hsel
      rcases hcp t' v' d' hm hsel with h1 | ⟨u, h1⟩ | ⟨u, d2, h1⟩
      · exact Or.inl (by simp [h1])
      · by_cases hut : u = t
        · subst hut; rw [h] at h1; cases h1; exact Or.inl (by simp)
        · exact Or.inr (Or.inl ⟨u, by simp [setPC, hut, h1]⟩)
      · have : u ≠ t := by rintro rfl; rw [h] at h1; cases h1
        exact Or.inr (Or.inr ⟨u, d2, by simp [setPC, this, h1]⟩)
    · intro a b v' ha hb
      by_cases hat : a = t
      · subst hat; simp [setPC] at ha
      · by_cases hbt : b = t
        · subst hbt; simp [setPC] at hb
        · simp [setPC, hat] at ha; simp [setPC, hbt] at hb; exact hon a b v' ha hb

theorem fileInv_reach {s : LogState Tid} (h : LogReach s) (hn : s.issued.length ≤ 4294967296) :
    FileInv s := by
  induction h with
  | init =>
    refine ⟨?_, ?_, ?_, ?_, ?_, ?_⟩
    · intro t d v ht; simp [LogState.init] at ht
    · intro t v ht; simp [LogState.init] at ht
    · intro v hv; simp [LogState.init] at hv
    · simp [LogState.init]
    · intro t v d hm; simp [LogState.init] at hm
    · intro t u v ht; simp [LogState.init] at ht
  | step hr st ih => exact fileInv_step hr st hn (ih (le_trans (step_length st) hn))

/-- one complete call by thread `t`, all others idle -/
theorem one_call (t : Tid) (n : Nat) :
    ∃ s : LogState Tid, LogReach s ∧ s.issued.length = n ∧ (∀ u, s.pc u = .idle) ∧ s.owner = none := by
  induction n with
  | zero => exact ⟨_, LogReach.init, rfl, fun _ => rfl, rfl⟩
  | succ n ih =>
    obtain ⟨s, hr, hl, hp, ho⟩ := ih
    have r1 := LogReach.step hr (LogStep.call s t 1 (hp t))
    have r2 := LogReach.step r1 (LogStep.lock _ t 1 (by simp [setPC]) ho)
    have r3 := LogReach.step r2 (LogStep.load _ t 1 (by simp [setPC]))
    have r4 := LogReach.step r3 (LogStep.store _ t 1 s.counter (by simp [setPC]))
    have r5 := LogReach.step r4 (LogStep.keep _ t 1 s.counter (by simp [setPC]) (by simp [logSelected]))
    have r6 := LogReach.step r5 (LogStep.write _ t s.counter (by simp [setPC]))
    refine ⟨_, r6, by simp [hl], ?_, rfl⟩
    intro u
    by_cases hu : u = t <;> simp [setPC, hu, hp]

end

/-! file names -/

theorem expandFormat_plain (pre mat suf : List Char) (v : List Char) (hv : '$' ∉ v) :
    ∀ n, v.length < n → expandFormat pre mat suf n v = v := by
  induction v with
  | nil => intro n hn; cases n <;> rfl
  | cons c cs ih =>
    intro n hn
    cases n with
    | zero => simp at hn
    | succ n =>
      simp only [List.mem_cons, not_or] at hv
      unfold expandFormat
      rw [if_pos (Ne.symm hv.1), ih hv.2 n (by simpa using hn)]

/-- replace a field by literals in a template -/
def substField (f : Field) (v : List Char) (t : List Piece) : List Piece :=
  t.flatMap fun p => if p = .ph f then v.map .lit else [p]

theorem written_head (f : Field) : ∃ cs, f.written = '$' :: cs ∧ '$' ∉ cs := by
  cases f <;> exact ⟨_, rfl, by decide⟩

theorem written_not_prefix (f g : Field) (h : f ≠ g) (rest : List Char) :
    f.written.isPrefixOf (g.written ++ rest) = false := by
  cases f <;> cases g <;> first | exact absurd rfl h | rfl

theorem go_plain (pat value : List Char) (hp : ∃ ps, pat = '$' :: ps) (rest : List Char) :
    ∀ (cs : List Char), '$' ∉ cs → ∀ n pre,
      regexReplaceGo pat value (n + cs.length) pre (cs ++ rest) =
        cs ++ regexReplaceGo pat value n (pre ++ cs) rest := by
  obtain ⟨ps, rfl⟩ := hp
  intro cs
  induction cs with
  | nil => intro _ n pre; simp
  | cons c cs ih =>
    intro hc n pre
    simp only [List.mem_cons, not_or] at hc
    rw [List.length_cons, ← Nat.add_assoc, List.cons_append, regexReplaceGo]
    rw [if_neg (by simp [List.isPrefixOf, hc.1])]
    rw [ih hc.2 n (pre ++ [c])]
    simp

theorem go_fuel (f : Field) (v : List Char) (hv : '$' ∉ v) (t : List Piece)
    (ht : ∀ c, .lit c ∈ t → c ≠ '$') :
    ∀ n pre, regexReplaceGo f.written v (n + 1 + (templateText t).length) pre (templateText t) =
      templateText (substField f v t) := by
  induction t with
  | nil => intro n pre; rfl
  | cons p t ih =>
    have ih' := ih (fun c hc => ht c (List.mem_cons_of_mem _ hc))
    obtain ⟨ps, hps, hpd⟩ := written_head f
    intro n pre
    have hsub : templateText (substField f v (p :: t)) =
        templateText (if p = .ph f then v.map .lit else [p]) ++ templateText (substField f v t) := by
      simp [templateText, substField, List.flatMap_append]
    have hlits : ∀ w : List Char, templateText (w.map Piece.lit) = w := by
      intro w; simp [templateText, List.flatMap_map]
    cases p with
    | lit c =>
      have hc := ht c (by simp)
      have h1 : templateText (Piece.lit c :: t) = [c] ++ templateText t := by simp [templateText]
      rw [h1, hsub, List.length_append, ← Nat.add_assoc, Nat.add_right_comm]
      have := go_plain f.written v ⟨ps, hps⟩ (templateText t) [c] (by simpa using hc.symm)
        (n + 1 + (templateText t).length) pre
      rw [this, ih']
      simp [templateText]
    | ph g =>
      have h1 : templateText (Piece.ph g :: t) = g.written ++ templateText t := by simp [templateText]
      obtain ⟨qs, hqs, hqd⟩ := written_head g
      by_cases hfg : f = g
      · subst hfg
        rw [h1, hsub, if_pos rfl, hlits]
        rw [hqs, List.cons_append, List.length_cons, ← Nat.add_assoc, regexReplaceGo]
        rw [if_pos]
        · simp only
          rw [expandFormat_plain _ _ _ v hv _ (by omega)]
          congr 1
          have hd : List.drop ('$' :: qs).length ('$' :: (qs ++ templateText t)) = templateText t := by
            simp
          rw [hd, List.length_append]
          have := ih' (n + qs.length) []
          rw [hqs] at this
          rw [← this]
          congr 1; omega
        · rw [← List.cons_append, List.isPrefixOf_iff_prefix]; exact List.prefix_append _ _
      · rw [h1, hsub, if_neg (by simp; exact fun h => hfg h.symm)]
        have hnp := written_not_prefix f g hfg (templateText t)
        rw [hqs, List.cons_append] at hnp ⊢
        rw [List.length_cons, ← Nat.add_assoc, regexReplaceGo, if_neg (by simp [hnp]), List.length_append]
        have := go_plain f.written v ⟨ps, hps⟩ (templateText t) qs hqd
          (n + 1 + (templateText t).length) (pre ++ ['$'])
        rw [show n + 1 + (qs.length + (templateText t).length) =
          n + 1 + (templateText t).length + qs.length by omega, this, ih']
        simp [templateText, hqs]

theorem replace_template (f : Field) (v : List Char) (hv : '$' ∉ v) (t : List Piece)
    (ht : ∀ c, .lit c ∈ t → c ≠ '$') :
    regexReplace f.written v (templateText t) = templateText (substField f v t) := by
  unfold regexReplace
  have := go_fuel f v hv t ht 0 []
  rw [← this]
  congr 1; omega

theorem substField_lits (f : Field) (v : List Char) (hv : '$' ∉ v) (t : List Piece)
    (ht : ∀ c, .lit c ∈ t → c ≠ '$') : ∀ c, .lit c ∈ substField f v t → c ≠ '$' := by
  intro c hc
  unfold substField at hc
  rw [List.mem_flatMap] at hc
  obtain ⟨p, hp, hc⟩ := hc
  split at hc
  · simp at hc; rintro rfl; exact hv hc
  · simp at hc; subst hc; exact ht c hp

theorem fmt05u_plain (n : Nat) : '$' ∉ fmt05u n := by
  unfold fmt05u
  simp only [List.mem_append, List.mem_replicate, not_or]
  refine ⟨by simp, fun h => ?_⟩
  have := Nat.isDigit_of_mem_toDigits (by omega) (by omega) h
  simp [Char.isDigit] at this

theorem logFileName_meaning (t : List Piece) (ht : ∀ c, .lit c ∈ t → c ≠ '$') (uid : Nat)
    (gid lid : Option Nat) (gl ll : Option (List Char))
    (hg : ∀ l, gl = some l → '$' ∉ l) (hl : ∀ l, ll = some l → '$' ∉ l) :
    logFileName (templateText t) uid gid gl lid ll =
      templateMeaning (fun
        | .uniqueId => fmt05u (u32 uid)
        | .globalId => fmt05u (u32 (gid.getD 0))
        | .globalLabel => gl.getD []
        | .localId => fmt05u (u32 (lid.getD 0))
        | .localLabel => ll.getD []) t := by
  have hgl : '$' ∉ gl.getD [] := by cases gl <;> simp_all
  have hll : '$' ∉ ll.getD [] := by cases ll <;> simp_all
  unfold logFileName
  simp only
  rw [show phUniqueId = Field.uniqueId.written from rfl, show phGlobalId = Field.globalId.written from rfl,
    show phGlobalLabel = Field.globalLabel.written from rfl, show phLocalId = Field.localId.written from rfl,
    show phLocalLabel = Field.localLabel.written from rfl]
  have h1 := substField_lits .uniqueId _ (fmt05u_plain (u32 uid)) t ht
  have h2 := substField_lits .globalId _ (fmt05u_plain (u32 (gid.getD 0))) _ h1
  have h3 := substField_lits .globalLabel _ hgl _ h2
  have h4 := substField_lits .localId _ (fmt05u_plain (u32 (lid.getD 0))) _ h3
  rw [replace_template _ _ (fmt05u_plain _) t ht, replace_template _ _ (fmt05u_plain _) _ h1,
    replace_template _ _ hgl _ h2, replace_template _ _ (fmt05u_plain _) _ h3,
    replace_template _ _ hll _ h4]
  clear h1 h2 h3 h4
  induction t with
  | nil => rfl
  | cons p t ih =>
    have ih' := ih (fun c hc => ht c (List.mem_cons_of_mem _ hc))
    have hmap : ∀ (f : Field) (w : List Char), substField f w = fun t => t.flatMap
      fun p => if p = .ph f then w.map .lit else [p] := fun _ _ => rfl
    have happ : ∀ f w a b, substField f w (a ++ b) = substField f w a ++ substField f w b := by
      intro f w a b; simp [substField, List.flatMap_append]
    have hlit : ∀ f w (v : List Char), substField f w (v.map Piece.lit) = v.map Piece.lit := by
      intro f w v
      simp only [substField, List.flatMap_map]
      induction v <;> simp_all
    have htt : ∀ a b, templateText (a ++ b) = templateText a ++ templateText b := by
      intro a b; simp [templateText, List.flatMap_append]
    have hw : ∀ w : List Char, templateText (w.map Piece.lit) = w := by
      intro w; simp [templateText, List.flatMap_map]
    have hcons : ∀ f w p t, substField f w (p :: t) =
        (if p = .ph f then w.map .lit else [p]) ++ substField f w t := by
      intro f w p t; simp [substField]
    have hsing : ∀ f w p, substField f w [p] = if p = .ph f then w.map .lit else [p] := by
      intro f w p; simp [substField]
    simp only [hcons, happ]
    rw [htt, ih']
    have : ∀ val, templateMeaning val (p :: t) = templateMeaning val [p] ++ templateMeaning val t := by
      intro val; simp [templateMeaning]
    rw [this]
    congr 1
    cases p with
    | lit c => simp [hsing, templateText, templateMeaning]
    | ph f => cases f <;> simp [hsing, hlit, hw, templateMeaning]

end Verif.Lemmas
