import Verif.Model.GaussNewton
import Mathlib.Tactic.Linarith
namespace Verif.Lemmas.Gn
open Verif.Gn.Race
set_option linter.unusedSectionVars false
variable {K : Type} [Field K] [LinearOrder K] [IsStrictOrderedRing K]

theorem sum_set_eq {α : Type} (f : α → K) : ∀ (l : List α) (i : Nat) (w w' : α), l[i]? = some w →
    ((l.set i w').map f).sum + f w = (l.map f).sum + f w' := by
  intro l
  induction l with
  | nil => intro i w w' h; simp at h
  | cons a l ih =>
    intro i w w' h
    cases i with
    | zero => simp at h; subst h; simp; ring
    | succ i =>
      simp only [List.getElem?_cons_succ] at h
      have := ih i w w' h
      simp only [List.set_cons_succ, List.map_cons, List.sum_cons]
      linarith

/-- Terms still to add. -/
def pending (s : State K) : K := (s.workers.map fun w => w.todo.sum).sum

/-- Invariant of the race. -/
structure Inv (init total : K) (s : State K) : Prop where
  lo : init ≤ s.err
  hi : s.err + pending s ≤ init + total
  loaded : ∀ w ∈ s.workers, ∀ v, w.loaded = some v → init ≤ v ∧ v + pending s ≤ init + total
  pos : ∀ w ∈ s.workers, ∀ x ∈ w.todo, 0 ≤ x

theorem inv_step {init total : K} {s s' : State K} (h : Inv init total s) (st : Step s s') : Inv init total s' := by
  cases st with
  | @load i x rest hi =>
    have hp : pending { s with workers := s.workers.set i ⟨x :: rest, some s.err⟩ } = pending s := by
      have := sum_set_eq (fun w : Worker K => w.todo.sum) s.workers i _ ⟨x :: rest, some s.err⟩ hi
      simp only [pending]; linarith
    refine ⟨h.lo, by rw [hp]; exact h.hi, ?_, ?_⟩
    · intro w hw v hv
      rw [hp]
      rcases List.mem_or_eq_of_mem_set hw with hw | rfl
      · exact h.loaded w hw v hv
      · simp only [Option.some.injEq] at hv; subst hv; exact ⟨h.lo, h.hi⟩
    · intro w hw y hy
      rcases List.mem_or_eq_of_mem_set hw with hw | rfl
      · exact h.pos w hw y hy
      · exact h.pos _ (List.mem_of_getElem? hi) y hy
  | @store i x v rest hi =>
    have hx : 0 ≤ x := h.pos _ (List.mem_of_getElem? hi) x (by simp)
    have hp : pending (⟨v + x, s.workers.set i ⟨rest, none⟩⟩ : State K) + x = pending s := by
      have := sum_set_eq (fun w : Worker K => w.todo.sum) s.workers i _ ⟨rest, none⟩ hi
      simp only [pending]
      simp only [List.sum_cons] at this
      linarith
    obtain ⟨hv1, hv2⟩ := h.loaded _ (List.mem_of_getElem? hi) v rfl
    refine ⟨by show init ≤ v + x; linarith, by show v + x + _ ≤ _; linarith, ?_, ?_⟩
    · intro w hw u hu
      rcases List.mem_or_eq_of_mem_set hw with hw | rfl
      · have := h.loaded w hw u hu
        exact ⟨this.1, by linarith [this.2]⟩
      · simp at hu
    · intro w hw y hy
      rcases List.mem_or_eq_of_mem_set hw with hw | rfl
      · exact h.pos w hw y hy
      · exact h.pos _ (List.mem_of_getElem? hi) y (by simp [hy])

theorem inv_steps {init total : K} {s s' : State K} (h : Inv init total s) (st : Steps s s') : Inv init total s' := by
  induction st with
  | refl => exact h
  | step a _ ih => exact ih (inv_step h a)

end Verif.Lemmas.Gn
