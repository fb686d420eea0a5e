import Mathlib.Data.Int.Order.Basic
import Mathlib.Tactic.IntervalCases
import Verif.Lemmas.ParamMore
/-
C43: dynamic parameters.
-/
set_option linter.unusedSectionVars false
namespace Verif
namespace Props
open Param
variable {F X K : Type} [LinearOrder X]

/-- After `realize`, every parameter of every attached object holds its formula evaluated at the last values given to the
variables, converted to the type of the target.  For every history that follows the protocol and has not thrown, every
order of iteration, and every target that no other formula writes.
Part of C43: false after a realization that failed (`realize_after_failure_wrong`) and outside the documented protocol. -/
theorem realize_values_partial (L : Lang F X K) (s : Nat) (init : Nat → K) (ops : List (Op F X K)) (g : List Ptr → List Ptr)
    (hp : Protocol s (ops ++ [.realize s g])) (st : St F X K)
    (h : run L (ops ++ [.realize s g]) (St.init init) = .ok (st, false)) (o : Nat) (f : F) (k : Kind) (a : Nat)
    (hd : .declare o f k a ∈ ops) (ha : .attach s o ∈ ops)
    (hun : ∀ o' f' k', .declare o' f' k' a ∈ ops → f' = f ∧ k' = k) :
    L.cast k (L.value f fun x => lastUpdate s x ops) = .ok (st.store a) := by
  obtain ⟨st1, h1, h2⟩ := run_snoc_ok L ops _ _ _ h
  have hI := inv_run L s init ops st1 hp.prefix h1
  have hg := (hp.one_source (.realize s g) (by simp)).2.2 s g rfl
  obtain ⟨hI', hv⟩ := inv_realize L s ops st1 st hI g hg.2 h2
  by_cases hc : L.closed f
  · have := hI'.store o f k a (by simp [hd]) hc fun o' f' k' h' => hun o' f' k' (by simpa using h')
    rw [← this]
    congr 1
    apply L.value_free
    intro x hx
    rw [hc.2] at hx; simp at hx
  · exact hv o f k a hd ha hc hun

/-- A formula without variables has its value from its declaration on, whatever is called later. -/
theorem constant_keeps_value (L : Lang F X K) (s : Nat) (init : Nat → K) (ops : List (Op F X K)) (hp : Protocol s ops)
    (st : St F X K) (h : run L ops (St.init init) = .ok (st, false)) (o : Nat) (f : F) (k : Kind) (a : Nat)
    (hd : .declare o f k a ∈ ops) (hc : L.closed f)
    (hun : ∀ o' f' k', .declare o' f' k' a ∈ ops → f' = f ∧ k' = k) :
    L.cast k (L.value f fun _ => none) = .ok (st.store a) :=
  (inv_run L s init ops st hp h).store o f k a hd hc hun

/-- The check passes exactly when each parameter of the object is a constant or has been realized since it was last marked as
unrealized. -/
theorem unrealized_detected (L : Lang F X K) (s : Nat) (init : Nat → K) (ops : List (Op F X K)) (hp : Protocol s ops)
    (st : St F X K) (h : run L ops (St.init init) = .ok (st, false)) (o : Nat) :
    (check st o = .ok () ↔ ∀ f k a, .declare o f k a ∈ ops → L.closed f ∨ Realized s o ops) ∧
    (check st o = .throw ↔ ¬ ∀ f k a, .declare o f k a ∈ ops → L.closed f ∨ Realized s o ops) := by
  have hI := inv_run L s init ops st hp h
  have key : ((st.objs o).params.all fun i => i.evaluated) = true ↔
      ∀ f k a, .declare o f k a ∈ ops → L.closed f ∨ Realized s o ops := by
    rw [List.all_eq_true]
    constructor
    · intro hall f k a hd
      have hm : (f, k, a) ∈ declares o ops := (mem_declares o ops f k a).mpr hd
      rw [← hI.sig, List.mem_map] at hm
      obtain ⟨i, hi, he⟩ := hm
      simp only [Prod.mk.injEq] at he
      rw [← he.1]
      exact (hI.eval o i hi).mp (hall i hi)
    · intro hall i hi
      rw [hI.eval o i hi]
      apply hall i.expr i.kind i.target
      rw [← mem_declares, ← hI.sig, List.mem_map]
      exact ⟨i, hi, rfl⟩
  unfold check
  by_cases hc : ∀ f k a, .declare o f k a ∈ ops → L.closed f ∨ Realized s o ops
  · rw [Outcome.assert_true (key.mpr hc)]; exact ⟨⟨fun _ => hc, fun _ => rfl⟩, ⟨fun h => by simp at h, fun h => absurd hc h⟩⟩
  · rw [Outcome.assert_false (fun h => hc (key.mp h))]; exact ⟨⟨fun h => by simp at h, fun h => absurd h hc⟩, ⟨fun _ => hc, fun _ => rfl⟩⟩

/-- `realize` goes through when all attached formulas are well formed, their variables defined and their values
representable... -/
theorem realize_succeeds (L : Lang F X K) (s : Nat) (init : Nat → K) (ops : List (Op F X K)) (hp : Protocol s ops)
    (st : St F X K) (h : run L ops (St.init init) = .ok (st, false)) (g : List Ptr → List Ptr) (hg : ∀ l, (g l).Perm l)
    (hall : ∀ o f k a, .declare o f k a ∈ ops → .attach s o ∈ ops → ¬ L.closed f → L.valid f = true ∧
      (∀ x ∈ L.free f, (lastUpdate s x ops).isSome) ∧ ∃ v, L.cast k (L.value f fun x => lastUpdate s x ops) = .ok v) :
    ∃ st', step L st (.realize s g) = .ok (st', false) :=
  realize_goes_through L s ops st (inv_run L s init ops st hp h) g hg hall

/-- ... and throws if one of them is malformed or mentions a variable that has no value yet. -/
theorem realize_refuses_undefined (L : Lang F X K) (s : Nat) (init : Nat → K) (ops : List (Op F X K)) (hp : Protocol s ops)
    (st : St F X K) (h : run L ops (St.init init) = .ok (st, false)) (g : List Ptr → List Ptr) (hg : ∀ l, (g l).Perm l)
    (o : Nat) (f : F) (k : Kind) (a : Nat) (hd : .declare o f k a ∈ ops) (ha : .attach s o ∈ ops)
    (hbad : L.valid f = false ∨ ∃ x ∈ L.free f, lastUpdate s x ops = none) :
    ∃ st', step L st (.realize s g) = .ok (st', true) :=
  realize_refuses L s ops st (inv_run L s init ops st hp h) g hg o f k a hd ha hbad

/-- The defect: a formula whose compilation has failed once (a variable was not defined yet) is never compiled again,
whatever is called afterwards. -/
theorem failed_formula_stays_broken (L : Lang F X K) (st : St F X K) (o j : Nat) (f : F) (k : Kind) (a : Nat)
    (hB : Broken st o j f k a) (ops : List (Op F X K)) (r : St F X K × Bool) (h : run L ops st = .ok r) :
    Broken r.1 o j f k a :=
  broken_run L o j f k a ops st r h hB

/-! ### concrete histories -/

/-- formulas: a number, a variable, or a variable plus one -/
inductive Fm where
  | lit (n : Int) | var (x : Nat) | succ (x : Nat)
  deriving DecidableEq

/-- evaluating an expression never compiled gives `u` -/
def exLang (u : Outcome Int) : Lang Fm Nat Int where
  valid := fun _ => true
  free := fun | .lit _ => [] | .var x => [x] | .succ x => [x]
  value := fun f σ => match f with | .lit n => n | .var x => (σ x).getD 0 | .succ x => (σ x).getD 0 + 1
  value_free := by
    intro f σ τ h
    cases f with
    | lit n => rfl
    | var x => simp only; rw [h x (by simp)]
    | succ x => simp only; rw [h x (by simp)]
  cast := fun k v => match k with | .u32 => if 0 ≤ v then .ok v else .ub | _ => .ok v
  uncompiled := u

/-- a constant and two formulas in two objects; two rounds of updates, the set iterated in reverse order -/
def exOps : List (Op Fm Nat Int) :=
  [.declare 0 (.lit 7) .f64 0, .declare 0 (.var 1) .u32 1, .declare 1 (.succ 1) .f32 2, .attach 0 0, .attach 0 1,
   .update 0 1 5, .realize 0 id, .update 0 1 8]
def exStore : St Fm Nat Int → List Int := fun st => [st.store 0, st.store 1, st.store 2]

example : (run (exLang .throw) (exOps ++ [.realize 0 List.reverse]) (St.init fun _ => 0)).Sat
    fun r => r.2 = false ∧ exStore r.1 = [7, 8, 9] := by decide +kernel
example : Protocol 0 (exOps ++ [.realize 0 List.reverse]) where
  one_source := by
    intro o ho
    simp only [exOps, List.cons_append, List.nil_append, List.mem_cons, List.not_mem_nil, or_false] at ho
    rcases ho with rfl | rfl | rfl | rfl | rfl | rfl | rfl | rfl | rfl <;> simp [List.reverse_perm]
  declare_first := by
    intro pre post o f k a h hat
    have : pre.length < 3 := by
      by_contra hlt
      have h3 := congrArg (fun l => l[pre.length]?) h
      simp only [List.getElem?_append_right (Nat.le_refl _), Nat.sub_self, List.getElem?_cons_zero] at h3
      generalize pre.length = n at *
      have hn : n < (exOps ++ [Op.realize 0 List.reverse]).length := (List.getElem?_eq_some_iff.mp h3).1
      simp only [exOps, List.length_append, List.length_cons, List.length_nil] at hn
      interval_cases n <;> simp [exOps] at h3
    have hpre : pre = (exOps ++ [Op.realize 0 List.reverse]).take pre.length := by rw [h]; simp
    rw [hpre] at hat
    interval_cases hl : pre.length <;> simp [exOps] at hat

/-- The variable is defined after a first `realize` that threw: the second one does not throw, the check passes, and the
value is whatever an uncompiled expression gives, not 5. -/
theorem realize_after_failure_wrong (u : Int) :
    (run (exLang (.ok u)) [.declare 0 (.var 1) .f64 0, .attach 0 0, .realize 0 id, .update 0 1 5, .realize 0 id]
      (St.init fun _ => 0)).Sat fun r => r.1.store 0 = u ∧ check r.1 0 = .ok () := by
  simp only [Outcome.sat_iff]
  refine ⟨_, rfl, rfl, rfl⟩

/-- Declaring one more parameter after attaching leaves the source with dangling pointers: undefined behaviour. -/
theorem declare_after_attach_ub :
    run (exLang .throw) [.declare 0 (.var 1) .f64 0, .attach 0 0, .declare 0 (.var 1) .f64 1, .update 0 1 5,
      .realize 0 id] (St.init fun _ => 0) = .ub := by
  exact Outcome.eq_ub_of (by decide +kernel)

/-- An object moved to another source goes on using the variables of the first. -/
theorem reattach_uses_old_source :
    (run (exLang .throw) [.declare 0 (.var 1) .f64 0, .attach 0 0, .update 0 1 5, .realize 0 id, .attach 1 0,
      .update 1 1 100, .realize 1 id] (St.init fun _ => 0)).Sat
      fun r => r.2 = false ∧ (r.1.objs 0).attachedTo = some 1 ∧ r.1.store 0 = 5 := by decide +kernel

/-- Declaring the same target again with a constant does not undo the formula: the next `realize` overwrites it. -/
theorem redeclared_constant_overwritten :
    (run (exLang .throw) [.declare 0 (.var 1) .f64 0, .declare 0 (.lit 7) .f64 0, .attach 0 0, .update 0 1 5,
      .realize 0 id] (St.init fun _ => 0)).Sat fun r => r.2 = false ∧ r.1.store 0 = 5 := by decide +kernel

/-- A negative value for an unsigned parameter is undefined behaviour. -/
theorem negative_unsigned_ub :
    run (exLang .throw) [.declare 0 (.var 1) .u32 0, .attach 0 0, .update 0 1 (-5), .realize 0 id]
      (St.init fun _ => 0) = .ub := Outcome.eq_ub_of (by decide +kernel)

end Props
end Verif
