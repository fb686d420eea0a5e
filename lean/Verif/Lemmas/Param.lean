import Mathlib.Data.List.Induction
import Mathlib.Tactic.Tauto
import Verif.Lemmas.AMap
import Verif.Spec.Param
/-
Lemmas on dynamic parameters.
-/
set_option linter.unusedSectionVars false
namespace Verif
namespace Param
variable {F X K : Type} [LinearOrder X]

/-- parameter `j` of object `o` -/
def view (st : St F X K) (o j : Nat) : Option (Info F) := (st.objs o).params[j]?
def gen (st : St F X K) (o : Nat) : Nat := (st.objs o).gen

theorem deref_eq (st : St F X K) (p : Ptr) : deref st p = if gen st p.obj = p.gen then view st p.obj p.idx else none := rfl

theorem view_poke (st : St F X K) (p : Ptr) (i : Info F) (o j : Nat) :
    view (poke st p i) o j = if o = p.obj ∧ j = p.idx then (view st o j).map (fun _ => i) else view st o j := by
  unfold view poke
  by_cases ho : o = p.obj
  · subst ho
    simp only [Function.update_self, true_and]
    rw [List.getElem?_set]
    by_cases hj : j = p.idx
    · subst hj
      simp only [if_true]
      by_cases hl : p.idx < (st.objs p.obj).params.length
      · simp [hl]
      · simp [hl]
    · rw [if_neg (fun h => hj h.symm), if_neg hj]
  · simp [Function.update_of_ne ho, ho]

@[simp] theorem gen_poke (st : St F X K) (p : Ptr) (i : Info F) (o : Nat) : gen (poke st p i) o = gen st o := by
  unfold gen poke
  by_cases ho : o = p.obj
  · subst ho; simp
  · simp [Function.update_of_ne ho]
@[simp] theorem srcs_poke (st : St F X K) (p : Ptr) (i : Info F) : (poke st p i).srcs = st.srcs := rfl
@[simp] theorem store_poke (st : St F X K) (p : Ptr) (i : Info F) : (poke st p i).store = st.store := rfl

/-- what the compilation loop does to a parameter -/
def compUpd (s : Nat) (b : Prop) [Decidable b] (i : Info F) : Info F :=
  if b ∧ i.isConst = false ∧ i.compiled = .none then { i with compiled := .bound s } else i

theorem compile_loop (L : Lang F X K) (s : Nat) (l : List Ptr) : ∀ (st st1 : St F X K),
    loop (compile1 L s) l st = .ok (st1, false) →
    st1.srcs = st.srcs ∧ st1.store = st.store ∧ (∀ o, gen st1 o = gen st o) ∧
    (∀ o j, view st1 o j = (view st o j).map (compUpd s (⟨o, gen st o, j⟩ ∈ l))) ∧
    (∀ p ∈ l, ∃ i, deref st p = some i ∧
      (i.isConst = false → i.compiled = .none → L.compiles i.expr (st.srcs s).vars = true)) := by
  induction l with
  | nil =>
    intro st st1 h
    simp only [loop, Outcome.ok.injEq, Prod.mk.injEq, and_true] at h
    subst h
    refine ⟨rfl, rfl, fun _ => rfl, fun o j => ?_, by simp⟩
    cases view st o j <;> simp [compUpd]
  | cons p l ih =>
    intro st st1 h
    simp only [loop, Outcome.bind_eq_ok] at h
    obtain ⟨r, hb, h⟩ := h
    -- facts about the first step
    obtain ⟨hf, hs, hst, hg, hv, i, hd, hc⟩ : r.2 = false ∧ r.1.srcs = st.srcs ∧ r.1.store = st.store ∧
        (∀ o, gen r.1 o = gen st o) ∧
        (∀ o j, view r.1 o j = (view st o j).map (compUpd s ((⟨o, gen st o, j⟩ : Ptr) = p))) ∧
        ∃ i, deref st p = some i ∧
          (i.isConst = false → i.compiled = .none → L.compiles i.expr (st.srcs s).vars = true) := by
      have hr2 : r.2 = false := by
        cases hr : r.2 with
        | false => rfl
        | true => simp [hr] at h; rw [h] at hr; simp at hr
      unfold compile1 at hb
      cases hd : deref st p with
      | none => simp [hd] at hb
      | some i =>
        simp only [hd] at hb
        have hpg : gen st p.obj = p.gen := by
          rw [deref_eq] at hd; by_contra hne; simp [hne] at hd
        have hvp : view st p.obj p.idx = some i := by rw [deref_eq, if_pos hpg] at hd; exact hd
        have hsame : ∀ o j, (∀ i, view st o j = some i → (⟨o, gen st o, j⟩ : Ptr) = p →
            i.isConst = true ∨ i.compiled ≠ .none) →
            view st o j = (view st o j).map (compUpd s ((⟨o, gen st o, j⟩ : Ptr) = p)) := by
          intro o j hh
          cases hvo : view st o j with
          | none => rfl
          | some i' =>
            simp only [Option.map_some, compUpd]
            split
            · rename_i hc
              rcases hh i' hvo hc.1 with h1 | h1
              · rw [hc.2.1] at h1; simp at h1
              · exact absurd hc.2.2 h1
            · rfl
        split at hb
        · rename_i hconst
          simp only [Outcome.ok.injEq] at hb; subst hb
          refine ⟨rfl, rfl, rfl, fun _ => rfl, fun o j => hsame o j ?_, i, rfl, ?_⟩
          · rintro i' hv' rfl
            simp only at hvp; rw [hvp] at hv'; simp at hv'; subst hv'; exact .inl hconst
          · intro h'; rw [h'] at hconst; simp at hconst
        split at hb
        · rename_i _ hcomp
          simp only [Outcome.ok.injEq] at hb; subst hb
          refine ⟨rfl, rfl, rfl, fun _ => rfl, fun o j => hsame o j ?_, i, rfl, ?_⟩
          · rintro i' hv' rfl
            simp only at hvp; rw [hvp] at hv'; simp at hv'; subst hv'; exact .inr hcomp
          · intro _ h'; exact absurd h' hcomp
        split at hb
        · rename_i hnc hnone hok
          simp only [Outcome.ok.injEq] at hb; subst hb
          refine ⟨rfl, rfl, rfl, fun o => gen_poke _ _ _ _, fun o j => ?_, i, rfl, fun _ _ => hok⟩
          rw [view_poke]
          by_cases hoj : o = p.obj ∧ j = p.idx
          · obtain ⟨rfl, rfl⟩ := hoj
            rw [if_pos ⟨rfl, rfl⟩, hvp]
            simp only [Option.map_some, compUpd]
            rw [if_pos ⟨by rw [hpg], by simpa using hnc, by simpa using hnone⟩]
          · rw [if_neg hoj]
            cases view st o j with
            | none => rfl
            | some i' =>
              simp only [Option.map_some, compUpd]
              rw [if_neg (by rintro ⟨rfl, _⟩; exact hoj ⟨rfl, rfl⟩)]
        · simp only [Outcome.ok.injEq] at hb; subst hb; simp at hr2
    rw [if_neg (by simp [hf])] at h
    obtain ⟨h1, h2, h3, h4, h5⟩ := ih _ _ h
    refine ⟨h1.trans hs, h2.trans hst, fun o => (h3 o).trans (hg o), fun o j => ?_, ?_⟩
    · rw [h4, hv, hg]
      cases view st o j with
      | none => rfl
      | some i' =>
        simp only [Option.map_some, compUpd, List.mem_cons, Option.some.injEq]
        by_cases ha : (⟨o, gen st o, j⟩ : Ptr) = p <;> by_cases hb : (⟨o, gen st o, j⟩ : Ptr) ∈ l <;>
          by_cases hc : i'.isConst = false <;> by_cases hd : i'.compiled = .none <;> simp [ha, hb, hc, hd]
    · intro q hq
      rcases List.mem_cons.mp hq with rfl | hq
      · exact ⟨i, hd, hc⟩
      · obtain ⟨iq, hdq, hcq⟩ := h5 q hq
        rw [deref_eq, hg, hv] at hdq
        by_cases hgq : gen st q.obj = q.gen
        · rw [if_pos hgq] at hdq
          cases hvq : view st q.obj q.idx with
          | none => rw [hvq] at hdq; simp at hdq
          | some i0 =>
            rw [hvq] at hdq
            simp only [Option.map_some, Option.some.injEq] at hdq
            refine ⟨i0, by rw [deref_eq, if_pos hgq, hvq], fun ha hcn => ?_⟩
            by_cases hqp : (⟨q.obj, gen st q.obj, q.idx⟩ : Ptr) = p
            · have : q = p := by rw [← hqp, hgq]
              subst this
              rw [deref_eq, if_pos hgq, hvq] at hd
              simp at hd; subst hd
              exact hc ha (by assumption)
            · simp only [compUpd, hqp, false_and, if_false] at hdq
              subst hdq
              have := hcq ha hcn
              rwa [hs] at this
        · rw [if_neg hgq] at hdq; simp at hdq

/-- what the evaluation loop does to a parameter -/
def evalUpd (b : Prop) [Decidable b] (i : Info F) : Info F :=
  if b ∧ i.isConst = false then { i with evaluated := true } else i

theorem evalComp_congr (L : Lang F X K) (st st' : St F X K) (h : st'.srcs = st.srcs) (i : Info F) :
    evalComp L st' i = evalComp L st i := by
  unfold evalComp; split <;> simp [h]

theorem eval_loop (L : Lang F X K) (l : List Ptr) : ∀ (st st2 : St F X K),
    loop (eval1 L) l st = .ok (st2, false) →
    st2.srcs = st.srcs ∧ (∀ o, gen st2 o = gen st o) ∧
    (∀ o j, view st2 o j = (view st o j).map (evalUpd (⟨o, gen st o, j⟩ ∈ l))) ∧
    (∀ a, (∀ p ∈ l, ∀ i, deref st p = some i → i.isConst = false → i.target ≠ a) → st2.store a = st.store a) ∧
    (∀ a e, (∀ p ∈ l, ∀ i, deref st p = some i → i.isConst = false → i.target = a →
        (evalComp L st i).bind (L.cast i.kind) = e) →
      (∃ p ∈ l, ∃ i, deref st p = some i ∧ i.isConst = false ∧ i.target = a) → e = .ok (st2.store a)) := by
  induction l with
  | nil =>
    intro st st2 h
    simp only [loop, Outcome.ok.injEq, Prod.mk.injEq, and_true] at h
    subst h
    refine ⟨rfl, fun _ => rfl, fun o j => ?_, by simp, by simp⟩
    cases view st o j <;> simp [evalUpd]
  | cons p l ih =>
    intro st st2 h
    simp only [loop, Outcome.bind_eq_ok] at h
    obtain ⟨r, hb, h⟩ := h
    obtain ⟨hf, hs, hg, hv, i, hd, hkeep, hset⟩ : r.2 = false ∧ r.1.srcs = st.srcs ∧
        (∀ o, gen r.1 o = gen st o) ∧
        (∀ o j, view r.1 o j = (view st o j).map (evalUpd ((⟨o, gen st o, j⟩ : Ptr) = p))) ∧
        ∃ i, deref st p = some i ∧ (∀ a, (i.isConst = false → i.target ≠ a) → r.1.store a = st.store a) ∧
          (i.isConst = false → (evalComp L st i).bind (L.cast i.kind) = .ok (r.1.store i.target)) := by
      have hr2 : r.2 = false := by
        cases hr : r.2 with
        | false => rfl
        | true => simp [hr] at h; rw [h] at hr; simp at hr
      unfold eval1 at hb
      cases hd : deref st p with
      | none => simp [hd] at hb
      | some i =>
        simp only [hd] at hb
        have hpg : gen st p.obj = p.gen := by
          rw [deref_eq] at hd; by_contra hne; simp [hne] at hd
        have hvp : view st p.obj p.idx = some i := by rw [deref_eq, if_pos hpg] at hd; exact hd
        split at hb
        · rename_i hconst
          simp only [Outcome.ok.injEq] at hb; subst hb
          refine ⟨rfl, rfl, fun _ => rfl, fun o j => ?_, i, rfl, fun _ _ => rfl, ?_⟩
          · cases hvo : view st o j with
            | none => rfl
            | some i' =>
              simp only [Option.map_some, evalUpd]
              split
              · rename_i hc
                obtain ⟨rfl, hc2⟩ := hc
                simp only at hvp; rw [hvp] at hvo; simp at hvo; subst hvo
                rw [hc2] at hconst; simp at hconst
              · rfl
          · intro h'; rw [h'] at hconst; simp at hconst
        · rename_i hnc
          cases hev : (evalComp L st i).bind (L.cast i.kind) with
          | ub => rw [hev] at hb; simp at hb
          | throw => rw [hev] at hb; simp only [Outcome.ok.injEq] at hb; subst hb; simp at hr2
          | ok v =>
            rw [hev] at hb; simp only [Outcome.ok.injEq] at hb; subst hb
            refine ⟨rfl, rfl, fun o => gen_poke _ _ _ _, fun o j => ?_, i, rfl, fun a ha => ?_, fun _ => ?_⟩
            · show view (poke st p _) o j = _
              rw [view_poke]
              by_cases hoj : o = p.obj ∧ j = p.idx
              · obtain ⟨rfl, rfl⟩ := hoj
                rw [if_pos ⟨rfl, rfl⟩, hvp]
                simp only [Option.map_some, evalUpd]
                rw [if_pos ⟨by rw [hpg], by simpa using hnc⟩]
              · rw [if_neg hoj]
                cases view st o j with
                | none => rfl
                | some i' =>
                  simp only [Option.map_some, evalUpd]
                  rw [if_neg (by rintro ⟨rfl, _⟩; exact hoj ⟨rfl, rfl⟩)]
            · show Function.update st.store i.target v a = _
              rw [Function.update_of_ne (fun h => ha (by simpa using hnc) h.symm)]
            · show _ = Outcome.ok (Function.update st.store i.target v i.target)
              rw [Function.update_self]; exact hev
    rw [if_neg (by simp [hf])] at h
    obtain ⟨h1, h2, h3, h4, h5⟩ := ih _ _ h
    -- a parameter of the rest, seen before and after the first step
    have hder : ∀ q, deref r.1 q = (deref st q).map (evalUpd (q = p)) := by
      intro q
      rw [deref_eq, deref_eq, hg, hv]
      by_cases hgq : gen st q.obj = q.gen
      · rw [if_pos hgq, if_pos hgq]
        cases view st q.obj q.idx with
        | none => rfl
        | some i' =>
          simp only [Option.map_some, Option.some.injEq]
          have : (⟨q.obj, gen st q.obj, q.idx⟩ : Ptr) = q := by rw [hgq]
          simp [this]
      · rw [if_neg hgq, if_neg hgq]; rfl
    have hupd : ∀ (b : Prop) [Decidable b] (i : Info F), (evalUpd b i).isConst = i.isConst ∧ (evalUpd b i).target = i.target ∧
        (evalUpd b i).kind = i.kind ∧ (evalUpd b i).compiled = i.compiled ∧ (evalUpd b i).expr = i.expr := by
      intro b _ i; unfold evalUpd; split <;> simp
    have hevc : ∀ (b : Prop) [Decidable b] (i : Info F), evalComp L r.1 (evalUpd b i) = evalComp L st i := by
      intro b _ i
      rw [evalComp_congr L st r.1 hs]
      obtain ⟨_, _, _, e4, e5⟩ := hupd b i
      unfold evalComp; rw [e4, e5]
    refine ⟨h1.trans hs, fun o => (h2 o).trans (hg o), fun o j => ?_, ?_, ?_⟩
    · rw [h3, hv, hg]
      cases view st o j with
      | none => rfl
      | some i' =>
        simp only [Option.map_some, evalUpd, List.mem_cons, Option.some.injEq]
        by_cases ha : (⟨o, gen st o, j⟩ : Ptr) = p <;> by_cases hb : (⟨o, gen st o, j⟩ : Ptr) ∈ l <;>
          by_cases hc : i'.isConst = false <;> simp [ha, hb, hc]
    · intro a ha
      rw [h4 a, hkeep a (ha p (by simp) i hd)]
      intro q hq iq hdq hcq
      rw [hder] at hdq
      cases hq0 : deref st q with
      | none => simp [hq0] at hdq
      | some i0 =>
        simp only [hq0, Option.map_some, Option.some.injEq] at hdq
        subst hdq
        rw [(hupd _ i0).1] at hcq
        rw [(hupd _ i0).2.1]
        exact ha q (by simp [hq]) i0 hq0 hcq
    · intro a e he hex
      by_cases hrest : ∃ q ∈ l, ∃ i, deref st q = some i ∧ i.isConst = false ∧ i.target = a
      · apply h5 a e
        · intro q hq iq hdq hcq htq
          rw [hder] at hdq
          cases hq0 : deref st q with
          | none => simp [hq0] at hdq
          | some i0 =>
            simp only [hq0, Option.map_some, Option.some.injEq] at hdq
            subst hdq
            rw [hevc]
            rw [(hupd _ i0).1] at hcq
            rw [(hupd _ i0).2.1] at htq
            rw [(hupd _ i0).2.2.1]
            exact he q (by simp [hq]) i0 hq0 hcq htq
        · obtain ⟨q, hq, i0, hd0, hc0, ht0⟩ := hrest
          refine ⟨q, hq, evalUpd (q = p) i0, by rw [hder, hd0]; rfl, ?_, ?_⟩
          · rw [(hupd _ i0).1]; exact hc0
          · rw [(hupd _ i0).2.1]; exact ht0
      · obtain ⟨q, hq, i0, hd0, hc0, ht0⟩ := hex
        rcases List.mem_cons.mp hq with rfl | hq
        · rw [hd] at hd0; simp at hd0; subst hd0
          rw [← he q (by simp) i hd hc0 ht0, hset hc0]
          congr 1
          rw [← ht0]
          symm
          apply h4
          intro q' hq' iq hdq hcq htq
          apply hrest
          rw [hder] at hdq
          cases hq0 : deref st q' with
          | none => simp [hq0] at hdq
          | some i1 =>
            simp only [hq0, Option.map_some, Option.some.injEq] at hdq
            subst hdq
            rw [(hupd _ i1).1] at hcq
            rw [(hupd _ i1).2.1] at htq
            exact ⟨q', hq', i1, hq0, hcq, by rw [htq, ht0]⟩
        · exact absurd ⟨q, hq, i0, hd0, hc0, ht0⟩ hrest

end Param
end Verif
