import Verif.Lemmas.ParamInv
/-
When `realize` succeeds; what a failed compilation leaves behind.
-/
set_option linter.unusedSectionVars false
namespace Verif
namespace Param
variable {F X K : Type} [LinearOrder X]

theorem loop_cons (body : St F X K → Ptr → Outcome (St F X K × Bool)) (p : Ptr) (l : List Ptr) (st : St F X K) :
    loop body (p :: l) st = (loop body [p] st).bind fun r => if r.2 then .ok r else loop body l r.1 := by
  simp only [loop]
  cases body st p with
  | throw => rfl
  | ub => rfl
  | ok r => cases h : r.2 <;> simp [h]

theorem compile_loop_ok (L : Lang F X K) (s : Nat) (l : List Ptr) : ∀ st : St F X K,
    (∀ p ∈ l, (deref st p).isSome) → ∃ r, loop (compile1 L s) l st = .ok r := by
  induction l with
  | nil => intro st _; exact ⟨_, rfl⟩
  | cons p l ih =>
    intro st h
    rw [loop_cons]
    obtain ⟨i, hi⟩ := Option.isSome_iff_exists.mp (h p (by simp))
    obtain ⟨r, hr⟩ : ∃ r, loop (compile1 L s) [p] st = .ok r := by
      simp only [loop, compile1, hi]
      split
      · exact ⟨_, rfl⟩
      split
      · exact ⟨_, rfl⟩
      split
      · exact ⟨_, rfl⟩
      · exact ⟨_, rfl⟩
    rw [hr]
    simp only [Outcome.bind]
    split
    · exact ⟨_, rfl⟩
    · rename_i hf
      apply ih
      intro q hq
      obtain ⟨r1, r2⟩ := r
      simp at hf; subst hf
      obtain ⟨_, _, c3, c4, _⟩ := compile_loop L s _ _ _ hr
      have := h q (by simp [hq])
      rw [deref_eq] at this ⊢
      rw [c3, c4]
      by_cases hg : gen st q.obj = q.gen
      · rw [if_pos hg] at this ⊢; simpa using this
      · rw [if_neg hg] at this; simp at this

theorem compile_loop_succeeds (L : Lang F X K) (s : Nat) (l : List Ptr) : ∀ st : St F X K,
    (∀ p ∈ l, ∃ i, deref st p = some i ∧ (i.isConst = true ∨ i.compiled ≠ .none ∨
      L.compiles i.expr (st.srcs s).vars = true)) → ∃ st1, loop (compile1 L s) l st = .ok (st1, false) := by
  induction l with
  | nil => intro st _; exact ⟨_, rfl⟩
  | cons p l ih =>
    intro st h
    rw [loop_cons]
    obtain ⟨i, hi, hc⟩ := h p (by simp)
    obtain ⟨r, hr⟩ : ∃ r, loop (compile1 L s) [p] st = .ok (r, false) := by
      simp only [loop, compile1, hi]
      split
      · exact ⟨_, rfl⟩
      split
      · exact ⟨_, rfl⟩
      split
      · exact ⟨_, rfl⟩
      · rename_i h1 h2 h3
        rcases hc with hc | hc | hc
        · exact absurd hc h1
        · exact absurd hc h2
        · exact absurd hc h3
    rw [hr]
    simp only [Outcome.bind, Bool.false_eq_true, if_false]
    apply ih
    intro q hq
    obtain ⟨c1, _, c3, c4, _⟩ := compile_loop L s _ _ _ hr
    obtain ⟨iq, hiq, hcq⟩ := h q (by simp [hq])
    rw [deref_eq] at hiq
    rw [deref_eq, c3, c4, c1]
    by_cases hg : gen st q.obj = q.gen
    · rw [if_pos hg] at hiq ⊢
      rw [hiq]
      refine ⟨_, rfl, ?_⟩
      unfold compUpd
      split
      · right; left; simp
      · exact hcq
    · rw [if_neg hg] at hiq; simp at hiq

theorem eval_loop_succeeds (L : Lang F X K) (l : List Ptr) : ∀ st : St F X K,
    (∀ p ∈ l, ∃ i, deref st p = some i ∧ (i.isConst = true ∨
      ∃ v, (evalComp L st i).bind (L.cast i.kind) = .ok v)) → ∃ st1, loop (eval1 L) l st = .ok (st1, false) := by
  induction l with
  | nil => intro st _; exact ⟨_, rfl⟩
  | cons p l ih =>
    intro st h
    rw [loop_cons]
    obtain ⟨i, hi, hc⟩ := h p (by simp)
    obtain ⟨r, hr⟩ : ∃ r, loop (eval1 L) [p] st = .ok (r, false) := by
      simp only [loop, eval1, hi]
      split
      · exact ⟨_, rfl⟩
      · rename_i h1
        rcases hc with hc | ⟨v, hv⟩
        · exact absurd hc h1
        · rw [hv]; exact ⟨_, rfl⟩
    rw [hr]
    simp only [Outcome.bind, Bool.false_eq_true, if_false]
    apply ih
    intro q hq
    obtain ⟨c1, c3, c4, _⟩ := eval_loop L _ _ _ hr
    obtain ⟨iq, hiq, hcq⟩ := h q (by simp [hq])
    rw [deref_eq] at hiq
    rw [deref_eq, c3, c4]
    by_cases hg : gen st q.obj = q.gen
    · rw [if_pos hg] at hiq ⊢
      rw [hiq]
      refine ⟨_, rfl, ?_⟩
      have hk : ∀ (b : Prop) [Decidable b] (i : Info F), (evalUpd b i).isConst = i.isConst ∧ (evalUpd b i).kind = i.kind ∧
          (evalUpd b i).compiled = i.compiled ∧ (evalUpd b i).expr = i.expr := by
        intro b _ i; unfold evalUpd; split <;> simp
      rw [(hk _ iq).1, (hk _ iq).2.1]
      have : evalComp L r (evalUpd ((⟨q.obj, gen st q.obj, q.idx⟩ : Ptr) ∈ [p]) iq) = evalComp L st iq := by
        rw [evalComp_congr L st r c1]
        unfold evalComp; rw [(hk _ iq).2.2.1, (hk _ iq).2.2.2]
      rw [this]
      exact hcq
    · rw [if_neg hg] at hiq; simp at hiq

/-- `realize` goes through when all the formulas attached can be evaluated and converted -/
theorem realize_goes_through (L : Lang F X K) (s : Nat) (ops : List (Op F X K)) (st : St F X K) (hI : Inv L s ops st)
    (g : List Ptr → List Ptr) (hg : ∀ l, (g l).Perm l)
    (h : ∀ o f k a, .declare o f k a ∈ ops → .attach s o ∈ ops → ¬ L.closed f → L.valid f = true ∧
      (∀ x ∈ L.free f, (lastUpdate s x ops).isSome) ∧ ∃ v, L.cast k (L.value f fun x => lastUpdate s x ops) = .ok v) :
    ∃ st', realize L st s g = .ok (st', false) := by
  simp only [realize]
  have hmem : ∀ p ∈ g (st.srcs s).attached, ∃ i, view st p.obj p.idx = some i ∧ i ∈ (st.objs p.obj).params ∧
      deref st p = some i ∧ .attach s p.obj ∈ ops ∧ .declare p.obj i.expr i.kind i.target ∈ ops := by
    intro p hp
    rw [(hg _).mem_iff, hI.att] at hp
    obtain ⟨h1, h2, h3⟩ := hp
    have hv : view st p.obj p.idx = some ((st.objs p.obj).params[p.idx]'h3) := List.getElem?_eq_getElem h3
    refine ⟨_, hv, List.getElem_mem _, by rw [deref_eq, if_pos h2.symm, hv], h1, ?_⟩
    rw [← mem_declares, ← hI.sig, List.mem_map]
    exact ⟨_, List.getElem_mem h3, rfl⟩
  have hcompiles : ∀ f, L.valid f = true → (∀ x ∈ L.free f, (lastUpdate s x ops).isSome) →
      L.compiles f (st.srcs s).vars = true := by
    intro f hv hf
    unfold Lang.compiles
    simp only [hv, Bool.true_and, List.all_eq_true]
    intro x hx
    rw [hI.vars]; exact hf x hx
  obtain ⟨st1, hst1⟩ := compile_loop_succeeds L s (g (st.srcs s).attached) st (by
    intro p hp
    obtain ⟨i, hv, hm, hd, ha, hde⟩ := hmem p hp
    refine ⟨i, hd, ?_⟩
    by_cases hc : L.closed i.expr
    · left; exact (hI.const _ _ hm).mpr hc
    · right; right
      obtain ⟨h1, h2, _⟩ := h _ _ _ _ hde ha hc
      exact hcompiles _ h1 h2)
  rw [hst1]
  simp only [Outcome.bind, Bool.false_eq_true, if_false]
  obtain ⟨c1, _, c3, c4, _⟩ := compile_loop L s _ _ _ hst1
  apply eval_loop_succeeds
  intro p hp
  obtain ⟨i, hv, hm, hd, ha, hde⟩ := hmem p hp
  have hpg : gen st p.obj = p.gen := by rw [deref_eq] at hd; by_contra hne; simp [hne] at hd
  refine ⟨_, by rw [deref_eq, c3, if_pos hpg, c4, hv]; rfl, ?_⟩
  have hin : (⟨p.obj, gen st p.obj, p.idx⟩ : Ptr) ∈ g (st.srcs s).attached := by rw [hpg]; exact hp
  have hcm : ∀ (b : Prop) [Decidable b], (compUpd s b i).expr = i.expr ∧ (compUpd s b i).kind = i.kind ∧
      (compUpd s b i).isConst = i.isConst := by
    intro b _; unfold compUpd; split <;> simp
  by_cases hc : L.closed i.expr
  · left; rw [(hcm _).2.2]; exact (hI.const _ _ hm).mpr hc
  · right
    have hic : i.isConst = false := by
      cases hic : i.isConst with
      | false => rfl
      | true => exact absurd ((hI.const _ _ hm).mp hic) hc
    obtain ⟨_, _, v, hv'⟩ := h _ _ _ _ hde ha hc
    refine ⟨v, ?_⟩
    have hb : (compUpd s ((⟨p.obj, gen st p.obj, p.idx⟩ : Ptr) ∈ g (st.srcs s).attached) i).compiled = .bound s := by
      unfold compUpd
      by_cases hn : i.compiled = .none
      · rw [if_pos ⟨hin, hic, hn⟩]
      · rw [if_neg (by tauto)]
        rcases hI.comp _ _ hm hic with h | h
        · exact absurd h hn
        · exact h.1
    unfold evalComp
    rw [hb, (hcm _).1, (hcm _).2.1, c1]
    simp only [Outcome.bind, hI.vars]
    exact hv'

/-- ... and throws when one of them is malformed or mentions a variable not defined yet -/
theorem realize_refuses (L : Lang F X K) (s : Nat) (ops : List (Op F X K)) (st : St F X K) (hI : Inv L s ops st)
    (g : List Ptr → List Ptr) (hg : ∀ l, (g l).Perm l) (o : Nat) (f : F) (k : Kind) (a : Nat)
    (hd : .declare o f k a ∈ ops) (ha : .attach s o ∈ ops)
    (hbad : L.valid f = false ∨ ∃ x ∈ L.free f, lastUpdate s x ops = none) :
    ∃ st', realize L st s g = .ok (st', true) := by
  have hncl : ¬ L.closed f := by
    rintro ⟨h1, h2⟩
    rcases hbad with h | ⟨x, hx, _⟩
    · rw [h] at h1; simp at h1
    · rw [h2] at hx; simp at hx
  have hnc : ¬ L.compiles f (st.srcs s).vars = true := by
    unfold Lang.compiles
    simp only [Bool.and_eq_true, List.all_eq_true, not_and]
    intro hv hh
    rcases hbad with h | ⟨x, hx, hx2⟩
    · rw [h] at hv; simp at hv
    · have := hh x hx; rw [hI.vars, hx2] at this; simp at this
  simp only [realize]
  obtain ⟨⟨st1, b⟩, h1⟩ := compile_loop_ok L s (g (st.srcs s).attached) st (by
    intro p hp
    rw [(hg _).mem_iff, hI.att] at hp
    rw [deref_eq, if_pos hp.2.1.symm]
    unfold view; rw [List.getElem?_eq_getElem hp.2.2]; rfl)
  rw [h1]
  cases b with
  | true => exact ⟨st1, rfl⟩
  | false =>
    exfalso
    obtain ⟨_, _, _, _, c5⟩ := compile_loop L s _ _ _ h1
    have hm : (f, k, a) ∈ declares o ops := (mem_declares o ops f k a).mpr hd
    rw [← hI.sig, List.mem_map] at hm
    obtain ⟨i, hi, he⟩ := hm
    simp only [Prod.mk.injEq] at he
    obtain ⟨rfl, rfl, rfl⟩ := he
    obtain ⟨j, hj⟩ := List.getElem?_of_mem hi
    have hlt : j < (st.objs o).params.length := (List.getElem?_eq_some_iff.mp hj).1
    obtain ⟨i', hd', hc'⟩ := c5 ⟨o, gen st o, j⟩ (by rw [(hg _).mem_iff, hI.att]; exact ⟨ha, rfl, hlt⟩)
    rw [deref_eq, if_pos rfl] at hd'
    have hv : view st o j = some i := hj
    simp only at hd'
    rw [hv] at hd'; simp at hd'; subst hd'
    have hic : i.isConst = false := by
      cases hic : i.isConst with
      | false => rfl
      | true => exact absurd ((hI.const _ _ hi).mp hic) hncl
    rcases hI.comp _ _ hi hic with h | h
    · exact hnc (hc' hic h)
    · exact hnc h.2

/-! ### a failed compilation is for ever -/

/-- parameter `j` of `o` is broken: its compilation has failed once -/
def Broken (st : St F X K) (o j : Nat) (f : F) (k : Kind) (a : Nat) : Prop :=
  ∃ i, view st o j = some i ∧ i.compiled = .failed ∧ i.isConst = false ∧ i.expr = f ∧ i.kind = k ∧ i.target = a

theorem broken_poke {st : St F X K} {o j : Nat} {f : F} {k : Kind} {a : Nat} (h : Broken st o j f k a) (p : Ptr) (i i' : Info F)
    (hi : deref st p = some i) (hc : i.compiled = .failed → i.isConst = false → i'.compiled = .failed ∧ i'.isConst = false ∧ i'.expr = i.expr ∧
      i'.kind = i.kind ∧ i'.target = i.target) : Broken (poke st p i') o j f k a := by
  obtain ⟨i0, h0, h1, h2, h3, h4, h5⟩ := h
  by_cases hoj : o = p.obj ∧ j = p.idx
  · obtain ⟨rfl, rfl⟩ := hoj
    have : i = i0 := by
      rw [deref_eq] at hi
      split at hi
      · rw [h0] at hi; simpa using hi.symm
      · simp at hi
    subst this
    obtain ⟨e1, e2, e3, e4, e5⟩ := hc h1 h2
    exact ⟨i', by rw [view_poke, if_pos ⟨rfl, rfl⟩, h0]; rfl, e1, e2, by rw [e3, h3], by rw [e4, h4], by rw [e5, h5]⟩
  · exact ⟨i0, by rw [view_poke, if_neg hoj]; exact h0, h1, h2, h3, h4, h5⟩

theorem broken_loop (body : St F X K → Ptr → Outcome (St F X K × Bool)) (o j : Nat) (f : F) (k : Kind) (a : Nat)
    (hb : ∀ st p r, body st p = .ok r → Broken st o j f k a → Broken r.1 o j f k a) (l : List Ptr) :
    ∀ st r, loop body l st = .ok r → Broken st o j f k a → Broken r.1 o j f k a := by
  induction l with
  | nil => intro st r h hB; simp only [loop, Outcome.ok.injEq] at h; subst h; exact hB
  | cons p l ih =>
    intro st r h hB
    simp only [loop, Outcome.bind_eq_ok] at h
    obtain ⟨r1, h1, h2⟩ := h
    have := hb st p r1 h1 hB
    split at h2
    · simp only [Outcome.ok.injEq] at h2; subst h2; exact this
    · exact ih _ _ h2 this

theorem broken_step (L : Lang F X K) (st : St F X K) (op : Op F X K) (r : St F X K × Bool) (h : step L st op = .ok r)
    (o j : Nat) (f : F) (k : Kind) (a : Nat) (hB : Broken st o j f k a) : Broken r.1 o j f k a := by
  cases op with
  | declare o' f' k' a' =>
    simp only [step, Outcome.bind_eq_ok, Outcome.ok.injEq] at h
    obtain ⟨st2, h3, rfl⟩ := h
    have key : ∀ (i : Info F) (sto : Nat → K), Broken (⟨Function.update st.objs o' ((st.objs o').push i), st.srcs, sto⟩ : St F X K) o j f k a := by
      intro i sto
      obtain ⟨i0, h0, rest⟩ := hB
      refine ⟨i0, ?_, rest⟩
      unfold view at h0 ⊢
      by_cases ho : o = o'
      · subst ho
        simp only [Function.update_self, push_params]
        rw [List.getElem?_append_left (List.getElem?_eq_some_iff.mp h0).1]; exact h0
      · simpa [Function.update_of_ne ho] using h0
    unfold declare at h3
    split at h3
    · rw [Outcome.bind_eq_ok] at h3
      obtain ⟨v, _, h3⟩ := h3
      simp only [Outcome.ok.injEq] at h3; subst h3; exact key _ _
    · simp only [Outcome.ok.injEq] at h3; subst h3; exact key _ _
  | attach s' o' =>
    simp only [step, Outcome.ok.injEq] at h; subst h
    obtain ⟨i0, h0, rest⟩ := hB
    refine ⟨i0, ?_, rest⟩
    unfold view attach at *
    by_cases ho : o = o'
    · subst ho; simpa using h0
    · simpa [Function.update_of_ne ho] using h0
  | update s' x v => simp only [step, Outcome.ok.injEq] at h; subst h; exact hB
  | unrealize o' =>
    simp only [step, Outcome.ok.injEq] at h; subst h
    obtain ⟨i0, h0, h1, h2, h3, h4, h5⟩ := hB
    unfold view at h0
    by_cases ho : o = o'
    · subst ho
      refine ⟨{ i0 with evaluated := false }, ?_, h1, h2, h3, h4, h5⟩
      unfold view unrealize
      simp [h0, h2]
    · refine ⟨i0, ?_, h1, h2, h3, h4, h5⟩
      unfold view unrealize
      simpa [Function.update_of_ne ho] using h0
  | realize s' g =>
    simp only [step, realize, Outcome.bind_eq_ok] at h
    obtain ⟨r1, h1, h2⟩ := h
    have hB1 : Broken r1.1 o j f k a := by
      refine broken_loop (compile1 L s') o j f k a ?_ _ _ _ h1 hB
      intro st p r hb hB
      unfold compile1 at hb
      cases hd : deref st p with
      | none => simp [hd] at hb
      | some i =>
        simp only [hd] at hb
        split at hb
        · simp only [Outcome.ok.injEq] at hb; subst hb; exact hB
        split at hb
        · simp only [Outcome.ok.injEq] at hb; subst hb; exact hB
        rename_i _ hcm
        split at hb
        · simp only [Outcome.ok.injEq] at hb; subst hb
          exact broken_poke hB p i _ hd fun hf _ => absurd (by rw [hf]; simp) hcm
        · simp only [Outcome.ok.injEq] at hb; subst hb
          exact broken_poke hB p i _ hd fun hf hc => ⟨rfl, hc, rfl, rfl, rfl⟩
    split at h2
    · simp only [Outcome.ok.injEq] at h2; subst h2; exact hB1
    · refine broken_loop (eval1 L) o j f k a ?_ _ _ _ h2 hB1
      intro st p r hb hB
      unfold eval1 at hb
      cases hd : deref st p with
      | none => simp [hd] at hb
      | some i =>
        simp only [hd] at hb
        split at hb
        · simp only [Outcome.ok.injEq] at hb; subst hb; exact hB
        · split at hb
          · simp at hb
          · simp only [Outcome.ok.injEq] at hb; subst hb; exact hB
          · simp only [Outcome.ok.injEq] at hb; subst hb
            exact broken_poke hB p i _ hd fun hf hc => ⟨hf, hc, rfl, rfl, rfl⟩

theorem broken_run (L : Lang F X K) (o j : Nat) (f : F) (k : Kind) (a : Nat) (ops : List (Op F X K)) :
    ∀ (st : St F X K) (r : St F X K × Bool), run L ops st = .ok r → Broken st o j f k a → Broken r.1 o j f k a := by
  induction ops with
  | nil => intro st r h hB; simp only [run, Outcome.ok.injEq] at h; subst h; exact hB
  | cons op ops ih =>
    intro st r h hB
    simp only [run, Outcome.bind_eq_ok, Outcome.ok.injEq] at h
    obtain ⟨r1, h1, r2, h2, rfl⟩ := h
    exact ih _ r2 h2 (broken_step L st op r1 h1 o j f k a hB)

end Param
end Verif
