import Verif.Lemmas.Param
/-
The state reached by a history that follows the protocol and in which nothing has thrown.
-/
set_option linter.unusedSectionVars false
namespace Verif
namespace Param
variable {F X K : Type} [LinearOrder X]

theorem run_append (L : Lang F X K) (l m : List (Op F X K)) : ∀ st : St F X K,
    run L (l ++ m) st = (run L l st).bind fun r => (run L m r.1).bind fun q => .ok (q.1, r.2 || q.2) := by
  induction l with
  | nil =>
    intro st
    simp only [List.nil_append, run, Outcome.bind, Bool.false_or]
    cases run L m st <;> simp
  | cons o l ih =>
    intro st
    simp only [List.cons_append, run]
    cases step L st o with
    | throw => rfl
    | ub => rfl
    | ok r =>
      simp only [Outcome.bind]
      rw [ih]
      cases run L l r.1 with
      | throw => rfl
      | ub => rfl
      | ok q =>
        simp only [Outcome.bind]
        cases run L m q.1 with
        | throw => rfl
        | ub => rfl
        | ok w => simp [Bool.or_assoc]

theorem run_snoc_ok (L : Lang F X K) (l : List (Op F X K)) (o : Op F X K) (st st' : St F X K)
    (h : run L (l ++ [o]) st = .ok (st', false)) :
    ∃ st1, run L l st = .ok (st1, false) ∧ step L st1 o = .ok (st', false) := by
  rw [run_append] at h
  simp only [Outcome.bind_eq_ok, run] at h
  obtain ⟨⟨st1, b⟩, h1, ⟨q, c⟩, ⟨⟨w, d⟩, h2, u, h3, h4⟩, h5⟩ := h
  simp only [Outcome.ok.injEq, Prod.mk.injEq, Bool.or_eq_false_iff] at h3 h4 h5
  subst h3
  obtain ⟨rfl, rfl⟩ := h4
  obtain ⟨rfl, rfl, h6⟩ := h5
  simp at h6
  subst h6
  exact ⟨st1, h1, h2⟩

theorem Protocol.prefix {s : Nat} {l : List (Op F X K)} {o : Op F X K} (h : Protocol s (l ++ [o])) : Protocol s l where
  one_source := fun x hx => h.one_source x (by simp [hx])
  declare_first := fun pre post ob f k a e => h.declare_first pre (post ++ [o]) ob f k a (by simp [e])

/-- the parameters an object has declared -/
def declares (o : Nat) (ops : List (Op F X K)) : List (F × Kind × Nat) :=
  ops.filterMap fun
    | .declare o' f k a => if o' = o then some (f, k, a) else none
    | _ => none

theorem mem_declares (o : Nat) (ops : List (Op F X K)) (f : F) (k : Kind) (a : Nat) :
    (f, k, a) ∈ declares o ops ↔ .declare o f k a ∈ ops := by
  unfold declares
  rw [List.mem_filterMap]
  constructor
  · rintro ⟨x, hx, h⟩
    cases x <;> simp at h
    obtain ⟨rfl, rfl, rfl, rfl⟩ := h; exact hx
  · intro h; exact ⟨_, h, by simp⟩

theorem declares_snoc (o : Nat) (ops : List (Op F X K)) (x : Op F X K) :
    declares o (ops ++ [x]) = declares o ops ++ declares o [x] := by simp [declares]

structure Inv (L : Lang F X K) (s : Nat) (ops : List (Op F X K)) (st : St F X K) : Prop where
  sig : ∀ o, (st.objs o).params.map (fun i => (i.expr, i.kind, i.target)) = declares o ops
  const : ∀ o, ∀ i ∈ (st.objs o).params, (i.isConst = true ↔ L.closed i.expr)
  comp : ∀ o, ∀ i ∈ (st.objs o).params, i.isConst = false →
    i.compiled = .none ∨ (i.compiled = .bound s ∧ L.compiles i.expr (st.srcs s).vars = true)
  eval : ∀ o, ∀ i ∈ (st.objs o).params, (i.evaluated = true ↔ L.closed i.expr ∨ Realized s o ops)
  att : ∀ p : Ptr, p ∈ (st.srcs s).attached ↔
    .attach s p.obj ∈ ops ∧ p.gen = gen st p.obj ∧ p.idx < (st.objs p.obj).params.length
  vars : ∀ x, AMap.get (st.srcs s).vars x = lastUpdate s x ops
  store : ∀ o f k a, .declare o f k a ∈ ops → L.closed f →
    (∀ o' f' k', .declare o' f' k' a ∈ ops → f' = f ∧ k' = k) → L.cast k (L.value f fun _ => none) = .ok (st.store a)

theorem compiles_nil (L : Lang F X K) (f : F) : L.compiles f [] = true ↔ L.closed f := by
  unfold Lang.compiles Lang.closed
  simp only [Bool.and_eq_true, List.all_eq_true, AMap.get_nil, Option.isSome_none, Bool.false_eq_true]
  rw [List.eq_nil_iff_forall_not_mem]

theorem lastUpdate_snoc (s : Nat) (x : X) (l : List (Op F X K)) (o : Op F X K) :
    lastUpdate s x (l ++ [o]) = match lastUpdate s x [o] with | some v => some v | none => lastUpdate s x l := by
  induction l with
  | nil => simp only [List.nil_append, lastUpdate]; cases h : lastUpdate s x [o] <;> simp
  | cons a l ih =>
    cases a <;> simp only [List.cons_append, lastUpdate, ih]
    case update s' y v =>
      cases lastUpdate s x [o] <;> simp

theorem realized_snoc_other (s o : Nat) (l : List (Op F X K)) (x : Op F X K) (hr : ∀ g, x ≠ .realize s g)
    (hu : x ≠ .unrealize o) : Realized s o (l ++ [x]) ↔ Realized s o l := by
  constructor
  · rintro ⟨pre, g, post, h, h1, h2⟩
    rcases List.eq_nil_or_concat post with rfl | ⟨post', y, rfl⟩
    · have := List.append_inj' h rfl
      simp at this
      exact absurd this.2 (hr g)
    · have h' : l ++ [x] = (pre ++ .realize s g :: post') ++ [y] := by rw [h]; simp
      have := List.append_inj' h' rfl
      simp at this
      obtain ⟨rfl, rfl⟩ := this
      exact ⟨pre, g, post', rfl, h1, fun hh => h2 (by simp [hh])⟩
  · rintro ⟨pre, g, post, rfl, h1, h2⟩
    exact ⟨pre, g, post ++ [x], by simp, h1, by simp [h2]; exact fun h => hu h.symm⟩

theorem realized_snoc_unrealize (s o : Nat) (l : List (Op F X K)) : ¬ Realized s o (l ++ [.unrealize o]) := by
  rintro ⟨pre, g, post, h, h1, h2⟩
  rcases List.eq_nil_or_concat post with rfl | ⟨post', y, rfl⟩
  · have := List.append_inj' h rfl; simp at this
  · have h' : l ++ [.unrealize o] = (pre ++ .realize s g :: post') ++ [y] := by rw [h]; simp
    have := List.append_inj' h' rfl
    simp at this
    exact h2 (by simp [this.2])

theorem realized_snoc_realize (s o : Nat) (l : List (Op F X K)) (g : List Ptr → List Ptr) :
    Realized s o (l ++ [.realize s g]) ↔ Realized s o l ∨ .attach s o ∈ l := by
  constructor
  · rintro ⟨pre, g', post, h, h1, h2⟩
    rcases List.eq_nil_or_concat post with rfl | ⟨post', y, rfl⟩
    · have := List.append_inj' h rfl
      simp at this
      right; rw [this.1]; exact h1
    · have h' : l ++ [.realize s g] = (pre ++ .realize s g' :: post') ++ [y] := by rw [h]; simp
      have := List.append_inj' h' rfl
      simp at this
      obtain ⟨rfl, rfl⟩ := this
      exact .inl ⟨pre, g', post', rfl, h1, fun hh => h2 (by simp [hh])⟩
  · rintro (⟨pre, g', post, rfl, h1, h2⟩ | h)
    · exact ⟨pre, g', post ++ [.realize s g], by simp, h1, by simp [h2]⟩
    · exact ⟨l, g, [], rfl, h, by simp⟩

theorem mem_foldl_insert (ptrs : List Ptr) : ∀ (l : List Ptr) (q : Ptr),
    q ∈ ptrs.foldl (fun l p => if p ∈ l then l else l ++ [p]) l ↔ q ∈ l ∨ q ∈ ptrs := by
  induction ptrs with
  | nil => simp
  | cons p ps ih =>
    intro l q
    rw [List.foldl_cons, ih]
    by_cases hp : p ∈ l
    · simp only [hp, if_true, List.mem_cons]
      constructor
      · tauto
      · rintro (h | rfl | h)
        · exact .inl h
        · exact .inl hp
        · exact .inr h
    · simp only [hp, if_false, List.mem_append, List.mem_singleton, List.mem_cons]; tauto

theorem inv_init (L : Lang F X K) (s : Nat) (store : Nat → K) : Inv L s [] (St.init store) where
  sig := by intro o; rfl
  const := by intro o i h; simp [St.init] at h
  comp := by intro o i h; simp [St.init] at h
  eval := by intro o i h; simp [St.init] at h
  att := by intro p; simp [St.init]
  vars := by intro x; rfl
  store := by intro o f k a h; simp at h

theorem push_params (o : Obj F) (p : Info F) : (o.push p).params = o.params ++ [p] := by
  unfold Obj.push; split <;> rfl

/-- declaring a parameter -/
theorem inv_declare (L : Lang F X K) (s : Nat) (ops : List (Op F X K)) (st st' : St F X K) (hI : Inv L s ops st)
    (o : Nat) (f : F) (k : Kind) (a : Nat) (hn : .attach s o ∉ ops) (h : declare L st o f k a = .ok st') :
    Inv L s (ops ++ [.declare o f k a]) st' := by
  -- the new entry and the new store
  obtain ⟨i, hie, hik, hit, hic, hicm, hiev, hobj, hsrc, hsto⟩ : ∃ i : Info F, i.expr = f ∧ i.kind = k ∧ i.target = a ∧
      (i.isConst = true ↔ L.closed f) ∧ (i.isConst = false → i.compiled = .none) ∧ (i.evaluated = true ↔ L.closed f) ∧
      st'.objs = Function.update st.objs o ((st.objs o).push i) ∧ st'.srcs = st.srcs ∧
      ((¬ L.closed f ∧ st'.store = st.store) ∨
        (L.closed f ∧ ∃ v, L.cast k (L.value f fun _ => none) = .ok v ∧ st'.store = Function.update st.store a v)) := by
    unfold declare at h
    split at h
    · rename_i hc
      rw [compiles_nil] at hc
      rw [Outcome.bind_eq_ok] at h
      obtain ⟨v, hv, h⟩ := h
      simp only [Outcome.ok.injEq] at h; subst h
      exact ⟨{ expr := f, kind := k, target := a, compiled := .closed, isConst := true, evaluated := true }, rfl, rfl, rfl, by simp [hc], by simp, by simp [hc], rfl, rfl, .inr ⟨hc, v, hv, rfl⟩⟩
    · rename_i hc
      rw [compiles_nil] at hc
      simp only [Outcome.ok.injEq] at h; subst h
      exact ⟨{ expr := f, kind := k, target := a }, rfl, rfl, rfl, by simp [hc], by simp, by simp [hc], rfl, rfl, .inl ⟨hc, rfl⟩⟩
  have hnr : ¬ Realized s o ops := by
    rintro ⟨pre, g, post, rfl, h1, _⟩; exact hn (by simp [h1])
  have hpar : ∀ o', (st'.objs o').params = if o' = o then (st.objs o).params ++ [i] else (st.objs o').params := by
    intro o'
    rw [hobj]
    by_cases ho : o' = o
    · subst ho; simp [push_params]
    · simp [Function.update_of_ne ho, ho]
  have hmem : ∀ o' j, j ∈ (st'.objs o').params → j ∈ (st.objs o').params ∨ (o' = o ∧ j = i) := by
    intro o' j hj
    rw [hpar] at hj
    split at hj
    · rename_i ho; subst ho; simp at hj; tauto
    · exact .inl hj
  refine ⟨?_, ?_, ?_, ?_, ?_, ?_, ?_⟩
  · intro o'
    rw [hpar, declares_snoc]
    by_cases ho : o' = o
    · subst ho; simp [hI.sig, declares, hie, hik, hit]
    · have hoo : ¬ o = o' := fun h => ho h.symm
      rw [if_neg ho, hI.sig]; simp [declares, hoo]
  · intro o' j hj
    rcases hmem o' j hj with h | ⟨rfl, rfl⟩
    · exact hI.const o' j h
    · rw [hie]; exact hic
  · intro o' j hj hjc
    rw [hsrc]
    rcases hmem o' j hj with h | ⟨rfl, rfl⟩
    · exact hI.comp o' j h hjc
    · exact .inl (hicm hjc)
  · intro o' j hj
    rw [realized_snoc_other _ _ _ _ (by simp) (by simp)]
    rcases hmem o' j hj with h | ⟨rfl, rfl⟩
    · exact hI.eval o' j h
    · rw [hie, hiev]; simp [hnr]
  · intro p
    rw [hsrc, hI.att]
    simp only [List.mem_append, List.mem_singleton, reduceCtorEq, or_false]
    by_cases hp : p.obj = o
    · simp [hp, hn]
    · unfold gen
      rw [hobj, Function.update_of_ne hp]
  · intro x
    rw [hsrc, hI.vars, lastUpdate_snoc]; rfl
  · intro o' f' k' a' hd hcl hun
    have hold : .declare o' f' k' a' ∈ ops → L.cast k' (L.value f' fun _ => none) = .ok (st.store a') := by
      intro hm
      exact hI.store o' f' k' a' hm hcl fun o2 f2 k2 h2 => hun o2 f2 k2 (by simp [h2])
    rcases List.mem_append.mp hd with hm | hm
    · rcases hsto with ⟨hnc, hs⟩ | ⟨hc, v, hv, hs⟩
      · rw [hs]; exact hold hm
      · by_cases haa : a' = a
        · subst haa
          obtain ⟨rfl, rfl⟩ := hun o f k (by simp)
          rw [hs, Function.update_self]; exact hv
        · rw [hs, Function.update_of_ne haa]; exact hold hm
    · simp only [List.mem_singleton, Op.declare.injEq] at hm
      obtain ⟨rfl, rfl, rfl, rfl⟩ := hm
      rcases hsto with ⟨hnc, hs⟩ | ⟨hc, v, hv, hs⟩
      · exact absurd hcl hnc
      · rw [hs, Function.update_self]; exact hv

theorem inv_attach (L : Lang F X K) (s : Nat) (ops : List (Op F X K)) (st : St F X K) (hI : Inv L s ops st) (o : Nat) :
    Inv L s (ops ++ [.attach s o]) (attach st s o) := by
  have hpar : ∀ o', ((attach st s o).objs o').params = (st.objs o').params := by
    intro o'
    unfold attach
    by_cases ho : o' = o
    · subst ho; simp
    · simp [Function.update_of_ne ho]
  have hgen : ∀ o', gen (attach st s o) o' = gen st o' := by
    intro o'
    unfold attach gen
    by_cases ho : o' = o
    · subst ho; simp
    · simp [Function.update_of_ne ho]
  have hvars : ((attach st s o).srcs s).vars = (st.srcs s).vars := by unfold attach; simp
  refine ⟨?_, ?_, ?_, ?_, ?_, ?_, ?_⟩
  · intro o'; rw [hpar, hI.sig, declares_snoc]; simp [declares]
  · intro o' j hj; rw [hpar] at hj; exact hI.const o' j hj
  · intro o' j hj; rw [hpar] at hj; rw [hvars]; exact hI.comp o' j hj
  · intro o' j hj; rw [hpar] at hj
    rw [realized_snoc_other _ _ _ _ (by simp) (by simp)]; exact hI.eval o' j hj
  · intro p
    rw [hgen, hpar]
    have : ((attach st s o).srcs s).attached = ((List.range (st.objs o).params.length).map
        fun i => (⟨o, (st.objs o).gen, i⟩ : Ptr)).foldl (fun l p => if p ∈ l then l else l ++ [p]) (st.srcs s).attached := by
      unfold attach; simp
    rw [this, mem_foldl_insert, hI.att]
    simp only [List.mem_map, List.mem_range, List.mem_append, List.mem_singleton, Op.attach.injEq, true_and]
    constructor
    · rintro (⟨h1, h2, h3⟩ | ⟨i, hi, rfl⟩)
      · exact ⟨.inl h1, h2, h3⟩
      · exact ⟨.inr rfl, rfl, hi⟩
    · rintro ⟨h1 | h1, h2, h3⟩
      · exact .inl ⟨h1, h2, h3⟩
      · right
        refine ⟨p.idx, by rw [h1] at h3; exact h3, ?_⟩
        obtain ⟨po, pg, pi⟩ := p
        simp only at h1 h2
        subst h1
        rw [h2]; rfl
  · intro x; rw [hvars, hI.vars, lastUpdate_snoc]; rfl
  · intro o' f' k' a' hd hcl hun
    exact hI.store o' f' k' a' (by simpa using hd) hcl fun o2 f2 k2 h2 => hun o2 f2 k2 (by simp [h2])

theorem inv_update (L : Lang F X K) (s : Nat) (ops : List (Op F X K)) (st : St F X K) (hI : Inv L s ops st) (x : X) (v : K) :
    Inv L s (ops ++ [.update s x v]) (updateVar st s x v) := by
  have hv : ((updateVar st s x v).srcs s).vars = AMap.set (st.srcs s).vars x v := by unfold updateVar; simp
  have ha : ((updateVar st s x v).srcs s).attached = (st.srcs s).attached := by unfold updateVar; simp
  refine ⟨?_, ?_, ?_, ?_, ?_, ?_, ?_⟩
  · intro o'; rw [declares_snoc]
    have : declares o' [(.update s x v : Op F X K)] = [] := by simp [declares]
    rw [this, List.append_nil]; exact hI.sig o'
  · exact hI.const
  · intro o' j hj hc
    rcases hI.comp o' j hj hc with h | ⟨h1, h2⟩
    · exact .inl h
    · refine .inr ⟨h1, ?_⟩
      rw [hv]
      unfold Lang.compiles at h2 ⊢
      simp only [Bool.and_eq_true, List.all_eq_true] at h2 ⊢
      refine ⟨h2.1, fun y hy => ?_⟩
      rw [AMap.get_set]
      split
      · rfl
      · exact h2.2 y hy
  · intro o' j hj
    rw [realized_snoc_other _ _ _ _ (by simp) (by simp)]; exact hI.eval o' j hj
  · intro p
    rw [ha, hI.att]; simp [gen, updateVar]
  · intro y
    rw [hv, AMap.get_set, lastUpdate_snoc, hI.vars]
    simp only [lastUpdate, true_and]
    by_cases hy : y = x
    · simp [hy]
    · rw [if_neg hy, if_neg (fun h => hy h.symm)]
  · intro o' f' k' a' hd hcl hun
    exact hI.store o' f' k' a' (by simpa using hd) hcl fun o2 f2 k2 h2 => hun o2 f2 k2 (by simp [h2])

theorem inv_unrealize (L : Lang F X K) (s : Nat) (ops : List (Op F X K)) (st : St F X K) (hI : Inv L s ops st) (o : Nat) :
    Inv L s (ops ++ [.unrealize o]) (unrealize st o) := by
  have hpar : ∀ o', ((unrealize st o).objs o').params = if o' = o then
      (st.objs o).params.map (fun i => if i.isConst then i else { i with evaluated := false }) else (st.objs o').params := by
    intro o'
    unfold unrealize
    by_cases ho : o' = o
    · subst ho; simp
    · simp [Function.update_of_ne ho, ho]
  have hgen : ∀ o', gen (unrealize st o) o' = gen st o' := by
    intro o'
    unfold unrealize gen
    by_cases ho : o' = o
    · subst ho; simp
    · simp [Function.update_of_ne ho]
  have hmem : ∀ o' j, j ∈ ((unrealize st o).objs o').params → ∃ i ∈ (st.objs o').params,
      j = if o' = o ∧ i.isConst = false then { i with evaluated := false } else i := by
    intro o' j hj
    rw [hpar] at hj
    split at hj
    · rename_i ho; subst ho
      rw [List.mem_map] at hj
      obtain ⟨i, hi, rfl⟩ := hj
      refine ⟨i, hi, ?_⟩
      cases hc : i.isConst <;> simp
    · rename_i ho
      exact ⟨j, hj, by simp [ho]⟩
  refine ⟨?_, ?_, ?_, ?_, ?_, ?_, ?_⟩
  · intro o'
    rw [hpar, declares_snoc]
    have : declares o' [(.unrealize o : Op F X K)] = [] := by simp [declares]
    rw [this, List.append_nil, ← hI.sig]
    by_cases ho : o' = o
    · subst ho
      simp only [if_true, List.map_map]
      apply List.map_congr_left
      intro i _
      simp only [Function.comp]
      split <;> rfl
    · rw [if_neg ho]
  · intro o' j hj
    obtain ⟨i, hi, rfl⟩ := hmem o' j hj
    have := hI.const o' i hi
    split <;> simpa using this
  · intro o' j hj hc
    obtain ⟨i, hi, rfl⟩ := hmem o' j hj
    split at hc
    · rename_i hh
      rw [if_pos hh]; exact hI.comp o' i hi hh.2
    · rename_i hh
      rw [if_neg hh]; exact hI.comp o' i hi hc
  · intro o' j hj
    obtain ⟨i, hi, rfl⟩ := hmem o' j hj
    by_cases ho : o' = o
    · subst ho
      have hc := hI.const o' i hi
      have he := hI.eval o' i hi
      simp only [realized_snoc_unrealize, or_false]
      cases hic : i.isConst
      · simp only [hic, Bool.false_eq_true, false_iff] at hc
        simp [hc]
      · simp only [hic, true_iff] at hc
        simp [hc, he]
    · rw [realized_snoc_other _ _ _ _ (by simp) (by simp; exact fun h => ho h.symm)]
      simpa [ho] using hI.eval o' i hi
  · intro p
    rw [hgen, hpar]
    have : ((unrealize st o).srcs s).attached = (st.srcs s).attached := rfl
    rw [this, hI.att]
    by_cases ho : p.obj = o
    · rw [if_pos ho, List.length_map, ← ho]; simp
    · rw [if_neg ho]; simp
  · intro y; rw [lastUpdate_snoc]; exact hI.vars y
  · intro o' f' k' a' hd hcl hun
    exact hI.store o' f' k' a' (by simpa using hd) hcl fun o2 f2 k2 h2 => hun o2 f2 k2 (by simp [h2])

theorem closed_iff_of_mem {L : Lang F X K} {s : Nat} {ops : List (Op F X K)} {st : St F X K} (hI : Inv L s ops st)
    {o j : Nat} {i : Info F} (h : view st o j = some i) : i ∈ (st.objs o).params := List.mem_of_getElem? h

/-- What `realize` leaves when nothing throws. -/
theorem inv_realize (L : Lang F X K) (s : Nat) (ops : List (Op F X K)) (st st' : St F X K) (hI : Inv L s ops st)
    (g : List Ptr → List Ptr) (hg : ∀ l, (g l).Perm l) (h : realize L st s g = .ok (st', false)) :
    Inv L s (ops ++ [.realize s g]) st' ∧
    ∀ o f k a, .declare o f k a ∈ ops → .attach s o ∈ ops → ¬ L.closed f →
      (∀ o' f' k', .declare o' f' k' a ∈ ops → f' = f ∧ k' = k) →
      L.cast k (L.value f fun x => lastUpdate s x ops) = .ok (st'.store a) := by
  classical
  unfold realize at h
  simp only [Outcome.bind_eq_ok] at h
  obtain ⟨⟨st1, b⟩, h1, h2⟩ := h
  have hb : b = false := by
    cases b with
    | false => rfl
    | true => simp at h2
  subst hb
  rw [if_neg (by simp)] at h2
  obtain ⟨c1, c2, c3, c4, c5⟩ := compile_loop L s _ _ _ h1
  obtain ⟨e1, e2, e3, e4, e5⟩ := eval_loop L _ _ _ h2
  set l := g (st.srcs s).attached with hl
  have hlm : ∀ p, p ∈ l ↔ .attach s p.obj ∈ ops ∧ p.gen = gen st p.obj ∧ p.idx < (st.objs p.obj).params.length := by
    intro p; rw [hl, (hg _).mem_iff]; exact hI.att p
  have hin : ∀ o j, (∃ i, view st o j = some i) → ((⟨o, gen st o, j⟩ : Ptr) ∈ l ↔ .attach s o ∈ ops) := by
    rintro o j ⟨i, hi⟩
    rw [hlm]
    have : j < (st.objs o).params.length := by
      unfold view at hi; rw [List.getElem?_eq_some_iff] at hi; exact hi.1
    simp [this]
  -- final view
  have hview : ∀ o j, view st' o j = (view st o j).map fun i => evalUpd (.attach s o ∈ ops) (compUpd s (.attach s o ∈ ops) i) := by
    intro o j
    rw [e3, c4, c3]
    cases hv : view st o j with
    | none => rfl
    | some i =>
      have := hin o j ⟨i, hv⟩
      by_cases hat : .attach s o ∈ ops <;> simp [evalUpd, compUpd, this, hat]
  have hpar : ∀ o, (st'.objs o).params = (st.objs o).params.map fun i =>
      evalUpd (.attach s o ∈ ops) (compUpd s (.attach s o ∈ ops) i) := by
    intro o
    apply List.ext_getElem?
    intro j
    rw [List.getElem?_map]
    exact hview o j
  have hsame : ∀ (b : Prop) [Decidable b] (i : Info F), (evalUpd b (compUpd s b i)).expr = i.expr ∧
      (evalUpd b (compUpd s b i)).kind = i.kind ∧ (evalUpd b (compUpd s b i)).target = i.target ∧
      (evalUpd b (compUpd s b i)).isConst = i.isConst := by
    intro b _ i; unfold evalUpd compUpd; split <;> split <;> simp
  have hsrcs : st'.srcs = st.srcs := e1.trans c1
  have hgen : ∀ o, gen st' o = gen st o := fun o => (e2 o).trans (c3 o)
  -- derefs in the middle state
  have hd1 : ∀ p ∈ l, ∃ i, view st p.obj p.idx = some i ∧ i ∈ (st.objs p.obj).params ∧
      deref st1 p = some (compUpd s (.attach s p.obj ∈ ops) i) := by
    intro p hp
    have hp' := (hlm p).mp hp
    have hv : view st p.obj p.idx = some ((st.objs p.obj).params[p.idx]'hp'.2.2) := List.getElem?_eq_getElem hp'.2.2
    refine ⟨_, hv, List.getElem_mem _, ?_⟩
    rw [deref_eq, c3, if_pos hp'.2.1.symm, c4, hv]
    have := hin p.obj p.idx ⟨_, hv⟩
    by_cases hat : .attach s p.obj ∈ ops <;> simp [compUpd, this, hat]
  have hcm : ∀ (b : Prop) [Decidable b] (i : Info F), (compUpd s b i).expr = i.expr ∧ (compUpd s b i).kind = i.kind ∧
      (compUpd s b i).target = i.target ∧ (compUpd s b i).isConst = i.isConst := by
    intro b _ i; unfold compUpd; split <;> simp
  have hdecl : ∀ o i, i ∈ (st.objs o).params → .declare o i.expr i.kind i.target ∈ ops := by
    intro o i hi
    rw [← mem_declares, ← hI.sig, List.mem_map]
    exact ⟨i, hi, rfl⟩
  refine ⟨⟨?_, ?_, ?_, ?_, ?_, ?_, ?_⟩, ?_⟩
  · intro o
    rw [hpar, declares_snoc]
    have : declares o [(.realize s g : Op F X K)] = [] := by simp [declares]
    rw [this, List.append_nil, ← hI.sig, List.map_map]
    apply List.map_congr_left
    intro i _
    simp only [Function.comp, hsame]
  · intro o j hj
    rw [hpar, List.mem_map] at hj
    obtain ⟨i, hi, rfl⟩ := hj
    simp only [hsame]; exact hI.const o i hi
  · intro o j hj hc
    rw [hpar, List.mem_map] at hj
    obtain ⟨i, hi, rfl⟩ := hj
    rw [(hsame _ i).2.2.2] at hc
    rw [(hsame _ i).1, hsrcs]
    have hcc : (evalUpd (.attach s o ∈ ops) (compUpd s (.attach s o ∈ ops) i)).compiled =
        (compUpd s (.attach s o ∈ ops) i).compiled := by unfold evalUpd; split <;> rfl
    rw [hcc]
    by_cases hat : .attach s o ∈ ops
    · by_cases hn : i.compiled = .none
      · right
        have : (compUpd s (.attach s o ∈ ops) i).compiled = .bound s := by
          unfold compUpd; rw [if_pos ⟨hat, hc, hn⟩]
        refine ⟨this, ?_⟩
        -- it was compiled now
        obtain ⟨j, hj⟩ := List.getElem?_of_mem hi
        have hvj : view st o j = some i := hj
        obtain ⟨i', hd, hci⟩ := c5 ⟨o, gen st o, j⟩ ((hin o j ⟨i, hvj⟩).mpr hat)
        rw [deref_eq, if_pos rfl] at hd
        simp only at hd
        rw [hvj] at hd; simp at hd; subst hd
        exact hci hc hn
      · have : (compUpd s (.attach s o ∈ ops) i) = i := by
          unfold compUpd; rw [if_neg (by tauto)]
        rw [this]; exact hI.comp o i hi hc
    · have : (compUpd s (.attach s o ∈ ops) i) = i := by
        unfold compUpd; rw [if_neg (by tauto)]
      rw [this]; exact hI.comp o i hi hc
  · intro o j hj
    rw [hpar, List.mem_map] at hj
    obtain ⟨i, hi, rfl⟩ := hj
    rw [(hsame _ i).1, realized_snoc_realize]
    have hce : (compUpd s (.attach s o ∈ ops) i).evaluated = i.evaluated := by unfold compUpd; split <;> rfl
    have hck : (compUpd s (.attach s o ∈ ops) i).isConst = i.isConst := (hcm _ i).2.2.2
    have he := hI.eval o i hi
    have hco := hI.const o i hi
    unfold evalUpd
    rw [hck]
    by_cases hat : .attach s o ∈ ops
    · cases hic : i.isConst
      · simp [hat]
      · rw [hic] at hco
        simp only [true_iff] at hco
        rw [if_neg (by simp), hce, he]
        simp [hco]
    · rw [if_neg (by simp [hat]), hce, he]
      simp [hat]
  · intro p
    rw [hsrcs, hgen, hI.att, hpar]
    simp
  · intro x; rw [hsrcs, hI.vars, lastUpdate_snoc]; rfl
  · intro o f k a hd hcl hun
    have hd' : .declare o f k a ∈ ops := by simpa using hd
    have hun' : ∀ o' f' k', .declare o' f' k' a ∈ ops → f' = f ∧ k' = k := fun o2 f2 k2 h2 => hun o2 f2 k2 (by simp [h2])
    rw [e4 a, c2]
    · exact hI.store o f k a hd' hcl hun'
    · intro p hp i hdi hci hti
      obtain ⟨i0, hv0, hm0, hd0⟩ := hd1 p hp
      rw [hdi] at hd0
      simp at hd0; subst hd0
      have := hdecl p.obj i0 hm0
      rw [(hcm _ i0).2.2.1] at hti
      rw [hti] at this
      have := (hun' _ _ _ this).1
      rw [(hcm _ i0).2.2.2] at hci
      have hcl0 : L.closed i0.expr := by rw [this]; exact hcl
      rw [← hI.const p.obj i0 hm0] at hcl0
      rw [hci] at hcl0; simp at hcl0
  · intro o f k a hd hat hncl hun
    apply e5 a
    · intro p hp i hdi hci hti
      obtain ⟨i0, hv0, hm0, hd0⟩ := hd1 p hp
      rw [hdi] at hd0
      simp at hd0; subst hd0
      rw [(hcm _ i0).2.2.2] at hci
      rw [(hcm _ i0).2.2.1] at hti
      have hdc := hdecl p.obj i0 hm0
      rw [hti] at hdc
      obtain ⟨hf, hk⟩ := hun _ _ _ hdc
      rw [(hcm _ i0).2.1, hk]
      have hpat := ((hlm p).mp hp).1
      have hbound : (compUpd s (.attach s p.obj ∈ ops) i0).compiled = .bound s := by
        unfold compUpd
        by_cases hn : i0.compiled = .none
        · rw [if_pos ⟨hpat, hci, hn⟩]
        · rw [if_neg (by tauto)]
          rcases hI.comp p.obj i0 hm0 hci with h | h
          · exact absurd h hn
          · exact h.1
      unfold evalComp
      rw [hbound]
      simp only [Outcome.bind, (hcm _ i0).1, hf, c1, hI.vars]
    · have hmem : (f, k, a) ∈ declares o ops := (mem_declares o ops f k a).mpr hd
      rw [← hI.sig, List.mem_map] at hmem
      obtain ⟨i, hi, he⟩ := hmem
      simp only [Prod.mk.injEq] at he
      obtain ⟨rfl, rfl, rfl⟩ := he
      obtain ⟨j, hj⟩ := List.getElem?_of_mem hi
      have hvj : view st o j = some i := hj
      have hpl := (hin o j ⟨i, hvj⟩).mpr hat
      obtain ⟨i0, hv0, _, hd0⟩ := hd1 _ hpl
      simp only at hv0
      rw [hvj] at hv0; simp at hv0; subst hv0
      refine ⟨_, hpl, _, hd0, ?_, (hcm _ i).2.2.1⟩
      rw [(hcm _ i).2.2.2]
      cases hic : i.isConst with
      | false => rfl
      | true => exact absurd ((hI.const o i hi).mp hic) hncl

/-- The invariant holds after every history that follows the protocol and does not throw. -/
theorem inv_run (L : Lang F X K) (s : Nat) (store : Nat → K) (ops : List (Op F X K)) : ∀ st, Protocol s ops →
    run L ops (St.init store) = .ok (st, false) → Inv L s ops st := by
  induction ops using List.reverseRecOn with
  | nil =>
    intro st _ h
    simp only [run, Outcome.ok.injEq, Prod.mk.injEq, and_true] at h
    subst h; exact inv_init L s store
  | append_singleton l o ih =>
    intro st hp h
    obtain ⟨st1, h1, h2⟩ := run_snoc_ok L l o _ _ h
    have hI := ih st1 hp.prefix h1
    have ho := hp.one_source o (by simp)
    cases o with
    | declare ob f k a =>
      simp only [step, Outcome.bind_eq_ok, Outcome.ok.injEq, Prod.mk.injEq, and_true] at h2
      obtain ⟨st2, h3, rfl⟩ := h2
      exact inv_declare L s l st1 st2 hI ob f k a (hp.declare_first l [] ob f k a rfl) h3
    | attach s' ob =>
      have := ho.1 s' ob rfl
      subst this
      simp only [step, Outcome.ok.injEq, Prod.mk.injEq, and_true] at h2
      subst h2; exact inv_attach L s' l st1 hI ob
    | update s' x v =>
      have := ho.2.1 s' x v rfl
      subst this
      simp only [step, Outcome.ok.injEq, Prod.mk.injEq, and_true] at h2
      subst h2; exact inv_update L s' l st1 hI x v
    | realize s' g =>
      obtain ⟨rfl, hg⟩ := ho.2.2 s' g rfl
      exact (inv_realize L s' l st1 st hI g hg h2).1
    | unrealize ob =>
      simp only [step, Outcome.ok.injEq, Prod.mk.injEq, and_true] at h2
      subst h2; exact inv_unrealize L s l st1 hI ob

end Param
end Verif
