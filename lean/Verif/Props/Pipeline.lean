import Verif.Lemmas.Pipeline
/-
Properties C10 (lists from YAML), C55 (filter pipelines), C56 (layer deletion / creation), C59 (generators).
-/
namespace Verif.Props
open Verif Verif.Spec Verif.Lemmas

/-! ### C10 -/

/-- C10: when no exception is thrown, the list consists of one object per entry not marked
`enabled: false`, in the order of the file, with its weight (1 if not given); whatever was in the list
before is gone.  Conversely, if each enabled entry can be built, that is what happens. -/
theorem yaml_list_exact {Reg Y Obj W : Type} (rg : Registry Reg Y Obj) (one : W) (reg reg' : Reg)
    (old lst : List (Obj × W)) (es : List (YEntry Y W)) :
    initList rg one reg old (some es) = (lst, some reg') ↔
      Built rg one reg (es.filter fun e => decide (e.enabled ≠ some false)) lst reg' := by
  exact initListLoop_built rg one es reg reg' lst

/-- C10: calling twice does not accumulate: the second call alone decides the list. -/
theorem yaml_list_no_accumulation {Reg Y Obj W : Type} (rg : Registry Reg Y Obj) (one : W) (reg : Reg)
    (old old' : List (Obj × W)) (yaml : Option (List (YEntry Y W))) :
    initList rg one reg old yaml = initList rg one reg old' yaml := rfl

/-- C10: number and weights of the objects built. -/
theorem yaml_list_weights {Reg Y Obj W : Type} (rg : Registry Reg Y Obj) (one : W) (reg reg' : Reg)
    (old lst : List (Obj × W)) (es : List (YEntry Y W))
    (h : initList rg one reg old (some es) = (lst, some reg')) :
    lst.map (·.2) = (es.filter fun e => decide (e.enabled ≠ some false)).map (fun e => e.weight.getD one) := by
  have hb := (yaml_list_exact rg one reg reg' old lst es).mp h
  generalize (es.filter fun e => decide (e.enabled ≠ some false)) = l at hb
  clear h
  induction hb with
  | nil => rfl
  | cons _ _ _ _ _ ih => simp [ih]

/-- A disabled entry in the middle is skipped, without even looking at its class. -/
example : initList (Reg := Unit) (Y := Nat) (Obj := Nat)
    ⟨fun r _ => .ok r, fun _ c y => if c = "A" then .ok y else .throw⟩ (1 : Nat) () [(9, 9)]
    (some [{ cls := some "A", params := some 5 }, { enabled := some false },
           { cls := some "A", params := some 6, weight := some 3, enabled := some true }]) =
    ([(5, 1), (6, 3)], some ()) := by decide

/-! ### C55 -/

/-- C55: applying a concatenation of pipelines is applying one after the other, the second one only if
the first did not throw; the empty pipeline changes nothing. -/
theorem filters_compose {M : Type} (p q : List (Option (M → M × Bool))) (m : M) :
    applyFilters (p ++ q) m =
      (if (applyFilters p m).2 = true then applyFilters p m else applyFilters q (applyFilters p m).1) ∧
    applyFilters [] m = (m, false) := by
  refine ⟨?_, rfl⟩
  induction p generalizing m with
  | nil => simp [applyFilters]
  | cons f p ih =>
    cases f with
    | none => simp [applyFilters]
    | some f =>
      simp only [List.cons_append, applyFilters]
      by_cases h : (f m).2 = true
      · simp [h]
      · simp only [h, Bool.false_eq_true, if_false]
        exact ih (f m).1

/-- C55: filters that do not throw: the result is the composition of all, in order. -/
theorem filters_in_order {M : Type} (fs : List (M → M)) (m : M) :
    applyFilters (fs.map fun f => some fun m => (f m, false)) m = (fs.foldl (fun m f => f m) m, false) := by
  induction fs generalizing m with
  | nil => rfl
  | cons f fs ih => simp only [List.map_cons, applyFilters, List.foldl_cons]; exact ih (f m)

/-- C55: an exception stops the later filters: they could even be replaced. -/
theorem filters_stop_at_exception {M : Type} (p : List (M → M)) (bad : M → M)
    (rest : List (Option (M → M × Bool))) (m : M) :
    applyFilters ((p.map fun f => some fun m => (f m, false)) ++ some (fun m => (bad m, true)) :: rest) m =
      (bad (p.foldl (fun m f => f m) m), true) := by
  rw [(filters_compose _ _ m).1, filters_in_order]
  simp [applyFilters]

example : applyFilters (M := Nat) [some fun m => (m + 3, false), some fun m => (m * 2, false)] 4 =
    (14, false) := rfl

/-! ### C56 -/

/-- C56: without the error option, exactly the named layers disappear, for every order and repetition of
the names; the other layers are untouched. -/
theorem deleteLayers_exact {L : Type} (names : List String) (m : AMap String L) (k : String) :
    (deleteLayers false names m).2 = false ∧
    (deleteLayers false names m).1.get k = if k ∈ names then none else m.get k := by
  induction names generalizing m with
  | nil => simp [deleteLayers]
  | cons n ns ih =>
    simp only [deleteLayers, Bool.false_and, Bool.false_eq_true, if_false]
    refine ⟨(ih (m.erase n)).1, ?_⟩
    rw [(ih (m.erase n)).2, AMap.get_erase]
    by_cases h1 : k ∈ ns
    · simp [h1]
    · by_cases h2 : k = n <;> simp [h1, h2]

/-- C56: with the error option, it throws iff some name is not there (anymore: a repeated name counts). -/
theorem deleteLayers_error_iff {L : Type} (names : List String) (m : AMap String L) :
    ((deleteLayers true names m).2 = false ↔ names.Nodup ∧ ∀ n ∈ names, (m.get n).isSome) ∧
    ((deleteLayers true names m).2 = false →
      ∀ k, (deleteLayers true names m).1.get k = if k ∈ names then none else m.get k) := by
  induction names generalizing m with
  | nil => simp [deleteLayers]
  | cons n ns ih =>
    simp only [deleteLayers, Bool.true_and]
    cases hf : (m.get n).isSome with
    | false =>
      simp only [Bool.not_false, if_true]
      refine ⟨⟨by simp, ?_⟩, by simp⟩
      rintro ⟨-, h⟩
      rw [h n (by simp)] at hf; cases hf
    | true =>
      simp only [Bool.not_true, Bool.false_eq_true, if_false]
      refine ⟨?_, ?_⟩
      · rw [(ih (m.erase n)).1, List.nodup_cons]
        constructor
        · rintro ⟨hnd, hall⟩
          refine ⟨⟨?_, hnd⟩, ?_⟩
          · intro hmem
            have := hall n hmem
            rw [AMap.get_erase] at this; simp at this
          · intro k hk
            rcases List.mem_cons.mp hk with rfl | hk
            · exact hf
            · have := hall k hk
              rw [AMap.get_erase] at this
              by_cases hkn : k = n
              · simp [hkn] at this
              · simpa [hkn] using this
        · rintro ⟨⟨hn, hnd⟩, hall⟩
          refine ⟨hnd, ?_⟩
          intro k hk
          have hkn : k ≠ n := by rintro rfl; exact hn hk
          rw [AMap.get_erase, if_neg hkn]
          exact hall k (List.mem_cons_of_mem _ hk)
      · intro h k
        rw [(ih (m.erase n)).2 h k, AMap.get_erase]
        by_cases h1 : k ∈ ns
        · simp [h1]
        · by_cases h2 : k = n <;> simp [h1, h2]

example : deleteLayers true ["a", "c"] [("a", 1), ("b", 2), ("c", 3)] = ([("b", 2)], false) := by decide

/-- C56: an existing point layer is returned and nothing changes; a missing one is created, and exactly
that one; a layer of another kind, an impossible class or an empty name are errors (an empty name gives a
null pointer when allowed). -/
theorem getOrCreate_spec {P X : Type} (create : Option P) (m : AMap String (Layer P X)) (name : String)
    (allowEmpty : Bool) :
    (name = "" → getOrCreatePointLayer create m name allowEmpty =
      if allowEmpty = true then .ok (none, m) else .throw) ∧
    (name ≠ "" → ∀ p, m.get name = some (.pts p) →
      getOrCreatePointLayer create m name allowEmpty = .ok (some p, m)) ∧
    (name ≠ "" → ∀ x, m.get name = some (.other x) →
      getOrCreatePointLayer create m name allowEmpty = .throw) ∧
    (name ≠ "" → m.get name = none → create = none →
      getOrCreatePointLayer create m name allowEmpty = .throw) ∧
    (name ≠ "" → m.get name = none → ∀ p, create = some p → ∃ m',
      getOrCreatePointLayer create m name allowEmpty = .ok (some p, m') ∧
      ∀ k, m'.get k = if k = name then some (.pts p) else m.get k) := by
  unfold getOrCreatePointLayer
  refine ⟨?_, ?_, ?_, ?_, ?_⟩
  · intro h; simp [h]
  · intro h p hp; simp [h, hp]
  · intro h x hx; simp [h, hx]
  · intro h hn hc; simp [h, hn, hc]
  · intro h hn p hc
    refine ⟨m.set name (.pts p), by simp [h, hn, hc], ?_⟩
    intro k; rw [AMap.get_set]

/-! ### C59 -/

/-- C59: on one observation: each generator is called once, in order, on that observation, also after
another one handled it; the observation counts as handled iff at least one of them handled it. -/
theorem generators_obs {O M : Type} (gens : List (O → M → Outcome (Bool × M))) (hne : gens ≠ []) (obs : O)
    (m m' : M) (b : Bool) :
    applyGeneratorsObs gens obs m = .ok (b, m') ↔
      ∃ hs, CallsInOrder (gens.map fun g => (g, obs)) m hs m' ∧ (b = true ↔ true ∈ hs) := by
  unfold applyGeneratorsObs
  rw [Outcome.assert_true hne]
  simp only [Outcome.bind]
  rw [generatorsLoop_iff]
  constructor
  · rintro ⟨hs, hc, hb⟩
    exact ⟨hs, hc, by simp [hb, List.any_eq_true]⟩
  · rintro ⟨hs, hc, hb⟩
    refine ⟨hs, hc, ?_⟩
    rw [Bool.eq_iff_iff, hb]
    simp [List.any_eq_true]

/-- C59: on a sensory frame: each generator in order sees each non-null observation in order, once; the
frame counts as handled iff some generator handled some observation. -/
theorem generators_frame {O M : Type} (gens : List (O → M → Outcome (Bool × M))) (hne : gens ≠ [])
    (sf : List (Option O)) (m m' : M) (b : Bool) :
    applyGeneratorsFrame gens sf m = .ok (b, m') ↔
      ∃ hs, CallsInOrder (gens.flatMap fun g => (sf.filterMap id).map fun o => (g, o)) m hs m' ∧
        (b = true ↔ true ∈ hs) := by
  unfold applyGeneratorsFrame
  rw [Outcome.assert_true hne]
  simp only [Outcome.bind]
  rw [generatorsFrameLoop_iff]
  constructor
  · rintro ⟨hs, hc, hb⟩
    exact ⟨hs, hc, by simp [hb, List.any_eq_true]⟩
  · rintro ⟨hs, hc, hb⟩
    refine ⟨hs, hc, ?_⟩
    rw [Bool.eq_iff_iff, hb]
    simp [List.any_eq_true]

/-- C59: no generators: an exception. -/
theorem generators_none_refused {O M : Type} (obs : O) (sf : List (Option O)) (m : M) :
    applyGeneratorsObs [] obs m = .throw ∧ applyGeneratorsFrame [] sf m = .throw := by
  constructor <;> simp [applyGeneratorsObs, applyGeneratorsFrame, Outcome.assert]

example : applyGeneratorsObs (O := Nat) (M := List Nat)
    [fun o m => .ok (false, m ++ [o]), fun o m => .ok (true, m ++ [o + 1]), fun o m => .ok (false, m ++ [o + 2])]
    5 [] = .ok (true, [5, 6, 7]) := by decide

end Verif.Props
