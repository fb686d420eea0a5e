import Verif.Lemmas.MatchersAdaptive
/-
Matcher_Points_Base::impl_match (C24) and accounting of potential pairings (C16).
-/
namespace Verif.Lemmas
open Verif Verif.Spec
variable {K : Type}

theorem layerCalls_append {f : LayerFn K} {a b c : MatchState K × Pairings K} {l1 l2 : List (LayerCall K)}
    (h1 : LayerCalls f a l1 b) (h2 : LayerCalls f b l2 c) : LayerCalls f a (l1 ++ l2) c := by
  induction h1 with
  | nil => exact h2
  | cons h3 h4 _ ih => exact .cons h3 h4 (ih h2)

/-- Name, contents and weight of a call. -/
def LayerCall.key (c : LayerCall K) : String × String × Option K := (c.gName, c.lName, c.w)

theorem localFold_calls {f : LayerFn K} (hf : OnlyAdds f) (gName : String) (g : GLayer K)
    (locals : AMap String (Option (List (P3 K)))) (lws : List (String × Option K))
    {s s' : MatchState K × Pairings K} (h : foldOutcome (localLayerStep f gName g locals) s lws = .ok s') :
    (∀ lw ∈ lws, lw.2.isSome → (locals.get lw.1).isSome) ∧
    ∃ calls : List (LayerCall K), LayerCalls f s calls s' ∧
      (∀ c ∈ calls, c.gName = gName ∧ c.g = g ∧ locals.get c.lName = some (some c.pts)) ∧
      calls.map (fun c => (c.lName, c.w)) = lws.filter (fun lw => (locals.get lw.1).isSome) := by
  induction lws generalizing s with
  | nil =>
    simp only [foldOutcome, Outcome.ok.injEq] at h; subst h
    exact ⟨by simp, [], .nil _, by simp, by simp⟩
  | cons lw lws ih =>
    simp only [foldOutcome, Outcome.bind_eq_ok] at h
    obtain ⟨a, ha, hb⟩ := h
    obtain ⟨hm, calls, h1, h2, h3⟩ := ih hb
    unfold localLayerStep at ha
    split at ha
    · rename_i hl hw
      simp only [Outcome.ok.injEq] at ha; subst ha
      refine ⟨?_, calls, h1, h2, ?_⟩
      · intro x hx hxs
        rcases List.mem_cons.mp hx with rfl | hx
        · simp [hw] at hxs
        · exact hm x hx hxs
      · rw [h3]; simp [hl]
    · simp at ha
    · simp at ha
    · rename_i pts hl
      simp only [Outcome.bind_eq_ok] at ha
      obtain ⟨r, hr, ha⟩ := ha
      obtain ⟨⟨new, hnew⟩, hpw⟩ := hf _ _ _ _ _ _ _ hr
      have hlen : r.2.pt2pt.length = s.2.pt2pt.length + new.length := by rw [hnew, List.length_append]
      refine ⟨?_, ⟨gName, g, lw.1, pts, lw.2, new.length⟩ :: calls, ?_, ?_, ?_⟩
      · intro x hx hxs
        rcases List.mem_cons.mp hx with rfl | hx
        · simp [hl]
        · exact hm x hx hxs
      · refine .cons hr hlen ?_
        have : a = (r.1, { r.2 with pointWeights := r.2.pointWeights ++
            (LayerCall.block ⟨gName, g, lw.1, pts, lw.2, new.length⟩) }) := by
          simp only [LayerCall.block]
          cases hw : lw.2 with
          | none => simp only [hw, Outcome.ok.injEq] at ha; subst ha; simp
          | some w =>
            simp only [hw] at ha
            by_cases h0 : new.length = 0
            · rw [if_pos (by omega)] at ha
              simp only [Outcome.ok.injEq] at ha; subst ha
              simp [h0]
            · rw [if_neg (by omega)] at ha
              simp only [Outcome.ok.injEq] at ha; subst ha
              have : r.2.pt2pt.length - s.2.pt2pt.length = new.length := by omega
              simp [h0, this]
        rw [← this]; exact h1
      · intro c hc
        rcases List.mem_cons.mp hc with rfl | hc
        · exact ⟨rfl, rfl, hl⟩
        · exact h2 c hc
      · simp [h3, hl]

theorem pointsMatch_calls {f : LayerFn K} (hf : OnlyAdds f) (weights : AMap String (AMap String K))
    (locals : AMap String (Option (List (P3 K)))) (globals : List (String × GLayer K))
    {s s' : MatchState K × Pairings K}
    (h : foldOutcome (globalLayerStep f weights locals) s globals = .ok s') :
    (∀ gl ∈ globals, ∀ lw ∈ localLayersFor weights gl.1, lw.2.isSome → (locals.get lw.1).isSome) ∧
    ∃ calls : List (LayerCall K), LayerCalls f s calls s' ∧
      (∀ c ∈ calls, (c.gName, c.g) ∈ globals ∧ locals.get c.lName = some (some c.pts)) ∧
      calls.map (fun c => (c.gName, c.lName, c.w)) = globals.flatMap fun gl =>
        ((localLayersFor weights gl.1).filter (fun lw => (locals.get lw.1).isSome)).map
          fun lw => (gl.1, lw.1, lw.2) := by
  induction globals generalizing s with
  | nil =>
    simp only [foldOutcome, Outcome.ok.injEq] at h; subst h
    exact ⟨by simp, [], .nil _, by simp, by simp⟩
  | cons gl globals ih =>
    simp only [foldOutcome, Outcome.bind_eq_ok] at h
    obtain ⟨a, ha, hb⟩ := h
    obtain ⟨hm, calls, h1, h2, h3⟩ := ih hb
    obtain ⟨hm', calls', h1', h2', h3'⟩ := localFold_calls hf _ _ _ _ ha
    refine ⟨?_, calls' ++ calls, layerCalls_append h1' h1, ?_, ?_⟩
    · intro x hx
      rcases List.mem_cons.mp hx with rfl | hx
      · exact hm'
      · exact hm x hx
    · intro c hc
      rcases List.mem_append.mp hc with hc | hc
      · obtain ⟨e1, e2, e3⟩ := h2' c hc
        refine ⟨?_, e3⟩
        rw [e1, e2]; exact List.mem_cons_self
      · exact ⟨List.mem_cons_of_mem _ (h2 c hc).1, (h2 c hc).2⟩
    · rw [List.map_append, h3, List.flatMap_cons]
      congr 1
      rw [← h3', List.map_map]
      apply List.map_congr_left
      intro c hc
      simp [(h2' c hc).1]

theorem mem_localLayersFor (weights : AMap String (AMap String K)) (gName : String)
    (hs : ∀ gn ls, weights.get gn = some ls → ls.Sorted) (lName : String) (w : Option K) :
    (lName, w) ∈ localLayersFor weights gName ↔
      Wanted weights gName lName ∧ w = ListedWeight weights gName lName := by
  unfold localLayersFor Wanted ListedWeight
  by_cases he : weights = []
  · subst he
    simp
  · have : weights.isEmpty = false := by simpa using he
    rw [this]
    simp only [Bool.false_eq_true, if_false, he, false_and, false_or]
    cases hg : weights.get gName with
    | none => simp
    | some ls =>
      simp only [List.mem_map, Prod.mk.injEq, Option.some.injEq, exists_eq_left', Option.bind_some]
      constructor
      · rintro ⟨kv, hkv, rfl, rfl⟩
        have := (AMap.mem_iff_get ls (hs _ _ hg) kv.1 kv.2).mp hkv
        simp [this]
      · rintro ⟨h1, rfl⟩
        obtain ⟨v, hv⟩ := Option.isSome_iff_exists.mp h1
        exact ⟨(lName, v), (AMap.mem_iff_get ls (hs _ _ hg) _ _).mpr hv, rfl, by simp [hv]⟩

theorem localLayersFor_nodup (weights : AMap String (AMap String K)) (gName : String)
    (hs : ∀ gn ls, weights.get gn = some ls → ls.Sorted) :
    ((localLayersFor weights gName).map (·.1)).Nodup := by
  unfold localLayersFor
  split
  · simp
  · split
    · simp
    · rename_i ls hls
      have := hs _ _ hls
      simp only [List.map_map]
      have h2 : (ls.map (·.1)).Nodup := by
        rw [List.nodup_iff_pairwise_ne, List.pairwise_map]
        exact this.imp fun h => ne_of_lt h
      exact h2

theorem keys_nodup {α : Type} (m : AMap String α) (h : m.Sorted) : (m.map (·.1)).Nodup := by
  rw [List.nodup_iff_pairwise_ne, List.pairwise_map]
  exact h.imp fun h => ne_of_lt h

theorem flatMap_nodup_pairs {α β : Type} (l : List (String × α)) (f : String × α → List (String × String × β))
    (hl : (l.map (·.1)).Nodup) (hk : ∀ x, ∀ y ∈ f x, y.1 = x.1)
    (hf : ∀ x, ((f x).map fun y => (y.1, y.2.1)).Nodup) :
    ((l.flatMap f).map fun y => (y.1, y.2.1)).Nodup := by
  induction l with
  | nil => simp
  | cons x l ih =>
    simp only [List.map_cons, List.nodup_cons] at hl
    rw [List.flatMap_cons, List.map_append, List.nodup_append]
    refine ⟨hf x, ih hl.2, ?_⟩
    intro a ha b hb hab
    subst hab
    obtain ⟨y, hy, rfl⟩ := List.mem_map.mp ha
    obtain ⟨z, hz, hzy⟩ := List.mem_map.mp hb
    obtain ⟨w, hw, hzw⟩ := List.mem_flatMap.mp hz
    simp only [Prod.mk.injEq] at hzy
    apply hl.1
    rw [← hk x y hy, ← hzy.1, hk w z hzw]
    exact List.mem_map_of_mem hw

theorem layerCalls_counts {f : LayerFn K} (hf : OnlyAdds f) {s t : MatchState K × Pairings K}
    {calls : List (LayerCall K)} (h : LayerCalls f s calls t) :
    t.2.pt2pt.length = s.2.pt2pt.length + (calls.map (·.n)).sum ∧
    t.2.pointWeights = s.2.pointWeights ++ (calls.map LayerCall.block).flatten := by
  induction h with
  | nil => simp
  | cons h1 h2 _ ih =>
    obtain ⟨i1, i2⟩ := ih
    obtain ⟨_, hpw⟩ := hf _ _ _ _ _ _ _ h1
    refine ⟨?_, ?_⟩
    · rw [i1]; simp only [h2, List.map_cons, List.sum_cons]; omega
    · rw [i2]; simp [hpw]

theorem initWeights_get (one : K) (es : List (LayerMatch K)) (g l : String) :
    ListedWeight (initWeights one es) g l =
      ((es.reverse.find? fun e => decide (e.global = g ∧ e.local = l)).map fun e => e.weight.getD one) := by
  unfold initWeights
  induction es using List.reverseRecOn with
  | nil => rfl
  | append_singleton es e ih =>
    rw [List.foldl_append, List.reverse_append]
    simp only [List.foldl_cons, List.foldl_nil, List.reverse_cons, List.reverse_nil, List.nil_append,
      List.cons_append, List.find?_cons]
    unfold ListedWeight at ih ⊢
    by_cases hg : g = e.global
    · by_cases hl : l = e.local
      · subst hg; subst hl
        simp
      · have hd : decide (e.global = g ∧ e.local = l) = false := by
          simp only [decide_eq_false_iff_not]; rintro ⟨_, h⟩; exact hl h.symm
        rw [hd]
        subst hg
        rw [← ih]
        simp only [AMap.get_set, if_true, Option.bind_some, hl, if_false]
        cases hw : AMap.get (List.foldl (fun w (e : LayerMatch K) => AMap.set w e.global
          (AMap.set ((AMap.get w e.global).getD []) e.local (e.weight.getD one))) [] es) e.global <;> simp
    · have hd : decide (e.global = g ∧ e.local = l) = false := by
        simp only [decide_eq_false_iff_not]; rintro ⟨h, _⟩; exact hg h.symm
      rw [hd]
      rw [← ih]
      simp [hg]

end Verif.Lemmas
