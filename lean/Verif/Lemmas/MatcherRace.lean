import Verif.Model.MatcherRace
/- Lemmas for the parallel matcher (C18). -/
namespace Verif.Race

theorem Steps.trans {a b c : State} (h1 : Steps a b) (h2 : Steps b c) : Steps a c := by
  induction h1 with
  | refl => exact h2
  | step h _ ih => exact .step h (ih h2)

/-- A worker can do its tasks up to a point without marking `g`, if none of these is for `g`. -/
theorem run_prefix (g : Nat) (i : Nat) (pre post : List (Nat × Nat)) (s : State)
    (hw : s.workers[i]? = some ⟨pre ++ post, false⟩) (hpre : ∀ t ∈ pre, t.2 ≠ g) (hg : g ∉ s.marked) :
    ∃ s', Steps s s' ∧ s'.workers = s.workers.set i ⟨post, false⟩ ∧ g ∉ s'.marked ∧
      ∃ new, s'.pairs = s.pairs ++ new := by
  induction pre generalizing s with
  | nil =>
    refine ⟨s, .refl s, ?_, hg, [], by simp⟩
    obtain ⟨hlt, he⟩ := List.getElem?_eq_some_iff.mp hw
    rw [List.nil_append] at he
    rw [← he]; simp
  | cons t pre ih =>
    obtain ⟨l, g'⟩ := t
    have hne : g' ≠ g := hpre (l, g') List.mem_cons_self
    have hlt : i < s.workers.length := (List.getElem?_eq_some_iff.mp hw).1
    by_cases hm : g' ∈ s.marked
    · obtain ⟨s', h1, h2, h3, new, h4⟩ := ih { s with workers := s.workers.set i ⟨pre ++ post, false⟩ }
        (by simp [hlt]) (fun t ht => hpre t (List.mem_cons_of_mem _ ht)) hg
      exact ⟨s', .step (.skip hw hm) h1, by rw [h2]; simp, h3, new, h4⟩
    · obtain ⟨s', h1, h2, h3, new, h4⟩ := ih
        { marked := g' :: s.marked, pairs := s.pairs ++ [(l, g')],
          workers := (s.workers.set i ⟨(l, g') :: (pre ++ post), true⟩).set i ⟨pre ++ post, false⟩ }
        (by simp [hlt]) (fun t ht => hpre t (List.mem_cons_of_mem _ ht))
        (by simp only [List.mem_cons, not_or]; exact ⟨fun h => hne h.symm, hg⟩)
      refine ⟨s', .step (.check hw hm) (.step (.pair (i := i) (by simp [hlt])) h1), by rw [h2]; simp, h3,
        (l, g') :: new, by rw [h4]; simp⟩

/-- Two workers with the same nearest global point may both pair with it. -/
theorem both_pair (s : State) (i j : Nat) (hij : i ≠ j) (g l1 l2 : Nat)
    (pre1 post1 pre2 post2 : List (Nat × Nat))
    (h1 : s.workers[i]? = some ⟨pre1 ++ (l1, g) :: post1, false⟩)
    (h2 : s.workers[j]? = some ⟨pre2 ++ (l2, g) :: post2, false⟩)
    (hp1 : ∀ t ∈ pre1, t.2 ≠ g) (hp2 : ∀ t ∈ pre2, t.2 ≠ g) (hg : g ∉ s.marked) :
    ∃ s', Steps s s' ∧ ∃ pre, s'.pairs = pre ++ [(l1, g), (l2, g)] := by
  have hlt1 : i < s.workers.length := (List.getElem?_eq_some_iff.mp h1).1
  have hlt2 : j < s.workers.length := (List.getElem?_eq_some_iff.mp h2).1
  obtain ⟨a, sa, wa, ma, na, _⟩ := run_prefix g i pre1 _ s h1 hp1 hg
  have haj : a.workers[j]? = some ⟨pre2 ++ (l2, g) :: post2, false⟩ := by
    rw [wa, List.getElem?_set_ne hij]; exact h2
  obtain ⟨b, sb, wb, mb, nb, _⟩ := run_prefix g j pre2 _ a haj hp2 ma
  have hbi : b.workers[i]? = some ⟨(l1, g) :: post1, false⟩ := by
    rw [wb, List.getElem?_set_ne hij.symm, wa]; simp [hlt1]
  have hbj : b.workers[j]? = some ⟨(l2, g) :: post2, false⟩ := by
    rw [wb, wa]; simp [hlt2]
  have hbl : b.workers.length = s.workers.length := by rw [wb, wa]; simp
  refine ⟨_, sa.trans (sb.trans (.step (.check hbi mb) (.step (.check (i := j) (g := g) (l := l2) (rest := post2) ?_ mb)
    (.step (.pair (i := i) (g := g) (l := l1) (rest := post1) ?_) (.step (.pair (i := j) (g := g) (l := l2) (rest := post2) ?_)
      (.refl _)))))), b.pairs, ?_⟩
  · simp only; rw [List.getElem?_set_ne hij]; exact hbj
  · simp only; rw [List.getElem?_set_ne hij.symm]; simp [hbl, hlt1]
  · simp only; rw [List.getElem?_set_ne hij]; simp [hbl, hlt2]
  · simp

/-- With a single worker, no global point is paired twice. -/
theorem single_worker {s s' : State} (h : Steps s s') (w : Worker) (hw : s.workers = [w])
    (hinv : (s.pairs.map (·.2)).Nodup ∧ (∀ t ∈ s.pairs, t.2 ∈ s.marked) ∧
      (w.passed = true → ∀ l g rest, w.todo = (l, g) :: rest → g ∉ s.marked)) :
    (s'.pairs.map (·.2)).Nodup := by
  induction h generalizing w with
  | refl => exact hinv.1
  | step h _ ih =>
    obtain ⟨h1, h2, h3⟩ := hinv
    cases h with
    | @skip i l g rest hi hm =>
      obtain ⟨hlt, he⟩ := List.getElem?_eq_some_iff.mp hi
      have : i = 0 := by rw [hw] at hlt; simpa using hlt
      subst this
      exact ih ⟨rest, false⟩ (by simp [hw]) ⟨h1, h2, by simp⟩
    | @check i l g rest hi hm =>
      obtain ⟨hlt, he⟩ := List.getElem?_eq_some_iff.mp hi
      have : i = 0 := by rw [hw] at hlt; simpa using hlt
      subst this
      refine ih ⟨(l, g) :: rest, true⟩ (by simp [hw]) ⟨h1, h2, ?_⟩
      rintro - l' g' r' h
      simp only [List.cons.injEq, Prod.mk.injEq] at h
      obtain ⟨⟨rfl, rfl⟩, rfl⟩ := h
      exact hm
    | @pair i l g rest hi =>
      obtain ⟨hlt, he⟩ := List.getElem?_eq_some_iff.mp hi
      have : i = 0 := by rw [hw] at hlt; simpa using hlt
      subst this
      simp only [hw, List.getElem_cons_zero] at he
      subst he
      have hg := h3 rfl l g rest rfl
      refine ih ⟨rest, false⟩ (by simp [hw]) ⟨?_, ?_, by simp⟩
      · simp only [List.map_append, List.map_cons, List.map_nil]
        rw [List.nodup_append]
        refine ⟨h1, by simp, ?_⟩
        intro a ha b hb
        simp only [List.mem_singleton] at hb
        subst hb
        rintro rfl
        obtain ⟨t, ht, rfl⟩ := List.mem_map.mp ha
        exact hg (h2 t ht)
      · intro t ht
        rcases List.mem_append.mp ht with ht | ht
        · exact List.mem_cons_of_mem _ (h2 t ht)
        · simp only [List.mem_singleton] at ht
          subst ht
          exact List.mem_cons_self

end Verif.Race
