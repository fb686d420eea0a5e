import Mathlib.Tactic.Tauto
import Verif.Lemmas.AMap
import Verif.Spec.Merge
/-
Lemmas on merging maps.
-/
set_option linter.unusedSectionVars false
namespace Verif
namespace Merge
variable {Pose Pt Ln Pl X : Type}

theorem content_of_mem (mem : Mem Pt X) (m : MMap Ln Pl) (hs : m.layers.Sorted) (n : String) (a : Nat)
    (h : (n, a) ∈ m.layers) : content mem m n = some (mem.heap a) := by
  unfold content; rw [AMap.get_eq_some_of_mem _ hs _ _ h]; rfl

/-- what one layer does, when possible -/
structure StepPost (G : Geo Pose Pt Ln) (pose : Option Pose) (s s' : MState Pt X Ln Pl) (name : String) (addr : Nat) : Prop where
  lines : s'.map.lines = s.map.lines
  planes : s'.map.planes = s.map.planes
  own : Own s'.mem s'.map
  next : s.mem.next ≤ s'.mem.next
  frame : ∀ a, a < s.mem.next → (∀ e ∈ s.map.layers, e.2 ≠ a) → s'.mem.heap a = s.mem.heap a
  addrs : ∀ e ∈ s'.map.layers, (∃ e' ∈ s.map.layers, e'.2 = e.2) ∨ e.2 = s.mem.next
  keep : ∀ n, n ≠ name → content s'.mem s'.map n = content s.mem s.map n
  here : content s'.mem s'.map name = joined G pose (content s.mem s.map name) (some (s.mem.heap addr))

theorem mergeLayer_ok (G : Geo Pose Pt Ln) (pose : Option Pose) (s : MState Pt X Ln Pl) (name : String) (addr : Nat)
    (ho : Own s.mem s.map) (ha : addr < s.mem.next)
    (hm : Mergeable pose (content s.mem s.map name) (some (s.mem.heap addr))) :
    ∃ s', mergeLayer G pose s name addr = .ok (s', false) ∧ StepPost G pose s s' name addr := by
  obtain ⟨mem, map⟩ := s
  simp only at ho ha hm ⊢
  unfold mergeLayer
  simp only
  cases hg : map.layers.get name with
  | none =>
    simp only
    have hcn : content mem map name = none := by unfold content; rw [hg]; rfl
    -- a state in which the new object has contents `c`
    have key : ∀ c : Layer (List Pt) X, c = moved G pose (mem.heap addr) → StepPost G pose ⟨mem, map⟩
        ⟨⟨Function.update mem.heap mem.next c, mem.next + 1⟩, { map with layers := map.layers.set name mem.next }⟩ name addr := by
      intro c hc
      have hget : ∀ n a, map.layers.get n = some a → a ≠ mem.next := by
        intro n a h hh
        have := ho.alloc _ (AMap.mem_of_get _ _ _ h)
        simp only at this; omega
      refine ⟨rfl, rfl, ⟨AMap.sorted_set _ _ _ ho.sorted, ?_, ?_⟩, Nat.le_succ _, ?_, ?_, ?_, ?_⟩
      · intro e he
        simp only at he ⊢
        rw [AMap.mem_set] at he
        rcases he with rfl | ⟨he, _⟩
        · exact Nat.lt_succ_self _
        · exact Nat.lt_succ_of_lt (ho.alloc e he)
      · intro e he e' he' hee
        simp only at he he'
        rw [AMap.mem_set] at he he'
        rcases he with rfl | ⟨he, _⟩ <;> rcases he' with rfl | ⟨he', _⟩
        · rfl
        · have := ho.alloc e' he'; simp only at hee; omega
        · have := ho.alloc e he; simp only at hee; omega
        · exact ho.inj e he e' he' hee
      · intro a ha' _
        have : a ≠ mem.next := by simp only at ha'; omega
        simp [Function.update_of_ne this]
      · intro e he
        simp only at he
        rw [AMap.mem_set] at he
        rcases he with rfl | ⟨he, _⟩
        · exact .inr rfl
        · exact .inl ⟨e, he, rfl⟩
      · intro n hn
        unfold content
        simp only [AMap.get_set, hn, if_false]
        cases h : map.layers.get n with
        | none => rfl
        | some a => simp [Function.update_of_ne (hget n a h)]
      · unfold content
        simp only [AMap.get_set, if_true, hg, Option.map_none, Option.map_some, Function.update_self, joined, hc]
    cases pose with
    | none =>
      refine ⟨_, rfl, key _ ?_⟩
      cases mem.heap addr with
      | other x => rfl
      | pts p =>
        simp only [moved, Option.getD_none]
        congr 1
        exact (by rw [show G.pt G.one = id from funext G.pt_one]; simp)
    | some q =>
      rw [hcn] at hm
      cases hh : mem.heap addr with
      | other x => simp [hh, Mergeable] at hm
      | pts p =>
        simp only [Function.update_self, hh]
        refine ⟨_, rfl, ?_⟩
        have := key (.pts (p.map (G.pt q))) (by rw [hh]; rfl)
        simpa using this
  | some a =>
    have hcn : content mem map name = some (mem.heap a) := by unfold content; rw [hg]; rfl
    have ham : (name, a) ∈ map.layers := AMap.mem_of_get _ _ _ hg
    rw [hcn] at hm
    cases h1 : mem.heap a with
    | other x =>
      cases h2 : mem.heap addr <;> simp [h1, h2, Mergeable] at hm
    | pts p =>
      cases h2 : mem.heap addr with
      | other x => simp [h1, h2, Mergeable] at hm
      | pts p' =>
        simp only [h1, h2]
        refine ⟨_, rfl, rfl, rfl, ⟨ho.sorted, ho.alloc, ho.inj⟩, le_refl _, ?_, fun e he => .inl ⟨e, he, rfl⟩, ?_, ?_⟩
        · intro b _ hb
          have : b ≠ a := by rintro rfl; exact hb _ ham rfl
          simp [Function.update_of_ne this]
        · intro n hn
          unfold content
          simp only
          cases h : map.layers.get n with
          | none => rfl
          | some b =>
            have : b ≠ a := by
              rintro rfl
              have := ho.inj _ (AMap.mem_of_get _ _ _ h) _ ham rfl
              simp at this; exact hn this
            simp [Function.update_of_ne this]
        · rw [hcn]
          unfold content
          simp only [hg, Option.map_some, Function.update_self, h1, h2, joined]

theorem mergeLoop_ok (G : Geo Pose Pt Ln) (pose : Option Pose) (l : List (String × Nat)) : ∀ (s : MState Pt X Ln Pl),
    Own s.mem s.map → l.Pairwise (fun a b => a.1 ≠ b.1) → (∀ e ∈ l, e.2 < s.mem.next) →
    (∀ e ∈ s.map.layers, ∀ e' ∈ l, e.2 ≠ e'.2) →
    (∀ e ∈ l, Mergeable pose (content s.mem s.map e.1) (some (s.mem.heap e.2))) →
    ∃ s', mergeLoop G pose l s = .ok (s', false) ∧ s'.map.lines = s.map.lines ∧ s'.map.planes = s.map.planes ∧
      Own s'.mem s'.map ∧ (∀ a, a < s.mem.next → (∀ e ∈ s.map.layers, e.2 ≠ a) → s'.mem.heap a = s.mem.heap a) ∧
      (∀ n, (∀ e ∈ l, e.1 ≠ n) → content s'.mem s'.map n = content s.mem s.map n) ∧
      (∀ e ∈ l, content s'.mem s'.map e.1 = joined G pose (content s.mem s.map e.1) (some (s.mem.heap e.2))) ∧
      (∀ e ∈ s'.map.layers, (∃ e' ∈ s.map.layers, e'.2 = e.2) ∨ s.mem.next ≤ e.2) := by
  induction l with
  | nil =>
    intro s ho _ _ _ _
    exact ⟨s, rfl, rfl, rfl, ho, fun _ _ _ => rfl, fun _ _ => rfl, by simp, fun e he => .inl ⟨e, he, rfl⟩⟩
  | cons e l ih =>
    intro s ho hnd hal hdis hm
    obtain ⟨s1, h1, p1⟩ := mergeLayer_ok G pose s e.1 e.2 ho (hal e (by simp)) (hm e (by simp))
    rw [List.pairwise_cons] at hnd
    have hheap : ∀ e' ∈ l, s1.mem.heap e'.2 = s.mem.heap e'.2 := by
      intro e' he'
      exact p1.frame _ (hal e' (by simp [he'])) fun x hx => hdis x hx e' (by simp [he'])
    have hcont : ∀ e' ∈ l, content s1.mem s1.map e'.1 = content s.mem s.map e'.1 := by
      intro e' he'
      exact p1.keep _ (fun h => hnd.1 e' he' h.symm)
    have hdis1 : ∀ x ∈ s1.map.layers, ∀ e' ∈ l, x.2 ≠ e'.2 := by
      intro x hx e' he'
      rcases p1.addrs x hx with ⟨x', hx', hxe⟩ | hx'
      · rw [← hxe]; exact hdis x' hx' e' (by simp [he'])
      · have := hal e' (by simp [he']); omega
    obtain ⟨s2, h2, q1, q2, q3, q4, q5, q6, q7⟩ := ih s1 p1.own hnd.2
      (fun e' he' => lt_of_lt_of_le (hal e' (by simp [he'])) p1.next) hdis1
      (fun e' he' => by rw [hcont e' he', hheap e' he']; exact hm e' (by simp [he']))
    refine ⟨s2, ?_, q1.trans p1.lines, q2.trans p1.planes, q3, ?_, ?_, ?_, ?_⟩
    · simp only [mergeLoop, h1, Outcome.bind, Bool.false_eq_true, if_false]; exact h2
    · intro a ha hna
      rw [q4 a (lt_of_lt_of_le ha p1.next), p1.frame a ha hna]
      intro x hx
      rcases p1.addrs x hx with ⟨x', hx', hxe⟩ | hx'
      · rw [← hxe]; exact hna x' hx'
      · omega
    · intro n hn
      rw [q5 n (fun x hx => hn x (by simp [hx])), p1.keep n (fun h => hn e (by simp) h.symm)]
    · intro x hx
      rcases List.mem_cons.mp hx with rfl | hx
      · rw [q5 x.1 (fun y hy => fun h => hnd.1 y hy h.symm), p1.here]
      · rw [q6 x hx, hcont x hx, hheap x hx]
    · intro x hx
      rcases q7 x hx with ⟨x', hx', hxe⟩ | hx'
      · rcases p1.addrs x' hx' with ⟨x'', hx'', hxe'⟩ | hx''
        · exact .inl ⟨x'', hx'', by rw [hxe', hxe]⟩
        · right; omega
      · right; exact le_trans p1.next hx'

/-- an impossible layer stops the merge -/
theorem mergeLayer_bad (G : Geo Pose Pt Ln) (pose : Option Pose) (s : MState Pt X Ln Pl) (name : String) (addr : Nat)
    (hm : ¬ Mergeable pose (content s.mem s.map name) (some (s.mem.heap addr))) :
    mergeLayer G pose s name addr = .ub ∨ ∃ s', mergeLayer G pose s name addr = .ok (s', true) := by
  unfold mergeLayer
  cases hg : s.map.layers.get name with
  | none =>
    have hcn : content s.mem s.map name = none := by unfold content; rw [hg]; rfl
    rw [hcn] at hm
    cases hh : s.mem.heap addr with
    | pts p => simp [hh, Mergeable] at hm
    | other x =>
      cases pose with
      | none => simp [hh, Mergeable] at hm
      | some q => right; simp only [Function.update_self, hh]; exact ⟨_, rfl⟩
  | some a =>
    have hcn : content s.mem s.map name = some (s.mem.heap a) := by unfold content; rw [hg]; rfl
    rw [hcn] at hm
    cases h1 : s.mem.heap a with
    | other x => right; exact ⟨_, by simp only [h1]; rfl⟩
    | pts p =>
      cases h2 : s.mem.heap addr with
      | other x => left; simp only [h1, h2]
      | pts p' => simp [h1, h2, Mergeable] at hm

theorem mergeLoop_bad (G : Geo Pose Pt Ln) (pose : Option Pose) (l : List (String × Nat)) : ∀ (s : MState Pt X Ln Pl),
    Own s.mem s.map → l.Pairwise (fun a b => a.1 ≠ b.1) → (∀ e ∈ l, e.2 < s.mem.next) →
    (∀ e ∈ s.map.layers, ∀ e' ∈ l, e.2 ≠ e'.2) →
    (∃ e ∈ l, ¬ Mergeable pose (content s.mem s.map e.1) (some (s.mem.heap e.2))) →
    mergeLoop G pose l s = .ub ∨ ∃ s', mergeLoop G pose l s = .ok (s', true) := by
  induction l with
  | nil => intro s _ _ _ _ h; simp at h
  | cons e l ih =>
    intro s ho hnd hal hdis hbad
    by_cases hm : Mergeable pose (content s.mem s.map e.1) (some (s.mem.heap e.2))
    · obtain ⟨s1, h1, p1⟩ := mergeLayer_ok G pose s e.1 e.2 ho (hal e (by simp)) hm
      rw [List.pairwise_cons] at hnd
      have hdis1 : ∀ x ∈ s1.map.layers, ∀ e' ∈ l, x.2 ≠ e'.2 := by
        intro x hx e' he'
        rcases p1.addrs x hx with ⟨x', hx', hxe⟩ | hx'
        · rw [← hxe]; exact hdis x' hx' e' (by simp [he'])
        · have := hal e' (by simp [he']); omega
      have := ih s1 p1.own hnd.2 (fun e' he' => lt_of_lt_of_le (hal e' (by simp [he'])) p1.next) hdis1 (by
        obtain ⟨x, hx, hxm⟩ := hbad
        rcases List.mem_cons.mp hx with rfl | hx
        · exact absurd hm hxm
        · refine ⟨x, hx, ?_⟩
          rw [p1.keep _ (fun h => hnd.1 x hx h.symm),
            p1.frame _ (hal x (by simp [hx])) fun y hy => hdis y hy x (by simp [hx])]
          exact hxm)
      simp only [mergeLoop, h1, Outcome.bind, Bool.false_eq_true, if_false]
      exact this
    · rcases mergeLayer_bad G pose s e.1 e.2 hm with h | ⟨s', h⟩
      · left; simp only [mergeLoop, h, Outcome.bind]
      · right; exact ⟨s', by simp only [mergeLoop, h, Outcome.bind, if_true]⟩

theorem sorted_names {m : AMap String Nat} (h : m.Sorted) : List.Pairwise (fun a b => a.1 ≠ b.1) m :=
  List.Pairwise.imp (fun h => ne_of_lt h) h

end Merge
end Verif
