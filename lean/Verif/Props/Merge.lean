import Verif.Lemmas.Merge
import Mathlib.Algebra.BigOperators.Group.Finset.Piecewise
import Mathlib.Data.Finset.Image
/-
C44: merging maps.
-/
set_option linter.unusedSectionVars false
namespace Verif
namespace Props
open Merge
variable {Pose Pt Ln Pl X : Type}

/-- With maps that own their layers and nothing impossible asked, the merge puts the lines, planes and every layer
together, by name, and leaves every layer of the other map as it was. -/
theorem merge_contents_partial (G : Geo Pose Pt Ln) (mem : Mem Pt X) (this other : MMap Ln Pl) (pose : Option Pose)
    (h1 : Own mem this) (h2 : Own mem other) (hd : Merge.Disjoint this other)
    (hpl : pose = none ∨ other.planes = [])
    (hm : ∀ name, Mergeable pose (content mem this name) (content mem other name)) :
    ∃ s, mergeWith G mem this other pose = .ok (s, false) ∧
      s.map.lines = this.lines ++ movedLines G pose other.lines ∧
      s.map.planes = this.planes ++ other.planes ∧
      (∀ name, content s.mem s.map name = joined G pose (content mem this name) (content mem other name)) ∧
      (∀ name, content s.mem other name = content mem other name) ∧ Own s.mem s.map ∧ Merge.Disjoint s.map other := by
  have hloop := mergeLoop_ok G pose other.layers
    ⟨mem, { this with
      lines := this.lines ++ movedLines G pose other.lines
      planes := this.planes ++ other.planes }⟩
    ⟨h1.sorted, h1.alloc, h1.inj⟩ (sorted_names h2.sorted) h2.alloc hd (by
      intro e he
      have := hm e.1
      rw [content_of_mem mem other h2.sorted e.1 e.2 he] at this
      exact this)
  obtain ⟨s, hs, q1, q2, q3, q4, q5, q6, q7⟩ := hloop
  refine ⟨s, ?_, q1, q2, ?_, ?_, q3, ?_⟩
  · unfold mergeWith
    rw [if_neg]
    · cases pose <;> exact hs
    · rcases hpl with h | h <;> simp [h]
  · intro name
    cases hg : other.layers.get name with
    | none =>
      have hno : content mem other name = none := by unfold content; rw [hg]; rfl
      rw [hno, q5 name (fun e he hn => by
        rw [AMap.get_none_iff] at hg; exact hg e he hn)]
      show content mem this name = _
      unfold joined; split <;> simp_all
    | some a =>
      have ha := AMap.mem_of_get _ _ _ hg
      rw [content_of_mem mem other h2.sorted name a ha]
      exact q6 (name, a) ha
  · intro name
    unfold content
    cases hg : other.layers.get name with
    | none => rfl
    | some a =>
      have ha := AMap.mem_of_get _ _ _ hg
      simp only [Option.map_some, Option.some.injEq]
      exact q4 a (h2.alloc _ ha) fun e he => hd e he _ ha
  · intro e he e' he'
    rcases q7 e he with ⟨x, hx, hxe⟩ | hx
    · rw [← hxe]; exact hd x hx e' he'
    · have := h2.alloc e' he'
      simp only at hx
      omega

/-- Consequences: no layer of either is lost, and of every cloud all the points of both are there. -/
theorem merge_keeps_everything_partial (G : Geo Pose Pt Ln) (mem : Mem Pt X) (this other : MMap Ln Pl) (pose : Option Pose)
    (h1 : Own mem this) (h2 : Own mem other) (hd : Merge.Disjoint this other) (hpl : pose = none ∨ other.planes = [])
    (hm : ∀ name, Mergeable pose (content mem this name) (content mem other name)) :
    ∃ s, mergeWith G mem this other pose = .ok (s, false) ∧
      (∀ name, ((content s.mem s.map name).isSome ↔ (content mem this name).isSome ∨ (content mem other name).isSome)) ∧
      (∀ name p, content mem this name = some (.pts p) → ∃ q, content s.mem s.map name = some (.pts (p ++ q))) ∧
      (∀ name p, content mem other name = some (.pts p) →
        ∃ q, content s.mem s.map name = some (.pts (q ++ p.map (G.pt (pose.getD G.one))))) ∧
      (∀ name x, content mem this name = some (.other x) → content s.mem s.map name = some (.other x)) ∧
      (∀ name x, content mem other name = some (.other x) → content s.mem s.map name = some (.other x)) := by
  obtain ⟨s, hs, _, _, hc, _, _, _⟩ := merge_contents_partial G mem this other pose h1 h2 hd hpl hm
  refine ⟨s, hs, ?_, ?_, ?_, ?_, ?_⟩
  · intro name
    rw [hc]
    unfold joined
    split <;> simp_all
  · intro name p hp
    rw [hc, hp]
    cases ho : content mem other name with
    | none => exact ⟨[], by simp [joined]⟩
    | some b =>
      cases b with
      | pts q => exact ⟨_, rfl⟩
      | other x =>
        have := hm name
        rw [hp, ho] at this; simp [Mergeable] at this
  · intro name p hp
    rw [hc, hp]
    cases ho : content mem this name with
    | none => exact ⟨[], by simp [joined, moved]⟩
    | some b =>
      cases b with
      | pts q => exact ⟨q, rfl⟩
      | other x =>
        have := hm name
        rw [ho, hp] at this; simp [Mergeable] at this
  · intro name x hx
    rw [hc, hx]
    unfold joined; split <;> simp_all
  · intro name x hx
    rw [hc, hx]
    cases ho : content mem this name with
    | none => rfl
    | some b =>
      have := hm name
      rw [ho, hx] at this; cases b <;> simp [Mergeable] at this

/-- Otherwise the merge does not go through: it throws, or dereferences a null pointer. -/
theorem merge_refused (G : Geo Pose Pt Ln) (mem : Mem Pt X) (this other : MMap Ln Pl) (pose : Option Pose)
    (h1 : Own mem this) (h2 : Own mem other) (hd : Merge.Disjoint this other)
    (hbad : (pose ≠ none ∧ other.planes ≠ []) ∨
      ∃ name, ¬ Mergeable pose (content mem this name) (content mem other name)) :
    mergeWith G mem this other pose = .ub ∨ ∃ s, mergeWith G mem this other pose = .ok (s, true) := by
  unfold mergeWith
  by_cases hp : (pose.isSome && !other.planes.isEmpty) = true
  · rw [if_pos hp]; exact .inr ⟨_, rfl⟩
  · rw [if_neg hp]
    refine mergeLoop_bad G pose other.layers _ ⟨h1.sorted, h1.alloc, h1.inj⟩ (sorted_names h2.sorted) h2.alloc ?_ ?_
    · exact hd
    rcases hbad with ⟨ha, hb⟩ | ⟨name, hn⟩
    · exfalso; apply hp
      cases pose with
      | none => exact absurd rfl ha
      | some q => cases hpl : other.planes with
        | nil => exact absurd hpl hb
        | cons _ _ => rfl
    · cases hg : other.layers.get name with
      | none =>
        have : content mem other name = none := by unfold content; rw [hg]; rfl
        rw [this] at hn; simp [Mergeable] at hn
      | some a =>
        have ha := AMap.mem_of_get _ _ _ hg
        refine ⟨(name, a), ha, ?_⟩
        rw [content_of_mem mem other h2.sorted name a ha] at hn
        exact hn

/-! ### witnesses: points are numbers, a pose is an offset -/

def geoN : Geo Nat Nat Nat := ⟨0, fun q p => p + q, fun q l => l + q, fun _ => rfl⟩
def memEx : Mem Nat Unit := ⟨fun a => match a with | 0 => .pts [1, 2] | 1 => .pts [5] | 2 => .pts [7, 8] | _ => .other (), 4⟩
def thisEx : MMap Nat Nat := ⟨[100], [], [("map", 0), ("raw", 1)]⟩
def otherEx : MMap Nat Nat := ⟨[200], [], [("raw", 2)]⟩

example : Own memEx thisEx ∧ Own memEx otherEx ∧ Merge.Disjoint thisEx otherEx := by
  refine ⟨⟨?_, ?_, ?_⟩, ⟨?_, ?_, ?_⟩, ?_⟩
  · unfold AMap.Sorted; decide +kernel
  · decide +kernel
  · decide +kernel
  · unfold AMap.Sorted; decide +kernel
  · decide +kernel
  · decide +kernel
  · unfold Merge.Disjoint; decide +kernel
example : (mergeWith geoN memEx thisEx otherEx (some 10)).Sat fun r => r.2 = false ∧ r.1.map.lines = [100, 210] ∧
    content r.1.mem r.1.map "raw" = some (.pts [5, 17, 18]) ∧ content r.1.mem r.1.map "map" = some (.pts [1, 2]) := by
  decide +kernel

/-- Any plane in the other map makes a merge with a pose throw, with the lines already appended. -/
theorem merge_planes_with_pose_throws (G : Geo Pose Pt Ln) (mem : Mem Pt X) (this other : MMap Ln Pl) (q : Pose)
    (h : other.planes ≠ []) :
    ∃ s, mergeWith G mem this other (some q) = .ok (s, true) ∧ s.map.lines = this.lines ++ other.lines.map (G.ln q) ∧
      s.map.planes = this.planes ∧ s.map.layers = this.layers := by
  unfold mergeWith
  rw [if_pos (by cases hp : other.planes with
    | nil => exact absurd hp h
    | cons _ _ => rfl)]
  exact ⟨_, rfl, rfl, rfl, rfl⟩

/-- Same layer name, a cloud here and another kind of map there: a null pointer is dereferenced. -/
theorem merge_null_ub : mergeWith geoN memEx thisEx ⟨[], [], [("raw", 3)]⟩ none = .ub :=
  Outcome.eq_ub_of (by decide +kernel)

/-- Maps copied with `=` share their layers: merging into the copy changes the original too. -/
theorem merge_shared_layer_changes_other :
    (mergeWith geoN memEx thisEx ⟨[], [], [("raw", 1)]⟩ none).Sat
      fun r => r.2 = false ∧ content r.1.mem (⟨[], [], [("raw", 1)]⟩ : MMap Nat Nat) "raw" = some (.pts [5, 5]) ∧
        content memEx (⟨[], [], [("raw", 1)]⟩ : MMap Nat Nat) "raw" = some (.pts [5]) := by decide +kernel

theorem sizePoints_eq (mem : Mem Pt X) (lines : List Ln) (planes : List Pl) (N : Finset String) :
    ∀ l : AMap String Nat, l.Sorted → (∀ e ∈ l, e.1 ∈ N) →
      sizePoints mem (⟨lines, planes, l⟩ : MMap Ln Pl) = ∑ n ∈ N, pointsIn mem (⟨lines, planes, l⟩ : MMap Ln Pl) n
  | [], _, _ => by
    symm
    exact Finset.sum_eq_zero fun n _ => rfl
  | e :: l, hs, hN => by
    have ih := sizePoints_eq mem lines planes N l (List.pairwise_cons.mp hs).2 fun x hx => hN x (List.mem_cons_of_mem _ hx)
    have hlt := (List.pairwise_cons.mp hs).1
    have hnot : AMap.get l e.1 = none := (AMap.get_none_iff l e.1).mpr fun x hx => (hlt x hx).ne'
    have h1 : ∀ (l' : List (String × Nat)) (k : Nat),
        l'.foldl (fun n e => n + Layer.pointCount (mem.heap e.2)) k =
          k + l'.foldl (fun n e => n + Layer.pointCount (mem.heap e.2)) 0 := by
      intro l'
      induction l' with
      | nil => intro k; rfl
      | cons a l' ih => intro k; rw [List.foldl_cons, List.foldl_cons, ih, ih (0 + _)]; omega
    have h2 : sizePoints mem (⟨lines, planes, e :: l⟩ : MMap Ln Pl) =
        Layer.pointCount (mem.heap e.2) + sizePoints mem (⟨lines, planes, l⟩ : MMap Ln Pl) := by
      show List.foldl _ 0 (e :: l) = _
      rw [List.foldl_cons, h1, Nat.zero_add]
      rfl
    have h3 : ∀ n, pointsIn mem (⟨lines, planes, e :: l⟩ : MMap Ln Pl) n =
        (if n = e.1 then Layer.pointCount (mem.heap e.2) else 0) + pointsIn mem (⟨lines, planes, l⟩ : MMap Ln Pl) n := by
      intro n
      unfold pointsIn content
      simp only [AMap.get_cons]
      by_cases hn : e.1 = n
      · subst hn
        rw [if_pos rfl, if_pos rfl, hnot]
        simp only [Option.map_some, Option.map_none]
        cases mem.heap e.2 <;> rfl
      · rw [if_neg hn, if_neg (Ne.symm hn), Nat.zero_add]
    rw [h2, ih, Finset.sum_congr rfl fun n _ => h3 n, Finset.sum_add_distrib, Finset.sum_ite_eq',
      if_pos (hN e (List.mem_cons_self ..))]

/-- `size()` counts each line, each plane and each point of each point-cloud layer once, whatever set of names one
looks the layers up by, as long as it has all the map's. -/
theorem map_size (mem : Mem Pt X) (m : MMap Ln Pl) (hs : m.layers.Sorted) (N : Finset String)
    (hN : ∀ name, content mem m name ≠ none → name ∈ N) :
    size mem m = m.lines.length + m.planes.length + ∑ n ∈ N, pointsIn mem m n := by
  unfold size
  congr 1
  refine sizePoints_eq mem m.lines m.planes N m.layers hs fun e he => hN e.1 ?_
  rw [content_of_mem mem m hs e.1 e.2 he]
  exact Option.some_ne_none _

/-- `empty()`: no line, no plane and no layer, not even one of no points. -/
theorem map_empty_iff (mem : Mem Pt X) (m : MMap Ln Pl) :
    m.isEmpty = true ↔ m.lines = [] ∧ m.planes = [] ∧ ∀ name, content mem m name = none := by
  unfold MMap.isEmpty
  simp only [Bool.and_eq_true, List.isEmpty_iff]
  constructor
  · rintro ⟨⟨h1, h2⟩, h3⟩
    exact ⟨h2, h3, fun name => by unfold content; rw [h1]; rfl⟩
  · rintro ⟨h1, h2, h3⟩
    refine ⟨⟨?_, h1⟩, h2⟩
    cases hl : m.layers with
    | nil => rfl
    | cons e l =>
      have := h3 e.1
      unfold content at this
      rw [hl, AMap.get_cons, if_pos rfl] at this
      simp at this

/-- An empty map has size zero … -/
theorem empty_size_zero (mem : Mem Pt X) (m : MMap Ln Pl) (h : m.isEmpty = true) : size mem m = 0 := by
  unfold MMap.isEmpty at h
  simp only [Bool.and_eq_true, List.isEmpty_iff] at h
  obtain ⟨⟨h1, h2⟩, h3⟩ := h
  unfold size sizePoints
  rw [h1, h2, h3]
  rfl

/-- … but size zero does not mean `empty()`: a cloud without points, or any layer that is not a cloud. -/
theorem size_zero_not_empty :
    size (⟨fun _ => .pts [], 1⟩ : Mem Nat Unit) (⟨[], [], [("raw", 0)]⟩ : MMap Nat Nat) = 0 ∧
      (⟨[], [], [("raw", 0)]⟩ : MMap Nat Nat).isEmpty = false ∧
      size (⟨fun _ => .other (), 1⟩ : Mem Nat Unit) (⟨[], [], [("grid", 0)]⟩ : MMap Nat Nat) = 0 ∧
      (⟨[], [], [("grid", 0)]⟩ : MMap Nat Nat).isEmpty = false := by decide +kernel

/-- A merge that goes through loses and invents no element: the size of the result is the sum of the two sizes. -/
theorem merge_size_partial (G : Geo Pose Pt Ln) (mem : Mem Pt X) (this other : MMap Ln Pl) (pose : Option Pose)
    (h1 : Own mem this) (h2 : Own mem other) (hd : Merge.Disjoint this other)
    (hpl : pose = none ∨ other.planes = [])
    (hm : ∀ name, Mergeable pose (content mem this name) (content mem other name)) :
    ∃ s, mergeWith G mem this other pose = .ok (s, false) ∧
      size s.mem s.map = size mem this + size mem other ∧ size s.mem other = size mem other := by
  obtain ⟨s, hs, q1, q2, q3, q4, q5, _⟩ := merge_contents_partial G mem this other pose h1 h2 hd hpl hm
  refine ⟨s, hs, ?_⟩
  let N : Finset String := (this.layers.map (·.1)).toFinset ∪ (other.layers.map (·.1)).toFinset
  have hk : ∀ (m : MMap Ln Pl) name, content mem m name ≠ none → name ∈ (m.layers.map (·.1)).toFinset := by
    intro m name h
    rw [List.mem_toFinset, List.mem_map]
    unfold content at h
    cases hg : m.layers.get name with
    | none => rw [hg] at h; exact absurd rfl h
    | some a => exact ⟨(name, a), AMap.mem_of_get _ _ _ hg, rfl⟩
  have hN1 : ∀ name, content mem this name ≠ none → name ∈ N := fun n h => Finset.mem_union_left _ (hk this n h)
  have hN2 : ∀ name, content mem other name ≠ none → name ∈ N := fun n h => Finset.mem_union_right _ (hk other n h)
  have hN3 : ∀ name, content s.mem s.map name ≠ none → name ∈ N := by
    intro n h
    rw [q3] at h
    by_cases ha : content mem this n = none
    · refine hN2 n fun hb => h ?_
      rw [ha, hb]; rfl
    · exact hN1 n ha
  have hsum : ∀ n, pointsIn s.mem s.map n = pointsIn mem this n + pointsIn mem other n := by
    intro n
    unfold pointsIn
    rw [q3]
    have hmn := hm n
    generalize content mem this n = a at hmn
    generalize content mem other n = b at hmn
    rcases a with _ | ⟨p | x⟩ <;> rcases b with _ | ⟨q | y⟩ <;>
      simp_all [joined, moved, Mergeable]
  have ho : ∀ n, pointsIn s.mem other n = pointsIn mem other n := fun n => by unfold pointsIn; rw [q4]
  rw [map_size s.mem s.map q5.sorted N hN3, map_size mem this h1.sorted N hN1, map_size mem other h2.sorted N hN2,
    map_size s.mem other h2.sorted N fun n h => hN2 n (by rwa [← q4]), q1, q2,
    Finset.sum_congr rfl fun n _ => hsum n, Finset.sum_add_distrib, Finset.sum_congr rfl fun n _ => ho n]
  refine ⟨?_, rfl⟩
  have hl : (movedLines G pose other.lines).length = other.lines.length := by
    unfold movedLines; cases pose <;> simp
  rw [List.length_append, List.length_append, hl]
  omega

/-- the merge above: sizes 4 and 3 give 7 -/
example : size memEx thisEx = 4 ∧ size memEx otherEx = 3 ∧
    (mergeWith geoN memEx thisEx otherEx (some 10)).Sat
      fun r => size r.1.mem r.1.map = size memEx thisEx + size memEx otherEx := by decide +kernel

end Props
end Verif
