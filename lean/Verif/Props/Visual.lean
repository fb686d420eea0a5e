import Verif.Spec.Visual
import Verif.Lemmas.AMap
import Mathlib.Tactic.Ring
import Mathlib.Tactic.FieldSimp
import Mathlib.Tactic.Linarith
import Mathlib.Algebra.Order.Ring.Rat
/-
C85 (3D view of a map), C86 (3D view of pairings).
-/
namespace Verif.Props
open Verif Verif.Viz
set_option linter.unusedSectionVars false
variable {K C : Type} [Field K] [LinearOrder K] [IsStrictOrderedRing K]

/-! ### limits of the colour map -/

theorem bbox_fold (i : Fin 3) (l : List (P3 K)) (a b : K) :
    let r := l.foldl (fun b q => (min b.1 (coordOf i q), max b.2 (coordOf i q))) (a, b)
    (r.1 = a ∨ ∃ q ∈ l, r.1 = coordOf i q) ∧ r.1 ≤ a ∧ (∀ q ∈ l, r.1 ≤ coordOf i q) ∧
    (r.2 = b ∨ ∃ q ∈ l, r.2 = coordOf i q) ∧ b ≤ r.2 ∧ (∀ q ∈ l, coordOf i q ≤ r.2) := by
  induction l generalizing a b with
  | nil => simp
  | cons p l ih =>
    obtain ⟨h1, h2, h3, h4, h5, h6⟩ := ih (min a (coordOf i p)) (max b (coordOf i p))
    simp only [List.foldl_cons]
    refine ⟨?_, h2.trans (min_le_left _ _), ?_, ?_, (le_max_left _ _).trans h5, ?_⟩
    · rcases h1 with h | ⟨q, hq, h⟩
      · rcases min_choice a (coordOf i p) with h' | h' <;> rw [h, h']
        · exact Or.inl rfl
        · exact Or.inr ⟨p, List.mem_cons_self, rfl⟩
      · exact Or.inr ⟨q, List.mem_cons_of_mem _ hq, h⟩
    · intro q hq
      rcases List.mem_cons.mp hq with rfl | hq
      · exact h2.trans (min_le_right _ _)
      · exact h3 q hq
    · rcases h4 with h | ⟨q, hq, h⟩
      · rcases max_choice b (coordOf i p) with h' | h' <;> rw [h, h']
        · exact Or.inl rfl
        · exact Or.inr ⟨p, List.mem_cons_self, rfl⟩
      · exact Or.inr ⟨q, List.mem_cons_of_mem _ hq, h⟩
    · intro q hq
      rcases List.mem_cons.mp hq with rfl | hq
      · exact (le_max_right _ _).trans h5
      · exact h6 q hq

theorem bboxCoord_spec (i : Fin 3) (pts : List (P3 K)) (h : pts ≠ []) :
    IsLeast {x | ∃ q ∈ pts, x = coordOf i q} (bboxCoord i pts).1 ∧
    IsGreatest {x | ∃ q ∈ pts, x = coordOf i q} (bboxCoord i pts).2 := by
  cases pts with
  | nil => exact absurd rfl h
  | cons p l =>
    obtain ⟨h1, h2, h3, h4, h5, h6⟩ := bbox_fold i l (coordOf i p) (coordOf i p)
    refine ⟨⟨?_, ?_⟩, ⟨?_, ?_⟩⟩
    · rcases h1 with h | ⟨q, hq, h⟩
      · exact ⟨p, List.mem_cons_self, h⟩
      · exact ⟨q, List.mem_cons_of_mem _ hq, h⟩
    · rintro x ⟨q, hq, rfl⟩
      rcases List.mem_cons.mp hq with rfl | hq
      · exact h2
      · exact h3 q hq
    · rcases h4 with h | ⟨q, hq, h⟩
      · exact ⟨p, List.mem_cons_self, h⟩
      · exact ⟨q, List.mem_cons_of_mem _ hq, h⟩
    · rintro x ⟨q, hq, rfl⟩
      rcases List.mem_cons.mp hq with rfl | hq
      · exact h5
      · exact h6 q hq

theorem colorLimits_spec (e : Viz.Ext K) (m : ColorMode K) (i : Fin 3) (pts : List (P3 K)) (h : pts ≠ []) :
    LimitsAre e m i pts (colorLimits e m i pts).1 (colorLimits e m i pts).2 := by
  obtain ⟨h1, h2⟩ := bboxCoord_spec i pts h
  refine ⟨_, _, h1, h2, ?_, ?_, ?_, ?_, ?_⟩
  · intro x hx; simp [colorLimits, hx]
  · intro x hx; simp [colorLimits, hx]
  · intro hx hp; simp [colorLimits, hx, hp]
  · intro hx hp; simp [colorLimits, hx, hp]
  · intro c hp
    constructor <;> intro hx <;> simp [colorLimits, hx, hp]

/-! ### one layer -/

theorem withSize_withSize (s t : K) (o : Obj K C) : withSize s (withSize t o) = withSize s o := by
  cases o <;> rfl

theorem withSize_resize (s t : K) (o : Obj K C) : withSize s (o.resize t) = withSize s o := by
  cases o <;> rfl

theorem resizeFirst_shape (f : Obj K C → Bool) (s : K) (o : List (Obj K C)) :
    (resizeFirst f s o).map (withSize 0) = o.map (withSize 0) := by
  induction o with
  | nil => rfl
  | cons a l ih =>
    simp only [resizeFirst]
    split
    · simp [withSize_resize]
    · simp [ih]

theorem renderOwn_shape (p : LayerP K C) (o : List (Obj K C)) (l : Layer K C) :
    SameButSize (renderOwn p o l) (o ++ (l.own l.free).map (withSize p.size)) := by
  unfold SameButSize renderOwn
  have : (o ++ (l.own l.free).map (withSize p.size)).map (withSize 0) = (o ++ l.own l.free).map (withSize 0) := by
    simp [Function.comp_def, withSize_withSize]
  rw [this]
  simp only []
  split
  · exact resizeFirst_shape _ _ _
  · split
    · exact resizeFirst_shape _ _ _
    · rfl

theorem sameButSize_refl (a : List (Obj K C)) : SameButSize a a := rfl
theorem sameButSize_trans {a b c : List (Obj K C)} (h : SameButSize a b) (h' : SameButSize b c) : SameButSize a c :=
  Eq.trans h h'
theorem sameButSize_append {a b : List (Obj K C)} (c : List (Obj K C)) (h : SameButSize a b) :
    SameButSize (a ++ c) (b ++ c) := by
  unfold SameButSize at *; simp [h]

/-- what one layer does: drawn as documented but for sizes; drawn exactly so unless by its own renderer -/
theorem renderPts_spec (e : Viz.Ext K) (p : LayerP K C) (o : List (Obj K C)) (l : Layer K C) (pts : List (P3 K)) :
    (∀ r, renderPts e p o l pts = .ok r → ∃ objs, PtsDrawn e p l pts objs ∧ SameButSize r.1 (o ++ objs) ∧ r.2 = l ∧
      ((∀ m, p.mode = some m → m.keep = false) → r.1 = o ++ objs)) ∧
    (∀ objs, PtsDrawn e p l pts objs → ∃ r, renderPts e p o l pts = .ok r) ∧
    renderPts e p o l pts ≠ .ub := by
  unfold renderPts PtsDrawn
  cases hm : p.mode with
  | none =>
    cases pts with
    | nil =>
      refine ⟨fun r hr => ?_, fun objs _ => ⟨_, rfl⟩, by simp⟩
      simp at hr; subst hr
      exact ⟨[], by simp, by simp [SameButSize], rfl, by simp⟩
    | cons a l' =>
      refine ⟨fun r hr => ?_, fun objs _ => ⟨_, rfl⟩, by simp⟩
      simp at hr; subst hr
      exact ⟨_, Or.inr ⟨by simp, rfl⟩, sameButSize_refl _, rfl, fun _ => rfl⟩
  | some m =>
    simp only []
    cases hk : m.keep with
    | true =>
      refine ⟨fun r hr => ?_, fun objs _ => ⟨_, rfl⟩, by simp⟩
      simp at hr; subst hr
      refine ⟨_, Or.inl ⟨rfl, rfl⟩, renderOwn_shape p o l, rfl, fun h => ?_⟩
      have := h m rfl
      rw [hk] at this; cases this
    | false =>
      cases pts with
      | nil =>
        refine ⟨fun r hr => ?_, fun objs _ => ⟨_, rfl⟩, by simp⟩
        simp at hr; subst hr
        exact ⟨[], Or.inr (Or.inl ⟨rfl, rfl, rfl⟩), by simp [SameButSize], rfl, by simp⟩
      | cons a l' =>
        cases hc : m.coord with
        | none =>
          refine ⟨fun r hr => by simp at hr, fun objs h => ?_, by simp⟩
          rcases h with ⟨h, -⟩ | ⟨-, h, -⟩ | ⟨-, -, i, lo, hi, h, -⟩
          · cases h
          · cases h
          · cases h
        | some i =>
          refine ⟨fun r hr => ?_, fun objs _ => ⟨_, rfl⟩, by simp⟩
          simp at hr; subst hr
          exact ⟨_, Or.inr (Or.inr ⟨rfl, by simp, i, _, _, rfl, colorLimits_spec e m i _ (by simp), rfl⟩),
            sameButSize_refl _, rfl, fun _ => rfl⟩

theorem renderLayer_spec (e : Viz.Ext K) (p : LayerP K C) (o : List (Obj K C)) (l : Layer K C) :
    (∀ r, renderLayer e p o l = .ok r → ∃ objs, LayerDrawn e p l objs ∧ SameButSize r.1 (o ++ objs) ∧
      LayerAfter p l r.2 ∧ (¬ OwnColours p l → r.1 = o ++ objs)) ∧
    (∀ objs, LayerDrawn e p l objs → ∃ r, renderLayer e p o l = .ok r) ∧
    (renderLayer e p o l = .ub ↔ l.kind = .null) := by
  unfold renderLayer LayerDrawn
  cases hk : l.kind with
  | null => simp
  | other =>
    refine ⟨fun r hr => ?_, fun objs _ => ⟨_, rfl⟩, by simp⟩
    simp at hr; subst hr
    exact ⟨_, rfl, renderOwn_shape p o l, ⟨rfl, rfl, by simp [hk], fun _ => rfl⟩, fun h => absurd (Or.inl hk) h⟩
  | points pts =>
    obtain ⟨h1, h2, h3⟩ := renderPts_spec e p o l pts
    refine ⟨fun r hr => ?_, h2, by simp [h3]⟩
    obtain ⟨objs, h4, h5, h6, h7⟩ := h1 r hr
    refine ⟨objs, h4, h5, by rw [h6]; exact ⟨rfl, rfl, by simp [hk], fun _ => rfl⟩, fun h => h7 fun m hm => ?_⟩
    rw [← Bool.not_eq_true]
    exact fun hkeep => h (Or.inr ⟨⟨m, hm, hkeep⟩, Or.inl ⟨pts, hk⟩⟩)
  | voxels occ =>
    simp only []
    cases hv : p.voxelsAsPoints with
    | true =>
      obtain ⟨h1, h2, h3⟩ := renderPts_spec e p o l occ
      refine ⟨fun r hr => ?_, fun objs h => ?_, by simp [h3]⟩
      · obtain ⟨objs, h4, h5, h6, h7⟩ := h1 r hr
        refine ⟨objs, Or.inl ⟨rfl, h4⟩, h5, by rw [h6]; exact ⟨rfl, rfl, by simp [hv], fun _ => rfl⟩, fun h => h7 fun m hm => ?_⟩
        rw [← Bool.not_eq_true]
        exact fun hkeep => h (Or.inr ⟨⟨m, hm, hkeep⟩, Or.inr ⟨occ, hk, hv⟩⟩)
      · rcases h with ⟨-, h⟩ | ⟨h, -⟩
        · exact h2 objs h
        · cases h
    | false =>
      refine ⟨fun r hr => ?_, fun objs _ => ⟨_, rfl⟩, by simp⟩
      simp at hr; subst hr
      exact ⟨_, Or.inr ⟨rfl, rfl⟩, sameButSize_refl _, ⟨hk.symm, rfl, fun _ => rfl, fun h => absurd ⟨⟨occ, hk⟩, hv⟩ h⟩, fun _ => rfl⟩

/-! ### the loops -/

theorem renderAll_spec (e : Viz.Ext K) (p : LayerP K C) (ls : AMap String (Layer K C)) (o : List (Obj K C)) :
    (∀ r, renderAll e p ls o = .ok r → ∃ each, List.Forall₂ (fun x ob => LayerDrawn e p x.2 ob) ls each ∧
      SameButSize r.1 (o ++ each.flatten) ∧ List.Forall₂ (fun x y => y.1 = x.1 ∧ LayerAfter p x.2 y.2) ls r.2 ∧
      ((∀ x ∈ ls, ¬ OwnColours p x.2) → r.1 = o ++ each.flatten)) ∧
    ((∀ x ∈ ls, ∃ ob, LayerDrawn e p x.2 ob) → ∃ r, renderAll e p ls o = .ok r) ∧
    (renderAll e p ls o = .ub → ∃ x ∈ ls, x.2.kind = .null) := by
  induction ls generalizing o with
  | nil =>
    refine ⟨fun r hr => ?_, fun _ => ⟨_, rfl⟩, fun h => by simp [renderAll] at h⟩
    simp [renderAll] at hr; subst hr
    exact ⟨[], .nil, by simp [SameButSize], .nil, by simp⟩
  | cons x ls ih =>
    obtain ⟨n, l⟩ := x
    obtain ⟨h1, h2, h3⟩ := renderLayer_spec e p o l
    refine ⟨fun r hr => ?_, fun h => ?_, fun h => ?_⟩
    · simp only [renderAll, Outcome.bind_eq_ok, Outcome.ok.injEq] at hr
      obtain ⟨x, hx, y, hy, rfl⟩ := hr
      obtain ⟨ob, g1, g2, g3, g4⟩ := h1 x hx
      obtain ⟨each, k1, k2, k3, k4⟩ := (ih x.1).1 y hy
      refine ⟨ob :: each, .cons g1 k1, ?_, .cons ⟨rfl, g3⟩ k3, fun h => ?_⟩
      · rw [List.flatten_cons, ← List.append_assoc]
        exact sameButSize_trans k2 (sameButSize_append _ g2)
      · rw [List.flatten_cons, ← List.append_assoc, ← g4 (h _ List.mem_cons_self)]
        exact k4 fun x hx => h x (List.mem_cons_of_mem _ hx)
    · obtain ⟨ob, hob⟩ := h (n, l) List.mem_cons_self
      obtain ⟨x, hx⟩ := h2 ob hob
      obtain ⟨y, hy⟩ := (ih x.1).2.1 fun x hx => h x (List.mem_cons_of_mem _ hx)
      exact ⟨_, by simp only [renderAll, hx, Outcome.bind, hy]; rfl⟩
    · simp only [renderAll, Outcome.bind_eq_ub] at h
      rcases h with h | ⟨x, hx, h | ⟨y, hy, h⟩⟩
      · exact ⟨_, List.mem_cons_self, h3.mp h⟩
      · obtain ⟨y, hy, h⟩ := (ih x.1).2.2 h
        exact ⟨y, List.mem_cons_of_mem _ hy, h⟩
      · cases h

theorem renderPerLayer_spec (e : Viz.Ext K) (ps : AMap String (LayerP K C)) (hs : AMap.Sorted ps)
    (o : List (Obj K C)) (ls : AMap String (Layer K C)) :
    (∀ r, renderPerLayer e ps o ls = .ok r → ∃ each,
      List.Forall₂ (fun x ob => ∃ l, AMap.get ls x.1 = some l ∧ LayerDrawn e x.2 l ob) ps each ∧
      SameButSize r.1 (o ++ each.flatten) ∧
      (∀ n, AMap.get ls n = none → AMap.get r.2 n = none) ∧
      (∀ n l, AMap.get ls n = some l → ∃ l', AMap.get r.2 n = some l' ∧ (∀ q, (n, q) ∈ ps → LayerAfter q l l') ∧
        ((∀ q, (n, q) ∉ ps) → l' = l)) ∧
      ((∀ x ∈ ps, ∀ l, AMap.get ls x.1 = some l → ¬ OwnColours x.2 l) → r.1 = o ++ each.flatten)) ∧
    ((∀ x ∈ ps, ∃ l ob, AMap.get ls x.1 = some l ∧ LayerDrawn e x.2 l ob) → ∃ r, renderPerLayer e ps o ls = .ok r) ∧
    (renderPerLayer e ps o ls = .ub → ∃ x ∈ ps, ∃ l, AMap.get ls x.1 = some l ∧ l.kind = .null) := by
  induction ps generalizing o ls with
  | nil =>
    refine ⟨fun r hr => ?_, fun _ => ⟨_, rfl⟩, fun h => by simp [renderPerLayer] at h⟩
    simp [renderPerLayer] at hr; subst hr
    exact ⟨[], .nil, by simp [SameButSize], fun n h => h, fun n l h => ⟨l, h, by simp, fun _ => rfl⟩, by simp⟩
  | cons x ps ih =>
    obtain ⟨n, p⟩ := x
    obtain ⟨hs1, hs2⟩ := List.pairwise_cons.mp hs
    have hne : ∀ y ∈ ps, y.1 ≠ n := fun y hy => ne_of_gt (hs1 y hy)
    have hget : ∀ (l' : Layer K C), ∀ y ∈ ps, AMap.get (AMap.set ls n l') y.1 = AMap.get ls y.1 := by
      intro l' y hy
      rw [AMap.get_set, if_neg (hne y hy)]
    cases hg : AMap.get ls n with
    | none =>
      have he : renderPerLayer e ((n, p) :: ps) o ls = .throw := by simp only [renderPerLayer, hg]
      rw [he]
      refine ⟨fun r hr => (by cases hr), fun h => ?_, fun h => (by cases h)⟩
      obtain ⟨l, ob, h, -⟩ := h _ List.mem_cons_self
      rw [hg] at h; cases h
    | some l =>
      have he : renderPerLayer e ((n, p) :: ps) o ls = (renderLayer e p o l).bind fun x => renderPerLayer e ps x.1 (AMap.set ls n x.2) := by
        simp only [renderPerLayer, hg]
      rw [he]
      obtain ⟨h1, h2, h3⟩ := renderLayer_spec e p o l
      refine ⟨fun r hr => ?_, fun h => ?_, fun h => ?_⟩
      · simp only [Outcome.bind_eq_ok] at hr
        obtain ⟨x, hx, hy⟩ := hr
        obtain ⟨ob, g1, g2, g3, g4⟩ := h1 x hx
        obtain ⟨each, k1, k2, k3, k4, k5⟩ := (ih hs2 x.1 (AMap.set ls n x.2)).1 r hy
        refine ⟨ob :: each, .cons ⟨l, hg, g1⟩ ?_, ?_, ?_, ?_, fun h => ?_⟩
        · refine List.forall₂_iff_get.mpr ?_
          obtain ⟨c1, c2⟩ := List.forall₂_iff_get.mp k1
          refine ⟨c1, fun i hi hi' => ?_⟩
          obtain ⟨l', c3, c4⟩ := c2 i hi hi'
          rw [hget _ _ (List.get_mem _ _)] at c3
          exact ⟨l', c3, c4⟩
        · rw [List.flatten_cons, ← List.append_assoc]
          exact sameButSize_trans k2 (sameButSize_append _ g2)
        · intro j hj
          refine k3 j ?_
          rw [AMap.get_set]
          by_cases hjn : j = n
          · subst hjn; rw [hg] at hj; cases hj
          · rw [if_neg hjn, hj]
        · intro j lj hj
          by_cases hjn : j = n
          · subst hjn
            rw [hg] at hj; cases hj
            obtain ⟨l', c1, -, c3⟩ := k4 j x.2 (by rw [AMap.get_set, if_pos rfl])
            have hl' : l' = x.2 := c3 fun q hq => hne _ hq rfl
            refine ⟨l', c1, fun q hq => ?_, fun hq => absurd List.mem_cons_self (hq p)⟩
            rcases List.mem_cons.mp hq with hq | hq
            · cases hq; rw [hl']; exact g3
            · exact absurd rfl (hne _ hq)
          · obtain ⟨l', c1, c2, c3⟩ := k4 j lj (by rw [AMap.get_set, if_neg hjn, hj])
            refine ⟨l', c1, fun q hq => ?_, fun hq => c3 fun q' hq' => hq q' (List.mem_cons_of_mem _ hq')⟩
            rcases List.mem_cons.mp hq with hq | hq
            · cases hq; exact absurd rfl hjn
            · exact c2 q hq
        · rw [List.flatten_cons, ← List.append_assoc, ← g4 (h _ List.mem_cons_self l hg)]
          refine k5 fun y hy l' hl' => h y (List.mem_cons_of_mem _ hy) l' ?_
          rwa [hget _ _ hy] at hl'
      · obtain ⟨l', ob, c1, c2⟩ := h _ List.mem_cons_self
        rw [hg] at c1; cases c1
        obtain ⟨x, hx⟩ := h2 ob c2
        obtain ⟨y, hy⟩ := (ih hs2 x.1 (AMap.set ls n x.2)).2.1 fun y hy => by
          rw [hget _ _ hy]; exact h y (List.mem_cons_of_mem _ hy)
        exact ⟨y, by rw [hx]; exact hy⟩
      · rw [Outcome.bind_eq_ub] at h
        rcases h with h | ⟨x, hx, h⟩
        · exact ⟨_, List.mem_cons_self, l, hg, h3.mp h⟩
        · obtain ⟨y, hy, l', hl', h⟩ := (ih hs2 x.1 (AMap.set ls n x.2)).2.2 h
          rw [hget _ _ hy] at hl'
          exact ⟨y, List.mem_cons_of_mem _ hy, l', hl', h⟩

theorem get_of_forall2_keys (p : LayerP K C) (ls ls' : AMap String (Layer K C))
    (h : List.Forall₂ (fun x y => y.1 = x.1 ∧ LayerAfter p x.2 y.2) ls ls') (n : String) :
    (AMap.get ls n = none → AMap.get ls' n = none) ∧
    (∀ l, AMap.get ls n = some l → ∃ l', AMap.get ls' n = some l' ∧ LayerAfter p l l') := by
  induction h with
  | nil => simp
  | @cons x y ls ls' hxy _ ih =>
    rw [AMap.get_cons, AMap.get_cons, hxy.1]
    by_cases hn : x.1 = n
    · simp only [hn, if_true]
      refine ⟨fun h => (by cases h), fun l hl => ?_⟩
      cases hl
      exact ⟨_, rfl, hxy.2⟩
    · simp only [hn, if_false]
      exact ih

theorem mem_get (ps : AMap String (LayerP K C)) (hs : AMap.Sorted ps) (x : String × LayerP K C) (h : x ∈ ps) :
    AMap.get ps x.1 = some x.2 := AMap.get_eq_some_of_mem ps hs x.1 x.2 h

theorem renderPoints_spec (e : Viz.Ext K) (p : PointsP K C) (hp : AMap.Sorted p.perLayer) (o : List (Obj K C))
    (ls : AMap String (Layer K C)) (hls : AMap.Sorted ls) :
    (∀ r, renderPoints e p o ls = .ok r → ∃ objs, PointsDrawn e p ls objs ∧ SameButSize r.1 (o ++ objs) ∧
      LayersAfter p ls r.2 ∧
      ((∀ n q l, paramsFor p n = some q → AMap.get ls n = some l → ¬ OwnColours q l) → r.1 = o ++ objs)) ∧
    ((∃ objs, PointsDrawn e p ls objs) → ∃ r, renderPoints e p o ls = .ok r) ∧
    (renderPoints e p o ls = .ub → ∃ n l, (paramsFor p n).isSome ∧ AMap.get ls n = some l ∧ l.kind = .null) := by
  unfold renderPoints PointsDrawn shownNames
  cases hv : p.visible with
  | false =>
    simp only [Bool.false_eq_true, if_false]
    have hpf : ∀ n, paramsFor p n = none := fun n => by simp [paramsFor, hv]
    refine ⟨fun r hr => ?_, fun _ => ⟨_, rfl⟩, fun h => (by cases h)⟩
    cases hr
    exact ⟨[], ⟨[], rfl, .nil⟩, by simp [SameButSize], ⟨fun n h => h, fun n l h => ⟨l, h, by simp [hpf], fun _ => rfl⟩⟩, by simp⟩
  | true =>
    simp only [if_true]
    by_cases he : p.perLayer = []
    · have hpf : ∀ n, paramsFor p n = some p.allLayers := fun n => by simp [paramsFor, hv, he]
      obtain ⟨h1, h2, h3⟩ := renderAll_spec e p.allLayers ls o
      simp only [he, List.isEmpty_nil, if_true]
      refine ⟨fun r hr => ?_, ?_, fun h => ?_⟩
      · obtain ⟨each, k1, k2, k3, k4⟩ := h1 r hr
        refine ⟨each.flatten, ⟨each, rfl, ?_⟩, k2, ⟨fun n => (get_of_forall2_keys _ _ _ k3 n).1, fun n l hl => ?_⟩, fun h => k4 ?_⟩
        · rw [List.forall₂_map_left_iff]
          refine List.forall₂_iff_get.mpr ?_
          obtain ⟨c1, c2⟩ := List.forall₂_iff_get.mp k1
          exact ⟨c1, fun i hi hi' => ⟨_, _, hpf _, AMap.get_eq_some_of_mem ls hls _ _ (List.get_mem _ _), c2 i hi hi'⟩⟩
        · obtain ⟨l', c1, c2⟩ := (get_of_forall2_keys _ _ _ k3 n).2 l hl
          refine ⟨l', c1, fun q hq => ?_, fun hq => ?_⟩
          · rw [hpf] at hq; cases hq; exact c2
          · rw [hpf] at hq; cases hq
        · intro x hx
          exact h x.1 _ x.2 (hpf _) (AMap.get_eq_some_of_mem ls hls _ _ hx)
      · rintro ⟨objs, each, -, k⟩
        refine h2 fun x hx => ?_
        rw [List.forall₂_map_left_iff] at k
        obtain ⟨i, hi, rfl⟩ := List.mem_iff_getElem.mp hx
        obtain ⟨c1, c2⟩ := List.forall₂_iff_get.mp k
        obtain ⟨q, l, d1, d2, d3⟩ := c2 i hi (c1 ▸ hi)
        rw [hpf] at d1; cases d1
        have : AMap.get ls (List.get ls ⟨i, hi⟩).1 = some (List.get ls ⟨i, hi⟩).2 :=
          AMap.get_eq_some_of_mem ls hls _ _ (List.get_mem _ _)
        rw [this] at d2; cases d2
        exact ⟨_, d3⟩
      · obtain ⟨x, hx, hk⟩ := h3 h
        exact ⟨x.1, x.2, by simp [hpf], AMap.get_eq_some_of_mem ls hls _ _ hx, hk⟩
    · have hpf : ∀ n, paramsFor p n = AMap.get p.perLayer n := fun n => by simp [paramsFor, hv, he]
      obtain ⟨h1, h2, h3⟩ := renderPerLayer_spec e p.perLayer hp o ls
      have he' : p.perLayer.isEmpty = false := by cases h : p.perLayer <;> simp_all
      simp only [he, he', Bool.false_eq_true, if_false]
      refine ⟨fun r hr => ?_, ?_, fun h => ?_⟩
      · obtain ⟨each, k1, k2, k3, k4, k5⟩ := h1 r hr
        refine ⟨each.flatten, ⟨each, rfl, ?_⟩, k2, ⟨k3, fun n l hl => ?_⟩, fun h => k5 ?_⟩
        · rw [List.forall₂_map_left_iff]
          refine List.forall₂_iff_get.mpr ?_
          obtain ⟨c1, c2⟩ := List.forall₂_iff_get.mp k1
          refine ⟨c1, fun i hi hi' => ?_⟩
          obtain ⟨l, d1, d2⟩ := c2 i hi hi'
          exact ⟨_, l, by rw [hpf]; exact mem_get _ hp _ (List.get_mem _ _), d1, d2⟩
        · obtain ⟨l', c1, c2, c3⟩ := k4 n l hl
          refine ⟨l', c1, fun q hq => c2 q (AMap.mem_of_get _ _ _ (by rw [← hpf, hq])), fun hq => c3 fun q hq' => ?_⟩
          have := mem_get _ hp _ hq'
          rw [hpf, this] at hq; cases hq
        · intro x hx l hl
          exact h x.1 _ l (by rw [hpf]; exact mem_get _ hp _ hx) hl
      · rintro ⟨objs, each, -, k⟩
        refine h2 fun x hx => ?_
        rw [List.forall₂_map_left_iff] at k
        obtain ⟨i, hi, rfl⟩ := List.mem_iff_getElem.mp hx
        obtain ⟨c1, c2⟩ := List.forall₂_iff_get.mp k
        obtain ⟨q, l, d1, d2, d3⟩ := c2 i hi (c1 ▸ hi)
        have := mem_get _ hp _ (List.get_mem p.perLayer ⟨i, hi⟩)
        rw [hpf, this] at d1; cases d1
        exact ⟨l, _, d2, d3⟩
      · obtain ⟨x, hx, l, hl, hk⟩ := h3 h
        exact ⟨x.1, l, by rw [hpf, mem_get _ hp _ hx]; rfl, hl, hk⟩

/-! ### planes, lines, and the whole view -/

theorem renderPlanes_spec (e : Viz.Ext K) (p : PlanesP K C) (pls : List (PlanePatch K)) :
    (∀ r, renderPlanes e p pls = .ok r → PlanesDrawn p pls r) ∧
    ((∃ r, renderPlanes e p pls = .ok r) ↔ (p.visible = true → ∀ pl ∈ pls, e.poseOk pl = true)) ∧
    renderPlanes e p pls ≠ .ub := by
  induction pls with
  | nil =>
    refine ⟨fun r hr => ?_, ⟨fun _ _ => by simp, fun _ => ⟨_, rfl⟩⟩, by simp [renderPlanes]⟩
    simp [renderPlanes] at hr; subst hr
    cases h : p.visible <;> simp [PlanesDrawn, h]
  | cons a l ih =>
    obtain ⟨h1, h2, h3⟩ := ih
    cases hv : p.visible with
    | false =>
      refine ⟨fun r hr => ?_, ⟨fun _ h => (by cases h), fun _ => ⟨[], by simp [renderPlanes, hv]⟩⟩, by simp [renderPlanes, hv]⟩
      simp [renderPlanes, hv] at hr; subst hr
      exact Or.inl ⟨hv, rfl⟩
    | true =>
      simp only [renderPlanes, hv, if_true]
      cases ha : e.poseOk a with
      | false =>
        simp only [Bool.false_eq_true, if_false]
        refine ⟨fun r hr => (by cases hr), ⟨fun ⟨r, hr⟩ => (by cases hr), fun h => ?_⟩, by simp⟩
        have := h trivial a List.mem_cons_self
        rw [ha] at this; cases this
      | true =>
        simp only [if_true]
        refine ⟨fun r hr => ?_, ⟨?_, fun h => ?_⟩, fun h => ?_⟩
        · simp only [Outcome.bind_eq_ok, Outcome.ok.injEq] at hr
          obtain ⟨r', hr', rfl⟩ := hr
          rcases h1 r' hr' with ⟨h, -⟩ | ⟨-, h⟩
          · rw [hv] at h; cases h
          · exact Or.inr ⟨hv, .cons rfl h⟩
        · rintro ⟨r, hr⟩ - pl hpl
          simp only [Outcome.bind_eq_ok, Outcome.ok.injEq] at hr
          obtain ⟨r', hr', rfl⟩ := hr
          rcases List.mem_cons.mp hpl with rfl | hpl
          · exact ha
          · exact h2.mp ⟨r', hr'⟩ hv pl hpl
        · obtain ⟨r, hr⟩ := h2.mpr fun _ pl hpl => h trivial pl (List.mem_cons_of_mem _ hpl)
          exact ⟨_, by rw [hr]; rfl⟩
        · rw [Outcome.bind_eq_ub] at h
          rcases h with h | ⟨r, -, h⟩
          · exact h3 h
          · cases h

theorem segment_ok (len : K) (l : Line3 K) :
    SegmentOf len l (l.pBase - P3.smul (1 / 2 * len) l.director, l.pBase + P3.smul (1 / 2 * len) l.director) := by
  constructor
  · ext <;> simp
  · ext <;> simp <;> ring

theorem same_prefix (a b : List (Obj K C)) (hb : ∀ x ∈ b, x.isCloud = false ∧ x.isColoured = false)
    (h : a.map (withSize 0) = b.map (withSize 0)) : a = b := by
  induction a generalizing b with
  | nil => cases b <;> simp_all
  | cons x a ih =>
    cases b with
    | nil => simp at h
    | cons y b =>
      simp only [List.map_cons, List.cons.injEq] at h
      have hy := hb y List.mem_cons_self
      rw [ih b (fun z hz => hb z (List.mem_cons_of_mem _ hz)) h.2]
      have : x = y := by
        cases y <;> simp [Obj.isCloud, Obj.isColoured] at hy <;> cases x <;> simp_all [withSize]
      rw [this]

/-- C85: a view is obtained iff every plane to show lies on its centroid and every layer to show exists and can be drawn with
its parameters; it has one grid for each plane, one object with a segment of the common length for each line, and the objects
of exactly the layers asked for, in the order of their names; nothing in the map changes but the free-space flag of voxel
maps.  Missing: the sizes of points, which are right if no layer keeps its own colours (see `view_point_size_misplaced`); lines
are shown even if they should not be and without their individual lengths (`view_lines_partial`, `view_hidden_lines_shown`). -/
theorem view_result_partial (e : Viz.Ext K) (p : RenderP K C) (m : VMap K C) (hm : AMap.Sorted m.layers)
    (hp : AMap.Sorted p.points.perLayer) :
    ((∃ r, view e p m = .ok r) ↔ (p.planes.visible = true → ∀ pl ∈ m.planes, e.poseOk pl = true) ∧
      ∃ objs, PointsDrawn e p.points m.layers objs) ∧
    (∀ r, view e p m = .ok r → ∃ pls lns pts pts', r.1 = pls ++ lns ++ pts' ∧ PlanesDrawn p.planes m.planes pls ∧
      (∃ segs, lns = [.segments p.lines.color segs] ∧ List.Forall₂ (SegmentOf p.lines.length) m.lines segs) ∧
      PointsDrawn e p.points m.layers pts ∧ SameButSize pts' pts ∧
      ((∀ n q l, paramsFor p.points n = some q → AMap.get m.layers n = some l → ¬ OwnColours q l) → pts' = pts) ∧
      r.2.planes = m.planes ∧ r.2.lines = m.lines ∧ LayersAfter p.points m.layers r.2.layers) ∧
    (view e p m = .ub → ∃ n l, AMap.get m.layers n = some l ∧ l.kind = .null) := by
  obtain ⟨a1, a2, a3⟩ := renderPlanes_spec e p.planes m.planes
  have b := fun o => renderPoints_spec e p.points hp o m.layers hm
  refine ⟨⟨?_, ?_⟩, fun r hr => ?_, fun h => ?_⟩
  · rintro ⟨r, hr⟩
    simp only [view, Outcome.bind_eq_ok, Outcome.ok.injEq] at hr
    obtain ⟨o, ho, x, hx, rfl⟩ := hr
    obtain ⟨objs, h, -⟩ := (b _).1 x hx
    exact ⟨a2.mp ⟨o, ho⟩, objs, h⟩
  · rintro ⟨h1, h2⟩
    obtain ⟨o, ho⟩ := a2.mpr h1
    obtain ⟨x, hx⟩ := (b (o ++ [renderLines p.lines m.lines])).2.1 h2
    exact ⟨_, by simp only [view, ho, Outcome.bind, hx]; rfl⟩
  · simp only [view, Outcome.bind_eq_ok, Outcome.ok.injEq] at hr
    obtain ⟨o, ho, x, hx, rfl⟩ := hr
    obtain ⟨objs, c1, c2, c3, c4⟩ := (b _).1 x hx
    have ho' := a1 o ho
    have hnc : ∀ y ∈ o ++ [renderLines p.lines m.lines], y.isCloud = false ∧ y.isColoured = false := by
      intro y hy
      rcases List.mem_append.mp hy with hy | hy
      · rcases ho' with ⟨-, h⟩ | ⟨-, h⟩
        · rw [h] at hy; cases hy
        · obtain ⟨i, hi, rfl⟩ := List.mem_iff_getElem.mp hy
          obtain ⟨d1, d2⟩ := List.forall₂_iff_get.mp h
          have := d2 i (d1 ▸ hi) hi
          simp only [List.get_eq_getElem] at this
          rw [this]; exact ⟨rfl, rfl⟩
      · rw [List.mem_singleton] at hy
        rw [hy]; exact ⟨rfl, rfl⟩
    unfold SameButSize at c2
    rw [List.map_append] at c2
    obtain ⟨u, v, huv, hu, hv⟩ := List.map_eq_append_iff.mp c2
    have hu' := same_prefix u _ hnc hu
    refine ⟨o, [renderLines p.lines m.lines], objs, v, by simp only [huv, hu'], ho', ⟨_, rfl, ?_⟩, c1, hv, fun h => ?_,
      rfl, rfl, c3⟩
    · rw [List.forall₂_map_right_iff]
      exact List.forall₂_same.mpr fun l _ => segment_ok _ l
    · have h4 := c4 h
      rw [huv, hu'] at h4
      exact List.append_cancel_left h4
  · simp only [view, Outcome.bind_eq_ub] at h
    rcases h with h | ⟨o, -, h | ⟨x, -, h⟩⟩
    · exact absurd h a3
    · obtain ⟨n, l, -, h1, h2⟩ := (b _).2.2 h
      exact ⟨n, l, h1, h2⟩
    · cases h

/-- C85, lines: as documented if they are to be shown with a common length. -/
theorem view_lines_partial (p : LinesP K C) (ls : List (Line3 K)) (hv : p.visible = true) (hl : p.lengths = none) :
    LinesDrawn p ls [renderLines p ls] := by
  refine Or.inr ⟨hv, _, rfl, by simp, fun i l s h1 h2 => ?_⟩
  rw [List.getElem?_map, h1] at h2
  cases h2
  rw [hl]
  exact segment_ok _ l

/-- C85 fails for lines: hidden lines are shown. -/
theorem view_hidden_lines_shown (p : LinesP K C) (ls : List (Line3 K)) (hv : p.visible = false) :
    ¬ LinesDrawn p ls [renderLines p ls] := by
  rintro (⟨-, h⟩ | ⟨h, -⟩)
  · cases h
  · rw [hv] at h; cases h

/-- C85 fails for lines: individual lengths are ignored, whatever they are. -/
theorem view_lengths_ignored (p : LinesP K C) (v : Option (List K)) (ls : List (Line3 K)) :
    renderLines { p with lengths := v } ls = renderLines p ls := rfl

/-- C85 fails for point sizes: of two clouds which keep their own colours, the first one gets the size asked for the second one,
and the second one keeps its renderer's size. -/
theorem view_point_size_misplaced (e : Viz.Ext K) (s1 s2 d : K) (c : C) (m : ColorMode K) (hk : m.keep = true)
    (ptsA ptsB : List (P3 K)) :
    let q : K → LayerP K C := fun s => ⟨s, c, some m, false, false⟩
    let la : List (P3 K) → Layer K C := fun pts => ⟨.points pts, fun _ => [.coloured pts d .original], false⟩
    renderPerLayer e [("a", q s1), ("b", q s2)] [] [("a", la ptsA), ("b", la ptsB)] =
      .ok ([.coloured ptsA s2 .original, .coloured ptsB d .original], [("a", la ptsA), ("b", la ptsB)]) := by
  intro q la
  have hab : ("a" : String) < "b" := by decide
  have hba : ¬ ("b" : String) < "a" := by decide
  simp [renderPerLayer, AMap.get, AMap.set, AMap.erase, AMap.insertNew, hab, hba, renderLayer, renderPts, q, hk, la,
    renderOwn, Obj.isColoured, resizeFirst, Obj.resize]

/-- C85: a `const` view changes the map: the free-space flag of a voxel map stays as set, and later views drawn with the
layer's own renderer see it. -/
theorem view_sets_free_flag (e : Viz.Ext K) (p : LayerP K C) (o : List (Obj K C)) (l : Layer K C) (occ : List (P3 K))
    (hl : l.kind = .voxels occ) (hp : p.voxelsAsPoints = false) (hf : l.free ≠ p.freeSpace) :
    ∃ r, renderLayer e p o l = .ok r ∧ r.2 ≠ l := by
  refine ⟨_, by simp only [renderLayer, hl, hp]; rfl, fun h => hf ?_⟩
  rw [← h]

/-! ### pairings -/

theorem patches_spec (e : Viz.Ext K) (p : Pt2X K C) (T : Pose3 K) (ps : List (PtPlPair K)) :
    (∀ r, patches e p T ps = .ok r →
      List.Forall₂ (fun q o => o = Obj.patch (1 / 2 * p.size) p.color2 q.plGlobal) ps r.1 ∧
      Linked T PtPlPair.ptLocal (fun q => q.plGlobal.centroid) ps r.2) ∧
    ((∃ r, patches e p T ps = .ok r) ↔ ∀ q ∈ ps, e.poseOk q.plGlobal = true) ∧ patches e p T ps ≠ .ub := by
  induction ps with
  | nil =>
    refine ⟨fun r hr => ?_, by simp [patches], by simp [patches]⟩
    simp [patches] at hr; subst hr
    exact ⟨.nil, .nil⟩
  | cons a l ih =>
    obtain ⟨h1, h2, h3⟩ := ih
    simp only [patches]
    cases ha : e.poseOk a.plGlobal with
    | false =>
      simp only [Bool.false_eq_true, if_false]
      refine ⟨fun r hr => (by cases hr), ⟨fun ⟨r, hr⟩ => (by cases hr), fun h => ?_⟩, by simp⟩
      have := h a List.mem_cons_self
      rw [ha] at this; cases this
    | true =>
      simp only [if_true]
      refine ⟨fun r hr => ?_, ⟨?_, fun h => ?_⟩, fun h => ?_⟩
      · simp only [Outcome.bind_eq_ok, Outcome.ok.injEq] at hr
        obtain ⟨r', hr', rfl⟩ := hr
        exact ⟨.cons rfl (h1 r' hr').1, .cons rfl (h1 r' hr').2⟩
      · rintro ⟨r, hr⟩ q hq
        simp only [Outcome.bind_eq_ok, Outcome.ok.injEq] at hr
        obtain ⟨r', hr', rfl⟩ := hr
        rcases List.mem_cons.mp hq with rfl | hq
        · exact ha
        · exact h2.mp ⟨r', hr'⟩ q hq
      · obtain ⟨r, hr⟩ := h2.mpr fun q hq => h q (List.mem_cons_of_mem _ hq)
        exact ⟨_, by rw [hr]; rfl⟩
      · rw [Outcome.bind_eq_ub] at h
        rcases h with h | ⟨r, -, h⟩
        · exact h3 h
        · cases h

/-- C86: the view of pairings fails only for a visible plane off its centroid; it links every local point, moved by the pose, to
the global point, to the plane's centroid, and to the line's base point, and shows the planes and lines themselves; hidden kinds
give no object, and line-to-line and plane-to-plane pairings are never shown. -/
theorem pairings_view (e : Viz.Ext K) (p1 : Pt2PtP C) (p2 p3 : Pt2X K C) (T : Pose3 K) (ps : Pairings K) :
    ((∃ r, viewPairings e p1 p2 p3 T ps = .ok r) ↔ (p2.visible = true → ∀ q ∈ ps.pt2pl, e.poseOk q.plGlobal = true)) ∧
    viewPairings e p1 p2 p3 T ps ≠ .ub ∧
    (∀ r, viewPairings e p1 p2 p3 T ps = .ok r → ∃ a b c, r = a ++ b ++ c ∧
      (p1.visible = false → a = []) ∧
      (p1.visible = true → ∃ s, a = [.segments p1.color s] ∧ Linked T PtPair.local PtPair.global ps.pt2pt s) ∧
      (p2.visible = false → b = []) ∧
      (p2.visible = true → ∃ o s, b = o ++ [.segments p2.color s] ∧
        List.Forall₂ (fun q o => o = Obj.patch (1 / 2 * p2.size) p2.color2 q.plGlobal) ps.pt2pl o ∧
        Linked T PtPlPair.ptLocal (fun q => q.plGlobal.centroid) ps.pt2pl s) ∧
      (p3.visible = false → c = []) ∧
      (p3.visible = true → ∃ s t, c = [.segments p3.color s, .segments p3.color2 t] ∧
        Linked T PtLnPair.ptLocal (fun q => q.lnGlobal.pBase) ps.pt2ln s ∧
        List.Forall₂ (fun q t => SegmentOf p3.size q.lnGlobal t) ps.pt2ln t)) := by
  obtain ⟨h1, h2, h3⟩ := patches_spec e p2 T ps.pt2pl
  refine ⟨⟨?_, fun h => ?_⟩, fun h => ?_, fun r hr => ?_⟩
  · rintro ⟨r, hr⟩ hv
    simp only [viewPairings, viewPt2Pl, hv, if_true, Outcome.bind_eq_ok] at hr
    obtain ⟨o, ⟨x, hx, -⟩, -⟩ := hr
    exact h2.mp ⟨x, hx⟩
  · cases hv : p2.visible with
    | false => exact ⟨_, by simp only [viewPairings, viewPt2Pl, hv]; rfl⟩
    | true =>
      obtain ⟨x, hx⟩ := h2.mpr (h hv)
      exact ⟨_, by simp only [viewPairings, viewPt2Pl, hv, if_true, hx]; rfl⟩
  · cases hv : p2.visible with
    | false => simp [viewPairings, viewPt2Pl, hv] at h
    | true =>
      simp only [viewPairings, viewPt2Pl, hv, if_true, Outcome.bind_eq_ub] at h
      rcases h with (h | ⟨x, -, h⟩) | ⟨x, -, h⟩
      · exact h3 h
      · cases h
      · cases h
  · simp only [viewPairings, Outcome.bind_eq_ok, Outcome.ok.injEq] at hr
    obtain ⟨o, ho, rfl⟩ := hr
    refine ⟨_, o, _, rfl, fun h => (by simp [viewPt2Pt, h]),
      fun h => ⟨ps.pt2pt.map fun q => (T.composePoint q.local, q.global), by simp only [viewPt2Pt, h, if_true], ?_⟩,
      fun h => ?_, fun h => ?_, fun h => (by simp [viewPt2Ln, h]),
      fun h => ⟨ps.pt2ln.map fun q => (T.composePoint q.ptLocal, q.lnGlobal.pBase),
        ps.pt2ln.map fun q => (q.lnGlobal.pBase - P3.smul (1 / 2 * p3.size) q.lnGlobal.director,
          q.lnGlobal.pBase + P3.smul (1 / 2 * p3.size) q.lnGlobal.director),
        by simp only [viewPt2Ln, h, if_true], ?_, ?_⟩⟩
    · exact List.forall₂_map_right_iff.mpr (List.forall₂_same.mpr fun _ _ => rfl)
    · simp [viewPt2Pl, h] at ho; exact ho
    · simp only [viewPt2Pl, h, if_true, Outcome.bind_eq_ok, Outcome.ok.injEq] at ho
      obtain ⟨x, hx, rfl⟩ := ho
      exact ⟨_, _, rfl, h1 x hx⟩
    · exact List.forall₂_map_right_iff.mpr (List.forall₂_same.mpr fun _ _ => rfl)
    · exact List.forall₂_map_right_iff.mpr (List.forall₂_same.mpr fun q _ => segment_ok _ q.lnGlobal)

/-- C86: the segment of a point pairing shrinks to a point iff the pose moves the local point onto the global one. -/
theorem pairings_view_residual (T : Pose3 K) (q : PtPair K) :
    let s := (T.composePoint q.local, q.global)
    P3.distSq s.1 s.2 = 0 ↔ T.composePoint q.local = q.global := by
  intro s
  simp only [s, P3.distSq, P3.normSq, P3.dot]
  constructor
  · intro h
    have hx := mul_self_nonneg ((T.composePoint q.local - q.global).x)
    have hy := mul_self_nonneg ((T.composePoint q.local - q.global).y)
    have hz := mul_self_nonneg ((T.composePoint q.local - q.global).z)
    have ex : (T.composePoint q.local - q.global).x = 0 := mul_self_eq_zero.mp (le_antisymm (by linarith) hx)
    have ey : (T.composePoint q.local - q.global).y = 0 := mul_self_eq_zero.mp (le_antisymm (by linarith) hy)
    have ez : (T.composePoint q.local - q.global).z = 0 := mul_self_eq_zero.mp (le_antisymm (by linarith) hz)
    ext
    · exact sub_eq_zero.mp ex
    · exact sub_eq_zero.mp ey
    · exact sub_eq_zero.mp ez
  · intro h
    rw [h]; simp

/-! ### examples -/

/-- a map with a plane, a line, a cloud and a voxel map -/
def exViewMap : VMap ℚ Nat where
  planes := [⟨⟨⟨0, 0, 1⟩, -1⟩, ⟨0, 0, 1⟩⟩]
  lines := [⟨⟨1, 0, 0⟩, ⟨0, 1, 0⟩⟩]
  layers := [("pts", ⟨.points [⟨1, 2, 3⟩, ⟨4, 0, 5⟩], fun _ => [], false⟩), ("vox", ⟨.voxels [⟨7, 7, 7⟩], fun f => [.other (if f then 1 else 0)], false⟩)]

def exViewParams : RenderP ℚ Nat where
  planes := ⟨true, 1, 1 / 4, 5⟩
  lines := ⟨true, 6, 20, none⟩
  points := ⟨true, ⟨2, 7, some ⟨false, 3, some 2, none, some 9, none⟩, false, true⟩, []⟩

def exViewExt : Viz.Ext ℚ := ⟨fun _ => true, fun _ a b _ => (a, b)⟩

/-- the view of it: grid, segment, coloured cloud between its lowest point and 9, voxels with free space -/
example : ((view exViewExt exViewParams exViewMap).Sat fun r => r.1 =
    [.grid 1 (1 / 4) 5 ⟨⟨⟨0, 0, 1⟩, -1⟩, ⟨0, 0, 1⟩⟩, .segments 6 [(⟨1, -10, 0⟩, ⟨1, 10, 0⟩)],
     .coloured [⟨1, 2, 3⟩, ⟨4, 0, 5⟩] 2 (.byCoord 2 3 9 3), .other 1] ∧
    ((AMap.get r.2.layers "vox").map (·.free)) = some true) := by decide +kernel

example : AMap.Sorted exViewMap.layers ∧ AMap.Sorted exViewParams.points.perLayer := by
  have h : ("pts" : String) < "vox" := by decide
  exact ⟨by simp only [AMap.Sorted, exViewMap, List.pairwise_cons, List.mem_singleton, forall_eq]; simp [h],
    by simp [AMap.Sorted, exViewParams]⟩

/-- parameters for a layer which does not exist: refused -/
example : (view exViewExt { exViewParams with points := ⟨true, ⟨2, 7, none, false, true⟩, [("x", ⟨2, 7, none, false, true⟩)]⟩ }
    exViewMap).isThrow = true := by decide +kernel

end Verif.Props
