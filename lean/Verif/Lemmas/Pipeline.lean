import Verif.Spec.Pipeline
import Verif.Lemmas.AMap
namespace Verif.Lemmas
open Verif Verif.Spec

theorem initListLoop_prefix {Reg Y Obj W : Type} (rg : Registry Reg Y Obj) (one : W)
    (es : List (YEntry Y W)) : ∀ (reg : Reg) (lst : List (Obj × W)),
    (initListLoop rg one reg lst es) =
      (lst ++ (initListLoop rg one reg [] es).1, (initListLoop rg one reg [] es).2) := by
  induction es with
  | nil => intro reg lst; simp [initListLoop]
  | cons e es ih =>
    intro reg lst
    simp only [initListLoop]
    split
    · exact ih reg lst
    · split
      · rename_i reg1 c y _ _ _
        split
        · rename_i o _
          rw [ih reg1 (lst ++ _), ih reg1 ([] ++ _)]
          simp [List.append_assoc]
        · simp
      · simp

theorem initListLoop_built {Reg Y Obj W : Type} (rg : Registry Reg Y Obj) (one : W)
    (es : List (YEntry Y W)) : ∀ (reg reg' : Reg) (lst : List (Obj × W)),
    initListLoop rg one reg [] es = (lst, some reg') ↔
      Built rg one reg (es.filter fun e => decide (e.enabled ≠ some false)) lst reg' := by
  induction es with
  | nil =>
    intro reg reg' lst
    simp only [initListLoop, List.filter_nil, Prod.mk.injEq, Option.some.injEq]
    constructor
    · rintro ⟨rfl, rfl⟩; exact .nil _
    · intro h; cases h; exact ⟨rfl, rfl⟩
  | cons e es ih =>
    intro reg reg' lst
    simp only [initListLoop]
    by_cases hen : e.enabled = some false
    · simp only [hen, if_true]
      rw [List.filter_cons_of_neg (by simp [hen])]
      exact ih reg reg' lst
    · rw [if_neg hen, List.filter_cons_of_pos (by simp [hen])]
      constructor
      · intro h
        split at h
        · rename_i reg1 c y hr hc hy
          split at h
          · rename_i o ho
            rw [initListLoop_prefix] at h
            simp only [List.nil_append, List.singleton_append, Prod.mk.injEq] at h
            obtain ⟨rfl, h2⟩ := h
            refine .cons (reg1 := reg1) ?_ hc hy ho ((ih reg1 reg' _).mp (Prod.ext rfl h2))
            cases hp : e.plugin with
            | none => rw [hp] at hr; simp [loadOptPlugin] at hr; exact Or.inl ⟨rfl, hr.symm⟩
            | some m => rw [hp] at hr; exact Or.inr ⟨m, rfl, hr⟩
          · cases h
        · cases h
      · intro h
        cases h with
        | @cons _ reg1 _ _ _ o c y lst hp hc hy ho rest =>
          have hr : loadOptPlugin rg reg e.plugin = .ok reg1 := by
            rcases hp with ⟨h1, rfl⟩ | ⟨m, h1, h2⟩
            · rw [h1]; rfl
            · rw [h1]; exact h2
          rw [hr, hc, hy]
          simp only [ho]
          rw [initListLoop_prefix, (ih reg1 reg' lst).mpr rest]
          rfl

theorem callsInOrder_append {O M : Type} (a b : List ((O → M → Outcome (Bool × M)) × O)) (m m2 : M)
    (hs : List Bool) :
    CallsInOrder (a ++ b) m hs m2 ↔
      ∃ h1 h2 m1, hs = h1 ++ h2 ∧ CallsInOrder a m h1 m1 ∧ CallsInOrder b m1 h2 m2 := by
  induction a generalizing m hs with
  | nil =>
    constructor
    · intro h; exact ⟨[], hs, m, rfl, .nil _, h⟩
    · rintro ⟨h1, h2, m1, rfl, ha, hb⟩; cases ha; exact hb
  | cons e a ih =>
    constructor
    · intro h
      cases h with
      | cons hg hr =>
        obtain ⟨h1, h2, m1, rfl, ha, hb⟩ := (ih _ _).mp hr
        exact ⟨_ :: h1, h2, m1, rfl, .cons hg ha, hb⟩
    · rintro ⟨h1, h2, m1, rfl, ha, hb⟩
      cases ha with
      | cons hg hr => exact .cons hg ((ih _ _).mpr ⟨_, h2, m1, rfl, hr, hb⟩)

theorem generatorsLoop_iff {O M : Type} (obs : O) (gens : List (O → M → Outcome (Bool × M))) :
    ∀ (any : Bool) (m : M) (b : Bool) (m' : M),
    applyGeneratorsLoop obs gens any m = .ok (b, m') ↔
      ∃ hs, CallsInOrder (gens.map fun g => (g, obs)) m hs m' ∧ b = (any || hs.any id) := by
  induction gens with
  | nil =>
    intro any m b m'
    simp only [applyGeneratorsLoop, List.map_nil, Outcome.ok.injEq, Prod.mk.injEq]
    constructor
    · rintro ⟨rfl, rfl⟩; exact ⟨[], .nil _, by simp⟩
    · rintro ⟨hs, h, hb⟩; cases h; exact ⟨by simpa using hb.symm, rfl⟩
  | cons g gens ih =>
    intro any m b m'
    simp only [applyGeneratorsLoop, Outcome.bind_eq_ok, List.map_cons]
    constructor
    · rintro ⟨⟨h, m1⟩, hg, hr⟩
      obtain ⟨hs, hc, hb⟩ := (ih _ _ _ _).mp hr
      exact ⟨h :: hs, .cons hg hc, by simp [hb, Bool.or_assoc]⟩
    · rintro ⟨hs, hc, hb⟩
      cases hc with
      | @cons _ _ _ _ m1 _ h hs hg hr =>
        exact ⟨(h, m1), hg, (ih _ _ _ _).mpr ⟨hs, hr, by simp [hb, Bool.or_assoc]⟩⟩

theorem genOverFrame_iff {O M : Type} (g : O → M → Outcome (Bool × M)) (sf : List (Option O)) :
    ∀ (any : Bool) (m : M) (b : Bool) (m' : M),
    genOverFrame g sf any m = .ok (b, m') ↔
      ∃ hs, CallsInOrder ((sf.filterMap id).map fun o => (g, o)) m hs m' ∧ b = (any || hs.any id) := by
  induction sf with
  | nil =>
    intro any m b m'
    simp only [genOverFrame, List.filterMap_nil, List.map_nil, Outcome.ok.injEq, Prod.mk.injEq]
    constructor
    · rintro ⟨rfl, rfl⟩; exact ⟨[], .nil _, by simp⟩
    · rintro ⟨hs, h, hb⟩; cases h; exact ⟨by simpa using hb.symm, rfl⟩
  | cons o sf ih =>
    intro any m b m'
    cases o with
    | none => simp only [genOverFrame, List.filterMap_cons, id]; exact ih any m b m'
    | some o =>
      simp only [genOverFrame, Outcome.bind_eq_ok, List.filterMap_cons, id, List.map_cons]
      constructor
      · rintro ⟨⟨h, m1⟩, hg, hr⟩
        obtain ⟨hs, hc, hb⟩ := (ih _ _ _ _).mp hr
        exact ⟨h :: hs, .cons hg hc, by simp [hb, Bool.or_assoc]⟩
      · rintro ⟨hs, hc, hb⟩
        cases hc with
        | @cons _ _ _ _ m1 _ h hs hg hr =>
          exact ⟨(h, m1), hg, (ih _ _ _ _).mpr ⟨hs, hr, by simp [hb, Bool.or_assoc]⟩⟩

theorem generatorsFrameLoop_iff {O M : Type} (sf : List (Option O)) (gens : List (O → M → Outcome (Bool × M))) :
    ∀ (any : Bool) (m : M) (b : Bool) (m' : M),
    applyGeneratorsFrameLoop sf gens any m = .ok (b, m') ↔
      ∃ hs, CallsInOrder (gens.flatMap fun g => (sf.filterMap id).map fun o => (g, o)) m hs m' ∧
        b = (any || hs.any id) := by
  induction gens with
  | nil =>
    intro any m b m'
    simp only [applyGeneratorsFrameLoop, List.flatMap_nil, Outcome.ok.injEq, Prod.mk.injEq]
    constructor
    · rintro ⟨rfl, rfl⟩; exact ⟨[], .nil _, by simp⟩
    · rintro ⟨hs, h, hb⟩; cases h; exact ⟨by simpa using hb.symm, rfl⟩
  | cons g gens ih =>
    intro any m b m'
    simp only [applyGeneratorsFrameLoop, Outcome.bind_eq_ok, List.flatMap_cons, callsInOrder_append]
    constructor
    · rintro ⟨⟨a1, m1⟩, hg, hr⟩
      obtain ⟨h1, hc1, rfl⟩ := (genOverFrame_iff g sf any m a1 m1).mp hg
      obtain ⟨h2, hc2, rfl⟩ := (ih _ _ _ _).mp hr
      exact ⟨h1 ++ h2, ⟨h1, h2, m1, rfl, hc1, hc2⟩, by simp [Bool.or_assoc]⟩
    · rintro ⟨hs, ⟨h1, h2, m1, rfl, hc1, hc2⟩, hb⟩
      refine ⟨(any || h1.any id, m1), (genOverFrame_iff g sf any m _ m1).mpr ⟨h1, hc1, rfl⟩, ?_⟩
      exact (ih _ _ _ _).mpr ⟨h2, hc2, by simp [hb, Bool.or_assoc]⟩

end Verif.Lemmas
