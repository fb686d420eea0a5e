import Verif.Spec.Loaders
import Mathlib.Tactic.Common
/-
C84 (configuration of filters, generators, matchers, solvers, evaluators: what is accepted, and the members afterwards).
-/
namespace Verif.Props
open Verif.Spec Verif.Ldr
set_option linter.unusedSectionVars false
set_option linter.unusedSimpArgs false
variable {V : Type}

/-! ### readers -/

theorem scals_iff (l : List (Elem V)) (xs : List V) : scals l = some xs ↔ l = xs.map .scal := by
  induction l generalizing xs with
  | nil => cases xs <;> simp [scals]
  | cons y l ih =>
    cases y with
    | map f => cases xs <;> simp [scals]
    | scal v =>
      cases xs with
      | nil => simp [scals]
      | cons x xs =>
        have e1 : scals (Elem.scal v :: l) = (scals l).map (v :: ·) := rfl
        rw [e1]
        cases h : scals l with
        | none =>
          have := ih xs
          simp [h] at this
          simp [this]
        | some zs =>
          have h1 := ih xs
          rw [h] at h1
          simp only [Option.map_some, Option.some.injEq, List.cons.injEq, List.map_cons, Elem.scal.injEq] at h1 ⊢
          rw [h1]

theorem conv_iff (e : Ext V) (t : Ty) (l xs : List V) :
    conv e t l = some xs ↔ List.Forall₂ (fun v x => e.as t v = some x) l xs := by
  induction l generalizing xs with
  | nil => cases xs <;> simp [conv]
  | cons v l ih =>
    cases xs with
    | nil =>
      simp only [conv, List.forall₂_nil_right_iff, reduceCtorEq, iff_false]
      cases e.as t v with
      | none => simp
      | some x => simp
    | cons x xs =>
      have e1 : conv e t (v :: l) = match e.as t v with
        | none => none
        | some x => (conv e t l).map (x :: ·) := rfl
      rw [e1, List.forall₂_cons, ← ih xs]
      cases e.as t v with
      | none => simp
      | some z =>
        cases h : conv e t l with
        | none => simp
        | some zs => simp

theorem scalarsAre_iff (e : Ext V) (t : Ty) (l : List (Elem V)) (xs : List V) :
    ScalarsAre e t l xs ↔ ∃ vs, scals l = some vs ∧ conv e t vs = some xs := by
  unfold ScalarsAre
  constructor
  · intro h
    induction h with
    | nil => exact ⟨[], rfl, rfl⟩
    | cons hd _ ih =>
      obtain ⟨v, rfl, hv⟩ := hd
      obtain ⟨vs, h1, h2⟩ := ih
      exact ⟨v :: vs, by simp [scals, h1], by simp [conv, hv, h2]⟩
  · rintro ⟨vs, h1, h2⟩
    rw [scals_iff] at h1
    rw [conv_iff] at h2
    subst h1
    rw [List.forall₂_map_left_iff]
    exact h2.imp fun v x h => ⟨v, rfl, h⟩

/-- table built from the rows, over the table `f` -/
def overlay (e : Ext V) (rows : List (V × V × V)) (f : V → V → Option V) : V → V → Option V :=
  fun a b => (lastRow e rows a b).or (f a b)

theorem tableLoop_some (e : Ext V) (l : List (Elem V)) (f : V → V → Option V) (rows : List (V × V × V))
    (h : List.Forall₂ (RowIs e) l rows) : tableLoop e l f = some (overlay e rows f) := by
  induction h generalizing f with
  | nil =>
    have : overlay e [] f = f := by funext a b; simp [overlay, lastRow]
    rw [this]; rfl
  | @cons y r l rows hd _ ih =>
    obtain ⟨m, g, lo, rfl, hg, hl, eg, el, hw⟩ := hd
    have key : tableLoop e (Elem.map m :: l) f
        = tableLoop e l (fun a b => if e.eq a r.1 && e.eq b r.2.1 then some r.2.2 else f a b) := by
      simp only [tableLoop, hg, hl, eg, el]
      cases hm : m "weight" with
      | some w => rw [hm] at hw; simp only [hw]
      | none => rw [hm] at hw; simp only [hw]
    rw [key, ih]
    congr 1
    funext a b
    simp only [overlay, lastRow, List.reverse_cons, List.find?_append, List.find?_singleton]
    cases List.find? (fun r => e.eq a r.1 && e.eq b r.2.1) rows.reverse with
    | some z => simp
    | none => simp; split <;> simp_all

theorem tableLoop_rows (e : Ext V) (l : List (Elem V)) (f g : V → V → Option V) (h : tableLoop e l f = some g) :
    ∃ rows, List.Forall₂ (RowIs e) l rows := by
  induction l generalizing f with
  | nil => exact ⟨[], .nil⟩
  | cons y l ih =>
    cases y with
    | scal v => simp [tableLoop] at h
    | map m =>
      simp only [tableLoop] at h
      cases hg : m "global" with
      | none => simp [hg] at h
      | some gg =>
        cases hl : m "local" with
        | none => simp [hg, hl] at h
        | some ll =>
          simp only [hg, hl] at h
          cases eg : e.as .str gg with
          | none => simp [eg] at h
          | some x =>
            cases el : e.as .str ll with
            | none => simp [eg, el] at h
            | some y =>
              simp only [eg, el] at h
              cases hm : m "weight" with
              | none =>
                simp only [hm] at h
                obtain ⟨rows, hr⟩ := ih _ h
                exact ⟨(x, y, e.lit (.num 1 1)) :: rows, .cons ⟨m, gg, ll, rfl, hg, hl, eg, el, by simp [hm]⟩ hr⟩
              | some w =>
                simp only [hm] at h
                cases ew : e.as .num w with
                | none => simp [ew] at h
                | some z =>
                  simp only [ew] at h
                  obtain ⟨rows, hr⟩ := ih _ h
                  exact ⟨(x, y, z) :: rows, .cons ⟨m, gg, ll, rfl, hg, hl, eg, el, by simp [hm, ew]⟩ hr⟩

theorem overlay_nil (e : Ext V) (rows : List (V × V × V)) : overlay e rows (fun _ _ => none) = lastRow e rows := by
  funext a b; simp [overlay]

theorem read_iff (e : Ext V) (k : Kind) (y : Node V) (v : Val V) : readNode e k y = some v ↔ Reads e k y v := by
  constructor
  · intro h
    cases k with
    | scalar t =>
      by_cases ht : t = .sub
      · subst ht
        cases y with
        | obj w =>
          simp only [readNode, Option.map_eq_some_iff] at h
          obtain ⟨x, hx, rfl⟩ := h
          exact .sub hx
        | scalar w => simp [readNode] at h
        | seq l => simp [readNode] at h
      · cases y with
        | scalar w =>
          have : readNode e (.scalar t) (.scalar w) = (e.as t w).map .one := by
            cases t <;> first | rfl | exact absurd rfl ht
          rw [this, Option.map_eq_some_iff] at h
          obtain ⟨x, hx, rfl⟩ := h
          exact .scalar ht hx
        | obj w => cases t <;> simp [readNode] at h ht
        | seq l => cases t <;> simp [readNode] at h
    | dyn =>
      cases y with
      | scalar w =>
        simp only [readNode, Option.map_eq_some_iff] at h
        obtain ⟨x, hx, rfl⟩ := h
        exact .formula hx
      | obj w => simp [readNode] at h
      | seq l => simp [readNode] at h
    | names t =>
      cases y with
      | scalar w =>
        simp only [readNode, Option.map_eq_some_iff] at h
        obtain ⟨x, hx, rfl⟩ := h
        exact .name hx
      | obj w => simp [readNode] at h
      | seq l =>
        simp only [readNode] at h
        cases hs : scals l with
        | none => simp [hs] at h
        | some vs =>
          rw [hs] at h
          cases vs with
          | nil => simp at h
          | cons a vs =>
            simp only [Option.map_eq_some_iff] at h
            obtain ⟨xs, hx, rfl⟩ := h
            refine .names ?_ ((scalarsAre_iff e t l xs).mpr ⟨_, hs, hx⟩)
            rintro rfl
            simp [scals] at hs
    | vec n =>
      cases y with
      | scalar w => simp [readNode] at h
      | obj w => simp [readNode] at h
      | seq l =>
        simp only [readNode] at h
        by_cases hn : l.length = n
        · simp only [hn, if_true] at h
          cases hs : scals l with
          | none => simp [hs] at h
          | some vs =>
            simp only [hs, Option.map_eq_some_iff] at h
            obtain ⟨xs, hx, rfl⟩ := h
            exact .vec hn ((scalarsAre_iff e _ l xs).mpr ⟨_, hs, hx⟩)
        · simp [hn] at h
    | pairsTable =>
      cases y with
      | scalar w => simp [readNode] at h
      | obj w => simp [readNode] at h
      | seq l =>
        simp only [readNode, Option.map_eq_some_iff] at h
        obtain ⟨g, hg, rfl⟩ := h
        obtain ⟨rows, hr⟩ := tableLoop_rows e l _ _ hg
        rw [tableLoop_some e l _ rows hr, overlay_nil] at hg
        cases hg
        exact .table hr
    | posInt =>
      cases y with
      | scalar w =>
        simp only [readNode, Option.map_eq_some_iff] at h
        obtain ⟨x, hx, rfl⟩ := h
        exact .posInt hx
      | obj w => simp [readNode] at h
      | seq l => simp [readNode] at h
  · intro h
    cases h with
    | @scalar t w x ht hx => cases t <;> first | exact absurd rfl ht | simp [readNode, hx]
    | sub hx => simp [readNode, hx]
    | formula hx => simp [readNode, hx]
    | name hx => simp [readNode, hx]
    | @names t l xs hl hx =>
      obtain ⟨vs, h1, h2⟩ := (scalarsAre_iff e t l xs).mp hx
      simp only [readNode, h1]
      cases vs with
      | nil => rw [scals_iff] at h1; simp at h1; exact absurd h1 hl
      | cons a vs => simp [h2]
    | @vec k l xs hl hx =>
      obtain ⟨vs, h1, h2⟩ := (scalarsAre_iff e _ l xs).mp hx
      simp [readNode, hl, h1, h2]
    | @table l rows hr => simp [readNode, tableLoop_some e l _ rows hr, overlay_nil]
    | posInt hx => simp [readNode, hx]

/-! ### running a loader -/

def loads : List Cmd → List (String × Kind × Bool)
  | [] => []
  | .load n k r :: l => (n, k, r) :: loads l
  | _ :: l => loads l

def refFree (ns : List String) : Ref → Bool
  | .par n => !ns.contains n
  | .lit _ => true

/-- no member is read twice, and the assertions speak of members which are not read later -/
def wellOrdered : List Cmd → Bool
  | [] => true
  | .load n _ _ :: l => !((loads l).map (·.1)).contains n && wellOrdered l
  | .oneOf ns :: l => ns.all (fun n => !((loads l).map (·.1)).contains n) && wellOrdered l
  | .lt a b :: l => refFree ((loads l).map (·.1)) a && refFree ((loads l).map (·.1)) b && wellOrdered l
  | .le a b :: l => refFree ((loads l).map (·.1)) a && refFree ((loads l).map (·.1)) b && wellOrdered l

/-- the member after a successful run -/
def finalVal (e : Ext V) (c : Cfg V) (p : Par V) : List (String × Kind × Bool) → String → Val V
  | [], n => p n
  | (m, k, _) :: l, n =>
    if n = m then
      match c n with
      | none => absent e k (p n)
      | some y => match readNode e k y with
        | none => p n
        | some v => store e k v (p n)
    else finalVal e c p l n

def holdsAssert (e : Ext V) (q : Par V) : Cmd → Bool
  | .load .. => true
  | .oneOf ns => ns.any fun n => nonEmptyStr e (q n)
  | .lt a b => cmp e.lt (refVal e q a) (refVal e q b)
  | .le a b => cmp e.le (refVal e q a) (refVal e q b)

theorem finalVal_notin (e : Ext V) (c : Cfg V) (p : Par V) (ls : List (String × Kind × Bool)) (n : String)
    (h : n ∉ ls.map (·.1)) : finalVal e c p ls n = p n := by
  induction ls with
  | nil => rfl
  | cons a l ih =>
    obtain ⟨m, k, r⟩ := a
    simp only [List.map_cons, List.mem_cons, not_or] at h
    simp [finalVal, h.1, ih h.2]

theorem finalVal_congr (e : Ext V) (c : Cfg V) (p q : Par V) (ls : List (String × Kind × Bool)) (n : String)
    (h : p n = q n) : finalVal e c p ls n = finalVal e c q ls n := by
  induction ls with
  | nil => exact h
  | cons a l ih => obtain ⟨m, k, r⟩ := a; simp only [finalVal, ih, h]

theorem finalVal_set (e : Ext V) (c : Cfg V) (p : Par V) (ls : List (String × Kind × Bool)) (m : String) (k : Kind) (r : Bool)
    (x : Val V) (hm : m ∉ ls.map (·.1))
    (hx : x = match c m with
      | none => absent e k (p m)
      | some y => match readNode e k y with
        | none => p m
        | some v => store e k v (p m)) :
    finalVal e c (p.set m x) ls = finalVal e c p ((m, k, r) :: ls) := by
  funext n
  by_cases h : n = m
  · subst h
    rw [finalVal_notin e c _ ls n hm]
    simp [finalVal, Par.set, hx]
  · have e1 : (p.set m x) n = p n := by simp [Par.set, h]
    rw [finalVal_congr e c _ p ls n e1]
    simp [finalVal, h]

theorem refVal_final (e : Ext V) (c : Cfg V) (p : Par V) (ls : List (String × Kind × Bool)) (a : Ref)
    (h : refFree (ls.map (·.1)) a = true) : refVal e (finalVal e c p ls) a = refVal e p a := by
  cases a with
  | lit l => rfl
  | par n =>
    simp only [refFree, Bool.not_eq_true', List.contains_eq_mem, decide_eq_false_iff_not] at h
    simp only [refVal, finalVal_notin e c p ls n h]

/-- A loader completes iff what it reads is there and readable, and the final members pass its assertions. -/
theorem exec_iff (e : Ext V) (c : Cfg V) (l : List Cmd) (p : Par V) (hw : wellOrdered l = true) :
    ((exec e c l p).2 = true ↔
      (∀ n k r, (n, k, r) ∈ loads l → (r = true → (c n).isSome) ∧ ∀ y, c n = some y → (readNode e k y).isSome) ∧
      ∀ a ∈ l, holdsAssert e (finalVal e c p (loads l)) a = true) ∧
    ((exec e c l p).2 = true → (exec e c l p).1 = finalVal e c p (loads l)) := by
  induction l generalizing p with
  | nil => exact ⟨by simp [exec, loads], fun _ => by funext n; rfl⟩
  | cons a l ih =>
    cases a with
    | load n k r =>
      simp only [wellOrdered, Bool.and_eq_true, Bool.not_eq_true', List.contains_eq_mem, decide_eq_false_iff_not] at hw
      obtain ⟨hn, hw⟩ := hw
      have hl : loads (Cmd.load n k r :: l) = (n, k, r) :: loads l := rfl
      cases hc : c n with
      | none =>
        cases r with
        | true =>
          have e1 : exec e c (Cmd.load n k true :: l) p = (p, false) := by simp [exec, hc]
          rw [e1]
          refine ⟨⟨by simp, ?_⟩, by simp⟩
          rintro ⟨h, -⟩
          have := (h n k true (by simp [hl])).1 rfl
          simp [hc] at this
        | false =>
          have e1 : exec e c (Cmd.load n k false :: l) p = exec e c l (p.set n (absent e k (p n))) := by
            simp [exec, hc]
          have e2 := finalVal_set e c p (loads l) n k false (absent e k (p n)) hn (by simp [hc])
          have := ih (p.set n (absent e k (p n))) hw
          rw [e2, ← hl] at this
          rw [e1]
          refine ⟨this.1.trans ?_, this.2⟩
          rw [hl]
          simp only [List.mem_cons, forall_eq_or_imp, holdsAssert, true_and]
          refine and_congr_left' ⟨fun h n' k' r' h' => ?_, fun h n' k' r' h' => h n' k' r' (Or.inr h')⟩
          rcases h' with h' | h'
          · cases h'; exact ⟨by simp, by simp [hc]⟩
          · exact h n' k' r' h'
      | some y =>
        cases hr : readNode e k y with
        | none =>
          have e1 : exec e c (Cmd.load n k r :: l) p = (p, false) := by simp [exec, hc, hr]
          rw [e1]
          refine ⟨⟨by simp, ?_⟩, by simp⟩
          rintro ⟨h, -⟩
          have := (h n k r (by simp [hl])).2 y hc
          simp [hr] at this
        | some v =>
          have e1 : exec e c (Cmd.load n k r :: l) p = exec e c l (p.set n (store e k v (p n))) := by
            simp [exec, hc, hr]
          have e2 := finalVal_set e c p (loads l) n k r (store e k v (p n)) hn (by simp [hc, hr])
          have := ih (p.set n (store e k v (p n))) hw
          rw [e2, ← hl] at this
          rw [e1]
          refine ⟨this.1.trans ?_, this.2⟩
          rw [hl]
          simp only [List.mem_cons, forall_eq_or_imp, holdsAssert, true_and]
          refine and_congr_left' ⟨fun h n' k' r' h' => ?_, fun h n' k' r' h' => h n' k' r' (Or.inr h')⟩
          rcases h' with h' | h'
          · cases h'; exact ⟨by simp [hc], by simp [hc, hr]⟩
          · exact h n' k' r' h'
    | oneOf ns =>
      simp only [wellOrdered, Bool.and_eq_true, List.all_eq_true, Bool.not_eq_true', List.contains_eq_mem,
        decide_eq_false_iff_not] at hw
      obtain ⟨hn, hw⟩ := hw
      have hl : loads (Cmd.oneOf ns :: l) = loads l := rfl
      have ha : holdsAssert e (finalVal e c p (loads l)) (.oneOf ns) = ns.any fun n => nonEmptyStr e (p n) := by
        rw [Bool.eq_iff_iff]
        simp only [holdsAssert, List.any_eq_true]
        exact ⟨fun ⟨n, h, h2⟩ => ⟨n, h, by rwa [finalVal_notin e c p _ n (hn n h)] at h2⟩,
          fun ⟨n, h, h2⟩ => ⟨n, h, by rwa [finalVal_notin e c p _ n (hn n h)]⟩⟩
      have := ih p hw
      rw [hl]
      by_cases hb : (ns.any fun n => nonEmptyStr e (p n)) = true
      · have e1 : exec e c (Cmd.oneOf ns :: l) p = exec e c l p := by simp only [exec, hb, if_true]
        rw [e1]
        refine ⟨this.1.trans ?_, this.2⟩
        simp only [List.mem_cons, forall_eq_or_imp, ha, hb, true_and]
      · have e1 : exec e c (Cmd.oneOf ns :: l) p = (p, false) := by simp only [exec, hb]; rfl
        rw [e1]
        refine ⟨⟨by simp, ?_⟩, by simp⟩
        rintro ⟨-, h⟩
        exact absurd (ha ▸ h _ (List.mem_cons_self ..)) hb
    | lt a b =>
      simp only [wellOrdered, Bool.and_eq_true] at hw
      obtain ⟨⟨h1, h2⟩, hw⟩ := hw
      have hl : loads (Cmd.lt a b :: l) = loads l := rfl
      have ha : holdsAssert e (finalVal e c p (loads l)) (.lt a b) = cmp e.lt (refVal e p a) (refVal e p b) := by
        simp only [holdsAssert, refVal_final e c p _ _ h1, refVal_final e c p _ _ h2]
      have := ih p hw
      rw [hl]
      by_cases hb : cmp e.lt (refVal e p a) (refVal e p b) = true
      · have e1 : exec e c (Cmd.lt a b :: l) p = exec e c l p := by simp only [exec, hb, if_true]
        rw [e1]
        refine ⟨this.1.trans ?_, this.2⟩
        simp only [List.mem_cons, forall_eq_or_imp, ha, hb, true_and]
      · have e1 : exec e c (Cmd.lt a b :: l) p = (p, false) := by simp only [exec, hb]; rfl
        rw [e1]
        refine ⟨⟨by simp, ?_⟩, by simp⟩
        rintro ⟨-, h⟩
        exact absurd (ha ▸ h _ (List.mem_cons_self ..)) hb
    | le a b =>
      simp only [wellOrdered, Bool.and_eq_true] at hw
      obtain ⟨⟨h1, h2⟩, hw⟩ := hw
      have hl : loads (Cmd.le a b :: l) = loads l := rfl
      have ha : holdsAssert e (finalVal e c p (loads l)) (.le a b) = cmp e.le (refVal e p a) (refVal e p b) := by
        simp only [holdsAssert, refVal_final e c p _ _ h1, refVal_final e c p _ _ h2]
      have := ih p hw
      rw [hl]
      by_cases hb : cmp e.le (refVal e p a) (refVal e p b) = true
      · have e1 : exec e c (Cmd.le a b :: l) p = exec e c l p := by simp only [exec, hb, if_true]
        rw [e1]
        refine ⟨this.1.trans ?_, this.2⟩
        simp only [List.mem_cons, forall_eq_or_imp, ha, hb, true_and]
      · have e1 : exec e c (Cmd.le a b :: l) p = (p, false) := by simp only [exec, hb]; rfl
        rw [e1]
        refine ⟨⟨by simp, ?_⟩, by simp⟩
        rintro ⟨-, h⟩
        exact absurd (ha ▸ h _ (List.mem_cons_self ..)) hb

/-! ### documentation and loader -/

def docLoads (d : CfgDoc) : List (String × Kind × Bool) :=
  d.mandatory.map (fun o => (o.1, o.2, true)) ++ d.optional.map fun o => (o.1, o.2.1, false)

def docAsserts (d : CfgDoc) : List Cmd :=
  (if d.oneOf = [] then [] else [.oneOf d.oneOf]) ++ d.less.map (fun r => .lt r.1 r.2) ++ d.atMost.map fun r => .le r.1 r.2

def isAssert : Cmd → Bool
  | .load .. => false
  | _ => true

theorem loads_nodup (l : List Cmd) (h : wellOrdered l = true) : ((loads l).map (·.1)).Nodup := by
  induction l with
  | nil => simp [loads]
  | cons a l ih =>
    cases a with
    | load n k r =>
      simp only [wellOrdered, Bool.and_eq_true, Bool.not_eq_true', List.contains_eq_mem, decide_eq_false_iff_not] at h
      exact List.nodup_cons.mpr ⟨h.1, ih h.2⟩
    | oneOf ns => simp only [wellOrdered, Bool.and_eq_true] at h; exact ih h.2
    | lt a b => simp only [wellOrdered, Bool.and_eq_true] at h; exact ih h.2
    | le a b => simp only [wellOrdered, Bool.and_eq_true] at h; exact ih h.2

def memberVal (e : Ext V) (k : Kind) (given : Option (Node V)) (old : Val V) : Val V :=
  match given with
  | none => absent e k old
  | some y => match readNode e k y with
    | none => old
    | some v => store e k v old

theorem finalVal_mem (e : Ext V) (c : Cfg V) (p : Par V) (ls : List (String × Kind × Bool)) (n : String) (k : Kind) (r : Bool)
    (hn : (ls.map (·.1)).Nodup) (h : (n, k, r) ∈ ls) : finalVal e c p ls n = memberVal e k (c n) (p n) := by
  induction ls with
  | nil => simp at h
  | cons a l ih =>
    obtain ⟨m, k', r'⟩ := a
    simp only [List.map_cons, List.nodup_cons] at hn
    rcases List.mem_cons.mp h with h | h'
    · cases h
      simp [finalVal, memberVal]
    · have hne : n ≠ m := by
        rintro rfl
        exact hn.1 (List.mem_map.mpr ⟨(n, k, r), h', rfl⟩)
      simp only [finalVal, hne, if_false]
      exact ih hn.2 h'

theorem memberIs_iff (e : Ext V) (k : Kind) (given : Option (Node V)) (old new : Val V)
    (h : ∀ y, given = some y → (readNode e k y).isSome) :
    MemberIs e k given old new ↔ new = memberVal e k given old := by
  cases given with
  | none =>
    simp only [MemberIs, memberVal]
    by_cases hk : k = .dyn
    · subst hk
      cases old with
      | one v => simp [absent]
      | unset => simp [absent]
      | many l => simp [absent]
      | table f => simp [absent]
    · have : absent e k old = old := by cases k <;> first | rfl | exact absurd rfl hk
      simp [this, hk]
  | some y =>
    obtain ⟨v, hv⟩ := Option.isSome_iff_exists.mp (h y rfl)
    have hu : ∀ w, Reads e k y w ↔ w = v := by
      intro w
      rw [← read_iff, hv]
      constructor
      · intro h; cases h; rfl
      · rintro rfl; rfl
    simp only [MemberIs, memberVal, hv, hu, exists_eq_left]
    by_cases hk : k = .posInt
    · subst hk
      have hr := (read_iff e _ y v).mp hv
      cases hr with
      | @posInt w x hx =>
        simp only [store, ne_eq, not_true_eq_false, false_and, true_and, false_or, Val.one.injEq, exists_eq_left']
        cases e.lt (e.lit (.num 0 1)) x <;> simp
    · have : store e k v old = v := by
        cases k <;> first | exact absurd rfl hk | (cases v <;> rfl)
      simp [this, hk]

theorem membersAre_iff (e : Ext V) (d : CfgDoc) (c : Cfg V) (p q : Par V) (ls : List (String × Kind × Bool))
    (hn : (ls.map (·.1)).Nodup) (hd : ∀ x, x ∈ ls ↔ x ∈ docLoads d)
    (hr : ∀ n k r, (n, k, r) ∈ ls → ∀ y, c n = some y → (readNode e k y).isSome) :
    MembersAre e d c p q ↔ q = finalVal e c p ls := by
  have ho : ∀ n k, (n, k) ∈ d.options ↔ ∃ r, (n, k, r) ∈ ls := by
    intro n k
    simp only [hd, docLoads, CfgDoc.options, List.mem_append, List.mem_map, Prod.mk.injEq]
    constructor
    · rintro (h | ⟨⟨a, b, l⟩, h, h1, h2⟩)
      · exact ⟨true, Or.inl ⟨(n, k), h, rfl, rfl, rfl⟩⟩
      · exact ⟨false, Or.inr ⟨(a, b, l), h, h1, h2, rfl⟩⟩
    · rintro ⟨r, ⟨⟨a, b⟩, h, rfl, rfl, rfl⟩ | ⟨a, h, h1, h2, h3⟩⟩
      · exact Or.inl h
      · exact Or.inr ⟨a, h, h1, h2⟩
  constructor
  · rintro ⟨h1, h2⟩
    funext n
    by_cases h : n ∈ ls.map (·.1)
    · obtain ⟨⟨m, k, r⟩, hm, rfl⟩ := List.mem_map.mp h
      rw [finalVal_mem e c p ls m k r hn hm]
      exact (memberIs_iff e k (c m) (p m) (q m) (hr m k r hm)).mp (h1 m k ((ho m k).mpr ⟨r, hm⟩))
    · rw [finalVal_notin e c p ls n h]
      refine h2 n fun k hk => h ?_
      obtain ⟨r, hm⟩ := (ho n k).mp hk
      exact List.mem_map.mpr ⟨_, hm, rfl⟩
  · rintro rfl
    refine ⟨fun n k h => ?_, fun n h => finalVal_notin e c p ls n fun hm => ?_⟩
    · obtain ⟨r, hm⟩ := (ho n k).mp h
      rw [finalVal_mem e c p ls n k r hn hm]
      exact (memberIs_iff e k (c n) (p n) _ (hr n k r hm)).mpr rfl
    · obtain ⟨⟨m, k, r⟩, hm', hmn⟩ := List.mem_map.mp hm
      subst hmn
      exact h k ((ho m k).mpr ⟨r, hm'⟩)

theorem nonEmptyStr_iff (e : Ext V) (v : Val V) : nonEmptyStr e v = true ↔ NonEmptyName e v := by
  cases v <;> simp [nonEmptyStr, NonEmptyName]

theorem refIs_iff (e : Ext V) (q : Par V) (r : Ref) (x : V) : RefIs e q r x ↔ refVal e q r = some x := by
  cases r with
  | par n => simp only [RefIs, refVal]; cases q n <;> simp
  | lit l => simp [RefIs, refVal, eq_comm]

theorem cmp_iff (r : V → V → Bool) (a b : Option V) : cmp r a b = true ↔ ∃ x y, a = some x ∧ b = some y ∧ r x y = true := by
  cases a <;> cases b <;> simp [cmp]

theorem conditions_iff (e : Ext V) (d : CfgDoc) (q : Par V) :
    Conditions e d q ↔ ∀ a ∈ docAsserts d, holdsAssert e q a = true := by
  simp only [Conditions, docAsserts, List.mem_append, List.mem_map]
  constructor
  · rintro ⟨h1, h2, h3⟩ a ((h | ⟨⟨x, y⟩, h, rfl⟩) | ⟨⟨x, y⟩, h, rfl⟩)
    · split at h
      · simp at h
      · rename_i hne
        simp only [List.mem_singleton] at h
        subst h
        obtain ⟨n, hn, hv⟩ := h1 hne
        simp only [holdsAssert, List.any_eq_true]
        exact ⟨n, hn, (nonEmptyStr_iff e _).mpr hv⟩
    · simp only [holdsAssert, cmp_iff, ← refIs_iff]; exact h2 x y h
    · simp only [holdsAssert, cmp_iff, ← refIs_iff]; exact h3 x y h
  · intro h
    refine ⟨fun hne => ?_, fun a b hab => ?_, fun a b hab => ?_⟩
    · have := h (.oneOf d.oneOf) (Or.inl (Or.inl (by simp [hne])))
      simp only [holdsAssert, List.any_eq_true] at this
      obtain ⟨n, hn, hv⟩ := this
      exact ⟨n, hn, (nonEmptyStr_iff e _).mp hv⟩
    · have := h (.lt a b) (Or.inl (Or.inr ⟨_, hab, rfl⟩))
      simpa only [holdsAssert, cmp_iff, ← refIs_iff] using this
    · have := h (.le a b) (Or.inr ⟨_, hab, rfl⟩)
      simpa only [holdsAssert, cmp_iff, ← refIs_iff] using this

/-- the loader reads what the document lists, and asserts what it says -/
def sameLoads (l : List Cmd) (d : CfgDoc) : Bool :=
  (loads l).all (fun x => decide (x ∈ docLoads d)) && (docLoads d).all (fun x => decide (x ∈ loads l))

def sameAsserts (l : List Cmd) (d : CfgDoc) : Bool :=
  l.all (fun a => !isAssert a || decide (a ∈ docAsserts d)) && (docAsserts d).all (fun a => decide (a ∈ l))

theorem accepted_iff_of (e : Ext V) (l : List Cmd) (d : CfgDoc) (c : Cfg V) (p : Par V) (hw : wellOrdered l = true)
    (hl : sameLoads l d = true) (ha : sameAsserts l d = true) :
    ((exec e c l p).2 = true ↔ Accepts e d c p) := by
  simp only [sameLoads, sameAsserts, Bool.and_eq_true, List.all_eq_true, decide_eq_true_eq, Bool.or_eq_true,
    Bool.not_eq_true'] at hl ha
  have hd : ∀ x, x ∈ loads l ↔ x ∈ docLoads d := fun x => ⟨hl.1 x, hl.2 x⟩
  have hm : ∀ n k, (n, k) ∈ d.mandatory ↔ (n, k, true) ∈ loads l := by
    intro n k; simp [hd, docLoads]
  have ho : ∀ n k, (n, k) ∈ d.options ↔ ∃ r, (n, k, r) ∈ loads l := by
    intro n k
    simp only [hd, docLoads, CfgDoc.options, List.mem_append, List.mem_map, Prod.mk.injEq]
    constructor
    · rintro (h | ⟨⟨a, b, l⟩, h, h1, h2⟩)
      · exact ⟨true, Or.inl ⟨(n, k), h, rfl, rfl, rfl⟩⟩
      · exact ⟨false, Or.inr ⟨(a, b, l), h, h1, h2, rfl⟩⟩
    · rintro ⟨r, ⟨⟨a, b⟩, h, rfl, rfl, rfl⟩ | ⟨a, h, h1, h2, h3⟩⟩
      · exact Or.inl h
      · exact Or.inr ⟨a, h, h1, h2⟩
  have has : ∀ q, (∀ a ∈ l, holdsAssert e q a = true) ↔ ∀ a ∈ docAsserts d, holdsAssert e q a = true := by
    intro q
    constructor
    · exact fun h a h' => h a (ha.2 a h')
    · intro h a h'
      rcases ha.1 a h' with h1 | h1
      · cases a <;> simp [isAssert, holdsAssert] at h1 ⊢
      · exact h a h1
  rw [(exec_iff e c l p hw).1, has, ← conditions_iff]
  unfold Accepts
  constructor
  · rintro ⟨h1, h2⟩
    refine ⟨fun n k h => (h1 n k true ((hm n k).mp h)).1 rfl, fun n k y h hy => ?_, fun q hq => ?_⟩
    · obtain ⟨r, hr⟩ := (ho n k).mp h
      obtain ⟨v, hv⟩ := Option.isSome_iff_exists.mp ((h1 n k r hr).2 y hy)
      exact ⟨v, (read_iff e k y v).mp hv⟩
    · rw [membersAre_iff e d c p q (loads l) (loads_nodup l hw) hd (fun n k r h => (h1 n k r h).2)] at hq
      rw [hq]; exact h2
  · rintro ⟨h1, h2, h3⟩
    have hread : ∀ n k r, (n, k, r) ∈ loads l → ∀ y, c n = some y → (readNode e k y).isSome := by
      intro n k r h y hy
      obtain ⟨v, hv⟩ := h2 n k y ((ho n k).mpr ⟨r, h⟩) hy
      rw [(read_iff e k y v).mpr hv]; rfl
    refine ⟨fun n k r h => ⟨fun hr => h1 n k ((hm n k).mpr (hr ▸ h)), hread n k r h⟩, h3 _ ?_⟩
    exact (membersAre_iff e d c p _ (loads l) (loads_nodup l hw) hd hread).mpr rfl

theorem cmds_wellOrdered (k : Cls) : wellOrdered (cmds k) = true := by cases k <;> decide +kernel

theorem cmds_sameLoads (k : Cls) : sameLoads (cmds k) (cfgDoc k) = true := by cases k <;> decide +kernel

theorem cmds_sameAsserts (k : Cls) (h : k ≠ .byIntensity) : sameAsserts (cmds k) (cfgDoc k) = true := by
  cases k <;> first | exact absurd rfl h | decide +kernel

/-- C84: for every class, every configuration and every former state of the object, `initialize` succeeds iff the
configuration is one the documentation allows (what is missing: `FilterByIntensity`, see `intensity_config_partial` and
`intensity_high_only_refused`). -/
theorem config_accepted_iff_partial (e : Ext V) (k : Cls) (hk : k ≠ .byIntensity) (c : Cfg V) (p : Par V) :
    (configure e k c p).2 = true ↔ Accepts e (cfgDoc k) c p :=
  accepted_iff_of e _ _ c p (cmds_wellOrdered k) (cmds_sameLoads k) (cmds_sameAsserts k hk)

/-- C84: after a successful `initialize` every member has the value given, or, if it was not given, its former value; nothing
else changes. -/
theorem config_members (e : Ext V) (k : Cls) (c : Cfg V) (p : Par V) (h : (configure e k c p).2 = true) :
    MembersAre e (cfgDoc k) c p (configure e k c p).1 := by
  have hl := cmds_sameLoads k
  simp only [sameLoads, Bool.and_eq_true, List.all_eq_true, decide_eq_true_eq] at hl
  have hx := exec_iff e c (cmds k) p (cmds_wellOrdered k)
  have h1 := hx.1.mp h
  rw [membersAre_iff e _ c p _ (loads (cmds k)) (loads_nodup _ (cmds_wellOrdered k)) (fun x => ⟨hl.1 x, hl.2 x⟩)
    (fun n k r h => (h1.1 n k r h).2)]
  exact hx.2 h

/-- The documented defaults are those of a new object. -/
theorem fresh_defaults (k : Cls) (n : String) (kd : Kind) (l : Lit) (h : (n, kd, some l) ∈ (cfgDoc k).optional) :
    initLit k n = some l := by
  have : ∀ k : Cls, ((cfgDoc k).optional.all fun o => match o.2.2 with
      | some l => decide (initLit k o.1 = some l)
      | none => decide (initLit k o.1 = none)) = true := by
    intro k; cases k <;> decide +kernel
  have := List.all_eq_true.mp (this k) _ h
  simpa using this

/-- C84: an option which is not given to a new object has its documented default (formulas: in text form). -/
theorem config_defaults (e : Ext V) (k : Cls) (c : Cfg V) (n : String) (kd : Kind) (l : Lit)
    (hd : (n, kd, some l) ∈ (cfgDoc k).optional) (hc : c n = none) (h : (configure e k c (fresh e k)).2 = true) :
    (configure e k c (fresh e k)).1 n = .one (if kd = .dyn then e.toText (e.lit l) else e.lit l) := by
  have hm := (config_members e k c (fresh e k) h).1 n kd
    (List.mem_append_right _ (List.mem_map.mpr ⟨_, hd, rfl⟩))
  rw [hc] at hm
  have hf : fresh e k n = .one (e.lit l) := by simp only [fresh, fresh_defaults k n kd l hd]
  simp only [MemberIs, hf] at hm
  rcases hm with ⟨h1, h2⟩ | ⟨h1, ⟨v, h2, h3⟩ | ⟨h2, -⟩⟩
  · rw [h2, if_neg h1]
  · cases h2; rw [h3, if_pos h1]
  · exact absurd rfl (h2 _)

/-- C84: initializing again keeps what the second configuration does not mention: an option given the first time and omitted
the second time still has the first value (formulas: in text form), it does not go back to its default. -/
theorem config_again_keeps (e : Ext V) (k : Cls) (c1 c2 : Cfg V) (p : Par V) (n : String) (kd : Kind)
    (hd : (n, kd) ∈ (cfgDoc k).options)
    (h2 : (configure e k c2 (configure e k c1 p).1).2 = true) (hc : c2 n = none) (hk : kd ≠ .dyn) :
    (configure e k c2 (configure e k c1 p).1).1 n = (configure e k c1 p).1 n := by
  have hm := (config_members e k c2 _ h2).1 n kd hd
  rw [hc] at hm
  simp only [MemberIs] at hm
  rcases hm with ⟨-, h⟩ | ⟨h, -⟩
  · exact h
  · exact absurd h hk

/-- The condition which `FilterByIntensity` checks: the high-intensity layer does not count. -/
def intensityDoc : CfgDoc := { cfgDoc .byIntensity with
  oneOf := ["output_layer_low_intensity", "output_layer_low_intensity", "output_layer_mid_intensity"] }

/-- `FilterByIntensity` accepts exactly the configurations with a low or a mid output layer. -/
theorem intensity_config_partial (e : Ext V) (c : Cfg V) (p : Par V) :
    (configure e .byIntensity c p).2 = true ↔ Accepts e intensityDoc c p :=
  accepted_iff_of e _ _ c p (cmds_wellOrdered _) (by decide +kernel) (by decide +kernel)

/-- C84 fails for `FilterByIntensity`: every configuration of a new object with the high-intensity output only is refused;
`intensity_documented_refused` shows one the documentation allows. -/
theorem intensity_high_only_refused (e : Ext V) (c : Cfg V) (hempty : e.isEmpty (e.lit (.str "")) = true)
    (hlow : c "output_layer_low_intensity" = none)
    (hmid : c "output_layer_mid_intensity" = none) :
    (configure e .byIntensity c (fresh e .byIntensity)).2 = false := by
  rw [← Bool.not_eq_true]
  intro h
  have hm := config_members e _ c _ h
  have h2 := ((intensity_config_partial e c _).mp h).2.2 _ hm
  obtain ⟨n, hn, x, hx, hex⟩ := h2.1 (by simp [intensityDoc])
  have low := hm.1 "output_layer_low_intensity" (.scalar .str) (by decide +kernel)
  have mid := hm.1 "output_layer_mid_intensity" (.scalar .str) (by decide +kernel)
  rw [hlow] at low
  rw [hmid] at mid
  simp [MemberIs, fresh, initLit] at low mid
  simp [intensityDoc] at hn
  rcases hn with rfl | rfl
  · rw [low] at hx; cases hx; rw [hempty] at hex; cases hex
  · rw [mid] at hx; cases hx; rw [hempty] at hex; cases hex

/-- The documentation of the distance matcher mentions `threshold` and `pairingsPerPoint` only; without the undocumented
`thresholdAngularDeg` every configuration is refused. -/
theorem matcher_documented_config_refused (e : Ext V) (c : Cfg V) (p : Par V) (h : c "thresholdAngularDeg" = none) :
    (configure e .matcherDistance c p).2 = false := by
  rw [← Bool.not_eq_true, config_accepted_iff_partial e _ (by decide)]
  intro ha
  have := ha.1 "thresholdAngularDeg" .dyn (by decide +kernel)
  rw [h] at this
  cases this

/-- The paired-ratio evaluator's own options. -/
def pairedDoc : CfgDoc where
  mandatory := []
  optional := [("reuse_icp_pairings", .scalar .bool, some (.bool true)),
    ("absolute_minimum_pairing_ratio", .scalar .num, some (.num 1 5))]

/-- The configuration its matcher gets: the same, but global points may be matched again unless the user says otherwise. -/
def PairedMatcherCfg (e : Ext V) (c c' : Cfg V) : Prop :=
  (∀ n, n ≠ "allowMatchAlreadyMatchedGlobalPoints" → c' n = c n) ∧
  (∀ y, c "allowMatchAlreadyMatchedGlobalPoints" = some y → c' "allowMatchAlreadyMatchedGlobalPoints" = some y) ∧
  (c "allowMatchAlreadyMatchedGlobalPoints" = none →
    c' "allowMatchAlreadyMatchedGlobalPoints" = some (.scalar (e.lit (.bool true))))

/-- the pairings of ICP are reused -/
def Reuses (e : Ext V) (q : Par V) : Prop := ∃ v, q "reuse_icp_pairings" = .one v ∧ e.isTrue v = true

theorem reuses_iff (e : Ext V) (q : Par V) :
    reusesPairings e q = true ↔ Reuses e q := by
  unfold Reuses reusesPairings
  cases q "reuse_icp_pairings" <;> simp

theorem pairedDoc_exec (e : Ext V) (c : Cfg V) (p : Par V) :
    ((exec e c [opt "reuse_icp_pairings" .bool, opt "absolute_minimum_pairing_ratio" .num] p).2 = true ↔
      Accepts e pairedDoc c p) ∧
    ((exec e c [opt "reuse_icp_pairings" .bool, opt "absolute_minimum_pairing_ratio" .num] p).2 = true →
      MembersAre e pairedDoc c p (exec e c [opt "reuse_icp_pairings" .bool, opt "absolute_minimum_pairing_ratio" .num] p).1) := by
  have hw : wellOrdered [opt "reuse_icp_pairings" .bool, opt "absolute_minimum_pairing_ratio" .num] = true := by
    decide +kernel
  have hl : sameLoads [opt "reuse_icp_pairings" .bool, opt "absolute_minimum_pairing_ratio" .num] pairedDoc = true := by
    decide +kernel
  refine ⟨accepted_iff_of e _ _ c p hw hl (by decide +kernel), fun h => ?_⟩
  simp only [sameLoads, Bool.and_eq_true, List.all_eq_true, decide_eq_true_eq] at hl
  have hx := exec_iff e c _ p hw
  have h1 := hx.1.mp h
  rw [membersAre_iff e _ c p _ _ (loads_nodup _ hw) (fun x => ⟨hl.1 x, hl.2 x⟩) (fun n k r h => (h1.1 n k r h).2)]
  exact hx.2 h

/-- C84, paired-ratio evaluator: `initialize` succeeds iff its own options can be read and, unless pairings are reused, its
matcher accepts the configuration; then the own members are as given, and the matcher is either untouched or initialized. -/
theorem paired_ratio_config (e : Ext V) (c : Cfg V) (p pm : Par V) :
    ((initPairedRatio e c p pm).2.2 = true ↔ Accepts e pairedDoc c p ∧
      ∀ q, MembersAre e pairedDoc c p q → ¬ Reuses e q →
        ∀ c', PairedMatcherCfg e c c' → Accepts e (cfgDoc .matcherDistance) c' pm) ∧
    ((initPairedRatio e c p pm).2.2 = true →
      MembersAre e pairedDoc c p (initPairedRatio e c p pm).1 ∧
      (Reuses e (initPairedRatio e c p pm).1 → (initPairedRatio e c p pm).2.1 = pm) ∧
      (¬ Reuses e (initPairedRatio e c p pm).1 → ∃ c', PairedMatcherCfg e c c' ∧
        MembersAre e (cfgDoc .matcherDistance) c' pm (initPairedRatio e c p pm).2.1)) := by
  obtain ⟨ha, hm⟩ := pairedDoc_exec e c p
  have hc' : PairedMatcherCfg e c (fun n =>
      if n = "allowMatchAlreadyMatchedGlobalPoints" ∧ (c n).isNone then some (.scalar (e.lit (.bool true))) else c n) := by
    refine ⟨fun n hn => by simp [hn], fun y hy => by simp [hy], fun hn => by simp [hn]⟩
  have huniq : ∀ c', PairedMatcherCfg e c c' → c' = (fun n =>
      if n = "allowMatchAlreadyMatchedGlobalPoints" ∧ (c n).isNone then some (.scalar (e.lit (.bool true))) else c n) := by
    intro c' ⟨h1, h2, h3⟩
    funext n
    by_cases hn : n = "allowMatchAlreadyMatchedGlobalPoints"
    · subst hn
      cases hcn : c "allowMatchAlreadyMatchedGlobalPoints" with
      | none => simp [h3 hcn]
      | some y => simp [h2 y hcn]
    · simp [hn, h1 n hn]
  -- members are determined
  have hq : ∀ q, Accepts e pairedDoc c p → MembersAre e pairedDoc c p q →
      q = (exec e c [opt "reuse_icp_pairings" .bool, opt "absolute_minimum_pairing_ratio" .num] p).1 := by
    intro q hacc hq
    have hw : wellOrdered [opt "reuse_icp_pairings" .bool, opt "absolute_minimum_pairing_ratio" .num] = true := by
      decide +kernel
    have hl : sameLoads [opt "reuse_icp_pairings" .bool, opt "absolute_minimum_pairing_ratio" .num] pairedDoc = true := by
      decide +kernel
    simp only [sameLoads, Bool.and_eq_true, List.all_eq_true, decide_eq_true_eq] at hl
    have hx := exec_iff e c _ p hw
    have h1 := hx.1.mp (ha.mpr hacc)
    have := (membersAre_iff e _ c p q _ (loads_nodup _ hw) (fun x => ⟨hl.1 x, hl.2 x⟩) (fun n k r h => (h1.1 n k r h).2)).mp hq
    rw [this, hx.2 (ha.mpr hacc)]
  generalize hex : exec e c [opt "reuse_icp_pairings" .bool, opt "absolute_minimum_pairing_ratio" .num] p = r at ha hm hq
  obtain ⟨p1, ok⟩ := r
  unfold initPairedRatio
  rw [hex]
  cases ok with
  | false =>
    simp only [Bool.false_eq_true, false_iff, false_implies, and_true] at ha ⊢
    exact fun h => ha h.1
  | true =>
    have hacc := ha.mp rfl
    have hmem := hm rfl
    simp only []
    by_cases hr : Reuses e p1
    · rw [if_pos ((reuses_iff e p1).mpr hr)]
      simp only [true_iff, true_implies]
      refine ⟨⟨hacc, fun q h1 h2 => ?_⟩, hmem, fun _ => trivial, fun h => absurd hr h⟩
      rw [hq q hacc h1] at h2
      exact absurd hr h2
    · rw [if_neg (fun h => hr ((reuses_iff e p1).mp h))]
      simp only []
      constructor
      · rw [config_accepted_iff_partial e _ (by decide)]
        constructor
        · intro h
          exact ⟨hacc, fun q _ _ c' h' => huniq c' h' ▸ h⟩
        · rintro ⟨-, h⟩
          exact h p1 hmem hr _ hc'
      · intro h
        exact ⟨hmem, fun h => absurd h hr, fun _ => ⟨_, hc', config_members e _ _ pm h⟩⟩

/-- C84 fails for the paired-ratio evaluator: the configuration its documentation shows for independent pairings,
`thresholdDistance` and `thresholdAngularDeg`, is refused, for the matcher wants `threshold`. -/
theorem paired_ratio_documented_refused (e : Ext V) (c : Cfg V) (p pm : Par V)
    (hr : ∀ v, c "reuse_icp_pairings" = some (.scalar v) → ∀ x, e.as .bool v = some x → e.isTrue x = false)
    (hg : (c "reuse_icp_pairings").isSome) (ht : c "threshold" = none) :
    (initPairedRatio e c p pm).2.2 = false := by
  rw [← Bool.not_eq_true]
  intro h
  obtain ⟨h1, h2⟩ := paired_ratio_config e c p pm
  obtain ⟨hacc, h3⟩ := h1.mp h
  obtain ⟨hm, -, -⟩ := h2 h
  have hr1 : ¬ Reuses e (initPairedRatio e c p pm).1 := by
    rintro ⟨v, hv, htr⟩
    obtain ⟨y, hy⟩ := Option.isSome_iff_exists.mp hg
    have := hm.1 "reuse_icp_pairings" (.scalar .bool) (by decide +kernel)
    rw [hy] at this
    obtain ⟨w, hw, ⟨-, h5⟩ | ⟨h5, -⟩⟩ := this
    · cases hw with
      | scalar _ hx =>
        rw [hv] at h5
        cases h5
        rw [hr _ hy _ hx] at htr
        cases htr
    · cases h5
  have hc' := h3 _ hm hr1 (fun n =>
      if n = "allowMatchAlreadyMatchedGlobalPoints" ∧ (c n).isNone then some (.scalar (e.lit (.bool true))) else c n)
    ⟨fun n hn => by simp [hn], fun y hy => by simp [hy], fun hn => by simp [hn]⟩
  have := hc'.1 "threshold" .dyn (by decide +kernel)
  simp [ht] at this

/-! ### examples -/

/-- scalars are literals; `std::to_string` does nothing to them -/
def exLoad : Ext Lit where
  as t v := match t, v with
    | .str, .str s => some (.str s)
    | .num, .num a b => some (.num a b)
    | .nat, .num a b => if 0 ≤ a ∧ b = 1 then some (.num a b) else none
    | .int, .num a b => if b = 1 then some (.num a b) else none
    | .bool, .bool b => some (.bool b)
    | .text, v => some v
    | .enum names, .str s => if s ∈ names then some (.str s) else none
    | _, _ => none
  toText v := v
  lt a b := match a, b with | .num a b, .num c d => decide (a * d < c * b) | _, _ => false
  le a b := match a, b with | .num a b, .num c d => decide (a * d ≤ c * b) | _, _ => false
  isEmpty v := decide (v = .str "")
  isTrue v := decide (v = .bool true)
  eq a b := decide (a = b)
  lit l := l

def exCfg (l : List (String × Node Lit)) : Cfg Lit := fun n => (l.find? fun x => x.1 = n).map (·.2)

/-- a configuration of the adaptive matcher: accepted -/
example : (configure exLoad .matcherAdaptive (exCfg [("confidenceInterval", .scalar (.num 4 5)),
    ("firstToSecondDistanceMax", .scalar (.num 6 5)), ("absoluteMaxSearchDistance", .scalar (.num 5 1)),
    ("enableDetectPlanes", .scalar (.bool true)), ("planeSearchPoints", .scalar (.num 9 1))])
    (fresh exLoad .matcherAdaptive)).2 = true := by decide +kernel

/-- refused: too few points for a plane -/
example : (configure exLoad .matcherAdaptive (exCfg [("confidenceInterval", .scalar (.num 4 5)),
    ("firstToSecondDistanceMax", .scalar (.num 6 5)), ("absoluteMaxSearchDistance", .scalar (.num 5 1)),
    ("enableDetectPlanes", .scalar (.bool true)), ("planeMinimumFoundPoints", .scalar (.num 2 1))])
    (fresh exLoad .matcherAdaptive)).2 = false := by decide +kernel

/-- a high-only configuration of the intensity filter, allowed by the documentation -/
def exHigh : Cfg Lit := exCfg [("input_pointcloud_layer", .scalar (.str "raw")),
  ("output_layer_high_intensity", .scalar (.str "high")), ("low_threshold", .scalar (.num 1 10)),
  ("high_threshold", .scalar (.num 9 10))]

theorem intensity_documented_refused :
    Accepts exLoad (cfgDoc .byIntensity) exHigh (fresh exLoad .byIntensity) ∧
      (configure exLoad .byIntensity exHigh (fresh exLoad .byIntensity)).2 = false := by
  have hl : sameLoads [req "input_pointcloud_layer" .str, opt "output_layer_low_intensity" .str,
      opt "output_layer_high_intensity" .str, opt "output_layer_mid_intensity" .str,
      .oneOf ["output_layer_low_intensity", "output_layer_mid_intensity", "output_layer_high_intensity"],
      req "low_threshold" .num, req "high_threshold" .num] (cfgDoc .byIntensity) = true := by decide +kernel
  exact ⟨(accepted_iff_of exLoad _ _ exHigh _ (by decide +kernel) hl (by decide +kernel)).mp (by decide +kernel),
    by decide +kernel⟩

example : exLoad.isEmpty (exLoad.lit (.str "")) = true := by decide +kernel

/-- C84: an `initialize` which fails may already have changed the object: here the range filter has taken the layer names
of a configuration it refuses for a bad `center`. -/
theorem failed_config_changes_members :
    ∃ (c : Cfg Lit), (configure exLoad .byRange c (fresh exLoad .byRange)).2 = false ∧
      (configure exLoad .byRange c (fresh exLoad .byRange)).1 "output_layer_between" = .one (.str "b") ∧
      fresh exLoad .byRange "output_layer_between" = .one (.str "") :=
  ⟨exCfg [("input_pointcloud_layer", .scalar (.str "raw")), ("output_layer_between", .scalar (.str "b")),
    ("range_min", .scalar (.num 1 1)), ("range_max", .scalar (.num 2 1)), ("center", .seq [])],
   by decide +kernel, rfl, rfl⟩

/-- the documented configuration of the paired-ratio evaluator, and one which is accepted -/
example : (initPairedRatio exLoad (exCfg [("reuse_icp_pairings", .scalar (.bool false)),
    ("thresholdDistance", .scalar (.num 1 10)), ("thresholdAngularDeg", .scalar (.num 0 1))])
    (fun _ => .unset) (fresh exLoad .matcherDistance)).2.2 = false := by decide +kernel
example : (initPairedRatio exLoad (exCfg [("reuse_icp_pairings", .scalar (.bool false)),
    ("threshold", .scalar (.num 1 10)), ("thresholdAngularDeg", .scalar (.num 0 1))])
    (fun _ => .unset) (fresh exLoad .matcherDistance)).2.2 = true := by decide +kernel

end Verif.Props
