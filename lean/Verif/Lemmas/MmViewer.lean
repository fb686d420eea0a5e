import Verif.Spec.MmViewer
import Verif.Lemmas.AMap
import Verif.Props.Visual
/-
Lemmas for the map viewer.
-/
namespace Verif.Lemmas
open Verif Verif.Viz Verif.MmView Verif.Spec Verif.Props
open Verif.LogView (Res)
set_option linter.unusedSectionVars false
variable {K P : Type} [Field K] [LinearOrder K] [IsStrictOrderedRing K]

/-! ### boxes -/

def lastOf (l : List (String × Bool)) (n : String) : Option Bool := l.foldl (fun a b => if b.1 = n then some b.2 else a) none

theorem get_foldl_set (l : List (String × Bool)) (m : AMap String Bool) (n : String) :
    AMap.get (l.foldl (fun m b => AMap.set m b.1 b.2) m) n = l.foldl (fun a b => if b.1 = n then some b.2 else a) (AMap.get m n) := by
  induction l generalizing m with
  | nil => rfl
  | cons b l ih =>
    simp only [List.foldl_cons, ih, AMap.get_set]
    congr 1
    by_cases h : n = b.1
    · rw [if_pos h, if_pos h.symm]
    · rw [if_neg h, if_neg (Ne.symm h)]

theorem sorted_foldl_set (l : List (String × Bool)) (m : AMap String Bool) (h : m.Sorted) :
    AMap.Sorted (l.foldl (fun m b => AMap.set m b.1 b.2) m) := by
  induction l generalizing m with
  | nil => exact h
  | cons b l ih => exact ih _ (AMap.sorted_set _ _ _ h)

theorem get_boxes (s : St K P) (n : String) : AMap.get (boxes s) n = lastOf s.panel n := get_foldl_set _ _ _

theorem sorted_boxes (s : St K P) : AMap.Sorted (boxes s) := sorted_foldl_set _ _ List.Pairwise.nil

theorem lastOf_acc (l : List (String × Bool)) (n : String) (a : Option Bool) :
    l.foldl (fun a b => if b.1 = n then some b.2 else a) a = (lastOf l n).or a := by
  induction l generalizing a with
  | nil => rfl
  | cons b l ih =>
    have e : lastOf (b :: l) n = l.foldl (fun a b => if b.1 = n then some b.2 else a) (if b.1 = n then some b.2 else none) := rfl
    rw [e, List.foldl_cons, ih, ih]
    by_cases h : b.1 = n
    · rw [if_pos h]; cases lastOf l n <;> simp [h]
    · rw [if_neg h]; cases lastOf l n <;> simp [h]

theorem lastOf_cons (b : String × Bool) (l : List (String × Bool)) (n : String) :
    lastOf (b :: l) n = (lastOf l n).or (if b.1 = n then some b.2 else none) := by
  have e : lastOf (b :: l) n = l.foldl (fun a b => if b.1 = n then some b.2 else a) (if b.1 = n then some b.2 else none) := rfl
  rw [e, lastOf_acc]

theorem lastOf_none (l : List (String × Bool)) (n : String) : lastOf l n = none ↔ n ∉ l.map (·.1) := by
  induction l with
  | nil => simp [lastOf]
  | cons b l ih =>
    rw [lastOf_cons, List.map_cons, List.mem_cons, not_or, ← ih]
    by_cases h : b.1 = n
    · subst h; cases lastOf l b.1 <;> simp
    · have h' : ¬ n = b.1 := fun e => h e.symm
      cases lastOf l n <;> simp [h, h']

theorem lastOf_mem (l : List (String × Bool)) (n : String) (v : Bool) (h : lastOf l n = some v) : (n, v) ∈ l := by
  induction l with
  | nil => simp [lastOf] at h
  | cons b l ih =>
    rw [lastOf_cons] at h
    cases hl : lastOf l n with
    | some w => rw [hl] at h; simp only [Option.some_or, Option.some.injEq] at h; subst h; exact List.mem_cons_of_mem _ (ih hl)
    | none =>
      rw [hl] at h
      simp only [Option.none_or, Option.ite_none_right_eq_some, Option.some.injEq] at h
      obtain ⟨rfl, rfl⟩ := h
      exact List.mem_cons_self

theorem lastOf_sorted (l : AMap String Bool) (hl : l.Sorted) (n : String) : lastOf l n = AMap.get l n := by
  cases h : lastOf l n with
  | none =>
    symm
    rw [AMap.get_none_iff]
    intro e he hn
    exact (lastOf_none l n).mp h (List.mem_map.mpr ⟨e, he, hn⟩)
  | some v => exact ((AMap.mem_iff_get l hl n v).mp (lastOf_mem l n v h)).symm

/-- with sorted box names, the boxes by name are the boxes of the panel -/
theorem boxes_eq_panel (s : St K P) (h : AMap.Sorted s.panel) : boxes s = s.panel :=
  AMap.ext_of_get _ _ (sorted_boxes s) h fun n => by rw [get_boxes, lastOf_sorted _ h]

theorem sorted_of_names {α β : Type} (l : AMap String α) (m : AMap String β) (h : l.map (·.1) = m.map (·.1)) (hm : AMap.Sorted m) :
    AMap.Sorted l := by
  have e : ∀ {γ : Type} (l : AMap String γ), AMap.Sorted l ↔ (l.map (·.1)).Pairwise (· < ·) := fun l => by
    unfold AMap.Sorted; rw [List.pairwise_map]
  rw [e, h, ← e]; exact hm

theorem any_checked (bs : AMap String Bool) : bs.any (·.2) = !((bs.filter (·.2)).map fun b => (b.1, (0 : Nat))).isEmpty := by
  induction bs with
  | nil => rfl
  | cons b bs ih => rcases b with ⟨n, _ | _⟩ <;> simp [ih]

/-! ### rendering -/

/-- the same map but for the free-space flags of its voxel layers -/
structure SameButFree (m m' : VMap K Nat) : Prop where
  planes : m'.planes = m.planes
  lines : m'.lines = m.lines
  sorted : AMap.Sorted m'.layers
  none : ∀ n, AMap.get m.layers n = none → AMap.get m'.layers n = none
  some : ∀ n l, AMap.get m.layers n = some l → ∃ l', AMap.get m'.layers n = some l' ∧ l'.kind = l.kind ∧ l'.own = l.own ∧
    ((∀ occ, l.kind ≠ .voxels occ) → l' = l)

theorem SameButFree.refl {m : VMap K Nat} (h : AMap.Sorted m.layers) : SameButFree m m :=
  ⟨rfl, rfl, h, fun _ h => h, fun _ l h => ⟨l, h, rfl, rfl, fun _ => rfl⟩⟩

theorem SameButFree.trans {a b c : VMap K Nat} (h : SameButFree a b) (h' : SameButFree b c) : SameButFree a c := by
  refine ⟨h'.planes.trans h.planes, h'.lines.trans h.lines, h'.sorted, fun n hn => h'.none n (h.none n hn), fun n l hl => ?_⟩
  obtain ⟨l1, g1, k1, o1, e1⟩ := h.some n l hl
  obtain ⟨l2, g2, k2, o2, e2⟩ := h'.some n l1 g1
  exact ⟨l2, g2, k2.trans k1, o2.trans o1, fun hv => by rw [e2 (by rw [k1]; exact hv), e1 hv]⟩

theorem renderPerLayer_sorted (e : Viz.Ext K) (ps : AMap String (LayerP K Nat)) (o : List (Obj K Nat)) (ls : AMap String (Layer K Nat))
    (h : AMap.Sorted ls) (r) (hr : renderPerLayer e ps o ls = .ok r) : AMap.Sorted r.2 := by
  induction ps generalizing o ls with
  | nil => simp only [renderPerLayer, Outcome.ok.injEq] at hr; rw [← hr]; exact h
  | cons p ps ih =>
    simp only [renderPerLayer] at hr
    cases hl : AMap.get ls p.1 with
    | none => rw [hl] at hr; simp at hr
    | some l =>
      rw [hl] at hr
      simp only [Outcome.bind_eq_ok] at hr
      obtain ⟨y, -, hy⟩ := hr
      exact ih _ _ (AMap.sorted_set _ _ _ h) hy

/-- a layer with valid options is always rendered -/
theorem renderLayer_total (e : Viz.Ext K) (q : LayerP K Nat) (o : List (Obj K Nat)) (l : Layer K Nat) (hl : l.kind ≠ .null)
    (hq : ∀ m, q.mode = some m → m.keep = true ∨ m.coord ≠ none) : ∃ r, renderLayer e q o l = .ok r ∧ r.2.kind = l.kind := by
  have hp : ∀ pts, ∃ r, renderPts e q o l pts = .ok r ∧ r.2.kind = l.kind := by
    intro pts
    unfold renderPts
    cases hm : q.mode with
    | none => dsimp only; split <;> exact ⟨_, rfl, rfl⟩
    | some m =>
      dsimp only
      rcases hq m hm with h | h
      · rw [if_pos h]; exact ⟨_, rfl, rfl⟩
      · split
        · exact ⟨_, rfl, rfl⟩
        · split
          · exact ⟨_, rfl, rfl⟩
          · cases hc : m.coord with
            | none => exact absurd hc h
            | some i => exact ⟨_, rfl, rfl⟩
  cases hk : l.kind with
  | null => exact absurd hk hl
  | other => exact ⟨(renderOwn q o l, l), by simp only [renderLayer, hk], hk⟩
  | points pts =>
    obtain ⟨r, h1, h2⟩ := hp pts
    exact ⟨r, by simp only [renderLayer, hk, h1], h2.trans hk⟩
  | voxels occ =>
    obtain ⟨r, h1, h2⟩ := hp occ
    cases hv : q.voxelsAsPoints with
    | true => exact ⟨r, by simp only [renderLayer, hk, hv, h1, if_true], h2.trans hk⟩
    | false => exact ⟨(o ++ l.own q.freeSpace, { l with free := q.freeSpace }), by simp [renderLayer, hk, hv], hk⟩

theorem renderPerLayer_total (e : Viz.Ext K) (ps : AMap String (LayerP K Nat)) (o : List (Obj K Nat)) (ls : AMap String (Layer K Nat))
    (h : ∀ n q, (n, q) ∈ ps → (∃ l, AMap.get ls n = some l ∧ l.kind ≠ .null) ∧ ∀ m, q.mode = some m → m.keep = true ∨ m.coord ≠ none) :
    ∃ r, renderPerLayer e ps o ls = .ok r := by
  induction ps generalizing o ls with
  | nil => exact ⟨_, rfl⟩
  | cons p ps ih =>
    obtain ⟨⟨l, hl, hk⟩, hq⟩ := h p.1 p.2 List.mem_cons_self
    obtain ⟨r, hr, hrk⟩ := renderLayer_total e p.2 o l hk hq
    simp only [renderPerLayer, hl, hr, Outcome.bind]
    refine ih _ _ fun n q hn => ?_
    obtain ⟨⟨l', hl', hk'⟩, hq'⟩ := h n q (List.mem_cons_of_mem _ hn)
    refine ⟨?_, hq'⟩
    rw [AMap.get_set]
    split
    · exact ⟨_, rfl, by rw [hrk]; exact hk⟩
    · exact ⟨l', hl', hk'⟩

theorem renderPerLayer_missing (e : Viz.Ext K) (ps : AMap String (LayerP K Nat)) (o : List (Obj K Nat)) (ls : AMap String (Layer K Nat))
    (h : ∀ n q, (n, q) ∈ ps → ∀ l, AMap.get ls n = some l → l.kind ≠ .null) {n : String} {q : LayerP K Nat} (hn : (n, q) ∈ ps)
    (hg : AMap.get ls n = none) : renderPerLayer e ps o ls = .throw := by
  induction ps generalizing o ls with
  | nil => simp at hn
  | cons p ps ih =>
    simp only [renderPerLayer]
    cases hl : AMap.get ls p.1 with
    | none => rfl
    | some l =>
      have hk := h p.1 p.2 List.mem_cons_self l hl
      have hne : n ≠ p.1 := fun e => by rw [← e, hg] at hl; cases hl
      have hn' : (n, q) ∈ ps := by
        rcases List.mem_cons.mp hn with e | h
        · exact absurd (congrArg Prod.fst e) hne
        · exact h
      dsimp only
      cases hr : renderLayer e p.2 o l with
      | throw => rfl
      | ub =>
        exfalso
        have hp : ∀ pts, renderPts e p.2 o l pts ≠ .ub := fun pts => (renderPts_spec e p.2 o l pts).2.2
        unfold renderLayer at hr
        cases hkk : l.kind with
        | null => exact hk hkk
        | other => rw [hkk] at hr; cases hr
        | points pts => rw [hkk] at hr; exact hp _ hr
        | voxels occ =>
          rw [hkk] at hr; dsimp only at hr
          split at hr
          · exact hp _ hr
          · cases hr
      | ok r =>
        simp only [Outcome.bind]
        have hrk : r.2.kind = l.kind := by
          have hp : ∀ pts r, renderPts e p.2 o l pts = .ok r → r.2 = l := fun pts r hr => by
            obtain ⟨_, _, _, h, _⟩ := (renderPts_spec e p.2 o l pts).1 r hr; exact h
          unfold renderLayer at hr
          cases hkk : l.kind with
          | null => exact absurd hkk hk
          | other => rw [hkk] at hr; cases hr; exact hkk
          | points pts => rw [hkk] at hr; rw [hp _ _ hr]; exact hkk
          | voxels occ =>
            rw [hkk] at hr; dsimp only at hr
            split at hr
            · rw [hp _ _ hr]; exact hkk
            · cases hr; rfl
        refine ih _ _ (fun n' q' hn'' l' hl' => ?_) hn' (by rw [AMap.get_set, if_neg hne]; exact hg)
        rw [AMap.get_set] at hl'
        split at hl'
        · cases hl'; rw [hrk]; exact hk
        · exact h n' q' (List.mem_cons_of_mem _ hn'') l' hl'

theorem colorMode_ok (o : Opts K) (m : ColorMode K) (h : colorMode o = some m) : m.keep = true ∨ m.coord ≠ none := by
  unfold colorMode at h
  split at h
  · cases h; exact Or.inl rfl
  · split at h
    · cases h; right; simp
    · cases h

theorem asked_layerP (o : Opts K) : AskedLayer o (layerP o) := by
  constructor <;> try rfl
  · intro h; exact ⟨_, by simp only [layerP, colorMode, h]; rfl, rfl⟩
  · intro h h'; exact ⟨_, by simp only [layerP, colorMode, h, h']; rfl, rfl, rfl, rfl, rfl⟩
  · intro h h'; simp [layerP, colorMode, h, h']

theorem params_visible (s : St K P) : (params s).points.visible = false ↔ (params s).points.perLayer = [] := by
  simp only [params, List.map_eq_nil_iff, List.filter_eq_nil_iff, List.any_eq_false]

theorem sorted_params (s : St K P) : AMap.Sorted (params s).points.perLayer := by
  simp only [params, AMap.Sorted]
  rw [List.pairwise_map]
  exact (sorted_boxes s).filter _

theorem view_params (e : Viz.Ext K) (s : St K P) (m : VMap K Nat) :
    view e (params s) m = (renderPlanes e (params s).planes m.planes).bind fun o =>
      (renderPerLayer e (params s).points.perLayer (o ++ [renderLines (params s).lines m.lines]) m.layers).bind fun r =>
        .ok (r.1, { m with layers := r.2 }) := by
  unfold view renderPoints
  cases hv : (params s).points.visible with
  | false =>
    rw [(params_visible s).mp hv]
    simp [renderPerLayer]
  | true =>
    have : (params s).points.perLayer ≠ [] := fun h => by rw [(params_visible s).mpr h] at hv; cases hv
    cases hp : (params s).points.perLayer with
    | nil => exact absurd hp this
    | cons a r => rfl

/-- every box checked names a layer of a good map: it is rendered -/
theorem view_total (x : VExt K P) (s : St K P) (m : VMap K Nat) (hpl : ∀ pl ∈ m.planes, x.viz.poseOk pl = true)
    (hb : ∀ n, AMap.get (boxes s) n = some true → ∃ l, AMap.get m.layers n = some l ∧ l.kind ≠ .null) :
    ∃ r, view x.viz (params s) m = .ok r := by
  rw [view_params]
  obtain ⟨o, ho⟩ := (renderPlanes_spec x.viz (params s).planes m.planes).2.1.mpr fun _ => hpl
  obtain ⟨r, hr⟩ := renderPerLayer_total x.viz (params s).points.perLayer (o ++ [renderLines (params s).lines m.lines]) m.layers
    (fun n q hn => by
      simp only [params, List.mem_map, List.mem_filter, Prod.mk.injEq, Prod.exists] at hn
      obtain ⟨n', b, ⟨hm, hb'⟩, rfl, rfl⟩ := hn
      refine ⟨hb n' ?_, fun m hm => colorMode_ok _ m hm⟩
      have hb'' : b = true := hb'
      subst hb''
      exact AMap.get_eq_some_of_mem _ (sorted_boxes s) _ _ hm)
  exact ⟨_, by rw [ho, Outcome.bind, hr]; rfl⟩

theorem view_same (x : VExt K P) (s : St K P) (m : VMap K Nat) (hm : AMap.Sorted m.layers) (r) (hr : view x.viz (params s) m = .ok r) :
    SameButFree m r.2 := by
  obtain ⟨-, h, -⟩ := view_result_partial x.viz (params s) m hm (sorted_params s)
  obtain ⟨_, _, _, _, _, _, _, _, _, _, h1, h2, h3⟩ := h r hr
  refine ⟨h1, h2, ?_, h3.1, fun n l hl => ?_⟩
  · rw [view_params] at hr
    simp only [Outcome.bind_eq_ok] at hr
    obtain ⟨o, -, y, hy, he⟩ := hr
    cases he
    exact renderPerLayer_sorted _ _ _ _ hm y hy
  · obtain ⟨l', g, a, b⟩ := h3.2 n l hl
    cases hp : paramsFor (params s).points n with
    | none => exact ⟨l, by rw [g, b hp], rfl, rfl, fun _ => rfl⟩
    | some q =>
      obtain ⟨c1, c2, -, c4⟩ := a q hp
      refine ⟨l', g, c1, c2, fun hv => ?_⟩
      have := c4 fun h => by obtain ⟨⟨occ, h⟩, -⟩ := h; exact hv occ h
      cases l; cases l'; simp_all

/-- what a rendering of the map, or of one that differs in flags only, shows -/
theorem view_shows (x : VExt K P) (s : St K P) (m m0 : VMap K Nat) (hs : SameButFree m m0) (hp : AMap.Sorted s.panel) (r)
    (hr : view x.viz (params s) m0 = .ok r) (hsh : s.shown = some r.1) : ShowsMap x m s := by
  obtain ⟨-, h, -⟩ := view_result_partial x.viz (params s) m0 hs.sorted (sorted_params s)
  obtain ⟨pls, lns, pts, pts', h0, h1, ⟨segs, h2, h3⟩, ⟨each, h4, h5⟩, h6, -, -, -, -⟩ := h r hr
  subst h2
  have h1' : List.Forall₂ (fun pl o => o = .grid 1 (1 / 4) 0xffffffff pl) m.planes pls := by
    rcases h1 with ⟨h, -⟩ | ⟨-, h⟩
    · cases h
    · rw [hs.planes] at h; exact h
  refine ⟨pls, segs, pts, pts', by rw [hsh, h0]; rfl, h6, h1', by rw [hs.lines] at h3; exact h3, each, h4, ?_⟩
  have hn : shownNames (params s).points m0.layers = checkedBoxes s := by
    unfold shownNames
    have e : (params s).points.perLayer.map (·.1) = checkedBoxes s := by
      simp only [params, checkedBoxes, boxes_eq_panel s hp, List.map_map, Function.comp_def]
    cases hv : (params s).points.visible with
    | false =>
      rw [(params_visible s).mp hv] at e
      rw [← e]; rfl
    | true =>
      have : (params s).points.perLayer ≠ [] := fun h => by rw [(params_visible s).mpr h] at hv; cases hv
      rw [if_pos rfl, if_neg this, e]
  rw [hn] at h5
  refine h5.imp fun n ob ⟨q, l0, a1, a2, a3⟩ => ?_
  have hq : q = layerP s.opts := by
    unfold paramsFor at a1
    split at a1
    · rename_i hv
      have : (params s).points.perLayer ≠ [] := fun h => by rw [(params_visible s).mpr h] at hv; cases hv
      rw [if_neg this] at a1
      have := AMap.mem_of_get _ _ _ a1
      simp only [params, List.mem_map, Prod.mk.injEq] at this
      obtain ⟨_, -, -, rfl⟩ := this; rfl
    · cases a1
  subst hq
  cases hl : AMap.get m.layers n with
  | none => rw [hs.none n hl] at a2; cases a2
  | some l =>
    obtain ⟨l', b1, b2, b3, b4⟩ := hs.some n l hl
    rw [a2] at b1; cases b1
    by_cases hv : ∀ occ, l.kind ≠ .voxels occ
    · exact ⟨_, l, l0, asked_layerP _, rfl, Or.inl (b4 hv), a3⟩
    · push Not at hv
      obtain ⟨occ, hv⟩ := hv
      have e0 : l0 = { l with free := l0.free } := by cases l; cases l0; simp_all
      by_cases hk : s.opts.keep = true ∧ s.opts.voxPts = true
      · exact ⟨_, l, l0, asked_layerP _, rfl, Or.inr ⟨⟨occ, hv⟩, hk.1, hk.2, _, e0⟩, a3⟩
      · refine ⟨_, l, l, asked_layerP _, rfl, Or.inl rfl, ?_⟩
        have hv0 : l0.kind = .voxels occ := by rw [b2, hv]
        unfold LayerDrawn at a3 ⊢
        rw [hv0] at a3; rw [hv]
        dsimp only at a3 ⊢
        rw [← b3]
        rcases a3 with ⟨c1, c2⟩ | c
        · refine Or.inl ⟨c1, ?_⟩
          have hkk : s.opts.keep = false := by
            cases h : s.opts.keep
            · rfl
            · exact absurd ⟨h, c1⟩ hk
          unfold PtsDrawn at c2 ⊢
          have hm : ∀ m, (layerP s.opts).mode = some m → m.keep = false := fun m hm => by
            simp only [layerP, colorMode, hkk, Bool.false_eq_true, if_false] at hm
            split at hm
            · cases hm; rfl
            · cases hm
          cases hmm : (layerP s.opts).mode with
          | none => rw [hmm] at c2; exact c2
          | some m =>
            rw [hmm] at c2
            rcases c2 with ⟨c, -⟩ | c
            · rw [hm m hmm] at c; cases c
            · exact Or.inr c
        · exact Or.inr c

/-! ### the state while one map is loaded -/

theorem saneLayers_ok (x : VExt K P) (ls : AMap String (Layer K Nat)) (h1 : ∀ n l, (n, l) ∈ ls → l.kind ≠ .null)
    (h2 : ∀ n l pts, (n, l) ∈ ls → l.kind = .points pts → x.sane pts = true) : saneLayers x ls = .ok () := by
  induction ls with
  | nil => rfl
  | cons e ls ih =>
    have ih := ih (fun n l h => h1 n l (List.mem_cons_of_mem _ h)) fun n l pts h => h2 n l pts (List.mem_cons_of_mem _ h)
    have a := h1 e.1 e.2 List.mem_cons_self
    have b := fun pts => h2 e.1 e.2 pts List.mem_cons_self
    unfold saneLayers
    cases hk : e.2.kind with
    | null => exact absurd hk a
    | points pts => dsimp only; rw [if_pos (b pts hk)]; exact ih
    | voxels occ => exact ih
    | other => exact ih

theorem mapBox_total (ls : AMap String (Layer K Nat)) (ns : List String) (b) (h : ∀ n ∈ ns, ∀ l, AMap.get ls n = some l → l.kind ≠ .null) :
    ∃ bb, mapBox ls ns b = .ok bb := by
  induction ns generalizing b with
  | nil => exact ⟨_, rfl⟩
  | cons n ns ih =>
    have ih := fun b => ih b fun n h' => h n (List.mem_cons_of_mem _ h')
    have a := h n List.mem_cons_self
    unfold mapBox
    cases hl : AMap.get ls n with
    | none => exact ih b
    | some l =>
      dsimp only
      cases hk : l.kind with
      | null => exact absurd hk (a l hl)
      | points pts => dsimp only; cases b <;> exact ih _
      | voxels occ => exact ih b
      | other => exact ih b

/-- what the window must show of the trajectory and the view options -/
structure Drawn (x : VExt K P) (m : VMap K Nat) (g : Option P) (path : String) (s : St K P) : Prop where
  prev : s.prev = some (params s)
  title : s.title = path
  placed : Placed x g s
  segs : s.segs = s.traj.zip s.traj.tail
  radius : 2 ≤ s.traj.length → s.radius = x.exp s.thick
  fit : s.doFit = false
  grid : s.gridOn = s.opts.grid
  proj : s.projective = (!s.opts.ortho && !s.opts.flat)
  fov : s.fov = s.opts.fov
  clip : s.clip = (max (1 / 100) (x.pow10 s.opts.mid - 1 / 2 * x.pow10 s.opts.depth), x.pow10 s.opts.mid + 1 / 2 * x.pow10 s.opts.depth)

/-- state in which the view can be rebuilt -/
structure Pre (x : VExt K P) (m : VMap K Nat) (g : Option P) (path : String) (s : St K P) : Prop where
  same : SameButFree m s.map
  georef : s.georef = g
  file : s.fileName = path
  names : s.names = m.layers.map (·.1)
  panel : s.panel.map (·.1) = m.layers.map (·.1)
  drawn : ∀ p, s.prev = some p → ∃ m0 r, SameButFree m m0 ∧ view x.viz p m0 = .ok r ∧ s.shown = some r.1
  traj : s.segs = [] ∨ (s.segs = s.traj.zip s.traj.tail ∧ (2 ≤ s.traj.length → s.radius = x.exp s.thick))
  keys : s.cur ≠ none → s.keys ≠ []

theorem zip_tail_ne {α : Type} {l : List α} (h : 2 ≤ l.length) : l.zip l.tail ≠ [] := by
  match l, h with
  | a :: b :: l, _ => simp

theorem drawTraj_spec (x : VExt K P) (s : St K P)
    (h : s.segs = [] ∨ (s.segs = s.traj.zip s.traj.tail ∧ (2 ≤ s.traj.length → s.radius = x.exp s.thick))) :
    (drawTraj x s).segs = s.traj.zip s.traj.tail ∧ (2 ≤ s.traj.length → (drawTraj x s).radius = x.exp s.thick) := by
  unfold drawTraj
  by_cases hl : 2 ≤ s.traj.length
  · rcases h with h | ⟨h1, h2⟩
    · rw [if_pos (by simp [h, hl])]; exact ⟨rfl, fun _ => rfl⟩
    · have : s.segs.isEmpty = false := by
        rw [h1]; cases hz : s.traj.zip s.traj.tail with
        | nil => exact absurd hz (zip_tail_ne hl)
        | cons a b => rfl
      rw [if_neg (by simp [this])]; exact ⟨h1, h2⟩
  · rw [if_neg (by simp [hl])]
    refine ⟨?_, fun h => absurd h hl⟩
    rcases h with h | ⟨h, -⟩
    · rw [h]
      match ht : s.traj with
      | [] => rfl
      | [a] => rfl
      | a :: b :: l => rw [ht] at hl; simp at hl
    · exact h

/-- fields not touched by the last steps of a rebuild -/
theorem tail_fields (x : VExt K P) (bb) (s : St K P) :
    let s' := cameraOpts x (drawTraj x (fitView x bb (placeMap x s)))
    s'.map = s.map ∧ s'.georef = s.georef ∧ s'.fileName = s.fileName ∧ s'.names = s.names ∧ s'.panel = s.panel ∧ s'.opts = s.opts ∧
    s'.prev = s.prev ∧ s'.shown = s.shown ∧ s'.keys = s.keys ∧ s'.cur = s.cur ∧ s'.title = s.title ∧ s'.traj = s.traj ∧ s'.thick = s.thick ∧
    s'.files = s.files ∧ s'.timeBox = s.timeBox ∧ s'.fpsBox = s.fpsBox ∧ s'.spline = s.spline := by
  have a : placeMap x s = { s with mapPose := (placeMap x s).mapPose, gridPose := (placeMap x s).gridPose, enu := (placeMap x s).enu } := by
    unfold placeMap; split <;> rfl
  have b : ∀ s, fitView x bb s = { s with gridBox := (fitView x bb s).gridBox, gridOn := (fitView x bb s).gridOn, doFit := (fitView x bb s).doFit, cam := (fitView x bb s).cam } := by
    intro s; unfold fitView; cases bb with
    | none => rfl
    | some b => dsimp only; split <;> rfl
  have c : ∀ s, drawTraj x s = { s with segs := (drawTraj x s).segs, radius := (drawTraj x s).radius } := by
    intro s; unfold drawTraj; split <;> rfl
  intro s'
  have e : s' = cameraOpts x (drawTraj x (fitView x bb (placeMap x s))) := rfl
  rw [e, c, b, a]
  exact ⟨rfl, rfl, rfl, rfl, rfl, rfl, rfl, rfl, rfl, rfl, rfl, rfl, rfl, rfl, rfl, rfl, rfl⟩

theorem params_congr (s s' : St K P) (h1 : s'.panel = s.panel) (h2 : s'.opts = s.opts) : params s' = params s := by
  unfold params boxes; rw [h1, h2]

theorem tail_drawn (x : VExt K P) (m : VMap K Nat) (g : Option P) (path : String) (bb) (s : St K P) (hp : s.prev = some (params s))
    (ht : s.title = path) (hg : s.georef = g)
    (htr : s.segs = [] ∨ (s.segs = s.traj.zip s.traj.tail ∧ (2 ≤ s.traj.length → s.radius = x.exp s.thick))) :
    Drawn x m g path (cameraOpts x (drawTraj x (fitView x bb (placeMap x s)))) := by
  obtain ⟨f1, f2, f3, f4, f5, f6, f7, f8, f9, f10, f11, f12, f13, -, -, -, -⟩ := tail_fields x bb s
  have a : placeMap x s = { s with mapPose := (placeMap x s).mapPose, gridPose := (placeMap x s).gridPose, enu := (placeMap x s).enu } := by
    unfold placeMap; split <;> rfl
  have b : ∀ s, fitView x bb s = { s with gridBox := (fitView x bb s).gridBox, gridOn := s.opts.grid, doFit := false, cam := (fitView x bb s).cam } := by
    intro s; unfold fitView; cases bb with
    | none => rfl
    | some b =>
      dsimp only; split
      · rfl
      · rename_i h; simp only [Bool.not_eq_true] at h; rw [← h]
  have c : ∀ s, drawTraj x s = { s with segs := (drawTraj x s).segs, radius := (drawTraj x s).radius } := by
    intro s; unfold drawTraj; split <;> rfl
  have hd := drawTraj_spec x (fitView x bb (placeMap x s)) (by rw [b, a]; exact htr)
  refine ⟨by rw [f7, hp, params_congr s _ f5 f6], by rw [f11, ht], ⟨fun T h1 h2 => ?_, fun h => ?_⟩, ?_, ?_, ?_, ?_, ?_, ?_, ?_⟩
  · rw [f6] at h1
    have : placeMap x s = { s with mapPose := T, gridPose := T, enu := true } := by
      unfold placeMap; rw [h1, hg, h2]
    unfold cameraOpts; dsimp only; rw [c, b, this]; exact ⟨rfl, rfl, rfl⟩
  · rw [f6] at h
    have : placeMap x s = { s with mapPose := x.idPose, gridPose := x.idPose, enu := false } := by
      unfold placeMap
      rcases h with h | h
      · rw [h]
      · rw [hg, h]; cases s.opts.geo <;> rfl
    unfold cameraOpts; dsimp only; rw [c, b, this]; exact ⟨rfl, rfl, rfl⟩
  · rw [f12]
    have h := hd.1
    rw [show (fitView x bb (placeMap x s)).traj = s.traj by rw [b, a]] at h
    exact h
  · rw [f12, f13]
    have h := hd.2
    rw [show (fitView x bb (placeMap x s)).traj = s.traj by rw [b, a], show (fitView x bb (placeMap x s)).thick = s.thick by rw [b, a]] at h
    exact h
  · unfold cameraOpts; dsimp only; rw [c, b]
  · unfold cameraOpts; dsimp only; rw [c, b]
  · rfl
  · rfl
  · rfl

/-- rebuilding never fails, and leaves the window as it should be -/
theorem rebuild_spec (x : VExt K P) (m : VMap K Nat) (hm : GoodMap x m) (g : Option P) (path : String) (s : St K P) (h : Pre x m g path s) :
    ∃ s', rebuild x s = .done s' ∧ Pre x m g path s' ∧ Drawn x m g path s' ∧ s'.panel = s.panel ∧ s'.opts = s.opts ∧ s'.thick = s.thick ∧
      s'.traj = s.traj ∧
      ∃ bb, mapBox s.map.layers ((boxes s).map (·.1)) none = .ok bb ∧ s'.gridBox = (fitView x bb s).gridBox ∧ s'.cam = (fitView x bb s).cam := by
  have hthere : ∀ n l, AMap.get s.map.layers n = some l → l.kind ≠ .null := fun n l hl => by
    cases hg : AMap.get m.layers n with
    | none => rw [h.same.none n hg] at hl; cases hl
    | some l0 =>
      obtain ⟨l', a, b, -, -⟩ := h.same.some n l0 hg
      rw [hl] at a; cases a
      rw [b]; exact hm.there n l0 (AMap.mem_of_get _ _ _ hg)
  obtain ⟨bb, hbb⟩ := mapBox_total s.map.layers ((boxes s).map (·.1)) none fun n _ l hl => hthere n l hl
  have hsort : AMap.Sorted s.panel := sorted_of_names _ _ h.panel hm.sorted
  have hview : ∃ r, view x.viz (params s) s.map = .ok r :=
    view_total x s s.map (by rw [h.same.planes]; exact hm.planes) fun n hn => by
      rw [boxes_eq_panel s hsort] at hn
      have : n ∈ m.layers.map (·.1) := by
        rw [← h.panel]; exact List.mem_map.mpr ⟨_, AMap.mem_of_get _ _ _ hn, rfl⟩
      obtain ⟨e, he, rfl⟩ := List.mem_map.mp this
      obtain ⟨l', a, b, -, -⟩ := h.same.some e.1 e.2 (AMap.get_eq_some_of_mem _ hm.sorted _ _ he)
      exact ⟨l', a, hthere _ _ a⟩
  obtain ⟨r, hr⟩ := hview
  have hdraw : ∃ s1, drawMap x { s with title := s.fileName } = .done s1 ∧ s1.prev = some (params s) ∧
      s1 = { s with title := s.fileName, prev := s1.prev, shown := s1.shown, map := s1.map } ∧ SameButFree m s1.map ∧
      ∃ m0 r, SameButFree m m0 ∧ view x.viz (params s) m0 = .ok r ∧ s1.shown = some r.1 := by
    unfold drawMap
    have e : params { s with title := s.fileName } = params s := rfl
    rw [e]
    by_cases hpr : s.prev = some (params s)
    · rw [if_pos hpr]
      exact ⟨_, rfl, hpr, rfl, h.same, h.drawn _ hpr⟩
    · rw [if_neg hpr]
      dsimp only
      rw [hr]
      exact ⟨_, rfl, rfl, rfl, h.same.trans (view_same x s _ h.same.sorted r hr), s.map, r, h.same, hr, rfl⟩
  obtain ⟨s1, d1, d2, d3, d4, d5⟩ := hdraw
  have e1 : s1.panel = s.panel := by rw [d3]
  have e2 : s1.opts = s.opts := by rw [d3]
  have e3 : s1.title = path := by rw [d3]; exact h.file
  have e4 : s1.georef = g := by rw [d3]; exact h.georef
  have e5 : s1.segs = [] ∨ (s1.segs = s1.traj.zip s1.traj.tail ∧ (2 ≤ s1.traj.length → s1.radius = x.exp s1.thick)) := by
    rw [d3]; exact h.traj
  have epar : params s1 = params s := params_congr s s1 e1 e2
  obtain ⟨f1, f2, f3, f4, f5, f6, f7, f8, f9, f10, f11, f12, f13, -, -, -, -⟩ := tail_fields x bb s1
  have hdr := tail_drawn x m g path bb s1 (by rw [d2, epar]) e3 e4 e5
  refine ⟨cameraOpts x (drawTraj x (fitView x bb (placeMap x s1))), ?_, ⟨?_, ?_, ?_, ?_, ?_, fun p hp => ?_, Or.inr ⟨hdr.segs, hdr.radius⟩, ?_⟩, hdr, ?_, ?_, ?_, ?_,
    bb, hbb, ?_, ?_⟩
  · unfold rebuild
    dsimp only
    rw [show mapBox s.map.layers ((boxes { s with title := s.fileName }).map (·.1)) none = .ok bb from hbb]
    dsimp only
    rw [d1]
  · rw [f1]; exact d4
  · rw [f2]; exact e4
  · rw [f3, d3]; exact h.file
  · rw [f4, d3]; exact h.names
  · rw [f5, e1]; exact h.panel
  · rw [f7, d2] at hp; cases hp
    rw [f8]; exact d5
  · rw [f10, f9, d3]; exact h.keys
  · rw [f5, e1]
  · rw [f6, e2]
  · rw [f13, d3]
  · rw [f12, d3]
  · have c : ∀ s, (drawTraj x s).gridBox = s.gridBox := by intro s; unfold drawTraj; split <;> rfl
    unfold cameraOpts; dsimp only; rw [c, d3]
    unfold fitView; cases bb with
    | none => dsimp only; unfold placeMap; split <;> rfl
    | some b => dsimp only; unfold placeMap; split <;> (dsimp only; split <;> rfl)
  · have c : ∀ s, (drawTraj x s).cam = s.cam := by intro s; unfold drawTraj; split <;> rfl
    unfold cameraOpts; dsimp only; rw [c, d3]
    unfold fitView; cases bb with
    | none => dsimp only; unfold placeMap; split <;> rfl
    | some b => dsimp only; unfold placeMap; split <;> (dsimp only; split <;> rfl)

end Verif.Lemmas
