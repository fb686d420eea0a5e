import Verif.Spec.MapDef
import Verif.Lemmas.AMap
import Mathlib.Tactic.Tauto
/-
C79: the definition of a custom map in YAML reaches the map as it was written.
-/
namespace Verif
namespace Props
open MapDef Spec

theorem str_append_left_cancel {a b c : String} (h : a ++ b = a ++ c) : b = c := by
  have := congrArg String.toList h
  simp only [String.toList_append, List.append_cancel_left_eq] at this
  exact String.ext this

theorem isFormula_iff (v : String) : isFormula v = true ↔ ∃ e, v = "$f{" ++ e := by
  constructor
  · intro h
    refine ⟨String.ofList (v.toList.drop 3), ?_⟩
    apply String.ext
    simp only [isFormula, beq_iff_eq] at h
    conv_lhs => rw [← List.take_append_drop 3 v.toList, h]
    rw [String.toList_append]
    have e1 : (String.ofList (v.toList.drop 3)).toList = v.toList.drop 3 := String.toList_ofList ..
    exact congrArg (['$', 'f', '{'] ++ ·) e1.symm
  · rintro ⟨e, rfl⟩
    simp only [isFormula, String.toList_append, beq_iff_eq]
    rfl

theorem closed_formula (v : String) (h : isFormula v = true) :
    closed v = true ↔ ∃ e, v = "$f{" ++ e ++ "}" := by
  obtain ⟨e, rfl⟩ := (isFormula_iff v).1 h
  have h0 : ("$f{" ++ e).toList = '$' :: 'f' :: '{' :: e.toList := by rw [String.toList_append]; rfl
  simp only [closed, beq_iff_eq, h0]
  constructor
  · intro h
    rcases List.eq_nil_or_concat e.toList with hn | ⟨i, a, ha⟩
    · rw [hn] at h; simp at h
    · rw [List.concat_eq_append] at ha
      rw [ha] at h
      have : a = '}' := by
        have e1 : '$' :: 'f' :: '{' :: (i ++ [a]) = ('$' :: 'f' :: '{' :: i) ++ [a] := rfl
        rw [e1, List.getLast?_append] at h
        simpa using h
      refine ⟨String.ofList i, String.ext ?_⟩
      rw [h0, String.toList_append, String.toList_append, String.toList_ofList, ha, this]
      simp
  · rintro ⟨e', he⟩
    have := congrArg String.toList he
    rw [h0, String.toList_append] at this
    rw [this, List.getLast?_append]
    rfl

theorem body_formula (e : String) : body ("$f{" ++ e ++ "}") = e := by
  apply String.ext
  have h0 : ("$f{" ++ e ++ "}").toList = '$' :: 'f' :: '{' :: (e.toList ++ ['}']) := by
    rw [String.toList_append, String.toList_append]; rfl
  have hl : ("$f{" ++ e ++ "}").length = e.length + 4 := by
    rw [← String.length_toList, h0, ← String.length_toList]; simp
  rw [body, String.toList_ofList, h0, hl]
  show List.take (e.length + 4 - 4) (e.toList ++ ['}']) = e.toList
  rw [Nat.add_sub_cancel, ← String.length_toList, List.take_left]

/-- the entry made of a value that is accepted -/
def cellOf (v : String) : Cell := if isFormula v then .formula (body v) else .text v

theorem loadCell_ok (k : String) (o : Option String) (h : OkCell o) : ∃ v, o = some v ∧ loadCell (k, o) = .ok (k, cellOf v) := by
  cases o with
  | none => exact h.elim
  | some v =>
    refine ⟨v, rfl, ?_⟩
    by_cases hf : isFormula v = true
    · have hc : closed v = true := by
        rcases h with h | h
        · exact (closed_formula v hf).2 h
        · obtain ⟨e, he⟩ := (isFormula_iff v).1 hf
          exact absurd he (h e)
      simp [loadCell, hf, hc, cellOf]
    · simp [loadCell, hf, cellOf]

theorem loadCell_throw (k : String) (o : Option String) (h : ¬ OkCell o) : loadCell (k, o) = .throw := by
  cases o with
  | none => rfl
  | some v =>
    have hf : isFormula v = true := by
      by_contra hf
      refine h (Or.inr fun e he => hf ((isFormula_iff v).2 ⟨e, he⟩))
    have hc : ¬ closed v = true := fun hc => h (Or.inl ((closed_formula v hf).1 hc))
    simp [loadCell, hf, Outcome.assert, hc]

theorem shown_iff (val : String → String) (v t : String) (h : OkCell (some v)) : (cellOf v).show val = t ↔ Shown val v t := by
  by_cases hf : isFormula v = true
  · obtain ⟨e, rfl⟩ : ∃ e, v = "$f{" ++ e ++ "}" := by
      rcases h with h | h
      · exact h
      · obtain ⟨e, he⟩ := (isFormula_iff v).1 hf
        exact absurd he (h e)
    rw [cellOf, if_pos hf, body_formula]
    constructor
    · rintro rfl; exact .formula e
    · intro hs
      generalize hv : "$f{" ++ e ++ "}" = v at hs
      cases hs with
      | formula e' =>
        have h1 : "$f{" ++ (e ++ "}") = "$f{" ++ (e' ++ "}") := by rw [← String.append_assoc, ← String.append_assoc, hv]
        have h2 := congrArg String.toList (str_append_left_cancel h1)
        rw [String.toList_append, String.toList_append, List.append_cancel_right_eq] at h2
        rw [String.ext h2]; rfl
      | plain _ h' => exact absurd (by rw [← hv, String.append_assoc]) (h' (e ++ "}"))
  · have hn : ∀ e, v ≠ "$f{" ++ e := fun e he => hf ((isFormula_iff v).2 ⟨e, he⟩)
    rw [cellOf, if_neg hf]
    constructor
    · rintro rfl; exact .plain v hn
    · intro hs
      cases hs with
      | formula e' => exact absurd (String.append_assoc ..) (hn _)
      | plain => rfl

section
variable {α β σ : Type}

theorem get_foldl_set (f : β → α) (l : AMap String β) (hl : l.Sorted) (d : AMap String α) (k : String) :
    (l.foldl (fun d e => AMap.set d e.1 (f e.2)) d).get k = (match l.get k with | some v => some (f v) | none => d.get k) := by
  induction l generalizing d with
  | nil => rfl
  | cons e l ih =>
    unfold AMap.Sorted at hl ih
    rw [List.pairwise_cons] at hl
    rw [List.foldl_cons, ih hl.2, AMap.get_cons]
    by_cases hk : e.1 = k
    · have : AMap.get l k = none := (AMap.get_none_iff l k).2 fun a ha => by
        rw [← hk]; exact (ne_of_lt (hl.1 a ha)).symm
      rw [this]
      simp [hk]
    · rw [if_neg hk]
      cases AMap.get l k with
      | some v => rfl
      | none => simp [Ne.symm hk]

theorem sorted_foldl_set (f : β → α) (l : AMap String β) (d : AMap String α) (hd : d.Sorted) :
    (l.foldl (fun d e => AMap.set d e.1 (f e.2)) d).Sorted := by
  induction l generalizing d with
  | nil => exact hd
  | cons e l ih => exact ih _ (AMap.sorted_set _ _ _ hd)
end

/-- the section made of a map whose values are accepted -/
def sectOf (m : AMap String (Option String)) : AMap String Cell :=
  m.foldl (fun d e => AMap.set d e.1 (cellOf (e.2.getD ""))) []

theorem loadSect_ok (m : AMap String (Option String)) (h : ∀ e ∈ m, OkCell e.2) : loadSect m = .ok (sectOf m) := by
  unfold loadSect sectOf
  generalize ([] : AMap String Cell) = d
  induction m generalizing d with
  | nil => rfl
  | cons e m ih =>
    obtain ⟨v, hv, hc⟩ := loadCell_ok e.1 e.2 (h e (List.mem_cons_self ..))
    simp only [foldOutcome, List.foldl_cons]
    rw [show (e : String × Option String) = (e.1, e.2) from rfl, hc]
    simp only [Outcome.bind, hv, Option.getD_some]
    exact ih (fun e he => h e (List.mem_cons_of_mem _ he)) _

theorem loadSect_throw (m : AMap String (Option String)) (h : ∃ e ∈ m, ¬ OkCell e.2) : loadSect m = .throw := by
  unfold loadSect
  generalize ([] : AMap String Cell) = d
  induction m generalizing d with
  | nil => simp at h
  | cons e m ih =>
    simp only [foldOutcome]
    by_cases he : OkCell e.2
    · obtain ⟨v, hv, hc⟩ := loadCell_ok e.1 e.2 he
      rw [show (e : String × Option String) = (e.1, e.2) from rfl, hc]
      simp only [Outcome.bind]
      refine ih ?_ _
      obtain ⟨a, ha, hb⟩ := h
      rcases List.mem_cons.1 ha with rfl | ha
      · exact absurd he hb
      · exact ⟨a, ha, hb⟩
    · rw [show (e : String × Option String) = (e.1, e.2) from rfl, loadCell_throw _ _ he]; rfl

/-- the maps in the file have their keys once each -/
def GoodFile (y : AMap String YVal) : Prop := y.Sorted ∧ ∀ k m, y.get k = some (.map m) → m.Sorted

theorem okEntry_mem {k : String} {m : AMap String (Option String)} (hm : m.Sorted) (h : OkEntry k (.map m)) :
    ∀ e ∈ m, OkCell e.2 := by
  intro e he
  exact h e.1 e.2 ((AMap.mem_iff_get m hm e.1 e.2).1 he)

/-- the entry made of an accepted value, if any -/
def entryOf : YVal → Option Entry
  | .null => none
  | .scalar s => some (.scalar s)
  | .seq => none
  | .map m => some (.sect (sectOf m))

theorem load_ok_aux (y : AMap String YVal) (h : ∀ e ∈ y, OkEntry e.1 e.2) (hm : ∀ e ∈ y, ∀ m, e.2 = .map m → m.Sorted) (d : Def) :
    load d y = .ok (y.foldl (fun d e => match entryOf e.2 with | some x => AMap.set d e.1 x | none => d) d) := by
  unfold load
  induction y generalizing d with
  | nil => rfl
  | cons e y ih =>
    simp only [foldOutcome, List.foldl_cons]
    have h1 := h e (List.mem_cons_self ..)
    have h2 := hm e (List.mem_cons_self ..)
    have : loadEntry d e = .ok (match entryOf e.2 with | some x => AMap.set d e.1 x | none => d) := by
      rcases e with ⟨k, v⟩
      cases v with
      | null => rfl
      | scalar s => simp only [loadEntry, entryOf]; exact if_pos h1
      | seq => exact h1.elim
      | map m => simp only [loadEntry, entryOf, loadSect_ok m (okEntry_mem (h2 m rfl) h1)]; rfl
    rw [this]
    exact ih (fun e he => h e (List.mem_cons_of_mem _ he)) (fun e he => hm e (List.mem_cons_of_mem _ he)) _

theorem get_load (y : AMap String YVal) (hs : y.Sorted) (d : Def) (k : String) :
    (y.foldl (fun d e => match entryOf e.2 with | some x => AMap.set d e.1 x | none => d) d).get k =
      (match (y.get k).bind entryOf with | some x => some x | none => d.get k) := by
  induction y generalizing d with
  | nil => rfl
  | cons e y ih =>
    unfold AMap.Sorted at hs ih
    rw [List.pairwise_cons] at hs
    rw [List.foldl_cons, ih hs.2, AMap.get_cons]
    by_cases hk : e.1 = k
    · have : AMap.get y k = none := (AMap.get_none_iff y k).2 fun a ha => by
        rw [← hk]; exact (ne_of_lt (hs.1 a ha)).symm
      rw [this, if_pos hk]
      cases he : entryOf e.2 with
      | some x => simp [hk, he]
      | none => simp [he]
    · rw [if_neg hk]
      cases (AMap.get y k).bind entryOf with
      | some v => rfl
      | none =>
        cases he : entryOf e.2 with
        | some x => simp [Ne.symm hk]
        | none => rfl

theorem sorted_load (y : AMap String YVal) (d : Def) (hd : d.Sorted) :
    (y.foldl (fun d e => match entryOf e.2 with | some x => AMap.set d e.1 x | none => d) d).Sorted := by
  induction y generalizing d with
  | nil => exact hd
  | cons e y ih =>
    rw [List.foldl_cons]
    cases he : entryOf e.2 with
    | some x => exact ih _ (AMap.sorted_set _ _ _ hd)
    | none => exact ih _ hd

/-! ### what ends in the INI -/

theorem writeCells (sect : String) (val : String → String) (m : AMap String Cell) (hm : m.Sorted) (c : Ini) (s k : String) :
    m.foldl (fun (c : Ini) e => c.write sect e.1 (e.2.show val)) c s k =
      if s = sect then (match m.get k with | some x => some (x.show val) | none => c s k) else c s k := by
  induction m generalizing c with
  | nil => simp
  | cons e m ih =>
    unfold AMap.Sorted at hm ih
    rw [List.pairwise_cons] at hm
    rw [List.foldl_cons, ih hm.2, AMap.get_cons]
    by_cases hs : s = sect
    · rw [if_pos hs, if_pos hs]
      by_cases hk : e.1 = k
      · have : AMap.get m k = none := (AMap.get_none_iff m k).2 fun a ha => by
          rw [← hk]; exact (ne_of_lt (hm.1 a ha)).symm
        rw [this, if_pos hk]
        simp [Ini.write, hs, hk]
      · rw [if_neg hk]
        cases AMap.get m k with
        | some x => rfl
        | none => simp [Ini.write, Ne.symm hk]
    · rw [if_neg hs, if_neg hs]
      simp [Ini.write, hs]

theorem sectName_inj {cls a b : String} (h : sectName cls a = sectName cls b) : a = b := str_append_left_cancel h

theorem sectName_ne (cls a : String) : sectName cls a ≠ "map" := by
  intro h
  have := congrArg String.length h
  simp only [sectName, String.length_append] at this
  have h1 : "map_".length = 4 := rfl
  have h2 : "_00_".length = 4 := rfl
  have h3 : "map".length = 3 := rfl
  omega

theorem writeAll (cls : String) (val : String → String) (d : Def) (hd : d.Sorted)
    (hm : ∀ e ∈ d, ∀ m, e.2 = .sect m → m.Sorted) (c : Ini) (s k t : String) :
    d.foldl (writeSect cls val) c s k = some t ↔
      (∃ key m x, d.get key = some (.sect m) ∧ s = sectName cls key ∧ m.get k = some x ∧ x.show val = t) ∨
      (c s k = some t ∧ ∀ key m x, d.get key = some (.sect m) → s = sectName cls key → m.get k ≠ some x) := by
  induction d generalizing c with
  | nil => simp
  | cons e d ih =>
    unfold AMap.Sorted at hd ih
    rw [List.pairwise_cons] at hd
    have hnone : AMap.get d e.1 = none := (AMap.get_none_iff d e.1).2 fun a ha => (ne_of_lt (hd.1 a ha)).symm
    rw [List.foldl_cons, ih hd.2 (fun e he => hm e (List.mem_cons_of_mem _ he))]
    have hget : ∀ key E, AMap.get (e :: d) key = some E ↔ (e.1 = key ∧ e.2 = E) ∨ (e.1 ≠ key ∧ AMap.get d key = some E) := by
      intro key E
      rw [AMap.get_cons]
      by_cases h : e.1 = key
      · simp [h]
      · simp [h]
    have hd' : ∀ key E, AMap.get d key = some E → e.1 ≠ key := by
      intro key E h hk; rw [← hk, hnone] at h; cases h
    rcases he : e.2 with s0 | m
    · have hw : writeSect cls val c e = c := by simp [writeSect, he]
      rw [hw]
      constructor
      · rintro (⟨key, m, x, h1, h2, h3, h4⟩ | ⟨h1, h2⟩)
        · exact Or.inl ⟨key, m, x, (hget _ _).2 (Or.inr ⟨hd' _ _ h1, h1⟩), h2, h3, h4⟩
        · refine Or.inr ⟨h1, fun key m x h3 => ?_⟩
          rcases (hget _ _).1 h3 with ⟨-, h4⟩ | ⟨-, h4⟩
          · rw [he] at h4; cases h4
          · exact h2 key m x h4
      · rintro (⟨key, m, x, h1, h2, h3, h4⟩ | ⟨h1, h2⟩)
        · rcases (hget _ _).1 h1 with ⟨-, h5⟩ | ⟨-, h5⟩
          · rw [he] at h5; cases h5
          · exact Or.inl ⟨key, m, x, h5, h2, h3, h4⟩
        · exact Or.inr ⟨h1, fun key m x h3 => h2 key m x ((hget _ _).2 (Or.inr ⟨hd' _ _ h3, h3⟩))⟩
    · have hms : m.Sorted := hm e (List.mem_cons_self ..) m he
      have hw : ∀ s k, writeSect cls val c e s k = if s = sectName cls e.1 then
          (match m.get k with | some x => some (x.show val) | none => c s k) else c s k := by
        intro s k
        simp only [writeSect, he]
        exact writeCells _ _ m hms c s k
      constructor
      · rintro (⟨key, m', x, h1, h2, h3, h4⟩ | ⟨h1, h2⟩)
        · exact Or.inl ⟨key, m', x, (hget _ _).2 (Or.inr ⟨hd' _ _ h1, h1⟩), h2, h3, h4⟩
        · rw [hw] at h1
          by_cases hs : s = sectName cls e.1
          · rw [if_pos hs] at h1
            cases hx : m.get k with
            | some x =>
              rw [hx] at h1
              exact Or.inl ⟨e.1, m, x, (hget _ _).2 (Or.inl ⟨rfl, he⟩), hs, hx, by simpa using h1⟩
            | none =>
              rw [hx] at h1
              refine Or.inr ⟨h1, fun key m' x h3 hs' => ?_⟩
              rcases (hget _ _).1 h3 with ⟨-, h4⟩ | ⟨-, h4⟩
              · rw [he] at h4; cases h4; rw [hx]; simp
              · exact h2 key m' x h4 hs'
          · rw [if_neg hs] at h1
            refine Or.inr ⟨h1, fun key m' x h3 hs' => ?_⟩
            rcases (hget _ _).1 h3 with ⟨h5, h4⟩ | ⟨-, h4⟩
            · exact absurd (h5 ▸ hs') hs
            · exact h2 key m' x h4 hs'
      · rintro (⟨key, m', x, h1, h2, h3, h4⟩ | ⟨h1, h2⟩)
        · rcases (hget _ _).1 h1 with ⟨h5, h6⟩ | ⟨-, h6⟩
          · rw [he] at h6
            cases h6
            refine Or.inr ⟨?_, fun key' m'' x' h7 h8 => ?_⟩
            · rw [hw, if_pos (h5 ▸ h2), h3]; simpa using h4
            · have := sectName_inj (h2.symm.trans h8)
              exact absurd (h5.trans this) (hd' _ _ h7)
          · exact Or.inl ⟨key, m', x, h6, h2, h3, h4⟩
        · refine Or.inr ⟨?_, fun key m' x h3 => h2 key m' x ((hget _ _).2 (Or.inr ⟨hd' _ _ h3, h3⟩))⟩
          rw [hw]
          split
          · rename_i hs
            cases hx : m.get k with
            | some x => exact absurd hx (h2 e.1 m x ((hget _ _).2 (Or.inl ⟨rfl, he⟩)) hs)
            | none => exact h1
          · exact h1

theorem entryOf_scalar {v : YVal} {s : String} (h : entryOf v = some (.scalar s)) : v = .scalar s := by
  cases v <;> simp [entryOf] at h
  rw [h]

theorem entryOf_sect {v : YVal} {c : AMap String Cell} (h : entryOf v = some (.sect c)) : ∃ m, v = .map m ∧ c = sectOf m := by
  cases v <;> simp [entryOf] at h
  exact ⟨_, rfl, h.symm⟩

theorem sectOf_get (m : AMap String (Option String)) (hm : m.Sorted) (k : String) :
    (sectOf m).get k = (m.get k).map fun v => cellOf (v.getD "") := by
  unfold sectOf
  rw [get_foldl_set (fun v => cellOf (Option.getD v "")) m hm]
  cases AMap.get m k <;> rfl

/-- The configuration given to the map is exactly: one map of the class asked for, and, in the section of each part of the
definition, the keys and values written in the file, formulas being replaced by their current value.  Nothing is lost and
nothing added. -/
theorem mapdef_ini (y : AMap String YVal) (hy : GoodFile y) (hok : ∀ k v, y.get k = some v → OkEntry k v) (cls : String)
    (hc : y.get "class" = some (.scalar cls)) (plugin : String → Outcome Unit)
    (hp : (∀ s, y.get "plugin" = some (.scalar s) → plugin s = .ok ()) ∧ ∀ m, y.get "plugin" ≠ some (.map m))
    (val : String → String) :
    ∃ d ini, load [] y = .ok d ∧ buildIni plugin val d = .ok ini ∧ ∀ sect key t, ini sect key = some t ↔
      (sect = "map" ∧ key = cls ++ "_count" ∧ t = "1") ∨
      ∃ part m v, y.get part = some (.map m) ∧ sect = "map_" ++ cls ++ "_00_" ++ part ∧ m.get key = some (some v) ∧
        Shown val v t := by
  have hmem : ∀ e ∈ y, y.get e.1 = some e.2 := fun e he => (AMap.mem_iff_get y hy.1 e.1 e.2).1 he
  have hl := load_ok_aux y (fun e he => hok _ _ (hmem e he)) (fun e he m hm => hy.2 e.1 m (by rw [hmem e he, hm])) []
  set d : Def := y.foldl (fun d e => match entryOf e.2 with | some x => AMap.set d e.1 x | none => d) [] with hd
  have hg : ∀ k, d.get k = (y.get k).bind entryOf := by
    intro k
    rw [hd, get_load y hy.1]
    cases (AMap.get y k).bind entryOf <;> rfl
  have hds : AMap.Sorted d := sorted_load y [] (by simp [AMap.Sorted])
  have hcls : d.get "class" = some (.scalar cls) := by rw [hg, hc]; rfl
  have hpl : usePlugin plugin (d.get "plugin") = .ok () := by
    rw [hg]
    cases hq : AMap.get y "plugin" with
    | none => rfl
    | some v =>
      cases v with
      | null => rfl
      | seq => rfl
      | scalar s => exact hp.1 s hq
      | map m => exact absurd hq (hp.2 m)
  refine ⟨d, d.foldl (writeSect cls val) (Ini.write (fun _ _ => none) "map" (cls ++ "_count") "1"), hl, ?_, ?_⟩
  · simp only [buildIni, hcls, text, Outcome.bind, hpl]
  · intro sect key t
    rw [writeAll cls val d hds]
    · have hs : ∀ part c, d.get part = some (.sect c) ↔ ∃ m, y.get part = some (.map m) ∧ c = sectOf m := by
        intro part c
        rw [hg, Option.bind_eq_some_iff]
        constructor
        · rintro ⟨v, h1, h2⟩
          obtain ⟨m, rfl, rfl⟩ := entryOf_sect h2
          exact ⟨m, h1, rfl⟩
        · rintro ⟨m, h1, rfl⟩
          exact ⟨_, h1, rfl⟩
      constructor
      · rintro (⟨part, c, x, h1, h2, h3, h4⟩ | ⟨h1, -⟩)
        · obtain ⟨m, h5, rfl⟩ := (hs _ _).1 h1
          rw [sectOf_get m (hy.2 _ _ h5)] at h3
          obtain ⟨o, h6, h7⟩ := Option.map_eq_some_iff.1 h3
          have hok' := hok _ _ h5 _ _ h6
          cases o with
          | none => exact hok'.elim
          | some v =>
            refine Or.inr ⟨part, m, v, h5, h2, h6, (shown_iff val v t hok').1 ?_⟩
            rw [← h4, ← h7]; rfl
        · left
          simp only [Ini.write] at h1
          split at h1
          · rename_i h
            exact ⟨h.1, h.2, by simpa using h1.symm⟩
          · cases h1
      · rintro (⟨rfl, rfl, rfl⟩ | ⟨part, m, v, h1, h2, h3, h4⟩)
        · exact Or.inr ⟨by simp [Ini.write], fun part c x _ h => absurd h.symm (sectName_ne cls part)⟩
        · refine Or.inl ⟨part, sectOf m, cellOf v, (hs _ _).2 ⟨m, h1, rfl⟩, h2, ?_, ?_⟩
          · rw [sectOf_get m (hy.2 _ _ h1), h3]; rfl
          · exact (shown_iff val v t (hok _ _ h1 _ _ h3)).2 h4
    · intro e he m hm
      have h1 : d.get e.1 = some e.2 := (AMap.mem_iff_get d hds e.1 e.2).1 he
      rw [hg, Option.bind_eq_some_iff] at h1
      obtain ⟨v, -, h3⟩ := h1
      rw [hm] at h3
      obtain ⟨m', -, rfl⟩ := entryOf_sect h3
      exact sorted_foldl_set (fun v => cellOf (Option.getD v "")) m' [] (by simp [AMap.Sorted])

/-- A definition is refused exactly if it has a scalar which is neither the class nor the plugin, a sequence, or a part with a
value that is no scalar or a formula without its closing brace. -/
theorem mapdef_refused_iff (d : Def) (y : AMap String YVal) (hy : GoodFile y) :
    (load d y = .throw ↔ ∃ k v, y.get k = some v ∧ ¬ OkEntry k v) ∧ load d y ≠ .ub := by
  have hmem : ∀ e ∈ y, y.get e.1 = some e.2 := fun e he => (AMap.mem_iff_get y hy.1 e.1 e.2).1 he
  have hm : ∀ e ∈ y, ∀ m, e.2 = .map m → m.Sorted := fun e he m hm => hy.2 e.1 m (by rw [hmem e he, hm])
  by_cases h : ∀ e ∈ y, OkEntry e.1 e.2
  · rw [load_ok_aux y h hm]
    refine ⟨⟨fun h' => (by simp at h'), ?_⟩, by simp⟩
    rintro ⟨k, v, h1, h2⟩
    exact absurd (h (k, v) (AMap.mem_of_get y k v h1)) h2
  · have hthrow : load d y = .throw := by
      clear hmem hy
      unfold load
      induction y generalizing d with
      | nil => simp at h
      | cons e y ih =>
        simp only [foldOutcome]
        by_cases he : OkEntry e.1 e.2
        · have := load_ok_aux [e] (by simpa using he) (by simpa using hm e (List.mem_cons_self ..)) d
          unfold load at this
          simp only [foldOutcome, Outcome.bind_eq_ok] at this
          obtain ⟨d1, h1, -⟩ := this
          rw [h1]
          refine ih d1 (fun e he => hm e (List.mem_cons_of_mem _ he)) ?_
          intro hh
          apply h
          intro a ha
          rcases List.mem_cons.1 ha with rfl | ha
          · exact he
          · exact hh a ha
        · have : loadEntry d e = .throw := by
            have h2 := hm e (List.mem_cons_self ..)
            rcases e with ⟨k, v⟩
            cases v with
            | null => exact absurd trivial he
            | scalar s => exact if_neg he
            | seq => rfl
            | map m =>
              have hms := h2 m rfl
              simp only [loadEntry]
              rw [loadSect_throw m]
              · rfl
              · by_contra hc
                push Not at hc
                refine he fun kk v hv => ?_
                exact hc (kk, v) (AMap.mem_of_get m kk v hv)
          rw [this]; rfl
    rw [hthrow]
    refine ⟨⟨fun _ => ?_, fun _ => rfl⟩, by simp⟩
    push Not at h
    obtain ⟨e, he, hne⟩ := h
    exact ⟨e.1, e.2, hmem e he, hne⟩

/-- Without a class there is no map. -/
theorem mapdef_needs_class (plugin : String → Outcome Unit) (val : String → String) (d : Def)
    (h : ∀ s, d.get "class" ≠ some (.scalar s)) : buildIni plugin val d = .throw := by
  unfold buildIni
  cases hd : AMap.get d "class" with
  | none => rfl
  | some e =>
    cases e with
    | scalar s => exact absurd hd (h s)
    | sect m => rfl

/-- A definition in which everything is left empty is as none: the generator makes clouds of points. -/
theorem mapdef_all_empty (y : AMap String YVal) (h : ∀ k v, y.get k = some v → v = .null) (hs : y.Sorted) :
    load [] y = .ok [] ∧ isDefault "" [] = true := by
  refine ⟨?_, rfl⟩
  have h' : ∀ e ∈ y, e.2 = .null := fun e he => h e.1 e.2 ((AMap.mem_iff_get y hs e.1 e.2).1 he)
  clear h hs
  unfold load
  induction y with
  | nil => rfl
  | cons e y ih =>
    simp only [foldOutcome]
    have : loadEntry [] e = .ok [] := by
      simp only [loadEntry, h' e (List.mem_cons_self ..)]
    rw [this]
    exact ih fun e he => h' e (List.mem_cons_of_mem _ he)

/-- The generator makes plain clouds of points if and only if no INI file is named and every entry of the definition is left
empty: any other definition gives a custom map. -/
theorem mapdef_default_iff (iniFile : String) (y : AMap String YVal) (hy : GoodFile y) (d : Def) (hl : load [] y = .ok d) :
    isDefault iniFile d = true ↔ iniFile = "" ∧ ∀ k v, y.get k = some v → v = .null := by
  have hok : ∀ k v, y.get k = some v → OkEntry k v := by
    by_contra hc
    push Not at hc
    have := ((mapdef_refused_iff [] y hy).1).2 hc
    rw [hl] at this
    exact absurd this (by simp)
  have hmem : ∀ e ∈ y, AMap.get y e.1 = some e.2 := fun e he => (AMap.mem_iff_get y hy.1 e.1 e.2).1 he
  have h1 := load_ok_aux y (fun e he => hok e.1 e.2 (hmem e he))
    (fun e he m hm => hy.2 e.1 m (by rw [hmem e he, hm])) []
  rw [hl] at h1
  have hd : d = _ := Outcome.ok.inj h1
  have hg : ∀ k, d.get k = (y.get k).bind entryOf := by
    intro k
    rw [hd, get_load y hy.1 [] k]
    cases (AMap.get y k).bind entryOf <;> rfl
  unfold isDefault
  rw [Bool.and_eq_true, beq_iff_eq]
  refine and_congr_right fun _ => ⟨fun he k v hv => ?_, fun he => ?_⟩
  · have hnil : d = [] := List.isEmpty_iff.1 he
    have h2 := hg k
    rw [hnil, hv] at h2
    have h3 := hok k v hv
    cases v with
    | null => rfl
    | scalar s => cases h2
    | seq => exact h3.elim
    | map m => cases h2
  · rw [List.isEmpty_iff]
    cases hdd : d with
    | nil => rfl
    | cons e l =>
      exfalso
      have h2 := hg e.1
      rw [hdd, AMap.get_cons, if_pos rfl] at h2
      cases hv : AMap.get y e.1 with
      | none => rw [hv] at h2; cases h2
      | some v => rw [hv, he _ _ hv] at h2; cases h2

/-! ### an example -/

def exDef : AMap String YVal :=
  [("class", .scalar "CVoxelMap"), ("creationOpts", .map [("resolution", some "$f{2*R}"), ("x", some "1")]), ("plugin", .null)]

example : (load [] exDef).Sat fun d => (buildIni (fun _ => .throw) (fun e => "<" ++ e ++ ">") d).Sat fun ini =>
    ini "map" "CVoxelMap_count" = some "1" ∧ ini "map_CVoxelMap_00_creationOpts" "resolution" = some "<2*R>" ∧
      ini "map_CVoxelMap_00_creationOpts" "x" = some "1" ∧ ini "map_CVoxelMap_00_creationOpts" "y" = none := by
  decide +kernel
example : GoodFile exDef ∧ AMap.get exDef "class" = some (.scalar "CVoxelMap") := by
  refine ⟨⟨?_, ?_⟩, rfl⟩
  · unfold AMap.Sorted exDef; decide
  · intro k m h
    have h1 := AMap.mem_of_get _ _ _ h
    simp only [exDef, List.mem_cons, Prod.mk.injEq, reduceCtorEq, and_false, YVal.map.injEq, false_or, List.not_mem_nil, or_false] at h1
    rw [h1.2]; unfold AMap.Sorted; decide
example : (load [] exDef).Sat fun d => isDefault "" d = false := by decide +kernel
example : isDefault "map.ini" [] = false := by decide
/-- a forgotten brace; a scalar out of its place -/
example : load [] [("class", .scalar "A"), ("o", .map [("r", some "$f{2*R")])] = .throw :=
  Outcome.eq_throw_of (by decide +kernel)
example : load [] [("resolution", .scalar "1")] = .throw := Outcome.eq_throw_of (by decide +kernel)

end Props
end Verif
