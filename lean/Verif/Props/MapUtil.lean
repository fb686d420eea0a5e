import Verif.Spec.MapUtil
import Verif.Lemmas.AMap
import Mathlib.Algebra.Order.Ring.Rat
import Mathlib.Tactic.Linarith
/-
C89: plugins; C90: map utilities.
-/
namespace Verif.MapUtil

theorem searchIn_spec (s : Sys) (name : Txt) (hj : ∀ d, s.join d name ≠ []) : ∀ (ds : List Txt) (p : Txt),
    (searchIn s name ds = p ∧ p ≠ []) ↔ ∃ before d after, ds = before ++ d :: after ∧ s.fileExists (s.join d name) = true ∧ p = s.join d name ∧
      ∀ e ∈ before, s.fileExists (s.join e name) = false
  | [], p => by
    simp only [searchIn, List.nil_eq, List.append_eq_nil_iff, reduceCtorEq, and_false, false_and, exists_false, iff_false, not_and, not_not]
    intro h; exact h.symm ▸ rfl
  | d :: ds, p => by
    rw [searchIn]
    have ih := searchIn_spec s name hj ds p
    by_cases hf : s.fileExists (s.join d name) = true
    · rw [if_pos hf]
      constructor
      · rintro ⟨rfl, _⟩
        exact ⟨[], d, ds, rfl, hf, rfl, by simp⟩
      · rintro ⟨b, e, a, h1, h2, rfl, h3⟩
        rcases b with _ | ⟨x, b⟩
        · cases h1; exact ⟨rfl, hj _⟩
        · cases h1
          have := h3 d (by simp)
          rw [hf] at this; cases this
    · rw [if_neg hf, ih]
      constructor
      · rintro ⟨b, e, a, rfl, h2, h3, h4⟩
        refine ⟨d :: b, e, a, rfl, h2, h3, ?_⟩
        intro x hx
        rcases List.mem_cons.1 hx with rfl | hx
        · simpa using hf
        · exact h4 x hx
      · rintro ⟨b, e, a, h1, h2, h3, h4⟩
        rcases b with _ | ⟨x, b⟩
        · cases h1; exact absurd h2 hf
        · cases h1
          exact ⟨b, e, a, rfl, h2, h3, fun y hy => h4 y (by simp [hy])⟩

theorem filter_split_iff {α : Type} (q : α → Bool) (P : α → Prop) (F : α → Prop) (l : List α) :
    (∃ b d a, l.filter q = b ++ d :: a ∧ P d ∧ ∀ e ∈ b, F e) ↔
      ∃ b d a, l = b ++ d :: a ∧ q d = true ∧ P d ∧ ∀ e ∈ b, q e = true → F e := by
  constructor
  · rintro ⟨b, d, a, h1, h2, h3⟩
    obtain ⟨l1, l2, rfl, h4, h5⟩ := List.filter_eq_append_iff.1 h1
    obtain ⟨c1, c2, rfl, h6, h7, h8⟩ := List.filter_eq_cons_iff.1 h5
    refine ⟨l1 ++ c1, d, c2, by simp, h7, h2, ?_⟩
    intro e he hq
    rcases List.mem_append.1 he with he | he
    · exact h3 e (by rw [← h4]; exact List.mem_filter.2 ⟨he, hq⟩)
    · exact absurd hq (h6 e he)
  · rintro ⟨b, d, a, rfl, h2, h3, h4⟩
    exact ⟨b.filter q, d, a.filter q, by simp [h2], h3, fun e he => h4 e (List.mem_filter.1 he).1 (List.mem_filter.1 he).2⟩

/-- C89: the file a plugin name stands for. -/
theorem plugin_found_iff (s : Sys) (name p : Txt) (hj : ∀ d, s.join d name ≠ []) : resolve s name = .ok p ↔ Found s name p := by
  unfold resolve Found
  by_cases ha : s.isAbsolute name = true
  · simp only [ha, if_true, reduceCtorEq, false_and, or_false, true_and]
    by_cases hf : s.fileExists name = true
    · simp [hf, eq_comm]
    · simp [hf]
  · rw [if_neg ha]
    have h1 := searchIn_spec s name hj (searchDirs s) p
    have h2 := filter_split_iff s.dirExists (fun d => s.fileExists (s.join d name) = true ∧ p = s.join d name) (fun e => s.fileExists (s.join e name) = false) (tokens ':' s.env)
    have ha' : s.isAbsolute name = false := by simpa using ha
    simp only [ha', true_and, Bool.false_eq_true, false_and, false_or]
    rw [searchDirs] at h1
    simp only [and_assoc] at h2
    rw [← h2, ← h1, searchDirs]
    by_cases he : searchIn s name (List.filter s.dirExists (tokens ':' s.env)) = []
    · rw [if_pos he, he]
      simp only [reduceCtorEq, false_iff, not_and, not_not]
      exact fun h => h.symm
    · rw [if_neg he]
      simp only [Outcome.ok.injEq]
      exact ⟨fun h => ⟨h, by rw [← h]; exact he⟩, fun h => h.1⟩

/-- C89: loading a plugin succeeds exactly if the file is found and is loaded already or can be; afterwards the libraries loaded are those
of before and, unless the linker said it was there, that file; a failure is always an exception. -/
theorem plugin_loaded_iff (s : Sys) (loaded l' : List Txt) (name : Txt) (hj : ∀ d, s.join d name ≠ [])
    (hno : ∀ p l, s.noload p l = true → p ∈ l) :
    (loadPlugin s loaded name = .ok l' ↔ ∃ p, Found s name p ∧ (s.noload p loaded = true ∨ s.dlopen p = true) ∧
      p ∈ l' ∧ (∀ q, q ∈ l' ↔ q = p ∨ q ∈ loaded) ∧ (p ∈ loaded → l' = loaded) ∧ (p ∉ loaded → l' = p :: loaded)) ∧
    loadPlugin s loaded name ≠ .ub := by
  constructor
  · unfold loadPlugin
    rw [Outcome.bind_eq_ok]
    simp only [plugin_found_iff s name _ hj]
    constructor
    · rintro ⟨p, h1, h2⟩
      refine ⟨p, h1, ?_⟩
      split at h2
      · rename_i hn
        cases h2
        have := hno _ _ hn
        exact ⟨Or.inl hn, this, fun q => ⟨Or.inr, fun h => h.elim (fun e => e ▸ this) id⟩, fun _ => rfl, fun h => absurd this h⟩
      · split at h2
        · rename_i hd
          by_cases hm : p ∈ loaded
          · rw [if_pos hm] at h2; cases h2
            exact ⟨Or.inr hd, hm, fun q => ⟨Or.inr, fun h => h.elim (fun e => e ▸ hm) id⟩, fun _ => rfl, fun h => absurd hm h⟩
          · rw [if_neg hm] at h2; cases h2
            exact ⟨Or.inr hd, by simp, fun q => by simp, fun h => absurd h hm, fun _ => rfl⟩
        · cases h2
    · rintro ⟨p, h1, h2, _, _, h3, h4⟩
      refine ⟨p, h1, ?_⟩
      by_cases hn : s.noload p loaded = true
      · rw [if_pos hn, h3 (hno _ _ hn)]
      · rw [if_neg hn, if_pos (h2.resolve_left hn)]
        by_cases hm : p ∈ loaded
        · rw [if_pos hm, h3 hm]
        · rw [if_neg hm, h4 hm]
  · intro h
    unfold loadPlugin resolve at h
    rw [Outcome.bind_eq_ub] at h
    rcases h with h | ⟨p, _, h⟩
    · split at h <;> split at h <;> cases h
    · split at h
      · cases h
      · split at h <;> cases h

/-- C89: loading the same plugin again changes nothing, whatever the linker answers to the question whether it is there. -/
theorem plugin_again (s : Sys) (loaded l' : List Txt) (name : Txt) (hj : ∀ d, s.join d name ≠ [])
    (hno : ∀ p l, s.noload p l = true → p ∈ l) (hre : ∀ p l, s.noload p l = true → s.dlopen p = true)
    (h : loadPlugin s loaded name = .ok l') : loadPlugin s l' name = .ok l' := by
  obtain ⟨p, h1, h2, h3, _, _, _⟩ := (plugin_loaded_iff s loaded l' name hj hno).1.1 h
  have hd : s.dlopen p = true := h2.elim (hre p loaded) id
  exact (plugin_loaded_iff s l' l' name hj hno).1.2 ⟨p, h1, Or.inr hd, h3, fun q => ⟨Or.inr, fun e => e.elim (fun e => e ▸ h3) id⟩, fun _ => rfl, fun h => absurd h3 h⟩

def demoSys : Sys where
  env := "/a::/b:/c".toList
  dirExists := fun d => d == "/b".toList || d == "/c".toList
  fileExists := fun f => f == "/a/x.so".toList || f == "/b/y.so".toList || f == "/c/x.so".toList || f == "/c/y.so".toList
  isAbsolute := fun n => n.head? == some '/'
  join := fun d n => d ++ '/' :: n
  noload := fun _ _ => false
  dlopen := fun _ => true
example : resolve demoSys "x.so".toList = .ok "/c/x.so".toList ∧ resolve demoSys "y.so".toList = .ok "/b/y.so".toList := by decide +kernel
example : (resolve demoSys "z.so".toList).isThrow = true ∧ (resolve demoSys "/z.so".toList).isThrow = true ∧
    loadPlugin demoSys [] "/a/x.so".toList = .ok ["/a/x.so".toList] := by decide +kernel
example : (∀ d, demoSys.join d "x.so".toList ≠ []) ∧ ∀ p l, demoSys.noload p l = true → p ∈ l := by
  constructor
  · intro d h
    exact List.append_ne_nil_of_right_ne_nil d (List.cons_ne_nil '/' "x.so".toList) h
  · intro p l h
    exact absurd h Bool.false_ne_true

/-! ### C90 -/

/-- C90: the check of a cloud says yes exactly if each channel it has is as long as the cloud; an XYZIRT channel that is empty counts as
one it has not, also if the cloud has points.
Part of C90: the exact condition, which lets an XYZIRT cloud with empty channels pass. -/
theorem sanity_iff_partial : (∀ n, sane (.plain n) = true) ∧ (∀ n i, sane (.xyzi n i) = true ↔ i = n) ∧
    (∀ n i r t, sane (.xyzirt n i r t) = true ↔ (i = 0 ∨ i = n) ∧ (r = 0 ∨ r = n) ∧ (t = 0 ∨ t = n)) := by
  refine ⟨fun _ => rfl, fun n i => by simp [sane], fun n i r t => ?_⟩
  simp only [sane, Bool.and_eq_true, Bool.not_eq_true', Bool.and_eq_false_iff, bne_eq_false_iff_eq]
  tauto

/-- C90: a text file is loaded if it exists and has at least two points, compressed or not; a file with one point is refused. -/
theorem xyz_loaded_iff {K B : Type} (exist gz : Bool) (raw : B) (gunzip : B → B) (parse : B → List (P3 K)) (pts : List (P3 K)) :
    (loadXyz exist gz raw gunzip parse = .ok pts ↔
      exist = true ∧ 2 ≤ pts.length ∧ (gz = true → pts = parse (gunzip raw)) ∧ (gz = false → pts = parse raw)) ∧
    ((parse (if gz then gunzip raw else raw)).length ≤ 1 → loadXyz exist gz raw gunzip parse = .throw) := by
  unfold loadXyz
  cases exist
  · simp
  · simp only [Bool.true_eq_false, if_false, true_and]
    constructor
    · cases gz <;> simp <;> constructor
      · intro h; split at h
        · cases h; exact ⟨by assumption, rfl⟩
        · cases h
      · rintro ⟨h, rfl⟩; rw [if_pos (by omega)]
      · intro h; split at h
        · cases h; exact ⟨by assumption, rfl⟩
        · cases h
      · rintro ⟨h, rfl⟩; rw [if_pos (by omega)]
    · intro h; rw [if_neg (by omega)]

/-- C90: a layer as a point cloud: only clouds, by name; voxel maps are not taken here, though the conversion of maps to clouds takes them. -/
theorem point_layer_iff {K : Type} (m : UMap K) (name : String) :
    (∀ p, pointLayer m name = .ok (some p) ↔ ∃ t, m.layers.get name = some (some (.cloud p t))) ∧
    (pointLayer m name = .ok none ↔ m.layers.get name = some none) ∧
    (pointLayer m name = .throw ↔ m.layers.get name = none ∨ ∃ l, m.layers.get name = some (some l) ∧ ∀ p t, l ≠ .cloud p t) := by
  unfold pointLayer
  rcases m.layers.get name with _ | _ | (_ | _ | _ | _) <;> simp

theorem map_to_points_iff {K : Type} (l : Layer K) (p : List (P3 K)) :
    mapToPoints l = some p ↔ (∃ t, l = .cloud p t) ∨ (∃ a t, l = .voxels a p t) ∨ ∃ a t, l = .voxelsRGB a p t := by
  rcases l with _ | _ | _ | _ <;> simp [mapToPoints, eq_comm]

theorem map_to_interface {M I : Type} (cast : M → Option I) (m : M) (b : Bool) :
    (∀ i, mapTo cast m b = .ok (some i) ↔ cast m = some i) ∧ (mapTo cast m b = .ok none ↔ cast m = none ∧ b = false) ∧
    (mapTo cast m b = .throw ↔ cast m = none ∧ b = true) := by
  unfold mapTo
  rcases cast m with _ | i <;> cases b <;> simp

theorem count_spec {K : Type} : ∀ (ls : List (String × Option (Layer K))) (p v : Nat) (o : Bool),
    (∀ r, count ls p v o = .ok r ↔ (∀ e ∈ ls, e.2 ≠ none) ∧ r.1 = p + nPoints ls ∧ r.2.1 = v + nVoxels ls ∧ (r.2.2 = true ↔ o = true ∨ HasOther ls))
  | [], p, v, o, ⟨a, b, c⟩ => by
    simp only [count, Outcome.ok.injEq, Prod.mk.injEq, List.not_mem_nil, false_implies, implies_true, true_and, nPoints, nVoxels, HasOther, List.map_nil, List.sum_nil,
      Nat.add_zero, false_and, exists_false, or_false]
    cases o <;> cases c <;> simp [eq_comm]
  | (n, l) :: ls, p, v, o, ⟨a, b, c⟩ => by
    have key : HasOther ((n, l) :: ls) ↔ ((∃ a o t, l = some (.voxelsRGB a o t)) ∨ ∃ t, l = some (.other t)) ∨ HasOther ls := by
      simp [HasOther]
    have kp : nPoints ((n, l) :: ls) = nPoints [(n, l)] + nPoints ls := by simp [nPoints]
    have kv : nVoxels ((n, l) :: ls) = nVoxels [(n, l)] + nVoxels ls := by simp [nVoxels]
    rw [key, kp, kv]
    rcases l with _ | (pts | _ | _ | _)
    · simp [count]
    all_goals
      rw [count, count_spec ls _ _ _ ⟨a, b, c⟩]
      simp [nPoints, nVoxels, Nat.add_assoc]

theorem append_pieces_aux (l : List Txt) (s : Txt) (hl : ∀ x ∈ l, x ≠ []) :
    append (List.intercalate ", ".toList l) s = List.intercalate ", ".toList (l ++ [s]) := by
  unfold append
  rcases l with _ | ⟨x, l⟩
  · simp
  · have hne : List.intercalate ", ".toList (x :: l) ≠ [] := by
      have := hl x (by simp)
      intro h
      rcases l with _ | ⟨y, l⟩
      · simp at h; exact this h
      · simp at h
    rw [if_pos hne]
    clear hl hne
    induction l generalizing x with
    | nil => simp
    | cons y l ih =>
      have := ih y
      rw [List.cons_append, List.cons_append, List.intercalate_cons_cons, List.intercalate_cons_cons, ← List.cons_append, ← this]
      simp

/-- C90: a map is empty if it has neither layers nor lines nor planes. -/
theorem umap_empty_iff {K : Type} (m : UMap K) : isEmpty m = true ↔ m.layers = [] ∧ m.lines = 0 ∧ m.planes = 0 := by
  simp only [isEmpty, Bool.and_eq_true, List.isEmpty_iff, beq_iff_eq, and_assoc]

open Classical in
/-- C90: the summary of a map: of an empty one, the header and "empty"; otherwise the pieces, separated by commas, with the total numbers of
points of its clouds and of cells of its occupancy voxel maps; a null layer is an exception. -/
theorem summary_result {K : Type} (f : Fmt) (m : UMap K) :
    (isEmpty m = true → summary f m = .ok (header m ++ "empty".toList)) ∧
    (isEmpty m = false → (∀ e ∈ m.layers, e.2 ≠ none) → summary f m = .ok (List.intercalate ", ".toList (pieces f m))) ∧
    (isEmpty m = false → (∃ e ∈ m.layers, e.2 = none) → summary f m = .throw) := by
  refine ⟨fun h => by simp [summary, h], ?_, ?_⟩
  · intro he hn
    obtain ⟨⟨a, b, c⟩, hc⟩ : ∃ r, count m.layers 0 0 false = .ok r :=
      ⟨(nPoints m.layers, nVoxels m.layers, decide (HasOther m.layers)), (count_spec _ _ _ _ _).2 ⟨hn, by simp, by simp, by simp⟩⟩
    have h1 := (count_spec _ _ _ _ _).1 hc
    simp only [Nat.zero_add, Bool.false_eq_true, false_or] at h1
    obtain ⟨_, rfl, rfl, ho⟩ := h1
    unfold summary
    simp only [he, Bool.false_eq_true, if_false, hc, Outcome.bind, Outcome.ok.injEq]
    let l0 : List Txt := if header m = [] then [] else [header m]
    have e0 : header m = List.intercalate ", ".toList l0 := by
      simp only [l0]; split <;> simp [*]
    have n0 : ∀ x ∈ l0, x ≠ [] := by
      intro x hx; simp only [l0] at hx; split at hx
      · cases hx
      · simp at hx; subst hx; assumption
    let l1 : List Txt := l0 ++ (if m.lines = 0 then [] else [f.dec m.lines ++ " lines".toList])
    have e1 : (if m.lines ≠ 0 then append (header m) (f.dec m.lines ++ " lines".toList) else header m) = List.intercalate ", ".toList l1 := by
      simp only [l1]
      by_cases h : m.lines = 0
      · simp only [h, ne_eq, not_true_eq_false, if_false, if_true, List.append_nil]; exact e0
      · simp only [h, ne_eq, not_false_eq_true, if_true, if_false]
        rw [e0, append_pieces_aux _ _ n0]
    have n1 : ∀ x ∈ l1, x ≠ [] := by
      intro x hx; rcases List.mem_append.1 hx with hx | hx
      · exact n0 x hx
      · split at hx
        · cases hx
        · simp only [List.mem_singleton] at hx; subst hx; simp
    let l2 : List Txt := l1 ++ (if m.planes = 0 then [] else [f.dec m.planes ++ " planes".toList])
    rw [e1]
    have e2 : (if m.planes ≠ 0 then append (List.intercalate ", ".toList l1) (f.dec m.planes ++ " planes".toList) else List.intercalate ", ".toList l1) = List.intercalate ", ".toList l2 := by
      simp only [l2]
      by_cases h : m.planes = 0
      · simp only [h, ne_eq, not_true_eq_false, if_false, if_true, List.append_nil]
      · simp only [h, ne_eq, not_false_eq_true, if_true, if_false]
        rw [append_pieces_aux _ _ n1]
    have n2 : ∀ x ∈ l2, x ≠ [] := by
      intro x hx; rcases List.mem_append.1 hx with hx | hx
      · exact n1 x hx
      · split at hx
        · cases hx
        · simp only [List.mem_singleton] at hx; subst hx; simp
    rw [e2]
    let l3 : List Txt := l2 ++ (if nPoints m.layers = 0 ∧ nVoxels m.layers = 0 ∧ ¬ HasOther m.layers then [] else [layersPiece f m (nPoints m.layers) (nVoxels m.layers)])
    have e3 : (if nPoints m.layers ≠ 0 ∨ nVoxels m.layers ≠ 0 ∨ c = true then append (List.intercalate ", ".toList l2) (layersPiece f m (nPoints m.layers) (nVoxels m.layers)) else List.intercalate ", ".toList l2) = List.intercalate ", ".toList l3 := by
      simp only [l3, ho]
      by_cases h : nPoints m.layers = 0 ∧ nVoxels m.layers = 0 ∧ ¬ HasOther m.layers
      · rw [if_pos h, if_neg (by tauto), List.append_nil]
      · rw [if_neg h, if_pos (by tauto), append_pieces_aux _ _ n2]
    have n3 : ∀ x ∈ l3, x ≠ [] := by
      intro x hx; rcases List.mem_append.1 hx with hx | hx
      · exact n2 x hx
      · split at hx
        · cases hx
        · simp only [List.mem_singleton] at hx; subst hx; simp [layersPiece]
    rw [e3]
    have hp : pieces f m = l3 ++ (match m.metadata with
      | some t => ["metadata: '".toList ++ t ++ "' ".toList]
      | none => []) := rfl
    rw [hp]
    rcases m.metadata with _ | t
    · simp
    · exact append_pieces_aux _ _ n3
  · rintro he ⟨e, h1, h2⟩
    have : count m.layers 0 0 false = .throw := by
      rcases hc : count m.layers 0 0 false with r | _ | _
      · exact absurd h2 (((count_spec _ _ _ _ _).1 hc).1 e h1)
      · rfl
      · exfalso
        have : ∀ (ls : List (String × Option (Layer K))) p v o, count ls p v o ≠ .ub := by
          intro ls; induction ls with
          | nil => intro p v o; simp [count]
          | cons x ls ih => intro p v o; obtain ⟨n, l⟩ := x; rcases l with _ | (_ | _ | _ | _) <;> simp [count, ih]
        exact this _ _ _ _ hc
    simp [summary, he, this]

/-- C90 (finding): a map whose layers are all empty clouds is not empty, yet its summary does not mention its layers: with nothing else in the map, it
is the empty text. -/
theorem summary_blank {K : Type} (f : Fmt) (names : List (String × Txt)) (h : names ≠ []) :
    isEmpty ({ layers := names.map fun e => (e.1, some (.cloud [] e.2)) } : UMap K) = false ∧
    summary f ({ layers := names.map fun e => (e.1, some (.cloud [] e.2)) } : UMap K) = .ok [] := by
  have he : isEmpty ({ layers := names.map fun e => (e.1, some (.cloud [] e.2)) } : UMap K) = false := by
    simp [isEmpty, h]
  refine ⟨he, ?_⟩
  rw [(summary_result f _).2.1 he (by intro e hx; obtain ⟨y, _, rfl⟩ := List.mem_map.1 hx; simp)]
  have h1 : nPoints (names.map fun e => (e.1, some (Layer.cloud ([] : List (P3 K)) e.2))) = 0 := by
    simp [nPoints, Function.comp_def]
  have h2 : nVoxels (names.map fun e => (e.1, some (Layer.cloud ([] : List (P3 K)) e.2))) = 0 := by
    simp [nVoxels, Function.comp_def]
  have h3 : ¬ HasOther (names.map fun e => (e.1, some (Layer.cloud ([] : List (P3 K)) e.2))) := by
    simp [HasOther]
  simp [pieces, header, h1, h2, h3]

def demoFmt : Fmt := ⟨fun n => (toString n).toList, fun n => (toString n).toList⟩
def demoMap : UMap ℚ :=
  { id := some "3".toList, lines := 2, layers := [("a", some (.cloud [⟨0, 0, 0⟩, ⟨1, 0, 0⟩] "c".toList)), ("b", some (.voxels 5 [] "v".toList)), ("c", some (.voxelsRGB 7 [] "r".toList))]
    metadata := some "k: 1".toList }
example : summary demoFmt demoMap = .ok "id=3 , 2 lines, 2 points, 5 voxels in 3 layers (\"a\":c \"b\":v \"c\":r ), metadata: 'k: 1' ".toList := by decide +kernel
example : (summary demoFmt ({ layers := [("a", none)] } : UMap ℚ)).isThrow = true := by decide +kernel
example : summary demoFmt ({ metadata := some "k: 1".toList, label := some "x".toList } : UMap ℚ) = .ok "label='x' empty".toList := by decide +kernel

end Verif.MapUtil
