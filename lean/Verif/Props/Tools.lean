import Mathlib.Algebra.Order.Ring.Rat
import Mathlib.Data.Rat.Floor
import Mathlib.Data.List.Basic
import Mathlib.Algebra.Group.Action.Defs
import Verif.Lemmas.AMap
import Verif.Spec.Tools
import Verif.Props.Sm2mm
/-
C58, C60, C66: the command-line tools.
-/
set_option linter.unusedSectionVars false
namespace Verif
namespace Props
open Tool
section
variable {P S T G : Type}

/-! ### cut -/

theorem cutLoop_eq (sm : List (Key P S T)) (k i : Nat) (out : List (Key P S T)) (h : i + k ≤ sm.length) :
    cutLoop sm k i out = .ok (out ++ (sm.drop i).take k) := by
  induction k generalizing i out with
  | zero => simp [cutLoop]
  | succ k ih =>
    have hi : i < sm.length := by omega
    rw [cutLoop, List.getElem?_eq_getElem hi]
    simp only []
    rw [ih (i + 1) _ (by omega), List.drop_eq_getElem_cons hi, List.take_succ_cons]
    simp

/-- `cut` keeps exactly the keyframes with index `first..last`, in order (none if `last < first`), and refuses indices out of range. -/
theorem cut_result (sm : List (Key P S T)) (first last : Nat) :
    cut sm first last =
      if first < sm.length ∧ last < sm.length then
        .ok ((sm.zipIdx.filter fun p => decide (first ≤ p.2) && decide (p.2 ≤ last)).map Prod.fst)
      else .throw := by
  unfold cut
  by_cases h1 : first < sm.length
  · by_cases h2 : last < sm.length
    · rw [if_pos ⟨h1, h2⟩]
      simp only [Outcome.assert, h1, h2, if_true, Outcome.bind]
      by_cases h3 : first ≤ last + 1
      · rw [cutLoop_eq _ _ _ _ (by omega), List.nil_append, ← filter_zipIdx_eq sm first (last + 1) 0 h3]
        congr 2
        apply List.filter_congr
        intro p _
        congr 1
        · exact decide_eq_decide.2 (by omega)
        · exact decide_eq_decide.2 (by omega)
      · rw [Nat.sub_eq_zero_of_le (by omega), cutLoop]
        congr 1
        rw [eq_comm, List.map_eq_nil_iff, List.filter_eq_nil_iff]
        intro p _
        simp only [Bool.and_eq_true, decide_eq_true_eq]; omega
    · rw [if_neg (fun h => h2 h.2)]; simp [Outcome.assert, h1, h2]
  · rw [if_neg (fun h => h1 h.1)]; simp [Outcome.assert, h1]

theorem cut_slice (sm : List (Key P S T)) (first last : Nat) (h1 : first ≤ last) (h2 : last < sm.length) :
    cut sm first last = .ok ((sm.drop first).take (last + 1 - first)) := by
  rw [cut_result, if_pos ⟨by omega, h2⟩]
  congr 1
  rw [← filter_zipIdx_eq sm first (last + 1) 0 (by omega)]
  congr 1
  apply List.filter_congr
  intro p _
  congr 1
  · exact decide_eq_decide.2 (by omega)
  · exact decide_eq_decide.2 (by omega)

/-! ### join -/

theorem joinOne_eq (out sm : List (Key P S T)) : joinOne out sm = out ++ sm := by
  unfold joinOne
  induction sm generalizing out with
  | nil => simp
  | cons a sm ih => rw [List.foldl_cons, ih]; simp

/-- `join` concatenates the maps in the order of the arguments. -/
theorem join_result (files : List (List (Key P S T))) : join [] (files.map some) = .ok files.flatten := by
  have : ∀ out : List (Key P S T), join out (files.map some) = .ok (out ++ files.flatten) := by
    induction files with
    | nil => intro out; simp [join]
    | cons f files ih => intro out; rw [List.map_cons, join, ih, joinOne_eq]; simp
  simpa using this []

/-- If one of the files cannot be read, nothing is written. -/
theorem join_unreadable (files : List (Option (List (Key P S T)))) (h : none ∈ files) (out : List (Key P S T)) :
    join out files = .throw := by
  induction files generalizing out with
  | nil => cases h
  | cons f files ih =>
    cases f with
    | none => rfl
    | some sm => rw [join]; exact ih (by simpa using h) _

/-- Cutting a map in two at any place and joining the parts gives the map back. -/
theorem cut_join (sm : List (Key P S T)) (k : Nat) (hk : k + 1 < sm.length) :
    ∃ a b, cut sm 0 k = .ok a ∧ cut sm (k + 1) (sm.length - 1) = .ok b ∧ join [] [some a, some b] = .ok sm := by
  refine ⟨_, _, cut_slice sm 0 k (by omega) (by omega), cut_slice sm (k + 1) (sm.length - 1) (by omega) (by omega), ?_⟩
  have := join_result [(sm.drop 0).take (k + 1 - 0), (sm.drop (k + 1)).take (sm.length - 1 + 1 - (k + 1))]
  rw [List.map_cons, List.map_cons, List.map_nil] at this
  rw [this]
  congr 1
  rw [List.flatten_cons, List.flatten_cons, List.flatten_nil, List.append_nil, List.drop_zero, Nat.sub_zero]
  rw [List.take_of_length_le (l := sm.drop (k + 1)) (by rw [List.length_drop]; omega), List.take_append_drop]

/-! ### trim -/

/-- `trim` keeps exactly the keyframes whose mean position is in the box, unchanged and in order. -/
theorem trim_result (inside : P → Bool) (sm : List (Key P S T)) (h : ∀ kf ∈ sm, kf.pose.isSome = true) :
    trim inside sm = .ok (sm.filter fun kf => kf.pose.any inside) := by
  have : ∀ out : List (Key P S T), foldOutcome (trimStep inside) out sm = .ok (out ++ sm.filter fun kf => kf.pose.any inside) := by
    induction sm with
    | nil => intro out; simp [foldOutcome]
    | cons kf sm ih =>
      intro out
      obtain ⟨p, hp⟩ := Option.isSome_iff_exists.1 (h kf (by simp))
      have ih := ih (fun k hk => h k (by simp [hk]))
      rcases kf with ⟨pose, sf, tw⟩
      simp only at hp; subst hp
      by_cases hi : inside p = true
      · simp only [foldOutcome, trimStep, hi, Bool.not_true, Outcome.bind]
        rw [if_neg (by simp)]
        simp only []
        rw [ih, List.filter_cons_of_pos (by simp [hi])]
        simp
      · simp only [foldOutcome, trimStep, hi, Outcome.bind, Bool.not_false, if_true]
        rw [ih, List.filter_cons_of_neg (by simp [hi])]
  simpa [trim] using this []

/-- A keyframe without pose is an error. -/
theorem trim_null (inside : P → Bool) (sm : List (Key P S T)) (h : ∃ kf ∈ sm, kf.pose = none) : trim inside sm = .throw := by
  have : ∀ out : List (Key P S T), foldOutcome (trimStep inside) out sm = .throw := by
    induction sm with
    | nil => obtain ⟨kf, hk, -⟩ := h; cases hk
    | cons a sm ih =>
      intro out
      cases hp : a.pose with
      | none => simp [foldOutcome, trimStep, hp]
      | some p =>
        obtain ⟨kf, hk, hn⟩ := h
        have hk' : kf ∈ sm := by
          rcases List.mem_cons.1 hk with rfl | hk
          · rw [hp] at hn; cases hn
          · exact hk
        simp only [foldOutcome, trimStep, hp]
        split <;> exact ih ⟨kf, hk', hn⟩ _
  exact this []

/-- Trimming twice is trimming to the intersection. -/
theorem trim_trim (a b : P → Bool) (sm : List (Key P S T)) (h : ∀ kf ∈ sm, kf.pose.isSome = true) :
    (trim a sm).bind (trim b) = trim (fun p => a p && b p) sm := by
  rw [trim_result a sm h]
  simp only [Outcome.bind]
  rw [trim_result b _ (fun kf hk => h kf (List.mem_of_mem_filter hk)), trim_result _ _ h, List.filter_filter]
  congr 1
  apply List.filter_congr
  intro kf _
  cases kf.pose <;> simp [Bool.and_comm]

/-! ### tf, level -/

theorem tfFold_eq [SMul G P] (g : G) (sm : List (Key P S T)) (h : ∀ kf ∈ sm, kf.pose.isSome = true) (out : List (Key P S T)) :
    foldOutcome (tfStep g) out sm = .ok (out ++ sm.map (moveKey g)) := by
  induction sm generalizing out with
  | nil => simp [foldOutcome]
  | cons kf sm ih =>
    obtain ⟨p, hp⟩ := Option.isSome_iff_exists.1 (h kf (by simp))
    simp only [foldOutcome, tfStep, hp, Outcome.bind]
    rw [ih (fun k hk => h k (by simp [hk]))]
    simp [moveKey, hp]

/-- `tf` moves each keyframe, and changes nothing else; an empty map is refused. -/
theorem tf_result [SMul G P] (g : G) (sm : List (Key P S T)) (h : ∀ kf ∈ sm, kf.pose.isSome = true) :
    tf g sm = if sm = [] then .throw else .ok (sm.map (moveKey g)) := by
  unfold tf
  by_cases h0 : sm = []
  · simp [h0]
  · rw [Outcome.assert_true h0, if_neg h0]
    simp only [Outcome.bind]
    rw [tfFold_eq g sm h]; simp

/-- A keyframe without pose is dereferenced (`trim` checks, `tf` does not). -/
theorem tf_null_ub [SMul G P] (g : G) (sm : List (Key P S T)) (h : ∃ kf ∈ sm, kf.pose = none) : tf g sm = .ub := by
  have hne : sm ≠ [] := by rintro rfl; obtain ⟨kf, hk, -⟩ := h; cases hk
  have : ∀ out : List (Key P S T), foldOutcome (tfStep g) out sm = .ub := by
    clear hne
    induction sm with
    | nil => obtain ⟨kf, hk, -⟩ := h; cases hk
    | cons a sm ih =>
      intro out
      cases hp : a.pose with
      | none => simp [foldOutcome, tfStep, hp]
      | some p =>
        obtain ⟨kf, hk, hn⟩ := h
        have hk' : kf ∈ sm := by
          rcases List.mem_cons.1 hk with rfl | hk
          · rw [hp] at hn; cases hn
          · exact hk
        simp only [foldOutcome, tfStep, hp, Outcome.bind]
        exact ih ⟨kf, hk', hn⟩ _
  unfold tf
  rw [Outcome.assert_true hne]
  exact this []

theorem moveKey_pose [SMul G P] (g : G) (sm : List (Key P S T)) (h : ∀ kf ∈ sm, kf.pose.isSome = true) :
    ∀ kf ∈ sm.map (moveKey g), kf.pose.isSome = true := by
  intro kf hk
  obtain ⟨k, hk', rfl⟩ := List.mem_map.1 hk
  simpa [moveKey] using h k hk'

/-- Two transformations compose as the group does. -/
theorem tf_tf [Monoid G] [MulAction G P] (a b : G) (sm : List (Key P S T)) (h : ∀ kf ∈ sm, kf.pose.isSome = true) :
    (tf a sm).bind (tf b) = tf (b * a) sm := by
  rw [tf_result a sm h, tf_result (b * a) sm h]
  by_cases h0 : sm = []
  · simp [h0]
  · rw [if_neg h0, if_neg h0]
    simp only [Outcome.bind]
    rw [tf_result b _ (moveKey_pose a sm h), if_neg (by simpa using h0), List.map_map]
    congr 1
    apply List.map_congr_left
    intro kf _
    cases hp : kf.pose <;> simp [moveKey, hp, mul_smul]

/-- The inverse transformation undoes it. -/
theorem tf_inverse [Group G] [MulAction G P] (g : G) (sm : List (Key P S T)) (h : ∀ kf ∈ sm, kf.pose.isSome = true) (hne : sm ≠ []) :
    (tf g sm).bind (tf g⁻¹) = .ok sm := by
  rw [tf_tf _ _ _ h, inv_mul_cancel, tf_result _ _ h, if_neg hne]
  congr 1
  conv_rhs => rw [← List.map_id sm]
  apply List.map_congr_left
  intro kf _
  rcases kf with ⟨p, s, t⟩
  cases p <;> simp [moveKey]

/-- Transforming commutes with joining. -/
theorem tf_join [SMul G P] (g : G) (a b : List (Key P S T)) (ha : ∀ kf ∈ a, kf.pose.isSome = true) (hb : ∀ kf ∈ b, kf.pose.isSome = true)
    (hna : a ≠ []) (hnb : b ≠ []) :
    ∃ a' b' c, tf g a = .ok a' ∧ tf g b = .ok b' ∧ join [] [some a, some b] = .ok c ∧ join [] [some a', some b'] = tf g c := by
  refine ⟨a.map (moveKey g), b.map (moveKey g), a ++ b, by rw [tf_result g a ha, if_neg hna], by rw [tf_result g b hb, if_neg hnb], ?_, ?_⟩
  · simpa using join_result [a, b]
  · rw [tf_result g (a ++ b) (fun kf hk => by
      rcases List.mem_append.1 hk with hk | hk
      · exact ha kf hk
      · exact hb kf hk), if_neg (by simp [hna])]
    simpa using join_result [a.map (moveKey g), b.map (moveKey g)]

/-- `level` moves all the keyframes by one and the same motion, found from their poses. -/
theorem level_result [SMul G P] (opt : List P → G) (sm : List (Key P S T)) (h : ∀ kf ∈ sm, kf.pose.isSome = true) (hne : sm ≠ []) :
    level opt sm = .ok (sm.map (moveKey (opt (sm.filterMap (·.pose))))) := by
  have hp : ∀ acc : List P, foldOutcome levelPoses acc sm = .ok (acc ++ sm.filterMap (·.pose)) := by
    clear hne
    induction sm with
    | nil => intro acc; simp [foldOutcome]
    | cons kf sm ih =>
      intro acc
      obtain ⟨p, hp⟩ := Option.isSome_iff_exists.1 (h kf (by simp))
      simp only [foldOutcome, levelPoses, hp, Outcome.bind]
      rw [ih (fun k hk => h k (by simp [hk]))]
      simp [hp]
  unfold level
  rw [Outcome.assert_true hne]
  simp only [Outcome.bind, hp, List.nil_append]
  rw [tfFold_eq _ sm h]; simp
end

/-! ### export -/

section
variable {P T τ : Type} [LinearOrder τ]

theorem firstStamp_spec (l : List (Obs τ)) (t : τ) :
    firstStamp l = some t ↔ ∃ a b, l = a ++ some (some t) :: b ∧ ∀ o ∈ a, o = none ∨ o = some none := by
  induction l with
  | nil => simp [firstStamp]
  | cons o l ih =>
    rcases o with _ | _ | s
    · rw [firstStamp, ih]
      constructor
      · rintro ⟨a, b, rfl, h⟩
        exact ⟨none :: a, b, rfl, fun o ho => by
          rcases List.mem_cons.1 ho with rfl | ho
          · exact Or.inl rfl
          · exact h o ho⟩
      · rintro ⟨a, b, hab, h⟩
        rcases a with _ | ⟨o, a⟩
        · simp at hab
        · simp only [List.cons_append, List.cons.injEq] at hab
          exact ⟨a, b, hab.2, fun o ho => h o (by simp [ho])⟩
    · rw [firstStamp, ih]
      constructor
      · rintro ⟨a, b, rfl, h⟩
        exact ⟨some none :: a, b, rfl, fun o ho => by
          rcases List.mem_cons.1 ho with rfl | ho
          · exact Or.inr rfl
          · exact h o ho⟩
      · rintro ⟨a, b, hab, h⟩
        rcases a with _ | ⟨o, a⟩
        · simp at hab
        · simp only [List.cons_append, List.cons.injEq] at hab
          exact ⟨a, b, hab.2, fun o ho => h o (by simp [ho])⟩
    · rw [firstStamp]
      constructor
      · intro h
        simp only [Option.some.injEq] at h; subst h
        exact ⟨[], l, rfl, by simp⟩
      · rintro ⟨a, b, hab, h⟩
        rcases a with _ | ⟨o, a⟩
        · simp at hab; simp [hab.1]
        · simp only [List.cons_append, List.cons.injEq] at hab
          rcases h o (by simp) with h | h <;> rw [h] at hab <;> simp at hab

/-- A pose is written for each stamp of a keyframe: that of the *last* keyframe with this stamp; the twist file has a line for each
stamped keyframe with a twist; keyframes without stamp are counted. -/
theorem exportKfs_result (sm : List (Key P (List (Obs τ)) T)) (h : ∀ kf ∈ sm, kf.pose.isSome = true ∧ kf.sf.isSome = true) :
    ∃ s, exportKfs sm = .ok s ∧
      (∀ t, AMap.get s.traj t = ((sm.filter fun kf => keyStamp kf = some t).getLast?).bind (·.pose)) ∧
      s.without = (sm.filter fun kf => keyStamp kf = none).length ∧
      s.twists = sm.filterMap fun kf => (keyStamp kf).bind fun t => kf.twist.map fun w => (t, w) := by
  have gen : ∀ s0 : ExpSt τ P T, ∃ s, foldOutcome exportStep s0 sm = .ok s ∧
      (∀ t, AMap.get s.traj t = match (sm.filter fun kf => keyStamp kf = some t).getLast? with
        | some kf => kf.pose
        | none => AMap.get s0.traj t) ∧
      s.without = s0.without + (sm.filter fun kf => keyStamp kf = none).length ∧
      s.twists = s0.twists ++ sm.filterMap fun kf => (keyStamp kf).bind fun t => kf.twist.map fun w => (t, w) := by
    induction sm with
    | nil => intro s0; exact ⟨s0, rfl, by simp, by simp, by simp⟩
    | cons kf sm ih =>
      intro s0
      obtain ⟨h1, h2⟩ := h kf (by simp)
      obtain ⟨p, hp⟩ := Option.isSome_iff_exists.1 h1
      obtain ⟨sf, hsf⟩ := Option.isSome_iff_exists.1 h2
      have ih := ih (fun k hk => h k (by simp [hk]))
      have hk : keyStamp kf = firstStamp sf := by simp [keyStamp, hsf]
      cases ht : firstStamp sf with
      | none =>
        obtain ⟨s, hs, g1, g2, g3⟩ := ih { s0 with without := s0.without + 1 }
        refine ⟨s, by simp only [foldOutcome, exportStep, hp, hsf, ht, Outcome.bind, hs], ?_, ?_, ?_⟩
        · intro t
          rw [g1 t, List.filter_cons_of_neg (by simp [hk, ht])]
        · rw [g2, List.filter_cons_of_pos (by simp [hk, ht])]; simp; omega
        · rw [g3, List.filterMap_cons]; simp [hk, ht]
      | some t0 =>
        obtain ⟨s, hs, g1, g2, g3⟩ := ih { s0 with
          traj := AMap.set s0.traj t0 p
          twists := match kf.twist with
            | some w => s0.twists ++ [(t0, w)]
            | none => s0.twists }
        refine ⟨s, by simp only [foldOutcome, exportStep, hp, hsf, ht, Outcome.bind]; exact hs, ?_, ?_, ?_⟩
        · intro t
          rw [g1 t]
          by_cases htt : t = t0
          · subst htt
            rw [List.filter_cons_of_pos (by simp [hk, ht])]
            cases hl : (sm.filter fun kf => keyStamp kf = some t).getLast? with
            | none =>
              rw [List.getLast?_eq_none_iff] at hl
              rw [hl]; simp [hp]
            | some kf' =>
              have : (sm.filter fun kf => keyStamp kf = some t) ≠ [] := by
                intro h; rw [h] at hl; cases hl
              rw [List.getLast?_cons, hl]; simp
          · rw [List.filter_cons_of_neg (by simpa [hk, ht] using Ne.symm htt)]
            simp [htt]
        · rw [g2, List.filter_cons_of_neg (by simp [hk, ht])]
        · rw [g3, List.filterMap_cons, hk, ht]
          cases kf.twist <;> simp
  obtain ⟨s, hs, g1, g2, g3⟩ := gen {}
  refine ⟨s, hs, ?_, by simpa using g2, by simpa using g3⟩
  intro t
  rw [g1 t]
  cases (sm.filter fun kf => keyStamp kf = some t).getLast? <;> rfl

/-- So, if the stamps differ, each stamped keyframe's pose is there.
Part of C66: keyframes with the same first stamp overwrite each other (`exportKfs_same_stamp_finding`). -/
theorem exportKfs_distinct_partial (sm : List (Key P (List (Obs τ)) T)) (h : ∀ kf ∈ sm, kf.pose.isSome = true ∧ kf.sf.isSome = true)
    (hd : sm.Pairwise fun a b => keyStamp a ≠ keyStamp b ∨ keyStamp a = none) :
    ∃ s, exportKfs sm = .ok s ∧ ∀ kf ∈ sm, ∀ t, keyStamp kf = some t → AMap.get s.traj t = kf.pose := by
  obtain ⟨s, hs, g1, -, -⟩ := exportKfs_result sm h
  refine ⟨s, hs, fun kf hk t ht => ?_⟩
  rw [g1 t]
  have : (sm.filter fun kf => keyStamp kf = some t) = [kf] := by
    clear g1 hs h
    induction sm with
    | nil => cases hk
    | cons a sm ih =>
      rw [List.pairwise_cons] at hd
      rcases List.mem_cons.1 hk with rfl | hk
      · rw [List.filter_cons_of_pos (by simp [ht])]
        congr 1
        rw [List.filter_eq_nil_iff]
        intro b hb hbt
        simp only [decide_eq_true_eq] at hbt
        rcases hd.1 b hb with h | h
        · rw [ht, hbt] at h; exact h rfl
        · rw [ht] at h; cases h
      · have hat : keyStamp a ≠ some t := by
          intro hat
          rcases hd.1 kf hk with h | h
          · rw [ht, hat] at h; exact h rfl
          · rw [hat] at h; cases h
        rw [List.filter_cons_of_neg (by simpa using hat)]
        exact ih hd.2 hk
  rw [this]; rfl

/-- The rawlog has one entry per keyframe, with its observations, pose, twist and stamp. -/
theorem exportRawlog_result (sm : List (Key P (List (Obs τ)) T)) (h : ∀ kf ∈ sm, kf.pose.isSome = true ∧ ∃ sf, kf.sf = some sf ∧ none ∉ sf) :
    ∃ out, exportRawlog sm = .ok out ∧ out.map (fun r => (some r.pose, some r.obs, r.twist, r.stamp)) =
      sm.map fun kf => (kf.pose, kf.sf, kf.twist, keyStamp kf) := by
  have hst : ∀ l : List (Obs τ), none ∉ l → rawStamp l = .ok (firstStamp l) := by
    intro l
    induction l with
    | nil => intro _; rfl
    | cons o l ih =>
      intro hn
      rcases o with _ | _ | t
      · simp at hn
      · exact ih (by simpa using hn)
      · rfl
  have gen : ∀ out0 : List (RawEntry τ P T), ∃ out, foldOutcome rawStep out0 sm = .ok (out0 ++ out) ∧
      out.map (fun r => (some r.pose, some r.obs, r.twist, r.stamp)) = sm.map fun kf => (kf.pose, kf.sf, kf.twist, keyStamp kf) := by
    induction sm with
    | nil => intro out0; exact ⟨[], by simp [foldOutcome], rfl⟩
    | cons kf sm ih =>
      intro out0
      obtain ⟨h1, sf, hsf, hn⟩ := h kf (by simp)
      obtain ⟨p, hp⟩ := Option.isSome_iff_exists.1 h1
      obtain ⟨out, ho, hm⟩ := ih (fun k hk => h k (by simp [hk])) (out0 ++ [⟨sf, p, kf.twist, firstStamp sf⟩])
      refine ⟨⟨sf, p, kf.twist, firstStamp sf⟩ :: out, ?_, ?_⟩
      · simp only [foldOutcome, rawStep, hp, hsf, hst sf hn, Outcome.bind, ho]; simp
      · simp [hm, hp, hsf, keyStamp]
  obtain ⟨out, ho, hm⟩ := gen []
  exact ⟨out, by simpa [exportRawlog] using ho, hm⟩

/-- Two keyframes with one stamp: only the second pose is exported, with two twist lines. -/
theorem exportKfs_same_stamp_finding : (exportKfs (P := Nat) (T := Nat) [⟨some 1, some [none, some (some (5 : Nat))], some 10⟩,
    ⟨some 2, some [some none, some (some 5)], some 20⟩]).Sat fun s => s.traj = [(5, 2)] ∧ s.twists = [(5, 10), (5, 20)] := by
  decide +kernel
/-- A null observation is skipped by `export-keyframes`, and dereferenced by `export-rawlog`. -/
theorem exportRawlog_null_ub : exportRawlog (P := Nat) (T := Nat) [⟨some 1, some [none, some (some (5 : Nat))], none⟩] = .ub :=
  Outcome.eq_ub_of (by decide +kernel)
end

/-! ### txt2mm -/

section
variable {K : Type} [Field K] [LinearOrder K] [FloorRing K]

/-- The `--layer` option has no effect. -/
theorem txt2mm_layer_ignored (o : TxtOpts) (d : Table K) (l : String) : txt2mm { o with layer := l } d = txt2mm o d := by
  have hr : ∀ row, txtRow { o with layer := l } d row = txtRow o d row := fun _ => rfl
  have : ∀ k row out, txtLoop { o with layer := l } d k row out = txtLoop o d k row out := by
    intro k
    induction k with
    | zero => intro row out; rfl
    | succ k ih => intro row out; simp only [txtLoop, hr]; congr 1; funext p; exact ih _ _
  unfold txt2mm
  simp only [this]

/-- Every map written has the one layer "raw". -/
theorem txt2mm_layer_raw (o : TxtOpts) (d : Table K) (m : TxtMap K) (h : txt2mm o d = .ok m) (n : String) :
    (m.layers.get n).isSome = true ↔ n = "raw" := by
  unfold txt2mm at h
  split at h
  · cases h
  · simp only [Outcome.bind_eq_ok] at h
    obtain ⟨-, -, pts, -, h⟩ := h
    simp only [Outcome.ok.injEq] at h; subst h
    simp only [AMap.get_set]
    by_cases hn : n = "raw"
    · simp [hn]
    · simp [hn, AMap.get]

/-- … so a layer asked for under another name is not there. -/
theorem txt2mm_layer_missing (o : TxtOpts) (d : Table K) (m : TxtMap K) (h : txt2mm o d = .ok m) (hl : o.layer ≠ "raw") :
    m.layers.get o.layer = none := by
  have := mt (txt2mm_layer_raw o d m h o.layer).1 hl
  simpa using this

/-- The points of the map: those of the rows, in order. -/
theorem txtLoop_eq (o : TxtOpts) (d : Table K) (k row : Nat) (out pts : List (TPt K)) (h : txtLoop o d k row out = .ok pts) :
    ∃ l, pts = out ++ l ∧ l.length = k ∧ ∀ (j : Nat) p, l[j]? = some p → txtRow o d (row + j) = .ok p := by
  induction k generalizing row out with
  | zero => simp only [txtLoop, Outcome.ok.injEq] at h; exact ⟨[], by simp [h], rfl, by simp⟩
  | succ k ih =>
    simp only [txtLoop, Outcome.bind_eq_ok] at h
    obtain ⟨p, hp, h⟩ := h
    obtain ⟨l, hl, hlen, hj⟩ := ih _ _ h
    refine ⟨p :: l, by rw [hl]; simp, by simp [hlen], ?_⟩
    intro j q hq
    cases j with
    | zero => simp only [List.getElem?_cons_zero, Option.some.injEq] at hq; subst hq; exact hp
    | succ j =>
      rw [List.getElem?_cons_succ] at hq
      rw [show row + (j + 1) = row + 1 + j by omega]
      exact hj j q hq

/-- an access within the table -/
theorem table_at (d : Table K) (hd : d.data.length = d.rows * d.cols) (hs : d.rows * d.cols < 2 ^ 64) (row : Nat) (col : Int)
    (hr : row < d.rows) (h0 : 0 ≤ col) (hc : col < d.cols) :
    ∃ v, d.data[row * d.cols + col.toNat]? = some v ∧ d.at row col = .ok v := by
  have hidx : row * d.cols + col.toNat < d.rows * d.cols := by
    have h1 : (row + 1) * d.cols ≤ d.rows * d.cols := Nat.mul_le_mul_right _ hr
    have h2 : (row + 1) * d.cols = row * d.cols + d.cols := Nat.succ_mul _ _
    omega
  have hmod : (((row : Int) * d.cols + col) % 2 ^ 64).toNat = row * d.cols + col.toNat := by
    have h1 : ((row : Int) * d.cols + col) = ((row * d.cols + col.toNat : Nat) : Int) := by
      push_cast; omega
    rw [h1]
    omega
  refine ⟨d.data[row * d.cols + col.toNat]'(by omega), List.getElem?_eq_getElem _, ?_⟩
  unfold Table.at
  rw [hmod, List.getElem?_eq_getElem (by omega)]

/-- `u8tof` on its domain -/
theorem u8tof_ok [IsStrictOrderedRing K] (v : K) (h : -1 < v ∧ v < 256) : ∃ c, u8tof v = .ok c ∧ Shade v c := by
  refine ⟨(Vox.truncZ v : K) / 255, by simp [u8tof, h], ?_⟩
  have h255 : (255 : K) ≠ 0 := by norm_num
  unfold Vox.truncZ
  split_ifs with h0
  · have hz : (0 : ℤ) ≤ ⌊v⌋ := Int.floor_nonneg.2 h0
    have hcast : ((⌊v⌋.toNat : ℕ) : K) = (⌊v⌋ : K) := by
      have : ((⌊v⌋.toNat : ℕ) : ℤ) = ⌊v⌋ := Int.toNat_of_nonneg hz
      exact_mod_cast this
    have hlt : ⌊v⌋ < 256 := Int.floor_lt.2 (by exact_mod_cast h.2)
    refine ⟨⌊v⌋.toNat, by omega, ?_, Or.inl ⟨?_, ?_⟩⟩
    · rw [hcast]; field_simp
    · rw [hcast]; exact Int.floor_le v
    · rw [hcast]; exact Int.lt_floor_add_one v
  · have hc : ⌈v⌉ = 0 := by
      rw [Int.ceil_eq_iff]; constructor
      · push_cast; linarith [h.1]
      · push_cast; exact (not_le.1 h0).le
    exact ⟨0, by omega, by rw [hc]; simp, Or.inr ⟨rfl, h.1, not_le.1 h0⟩⟩

/-- For every format, with the columns within the table: one point per row, in order, with the coordinates of the columns `x, x+1,
x+2`, the intensity of its column, the colours of the columns 3 to 5 (for xyzrgb: if they can be bytes); id and label as given.
Part of C60: rings and times of xyzirt are not taken, and the layer is always "raw". -/
theorem txt2mm_result_partial [IsStrictOrderedRing K] (o : TxtOpts) (d : Table K)
    (hf : o.format ∈ ["xyz", "xyzi", "xyzirt", "xyzrgb", "xyzrgb_normalized"])
    (hd : d.data.length = d.rows * d.cols) (hs : d.rows * d.cols < 2 ^ 64)
    (hc : (if o.format = "xyz" then 3 else if o.format = "xyzi" then 4 else 6) ≤ d.cols) (hx : o.ColsIn d)
    (hb : o.format = "xyzrgb" → ∀ row < d.rows, ∀ col, 3 ≤ col → col ≤ 5 → ∀ v, d.cell row col = some v → -1 < v ∧ v < 256) :
    ∃ m pts, txt2mm o d = .ok m ∧ m.layers.get "raw" = some pts ∧ m.id = o.id ∧ m.label = o.label ∧ pts.length = d.rows ∧
      ∀ (row : Nat) p, pts[row]? = some p → RowPoint o d row p := by
  obtain ⟨hx0, hx2, hi, hrt⟩ := hx
  unfold Table.HasCol at *
  have hrow : ∀ row, row < d.rows → ∃ p, txtRow o d row = .ok p ∧ RowPoint o d row p := by
    intro row hr
    obtain ⟨x, hx1, hx2⟩ := table_at d hd hs row o.colX hr hx0.1 (by omega)
    obtain ⟨y, hy1, hy2⟩ := table_at d hd hs row (o.colX + 1) hr (by omega) (by omega)
    obtain ⟨z, hz1, hz2⟩ := table_at d hd hs row (o.colX + 2) hr (by omega) (by omega)
    simp only [List.mem_cons, List.not_mem_nil, or_false] at hf
    rcases hf with hf | hf | hf | hf | hf
    · exact ⟨{ x := x, y := y, z := z }, by simp [txtRow, hx2, hy2, hz2, hf], hx1, hy1, hz1, by simp [hf], by simp, rfl, rfl,
        by simp [hf], by simp [hf], by simp⟩
    · obtain ⟨h0, h1⟩ := hi (Or.inl hf)
      obtain ⟨i, hi1, hi2⟩ := table_at d hd hs row o.colI hr h0 h1
      exact ⟨{ x := x, y := y, z := z, i := some i }, by simp [txtRow, hx2, hy2, hz2, hf, hi2], hx1, hy1, hz1,
        fun _ => ⟨i, hi1, rfl⟩, fun h => absurd (Or.inl hf) h, rfl, rfl, by simp [hf], by simp [hf], by simp⟩
    · obtain ⟨h0, h1⟩ := hi (Or.inr hf)
      obtain ⟨⟨hr0, hr1⟩, ht0, ht1⟩ := hrt hf
      obtain ⟨i, hi1, hi2⟩ := table_at d hd hs row o.colI hr h0 h1
      obtain ⟨r, -, hr2⟩ := table_at d hd hs row o.colR hr hr0 hr1
      obtain ⟨t, -, ht2⟩ := table_at d hd hs row o.colT hr ht0 ht1
      exact ⟨{ x := x, y := y, z := z, i := some i }, by simp [txtRow, hx2, hy2, hz2, hf, hi2, hr2, ht2], hx1, hy1, hz1,
        fun _ => ⟨i, hi1, rfl⟩, fun h => absurd (Or.inr hf) h, rfl, rfl, by simp [hf], by simp [hf], by simp⟩
    · have h6 : 6 ≤ d.cols := by simpa [hf] using hc
      obtain ⟨r, hr1, hr2⟩ := table_at d hd hs row 3 hr (by omega) (by omega)
      obtain ⟨g, hg1, hg2⟩ := table_at d hd hs row 4 hr (by omega) (by omega)
      obtain ⟨b, hb1, hb2⟩ := table_at d hd hs row 5 hr (by omega) (by omega)
      obtain ⟨r', hr3, hr4⟩ := u8tof_ok r (hb hf row hr 3 (by omega) (by omega) r hr1)
      obtain ⟨g', hg3, hg4⟩ := u8tof_ok g (hb hf row hr 4 (by omega) (by omega) g hg1)
      obtain ⟨b', hb3, hb4⟩ := u8tof_ok b (hb hf row hr 5 (by omega) (by omega) b hb1)
      exact ⟨{ x := x, y := y, z := z, rgb := some (r', g', b') },
        by simp [txtRow, hx2, hy2, hz2, hf, hr2, hg2, hb2, hr3, hg3, hb3], hx1, hy1, hz1, by simp [hf], by simp, rfl, rfl, by simp [hf],
        fun _ => ⟨r, g, b, r', g', b', hr1, hg1, hb1, hr4, hg4, hb4, rfl⟩, by simp [hf]⟩
    · have h6 : 6 ≤ d.cols := by simpa [hf] using hc
      obtain ⟨r, hr1, hr2⟩ := table_at d hd hs row 3 hr (by omega) (by omega)
      obtain ⟨g, hg1, hg2⟩ := table_at d hd hs row 4 hr (by omega) (by omega)
      obtain ⟨b, hb1, hb2⟩ := table_at d hd hs row 5 hr (by omega) (by omega)
      exact ⟨{ x := x, y := y, z := z, rgb := some (r, g, b) },
        by simp [txtRow, hx2, hy2, hz2, hf, hr2, hg2, hb2], hx1, hy1, hz1, by simp [hf], by simp, rfl, rfl,
        fun _ => ⟨r, g, b, hr1, hg1, hb1, rfl⟩, by simp [hf], by simp [hf]⟩
  have hloop : ∀ k row out, row + k ≤ d.rows → ∃ pts, txtLoop o d k row out = .ok pts := by
    intro k
    induction k with
    | zero => intro row out _; exact ⟨out, rfl⟩
    | succ k ih =>
      intro row out h
      obtain ⟨p, hp, -⟩ := hrow row (by omega)
      obtain ⟨pts, hpts⟩ := ih (row + 1) (out ++ [p]) (by omega)
      exact ⟨pts, by simp [txtLoop, hp, hpts]⟩
  obtain ⟨pts, hpts⟩ := hloop d.rows 0 [] (by omega)
  obtain ⟨l, hl, hlen, hj⟩ := txtLoop_eq o d d.rows 0 [] pts hpts
  rw [List.nil_append] at hl; subst hl
  refine ⟨{ layers := AMap.set [] "raw" pts, id := o.id, label := o.label }, pts, ?_, by simp, rfl, rfl, hlen, ?_⟩
  · simp only [List.mem_cons, List.not_mem_nil, or_false] at hf
    rcases hf with hf | hf | hf | hf | hf <;>
    · simp [hf] at hc
      simp [txt2mm, minCols, hf, Outcome.assert, hpts, hc]
  · intro row p hp
    have hr : row < d.rows := by
      have := (List.getElem?_eq_some_iff.1 hp).1; omega
    have h1 := hj row p hp
    rw [Nat.zero_add] at h1
    obtain ⟨q, hq, hrest⟩ := hrow row hr
    rw [h1, Outcome.ok.injEq] at hq; subst hq
    exact hrest

/-- a loop over rows none of which throws, one of which is undefined -/
theorem txtLoop_ub (o : TxtOpts) (d : Table K) (k row : Nat) (out : List (TPt K))
    (hall : ∀ r, row ≤ r → r < row + k → txtRow o d r = .ub ∨ ∃ p, txtRow o d r = .ok p)
    (hub : ∃ r, row ≤ r ∧ r < row + k ∧ txtRow o d r = .ub) : txtLoop o d k row out = .ub := by
  induction k generalizing row out with
  | zero => obtain ⟨r, h1, h2, -⟩ := hub; omega
  | succ k ih =>
    rcases hall row (le_refl _) (by omega) with h | ⟨p, h⟩
    · simp [txtLoop, h]
    · have : txtLoop o d (k + 1) row out = txtLoop o d k (row + 1) (out ++ [p]) := by simp [txtLoop, h]
      rw [this]
      refine ih _ _ (fun r h1 h2 => hall r (by omega) (by omega)) ?_
      obtain ⟨r, h1, h2, h3⟩ := hub
      rcases Nat.eq_or_lt_of_le h1 with he | hlt
      · subst he; rw [h] at h3; cases h3
      · exact ⟨r, hlt, by omega, h3⟩

/-- Colours of xyzrgb that are no bytes are not refused: the behaviour is undefined. -/
theorem txt2mm_colour_ub (o : TxtOpts) (d : Table K) (hf : o.format = "xyzrgb")
    (hd : d.data.length = d.rows * d.cols) (hs : d.rows * d.cols < 2 ^ 64) (h6 : 6 ≤ d.cols) (hx : o.ColsIn d)
    (hb : ∃ row col v, row < d.rows ∧ 3 ≤ col ∧ col ≤ 5 ∧ d.cell row col = some v ∧ ¬ (-1 < v ∧ v < 256)) : txt2mm o d = .ub := by
  obtain ⟨hx0, hx2, -, -⟩ := hx
  unfold Table.HasCol at *
  have hcase : ∀ v : K, u8tof v = .ub ∨ ∃ c, u8tof v = .ok c := by
    intro v; unfold u8tof; split_ifs
    · exact Or.inr ⟨_, rfl⟩
    · exact Or.inl rfl
  have hrow : ∀ row, row < d.rows → (txtRow o d row = .ub ∨ ∃ p, txtRow o d row = .ok p) ∧
      ((∃ col v, 3 ≤ col ∧ col ≤ 5 ∧ d.cell row col = some v ∧ ¬ (-1 < v ∧ v < 256)) → txtRow o d row = .ub) := by
    intro row hr
    obtain ⟨x, hx1, hx2⟩ := table_at d hd hs row o.colX hr hx0.1 (by omega)
    obtain ⟨y, hy1, hy2⟩ := table_at d hd hs row (o.colX + 1) hr (by omega) (by omega)
    obtain ⟨z, hz1, hz2⟩ := table_at d hd hs row (o.colX + 2) hr (by omega) (by omega)
    obtain ⟨r, hr1, hr2⟩ := table_at d hd hs row 3 hr (by omega) (by omega)
    obtain ⟨g, hg1, hg2⟩ := table_at d hd hs row 4 hr (by omega) (by omega)
    obtain ⟨b, hb1, hb2⟩ := table_at d hd hs row 5 hr (by omega) (by omega)
    have hu : (∃ col v, 3 ≤ col ∧ col ≤ 5 ∧ d.cell row col = some v ∧ ¬ (-1 < v ∧ v < 256)) →
        u8tof r = .ub ∨ u8tof g = .ub ∨ u8tof b = .ub := by
      rintro ⟨col, v, h3, h5, hv, hbad⟩
      have : col = 3 ∨ col = 4 ∨ col = 5 := by omega
      unfold Table.cell at hv
      rcases this with rfl | rfl | rfl
      · rw [hv] at hr1; injection hr1 with hr1; subst hr1; left; simp [u8tof, hbad]
      · rw [hv] at hg1; injection hg1 with hg1; subst hg1; right; left; simp [u8tof, hbad]
      · rw [hv] at hb1; injection hb1 with hb1; subst hb1; right; right; simp [u8tof, hbad]
    rcases hcase r with h | ⟨r', h⟩
    · have : txtRow o d row = .ub := by simp [txtRow, hx2, hy2, hz2, hf, hr2, hg2, hb2, h]
      exact ⟨Or.inl this, fun _ => this⟩
    · rcases hcase g with h' | ⟨g', h'⟩
      · have : txtRow o d row = .ub := by simp [txtRow, hx2, hy2, hz2, hf, hr2, hg2, hb2, h, h']
        exact ⟨Or.inl this, fun _ => this⟩
      · rcases hcase b with h'' | ⟨b', h''⟩
        · have : txtRow o d row = .ub := by simp [txtRow, hx2, hy2, hz2, hf, hr2, hg2, hb2, h, h', h'']
          exact ⟨Or.inl this, fun _ => this⟩
        · refine ⟨Or.inr ⟨{ x := x, y := y, z := z, rgb := some (r', g', b') }, ?_⟩, fun hbad => ?_⟩
          · simp [txtRow, hx2, hy2, hz2, hf, hr2, hg2, hb2, h, h', h'']
          · have := hu hbad; rw [h, h', h''] at this; simp at this
  have hl : txtLoop o d d.rows 0 [] = .ub := by
    refine txtLoop_ub o d d.rows 0 [] (fun r _ h => (hrow r (by omega)).1) ?_
    obtain ⟨row, col, v, hr, h⟩ := hb
    exact ⟨row, by omega, by omega, (hrow row hr).2 ⟨col, v, h⟩⟩
  simp [txt2mm, minCols, hf, Outcome.assert, h6, hl]

/-- The format xyzirt drops ring and time: no point of the map has either. -/
theorem txt2mm_xyzirt_loses_channels (o : TxtOpts) (d : Table K) (hf : o.format = "xyzirt") (m : TxtMap K) (h : txt2mm o d = .ok m) :
    ∃ pts, m.layers.get "raw" = some pts ∧ pts.length = d.rows ∧ ∀ p ∈ pts, Tool.TPt.ring p = none ∧ p.t = none := by
  unfold txt2mm at h
  split at h
  · cases h
  · simp only [Outcome.bind_eq_ok] at h
    obtain ⟨-, -, pts, hpts, h⟩ := h
    simp only [Outcome.ok.injEq] at h; subst h
    obtain ⟨l, hl, hlen, hj⟩ := txtLoop_eq o d d.rows 0 [] pts hpts
    rw [List.nil_append] at hl; subst hl
    refine ⟨pts, by simp, hlen, fun p hp => ?_⟩
    obtain ⟨j, hjp⟩ := List.getElem?_of_mem hp
    have hrow := hj j p hjp
    simp only [txtRow, hf, Outcome.bind_eq_ok] at hrow
    obtain ⟨x, -, y, -, z, -, hrow⟩ := hrow
    rw [if_neg (by decide), if_neg (by decide), if_pos trivial] at hrow
    simp only [Outcome.bind_eq_ok, Outcome.ok.injEq] at hrow
    obtain ⟨i, -, -, -, -, -, rfl⟩ := hrow
    exact ⟨rfl, rfl⟩

/-- Unknown formats and too few columns are refused. -/
theorem txt2mm_refuses (o : TxtOpts) (d : Table K) (h : minCols o.format = none ∨ ∃ n, minCols o.format = some n ∧ d.cols < n) :
    txt2mm o d = .throw := by
  unfold txt2mm
  rcases h with h | ⟨n, h, hn⟩
  · rw [h]
  · rw [h]; simp [Outcome.assert, Nat.not_le.2 hn]

/-- A column index past the end of the row is not refused: every row but the last gets a value of the following row. -/
theorem txt2mm_column_past_end (d : Table K) (hd : d.data.length = d.rows * d.cols) (hs : d.rows * d.cols < 2 ^ 64) (row : Nat) (col : Int)
    (hr : row + 1 < d.rows) (h0 : d.cols ≤ col) (hc : col < 2 * d.cols) :
    ∃ v, Table.cell d (row + 1) (col - d.cols) = some v ∧ d.at row col = .ok v := by
  obtain ⟨v, h1, h2⟩ := table_at d hd hs (row + 1) (col - d.cols) hr (by omega) (by omega)
  refine ⟨v, h1, ?_⟩
  rw [← h2]
  unfold Table.at
  have : ((row : Int) * d.cols + col) = (((row + 1 : Nat) : Int) * d.cols + (col - d.cols)) := by push_cast; ring
  rw [this]

/-- … and on the last row the read is past the end of the data. -/
theorem txt2mm_column_past_end_ub (d : Table K) (hd : d.data.length = d.rows * d.cols) (hs : (d.rows + 1) * d.cols < 2 ^ 64) (col : Int)
    (hr : 0 < d.rows) (h0 : d.cols ≤ col) (hc : col < 2 * d.cols) : d.at (d.rows - 1) col = .ub := by
  have h1 : (((d.rows - 1 : Nat) : Int) * d.cols + col) = ((d.rows * d.cols + (col.toNat - d.cols) : Nat) : Int) := by
    obtain ⟨r, hr'⟩ : ∃ r, d.rows = r + 1 := ⟨d.rows - 1, by omega⟩
    rw [hr', Nat.add_sub_cancel, Nat.succ_mul]
    push_cast
    have : ((col.toNat - d.cols : Nat) : Int) = col - d.cols := by omega
    rw [this]; ring
  have h2 : (d.rows + 1) * d.cols = d.rows * d.cols + d.cols := Nat.succ_mul _ _
  unfold Table.at
  rw [h1]
  have h3 : (((d.rows * d.cols + (col.toNat - d.cols) : Nat) : Int) % 2 ^ 64).toNat = d.rows * d.cols + (col.toNat - d.cols) := by omega
  rw [h3, List.getElem?_eq_none (by omega)]
end

/-! ### examples -/

example : cut (P := Nat) (S := Nat) (T := Nat) [⟨some 0, none, none⟩, ⟨some 1, none, none⟩, ⟨some 2, none, none⟩, ⟨some 3, none, none⟩] 1 2 =
    .ok [⟨some 1, none, none⟩, ⟨some 2, none, none⟩] := by decide +kernel
example : trim (P := Nat) (S := Nat) (T := Nat) (fun p => decide (p < 2)) [⟨some 3, none, none⟩, ⟨some 1, none, some 4⟩, ⟨some 2, none, none⟩] =
    .ok [⟨some 1, none, some 4⟩] := by decide +kernel
/-- rigid motions of the line acting on its points -/
example : (tf (P := Multiplicative ℤ) (S := Nat) (T := Nat) (Multiplicative.ofAdd (5 : ℤ)) [⟨some (Multiplicative.ofAdd 1), none, some 4⟩]).Sat fun r =>
    r = [⟨some (Multiplicative.ofAdd 6), none, some 4⟩] := by decide +kernel
/-- two rows of six columns as xyzirt under the name "lidar": the layer is "raw", and rings and times are gone -/
def exTable : Table ℚ := ⟨2, 6, [1, 2, 3, 100, 7, 1/10, 4, 5, 6, 200, 8, 2/10]⟩
example : (txt2mm { format := "xyzirt", layer := "lidar" } exTable).Sat fun m =>
    m.layers = [("raw", [{ x := 1, y := 2, z := 3, i := some 100 }, { x := 4, y := 5, z := 6, i := some 200 }])] := by decide +kernel
/-- colours: 255 and 127.9 of 255, and a negative fraction -/
example : (txt2mm { format := "xyzrgb" } (⟨1, 6, [1, 2, 3, 255, 1279/10, -1/2]⟩ : Table ℚ)).Sat fun m =>
    m.layers = [("raw", [{ x := 1, y := 2, z := 3, rgb := some (1, 127/255, 0) }])] := by decide +kernel
example : txt2mm { format := "xyzrgb" } (⟨1, 6, [1, 2, 3, 255, 256, 0]⟩ : Table ℚ) = .ub := Outcome.eq_ub_of (by decide +kernel)
/-- column 6 of six: the first row gets the 4 of the second, the second reads past the end -/
example : (txtRow { format := "xyzi", colI := 6 } exTable 0).Sat fun p => p.i = some 4 := by decide +kernel
example : txt2mm { format := "xyzi", colI := 6 } exTable = .ub := Outcome.eq_ub_of (by decide +kernel)
end Props
end Verif
