import Mathlib.Algebra.Order.Ring.Rat
import Mathlib.Data.List.Basic
import Verif.Lemmas.AMap
import Verif.Spec.Sm2mm
/-
C57: `simplemap_to_metricmap`.
-/
namespace Verif
namespace Props
open Sm
variable {K B O M : Type}

theorem foldOutcome_append {σ ι : Type} (f : σ → ι → Outcome σ) (s : σ) (a b : List ι) :
    foldOutcome f s (a ++ b) = (foldOutcome f s a).bind fun s => foldOutcome f s b := by
  induction a generalizing s with
  | nil => rfl
  | cons x a ih =>
    simp only [List.cons_append, foldOutcome]
    cases f s x with
    | ok s' => simp only [Outcome.bind]; exact ih s'
    | throw => rfl
    | ub => rfl

theorem smLoop_eq (e : SmEnv K B O M) (sm : List (KF K O)) (k cur : Nat) (s : St K B M) (h : cur + k ≤ sm.length) :
    smLoop e sm k cur s = foldOutcome (smKF e) s ((sm.drop cur).take k) := by
  induction k generalizing cur s with
  | zero => simp [smLoop, foldOutcome]
  | succ k ih =>
    have hc : cur < sm.length := by omega
    rw [List.drop_eq_getElem_cons hc, List.take_succ_cons]
    simp only [smLoop, List.getElem?_eq_getElem hc, foldOutcome]
    congr 1
    funext s'
    exact ih (cur + 1) s' (by omega)

theorem filter_zipIdx_eq {α : Type} (sm : List α) (a b off : Nat) (hab : a ≤ b) :
    ((sm.zipIdx off).filter fun p => decide (off + a ≤ p.2) && decide (p.2 < off + b)).map Prod.fst = (sm.drop a).take (b - a) := by
  induction sm generalizing a b off with
  | nil => simp
  | cons x sm ih =>
    rw [List.zipIdx_cons]
    have hsh : ∀ a' b' : Nat, ((sm.zipIdx (off + 1)).filter fun p => decide (off + 1 + a' ≤ p.2) && decide (p.2 < off + 1 + b')).map Prod.fst =
        ((sm.zipIdx (off + 1)).filter fun p => decide (off + (a' + 1) ≤ p.2) && decide (p.2 < off + (b' + 1))).map Prod.fst := by
      intro a' b'
      congr 2; funext p
      congr 1
      · congr 1; exact propext (by omega)
      · congr 1; exact propext (by omega)
    cases a with
    | zero =>
      cases b with
      | zero =>
        simp only [Nat.sub_self, List.take_zero]
        rw [List.map_eq_nil_iff, List.filter_eq_nil_iff]
        intro p hp
        simp only [Bool.and_eq_true, decide_eq_true_eq]; omega
      | succ b =>
        rw [List.filter_cons_of_pos (by simp), List.map_cons]
        have := ih 0 b (off + 1) (by omega)
        rw [Nat.sub_zero, List.drop_zero] at this
        simp only [List.drop_zero, Nat.sub_zero, List.take_succ_cons]
        congr 1
        rw [← this, ]
        congr 1
        apply List.filter_congr
        intro p hp
        have hle : off + 1 ≤ p.2 := by
          have := List.mem_zipIdx hp; omega
        congr 1
        · exact decide_eq_decide.2 (by omega)
        · exact decide_eq_decide.2 (by omega)
    | succ a =>
      rw [List.filter_cons_of_neg (by simp), List.drop_succ_cons]
      cases b with
      | zero => omega
      | succ b =>
        rw [← hsh, ih a b (off + 1) (by omega), Nat.add_sub_add_right]

/-- the loop runs over exactly the selected keyframes -/
theorem selected_eq {α : Type} (sm : List α) (start endIdx : Option Nat) (h : ∀ e, endIdx = some e → e + 1 < 2 ^ 64) :
    Selected sm start endIdx = (sm.drop (start.getD 0)).take (nKFs sm.length endIdx - start.getD 0) := by
  by_cases hle : start.getD 0 ≤ nKFs sm.length endIdx
  · rw [← filter_zipIdx_eq sm _ _ 0 hle]
    unfold Selected
    congr 1
    apply List.filter_congr
    intro p hp
    have hlt : p.2 < sm.length := by have := List.mem_zipIdx hp; omega
    cases endIdx with
    | none => simp [nKFs, hlt]
    | some e =>
      have := h e rfl
      simp only [nKFs, Nat.mod_eq_of_lt this, Option.all_some, Nat.zero_add]
      congr 1
      exact decide_eq_decide.2 (by omega)
  · rw [Nat.sub_eq_zero_of_le (by omega), List.take_zero]
    unfold Selected
    rw [List.map_eq_nil_iff, List.filter_eq_nil_iff]
    intro p hp
    have hlt : p.2 < sm.length := by have := List.mem_zipIdx hp; omega
    simp only [Bool.and_eq_true, decide_eq_true_eq, not_and]
    intro h1
    cases endIdx with
    | none => simp only [nKFs] at hle; omega
    | some e =>
      have := h e rfl
      simp only [nKFs, Nat.mod_eq_of_lt this] at hle
      simp only [Option.all_some, decide_eq_true_eq]; omega

/-- The keyframes processed are exactly those from `start_index` to `end_index` inclusive, as far as they exist, each once and in order;
then the final filters run once, attached to nothing. -/
theorem sm2mm_processes_selected [Zero K] (e : SmEnv K B O M) (buf : B) (sm : List (KF K O)) (start endIdx : Option Nat)
    (custom : List (String × K)) (h : ∀ i, endIdx = some i → i + 1 < 2 ^ 64) :
    sm2mm e buf sm start endIdx custom =
      (foldOutcome (smKF e) { src := { vars := initVars custom, buf := buf }, map := e.empty } (Selected sm start endIdx)).bind
        fun s => foldOutcome (fun m f => f none m) s.map e.finals := by
  have hmin : nKFs sm.length endIdx ≤ sm.length := by
    unfold nKFs; split
    · exact Nat.min_le_left _ _
    · exact Nat.le_refl _
  rw [selected_eq sm start endIdx h]
  simp only [sm2mm, Nat.zero_max]
  by_cases hle : start.getD 0 ≤ nKFs sm.length endIdx
  · rw [smLoop_eq _ _ _ _ _ (by omega)]
  · rw [Nat.sub_eq_zero_of_le (by omega)]; simp [smLoop, foldOutcome]

/-- With the largest possible `end_index` (meant as "to the end"), no keyframe at all is processed: `end + 1` wraps to 0. -/
theorem sm2mm_end_max_processes_nothing [Zero K] (e : SmEnv K B O M) (buf : B) (sm : List (KF K O)) (start : Option Nat)
    (custom : List (String × K)) :
    sm2mm e buf sm start (some (2 ^ 64 - 1)) custom = foldOutcome (fun m f => f none m) e.empty e.finals := by
  have : nKFs sm.length (some (2 ^ 64 - 1)) = 0 := by simp [nKFs]
  simp only [sm2mm, this, Nat.zero_sub, smLoop, Outcome.bind]

/-! ### the calls made -/

theorem gens_trace (ng : Nat) (h : Nat → O → Bool) (src : Src K Unit) (p : Pose6 K) (o : O) (ks : List Nat) (any : Bool) (m : List (Ev O)) :
    applyGeneratorsLoop o ((ks.map fun k => fun (_ : Src K Unit) (_ : Pose6 K) o m => Outcome.ok (h k o, m ++ [Ev.gen k o])).map
      fun g => g src p) any m = .ok (any || ks.any (fun k => h k o), m ++ ks.map (fun k => Ev.gen k o)) := by
  induction ks generalizing any m with
  | nil => simp [applyGeneratorsLoop]
  | cons k ks ih =>
    simp only [List.map_cons, applyGeneratorsLoop, Outcome.bind]
    rw [ih]
    simp [List.append_assoc, Bool.or_assoc]

theorem filters_trace (src : Option (Src K Unit)) (ev : Nat → Ev O) (ks : List Nat) (m : List (Ev O)) :
    foldOutcome (fun m f => f src m) m (ks.map fun k => fun (_ : Option (Src K Unit)) m => Outcome.ok (m ++ [ev k])) =
      .ok (m ++ ks.map ev) := by
  induction ks generalizing m with
  | nil => simp [foldOutcome]
  | cons k ks ih =>
    simp only [List.map_cons, foldOutcome, Outcome.bind]
    rw [ih]; simp

theorem smObs_trace (ng nf nl : Nat) (hng : ng ≠ 0) (h : Nat → O → Bool) (p : Pose6 K) (s : St K Unit (List (Ev O))) (o : O) :
    smObs (tracing ng nf nl h) p s (some o) = .ok { s with map := s.map ++ obsCalls ng nf h o } := by
  have hob : ∀ (gs : List (O → List (Ev O) → Outcome (Bool × List (Ev O)))) (m : List (Ev O)), gs ≠ [] →
      applyGeneratorsObs gs o m = applyGeneratorsLoop o gs false m := by
    intro gs m hgs; simp [applyGeneratorsObs, hgs]
  simp only [smObs]
  rw [hob _ _ (by simp [tracing, hng])]
  simp only [tracing]
  rw [gens_trace ng h]
  simp only [Bool.false_or, Outcome.bind]
  by_cases ha : (List.range ng).any (fun k => h k o) = true
  · simp only [ha, if_true, filters_trace]
    simp [obsCalls, ha]
  · simp only [ha, if_false]
    simp [obsCalls, ha]

theorem smSf_trace (ng nf nl : Nat) (hng : ng ≠ 0) (h : Nat → O → Bool) (p : Pose6 K) (os : List O) (s : St K Unit (List (Ev O))) :
    foldOutcome (smObs (tracing ng nf nl h) p) s (os.map some) = .ok { s with map := s.map ++ os.flatMap (obsCalls ng nf h) } := by
  induction os generalizing s with
  | nil => simp [foldOutcome]
  | cons o os ih =>
    simp only [List.map_cons, foldOutcome, smObs_trace ng nf nl hng h, Outcome.bind, ih]
    simp

theorem smKFs_trace (ng nf nl : Nat) (hng : ng ≠ 0) (h : Nat → O → Bool) (kfs : List (KF K O)) (oss : List (List O))
    (hf : List.Forall₂ KF.full kfs oss) (s : St K Unit (List (Ev O))) :
    ∃ src, foldOutcome (smKF (tracing ng nf nl h)) s kfs = .ok { src := src, map := s.map ++ oss.flatten.flatMap (obsCalls ng nf h) } := by
  induction hf generalizing s with
  | nil => exact ⟨s.src, by simp [foldOutcome]⟩
  | @cons kf os kfs oss h1 h2 ih =>
    obtain ⟨hp, hsf⟩ := h1
    obtain ⟨p, hp⟩ := Option.isSome_iff_exists.1 hp
    simp only [foldOutcome, smKF, hp, hsf, smSf_trace ng nf nl hng h, Outcome.bind]
    obtain ⟨src, hsrc⟩ := ih { src := { s.src with vars := setVars (kfTwist s.src.vars kf.twist) (poseVars p) },
                               map := s.map ++ os.flatMap (obsCalls ng nf h) }
    exact ⟨src, by rw [hsrc]; simp⟩

/-- All the calls made, in order: for each selected keyframe, for each of its observations, each generator once, and then, if the
observation was handled, each filter once; at the end each final filter once.
Part of C57: the final filters are not attached to the parameter source (`sm2mm_final_filter_fails`). -/
theorem sm2mm_calls_partial [Zero K] (ng nf nl : Nat) (hng : ng ≠ 0) (h : Nat → O → Bool) (sm : List (KF K O)) (start endIdx : Option Nat)
    (custom : List (String × K)) (hend : ∀ i, endIdx = some i → i + 1 < 2 ^ 64) (oss : List (List O))
    (hf : List.Forall₂ KF.full (Selected sm start endIdx) oss) :
    sm2mm (tracing ng nf nl h) () sm start endIdx custom =
      .ok (oss.flatten.flatMap (obsCalls ng nf h) ++ (List.range nl).map .final) := by
  rw [sm2mm_processes_selected _ _ _ _ _ _ hend]
  obtain ⟨src, hsrc⟩ := smKFs_trace ng nf nl hng h _ oss hf
    { src := { vars := initVars custom, buf := () }, map := (tracing (K := K) ng nf nl h).empty }
  rw [hsrc]
  simp only [Outcome.bind]
  have := filters_trace (K := K) (O := O) none Ev.final (List.range nl)
    ((tracing (K := K) ng nf nl h).empty ++ oss.flatten.flatMap (obsCalls ng nf h))
  simp only [tracing, List.nil_append] at this ⊢
  exact this

/-- A null pose, a null frame or a null observation in a selected keyframe is an error — when it is reached. -/
theorem smKF_null (e : SmEnv K B O M) (s : St K B M) (kf : KF K O) (h : kf.pose = none ∨ kf.sf = none) : smKF e s kf = .throw := by
  unfold smKF
  rcases h with h | h
  · rw [h]
  · rw [h]; cases kf.pose <;> rfl

/-! ### variables -/

theorem get_setVars (v : AMap String K) (l : List (String × K)) (n : String) (hn : ∀ e ∈ l, e.1 ≠ n) : AMap.get (setVars v l) n = AMap.get v n := by
  induction l generalizing v with
  | nil => rfl
  | cons a l ih =>
    have h1 := ih (AMap.set v a.1 a.2) (fun e he => hn e (by simp [he]))
    have h2 : a.1 ≠ n := hn a (by simp)
    simp only [setVars, List.foldl_cons] at h1 ⊢
    rw [h1, AMap.get_set, if_neg (Ne.symm h2)]

/-- The variables as realized for a keyframe hold its own pose. -/
theorem kf_pose_vars (v : AMap String K) (t : Option (P3 K × P3 K)) (p : Pose6 K) :
    let w := setVars (kfTwist v t) (poseVars p)
    AMap.get w "robot_x" = some p.x ∧ AMap.get w "robot_y" = some p.y ∧ AMap.get w "robot_z" = some p.z ∧
    AMap.get w "robot_yaw" = some p.yaw ∧ AMap.get w "robot_pitch" = some p.pitch ∧ AMap.get w "robot_roll" = some p.roll := by
  simp [setVars, poseVars]

/-- … and its own twist if it has one … -/
theorem kf_twist_vars (v : AMap String K) (t : P3 K × P3 K) (p : Pose6 K) :
    let w := setVars (kfTwist v (some t)) (poseVars p)
    AMap.get w "vx" = some t.1.x ∧ AMap.get w "vy" = some t.1.y ∧ AMap.get w "vz" = some t.1.z ∧
    AMap.get w "wx" = some t.2.x ∧ AMap.get w "wy" = some t.2.y ∧ AMap.get w "wz" = some t.2.z := by
  simp [setVars, poseVars, kfTwist, twistVars]

/-- … but otherwise the twist of the keyframe before, not zero. -/
theorem kf_twist_stale (v : AMap String K) (p : Pose6 K) (n : String) (hn : n ∈ ["vx", "vy", "vz", "wx", "wy", "wz"]) :
    AMap.get (setVars (kfTwist v none) (poseVars p)) n = AMap.get v n := by
  apply get_setVars
  intro e he
  simp only [poseVars, List.mem_cons, List.not_mem_nil, or_false] at he hn
  rcases he with rfl | rfl | rfl | rfl | rfl | rfl <;> rcases hn with rfl | rfl | rfl | rfl | rfl | rfl <;> simp

/-- Final filters are never attached to the parameter source: one that needs a realized parameter makes the whole call fail. -/
theorem sm2mm_final_filter_fails [Zero K] (e : SmEnv K B O M) (buf : B) (sm : List (KF K O)) (start endIdx : Option Nat)
    (custom : List (String × K)) (f : Option (Src K B) → M → Outcome M) (rest : List (Option (Src K B) → M → Outcome M))
    (hf : e.finals = f :: rest) (hneeds : ∀ m, f none m = .throw) : ∀ m, sm2mm e buf sm start endIdx custom ≠ .ok m := by
  intro m h
  simp only [sm2mm, Outcome.bind_eq_ok] at h
  obtain ⟨s, -, h⟩ := h
  rw [hf] at h
  simp only [foldOutcome, hneeds, Outcome.bind] at h
  cases h

/-! ### examples -/

/-- Four keyframes, the third with a comment nobody handles. -/
def exSm : List (KF ℚ Nat) :=
  [⟨some ⟨0, 0, 0, 0, 0, 0⟩, some [some 10], some (⟨1, 0, 0⟩, 0)⟩, ⟨some ⟨1, 0, 0, 0, 0, 0⟩, some [some 11, some 12], none⟩,
   ⟨some ⟨2, 0, 0, 0, 0, 0⟩, some [some 13, some 14], none⟩, ⟨some ⟨3, 0, 0, 0, 0, 0⟩, some [], none⟩]
example : sm2mm (tracing 1 1 1 fun _ o => o != 13) () exSm (some 1) (some 2) [] =
    .ok [.gen 0 11, .filter 0, .gen 0 12, .filter 0, .gen 0 13, .gen 0 14, .filter 0, .final 0] := by decide +kernel
example : List.Forall₂ KF.full (Selected exSm (some 1) (some 2)) [[11, 12], [13, 14]] :=
  .cons ⟨rfl, rfl⟩ (.cons ⟨rfl, rfl⟩ .nil)
example : sm2mm (tracing 1 1 1 fun _ o => o != 13) () exSm none (some (2 ^ 64 - 1)) [] = .ok [.final 0] := by decide +kernel
end Props
end Verif
