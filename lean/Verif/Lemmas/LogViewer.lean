import Verif.Spec.LogViewer
import Verif.Lemmas.AMap
import Mathlib.Tactic.Linarith
import Mathlib.Tactic.Push
/-
Lemmas for the log viewer (C95).
-/
namespace Verif.Lemmas.LogViewer
open Verif Verif.LogView Verif.Spec
variable {Pose Pairs L : Type}

theorem round_near (q : ℚ) : 2 * (q - roundEven q) ≤ 1 ∧ 2 * ((roundEven q : ℚ) - q) ≤ 1 := by
  have h1 := Int.floor_le q
  have h2 := Int.lt_floor_add_one q
  unfold roundEven
  split_ifs with a b c <;> push_cast <;> constructor <;> linarith

theorem round_unique {q : ℚ} {k : ℤ} (h1 : 2 * (q - k) < 1) (h2 : 2 * ((k : ℚ) - q) < 1) : roundEven q = k := by
  obtain ⟨a, b⟩ := round_near q
  have c1 : ((roundEven q : ℤ) : ℚ) < ((k + 1 : ℤ) : ℚ) := by push_cast; linarith
  have c2 : ((k : ℤ) : ℚ) < ((roundEven q + 1 : ℤ) : ℚ) := by push_cast; linarith
  have d1 := Int.cast_lt.mp c1
  have d2 := Int.cast_lt.mp c2
  omega

theorem round_int (k : ℤ) : roundEven (k : ℚ) = k := round_unique (by linarith) (by linarith)

/-- not half way between two integers -/
theorem round_strict {q : ℚ} (h : q - ⌊q⌋ ≠ 1 / 2) : 2 * (q - roundEven q) < 1 ∧ 2 * ((roundEven q : ℚ) - q) < 1 := by
  have h1 := Int.floor_le q
  have h2 := Int.lt_floor_add_one q
  unfold roundEven
  split_ifs with a b c
  · constructor <;> linarith
  · push_cast; constructor <;> linarith
  · exact absurd (le_antisymm (not_lt.mp b) (not_lt.mp a)) h
  · exact absurd (le_antisymm (not_lt.mp b) (not_lt.mp a)) h

theorem round_add {q : ℚ} (h : q - ⌊q⌋ ≠ 1 / 2) (k : ℤ) : roundEven (q + k) = roundEven q + k := by
  obtain ⟨a, b⟩ := round_strict h
  exact round_unique (by push_cast; linarith) (by push_cast; linarith)

theorem round_mono_nonneg {q : ℚ} (h : 0 ≤ q) : 0 ≤ roundEven q := by
  obtain ⟨a, b⟩ := round_near q
  by_contra hc
  have : roundEven q ≤ -1 := by omega
  have : (roundEven q : ℚ) ≤ -1 := by exact_mod_cast this
  linarith

theorem iterIdx_near {n : Nat} {v : ℚ} (h0 : 0 ≤ v) (h1 : v ≤ n) :
    iterIdx (n + 1) v ≤ n ∧ 2 * (v - iterIdx (n + 1) v) ≤ 1 ∧ 2 * ((iterIdx (n + 1) v : ℚ) - v) ≤ 1 := by
  have hr := round_mono_nonneg h0
  obtain ⟨a, b⟩ := round_near v
  obtain ⟨m, hm⟩ := Int.eq_ofNat_of_zero_le hr
  have hmn : m ≤ n := by
    have : ((roundEven v : ℤ) : ℚ) < ((n + 1 : ℤ) : ℚ) := by push_cast; linarith
    have := Int.cast_lt.mp this
    omega
  have : iterIdx (n + 1) v = m := by
    unfold iterIdx
    rw [if_neg (by omega), hm]
    simp [hmn]
  rw [this]
  rw [hm] at a b
  exact ⟨hmn, by exact_mod_cast a, by exact_mod_cast b⟩

theorem selIdx_some {n : Nat} {q : ℚ} {i : Nat} : selIdx n q = some i ↔ roundEven q = i ∧ i < n := by
  unfold selIdx
  split_ifs with h
  · simp only [Option.some.injEq]; omega
  · simp only [reduceCtorEq, false_iff]; omega

/-! ### one log in memory -/

def MemInv (n : Nat) (s : VState Pose Pairs L) : Prop :=
  s.mem.length = n ∧ (∀ k r, s.mem[k]? = some (some r) → s.lastIdx = some k) ∧ ∀ i, selIdx n s.sel = some i → s.lastIdx = some i

theorem choose_fields (r : Rec Pose Pairs L) (reset : Bool) (s : VState Pose Pairs L) :
    (choose r reset s).1.mem = s.mem ∧ (choose r reset s).1.lastIdx = s.lastIdx ∧ (choose r reset s).1.sel = s.sel := by
  unfold choose; split <;> exact ⟨rfl, rfl, rfl⟩

/-- the state an event leaves -/
def Leaves (o : Res (VState Pose Pairs L)) (s : VState Pose Pairs L) : Prop := o = .done s ∨ o = .threw s

theorem showRec_fields {regen reset : Bool} {r : Rec Pose Pairs L} {s s' : VState Pose Pairs L}
    (h : Leaves (showRec regen reset r s) s') : s'.mem = s.mem ∧ s'.lastIdx = s.lastIdx ∧ s'.sel = s.sel := by
  have hc := choose_fields r reset { s with poseBox := some r.final, guessBox := some r.guess }
  unfold showRec at h
  split at h
  · next ml mg _ _ =>
    simp only at h
    generalize choose r reset { s with poseBox := some r.final, guessBox := some r.guess } = x at h hc
    simp only at hc
    unfold drawGlobal at h
    generalize (if (regen || x.1.cacheG.isNone) = true then renderSel mg (checked x.1.cbG) else x.1.cacheG) = o at h
    cases o with
    | none =>
      rcases h with h | h <;> simp only [reduceCtorEq, Res.threw.injEq] at h
      subst h; exact hc
    | some l =>
      simp only at h
      unfold drawLocal at h
      simp only at h
      generalize (if (regen || x.1.cacheL.isNone) = true then renderSel ml (checked x.1.cbL) else x.1.cacheL) = o at h
      cases o with
      | none =>
        rcases h with h | h <;> simp only [reduceCtorEq, Res.threw.injEq] at h
        subst h; exact hc
      | some l' =>
        rcases h with h | h <;> simp only [reduceCtorEq, Res.done.injEq] at h
        subst h; exact hc
  · rcases h with h | h <;> exact absurd h (by simp)

theorem freeLast_length (s : VState Pose Pairs L) (i : Nat) : (freeLast s i).length = s.mem.length := by
  unfold freeLast; split
  · split_ifs <;> simp
  · rfl

theorem getRec_some {disk mem mem' : List (Option (Rec Pose Pairs L))} {i : Nat} {r : Rec Pose Pairs L} (hi : i < mem.length)
    (h : getRec disk mem i = some (r, mem')) : mem'.length = mem.length ∧ mem'[i]? = some (some r) ∧
      (∀ k, k ≠ i → mem'[k]? = mem[k]?) ∧ (mem[i]? = some (some r) ∨ disk[i]? = some (some r) ∧ mem[i]? = some none) := by
  unfold getRec at h
  rw [List.getD_eq_getElem?_getD, List.getElem?_eq_getElem hi] at h
  rw [List.getElem?_eq_getElem hi]
  simp only [Option.getD_some] at h
  cases hm : mem[i] with
  | some r' =>
    rw [hm] at h
    simp only [Option.some.injEq, Prod.mk.injEq] at h
    obtain ⟨rfl, rfl⟩ := h
    exact ⟨rfl, by rw [List.getElem?_eq_getElem hi, hm], fun _ _ => rfl, Or.inl rfl⟩
  | none =>
    rw [hm] at h
    simp only at h
    rw [List.getD_eq_getElem?_getD] at h
    cases hd : disk[i]? with
    | none => rw [hd] at h; simp at h
    | some d =>
      rw [hd] at h
      cases d with
      | none => simp at h
      | some r' =>
        simp only [Option.getD_some, Option.some.injEq, Prod.mk.injEq] at h
        obtain ⟨rfl, rfl⟩ := h
        refine ⟨by simp, by simp [hi], fun k hk => ?_, Or.inr ⟨rfl, rfl⟩⟩
        rw [List.getElem?_set_ne (Ne.symm hk)]

theorem rebuild_mem {disk : List (Option (Rec Pose Pairs L))} {regen : Bool} {s s' : VState Pose Pairs L}
    (hlen : s.mem.length = disk.length)
    (hm : ∀ i, selIdx disk.length s.sel = some i → ∀ k r, (freeLast s i)[k]? = some (some r) → k = i)
    (hm' : ∀ k r, s.mem[k]? = some (some r) → selIdx disk.length s.sel = none → s.lastIdx = some k)
    (h : Leaves (rebuild disk regen s) s') : MemInv disk.length s' := by
  unfold rebuild at h
  cases hs : selIdx disk.length s.sel with
  | none =>
    rw [hs] at h
    rcases h with h | h <;> simp only [reduceCtorEq, Res.done.injEq] at h
    subst h
    exact ⟨hlen, fun k r hk => hm' k r hk hs, fun i hi => by simp only at hi; rw [hs] at hi; cases hi⟩
  | some i =>
    rw [hs] at h
    simp only at h
    have hin := (selIdx_some.mp hs).2
    have hfl := freeLast_length s i
    have hsel : ∀ x : VState Pose Pairs L, x.sel = s.sel → x.lastIdx = some i →
        ∀ k, selIdx disk.length x.sel = some k → x.lastIdx = some k := by
      intro x h1 h2 k hk
      rw [h1, hs] at hk; cases hk; exact h2
    split at h
    · rcases h with h | h <;> simp only [reduceCtorEq, Res.threw.injEq] at h
      subst h
      refine ⟨by simp only; omega, fun k r hk => ?_, hsel _ rfl rfl⟩
      simp only at hk ⊢
      rw [hm i hs k r hk]
    · next r mem heq =>
      obtain ⟨f1, f2, f3⟩ := showRec_fields h
      simp only at f1 f2 f3
      obtain ⟨g1, g2, g3, -⟩ := getRec_some (by omega) heq
      refine ⟨by rw [f1, g1]; omega, fun k r' hk => ?_, hsel _ f3 f2⟩
      rw [f2]
      by_cases hki : k = i
      · rw [hki]
      · rw [f1, g3 k hki] at hk
        exact absurd (hm i hs k r' hk) hki

theorem freeLast_only {n : Nat} {s : VState Pose Pairs L} (h : ∀ k r, s.mem[k]? = some (some r) → s.lastIdx = some k)
    (i k : Nat) (r : Rec Pose Pairs L) (hk : (freeLast s i)[k]? = some (some r)) : k = i := by
  unfold freeLast at hk
  split at hk
  · next j hj =>
    split_ifs at hk with hji
    · have := h k r hk
      rw [hj] at this
      have := Option.some.inj this
      omega
    · by_cases hkj : k = j
      · subst hkj
        simp [List.getElem?_set] at hk
      · rw [List.getElem?_set_ne (Ne.symm hkj)] at hk
        have := h k r hk
        rw [hj] at this
        exact absurd (Option.some.inj this).symm hkj
  · next hj =>
    have := h k r hk
    rw [hj] at this; cases this

/-- from a state of the invariant, whatever the position of the slider -/
theorem rebuild_mem' {disk : List (Option (Rec Pose Pairs L))} {regen : Bool} {s s' : VState Pose Pairs L}
    (h : Leaves (rebuild disk regen s) s')
    (hlen : s.mem.length = disk.length) (hm : ∀ k r, s.mem[k]? = some (some r) → s.lastIdx = some k) : MemInv disk.length s' :=
  rebuild_mem hlen (fun i _ k r hk => freeLast_only (n := disk.length) hm i k r hk) (fun k r hk _ => hm k r hk) h

theorem step_mem {disk : List (Option (Rec Pose Pairs L))} {setComp : Pose → Fin 6 → ℚ → Pose} {s s' : VState Pose Pairs L}
    (hs : MemInv disk.length s) {a : Act} (h : Leaves (step disk setComp s a) s') : MemInv disk.length s' := by
  have hself : ∀ {s'}, Leaves (.done s) s' → MemInv disk.length s' := by
    intro s' h
    rcases h with h | h <;> simp only [reduceCtorEq, Res.done.injEq] at h
    subst h; exact hs
  obtain ⟨h1, h2, h3⟩ := hs
  cases a with
  | dragSel v => exact rebuild_mem' h h1 h2
  | back =>
    simp only [step] at h
    split_ifs at h
    · exact rebuild_mem' h h1 h2
    · exact hself h
  | forw =>
    simp only [step] at h
    split_ifs at h
    · exact rebuild_mem' h h1 h2
    · exact hself h
  | auto =>
    simp only [step] at h
    split_ifs at h
    · exact rebuild_mem' h h1 h2
    · exact hself h
  | key inc => exact rebuild_mem' h h1 h2
  | dragIter v =>
    simp only [step] at h
    split_ifs at h
    · exact rebuild_mem' h h1 h2
    · exact hself h
  | initGuess v => exact rebuild_mem' h h1 h2
  | pairs v => exact rebuild_mem' h h1 h2
  | layerG n v =>
    simp only [step] at h
    split_ifs at h
    · exact rebuild_mem' h h1 h2
    · exact hself h
  | layerL n v =>
    simp only [step] at h
    split_ifs at h
    · exact rebuild_mem' h h1 h2
    · exact hself h
  | manual i v =>
    simp only [step] at h
    split at h
    · rcases h with h | h <;> simp only [reduceCtorEq, Res.threw.injEq] at h
      subst h; exact ⟨h1, h2, h3⟩
    · next k hk =>
      split at h
      · rcases h with h | h <;> simp only [reduceCtorEq, Res.threw.injEq] at h
        subst h; exact ⟨h1, h2, h3⟩
      · next r mem heq =>
        have hkn := (selIdx_some.mp hk).2
        obtain ⟨g1, g2, g3, -⟩ := getRec_some (by omega) heq
        refine rebuild_mem' h (by simp; omega) (fun j r' hj => ?_)
        simp only at hj ⊢
        by_cases hjk : j = k
        · rw [hjk]; exact h3 k hk
        · rw [List.getElem?_set_ne (Ne.symm hjk), g3 j hjk] at hj
          exact h2 j r' hj
  | redraw full => exact rebuild_mem' h h1 h2

theorem run_mem {disk : List (Option (Rec Pose Pairs L))} {setComp : Pose → Fin 6 → ℚ → Pose} (acts : List Act) :
    ∀ {s s' : VState Pose Pairs L}, MemInv disk.length s → runFrom disk setComp s acts = some s' → MemInv disk.length s' := by
  induction acts with
  | nil => intro s s' hs h; cases h; exact hs
  | cons a acts ih =>
    intro s s' hs h
    simp only [runFrom] at h
    split at h
    · next t ht => exact ih (step_mem hs (Or.inl ht)) h
    · next t ht => exact ih (step_mem hs (Or.inr ht)) h
    · cases h

theorem start_mem {disk : List (Option (Rec Pose Pairs L))} {a b : Bool} {s : VState Pose Pairs L}
    (h : start disk a b = .done (some s)) : MemInv disk.length s := by
  unfold start at h
  split at h
  · next r ds =>
    split at h
    · next t ht =>
      simp only [Res.done.injEq, Option.some.injEq] at h
      subst h
      have h0 : selIdx (some r :: ds).length (0 : ℚ) = some 0 := selIdx_some.mpr ⟨by simpa using round_int 0, by simp⟩
      refine rebuild_mem (by simp [initial]) ?_ ?_ (Or.inl ht)
      · intro i hi k r' hk
        change selIdx (some r :: ds).length (0 : ℚ) = some i at hi
        rw [h0] at hi
        cases hi
        simp only [freeLast, initial] at hk
        cases k with
        | zero => rfl
        | succ k =>
          rw [List.getElem?_cons_succ, List.getElem?_map] at hk
          cases ds[k]? <;> simp at hk
      · intro k r' _ hn
        change selIdx (some r :: ds).length (0 : ℚ) = none at hn
        rw [h0] at hn; cases hn
    · cases h
    · cases h
  · cases h

/-! ### good logs -/

theorem renderSel_good {m : AMap String L} : ∀ (ns : List String), (∀ n ∈ ns, n ∈ m.map (·.1)) →
    ∃ l, renderSel m ns = some l ∧ l.map (·.1) = ns ∧ ∀ x ∈ l, AMap.get m x.1 = some x.2 := by
  intro ns
  induction ns with
  | nil => intro _; exact ⟨[], rfl, rfl, by simp⟩
  | cons n ns ih =>
    intro h
    obtain ⟨l, h1, h2, h3⟩ := ih fun k hk => h k (List.mem_cons_of_mem _ hk)
    cases hg : AMap.get m n with
    | none =>
      have := (AMap.get_none_iff m n).mp hg
      obtain ⟨x, hx, hxe⟩ := List.mem_map.mp (h n (List.mem_cons_self))
      exact absurd hxe (this x hx)
    | some c =>
      refine ⟨(n, c) :: l, by simp [renderSel, hg, h1], by simp [h2], ?_⟩
      intro x hx
      rcases List.mem_cons.mp hx with rfl | hx
      · exact hg
      · exact h3 x hx

/-- the iteration slider is right for a record -/
def IterOk (r : Rec Pose Pairs L) (s : VState Pose Pairs L) : Prop :=
  (r.details = [] → s.iterOn = false) ∧
  (r.details ≠ [] → s.iterOn = true ∧ s.iterMax = ((r.details.length - 1 : Nat) : ℚ) ∧ s.iterVal ≤ s.iterMax)

/-- same controls but for the iteration slider -/
structure SameCtl (s s' : VState Pose Pairs L) : Prop where
  cbG : s'.cbG = s.cbG
  cbL : s'.cbL = s.cbL
  showInit : s'.showInit = s.showInit
  showPairs : s'.showPairs = s.showPairs
  backOn : s'.backOn = s.backOn
  forwOn : s'.forwOn = s.forwOn

theorem choose_good (r : Rec Pose Pairs L) (f : Pose) (reset : Bool) (s : VState Pose Pairs L) (h0 : 0 ≤ s.iterVal)
    (hit : reset = false → r.details ≠ [] → s.iterVal ≤ ((r.details.length - 1 : Nat) : ℚ)) :
    ∃ s' pose prs, choose { r with final := f } reset s = (s', pose, if s.showPairs then some prs else none) ∧
      Chosen r f s' pose prs ∧ IterOk r s' ∧ 0 ≤ s'.iterVal ∧ SameCtl s s' ∧ s'.cacheG = s.cacheG ∧ s'.cacheL = s.cacheL ∧
      s'.poseBox = s.poseBox ∧ s'.guessBox = s.guessBox ∧
      (reset = true → r.details ≠ [] → s'.iterVal = if s.showInit then 0 else ((r.details.length - 1 : Nat) : ℚ)) ∧
      (reset = false → s'.iterVal = s.iterVal) ∧
      ∀ d, r.details[iterIdx r.details.length s'.iterVal]? = some d → pose = d.2.1 := by
  unfold choose
  simp only
  cases hd : r.details with
  | nil =>
    refine ⟨{ s with iterOn := false }, _, r.finalPairs, rfl, ?_, ⟨fun _ => rfl, fun h => absurd hd h⟩, h0, ⟨rfl, rfl, rfl, rfl, rfl, rfl⟩,
      rfl, rfl, rfl, rfl, fun _ h => absurd rfl h, fun _ => rfl, fun d h => by simp at h⟩
    by_cases hi : s.showInit = true
    · rw [if_pos hi]; exact Chosen.guess hd hi
    · rw [if_neg hi]; exact Chosen.result hd (by simpa using hi)
  | cons d ds =>
    simp only
    generalize hv : (if reset then (if s.showInit then 0 else (ds.length : ℚ)) else s.iterVal) = v
    have hv0 : 0 ≤ v := by
      rw [← hv]; split_ifs
      · exact le_rfl
      · exact Nat.cast_nonneg _
      · exact h0
    have hv1 : v ≤ ds.length := by
      rw [← hv]; split_ifs with a b
      · exact Nat.cast_nonneg _
      · exact le_rfl
      · have := hit (by simpa using a) (by rw [hd]; simp)
        rw [hd] at this
        simpa using this
    obtain ⟨k1, k2, k3⟩ := iterIdx_near hv0 hv1
    obtain ⟨k, hkd⟩ : ∃ k, iterIdx (ds.length + 1) v = k := ⟨_, rfl⟩
    rw [hkd] at k1 k2 k3
    rw [hkd]
    have hk : k < (d :: ds).length := by simp; omega
    refine ⟨{ s with iterOn := true, iterMax := ds.length, iterVal := v }, (d :: ds)[k].2.1, (d :: ds)[k].2.2, ?_, ?_, ?_, hv0,
      ⟨rfl, rfl, rfl, rfl, rfl, rfl⟩, rfl, rfl, rfl, rfl, ?_, ?_, ?_⟩
    · rw [List.getD_eq_getElem?_getD, List.getElem?_eq_getElem hk]; rfl
    · exact Chosen.iteration k (d :: ds)[k].1 _ _ (by rw [hd, List.getElem?_eq_getElem hk]) k2 k3
    · refine ⟨fun h => (by rw [hd] at h; cases h), fun _ => ⟨rfl, ?_, hv1⟩⟩
      rw [hd]; simp
    · intro a _
      simp only [List.length_cons, Nat.add_sub_cancel]
      rw [← hv, a]; rfl
    · intro a
      simp only
      rw [← hv, a]; rfl
    · intro d' hd'
      change (d :: ds)[iterIdx (ds.length + 1) v]? = some d' at hd'
      rw [hkd, List.getElem?_eq_getElem hk] at hd'
      cases hd'; rfl

/-- the local frame is at the logged iteration the slider says -/
def CornerOk (r : Rec Pose Pairs L) (s : VState Pose Pairs L) : Prop :=
  ∀ d, r.details[iterIdx r.details.length s.iterVal]? = some d → s.scene.corner = some d.2.1

/-- rendered maps are those of record `r` -/
def Synced (r : Rec Pose Pairs L) (s : VState Pose Pairs L) : Prop :=
  ∃ g l, s.cacheG = some g ∧ s.cacheL = some l ∧ LayersShown r.global s.cbG g ∧ LayersShown r.loc s.cbL l

theorem showRec_good {r : Rec Pose Pairs L} {f : Pose} {regen reset : Bool} {s : VState Pose Pairs L} {ml mg : AMap String L}
    (hml : r.loc = some ml) (hmg : r.global = some mg) (hG : ∀ x ∈ s.cbG, x.1 ∈ mg.map (·.1)) (hL : ∀ x ∈ s.cbL, x.1 ∈ ml.map (·.1))
    (h0 : 0 ≤ s.iterVal) (hit : reset = false → r.details ≠ [] → s.iterVal ≤ ((r.details.length - 1 : Nat) : ℚ))
    (hsy : regen = true ∨ Synced r s) :
    ∃ s', showRec regen reset { r with final := f } s = .done s' ∧ ShowsRecord r f s' ∧ Synced r s' ∧ IterOk r s' ∧
      0 ≤ s'.iterVal ∧ SameCtl s s' ∧
      (reset = true → r.details ≠ [] → s'.iterVal = if s.showInit then 0 else ((r.details.length - 1 : Nat) : ℚ)) ∧
      (reset = false → s'.iterVal = s.iterVal) ∧ CornerOk r s' := by
  obtain ⟨s1, pose, prs, hch, hchosen, hio, hi0, hsame, hcg, hcl, hpb, hgb, hrs, hrs', hcor⟩ :=
    choose_good r f reset { s with poseBox := some f, guessBox := some r.guess } h0 hit
  have hrg : ∀ x ∈ checked s1.cbG, x ∈ mg.map (·.1) := by
    intro x hx
    rw [hsame.cbG] at hx
    obtain ⟨y, hy, rfl⟩ := List.mem_map.mp hx
    exact hG y (List.mem_filter.mp hy).1
  have hrl : ∀ x ∈ checked s1.cbL, x ∈ ml.map (·.1) := by
    intro x hx
    rw [hsame.cbL] at hx
    obtain ⟨y, hy, rfl⟩ := List.mem_map.mp hx
    exact hL y (List.mem_filter.mp hy).1
  obtain ⟨g, hg1, hg2⟩ : ∃ g, (if (regen || s1.cacheG.isNone) = true then renderSel mg (checked s1.cbG) else s1.cacheG) = some g ∧
      LayersShown r.global s1.cbG g := by
    split_ifs with hc
    · obtain ⟨g, a, b, c⟩ := renderSel_good _ hrg
      exact ⟨g, a, b, fun mm hmm => by rw [hmg] at hmm; cases hmm; exact c⟩
    · rcases hsy with hsy | ⟨g, l, a, b, c, d⟩
      · simp [hsy] at hc
      · refine ⟨g, by rw [hcg]; exact a, by rw [hsame.cbG]; exact c⟩
  obtain ⟨l, hl1, hl2⟩ : ∃ l, (if (regen || s1.cacheL.isNone) = true then renderSel ml (checked s1.cbL) else s1.cacheL) = some l ∧
      LayersShown r.loc s1.cbL l := by
    split_ifs with hc
    · obtain ⟨g, a, b, c⟩ := renderSel_good _ hrl
      exact ⟨g, a, b, fun mm hmm => by rw [hml] at hmm; cases hmm; exact c⟩
    · rcases hsy with hsy | ⟨g, l, a, b, c, d⟩
      · simp [hsy] at hc
      · refine ⟨l, by rw [hcl]; exact b, by rw [hsame.cbL]; exact d⟩
  have hsp : s1.showPairs = s.showPairs := hsame.showPairs
  refine ⟨{ s1 with cacheG := some g, cacheL := some l, scene := ⟨some pose, some g, some (l, pose), if s1.showPairs then some (prs, pose) else none⟩ }, ?_, ?_, ⟨g, l, rfl, rfl, hg2, hl2⟩, hio, hi0, ?_, hrs, hrs',
    fun d hd => congrArg some (hcor d hd)⟩
  · unfold showRec
    simp only [hml, hmg] at hch
    simp only [hml, hmg, hch]
    unfold drawGlobal
    rw [hg1]
    simp only
    unfold drawLocal
    simp only
    rw [hl1]
    simp only
    rw [hsp]
    cases s.showPairs <;> rfl
  · refine ⟨⟨pose, prs, g, l, ?_, hg2, hl2, rfl⟩, hpb, hgb⟩
    cases hchosen with
    | guess a b => exact Chosen.guess a b
    | result a b => exact Chosen.result a b
    | iteration k n p q a b c => exact Chosen.iteration k n _ _ a b c
  · exact ⟨hsame.cbG, hsame.cbL, hsame.showInit, hsame.showPairs, hsame.backOn, hsame.forwOn⟩

/-- what holds in all states, `j` being the last record shown -/
structure Base (recs : List (Rec Pose Pairs L)) (setComp : Pose → Fin 6 → ℚ → Pose) (es : List (Fin 6 × ℚ)) (s : VState Pose Pairs L)
    (j : Nat) (r : Rec Pose Pairs L) (f : Pose) : Prop where
  len : s.mem.length = recs.length
  last : s.lastIdx = some j
  only : ∀ k r, s.mem[k]? = some (some r) → s.lastIdx = some k
  isRec : recs[j]? = some r
  inMem : s.mem[j]? = some (some { r with final := f })
  tuned : Tuned setComp es r.final f
  cbG : ∀ r0 ∈ recs.head?, ∀ m0, r0.global = some m0 → ∀ x ∈ s.cbG, x.1 ∈ m0.map (·.1)
  cbL : ∀ r0 ∈ recs.head?, ∀ m0, r0.loc = some m0 → ∀ x ∈ s.cbL, x.1 ∈ m0.map (·.1)
  iter0 : 0 ≤ s.iterVal
  iter : IterOk r s

/-- what holds after each event -/
structure Inv (recs : List (Rec Pose Pairs L)) (setComp : Pose → Fin 6 → ℚ → Pose) (es : List (Fin 6 × ℚ)) (s : VState Pose Pairs L)
    (j : Nat) (r : Rec Pose Pairs L) (f : Pose) : Prop where
  base : Base recs setComp es s j r f
  shown : ∀ i, selIdx recs.length s.sel = some i →
    i = j ∧ Synced r s ∧ ShowsRecord r f s ∧ s.backOn = decide (0 < i) ∧ s.forwOn = decide (i + 1 < recs.length) ∧ CornerOk r s

/-- what an event needs before the view is rebuilt -/
structure Pre (recs : List (Rec Pose Pairs L)) (setComp : Pose → Fin 6 → ℚ → Pose) (es : List (Fin 6 × ℚ)) (s : VState Pose Pairs L)
    (i : Nat) (r : Rec Pose Pairs L) (f : Pose) : Prop where
  len : s.mem.length = recs.length
  isRec : recs[i]? = some r
  inMem : (freeLast s i)[i]? = some (some { r with final := f }) ∨ (freeLast s i)[i]? = some none ∧ f = r.final
  only : ∀ k r, (freeLast s i)[k]? = some (some r) → k = i
  tuned : Tuned setComp es r.final f
  cbG : ∀ r0 ∈ recs.head?, ∀ m0, r0.global = some m0 → ∀ x ∈ s.cbG, x.1 ∈ m0.map (·.1)
  cbL : ∀ r0 ∈ recs.head?, ∀ m0, r0.loc = some m0 → ∀ x ∈ s.cbL, x.1 ∈ m0.map (·.1)
  iter0 : 0 ≤ s.iterVal
  iter : s.lastIdx = some i → r.details ≠ [] → s.iterVal ≤ ((r.details.length - 1 : Nat) : ℚ)

theorem rebuild_in {recs : List (Rec Pose Pairs L)} {setComp : Pose → Fin 6 → ℚ → Pose} {es : List (Fin 6 × ℚ)} {s : VState Pose Pairs L}
    {i : Nat} {r : Rec Pose Pairs L} {f : Pose} {regen : Bool} (hg : GoodLogs recs) (hi : selIdx recs.length s.sel = some i)
    (h : Pre recs setComp es s i r f) (hsy : regen = true ∨ Synced r s) :
    ∃ s', rebuild (recs.map some) regen s = .done s' ∧ Inv recs setComp es s' i r f ∧ s'.sel = s.sel ∧ s'.showInit = s.showInit ∧
      s'.showPairs = s.showPairs ∧ s'.cbG = s.cbG ∧ s'.cbL = s.cbL ∧
      (s.lastIdx ≠ some i → r.details ≠ [] → s'.iterVal = if s.showInit then 0 else ((r.details.length - 1 : Nat) : ℚ)) ∧
      (s.lastIdx = some i → s'.iterVal = s.iterVal) := by
  have hin := (selIdx_some.mp hi).2
  have hrm : r ∈ recs := List.mem_of_getElem? h.isRec
  obtain ⟨ml, mg, hml, hmg⟩ := hg.maps r hrm
  obtain ⟨r0, hr0⟩ : ∃ r0, r0 ∈ recs.head? := by
    cases recs with
    | nil => simp at hin
    | cons a l => exact ⟨a, rfl⟩
  obtain ⟨ml0, mg0, hml0, hmg0⟩ := hg.maps r0 (List.mem_of_mem_head? hr0)
  obtain ⟨mem, hget, hmem, hmo, hml'⟩ : ∃ mem, getRec (recs.map some) (freeLast s i) i = some ({ r with final := f }, mem) ∧
      mem[i]? = some (some { r with final := f }) ∧ (∀ k r, mem[k]? = some (some r) → k = i) ∧ mem.length = recs.length := by
    have hfl := freeLast_length s i
    have hlen := h.len
    have hex : ∃ x, getRec (recs.map some) (freeLast s i) i = some x := by
      unfold getRec
      rw [List.getD_eq_getElem?_getD]
      rcases h.inMem with e | ⟨e, -⟩ <;> rw [e]
      · exact ⟨_, rfl⟩
      · simp only [Option.getD_some]
        rw [List.getD_eq_getElem?_getD, List.getElem?_map, h.isRec]
        exact ⟨_, rfl⟩
    obtain ⟨⟨r', mem⟩, hx⟩ := hex
    obtain ⟨g1, g2, g3, g4⟩ := getRec_some (by omega) hx
    have hr' : r' = { r with final := f } := by
      rcases h.inMem with e | ⟨e, hf⟩
      · rcases g4 with g4 | ⟨-, g4⟩
        · rw [e] at g4; simpa using g4.symm
        · rw [e] at g4; simp at g4
      · rcases g4 with g4 | ⟨g4, -⟩
        · rw [e] at g4; simp at g4
        · rw [List.getElem?_map, h.isRec] at g4
          simp only [Option.map_some, Option.some.injEq] at g4
          rw [hf, ← g4]
    subst hr'
    refine ⟨mem, hx, g2, fun k r' hk => ?_, by omega⟩
    by_contra hki
    rw [g3 k hki] at hk
    exact hki (h.only k r' hk)
  obtain ⟨s', h1, h2, h3, h4, h5, h6, h7, h7', h8⟩ := showRec_good (r := r) (f := f) (regen := regen) (reset := decide (s.lastIdx ≠ some i))
    (s := { s with backOn := decide (0 < i), forwOn := decide (i + 1 < recs.length), scene := {}, mem := mem, lastIdx := some i })
    hml hmg (fun x hx => hg.globals r0 hr0 r hrm _ _ hmg0 hmg _ (h.cbG r0 hr0 _ hmg0 x hx))
    (fun x hx => hg.locals r0 hr0 r hrm _ _ hml0 hml _ (h.cbL r0 hr0 _ hml0 x hx)) h.iter0
    (fun a b => h.iter (by simpa using a) b) hsy
  obtain ⟨f1, f2, f3⟩ := showRec_fields (Or.inl h1)
  simp only at f1 f2 f3
  refine ⟨s', ?_, ⟨⟨by rw [f1]; exact hml', f2, ?_, h.isRec, by rw [f1]; exact hmem, h.tuned, ?_, ?_, h5, h4⟩, ?_⟩, f3, h6.showInit,
    h6.showPairs, h6.cbG, h6.cbL, fun a b => h7 (by simpa using a) b, fun a => h7' (by simpa using a)⟩
  · unfold rebuild
    rw [List.length_map, hi]
    simp only [hget]
    exact h1
  · intro k r' hk
    rw [f1] at hk; rw [f2, hmo k r' hk]
  · rw [h6.cbG]; exact h.cbG
  · rw [h6.cbL]; exact h.cbL
  · intro k hk
    rw [f3, hi] at hk
    cases hk
    exact ⟨rfl, h3, h2, h6.backOn, h6.forwOn, h8⟩

theorem tuned_refl {setComp : Pose → Fin 6 → ℚ → Pose} (es : List (Fin 6 × ℚ)) (p : Pose) : Tuned setComp es p p :=
  ⟨[], List.nil_sublist _, rfl⟩

theorem Base.pre {recs : List (Rec Pose Pairs L)} {setComp : Pose → Fin 6 → ℚ → Pose} {es : List (Fin 6 × ℚ)} {s : VState Pose Pairs L}
    {j : Nat} {r : Rec Pose Pairs L} {f : Pose} (h : Base recs setComp es s j r f) {i : Nat} (hi : i < recs.length) :
    ∃ r' f', Pre recs setComp es s i r' f' ∧ (i = j → r' = r ∧ f' = f) ∧ (i ≠ j → f' = r'.final) := by
  by_cases hij : i = j
  · subst hij
    refine ⟨r, f, ⟨h.len, h.isRec, Or.inl ?_, fun k r' hk => freeLast_only (n := 0) h.only i k r' hk, h.tuned, h.cbG, h.cbL, h.iter0,
      fun _ hd => ?_⟩, fun _ => ⟨rfl, rfl⟩, fun e => absurd rfl e⟩
    · unfold freeLast
      rw [h.last]; simp only [if_true]; exact h.inMem
    · have := (h.iter.2 hd)
      rw [← this.2.1]; exact this.2.2
  · have hnone : (freeLast s i)[i]? = some none := by
      have hl := freeLast_length s i
      have hlen := h.len
      rw [List.getElem?_eq_getElem (by omega)]
      cases hc : (freeLast s i)[i]'(by omega) with
      | none => rfl
      | some r' =>
        exfalso
        unfold freeLast at hc
        simp only [h.last] at hc
        simp only [Ne.symm hij, if_false] at hc
        rw [List.getElem_set_ne (Ne.symm hij)] at hc
        have := h.only i r' (by rw [List.getElem?_eq_getElem (by omega), hc])
        rw [h.last] at this
        exact hij (Option.some.inj this).symm
    refine ⟨recs[i], recs[i].final, ⟨h.len, by rw [List.getElem?_eq_getElem hi], Or.inr ⟨hnone, rfl⟩,
      fun k r' hk => freeLast_only (n := 0) h.only i k r' hk, tuned_refl _ _, h.cbG, h.cbL, h.iter0, fun a => ?_⟩, fun e => absurd e hij,
      fun _ => rfl⟩
    rw [h.last] at a
    exact absurd (Option.some.inj a).symm hij

theorem Tuned.mono {setComp : Pose → Fin 6 → ℚ → Pose} {es es' : List (Fin 6 × ℚ)} {p q : Pose} (h : Tuned setComp es p q)
    (hs : es.Sublist es') : Tuned setComp es' p q := by
  obtain ⟨l, h1, h2⟩ := h
  exact ⟨l, h1.trans hs, h2⟩

theorem Base.mono {recs : List (Rec Pose Pairs L)} {setComp : Pose → Fin 6 → ℚ → Pose} {es es' : List (Fin 6 × ℚ)} {s : VState Pose Pairs L}
    {j : Nat} {r : Rec Pose Pairs L} {f : Pose} (h : Base recs setComp es s j r f) (hs : es.Sublist es') :
    Base recs setComp es' s j r f :=
  ⟨h.len, h.last, h.only, h.isRec, h.inMem, Tuned.mono h.tuned hs, h.cbG, h.cbL, h.iter0, h.iter⟩

/-- rebuilding, from a state of the invariant with changed controls -/
theorem rebuild_step {recs : List (Rec Pose Pairs L)} {setComp : Pose → Fin 6 → ℚ → Pose} {es : List (Fin 6 × ℚ)} {s : VState Pose Pairs L}
    {j : Nat} {r : Rec Pose Pairs L} {f : Pose} {regen : Bool} (hg : GoodLogs recs) (h : Base recs setComp es s j r f)
    (hsy : regen = true ∨ ∀ i, selIdx recs.length s.sel = some i → i = j ∧ Synced r s) :
    ∃ s', rebuild (recs.map some) regen s = .done s' ∧ (∃ j' r' f', Inv recs setComp es s' j' r' f') ∧ s'.sel = s.sel := by
  cases hi : selIdx recs.length s.sel with
  | none =>
    refine ⟨{ s with backOn := true, forwOn := false }, by unfold rebuild; rw [List.length_map, hi], ⟨j, r, f, ⟨?_, ?_⟩⟩, rfl⟩
    · exact ⟨h.len, h.last, h.only, h.isRec, h.inMem, h.tuned, h.cbG, h.cbL, h.iter0, h.iter⟩
    · intro i hi'
      simp only at hi'
      rw [hi] at hi'; cases hi'
  | some i =>
    obtain ⟨r', f', hp, he, -⟩ := h.pre (selIdx_some.mp hi).2
    obtain ⟨s', h1, h2, h3, -⟩ := rebuild_in (regen := regen) hg hi hp (by
      rcases hsy with hsy | hsy
      · exact Or.inl hsy
      · obtain ⟨a, b⟩ := hsy i hi
        rw [(he a).1]; exact Or.inr b)
    exact ⟨s', h1, ⟨i, r', f', h2⟩, h3⟩

theorem clamp_bounds {hi v : ℚ} (h : 0 ≤ hi) : 0 ≤ clamp hi v ∧ clamp hi v ≤ hi := by
  unfold clamp
  split_ifs with a b
  · exact ⟨le_rfl, h⟩
  · exact ⟨h, le_rfl⟩
  · exact ⟨not_lt.mp a, not_lt.mp b⟩

theorem cb_set {cb : AMap String Bool} {n : String} {v : Bool} {names : List String} (hn : (AMap.get cb n).isSome = true)
    (h : ∀ x ∈ cb, x.1 ∈ names) : ∀ x ∈ AMap.set cb n v, x.1 ∈ names := by
  intro x hx
  rcases (AMap.mem_set cb n v x).mp hx with rfl | ⟨hx, -⟩
  · obtain ⟨c, hc⟩ := Option.isSome_iff_exists.mp hn
    exact h (n, c) (AMap.mem_of_get cb n c hc)
  · exact h x hx

theorem getRec_mem {disk mem : List (Option (Rec Pose Pairs L))} {i : Nat} {r : Rec Pose Pairs L} (h : mem[i]? = some (some r)) :
    getRec disk mem i = some (r, mem) := by
  unfold getRec
  rw [List.getD_eq_getElem?_getD, h]; rfl

/-- changing a pose by hand -/
theorem manual_base {recs : List (Rec Pose Pairs L)} {setComp : Pose → Fin 6 → ℚ → Pose} {es : List (Fin 6 × ℚ)} {s : VState Pose Pairs L}
    {j : Nat} {r : Rec Pose Pairs L} {f : Pose} (h : Base recs setComp es s j r f) (c : Fin 6) (v : ℚ) :
    Base recs setComp (es ++ [(c, v)]) { s with mem := s.mem.set j (some { r with final := setComp f c v }) } j r (setComp f c v) := by
  have hj : j < s.mem.length := (List.getElem?_eq_some_iff.mp h.inMem).1
  refine ⟨by simpa using h.len, h.last, fun k r' hk => ?_, h.isRec, by simp [hj], ?_, h.cbG, h.cbL, h.iter0, h.iter⟩
  · by_cases hkj : k = j
    · rw [hkj]; exact h.last
    · simp only at hk
      rw [List.getElem?_set_ne (Ne.symm hkj)] at hk
      exact h.only k r' hk
  · obtain ⟨l, h1, h2⟩ := h.tuned
    refine ⟨l ++ [(c, v)], List.Sublist.append h1 (List.Sublist.refl _), ?_⟩
    rw [List.foldl_append, ← h2]; rfl

theorem step_good {recs : List (Rec Pose Pairs L)} {setComp : Pose → Fin 6 → ℚ → Pose} {es : List (Fin 6 × ℚ)} {s : VState Pose Pairs L}
    {j : Nat} {r : Rec Pose Pairs L} {f : Pose} (hg : GoodLogs recs) (h : Inv recs setComp es s j r f) (a : Act) :
    (∃ s', step (recs.map some) setComp s a = .done s' ∧ ∃ j' r' f', Inv recs setComp (es ++ manualEdits [a]) s' j' r' f') ∨
    (step (recs.map some) setComp s a = .threw s ∧ (∃ i v, a = .manual i v) ∧ selIdx recs.length s.sel = none) := by
  have hb := h.base
  have hself : ∃ s', Res.done s = Res.done s' ∧ ∃ j' r' f', Inv recs setComp es s' j' r' f' := ⟨s, rfl, j, r, f, h⟩
  have hfast : ∀ i, selIdx recs.length s.sel = some i → i = j ∧ Synced r s := fun i hi => ⟨(h.shown i hi).1, (h.shown i hi).2.1⟩
  have wrap : ∀ {o : Res (VState Pose Pairs L)} {t : VState Pose Pairs L}, (∃ s', o = .done s' ∧
      (∃ j' r' f', Inv recs setComp es s' j' r' f') ∧ s'.sel = t.sel) →
      ∃ s', o = .done s' ∧ ∃ j' r' f', Inv recs setComp es s' j' r' f' := fun ⟨s', h1, h2, _⟩ => ⟨s', h1, h2⟩
  have hsel : ∀ v, ∃ s', rebuild (recs.map some) true { s with sel := v } = .done s' ∧ ∃ j' r' f', Inv recs setComp es s' j' r' f' := by
    intro v
    exact wrap (rebuild_step (s := { s with sel := v }) hg
      ⟨hb.len, hb.last, hb.only, hb.isRec, hb.inMem, hb.tuned, hb.cbG, hb.cbL, hb.iter0, hb.iter⟩ (Or.inl rfl))
  have hnil : ∀ {b : Act}, manualEdits [b] = [] → es ++ manualEdits [b] = es := by intro b hb; rw [hb, List.append_nil]
  have hmax : s.iterOn = true → 0 ≤ s.iterMax ∧ r.details ≠ [] := by
    intro ho
    have hd : r.details ≠ [] := fun hd => by rw [hb.iter.1 hd] at ho; cases ho
    refine ⟨?_, hd⟩
    rw [(hb.iter.2 hd).2.1]; exact Nat.cast_nonneg _
  cases a with
  | dragSel v => left; rw [hnil rfl]; exact hsel _
  | back =>
    left; rw [hnil rfl]; simp only [step]
    split_ifs
    · exact hsel _
    · exact hself
  | forw =>
    left; rw [hnil rfl]; simp only [step]
    split_ifs
    · exact hsel _
    · exact hself
  | auto =>
    left; rw [hnil rfl]; simp only [step]
    split_ifs
    · exact hsel _
    · exact hself
  | key inc => left; rw [hnil rfl]; exact hsel _
  | dragIter v =>
    left; rw [hnil rfl]; simp only [step]
    split_ifs with ho
    · obtain ⟨h1, h2⟩ := hmax ho
      have hc := clamp_bounds (v := v) h1
      refine wrap (rebuild_step (s := { s with iterVal := clamp s.iterMax v }) hg
        ⟨hb.len, hb.last, hb.only, hb.isRec, hb.inMem, hb.tuned, hb.cbG, hb.cbL, hc.1, ⟨hb.iter.1, fun hd => ?_⟩⟩ (Or.inr hfast))
      obtain ⟨a, b, c⟩ := hb.iter.2 hd
      exact ⟨a, b, hc.2⟩
    · exact hself
  | initGuess v =>
    left; rw [hnil rfl]; simp only [step]
    refine wrap (rebuild_step (s := { s with showInit := v, iterVal := if s.iterOn then (if v then 0 else s.iterMax) else s.iterVal }) hg
      ⟨hb.len, hb.last, hb.only, hb.isRec, hb.inMem, hb.tuned, hb.cbG, hb.cbL, ?_, ⟨hb.iter.1, fun hd => ?_⟩⟩ (Or.inr hfast))
    · simp only
      split_ifs with a b
      · exact le_rfl
      · exact (hmax a).1
      · exact hb.iter0
    · obtain ⟨a, b, c⟩ := hb.iter.2 hd
      refine ⟨a, b, ?_⟩
      simp only [a, if_true]
      split_ifs
      · exact (hmax a).1
      · exact le_rfl
  | pairs v =>
    left; rw [hnil rfl]; simp only [step]
    exact wrap (rebuild_step (s := { s with showPairs := v }) hg
      ⟨hb.len, hb.last, hb.only, hb.isRec, hb.inMem, hb.tuned, hb.cbG, hb.cbL, hb.iter0, hb.iter⟩ (Or.inr hfast))
  | layerG n v =>
    left; rw [hnil rfl]; simp only [step]
    split_ifs with hn
    · exact wrap (rebuild_step (s := { s with cbG := AMap.set s.cbG n v }) hg
        ⟨hb.len, hb.last, hb.only, hb.isRec, hb.inMem, hb.tuned, fun r0 hr0 m0 hm0 => cb_set hn (hb.cbG r0 hr0 m0 hm0), hb.cbL,
          hb.iter0, hb.iter⟩ (Or.inl rfl))
    · exact hself
  | layerL n v =>
    left; rw [hnil rfl]; simp only [step]
    split_ifs with hn
    · exact wrap (rebuild_step (s := { s with cbL := AMap.set s.cbL n v }) hg
        ⟨hb.len, hb.last, hb.only, hb.isRec, hb.inMem, hb.tuned, hb.cbG, fun r0 hr0 m0 hm0 => cb_set hn (hb.cbL r0 hr0 m0 hm0),
          hb.iter0, hb.iter⟩ (Or.inl rfl))
    · exact hself
  | manual c v =>
    simp only [step, List.length_map]
    cases hi : selIdx recs.length s.sel with
    | none => right; exact ⟨rfl, ⟨c, v, rfl⟩, rfl⟩
    | some k =>
      left
      obtain ⟨hkj, hsy, -⟩ := h.shown k hi
      subst hkj
      simp only [getRec_mem hb.inMem]
      obtain ⟨s', h1, h2, -⟩ := rebuild_step (regen := false) hg (manual_base hb c v) (Or.inr fun i hi' => by
        simp only at hi'; rw [hi] at hi'; cases hi'; exact ⟨rfl, hsy⟩)
      exact ⟨s', h1, h2⟩
  | redraw full =>
    left; rw [hnil rfl]; simp only [step]
    exact wrap (rebuild_step hg hb (Or.inr hfast))

theorem run_good {recs : List (Rec Pose Pairs L)} {setComp : Pose → Fin 6 → ℚ → Pose} (hg : GoodLogs recs) (acts : List Act) :
    ∀ {es : List (Fin 6 × ℚ)} {s : VState Pose Pairs L}, (∃ j r f, Inv recs setComp es s j r f) →
      ∃ s', runFrom (recs.map some) setComp s acts = some s' ∧ ∃ j r f, Inv recs setComp (es ++ manualEdits acts) s' j r f := by
  induction acts with
  | nil => intro es s hs; exact ⟨s, rfl, by simpa [manualEdits] using hs⟩
  | cons a acts ih =>
    intro es s ⟨j, r, f, hs⟩
    have happ : es ++ manualEdits (a :: acts) = (es ++ manualEdits [a]) ++ manualEdits acts := by
      rw [List.append_assoc]; unfold manualEdits; rw [← List.filterMap_append]; rfl
    rw [happ]
    rcases step_good hg hs a with ⟨s', h1, h2⟩ | ⟨h1, -, -⟩
    · simp only [runFrom, h1]
      exact ih h2
    · simp only [runFrom, h1]
      exact ih ⟨j, r, f, ⟨hs.base.mono (List.sublist_append_left _ _), hs.shown⟩⟩

theorem start_good {recs : List (Rec Pose Pairs L)} (setComp : Pose → Fin 6 → ℚ → Pose) (hg : GoodLogs recs) (a b : Bool) :
    ∃ s, start (recs.map some) a b = .done (some s) ∧ (∃ j r f, Inv recs setComp [] s j r f) ∧ s.sel = 0 ∧ s.showInit = a ∧
      s.showPairs = b ∧ ∀ r0 ∈ recs.head?, s.cbG = boxesOf r0.global ∧ s.cbL = boxesOf r0.loc := by
  cases recs with
  | nil => exact absurd rfl hg.some_log
  | cons r0 rs =>
    simp only [start, List.map_cons]
    have h0 : selIdx (r0 :: rs).length (0 : ℚ) = some 0 := selIdx_some.mpr ⟨by simpa using round_int 0, by simp⟩
    obtain ⟨ml, mg, hml, hmg⟩ := hg.maps r0 List.mem_cons_self
    have hp : Pre (r0 :: rs) setComp [] (initial r0 (rs.map some) a b) 0 r0 r0.final := by
      refine ⟨by simp [initial], rfl, Or.inl rfl, fun k r hk => ?_, tuned_refl _ _, ?_, ?_, le_rfl, fun h => by cases h⟩
      · simp only [freeLast, initial] at hk
        cases k with
        | zero => rfl
        | succ k =>
          rw [List.getElem?_cons_succ, List.map_map, List.getElem?_map] at hk
          cases rs[k]? <;> simp at hk
      · intro r hr m0 hm0 x hx
        cases hr
        simp only [initial, hm0, boxesOf] at hx
        obtain ⟨y, hy, rfl⟩ := List.mem_map.mp hx
        exact List.mem_map.mpr ⟨y, hy, rfl⟩
      · intro r hr m0 hm0 x hx
        cases hr
        simp only [initial, hm0, boxesOf] at hx
        obtain ⟨y, hy, rfl⟩ := List.mem_map.mp hx
        exact List.mem_map.mpr ⟨y, hy, rfl⟩
    obtain ⟨s', h1, h2, h3, h4, h5, h6, h7, -⟩ := rebuild_in (regen := true) hg (s := initial r0 (rs.map some) a b) h0 hp (Or.inl rfl)
    rw [List.map_cons] at h1
    rw [h1]
    exact ⟨s', rfl, ⟨0, r0, r0.final, h2⟩, h3, h4, h5, fun r1 hr1 => by cases hr1; exact ⟨h6, h7⟩⟩

theorem choose_indep (r : Rec Pose Pairs L) (t t' : VState Pose Pairs L) (h1 : t.iterVal = t'.iterVal) (h2 : t.showInit = t'.showInit)
    (h3 : t.showPairs = t'.showPairs) : (choose r false t).2 = (choose r false t').2 := by
  unfold choose
  split
  · simp only [h2, h3]
  · simp only [h1, h3]; rfl

theorem choose_caches (r : Rec Pose Pairs L) (b : Bool) (t : VState Pose Pairs L) :
    (choose r b t).1.cacheG = t.cacheG ∧ (choose r b t).1.cacheL = t.cacheL := by
  unfold choose; split <;> exact ⟨rfl, rfl⟩

theorem rebuild_cached {disk : List (Option (Rec Pose Pairs L))} {t : VState Pose Pairs L} {i : Nat} {r : Rec Pose Pairs L}
    {ml mg : AMap String L} {g l : List (String × L)} (hi : selIdx disk.length t.sel = some i) (hla : t.lastIdx = some i)
    (hm : t.mem[i]? = some (some r)) (hml : r.loc = some ml) (hmg : r.global = some mg) (hg : t.cacheG = some g) (hl : t.cacheL = some l) :
    ∃ s2, rebuild disk false t = .done s2 ∧ s2.scene.global = some g ∧ s2.scene.loc = some (l, (choose r false t).2.1) ∧
      s2.scene.corner = some (choose r false t).2.1 := by
  have hfl : freeLast t i = t.mem := by unfold freeLast; rw [hla]; simp
  unfold rebuild
  simp only [hi, hfl, getRec_mem hm, hla, ne_eq, not_true_eq_false, decide_false]
  unfold showRec
  simp only [hml, hmg]
  obtain ⟨T, hT⟩ : ∃ T : VState Pose Pairs L, T = { t with
      backOn := decide (0 < i), forwOn := decide (i + 1 < disk.length), scene := {}, lastIdx := some i,
      poseBox := some r.final, guessBox := some r.guess } := ⟨_, rfl⟩
  have hx : (choose r false T).2 = (choose r false t).2 := choose_indep r _ _ (by rw [hT]) (by rw [hT]) (by rw [hT])
  have e2 : (choose r false T).1.cacheG = some g := by rw [(choose_caches r false T).1, hT]; exact hg
  have e3 : (choose r false T).1.cacheL = some l := by rw [(choose_caches r false T).2, hT]; exact hl
  rw [← hx]
  rw [hT] at e2 e3 ⊢
  unfold drawGlobal
  simp only [e2, Option.isNone_some, Bool.or_false, Bool.false_eq_true, if_false]
  unfold drawLocal
  simp only [e3, Option.isNone_some, Bool.or_false, Bool.false_eq_true, if_false]
  exact ⟨_, rfl, rfl, rfl, rfl⟩

end Verif.Lemmas.LogViewer
