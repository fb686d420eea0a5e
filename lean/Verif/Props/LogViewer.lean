import Verif.Lemmas.LogViewer
/-
Properties C95, C96: the log viewer.
-/
namespace Verif.Props
open Verif Verif.Spec Verif.LogView
open Lemmas.LogViewer
variable {Pose Pairs L : Type}

/-! ### C95 -/

/-- C95: at most one log is in memory at any time, whatever the files, the events and the exceptions met; it is the selected one, if
the slider is on one. -/
theorem one_log_in_memory {disk : List (Option (Rec Pose Pairs L))} {setComp : Pose → Fin 6 → ℚ → Pose} {a b : Bool}
    {s0 s : VState Pose Pairs L} (h0 : start disk a b = .done (some s0)) {acts : List Act}
    (h : runFrom disk setComp s0 acts = some s) :
    (∀ (j k : Nat) (r r' : Rec Pose Pairs L), s.mem[j]? = some (some r) → s.mem[k]? = some (some r') → j = k) ∧
    ∀ (i k : Nat) (r : Rec Pose Pairs L), i < disk.length → 2 * (s.sel - i) < 1 → 2 * ((i : ℚ) - s.sel) < 1 → s.mem[k]? = some (some r) → k = i := by
  obtain ⟨h1, h2, h3⟩ := run_mem acts (start_mem h0) h
  refine ⟨fun j k r r' hj hk => Option.some.inj ((h2 j r hj).symm.trans (h2 k r' hk)), fun i k r hi ha hb hk => ?_⟩
  have := h3 i (selIdx_some.mpr ⟨round_unique (by exact_mod_cast ha) (by exact_mod_cast hb), hi⟩)
  exact Option.some.inj ((h2 k r hk).symm.trans this)

/-- C95: with logs that have their maps, and the layers of the first one, the program starts, and whatever the user does, while the
slider is within its range (or less than half off it) the window shows the record nearest to it: the checked layers of its own maps, the
local one at the pose of the logged iteration nearest to the other slider (or at the initial guess or the result, without logged
iterations), the pairings of that iteration, and the result and initial guess in their boxes.  The result is the one in the file but for
changes made by hand. -/
theorem viewer_shows_selected {recs : List (Rec Pose Pairs L)} (hg : GoodLogs recs) (setComp : Pose → Fin 6 → ℚ → Pose) (a b : Bool) :
    ∃ s0, start (recs.map some) a b = .done (some s0) ∧ ∀ acts : List Act, ∃ s, runFrom (recs.map some) setComp s0 acts = some s ∧
      (-1 < 2 * s.sel → 2 * s.sel < 2 * recs.length - 1 → ∃ (i : Nat) (r : Rec Pose Pairs L) (res : Pose),
        2 * (s.sel - i) ≤ 1 ∧ 2 * ((i : ℚ) - s.sel) ≤ 1 ∧ recs[i]? = some r ∧ Tuned setComp (manualEdits acts) r.final res ∧
        ShowsRecord r res s) := by
  obtain ⟨s0, h1, h2, -⟩ := start_good setComp hg a b
  refine ⟨s0, h1, fun acts => ?_⟩
  obtain ⟨s, h3, j, r, f, h4⟩ := run_good (setComp := setComp) hg acts h2
  refine ⟨s, h3, fun hlo hhi => ?_⟩
  obtain ⟨n1, n2⟩ := round_near s.sel
  have hr0 : 0 ≤ roundEven s.sel := by
    by_contra hc
    have : (roundEven s.sel : ℚ) ≤ -1 := by exact_mod_cast (show roundEven s.sel ≤ -1 by omega)
    linarith
  have hr1 : roundEven s.sel < recs.length := by
    by_contra hc
    have : ((recs.length : ℤ) : ℚ) ≤ roundEven s.sel := by exact_mod_cast (show (recs.length : ℤ) ≤ roundEven s.sel by omega)
    push_cast at this
    linarith
  obtain ⟨i, hi⟩ := Int.eq_ofNat_of_zero_le hr0
  have hsi : selIdx recs.length s.sel = some i := selIdx_some.mpr ⟨hi, by omega⟩
  obtain ⟨e, -, h6, -⟩ := h4.shown i hsi
  rw [hi] at n1 n2
  subst e
  exact ⟨i, r, f, by exact_mod_cast n1, by exact_mod_cast n2, h4.base.isRec, by simpa using h4.base.tuned, h6⟩

/-- C95: at the start all layers of both maps of the first log are shown. -/
theorem all_layers_at_start {r0 : Rec Pose Pairs L} {rs : List (Rec Pose Pairs L)} (hg : GoodLogs (r0 :: rs)) (a b : Bool) {mg ml : AMap String L}
    (hmg : r0.global = some mg) (hml : r0.loc = some ml) :
    ∃ s0 g l pose, start ((r0 :: rs).map some) a b = .done (some s0) ∧ s0.scene.global = some g ∧ s0.scene.loc = some (l, pose) ∧
      g.map (·.1) = mg.map (·.1) ∧ l.map (·.1) = ml.map (·.1) := by
  obtain ⟨s0, h1, ⟨j, r, f, h2⟩, h3, -, -, h4⟩ := start_good (fun p _ _ => p) hg a b
  obtain ⟨h5, h6⟩ := h4 r0 rfl
  obtain ⟨e, -, h7, -⟩ := h2.shown 0 (selIdx_some.mpr ⟨by rw [h3]; decide +kernel, by simp⟩)
  obtain ⟨pose, prs, g, l, -, k1, k2, k3⟩ := h7.view
  have hb : ∀ m : AMap String L, ((boxesOf (some m)).filter (·.2)).map (·.1) = m.map (·.1) := by
    intro m
    simp only [boxesOf]
    rw [List.filter_map, List.map_map]
    have : List.filter ((fun x : String × Bool => x.2) ∘ fun x : String × L => (x.1, true)) m = m := List.filter_eq_self.mpr fun _ _ => rfl
    rw [this]
    rfl
  refine ⟨s0, g, l, pose, h1, by rw [k3], by rw [k3], ?_, ?_⟩
  · rw [k1.1, h5, hmg, hb]
  · rw [k2.1, h6, hml, hb]

/-- C95: no event fails, but for changes by hand while the slider is off its range. -/
theorem viewer_never_fails {recs : List (Rec Pose Pairs L)} (hg : GoodLogs recs) (setComp : Pose → Fin 6 → ℚ → Pose) {a b : Bool}
    {s0 s : VState Pose Pairs L} (h0 : start (recs.map some) a b = .done (some s0)) {acts : List Act}
    (h : runFrom (recs.map some) setComp s0 acts = some s) (act : Act) :
    (∃ s', step (recs.map some) setComp s act = .done s') ∨ (step (recs.map some) setComp s act = .threw s ∧ ∃ i v, act = .manual i v) := by
  obtain ⟨s0', h1, h2, -⟩ := start_good setComp hg a b
  rw [h0] at h1; cases h1
  obtain ⟨s', h3, j, r, f, h4⟩ := run_good (setComp := setComp) hg acts h2
  rw [h] at h3; cases h3
  rcases step_good hg h4 act with ⟨s', h5, -⟩ | ⟨h5, h6, -⟩
  · exact Or.inl ⟨s', h5⟩
  · exact Or.inr ⟨h5, h6⟩

/-! ### C96 -/

/-- a reachable state with good logs -/
theorem reach_inv {recs : List (Rec Pose Pairs L)} (hg : GoodLogs recs) {setComp : Pose → Fin 6 → ℚ → Pose} {a b : Bool}
    {s0 s : VState Pose Pairs L} (h0 : start (recs.map some) a b = .done (some s0)) {acts : List Act}
    (h : runFrom (recs.map some) setComp s0 acts = some s) : ∃ j r f, Inv recs setComp (manualEdits acts) s j r f := by
  obtain ⟨s0', h1, h2, -⟩ := start_good setComp hg a b
  rw [h0] at h1; cases h1
  obtain ⟨s', h3, j, r, f, h4⟩ := run_good (setComp := setComp) hg acts h2
  rw [h] at h3; cases h3
  exact ⟨j, r, f, by simpa using h4⟩

/-- moving the slider in a reachable state -/
theorem rebuild_sel {recs : List (Rec Pose Pairs L)} (hg : GoodLogs recs) {setComp : Pose → Fin 6 → ℚ → Pose} {es : List (Fin 6 × ℚ)}
    {s : VState Pose Pairs L} {j : Nat} {r : Rec Pose Pairs L} {f : Pose} (h : Inv recs setComp es s j r f) {v : ℚ} {k : Nat}
    (hk : selIdx recs.length v = some k) :
    ∃ s' r' f', rebuild (recs.map some) true { s with sel := v } = .done s' ∧ recs[k]? = some r' ∧ Tuned setComp es r'.final f' ∧
      ShowsRecord r' f' s' ∧ s'.sel = v ∧ (k ≠ j → f' = r'.final) ∧ Inv recs setComp es s' k r' f' := by
  have hb := h.base
  have hb' : Base recs setComp es { s with sel := v } j r f :=
    ⟨hb.len, hb.last, hb.only, hb.isRec, hb.inMem, hb.tuned, hb.cbG, hb.cbL, hb.iter0, hb.iter⟩
  obtain ⟨r', f', hp, -, hne⟩ := hb'.pre (selIdx_some.mp hk).2
  obtain ⟨s', h1, h2, h3, -⟩ := rebuild_in (regen := true) (s := { s with sel := v }) hg hk hp (Or.inl rfl)
  have h4 := (h2.shown k (by rw [h3]; exact hk)).2.2.1
  exact ⟨s', r', f', h1, h2.base.isRec, h2.base.tuned, h4, h3, hne, h2⟩

/-- The slider is less than half a step from record `i`. -/
def NearRec (recs : List (Rec Pose Pairs L)) (s : VState Pose Pairs L) (i : Nat) : Prop :=
  i < recs.length ∧ 2 * (s.sel - i) < 1 ∧ 2 * ((i : ℚ) - s.sel) < 1

theorem near_sel {recs : List (Rec Pose Pairs L)} {s : VState Pose Pairs L} {i : Nat} (h : NearRec recs s i) :
    selIdx recs.length s.sel = some i :=
  selIdx_some.mpr ⟨round_unique (by exact_mod_cast h.2.1) (by exact_mod_cast h.2.2), h.1⟩

/-- the step of one event that moves the slider by one -/
theorem move_one {recs : List (Rec Pose Pairs L)} (hg : GoodLogs recs) {setComp : Pose → Fin 6 → ℚ → Pose} {es : List (Fin 6 × ℚ)}
    {s : VState Pose Pairs L} {j : Nat} {r : Rec Pose Pairs L} {f : Pose} (h : Inv recs setComp es s j r f) {v : ℚ} {k : Nat}
    (hkn : k < recs.length) (h1 : 2 * (v - k) < 1) (h2 : 2 * ((k : ℚ) - v) < 1) :
    ∃ s' r' f', rebuild (recs.map some) true { s with sel := v } = .done s' ∧ recs[k]? = some r' ∧ Tuned setComp es r'.final f' ∧
      ShowsRecord r' f' s' ∧ NearRec recs s' k ∧ (k ≠ j → f' = r'.final) := by
  have hk : selIdx recs.length v = some k := selIdx_some.mpr ⟨round_unique (by exact_mod_cast h1) (by exact_mod_cast h2), hkn⟩
  obtain ⟨s', r', f', a1, a2, a3, a4, a5, a6, -⟩ := rebuild_sel hg h hk
  exact ⟨s', r', f', a1, a2, a3, a4, ⟨hkn, by rw [a5]; exact h1, by rw [a5]; exact h2⟩, a6⟩

/-- C96 (partial): the buttons go to the previous and the next record, and do nothing at the first and the last one; the play mode goes to the
next one; a key goes as many records on as it says, but no further than the first or the last.  Missing: sliders half way between two
records (`half_way_skips`) and the play mode at the last one (`autoplay_runs_off`). -/
theorem buttons_visit_neighbours_partial {recs : List (Rec Pose Pairs L)} (hg : GoodLogs recs) {setComp : Pose → Fin 6 → ℚ → Pose} {a b : Bool}
    {s0 s : VState Pose Pairs L} (h0 : start (recs.map some) a b = .done (some s0)) {acts : List Act}
    (h : runFrom (recs.map some) setComp s0 acts = some s) {i : Nat} (hi : NearRec recs s i) :
    (∀ act k, (act = .back ∧ k + 1 = i) ∨ ((act = .forw ∨ act = .auto) ∧ k = i + 1 ∧ k < recs.length) ∨
        (∃ inc : ℤ, act = .key inc ∧ (k : ℤ) = min ((recs.length : ℤ) - 1) (max 0 ((i : ℤ) + inc))) →
      ∃ s' r, step (recs.map some) setComp s act = .done s' ∧ NearRec recs s' k ∧ recs[k]? = some r ∧ ∃ res, ShowsRecord r res s' ∧
        Tuned setComp (manualEdits acts) r.final res ∧ (k ≠ i → res = r.final)) ∧
    (i = 0 → step (recs.map some) setComp s .back = .done s) ∧ (i + 1 = recs.length → step (recs.map some) setComp s .forw = .done s) := by
  obtain ⟨j, r, f, hinv⟩ := reach_inv hg h0 h
  have hsel := near_sel hi
  obtain ⟨hij, -, -, hback, hforw, -⟩ := hinv.shown i hsel
  subst hij
  obtain ⟨hin, n1, n2⟩ := hi
  refine ⟨?_, ?_, ?_⟩
  · intro act k hact
    rcases hact with ⟨rfl, hk⟩ | ⟨hact, hk, hkn⟩ | ⟨inc, rfl, hk⟩
    · have hik : (i : ℚ) = k + 1 := by rw [← hk]; push_cast; ring
      obtain ⟨s', r', f', a1, a2, a3, a4, a5, a6⟩ := move_one hg hinv (v := s.sel - 1) (k := k) (by omega) (by linarith) (by linarith)
      refine ⟨s', r', ?_, a5, a2, f', a4, a3, a6⟩
      have hpos : (0 : ℚ) < s.sel := by
        have : (0 : ℚ) ≤ k := Nat.cast_nonneg _
        linarith
      simp only [step, hback]
      rw [if_pos (by simp [hpos]; omega)]
      exact a1
    · have hik : (k : ℚ) = i + 1 := by rw [hk]; push_cast; ring
      obtain ⟨s', r', f', a1, a2, a3, a4, a5, a6⟩ := move_one hg hinv (v := s.sel + 1) (k := k) hkn (by linarith) (by linarith)
      refine ⟨s', r', ?_, a5, a2, f', a4, a3, a6⟩
      have hkn' : (k : ℚ) + 1 ≤ recs.length := by exact_mod_cast hkn
      have hlt : s.sel < (recs.length : ℚ) - 1 - 1 / 100 := by linarith
      rcases hact with rfl | rfl
      · simp only [step, hforw, List.length_map]
        rw [if_pos (by rw [decide_eq_true hlt, decide_eq_true (by omega)]; rfl)]
        exact a1
      · simp only [step, List.length_map]
        rw [if_pos hlt]
        exact a1
    · have hN : 1 ≤ recs.length := by omega
      have hN' : (1 : ℚ) ≤ recs.length := by exact_mod_cast hN
      have hkn : k < recs.length := by omega
      have key : 2 * (clamp ((recs.length : ℚ) - 1) (s.sel + inc) - k) < 1 ∧ 2 * ((k : ℚ) - clamp ((recs.length : ℚ) - 1) (s.sel + inc)) < 1 := by
        rcases lt_trichotomy ((i : ℤ) + inc) 0 with hc | hc | hc
        · have hk0 : k = 0 := by omega
          have : ((i : ℚ) + inc) ≤ -1 := by exact_mod_cast (show (i : ℤ) + inc ≤ -1 by omega)
          have : s.sel + inc < 0 := by linarith
          unfold clamp
          rw [if_pos this, hk0]; norm_num
        · have hk0 : k = 0 := by omega
          have : ((i : ℚ) + inc) = 0 := by exact_mod_cast hc
          rw [hk0]
          unfold clamp
          split_ifs with c1 c2
          · norm_num
          · push_cast; constructor <;> linarith
          · push_cast; constructor <;> linarith
        · have hpos : (1 : ℚ) ≤ (i : ℚ) + inc := by exact_mod_cast (show 1 ≤ (i : ℤ) + inc by omega)
          have c0 : ¬ s.sel + inc < 0 := by linarith
          unfold clamp
          rw [if_neg c0]
          by_cases hbig : (recs.length : ℤ) - 1 < i + inc
          · have hk1 : (k : ℚ) = recs.length - 1 := by
              have : (k : ℤ) = recs.length - 1 := by omega
              exact_mod_cast this
            have : (recs.length : ℚ) ≤ (i : ℚ) + inc := by exact_mod_cast (show (recs.length : ℤ) ≤ i + inc by omega)
            rw [if_pos (by linarith), hk1]
            constructor <;> linarith
          · have hk1 : (k : ℚ) = i + inc := by
              have : (k : ℤ) = i + inc := by omega
              exact_mod_cast this
            have : (i : ℚ) + inc ≤ recs.length - 1 := by exact_mod_cast (show (i : ℤ) + inc ≤ recs.length - 1 by omega)
            split_ifs with c2
            · constructor <;> linarith
            · constructor <;> linarith
      obtain ⟨s', r', f', a1, a2, a3, a4, a5, a6⟩ := move_one hg hinv (v := clamp ((recs.length : ℚ) - 1) (s.sel + inc)) hkn key.1 key.2
      refine ⟨s', r', ?_, a5, a2, f', a4, a3, a6⟩
      simp only [step, List.length_map]
      exact a1
  · intro e
    subst e
    simp [step, hback]
  · intro e
    simp [step, hforw, e]

theorem round_half_even (k : ℕ) : roundEven (2 * k + 1 / 2) = 2 * k := by
  have hf : ⌊(2 * (k : ℚ) + 1 / 2)⌋ = 2 * (k : ℤ) := by
    rw [Int.floor_eq_iff]; push_cast; constructor <;> linarith
  unfold roundEven
  rw [hf]
  push_cast
  rw [if_neg (by linarith), if_neg (by linarith), if_pos (by omega)]

theorem round_half_odd (k : ℕ) : roundEven (2 * k + 3 / 2) = 2 * k + 2 := by
  have hf : ⌊(2 * (k : ℚ) + 3 / 2)⌋ = 2 * (k : ℤ) + 1 := by
    rw [Int.floor_eq_iff]; push_cast; constructor <;> linarith
  unfold roundEven
  rw [hf]
  push_cast
  rw [if_neg (by linarith), if_neg (by linarith), if_neg (by omega)]
  ring

/-- C96, negative: with the slider half way between two records, the "next" button passes over a record: from record 2k, shown there, it
goes to 2k+2, and pressing it again, half way before that, shows the same record once more. -/
theorem half_way_skips {recs : List (Rec Pose Pairs L)} (hg : GoodLogs recs) {setComp : Pose → Fin 6 → ℚ → Pose} {a b : Bool}
    {s0 s : VState Pose Pairs L} (h0 : start (recs.map some) a b = .done (some s0)) {acts : List Act}
    (h : runFrom (recs.map some) setComp s0 acts = some s) {k : Nat} (hk : 2 * k + 3 < recs.length) :
    ∃ s1 s2 s3 r1 r2 f1 f2, step (recs.map some) setComp s (.dragSel (2 * k + 1 / 2)) = .done s1 ∧
      step (recs.map some) setComp s1 .forw = .done s2 ∧ step (recs.map some) setComp s2 .forw = .done s3 ∧
      recs[2 * k]? = some r1 ∧ recs[2 * k + 2]? = some r2 ∧ ShowsRecord r1 f1 s1 ∧ ShowsRecord r2 f2 s2 ∧ ShowsRecord r2 f2 s3 := by
  obtain ⟨j, r, f, hinv⟩ := reach_inv hg h0 h
  have hk' : (2 * (k : ℚ) + 4) ≤ recs.length := by exact_mod_cast (show 2 * k + 4 ≤ recs.length by omega)
  have hkn : (0 : ℚ) ≤ k := Nat.cast_nonneg _
  have e1 : selIdx recs.length (2 * (k : ℚ) + 1 / 2) = some (2 * k) := selIdx_some.mpr ⟨by rw [round_half_even]; push_cast; rfl, by omega⟩
  have e2 : selIdx recs.length (2 * (k : ℚ) + 3 / 2) = some (2 * k + 2) := selIdx_some.mpr ⟨by rw [round_half_odd]; push_cast; rfl, by omega⟩
  have e3 : selIdx recs.length (2 * (k : ℚ) + 5 / 2) = some (2 * k + 2) :=
    selIdx_some.mpr ⟨by
      have := round_half_even (k + 1)
      have e : (2 * ((k + 1 : ℕ) : ℚ) + 1 / 2) = 2 * k + 5 / 2 := by push_cast; ring
      rw [e] at this; rw [this]; push_cast; ring, by omega⟩
  obtain ⟨s1, r1, f1, a1, a2, -, a4, a5, -, a7⟩ := rebuild_sel hg hinv e1
  have hf1 := (a7.shown _ (by rw [a5]; exact e1)).2.2.2.2.1
  obtain ⟨s2, r2, f2, b1, b2, -, b4, b5, -, b7⟩ := rebuild_sel hg a7 e2
  have hf2 := (b7.shown _ (by rw [b5]; exact e2)).2.2.2.2.1
  obtain ⟨s3, r3, f3, c1, c2, -, c4, c5, -, c7⟩ := rebuild_sel hg b7 e3
  have hcl : clamp ((recs.length : ℚ) - 1) (2 * k + 1 / 2) = 2 * k + 1 / 2 := by
    unfold clamp
    rw [if_neg (by linarith), if_neg (by linarith)]
  rw [b2] at c2
  cases c2
  have hff : f3 = f2 := by
    have p1 := c7.base.inMem
    obtain ⟨_, hpb, -⟩ := c4
    obtain ⟨_, hpb2, -⟩ := b4
    -- the record stays in memory
    have hlast := b7.base.inMem
    have : s3.mem = s2.mem := by
      have hreb := c1
      unfold rebuild at hreb
      rw [List.length_map] at hreb
      simp only [e3] at hreb
      have hfl : freeLast { s2 with sel := 2 * (k : ℚ) + 5 / 2 } (2 * k + 2) = s2.mem := by
        unfold freeLast
        simp only [b7.base.last, if_true]
      rw [hfl, getRec_mem hlast] at hreb
      exact (showRec_fields (Or.inl hreb)).1
    rw [this, hlast] at p1
    simp only [Option.some.injEq, Rec.mk.injEq] at p1
    exact p1.2.1.symm
  subst hff
  refine ⟨s1, s2, s3, r1, r2, f1, f3, ?_, ?_, ?_, a2, b2, a4, b4, c4⟩
  · simp only [step, List.length_map, hcl]; exact a1
  · have e : s1.sel + 1 = 2 * (k : ℚ) + 3 / 2 := by rw [a5]; ring
    have hc : (s1.forwOn && decide (s1.sel < (recs.length : ℚ) - 1 - 1 / 100)) = true := by
      rw [hf1, decide_eq_true (by omega), decide_eq_true (by rw [a5]; linarith)]; rfl
    simp only [step, List.length_map]
    rw [if_pos hc, e]; exact b1
  · have e : s2.sel + 1 = 2 * (k : ℚ) + 5 / 2 := by rw [b5]; ring
    have hc : (s2.forwOn && decide (s2.sel < (recs.length : ℚ) - 1 - 1 / 100)) = true := by
      rw [hf2, decide_eq_true (by omega), decide_eq_true (by rw [b5]; linarith)]; rfl
    simp only [step, List.length_map]
    rw [if_pos hc, e]; exact c1

/-- C96, negative: in play mode, with the slider a little before the last record, the slider runs off its range: the view stays as it was, and
from then on changes by hand throw. -/
theorem autoplay_runs_off {recs : List (Rec Pose Pairs L)} (hg : GoodLogs recs) {setComp : Pose → Fin 6 → ℚ → Pose} {a b : Bool}
    {s0 s : VState Pose Pairs L} (h0 : start (recs.map some) a b = .done (some s0)) {acts : List Act}
    (h : runFrom (recs.map some) setComp s0 acts = some s) (h1 : (recs.length : ℚ) - 3 / 2 < s.sel)
    (h2 : s.sel < (recs.length : ℚ) - 1 - 1 / 100) :
    ∃ s', step (recs.map some) setComp s .auto = .done s' ∧ s'.scene = s.scene ∧ (recs.length : ℚ) - 1 < s'.sel ∧
      ∀ i v, step (recs.map some) setComp s' (.manual i v) = .threw s' := by
  have hsel : selIdx recs.length (s.sel + 1) = none := by
    cases hc : selIdx recs.length (s.sel + 1) with
    | none => rfl
    | some i =>
      exfalso
      obtain ⟨c1, c2⟩ := selIdx_some.mp hc
      obtain ⟨n1, n2⟩ := round_near (s.sel + 1)
      rw [c1] at n1 n2
      have : (i : ℚ) + 1 ≤ recs.length := by exact_mod_cast c2
      push_cast at n1 n2
      linarith
  refine ⟨{ s with sel := s.sel + 1, backOn := true, forwOn := false }, ?_, rfl, by simp only; linarith, fun i v => ?_⟩
  · simp only [step, List.length_map]
    rw [if_pos h2]
    unfold rebuild
    simp only [List.length_map, hsel]
  · simp only [step, List.length_map, hsel]

/-- C96 (partial): the box "Show at INITIAL GUESS pose".  Without logged iterations it shows the initial guess, or the result when it is
unchecked.  With logged iterations it shows the pose *after* the first one logged instead, and the last one logged when it is unchecked.
Missing: with logged iterations, the initial guess. -/
theorem initial_guess_box_partial {recs : List (Rec Pose Pairs L)} (hg : GoodLogs recs) {setComp : Pose → Fin 6 → ℚ → Pose} {a b : Bool}
    {s0 s : VState Pose Pairs L} (h0 : start (recs.map some) a b = .done (some s0)) {acts : List Act}
    (h : runFrom (recs.map some) setComp s0 acts = some s) {i : Nat} (hi : NearRec recs s i) {r : Rec Pose Pairs L} (hr : recs[i]? = some r)
    (v : Bool) :
    ∃ s' res, step (recs.map some) setComp s (.initGuess v) = .done s' ∧ Tuned setComp (manualEdits acts) r.final res ∧
      (r.details = [] → s'.scene.corner = some (if v then r.guess else res)) ∧
      ∀ d ∈ (if v then r.details.head? else r.details.getLast?), s'.scene.corner = some d.2.1 := by
  obtain ⟨j, r', f, hinv⟩ := reach_inv hg h0 h
  have hsel := near_sel hi
  obtain ⟨hij, hsy, -⟩ := hinv.shown i hsel
  subst hij
  have hb := hinv.base
  have := hb.isRec
  rw [hr] at this
  cases this
  have hmax : s.iterOn = true → 0 ≤ s.iterMax ∧ r.details ≠ [] := by
    intro ho
    have hd : r.details ≠ [] := fun hd => by rw [hb.iter.1 hd] at ho; cases ho
    refine ⟨?_, hd⟩
    rw [(hb.iter.2 hd).2.1]; exact Nat.cast_nonneg _
  have hb' : Base recs setComp (manualEdits acts)
      { s with showInit := v, iterVal := if s.iterOn then (if v then 0 else s.iterMax) else s.iterVal } i r f := by
    refine ⟨hb.len, hb.last, hb.only, hb.isRec, hb.inMem, hb.tuned, hb.cbG, hb.cbL, ?_, ⟨hb.iter.1, fun hd => ?_⟩⟩
    · simp only
      split_ifs with a b
      · exact le_rfl
      · exact (hmax a).1
      · exact hb.iter0
    · obtain ⟨a, b, c⟩ := hb.iter.2 hd
      refine ⟨a, b, ?_⟩
      simp only [a, if_true]
      split_ifs
      · exact (hmax a).1
      · exact le_rfl
  obtain ⟨r', f', hp, he, -⟩ := hb'.pre hi.1
  obtain ⟨rfl, rfl⟩ := he rfl
  obtain ⟨s', q1, q2, q3, q4, q5, q6, q7, q8, q9⟩ := rebuild_in (regen := false)
    (s := { s with showInit := v, iterVal := if s.iterOn then (if v then 0 else s.iterMax) else s.iterVal }) hg hsel hp (Or.inr hsy)
  obtain ⟨-, -, hshow, -⟩ := q2.shown i (by rw [q3]; exact hsel)
  obtain ⟨⟨pose, prs, g, l, hch, -, -, hsc⟩, -⟩ := hshow
  refine ⟨s', f', q1, hb.tuned, ?_, ?_⟩
  · intro hd
    rw [hsc]
    simp only at q4
    cases hch with
    | guess c1 c2 => rw [q4] at c2; simp [c2]
    | result c1 c2 => rw [q4] at c2; simp [c2]
    | iteration k n p q c1 => rw [hd] at c1; simp at c1
  · intro d hd
    have hne : r'.details ≠ [] := by
      rintro e; rw [e] at hd; cases v <;> simp at hd
    obtain ⟨i1, i2, i3⟩ := hb.iter.2 hne
    have hv := q9 hb.last
    simp only [i1, if_true] at hv
    rw [i2] at hv
    rw [hsc]
    cases hch with
    | guess c1 c2 => exact absurd c1 hne
    | result c1 c2 => exact absurd c1 hne
    | iteration k n p q c1 c2 c3 =>
      rw [hv] at c2 c3
      have hkl : k < r'.details.length := (List.getElem?_eq_some_iff.mp c1).1
      cases v with
      | true =>
        simp only [if_true] at c2 c3 hd
        have : (k : ℚ) < 1 := by linarith
        have : k < 1 := by exact_mod_cast this
        have hk0 : k = 0 := by omega
        rw [hk0, ← List.head?_eq_getElem?] at c1
        rw [c1] at hd
        cases hd
        rfl
      | false =>
        simp only [Bool.false_eq_true, if_false] at c2 c3 hd
        have : ((r'.details.length - 1 : Nat) : ℚ) < (k : ℚ) + 1 := by linarith
        have : r'.details.length - 1 < k + 1 := by exact_mod_cast this
        have hk0 : k = r'.details.length - 1 := by omega
        rw [hk0, ← List.getLast?_eq_getElem?] at c1
        rw [c1] at hd
        cases hd
        rfl

/-- C96 (partial): "Manual solution modification".  Without logged iterations, and with the result shown, the local map moves to the pose changed;
with logged iterations nothing moves, only the text of the result changes.  Missing: with logged iterations, the effect on the view. -/
theorem manual_change_partial {recs : List (Rec Pose Pairs L)} (hg : GoodLogs recs) {setComp : Pose → Fin 6 → ℚ → Pose} {a b : Bool}
    {s0 s : VState Pose Pairs L} (h0 : start (recs.map some) a b = .done (some s0)) {acts : List Act}
    (h : runFrom (recs.map some) setComp s0 acts = some s) {i : Nat} (hi : NearRec recs s i) {r : Rec Pose Pairs L} (hr : recs[i]? = some r)
    (c : Fin 6) (v : ℚ) :
    ∃ s' res, step (recs.map some) setComp s (.manual c v) = .done s' ∧ s.poseBox = some res ∧ s'.poseBox = some (setComp res c v) ∧
      (r.details = [] → s.showInit = false → s.scene.corner = some res ∧ s'.scene.corner = some (setComp res c v)) ∧
      (r.details ≠ [] ∨ s.showInit = true → s'.scene.corner = s.scene.corner) := by
  obtain ⟨j, r', f, hinv⟩ := reach_inv hg h0 h
  have hsel := near_sel hi
  obtain ⟨hij, hsy, hshow, -, -, hco⟩ := hinv.shown i hsel
  subst hij
  have hb := hinv.base
  have := hb.isRec
  rw [hr] at this
  cases this
  have hb' := manual_base hb c v
  obtain ⟨r', f', hp, he, -⟩ := hb'.pre hi.1
  obtain ⟨rfl, rfl⟩ := he rfl
  obtain ⟨s', q1, q2, q3, q4, q5, q6, q7, q8, q9⟩ := rebuild_in (regen := false)
    (s := { s with mem := s.mem.set i (some { r' with final := setComp f c v }) }) hg hsel hp (Or.inr hsy)
  obtain ⟨-, -, hshow', -, -, hco'⟩ := q2.shown i (by rw [q3]; exact hsel)
  have hstep : step (recs.map some) setComp s (.manual c v) = .done s' := by
    simp only [step, List.length_map, hsel, getRec_mem hb.inMem]
    exact q1
  obtain ⟨⟨pose, prs, g, l, hch, -, -, hsc⟩, hbx, -⟩ := hshow
  obtain ⟨⟨pose', prs', g', l', hch', -, -, hsc'⟩, hbx', -⟩ := hshow'
  simp only at q4
  have hit := q9 hb.last
  simp only at hit
  refine ⟨s', f, hstep, hbx, hbx', ?_, ?_⟩
  · intro hd hs
    rw [hsc, hsc']
    constructor
    · cases hch with
      | guess c1 c2 => rw [hs] at c2; cases c2
      | result c1 c2 => rfl
      | iteration k n p q c1 => rw [hd] at c1; simp at c1
    · cases hch' with
      | guess c1 c2 => rw [q4, hs] at c2; cases c2
      | result c1 c2 => rfl
      | iteration k n p q c1 => rw [hd] at c1; simp at c1
  · intro hor
    by_cases hd : r'.details = []
    · have hs : s.showInit = true := hor.resolve_left (fun e => e hd)
      rw [hsc, hsc']
      cases hch with
      | result c1 c2 => rw [hs] at c2; cases c2
      | iteration k n p q c1 => rw [hd] at c1; simp at c1
      | guess c1 c2 =>
        cases hch' with
        | result c1 c2 => rw [q4, hs] at c2; cases c2
        | iteration k n p q c1 => rw [hd] at c1; simp at c1
        | guess c1 c2 => rfl
    · have hlen : 0 < r'.details.length := List.length_pos_iff.mpr hd
      have hlt : iterIdx r'.details.length s.iterVal < r'.details.length := by
        unfold iterIdx; split_ifs <;> omega
      have e1 := hco _ (List.getElem?_eq_getElem hlt)
      have e2 := hco' r'.details[iterIdx r'.details.length s.iterVal] (by rw [hit]; exact List.getElem?_eq_getElem hlt)
      rw [e1, e2]

/-- C96, negative: changes made by hand are lost when another record is selected: it is shown with the result of its file, whatever was
changed in it before. -/
theorem manual_changes_lost {recs : List (Rec Pose Pairs L)} (hg : GoodLogs recs) {setComp : Pose → Fin 6 → ℚ → Pose} {a b : Bool}
    {s0 s : VState Pose Pairs L} (h0 : start (recs.map some) a b = .done (some s0)) {acts : List Act}
    (h : runFrom (recs.map some) setComp s0 acts = some s) {i : Nat} (hi : NearRec recs s i) {k : Nat} (hk : k < recs.length) (hki : k ≠ i) :
    ∃ s' r, step (recs.map some) setComp s (.dragSel k) = .done s' ∧ recs[k]? = some r ∧ ShowsRecord r r.final s' := by
  obtain ⟨j, r, f, hinv⟩ := reach_inv hg h0 h
  obtain ⟨hij, -⟩ := hinv.shown i (near_sel hi)
  subst hij
  have hk' : (k : ℚ) ≤ recs.length - 1 := by
    have : (k : ℚ) + 1 ≤ recs.length := by exact_mod_cast hk
    linarith
  have hcl : clamp ((recs.length : ℚ) - 1) k = k := by
    unfold clamp
    rw [if_neg (by simp), if_neg (by linarith)]
  obtain ⟨s', r', f', a1, a2, -, a4, -, a6⟩ := move_one hg hinv (v := (k : ℚ)) hk (by linarith) (by linarith)
  refine ⟨s', r', ?_, a2, ?_⟩
  · simp only [step, List.length_map, hcl]; exact a1
  · rw [← a6 hki]; exact a4

/-- C96, negative: if the selected record has no layer of a checked name (a layer the first record has), showing it throws, and no map is
shown; the next event that does not render the maps again shows the maps rendered before, of another record, as if they were of this one,
the local one at the pose of this record. -/
theorem missing_layer_stale {disk : List (Option (Rec Pose Pairs L))} {s : VState Pose Pairs L} {i : Nat} {r : Rec Pose Pairs L}
    {mem : List (Option (Rec Pose Pairs L))} {ml mg : AMap String L} {g l : List (String × L)} {n : String}
    (hi : selIdx disk.length s.sel = some i) (hr : getRec disk (freeLast s i) i = some (r, mem)) (hin : i < s.mem.length)
    (hml : r.loc = some ml) (hmg : r.global = some mg)
    (hn : (n, true) ∈ s.cbG) (hmiss : n ∉ mg.map (·.1)) (hg : s.cacheG = some g) (hl : s.cacheL = some l) :
    ∃ s1 pose, rebuild disk true s = .threw s1 ∧ s1.scene = { corner := some pose } ∧
      ∃ s2, rebuild disk false s1 = .done s2 ∧ s2.scene.global = some g ∧ s2.scene.loc = some (l, pose) ∧ s2.scene.corner = some pose := by
  have hmem := getRec_some (by rw [freeLast_length]; exact hin) hr
  have hthrow : ∀ ns : List String, n ∈ ns → renderSel mg ns = none := by
    intro ns
    induction ns with
    | nil => intro h; cases h
    | cons a ns ih =>
      intro h
      simp only [renderSel]
      rcases List.mem_cons.mp h with rfl | h
      · rw [(AMap.get_none_iff mg n).mpr fun e he hen => hmiss (List.mem_map.mpr ⟨e, he, hen⟩)]
      · rw [ih h]; cases AMap.get mg a <;> rfl
  have hck : n ∈ checked s.cbG := List.mem_map.mpr ⟨(n, true), List.mem_filter.mpr ⟨hn, rfl⟩, rfl⟩
  obtain ⟨ls, gs, hc⟩ : ∃ ls : VState Pose Pairs L, ∃ gs : Pose × Option Pairs, choose r (decide (s.lastIdx ≠ some i))
      { s with backOn := decide (0 < i), forwOn := decide (i + 1 < disk.length), scene := {}, mem := mem, lastIdx := some i,
               poseBox := some r.final, guessBox := some r.guess } = (ls, gs) := ⟨_, _, rfl⟩
  have hf : ls.cbG = s.cbG ∧ ls.cacheG = s.cacheG ∧ ls.cacheL = s.cacheL ∧ ls.mem = mem ∧ ls.lastIdx = some i ∧ ls.sel = s.sel := by
    have := congrArg Prod.fst hc
    simp only at this
    rw [← this]
    unfold choose
    split <;> exact ⟨rfl, rfl, rfl, rfl, rfl, rfl⟩
  have hagain : ∀ t : VState Pose Pairs L, t.iterVal = ls.iterVal → t.showInit = ls.showInit → t.showPairs = ls.showPairs →
      (choose r false t).2 = gs := by
    intro t h1 h2 h3
    revert hc
    unfold choose
    split
    · intro hc
      simp only [Prod.mk.injEq] at hc
      obtain ⟨rfl, rfl⟩ := hc
      simp only [h2, h3]
    · intro hc
      simp only [Prod.mk.injEq] at hc
      obtain ⟨rfl, rfl⟩ := hc
      simp only [h3, h1]
      rfl
  refine ⟨{ ls with scene := { corner := some gs.1 } }, gs.1, ?_, rfl, ?_⟩
  · unfold rebuild
    simp only [hi, hr]
    unfold showRec
    simp only [hml, hmg, hc]
    unfold drawGlobal
    simp only [Bool.true_or, if_true, hf.1, hthrow _ hck]
  · obtain ⟨s2, c1, c2, c3, c4⟩ := rebuild_cached (disk := disk) (t := { ls with scene := { corner := some gs.1 } }) (i := i) (r := r)
      (by simp only; rw [hf.2.2.2.2.2]; exact hi) hf.2.2.2.2.1 (by simp only; rw [hf.2.2.2.1]; exact hmem.2.1) hml hmg
      (hf.2.1.trans hg) (hf.2.2.1.trans hl)
    rw [hagain { ls with scene := { corner := some gs.1 } } rfl rfl rfl] at c3 c4
    exact ⟨s2, c1, c2, c3, c4⟩

/-! ### concrete logs -/

/-- Three logs: the second has two logged iterations, and the third lacks the layer `b`. -/
def lv1 : Rec Nat Nat Nat := { guess := 1, final := 2, finalPairs := 100, global := some [("a", 10), ("b", 11)], loc := some [("p", 12)] }
def lv2 : Rec Nat Nat Nat :=
  { guess := 3, final := 6, finalPairs := 101, details := [(0, 4, 200), (5, 5, 201)], global := some [("a", 20), ("b", 21), ("c", 22)],
    loc := some [("p", 23)] }
def lv3 : Rec Nat Nat Nat := { guess := 7, final := 8, finalPairs := 102, global := some [("a", 30)], loc := some [("p", 31)] }
def lvSet (p : Nat) (i : Fin 6) (v : ℚ) : Nat := p + 1000 * (i + 1) + v.num.natAbs

theorem lv_good : GoodLogs [lv1, lv2, lv1, lv2] where
  some_log := by simp
  maps := by intro r hr; simp only [List.mem_cons, List.not_mem_nil, or_false] at hr; rcases hr with rfl | rfl | rfl | rfl <;> exact ⟨_, _, rfl, rfl⟩
  globals := by
    intro r0 hr0 r hr m0 m h0 h
    cases hr0; cases h0
    simp only [List.mem_cons, List.not_mem_nil, or_false] at hr
    rcases hr with rfl | rfl | rfl | rfl <;> cases h <;> decide
  locals := by
    intro r0 hr0 r hr m0 m h0 h
    cases hr0; cases h0
    simp only [List.mem_cons, List.not_mem_nil, or_false] at hr
    rcases hr with rfl | rfl | rfl | rfl <;> cases h <;> decide

/-- The state after a start and a history. -/
def lvRun (recs : List (Rec Nat Nat Nat)) (acts : List Act) : Option (VState Nat Nat Nat) :=
  match start (recs.map some) false true with
  | .done (some s) => runFrom (recs.map some) lvSet s acts
  | _ => none

/-- Selecting the second record, of four, shows its last logged iteration (pose 5, not the result 6), without its layer `c`, and hiding `a` leaves
`b`; only that log is in memory. -/
example : (lvRun [lv1, lv2, lv1, lv2] [.dragSel (6 / 5), .layerG "a" false]).map (fun s => (s.scene, s.mem.map Option.isSome)) =
    some ({ corner := some 5, global := some [("b", 21)], loc := some ([("p", 23)], 5), pairs := some (201, 5) }, [false, true, false, false]) := by
  decide +kernel

/-- "Show at INITIAL GUESS pose" shows pose 4 of the first logged iteration; the initial guess is 3. -/
example : (lvRun [lv1, lv2, lv1, lv2] [.forw, .initGuess true]).map (fun s => s.scene.corner) = some (some 4) := by decide +kernel

/-- A change by hand of the first record is shown, and lost after going to the next and back; in the second record it is not seen. -/
example : (lvRun [lv1, lv2, lv1, lv2] [.manual 0 3]).map (fun s => s.scene.corner) = some (some 1005) ∧
    (lvRun [lv1, lv2, lv1, lv2] [.manual 0 3, .forw, .back]).map (fun s => s.scene.corner) = some (some 2) ∧
    (lvRun [lv1, lv2, lv1, lv2] [.forw, .manual 0 3]).map (fun s => s.scene.corner) = some (some 5) := by decide +kernel

/-- From half way after the first record the "next" button passes over the second. -/
example : (lvRun [lv1, lv2, lv1, lv2] [.dragSel (1 / 2), .forw]).map (fun s => (s.scene.corner, s.mem.map Option.isSome)) =
    some (some 2, [false, false, true, false]) := by decide +kernel

/-- In play mode the slider runs off the end. -/
example : (lvRun [lv1, lv2, lv1, lv2] [.dragSel (13 / 5), .auto]).map (fun s => (s.sel, s.scene.corner)) = some (18 / 5, some 5) := by
  decide +kernel

/-- The third record lacks a layer of the first: nothing is shown of it, and then, after a click on a box, the maps of the second record with
the pose of the third. -/
example : (lvRun [lv1, lv2, lv3] [.forw, .forw]).map (fun s => (s.scene.corner, s.scene.global)) = some (some 8, none) ∧
    (lvRun [lv1, lv2, lv3] [.forw, .forw, .pairs false]).map (fun s => s.scene) =
      some { corner := some 8, global := some [("a", 20), ("b", 21)], loc := some ([("p", 23)], 8), pairs := none } := by decide +kernel

end Verif.Props
