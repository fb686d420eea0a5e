import Verif.Lemmas.VelocityInteg
set_option linter.unusedSimpArgs false
set_option linter.unusedSectionVars false
namespace Verif
namespace Vel
variable {K V P : Type} [Field K] [LinearOrder K] [IsStrictOrderedRing K]

theorem split_at_key (m : AMap K V) (hs : AMap.Sorted m) (t : K) (v : V) (h : (t, v) ∈ m) :
    ∃ rest, m.dropWhile (fun s => decide (s.1 < t)) = (t, v) :: rest ∧
      m = m.takeWhile (fun s => decide (s.1 < t)) ++ (t, v) :: rest := by
  induction m with
  | nil => simp at h
  | cons e m ih =>
    have hp := List.pairwise_cons.mp hs
    rcases List.mem_cons.mp h with h | h
    · subst h
      exact ⟨m, by simp [List.dropWhile_cons], by simp [List.takeWhile_cons]⟩
    · have hlt : e.1 < t := hp.1 _ h
      obtain ⟨rest, h1, h2⟩ := ih hp.2 h
      refine ⟨rest, by simp [List.dropWhile_cons, hlt, h1], ?_⟩
      simp only [List.takeWhile_cons, hlt, decide_true, if_true, List.cons_append]
      rw [← h2]

theorem spaced_reverse (eps : K) (l : List (K × V)) (h : Spaced eps l) :
    l.reverse.IsChain (fun a b => eps ≤ a.1 - b.1) := by
  rw [List.isChain_reverse]; exact h

/-- Full description of a run of `reconstruct` that ended. -/
theorem reconstruct_spec (e : IntegEnv K V P) (he : e.Ok) (fuel : Nat) (b : Buf K V) (hb : AMap.Sorted b.ang)
    (half : K) (r : Outcome (AMap K P)) (h : reconstruct e fuel b half = some r) :
    (findClosestTol b.ang b.refTime b.tol = none ∧ r = .ok []) ∨
    ∃ ref, findClosestTol b.ang b.refTime b.tol = some ref ∧
      ((r = .ub ∧ ∀ x ∈ b.ang, x.1 - ref < half) ∨
       ∃ traj, r = .ok traj ∧ (∃ x ∈ b.ang, half ≤ x.1 - ref) ∧ AMap.get traj 0 = some e.one ∧
         (Spaced e.eps b.ang → ∀ τ, -half < τ → τ < half → (∃ x ∈ b.ang, x.1 - ref ≤ τ) →
            ∃ κ p, AMap.get traj κ = some p ∧ |κ - τ| ≤ e.step)) := by
  unfold reconstruct at h
  cases hc : findClosestTol b.ang b.refTime b.tol with
  | none => simp only [hc, Option.some.injEq] at h; exact .inl ⟨rfl, h.symm⟩
  | some ref =>
    right
    refine ⟨ref, rfl, ?_⟩
    obtain ⟨⟨v, hv⟩, _, _⟩ := findClosestTol_some _ _ _ _ hc
    obtain ⟨rest, hd, hsplit⟩ := split_at_key b.ang hb ref v hv
    simp only [hc, hd] at h
    set before := b.ang.takeWhile (fun s => decide (s.1 < ref)) with hbef
    have hsort : AMap.Sorted (before ++ (ref, v) :: rest) := by rw [← hsplit]; exact hb
    have hs2 := List.pairwise_append.mp hsort
    have hbeflt : ∀ x ∈ before, x.1 < ref := fun x hx => hs2.2.2 x hx (ref, v) (by simp)
    have hrev : ((ref, v) :: before.reverse).Pairwise (fun a b : K × V => b.1 < a.1) := by
      rw [List.pairwise_cons]
      exact ⟨fun x hx => hbeflt x (by simpa using hx), by rw [List.pairwise_reverse]; exact hs2.1⟩
    have hg0 : ∀ κ, AMap.get (AMap.set ([] : AMap K P) 0 e.one) κ = if κ = 0 then some e.one else none := by
      intro κ; rw [AMap.get_set]; simp
    cases hf : forward e fuel ref half ((ref, v) :: rest) ⟨e.one, ref, AMap.set [] 0 e.one⟩ with
    | none => rw [hf] at h; simp at h
    | some o =>
      rw [hf] at h
      rcases forward_spec e he fuel ref half rest (ref, v) _ o hs2.2.1 rfl hf with
        ⟨rfl, hall⟩ | ⟨s', rfl, ⟨x, hx, hx2⟩, f2, f3, f4, f5⟩
      · left
        simp only [Option.some.injEq] at h
        refine ⟨h.symm, fun x hx => ?_⟩
        rw [hsplit] at hx
        rcases List.mem_append.mp hx with hx | hx
        · have h0 : ref - ref < half := hall (ref, v) (by simp)
          have := hbeflt x hx
          linarith
        · exact hall x hx
      · right
        simp only at h
        cases hk : backward e fuel ref half (ref, v) before.reverse ⟨e.one, ref, s'.traj⟩ with
        | none => rw [hk] at h; simp at h
        | some s'' =>
          rw [hk] at h
          simp only [Option.some.injEq] at h
          obtain ⟨g2, g3, g4, g5⟩ := backward_spec e he fuel ref half before.reverse (ref, v) _ s'' hrev rfl hk
          refine ⟨s''.traj, h.symm, ⟨x, ?_, hx2⟩, ?_, ?_⟩
          · rw [hsplit]; exact List.mem_append.mpr (.inr hx)
          · rw [g2 0 (by simp), f2 0 (by simp), hg0]; simp
          · intro hsp τ h1 h2 ⟨x, hx, hx2⟩
            have hsp2 : Spaced e.eps (before ++ (ref, v) :: rest) := by rw [← hsplit]; exact hsp
            by_cases hτ : 0 ≤ τ
            · have hspr : Spaced e.eps ((ref, v) :: rest) := (List.isChain_append.mp hsp2).2.1
              obtain ⟨κ, p, hp, hd⟩ := f5 hspr τ (by simpa using hτ) h2
              obtain ⟨p', hp'⟩ := g4 κ p hp
              exact ⟨κ, p', hp', hd⟩
            · have hsp3 : ((ref, v) :: before.reverse).IsChain (fun a b : K × V => e.eps ≤ a.1 - b.1) := by
                have h3 : Spaced e.eps (before ++ [(ref, v)]) := by
                  have h4 : before ++ (ref, v) :: rest = (before ++ [(ref, v)]) ++ rest := by simp
                  rw [h4] at hsp2
                  exact (List.isChain_append.mp hsp2).1
                have := spaced_reverse e.eps _ h3
                simpa using this
              have hxb : ∃ y ∈ before.reverse, y.1 - ref ≤ τ := by
                rw [hsplit] at hx
                rcases List.mem_append.mp hx with hx | hx
                · exact ⟨x, by simpa using hx, hx2⟩
                · have : ref ≤ x.1 := by
                    rcases List.mem_cons.mp hx with rfl | hx
                    · exact le_refl _
                    · exact ((List.pairwise_cons.mp hs2.2.1).1 x hx).le
                  exact absurd (by linarith) hτ
              obtain ⟨y, hy, hy2⟩ := hxb
              exact g5 hsp3 τ (by simp; linarith) h1 ⟨y, by simp only [List.mem_cons]; exact .inr hy, hy2⟩ ⟨y, hy, hy2⟩

theorem reconstruct_mono (e : IntegEnv K V P) (fuel : Nat) (b : Buf K V) (half : K) (r : Outcome (AMap K P))
    (h : reconstruct e fuel b half = some r) (k : Nat) (hk : fuel ≤ k) : reconstruct e k b half = some r := by
  unfold reconstruct at h ⊢
  cases hc : findClosestTol b.ang b.refTime b.tol with
  | none => simpa [hc] using h
  | some ref =>
    simp only [hc] at h ⊢
    cases hd : b.ang.dropWhile (fun s => decide (s.1 < ref)) with
    | nil => simpa [hd] using h
    | cons cur rest =>
      simp only [hd] at h ⊢
      cases hf : forward e fuel ref half (cur :: rest) ⟨e.one, cur.1, AMap.set [] 0 e.one⟩ with
      | none => rw [hf] at h; simp at h
      | some o =>
        rw [hf] at h
        rw [forward_mono _ _ _ _ _ _ _ hf k hk]
        cases o with
        | ub => exact h
        | throw => exact h
        | ok s =>
          simp only at h ⊢
          cases hbw : backward e fuel ref half cur (b.ang.takeWhile (fun s => decide (s.1 < ref))).reverse
              ⟨e.one, cur.1, s.traj⟩ with
          | none => rw [hbw] at h; simp at h
          | some s' =>
            rw [hbw] at h
            rw [backward_mono _ _ _ _ _ _ _ _ hbw k hk]
            exact h

theorem reconstruct_total [Archimedean K] (e : IntegEnv K V P) (he : e.Ok) (b : Buf K V) (hb : AMap.Sorted b.ang)
    (half : K) : ∃ N r, ∀ k, N ≤ k → reconstruct e k b half = some r := by
  suffices h : ∃ N r, reconstruct e N b half = some r by
    obtain ⟨N, r, h⟩ := h
    exact ⟨N, r, fun k hk => reconstruct_mono e N b half r h k hk⟩
  unfold reconstruct
  cases hc : findClosestTol b.ang b.refTime b.tol with
  | none => exact ⟨0, _, rfl⟩
  | some ref =>
    obtain ⟨⟨v, hv⟩, _, _⟩ := findClosestTol_some _ _ _ _ hc
    obtain ⟨rest, hd, hsplit⟩ := split_at_key b.ang hb ref v hv
    simp only [hd]
    set before := b.ang.takeWhile (fun s => decide (s.1 < ref)) with hbef
    have hsort : AMap.Sorted (before ++ (ref, v) :: rest) := by rw [← hsplit]; exact hb
    have hs2 := List.pairwise_append.mp hsort
    have hbeflt : ∀ x ∈ before, x.1 < ref := fun x hx => hs2.2.2 x hx (ref, v) (by simp)
    have hrev : ((ref, v) :: before.reverse).Pairwise (fun a b : K × V => b.1 < a.1) := by
      rw [List.pairwise_cons]
      exact ⟨fun x hx => hbeflt x (by simpa using hx), by rw [List.pairwise_reverse]; exact hs2.1⟩
    obtain ⟨N1, o, h1⟩ := forward_total e he ref half rest (ref, v) ⟨e.one, ref, AMap.set [] 0 e.one⟩ hs2.2.1 rfl
    cases o with
    | ub => exact ⟨N1, .ub, by rw [h1]⟩
    | throw => exact ⟨N1, .throw, by rw [h1]⟩
    | ok s =>
      obtain ⟨N2, s', h2⟩ := backward_total e he ref half before.reverse (ref, v) ⟨e.one, ref, s.traj⟩ hrev rfl
      refine ⟨max N1 N2, .ok s'.traj, ?_⟩
      rw [forward_mono _ _ _ _ _ _ _ h1 _ (le_max_left _ _)]
      simp only
      rw [backward_mono _ _ _ _ _ _ _ _ h2 _ (le_max_right _ _)]

/-! ### constant rate -/

theorem NoTiny.sub_step {e : IntegEnv K V P} {g : K} (h : NoTiny e g) : NoTiny e (g - e.step) := by
  intro n hn
  have := h (n + 1) (by push_cast; linarith)
  push_cast at this
  linarith

/-- the state agrees with a constant rate `w` since the reference time -/
def Exact (e : IntegEnv K V P) (w : V) (ref : K) (s : IState K P) : Prop :=
  s.pose = e.integ e.one w (s.prev - ref) ∧ ∀ κ p, AMap.get s.traj κ = some p → p = e.integ e.one w κ

theorem innerFwd_exact (e : IntegEnv K V P) (he : e.Ok) (w : V) (ha : e.Additive w) (ref tgt : K) (fuel : Nat) :
    ∀ (s s' : IState K P), s.prev ≤ tgt → NoTiny e (tgt - s.prev) → Exact e w ref s →
      innerFwd e ref tgt w fuel s = some s' → Exact e w ref s' := by
  obtain ⟨he0, he1⟩ := he
  induction fuel with
  | zero => intro s s' _ _ _ h; simp [innerFwd] at h
  | succ n ih =>
    intro s s' hle hnt hex h
    simp only [innerFwd] at h
    have hdt0 : 0 ≤ min (tgt - s.prev) e.step := le_min (by linarith) (by linarith)
    rw [abs_of_nonneg hdt0] at h
    split at h
    · rename_i hlt
      have hmin : min (tgt - s.prev) e.step = tgt - s.prev := by
        rcases le_total (tgt - s.prev) e.step with h | h
        · exact min_eq_left h
        · rw [min_eq_right h] at hlt; linarith
      have hz : tgt - s.prev = 0 := by
        rw [hmin] at hlt
        by_contra hne
        have hpos : 0 < tgt - s.prev := lt_of_le_of_ne (by linarith) (Ne.symm hne)
        have := hnt 0 (by rw [Nat.cast_zero, zero_mul, sub_zero]; exact hpos)
        rw [Nat.cast_zero, zero_mul, sub_zero] at this
        linarith
      rw [hmin, hz] at h
      simp only [add_zero, Option.some.injEq] at h
      subst h
      exact hex
    · rename_i hnlt
      refine ih _ _ ?_ ?_ ?_ h
      · show s.prev + min (tgt - s.prev) e.step ≤ tgt
        have := min_le_left (tgt - s.prev) e.step; linarith
      · show NoTiny e (tgt - (s.prev + min (tgt - s.prev) e.step))
        rcases le_total (tgt - s.prev) e.step with h | h
        · rw [min_eq_left h]
          intro m hm
          have : (0 : K) ≤ m * e.step := mul_nonneg (Nat.cast_nonneg _) (by linarith)
          linarith
        · rw [min_eq_right h]
          have := hnt.sub_step
          rwa [show tgt - (s.prev + e.step) = tgt - s.prev - e.step by ring]
      · have hpose : e.integ s.pose w (min (tgt - s.prev) e.step) =
            e.integ e.one w (s.prev + min (tgt - s.prev) e.step - ref) := by
          rw [hex.1, ha.1]; congr 1; ring
        refine ⟨hpose, ?_⟩
        intro κ p hp
        simp only at hp
        rw [AMap.get_set] at hp
        split at hp
        · rename_i hk
          simp at hp; subst hp; rw [hk]; exact hpose
        · exact hex.2 κ p hp

theorem innerBwd_exact (e : IntegEnv K V P) (he : e.Ok) (w : V) (ha : e.Additive w) (ref tgt : K) (fuel : Nat) :
    ∀ (s s' : IState K P), tgt ≤ s.prev → NoTiny e (s.prev - tgt) → Exact e w ref s →
      innerBwd e ref tgt w fuel s = some s' → Exact e w ref s' := by
  obtain ⟨he0, he1⟩ := he
  induction fuel with
  | zero => intro s s' _ _ _ h; simp [innerBwd] at h
  | succ n ih =>
    intro s s' hle hnt hex h
    simp only [innerBwd] at h
    have habs : |tgt - s.prev| = s.prev - tgt := by rw [abs_of_nonpos (by linarith)]; ring
    have hdt0 : 0 ≤ min (s.prev - tgt) e.step := le_min (by linarith) (by linarith)
    rw [habs, abs_neg, abs_of_nonneg hdt0] at h
    split at h
    · rename_i hlt
      have hmin : min (s.prev - tgt) e.step = s.prev - tgt := by
        rcases le_total (s.prev - tgt) e.step with h | h
        · exact min_eq_left h
        · rw [min_eq_right h] at hlt; linarith
      have hz : s.prev - tgt = 0 := by
        rw [hmin] at hlt
        by_contra hne
        have hpos : 0 < s.prev - tgt := lt_of_le_of_ne (by linarith) (Ne.symm hne)
        have := hnt 0 (by rw [Nat.cast_zero, zero_mul, sub_zero]; exact hpos)
        rw [Nat.cast_zero, zero_mul, sub_zero] at this
        linarith
      rw [hmin, hz] at h
      simp only [neg_zero, add_zero, Option.some.injEq] at h
      subst h
      exact hex
    · rename_i hnlt
      refine ih _ _ ?_ ?_ ?_ h
      · show tgt ≤ s.prev + -min (s.prev - tgt) e.step
        have := min_le_left (s.prev - tgt) e.step; linarith
      · show NoTiny e (s.prev + -min (s.prev - tgt) e.step - tgt)
        rcases le_total (s.prev - tgt) e.step with h | h
        · rw [min_eq_left h]
          intro m hm
          have : (0 : K) ≤ m * e.step := mul_nonneg (Nat.cast_nonneg _) (by linarith)
          linarith
        · rw [min_eq_right h]
          have := hnt.sub_step
          rwa [show s.prev + -e.step - tgt = s.prev - tgt - e.step by ring]
      · have hpose : e.integ s.pose w (-min (s.prev - tgt) e.step) =
            e.integ e.one w (s.prev + -min (s.prev - tgt) e.step - ref) := by
          rw [hex.1, ha.1]; congr 1; ring
        refine ⟨hpose, ?_⟩
        intro κ p hp
        simp only at hp
        rw [AMap.get_set] at hp
        split at hp
        · rename_i hk
          simp at hp; subst hp; rw [hk]; exact hpose
        · exact hex.2 κ p hp

theorem forward_exact (e : IntegEnv K V P) (he : e.Ok) (w : V) (ha : e.Additive w) (fuel : Nat) (ref half : K)
    (l : List (K × V)) : ∀ (cur : K × V) (s s' : IState K P),
      (cur :: l).Pairwise (fun a b => a.1 < b.1) → s.prev = cur.1 → (∀ x ∈ cur :: l, x.2 = w) →
      (cur :: l).IsChain (fun a b => NoTiny e (b.1 - a.1)) → Exact e w ref s →
      forward e fuel ref half (cur :: l) s = some (.ok s') → Exact e w ref s' := by
  induction l with
  | nil =>
    intro cur s s' _ _ _ _ hex h
    simp only [forward] at h
    split at h
    · simp at h
    · simp at h; subst h; exact hex
  | cons nxt l ih =>
    intro cur s s' hsort hs hw hnt hex h
    simp only [forward] at h
    have hlt : cur.1 < nxt.1 := (List.pairwise_cons.mp hsort).1 nxt (by simp)
    rw [List.isChain_cons_cons] at hnt
    split at h
    · cases hi : innerFwd e ref nxt.1 cur.2 fuel s with
      | none => simp [hi] at h
      | some s1 =>
        simp only [hi] at h
        have hp := (innerFwd_post e he ref nxt.1 cur.2 fuel s s1 (by rw [hs]; exact hlt.le) hi).prev
        rw [hw cur (by simp)] at hi
        have hex1 := innerFwd_exact e he w ha ref nxt.1 fuel s s1 (by rw [hs]; exact hlt.le) (by rw [hs]; exact hnt.1) hex hi
        exact ih nxt s1 s' (List.pairwise_cons.mp hsort).2 hp (fun x hx => hw x (by simp only [List.mem_cons] at hx ⊢; exact .inr hx)) hnt.2 hex1 h
    · simp at h; subst h; exact hex

theorem backward_exact (e : IntegEnv K V P) (he : e.Ok) (w : V) (ha : e.Additive w) (fuel : Nat) (ref half : K)
    (l : List (K × V)) : ∀ (cur : K × V) (s s' : IState K P),
      (cur :: l).Pairwise (fun a b => b.1 < a.1) → s.prev = cur.1 → (∀ x ∈ cur :: l, x.2 = w) →
      (cur :: l).IsChain (fun a b => NoTiny e (a.1 - b.1)) → Exact e w ref s →
      backward e fuel ref half cur l s = some s' → Exact e w ref s' := by
  induction l with
  | nil =>
    intro cur s s' _ _ _ _ hex h
    simp only [backward, Option.some.injEq] at h
    subst h; exact hex
  | cons nxt l ih =>
    intro cur s s' hsort hs hw hnt hex h
    simp only [backward] at h
    have hlt : nxt.1 < cur.1 := (List.pairwise_cons.mp hsort).1 nxt (by simp)
    rw [List.isChain_cons_cons] at hnt
    split at h
    · cases hi : innerBwd e ref nxt.1 cur.2 fuel s with
      | none => simp [hi] at h
      | some s1 =>
        simp only [hi] at h
        have hp := (innerBwd_post e he ref nxt.1 cur.2 fuel s s1 (by rw [hs]; exact hlt.le) hi).prev
        rw [hw cur (by simp)] at hi
        have hex1 := innerBwd_exact e he w ha ref nxt.1 fuel s s1 (by rw [hs]; exact hlt.le) (by rw [hs]; exact hnt.1) hex hi
        exact ih nxt s1 s' (List.pairwise_cons.mp hsort).2 hp (fun x hx => hw x (by simp only [List.mem_cons] at hx ⊢; exact .inr hx)) hnt.2 hex1 h
    · simp at h; subst h; exact hex

theorem reconstruct_exact (e : IntegEnv K V P) (he : e.Ok) (w : V) (ha : e.Additive w) (fuel : Nat) (b : Buf K V)
    (hb : AMap.Sorted b.ang) (half : K) (traj : AMap K P) (hw : ∀ x ∈ b.ang, x.2 = w)
    (hnt : b.ang.IsChain fun a b => NoTiny e (b.1 - a.1)) (h : reconstruct e fuel b half = some (.ok traj)) :
    ∀ κ p, AMap.get traj κ = some p → p = e.integ e.one w κ := by
  unfold reconstruct at h
  cases hc : findClosestTol b.ang b.refTime b.tol with
  | none =>
    simp only [hc, Option.some.injEq, Outcome.ok.injEq] at h
    subst h; intro κ p hp; simp at hp
  | some ref =>
    obtain ⟨⟨v, hv⟩, _, _⟩ := findClosestTol_some _ _ _ _ hc
    obtain ⟨rest, hd, hsplit⟩ := split_at_key b.ang hb ref v hv
    simp only [hc, hd] at h
    set before := b.ang.takeWhile (fun s => decide (s.1 < ref)) with hbef
    have hsort : AMap.Sorted (before ++ (ref, v) :: rest) := by rw [← hsplit]; exact hb
    have hs2 := List.pairwise_append.mp hsort
    have hbeflt : ∀ x ∈ before, x.1 < ref := fun x hx => hs2.2.2 x hx (ref, v) (by simp)
    have hrev : ((ref, v) :: before.reverse).Pairwise (fun a b : K × V => b.1 < a.1) := by
      rw [List.pairwise_cons]
      exact ⟨fun x hx => hbeflt x (by simpa using hx), by rw [List.pairwise_reverse]; exact hs2.1⟩
    have hnt2 : (before ++ (ref, v) :: rest).IsChain (fun a b => NoTiny e (b.1 - a.1)) := by rw [← hsplit]; exact hnt
    have hnt3 : ((ref, v) :: before.reverse).IsChain (fun a b : K × V => NoTiny e (a.1 - b.1)) := by
      have h4 : before ++ (ref, v) :: rest = (before ++ [(ref, v)]) ++ rest := by simp
      rw [h4] at hnt2
      have := (List.isChain_append.mp hnt2).1
      have h5 : (before ++ [(ref, v)]).reverse.IsChain (fun a b : K × V => NoTiny e (a.1 - b.1)) := by
        rw [List.isChain_reverse]; exact this
      simpa using h5
    have hex0 : Exact e w ref ⟨e.one, ref, AMap.set [] 0 e.one⟩ := by
      refine ⟨by simp [ha.2], ?_⟩
      intro κ p hp
      simp only at hp
      rw [AMap.get_set] at hp
      split at hp
      · rename_i hk; simp at hp; subst hp; rw [hk, ha.2]
      · simp at hp
    cases hf : forward e fuel ref half ((ref, v) :: rest) ⟨e.one, ref, AMap.set [] 0 e.one⟩ with
    | none => rw [hf] at h; simp at h
    | some o =>
      rw [hf] at h
      cases o with
      | ub => simp at h
      | throw => simp at h
      | ok s =>
        simp only at h
        have h1 := forward_exact e he w ha fuel ref half rest (ref, v) _ s hs2.2.1 rfl
          (fun x hx => hw x (by rw [hsplit]; exact List.mem_append.mpr (.inr hx)))
          (List.isChain_append.mp hnt2).2.1 hex0 hf
        cases hk : backward e fuel ref half (ref, v) before.reverse ⟨e.one, ref, s.traj⟩ with
        | none => rw [hk] at h; simp at h
        | some s'' =>
          rw [hk] at h
          simp only [Option.some.injEq, Outcome.ok.injEq] at h
          subst h
          refine (backward_exact e he w ha fuel ref half before.reverse (ref, v) ⟨e.one, ref, s.traj⟩ s'' hrev rfl ?_ hnt3
            ⟨by simp [ha.2], h1.2⟩ hk).2
          intro x hx
          apply hw x
          rw [hsplit]
          rcases List.mem_cons.mp hx with rfl | hx
          · simp
          · exact List.mem_append.mpr (.inl (by simpa using hx))

end Vel
end Verif
