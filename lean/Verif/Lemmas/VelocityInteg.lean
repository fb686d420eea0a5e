import Mathlib.Algebra.Order.Archimedean.Basic
import Mathlib.Tactic.NormNum
import Mathlib.Tactic.Positivity
import Verif.Lemmas.Velocity
set_option linter.unusedSimpArgs false
set_option linter.unusedSectionVars false
namespace Verif
namespace Vel
variable {K V P : Type} [Field K] [LinearOrder K] [IsStrictOrderedRing K]


/-- Everything the inner forward loop guarantees about its result. -/
structure FwdPost (e : IntegEnv K V P) (ref tgt : K) (s s' : IState K P) : Prop where
  prev : s'.prev = tgt
  old : ∀ κ, κ ≤ s.prev - ref → AMap.get s'.traj κ = AMap.get s.traj κ
  new : ∀ κ p, AMap.get s'.traj κ = some p → AMap.get s.traj κ = some p ∨ (s.prev - ref < κ ∧ κ ≤ tgt - ref)
  keep : ∀ κ p, AMap.get s.traj κ = some p → ∃ p', AMap.get s'.traj κ = some p'
  cover : e.eps ≤ tgt - s.prev → ∀ τ, s.prev - ref ≤ τ → τ ≤ tgt - ref →
    ∃ κ p, AMap.get s'.traj κ = some p ∧ |κ - τ| ≤ e.step

theorem innerFwd_post (e : IntegEnv K V P) (he : e.Ok) (ref tgt : K) (w : V) (fuel : Nat) :
    ∀ (s s' : IState K P), s.prev ≤ tgt → innerFwd e ref tgt w fuel s = some s' → FwdPost e ref tgt s s' := by
  obtain ⟨he0, he1⟩ := he
  induction fuel with
  | zero => intro s s' _ h; simp [innerFwd] at h
  | succ n ih =>
    intro s s' hle h
    simp only [innerFwd] at h
    have hdt0 : 0 ≤ min (tgt - s.prev) e.step := le_min (by linarith) (by linarith)
    split at h
    · rename_i hlt
      rw [abs_of_nonneg hdt0] at hlt
      simp only [Option.some.injEq] at h
      subst h
      have hmin : min (tgt - s.prev) e.step = tgt - s.prev := by
        rcases le_total (tgt - s.prev) e.step with h | h
        · exact min_eq_left h
        · rw [min_eq_right h] at hlt; linarith
      refine ⟨by simp only [hmin]; ring, fun _ _ => rfl, fun κ p h => .inl h, fun κ p h => ⟨p, h⟩, ?_⟩
      intro hge
      rw [hmin] at hlt
      linarith
    · rename_i hnlt
      rw [abs_of_nonneg hdt0] at hnlt
      set dt := min (tgt - s.prev) e.step with hdt
      have hdte : e.eps ≤ dt := not_lt.mp hnlt
      have hdtt : dt ≤ tgt - s.prev := min_le_left _ _
      have hdts : dt ≤ e.step := min_le_right _ _
      obtain ⟨h1, h2, h3, h4, h5⟩ := ih _ _ (by show s.prev + dt ≤ tgt; linarith) h
      simp only at h1 h2 h3 h4 h5
      have hkey : ∃ p, AMap.get s'.traj (s.prev + dt - ref) = some p := by
        refine h4 _ (e.integ s.pose w dt) ?_
        simp
      refine ⟨h1, ?_, ?_, ?_, ?_⟩
      · intro κ hκ
        rw [h2 κ (by linarith), AMap.get_set]
        have : κ ≠ s.prev + dt - ref := by intro hh; linarith
        simp [this]
      · intro κ p hp
        rcases h3 κ p hp with hp | ⟨ha, hb⟩
        · rw [AMap.get_set] at hp
          split at hp
          · rename_i hk; right; subst hk; constructor <;> linarith
          · exact .inl hp
        · exact .inr ⟨by linarith, hb⟩
      · intro κ p hp
        by_cases hk : κ = s.prev + dt - ref
        · rw [hk]; exact hkey
        · exact h4 κ p (by rw [AMap.get_set]; simp [hk, hp])
      · intro _ τ hτ1 hτ2
        obtain ⟨p, hp⟩ := hkey
        by_cases hτ : τ ≤ s.prev + dt - ref
        · exact ⟨_, p, hp, by rw [abs_of_nonneg (by linarith)]; linarith⟩
        · by_cases hrest : e.eps ≤ tgt - (s.prev + dt)
          · exact h5 hrest τ (by linarith) hτ2
          · refine ⟨_, p, hp, ?_⟩
            rw [abs_of_nonpos (by linarith)]
            linarith

theorem innerFwd_mono (e : IntegEnv K V P) (ref tgt : K) (w : V) (fuel : Nat) :
    ∀ (s s' : IState K P), innerFwd e ref tgt w fuel s = some s' → ∀ k, fuel ≤ k → innerFwd e ref tgt w k s = some s' := by
  induction fuel with
  | zero => intro s s' h; simp [innerFwd] at h
  | succ n ih =>
    intro s s' h k hk
    obtain ⟨k, rfl⟩ : ∃ j, k = j + 1 := ⟨k - 1, by omega⟩
    simp only [innerFwd] at h ⊢
    split at h
    · rename_i hc; rw [if_pos hc]; exact h
    · rename_i hc; rw [if_neg hc]; exact ih _ _ h k (by omega)

theorem innerFwd_total (e : IntegEnv K V P) (he : e.Ok) (ref tgt : K) (w : V) (n : Nat) :
    ∀ s : IState K P, s.prev ≤ tgt → tgt - s.prev ≤ n * e.step → ∃ s', innerFwd e ref tgt w (n + 2) s = some s' := by
  obtain ⟨he0, he1⟩ := he
  induction n with
  | zero =>
    intro s h1 h2
    simp only [Nat.cast_zero, zero_mul] at h2
    have : min (tgt - s.prev) e.step = 0 := by
      rw [min_eq_left (by linarith)]; linarith
    refine ⟨_, by simp only [innerFwd, this, abs_zero, he0, if_true]; rfl⟩
  | succ n ih =>
    intro s h1 h2
    rw [innerFwd]
    simp only
    split
    · exact ⟨_, rfl⟩
    · refine ih _ ?_ ?_
      · show s.prev + min (tgt - s.prev) e.step ≤ tgt
        have := min_le_left (tgt - s.prev) e.step; linarith
      · show tgt - (s.prev + min (tgt - s.prev) e.step) ≤ n * e.step
        push_cast at h2
        rcases le_total (tgt - s.prev) e.step with h | h
        · rw [min_eq_left h]
          have : (0 : K) ≤ n * e.step := mul_nonneg (Nat.cast_nonneg _) (by linarith)
          linarith
        · rw [min_eq_right h]; linarith

/-! backward -/

structure BwdPost (e : IntegEnv K V P) (ref tgt : K) (s s' : IState K P) : Prop where
  prev : s'.prev = tgt
  old : ∀ κ, s.prev - ref ≤ κ → AMap.get s'.traj κ = AMap.get s.traj κ
  new : ∀ κ p, AMap.get s'.traj κ = some p → AMap.get s.traj κ = some p ∨ (tgt - ref ≤ κ ∧ κ < s.prev - ref)
  keep : ∀ κ p, AMap.get s.traj κ = some p → ∃ p', AMap.get s'.traj κ = some p'
  cover : e.eps ≤ s.prev - tgt → ∀ τ, tgt - ref ≤ τ → τ ≤ s.prev - ref →
    ∃ κ p, AMap.get s'.traj κ = some p ∧ |κ - τ| ≤ e.step

theorem innerBwd_post (e : IntegEnv K V P) (he : e.Ok) (ref tgt : K) (w : V) (fuel : Nat) :
    ∀ (s s' : IState K P), tgt ≤ s.prev → innerBwd e ref tgt w fuel s = some s' → BwdPost e ref tgt s s' := by
  obtain ⟨he0, he1⟩ := he
  induction fuel with
  | zero => intro s s' _ h; simp [innerBwd] at h
  | succ n ih =>
    intro s s' hle h
    simp only [innerBwd] at h
    have habs : |tgt - s.prev| = s.prev - tgt := by rw [abs_of_nonpos (by linarith)]; ring
    rw [habs] at h
    have hdt0 : 0 ≤ min (s.prev - tgt) e.step := le_min (by linarith) (by linarith)
    rw [abs_neg, abs_of_nonneg hdt0] at h
    split at h
    · rename_i hlt
      simp only [Option.some.injEq] at h
      subst h
      have hmin : min (s.prev - tgt) e.step = s.prev - tgt := by
        rcases le_total (s.prev - tgt) e.step with h | h
        · exact min_eq_left h
        · rw [min_eq_right h] at hlt; linarith
      refine ⟨by simp only [hmin]; ring, fun _ _ => rfl, fun κ p h => .inl h, fun κ p h => ⟨p, h⟩, ?_⟩
      intro hge
      rw [hmin] at hlt
      linarith
    · rename_i hnlt
      set dt := min (s.prev - tgt) e.step with hdt
      have hdte : e.eps ≤ dt := not_lt.mp hnlt
      have hdtt : dt ≤ s.prev - tgt := min_le_left _ _
      have hdts : dt ≤ e.step := min_le_right _ _
      obtain ⟨h1, h2, h3, h4, h5⟩ := ih _ _ (by show tgt ≤ s.prev + -dt; linarith) h
      simp only at h1 h2 h3 h4 h5
      have hkey : ∃ p, AMap.get s'.traj (s.prev + -dt - ref) = some p := by
        refine h4 _ (e.integ s.pose w (-dt)) ?_
        simp
      refine ⟨h1, ?_, ?_, ?_, ?_⟩
      · intro κ hκ
        rw [h2 κ (by linarith), AMap.get_set]
        have : κ ≠ s.prev + -dt - ref := by intro hh; linarith
        simp [this]
      · intro κ p hp
        rcases h3 κ p hp with hp | ⟨ha, hb⟩
        · rw [AMap.get_set] at hp
          split at hp
          · rename_i hk; right; subst hk; constructor <;> linarith
          · exact .inl hp
        · exact .inr ⟨ha, by linarith⟩
      · intro κ p hp
        by_cases hk : κ = s.prev + -dt - ref
        · rw [hk]; exact hkey
        · exact h4 κ p (by rw [AMap.get_set]; simp [hk, hp])
      · intro _ τ hτ1 hτ2
        obtain ⟨p, hp⟩ := hkey
        by_cases hτ : s.prev + -dt - ref ≤ τ
        · exact ⟨_, p, hp, by rw [abs_of_nonpos (by linarith)]; linarith⟩
        · by_cases hrest : e.eps ≤ s.prev + -dt - tgt
          · exact h5 hrest τ hτ1 (by linarith)
          · refine ⟨_, p, hp, ?_⟩
            rw [abs_of_nonneg (by linarith)]
            linarith

theorem innerBwd_mono (e : IntegEnv K V P) (ref tgt : K) (w : V) (fuel : Nat) :
    ∀ (s s' : IState K P), innerBwd e ref tgt w fuel s = some s' → ∀ k, fuel ≤ k → innerBwd e ref tgt w k s = some s' := by
  induction fuel with
  | zero => intro s s' h; simp [innerBwd] at h
  | succ n ih =>
    intro s s' h k hk
    obtain ⟨k, rfl⟩ : ∃ j, k = j + 1 := ⟨k - 1, by omega⟩
    simp only [innerBwd] at h ⊢
    split at h
    · rename_i hc; rw [if_pos hc]; exact h
    · rename_i hc; rw [if_neg hc]; exact ih _ _ h k (by omega)

theorem innerBwd_total (e : IntegEnv K V P) (he : e.Ok) (ref tgt : K) (w : V) (n : Nat) :
    ∀ s : IState K P, tgt ≤ s.prev → s.prev - tgt ≤ n * e.step → ∃ s', innerBwd e ref tgt w (n + 2) s = some s' := by
  obtain ⟨he0, he1⟩ := he
  induction n with
  | zero =>
    intro s h1 h2
    simp only [Nat.cast_zero, zero_mul] at h2
    have h3 : tgt - s.prev = 0 := by linarith
    have : min |tgt - s.prev| e.step = 0 := by
      rw [h3, abs_zero, min_eq_left (by linarith)]
    refine ⟨_, by simp only [innerBwd, this, neg_zero, abs_zero, he0, if_true]; rfl⟩
  | succ n ih =>
    intro s h1 h2
    have habs : |tgt - s.prev| = s.prev - tgt := by rw [abs_of_nonpos (by linarith)]; ring
    rw [innerBwd]
    simp only [habs]
    split
    · exact ⟨_, rfl⟩
    · refine ih _ ?_ ?_
      · show tgt ≤ s.prev + -min (s.prev - tgt) e.step
        have := min_le_left (s.prev - tgt) e.step; linarith
      · show s.prev + -min (s.prev - tgt) e.step - tgt ≤ n * e.step
        push_cast at h2
        rcases le_total (s.prev - tgt) e.step with h | h
        · rw [min_eq_left h]
          have : (0 : K) ≤ n * e.step := mul_nonneg (Nat.cast_nonneg _) (by linarith)
          linarith
        · rw [min_eq_right h]; linarith

/-! outer loops -/


theorem forward_spec (e : IntegEnv K V P) (he : e.Ok) (fuel : Nat) (ref half : K) (l : List (K × V)) :
    ∀ (cur : K × V) (s : IState K P) (r : Outcome (IState K P)),
      (cur :: l).Pairwise (fun a b => a.1 < b.1) → s.prev = cur.1 →
      forward e fuel ref half (cur :: l) s = some r →
      (r = .ub ∧ ∀ x ∈ cur :: l, x.1 - ref < half) ∨
      ∃ s', r = .ok s' ∧ (∃ x ∈ cur :: l, half ≤ x.1 - ref) ∧
        (∀ κ, κ ≤ cur.1 - ref → AMap.get s'.traj κ = AMap.get s.traj κ) ∧
        (∀ κ p, AMap.get s'.traj κ = some p → AMap.get s.traj κ = some p ∨ cur.1 - ref < κ) ∧
        (∀ κ p, AMap.get s.traj κ = some p → ∃ p', AMap.get s'.traj κ = some p') ∧
        (Spaced e.eps (cur :: l) → ∀ τ, cur.1 - ref ≤ τ → τ < half →
          ∃ κ p, AMap.get s'.traj κ = some p ∧ |κ - τ| ≤ e.step) := by
  induction l with
  | nil =>
    intro cur s r _ hs h
    simp only [forward] at h
    split at h
    · rename_i hc
      simp at h; subst h
      left
      refine ⟨rfl, ?_⟩
      intro x hx; simp at hx; subst hx; rw [← hs]; exact hc
    · rename_i hc
      simp at h; subst h
      right
      refine ⟨s, rfl, ⟨cur, by simp, by rw [← hs]; exact not_lt.mp hc⟩, fun _ _ => rfl, fun κ p hp => .inl hp,
        fun κ p hp => ⟨p, hp⟩, ?_⟩
      intro _ τ h1 h2
      rw [hs] at hc
      exact absurd (lt_of_le_of_lt h1 h2) hc
  | cons nxt l ih =>
    intro cur s r hsort hs h
    simp only [forward] at h
    have hlt : cur.1 < nxt.1 := (List.pairwise_cons.mp hsort).1 nxt (by simp)
    split at h
    · rename_i hc
      cases hi : innerFwd e ref nxt.1 cur.2 fuel s with
      | none => simp [hi] at h
      | some s1 =>
        simp only [hi] at h
        obtain ⟨p1, p2, p3, p4, p5⟩ := innerFwd_post e he ref nxt.1 cur.2 fuel s s1 (by rw [hs]; exact hlt.le) hi
        rcases ih nxt s1 r (List.pairwise_cons.mp hsort).2 p1 h with ⟨hr, hall⟩ | ⟨s', hr, hx, q2, q3, q4, q5⟩
        · left
          refine ⟨hr, ?_⟩
          intro x hx
          rcases List.mem_cons.mp hx with rfl | hx
          · rw [← hs]; exact hc
          · exact hall x hx
        · right
          obtain ⟨x, hx, hx2⟩ := hx
          refine ⟨s', hr, ⟨x, by simp only [List.mem_cons] at hx ⊢; exact .inr hx, hx2⟩, ?_, ?_, ?_, ?_⟩
          · intro κ hκ
            rw [q2 κ (by linarith), p2 κ (by rw [hs]; exact hκ)]
          · intro κ p hp
            rcases q3 κ p hp with hp | hk
            · rcases p3 κ p hp with hp | hk
              · exact .inl hp
              · right; rw [hs] at hk; exact hk.1
            · right; linarith
          · intro κ p hp
            obtain ⟨p', hp'⟩ := p4 κ p hp
            exact q4 κ p' hp'
          · intro hsp τ h1 h2
            have hsp' : e.eps ≤ nxt.1 - cur.1 ∧ Spaced e.eps (nxt :: l) := by
              simpa [Spaced, List.isChain_cons_cons] using hsp
            by_cases hτ : τ ≤ nxt.1 - ref
            · obtain ⟨κ, p, hp, hd⟩ := p5 (by rw [hs]; exact hsp'.1) τ (by rw [hs]; exact h1) hτ
              obtain ⟨p', hp'⟩ := q4 κ p hp
              exact ⟨κ, p', hp', hd⟩
            · exact q5 hsp'.2 τ (not_le.mp hτ).le h2
    · rename_i hc
      simp at h; subst h
      right
      refine ⟨s, rfl, ⟨cur, by simp, by rw [← hs]; exact not_lt.mp hc⟩, fun _ _ => rfl, fun κ p hp => .inl hp,
        fun κ p hp => ⟨p, hp⟩, ?_⟩
      intro _ τ h1 h2
      rw [hs] at hc
      exact absurd (lt_of_le_of_lt h1 h2) hc

theorem forward_mono (e : IntegEnv K V P) (fuel : Nat) (ref half : K) (l : List (K × V)) :
    ∀ (s : IState K P) (r : Outcome (IState K P)), forward e fuel ref half l s = some r →
      ∀ k, fuel ≤ k → forward e k ref half l s = some r := by
  induction l with
  | nil => intro s r h k _; exact h
  | cons cur l ih =>
    intro s r h k hk
    cases l with
    | nil => exact h
    | cons nxt l =>
      simp only [forward] at h ⊢
      split at h
      · rename_i hc
        rw [if_pos hc]
        cases hi : innerFwd e ref nxt.1 cur.2 fuel s with
        | none => simp [hi] at h
        | some s1 =>
          simp only [hi] at h
          rw [innerFwd_mono e ref nxt.1 cur.2 fuel s s1 hi k hk]
          exact ih s1 r h k hk
      · rename_i hc; rw [if_neg hc]; exact h

theorem forward_total [Archimedean K] (e : IntegEnv K V P) (he : e.Ok) (ref half : K) (l : List (K × V)) :
    ∀ (cur : K × V) (s : IState K P), (cur :: l).Pairwise (fun a b => a.1 < b.1) → s.prev = cur.1 →
      ∃ N r, forward e N ref half (cur :: l) s = some r := by
  induction l with
  | nil =>
    intro cur s _ _
    refine ⟨0, ?_⟩
    simp only [forward]
    split <;> exact ⟨_, rfl⟩
  | cons nxt l ih =>
    intro cur s hsort hs
    have hlt : cur.1 < nxt.1 := (List.pairwise_cons.mp hsort).1 nxt (by simp)
    simp only [forward]
    by_cases hc : s.prev - ref < half
    · simp only [hc, if_true]
      obtain ⟨n, hn⟩ := Archimedean.arch (nxt.1 - s.prev) (lt_of_lt_of_le he.1 he.2)
      rw [nsmul_eq_mul] at hn
      obtain ⟨s1, h1⟩ := innerFwd_total e he ref nxt.1 cur.2 n s (by rw [hs]; exact hlt.le) hn
      have hp := (innerFwd_post e he ref nxt.1 cur.2 _ s s1 (by rw [hs]; exact hlt.le) h1).prev
      obtain ⟨N, r, hr⟩ := ih nxt s1 (List.pairwise_cons.mp hsort).2 hp
      refine ⟨max (n + 2) N, r, ?_⟩
      rw [innerFwd_mono _ _ _ _ _ _ _ h1 _ (le_max_left _ _)]
      exact forward_mono _ _ _ _ _ _ _ hr _ (le_max_right _ _)
    · simp only [hc, if_false]
      exact ⟨0, _, rfl⟩

theorem backward_spec (e : IntegEnv K V P) (he : e.Ok) (fuel : Nat) (ref half : K) (l : List (K × V)) :
    ∀ (cur : K × V) (s s' : IState K P),
      (cur :: l).Pairwise (fun a b => b.1 < a.1) → s.prev = cur.1 →
      backward e fuel ref half cur l s = some s' →
        (∀ κ, cur.1 - ref ≤ κ → AMap.get s'.traj κ = AMap.get s.traj κ) ∧
        (∀ κ p, AMap.get s'.traj κ = some p → AMap.get s.traj κ = some p ∨ κ < cur.1 - ref) ∧
        (∀ κ p, AMap.get s.traj κ = some p → ∃ p', AMap.get s'.traj κ = some p') ∧
        ((cur :: l).IsChain (fun a b => e.eps ≤ a.1 - b.1) → ∀ τ, τ ≤ cur.1 - ref → -half < τ →
          (∃ x ∈ cur :: l, x.1 - ref ≤ τ) → (∃ x ∈ l, x.1 - ref ≤ τ) →
          ∃ κ p, AMap.get s'.traj κ = some p ∧ |κ - τ| ≤ e.step) := by
  induction l with
  | nil =>
    intro cur s s' _ hs h
    simp only [backward, Option.some.injEq] at h
    subst h
    exact ⟨fun _ _ => rfl, fun κ p hp => .inl hp, fun κ p hp => ⟨p, hp⟩, fun _ τ _ _ _ hx => by simp at hx⟩
  | cons nxt l ih =>
    intro cur s s' hsort hs h
    simp only [backward] at h
    have hlt : nxt.1 < cur.1 := (List.pairwise_cons.mp hsort).1 nxt (by simp)
    split at h
    · rename_i hc
      cases hi : innerBwd e ref nxt.1 cur.2 fuel s with
      | none => simp [hi] at h
      | some s1 =>
        simp only [hi] at h
        obtain ⟨p1, p2, p3, p4, p5⟩ := innerBwd_post e he ref nxt.1 cur.2 fuel s s1 (by rw [hs]; exact hlt.le) hi
        obtain ⟨q2, q3, q4, q5⟩ := ih nxt s1 s' (List.pairwise_cons.mp hsort).2 p1 h
        refine ⟨?_, ?_, ?_, ?_⟩
        · intro κ hκ
          rw [q2 κ (by linarith), p2 κ (by rw [hs]; exact hκ)]
        · intro κ p hp
          rcases q3 κ p hp with hp | hk
          · rcases p3 κ p hp with hp | hk
            · exact .inl hp
            · right; rw [hs] at hk; exact hk.2
          · right; linarith
        · intro κ p hp
          obtain ⟨p', hp'⟩ := p4 κ p hp
          exact q4 κ p' hp'
        · intro hsp τ h1 h2 _ hx
          rw [List.isChain_cons_cons] at hsp
          by_cases hτ : nxt.1 - ref ≤ τ
          · obtain ⟨κ, p, hp, hd⟩ := p5 (by rw [hs]; exact hsp.1) τ hτ (by rw [hs]; exact h1)
            obtain ⟨p', hp'⟩ := q4 κ p hp
            exact ⟨κ, p', hp', hd⟩
          · obtain ⟨x, hx, hx2⟩ := hx
            have hxl : ∃ x ∈ l, x.1 - ref ≤ τ := by
              rcases List.mem_cons.mp hx with rfl | hx
              · exact absurd hx2 hτ
              · exact ⟨x, hx, hx2⟩
            exact q5 hsp.2 τ (not_le.mp hτ).le h2 ⟨x, hx, hx2⟩ hxl
    · rename_i hc
      simp at h; subst h
      refine ⟨fun _ _ => rfl, fun κ p hp => .inl hp, fun κ p hp => ⟨p, hp⟩, ?_⟩
      intro _ τ h1 h2 _ _
      rw [hs] at hc
      exact absurd (lt_of_lt_of_le h2 h1) hc

theorem backward_mono (e : IntegEnv K V P) (fuel : Nat) (ref half : K) (l : List (K × V)) :
    ∀ (cur : K × V) (s r : IState K P), backward e fuel ref half cur l s = some r →
      ∀ k, fuel ≤ k → backward e k ref half cur l s = some r := by
  induction l with
  | nil => intro cur s r h k _; exact h
  | cons nxt l ih =>
    intro cur s r h k hk
    simp only [backward] at h ⊢
    split at h
    · rename_i hc
      rw [if_pos hc]
      cases hi : innerBwd e ref nxt.1 cur.2 fuel s with
      | none => simp [hi] at h
      | some s1 =>
        simp only [hi] at h
        rw [innerBwd_mono e ref nxt.1 cur.2 fuel s s1 hi k hk]
        exact ih nxt s1 r h k hk
    · rename_i hc; rw [if_neg hc]; exact h

theorem backward_total [Archimedean K] (e : IntegEnv K V P) (he : e.Ok) (ref half : K) (l : List (K × V)) :
    ∀ (cur : K × V) (s : IState K P), (cur :: l).Pairwise (fun a b => b.1 < a.1) → s.prev = cur.1 →
      ∃ N r, backward e N ref half cur l s = some r := by
  induction l with
  | nil => intro cur s _ _; exact ⟨0, s, rfl⟩
  | cons nxt l ih =>
    intro cur s hsort hs
    have hlt : nxt.1 < cur.1 := (List.pairwise_cons.mp hsort).1 nxt (by simp)
    simp only [backward]
    by_cases hc : s.prev - ref > -half
    · simp only [hc, if_true]
      obtain ⟨n, hn⟩ := Archimedean.arch (s.prev - nxt.1) (lt_of_lt_of_le he.1 he.2)
      rw [nsmul_eq_mul] at hn
      obtain ⟨s1, h1⟩ := innerBwd_total e he ref nxt.1 cur.2 n s (by rw [hs]; exact hlt.le) hn
      have hp := (innerBwd_post e he ref nxt.1 cur.2 _ s s1 (by rw [hs]; exact hlt.le) h1).prev
      obtain ⟨N, r, hr⟩ := ih nxt s1 (List.pairwise_cons.mp hsort).2 hp
      refine ⟨max (n + 2) N, r, ?_⟩
      rw [innerBwd_mono _ _ _ _ _ _ _ h1 _ (le_max_left _ _)]
      exact backward_mono _ _ _ _ _ _ _ _ hr _ (le_max_right _ _)
    · simp only [hc, if_false]
      exact ⟨0, s, rfl⟩

end Vel
end Verif
