import Mathlib.Tactic.Ring
import Verif.Spec.Serial
set_option linter.unusedSimpArgs false
namespace Verif
namespace Serial
open Wire
variable {α β γ : Type}

theorem Faithful.pure (x : α) : Faithful (Rd.pure x) [] x := by
  refine ⟨fun rest => rfl, fun cut h hne => ?_⟩
  exact absurd (List.prefix_nil.mp h) hne

theorem Faithful.bind {g : Rd α} {f : α → Rd β} {w w' : Bytes} {x : α} {y : β}
    (hg : Faithful g w x) (hf : Faithful (f x) w' y) : Faithful (g.bind f) (w ++ w') y := by
  refine ⟨fun rest => ?_, fun cut h hne => ?_⟩
  · simp [Rd.bind, List.append_assoc, hg.1 (w' ++ rest), hf.1 rest]
  · obtain ⟨t, ht⟩ := h
    by_cases hw : w <+: cut
    · obtain ⟨u, rfl⟩ := hw
      have hu : u ++ t = w' := by
        have := ht
        rw [List.append_assoc] at this
        exact List.append_cancel_left this
      have : f x u = .throw := hf.2 u ⟨t, hu⟩ (by rintro rfl; exact hne rfl)
      simp [Rd.bind, hg.1 u, this]
    · have hp : cut <+: w := by
        rcases List.prefix_or_prefix_of_prefix (l₁ := cut) (l₂ := w) (l₃ := w ++ w') ⟨t, ht⟩
          (List.prefix_append _ _) with h | h
        · exact h
        · exact absurd h hw
      have : cut ≠ w := by rintro rfl; exact hw (List.prefix_refl _)
      simp [Rd.bind, hg.2 cut hp this]

theorem Faithful.assert {c : Prop} [Decidable c] (h : c) : Faithful (Rd.assert c) [] () := by
  simp only [Rd.assert, h, if_true]; exact Faithful.pure ()

theorem Faithful.assertBind {c : Prop} [Decidable c] (h : c) {f : Unit → Rd β} {w : Bytes} {y : β}
    (hf : Faithful (f ()) w y) : Faithful ((Rd.assert c).bind f) w y := by
  simpa using Faithful.bind (Faithful.assert h) hf

/-- last read of a function -/
theorem Faithful.last {g : Rd α} {f : α → Rd β} {w : Bytes} {x : α} {y : β}
    (hg : Faithful g w x) (hf : f x = Rd.pure y) : Faithful (g.bind f) w y := by
  have := Faithful.bind (f := f) (w' := []) (y := y) hg (by rw [hf]; exact Faithful.pure y)
  simpa using this

theorem faithful_byte (b : Byte) : Faithful byte [b] b := by
  refine ⟨fun rest => rfl, fun cut h hne => ?_⟩
  cases cut with
  | nil => rfl
  | cons c t =>
    obtain ⟨u, hu⟩ := h
    simp at hu
    exact absurd (by simp [hu]) hne

theorem faithful_getN (k v : Nat) (hv : v < 256 ^ k) : Faithful (getN k) (putN k v) v := by
  induction k generalizing v with
  | zero =>
    simp at hv; subst hv; exact Faithful.pure _
  | succ k ih =>
    have h1 : v / 256 < 256 ^ k := by
      rw [Nat.div_lt_iff_lt_mul (by decide)]; rw [Nat.pow_succ] at hv; exact hv
    refine Faithful.bind (w := [_]) (faithful_byte _) ?_
    refine Faithful.last (ih _ h1) ?_
    simp only
    rw [Nat.mod_add_div]

theorem faithful_u8 {v : Nat} (hv : v < 256) : Faithful getU8 (putU8 v) v := faithful_getN 1 v (by simpa using hv)
theorem faithful_u32 {v : Nat} (hv : v < 2 ^ 32) : Faithful getU32 (putU32 v) v := faithful_getN 4 v (by simpa using hv)
theorem faithful_u64 {v : Nat} (hv : v < 2 ^ 64) : Faithful getU64 (putU64 v) v := faithful_getN 8 v (by simpa using hv)

theorem faithful_bool (b : Bool) : Faithful getBool (putBool b) b := by
  refine Faithful.last (faithful_u8 (v := if b then 1 else 0) (by cases b <;> decide)) ?_
  cases b <;> rfl

theorem faithful_f (x : F64) : Faithful getF (putF x) x := by
  refine Faithful.last (faithful_u64 x.isLt) ?_
  simp

theorem faithful_raw (s : Bytes) : Faithful (getRaw s.length) s s := by
  induction s with
  | nil => exact Faithful.pure _
  | cons b s ih => exact Faithful.bind (w := [b]) (faithful_byte b) (Faithful.last ih rfl)

theorem faithful_str {s : Bytes} (h : s.length < 2 ^ 32) : Faithful getStr (putStr s) s :=
  Faithful.bind (faithful_u32 h) (faithful_raw s)

theorem faithful_many {get : Rd α} {put : α → Bytes} (l : List α)
    (h : ∀ a ∈ l, Faithful get (put a) a) : Faithful (getMany get l.length) (putMany put l) l := by
  induction l with
  | nil => exact Faithful.pure _
  | cons a l ih =>
    exact Faithful.bind (h a (by simp)) (Faithful.last (ih fun b hb => h b (by simp [hb])) rfl)

theorem faithful_vec {ty : Bytes} {get : Rd α} {put : α → Bytes} {l : List α} (hty : ty.length < 2 ^ 32)
    (hl : l.length < 2 ^ 32) (h : ∀ a ∈ l, Faithful get (put a) a) :
    Faithful (getVec ty get) (putVec ty put l) l := by
  simp only [putVec, getVec, List.append_assoc]
  exact Faithful.bind (faithful_str (by decide)) <| Faithful.assertBind rfl <|
    Faithful.bind (faithful_str hty) <| Faithful.assertBind rfl <|
    Faithful.bind (faithful_u32 hl) (faithful_many l h)

theorem faithful_opt {ty : Bytes} {get : Rd α} {put : α → Bytes} {o : Option α} (hty : ty.length < 2 ^ 32)
    (h : ∀ a, o = some a → Faithful get (put a) a) :
    Faithful (getOpt ty get) (putOpt ty put o) o := by
  simp only [putOpt, getOpt, List.append_assoc]
  refine Faithful.bind (faithful_str (by decide)) <| Faithful.assertBind rfl <|
    Faithful.bind (faithful_str hty) <| Faithful.assertBind rfl ?_
  cases o with
  | none => exact Faithful.last (faithful_bool false) rfl
  | some a => exact Faithful.bind (faithful_bool true) (Faithful.last (f := fun a => Rd.pure (some a)) (h a rfl) rfl)

theorem faithful_pair {ty1 ty2 : Bytes} {get1 : Rd α} {put1 : α → Bytes} {get2 : Rd β} {put2 : β → Bytes}
    {p : α × β} (h1 : ty1.length < 2 ^ 32) (h2 : ty2.length < 2 ^ 32)
    (ha : Faithful get1 (put1 p.1) p.1) (hb : Faithful get2 (put2 p.2) p.2) :
    Faithful (getPair ty1 ty2 get1 get2) (putPair ty1 ty2 put1 put2 p) p := by
  simp only [putPair, getPair, List.append_assoc]
  exact Faithful.bind (faithful_str (by decide)) <| Faithful.assertBind rfl <|
    Faithful.bind (faithful_str h1) <| Faithful.assertBind rfl <|
    Faithful.bind (faithful_str h2) <| Faithful.assertBind rfl <|
    Faithful.bind ha (Faithful.last hb rfl)

theorem faithful_map {ty1 ty2 : Bytes} {get1 : Rd α} {put1 : α → Bytes} {get2 : Rd β} {put2 : β → Bytes}
    {l : List (α × β)} (h1 : ty1.length < 2 ^ 32) (h2 : ty2.length < 2 ^ 32) (hl : l.length < 2 ^ 32)
    (h : ∀ e ∈ l, Faithful get1 (put1 e.1) e.1 ∧ Faithful get2 (put2 e.2) e.2) :
    Faithful (getMap ty1 ty2 get1 get2) (putMap ty1 ty2 put1 put2 l) l := by
  simp only [putMap, getMap, List.append_assoc]
  exact Faithful.bind (faithful_str (by decide)) <| Faithful.assertBind rfl <|
    Faithful.bind (faithful_str h1) <| Faithful.assertBind rfl <|
    Faithful.bind (faithful_str h2) <| Faithful.assertBind rfl <|
    Faithful.bind (faithful_u32 hl) (faithful_many (put := fun e : α × β => put1 e.1 ++ put2 e.2) l fun e he =>
      Faithful.bind (h e he).1 (Faithful.last (h e he).2 rfl))

theorem faithful_obj {cls : Bytes} {ver : Nat} {w : Bytes} {body : Nat → Rd α} {x : α} (hc : cls.length < 128)
    (hv : ver < 256) (h : Faithful (body ver) w x) : Faithful (getObj cls body) (putObj cls ver w) x := by
  simp only [putObj, getObj, List.append_assoc]
  refine Faithful.bind (faithful_u8 (by omega)) <| Faithful.assertBind (by omega) ?_
  rw [show 128 + cls.length - 128 = cls.length by omega]
  exact Faithful.bind (faithful_raw cls) <| Faithful.assertBind rfl <|
    Faithful.bind (faithful_u8 hv) <| Faithful.bind h <|
    Faithful.last (faithful_u8 (by decide)) rfl

/-! safety -/

theorem Safe.pure (x : α) : Safe (Rd.pure x) := by intro s h; cases h
theorem Safe.throw : Safe (Rd.throw : Rd α) := by intro s h; cases h
theorem Safe.bind {g : Rd α} {f : α → Rd β} (hg : Safe g) (hf : ∀ a, Safe (f a)) : Safe (g.bind f) := by
  intro s h
  simp only [Rd.bind, Outcome.bind_eq_ub] at h
  rcases h with h | ⟨a, _, h⟩
  · exact hg s h
  · exact hf _ _ h
theorem Safe.assert {c : Prop} [Decidable c] : Safe (Rd.assert c) := by
  unfold Rd.assert; split
  · exact Safe.pure _
  · exact Safe.throw
theorem Safe.ite {c : Prop} [Decidable c] {g g' : Rd α} (h : Safe g) (h' : Safe g') :
    Safe (if c then g else g') := by split <;> assumption
theorem safe_byte : Safe byte := by intro s h; cases s <;> cases h
theorem safe_getN (k : Nat) : Safe (getN k) := by
  induction k with
  | zero => exact Safe.pure _
  | succ k ih => exact Safe.bind safe_byte fun _ => Safe.bind ih fun _ => Safe.pure _
theorem safe_u8 : Safe getU8 := safe_getN 1
theorem safe_u32 : Safe getU32 := safe_getN 4
theorem safe_u64 : Safe getU64 := safe_getN 8
theorem safe_bool : Safe getBool := Safe.bind safe_u8 fun _ => Safe.pure _
theorem safe_f : Safe getF := Safe.bind safe_u64 fun _ => Safe.pure _
theorem safe_raw (n : Nat) : Safe (getRaw n) := by
  induction n with
  | zero => exact Safe.pure _
  | succ k ih => exact Safe.bind safe_byte fun _ => Safe.bind ih fun _ => Safe.pure _
theorem safe_str : Safe getStr := Safe.bind safe_u32 fun _ => safe_raw _
theorem safe_many {get : Rd α} (h : Safe get) (n : Nat) : Safe (getMany get n) := by
  induction n with
  | zero => exact Safe.pure _
  | succ k ih => exact Safe.bind h fun _ => Safe.bind ih fun _ => Safe.pure _
theorem safe_vec {ty : Bytes} {get : Rd α} (h : Safe get) : Safe (getVec ty get) :=
  Safe.bind safe_str fun _ => Safe.bind Safe.assert fun _ => Safe.bind safe_str fun _ =>
  Safe.bind Safe.assert fun _ => Safe.bind safe_u32 fun _ => safe_many h _
theorem safe_opt {ty : Bytes} {get : Rd α} (h : Safe get) : Safe (getOpt ty get) :=
  Safe.bind safe_str fun _ => Safe.bind Safe.assert fun _ => Safe.bind safe_str fun _ =>
  Safe.bind Safe.assert fun _ => Safe.bind safe_bool fun _ =>
  Safe.ite (Safe.bind h fun _ => Safe.pure _) (Safe.pure _)
theorem safe_pair {ty1 ty2 : Bytes} {get1 : Rd α} {get2 : Rd β} (h1 : Safe get1) (h2 : Safe get2) :
    Safe (getPair ty1 ty2 get1 get2) :=
  Safe.bind safe_str fun _ => Safe.bind Safe.assert fun _ => Safe.bind safe_str fun _ =>
  Safe.bind Safe.assert fun _ => Safe.bind safe_str fun _ => Safe.bind Safe.assert fun _ =>
  Safe.bind h1 fun _ => Safe.bind h2 fun _ => Safe.pure _
theorem safe_map {ty1 ty2 : Bytes} {get1 : Rd α} {get2 : Rd β} (h1 : Safe get1) (h2 : Safe get2) :
    Safe (getMap ty1 ty2 get1 get2) :=
  Safe.bind safe_str fun _ => Safe.bind Safe.assert fun _ => Safe.bind safe_str fun _ =>
  Safe.bind Safe.assert fun _ => Safe.bind safe_str fun _ => Safe.bind Safe.assert fun _ =>
  Safe.bind safe_u32 fun _ => safe_many (Safe.bind h1 fun _ => Safe.bind h2 fun _ => Safe.pure _) _
theorem safe_obj {cls : Bytes} {body : Nat → Rd α} (h : ∀ v, Safe (body v)) : Safe (getObj cls body) :=
  Safe.bind safe_u8 fun _ => Safe.bind Safe.assert fun _ => Safe.bind (safe_raw _) fun _ =>
  Safe.bind Safe.assert fun _ => Safe.bind safe_u8 fun _ => Safe.bind (h _) fun _ =>
  Safe.bind safe_u8 fun _ => Safe.bind Safe.assert fun _ => Safe.pure _

end Serial
end Verif
