import Verif.Model.Covariance
import Mathlib.Data.List.Basic
import Mathlib.Tactic.Ring
namespace Verif.Lemmas.Cov
open Verif Verif.Cov
variable {K : Type}

theorem flatten_length {s : Nat} (rs : List (List K)) (h : ∀ r ∈ rs, r.length = s) : rs.flatten.length = rs.length * s := by
  induction rs with
  | nil => simp
  | cons r rs ih =>
    simp only [List.flatten_cons, List.length_append, List.length_cons]
    rw [ih (fun x hx => h x (by simp [hx])), h r (by simp)]
    ring

theorem writeAt_mid (a m b : List (Option K)) (r : List K) (hr : r.length ≤ m.length) (start : Nat) (hs : start = a.length) :
    writeAt (a ++ m ++ b) start r = .ok (a ++ r.map some ++ (m.drop r.length ++ b)) := by
  subst hs
  unfold writeAt
  rw [if_pos (by simp; omega)]
  congr 1
  rw [List.append_assoc a m b, List.take_left, List.drop_append]
  rw [List.drop_of_length_le (by omega), List.nil_append]
  rw [show a.length + r.length - a.length = r.length by omega, List.drop_append_of_le_length hr]

theorem writeLoop_ok (base s : Nat) : ∀ (rs : List (List K)) (i : Nat) (a m b : List (Option K)),
    (∀ r ∈ rs, r.length = s) → a.length = base + i * s → m.length = rs.length * s →
    writeLoop base s i rs (a ++ m ++ b) = .ok (a ++ rs.flatten.map some ++ b) := by
  intro rs
  induction rs with
  | nil =>
    intro i a m b _ _ hm
    have : m = [] := by simpa using hm
    subst this; simp [writeLoop]
  | cons r rs ih =>
    intro i a m b h ha hm
    have hr : r.length = s := h r (by simp)
    have hm' : m.length = s + rs.length * s := by rw [hm, List.length_cons]; ring
    simp only [writeLoop]
    rw [writeAt_mid a m b r (by omega) _ ha.symm]
    simp only [Outcome.bind]
    rw [← List.append_assoc]
    rw [ih (i + 1) (a ++ r.map some) (m.drop r.length) b (fun x hx => h x (by simp [hx]))
      (by simp [ha, hr]; ring) (by simp [hr]; omega)]
    simp

/-- Rows of the right sizes. -/
structure WellSized (r : Rows K) : Prop where
  pt2pt : ∀ x ∈ r.pt2pt, x.length = 3
  pt2ln : ∀ x ∈ r.pt2ln, x.length = 3
  ln2ln : ∀ x ∈ r.ln2ln, x.length = 4
  pt2pl : ∀ x ∈ r.pt2pl, x.length = 3
  pl2pl : ∀ x ∈ r.pl2pl, x.length = 3

theorem split_vec (v : List (Option K)) (a m : Nat) (h : a + m ≤ v.length) :
    ∃ x y z, v = x ++ y ++ z ∧ x.length = a ∧ y.length = m := by
  refine ⟨v.take a, (v.drop a).take m, (v.drop a).drop m, ?_, ?_, ?_⟩
  · rw [List.append_assoc, List.take_append_drop, List.take_append_drop]
  · simp; omega
  · simp; omega

/-- One loop in terms of the rows read afterwards. -/
theorem writeLoop_get (base s : Nat) (rs : List (List K)) (v : List (Option K)) (h : ∀ r ∈ rs, r.length = s)
    (hle : base + rs.length * s ≤ v.length) :
    ∃ v', writeLoop base s 0 rs v = .ok v' ∧ v'.length = v.length ∧
      (∀ j, j < base → v'[j]? = v[j]?) ∧
      (∀ j, j < rs.length * s → v'[base + j]? = (rs.flatten[j]?).map some) ∧
      (∀ j, base + rs.length * s ≤ j → v'[j]? = v[j]?) := by
  obtain ⟨x, y, z, rfl, hx, hy⟩ := split_vec v base (rs.length * s) hle
  have hf := flatten_length rs h
  have hA : (x ++ rs.flatten.map some).length = base + rs.length * s := by
    rw [List.length_append, List.length_map, hx, hf]
  have hB : (x ++ y).length = base + rs.length * s := by simp [hx, hy]
  refine ⟨_, writeLoop_ok base s rs 0 x y z h (by simpa using hx) hy, by
    rw [List.length_append, hA, List.length_append, hB], ?_, ?_, ?_⟩
  · intro j hj
    rw [List.append_assoc, List.append_assoc, List.getElem?_append_left (by omega), List.getElem?_append_left (by omega)]
  · intro j hj
    rw [List.getElem?_append_left (by rw [hA]; omega), List.getElem?_append_right (by omega), hx,
      show base + j - base = j by omega, List.getElem?_map]
  · intro j hj
    rw [List.getElem?_append_right (by rw [hA]; omega), List.getElem?_append_right (by rw [hB]; omega), hA, hB]

/-- The number of rows. -/
abbrev numRows (r : Rows K) : Nat :=
  (r.pt2pt.length + r.pl2pl.length + r.pt2ln.length + r.pt2pl.length) * 3 + r.ln2ln.length * 4

/-- The stacked vector, row by row. -/
theorem stack_get (r : Rows K) (hs : WellSized r) (hn : 0 < numRows r) :
    ∃ v5, stack r = .ok v5 ∧ v5.length = numRows r ∧
      (let p := r.pt2pt.length * 3; let l := p + r.pt2ln.length * 3; let e := l + r.ln2ln.length * 4
       let b := l + r.ln2ln.length; let c := b + r.pt2pl.length * 3; let d := c + r.pl2pl.length * 3
       (∀ j, j < p → v5[j]? = (r.pt2pt.flatten[j]?).map some) ∧
       (∀ j, j < r.pt2ln.length * 3 → v5[p + j]? = (r.pt2ln.flatten[j]?).map some) ∧
       (∀ j, j < r.ln2ln.length * 4 → (l + j < b ∨ d ≤ l + j) → v5[l + j]? = (r.ln2ln.flatten[j]?).map some) ∧
       (∀ j, j < r.pt2pl.length * 3 → v5[b + j]? = (r.pt2pl.flatten[j]?).map some) ∧
       (∀ j, j < r.pl2pl.length * 3 → v5[c + j]? = (r.pl2pl.flatten[j]?).map some) ∧
       (∀ j, e ≤ j → d ≤ j → j < numRows r → v5[j]? = some none)) := by
  have hN : numRows r = (r.pt2pt.length + r.pl2pl.length + r.pt2ln.length + r.pt2pl.length) * 3 + r.ln2ln.length * 4 := rfl
  obtain ⟨v1, w1, l1, a1, b1, c1⟩ := writeLoop_get 0 3 r.pt2pt (List.replicate (numRows r) none) hs.pt2pt (by simp; omega)
  rw [List.length_replicate] at l1
  obtain ⟨v2, w2, l2, a2, b2, c2⟩ := writeLoop_get (r.pt2pt.length * 3) 3 r.pt2ln v1 hs.pt2ln (by omega)
  obtain ⟨v3, w3, l3, a3, b3, c3⟩ := writeLoop_get (r.pt2pt.length * 3 + r.pt2ln.length * 3) 4 r.ln2ln v2 hs.ln2ln (by omega)
  obtain ⟨v4, w4, l4, a4, b4, c4⟩ := writeLoop_get (r.pt2pt.length * 3 + r.pt2ln.length * 3 + r.ln2ln.length) 3 r.pt2pl v3
    hs.pt2pl (by omega)
  obtain ⟨v5, w5, l5, a5, b5, c5⟩ := writeLoop_get
    (r.pt2pt.length * 3 + r.pt2ln.length * 3 + r.ln2ln.length + r.pt2pl.length * 3) 3 r.pl2pl v4 hs.pl2pl (by omega)
  refine ⟨v5, ?_, by omega, ?_⟩
  · have hn' : 0 < (r.pt2pt.length + r.pl2pl.length + r.pt2ln.length + r.pt2pl.length) * 3 + r.ln2ln.length * 4 := hn
    simp only [stack, Outcome.assert_true hn', Outcome.bind]
    rw [show List.replicate ((r.pt2pt.length + r.pl2pl.length + r.pt2ln.length + r.pt2pl.length) * 3 + r.ln2ln.length * 4)
      (none : Option K) = List.replicate (numRows r) none from rfl, w1]
    simp only [w2, w3, w4, w5]
  · refine ⟨?_, ?_, ?_, ?_, ?_, ?_⟩
    · intro j hj
      rw [a5 j (by omega), a4 j (by omega), a3 j (by omega), a2 j (by omega)]
      have := b1 j (by omega); rwa [Nat.zero_add] at this
    · intro j hj
      rw [a5 _ (by omega), a4 _ (by omega), a3 _ (by omega), b2 j hj]
    · intro j hj h
      rcases h with h | h
      · rw [a5 _ (by omega), a4 _ (by omega), b3 j hj]
      · rw [c5 _ (by omega), c4 _ (by omega), b3 j hj]
    · intro j hj
      rw [a5 _ (by omega), b4 j hj]
    · intro j hj
      rw [b5 j hj]
    · intro j h1 h2 h3
      rw [c5 _ (by omega), c4 _ (by omega), c3 _ (by omega), c2 _ (by omega), c1 _ (by omega)]
      simp [h3]

end Verif.Lemmas.Cov
