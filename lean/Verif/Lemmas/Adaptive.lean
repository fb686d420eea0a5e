import Mathlib.Data.List.Perm.Basic
import Mathlib.Data.List.Flatten
import Verif.Lemmas.DecimateTop
set_option linter.unusedSectionVars false
namespace Verif
namespace Vox
open Flt

/-- the points left -/
def left (s : AdState) : Nat := s.vox.flatten.length

/-- one iteration -/
def adStep (s : AdState) : AdState :=
  match s.vox[s.i]? with
  | some (a :: q) => { s with vox := s.vox.set s.i q, any := true, taken := s.taken ++ [a] }
  | _ => s

theorem adLoop_succ (have0 want inc fuel : Nat) (s : AdState) (h : have0 + s.taken.length < want) (hi : s.i < s.vox.length) :
    adLoop have0 want inc (fuel + 1) s =
      if s.vox.length ≤ s.i + inc then
        if (adStep s).any then
          adLoop have0 want inc fuel { adStep s with i := (s.i + inc + 123653) % s.vox.length, any := false }
        else some (.ok (adStep s).taken)
      else adLoop have0 want inc fuel { adStep s with i := s.i + inc } := by
  rw [adLoop, if_pos h]
  unfold adStep
  rw [List.getElem?_eq_getElem hi]
  cases hq : s.vox[s.i] with
  | nil => simp
  | cons a q => simp

theorem adStep_vox_length (s : AdState) : (adStep s).vox.length = s.vox.length := by
  unfold adStep; split <;> simp

theorem adStep_i (s : AdState) : (adStep s).i = s.i := by
  unfold adStep; split <;> rfl

theorem flatten_set {v : List (List Nat)} {i : Nat} {a : Nat} {q : List Nat} (h : v[i]? = some (a :: q)) :
    v.flatten.Perm (a :: (v.set i q).flatten) := by
  induction v generalizing i with
  | nil => simp at h
  | cons l v ih =>
    cases i with
    | zero =>
      simp only [List.getElem?_cons_zero, Option.some.injEq] at h
      subst h
      simp
    | succ i =>
      simp only [List.getElem?_cons_succ] at h
      simp only [List.flatten_cons, List.set_cons_succ]
      exact ((ih h).append_left l).trans List.perm_middle

theorem adStep_cases (s : AdState) :
    (adStep s = s ∧ ∀ a q, s.vox[s.i]? ≠ some (a :: q)) ∨
    ∃ a q, s.vox[s.i]? = some (a :: q) ∧
      adStep s = { s with vox := s.vox.set s.i q, any := true, taken := s.taken ++ [a] } := by
  unfold adStep
  split
  · rename_i a q h; exact Or.inr ⟨a, q, h, rfl⟩
  · rename_i h; exact Or.inl ⟨rfl, fun a q hh => h a q hh⟩

theorem adStep_perm (s : AdState) :
    ((adStep s).taken ++ (adStep s).vox.flatten).Perm (s.taken ++ s.vox.flatten) := by
  rcases adStep_cases s with ⟨h, -⟩ | ⟨a, q, h, he⟩
  · rw [h]
  · rw [he]
    simp only [List.append_assoc, List.singleton_append]
    exact ((flatten_set h).symm).append_left _

theorem adStep_left (s : AdState) :
    (left (adStep s) = left s ∧ (adStep s).any = s.any ∧ (adStep s).taken = s.taken) ∨
    (left (adStep s) + 1 = left s ∧ (adStep s).any = true ∧ (adStep s).taken.length = s.taken.length + 1) := by
  rcases adStep_cases s with ⟨h, -⟩ | ⟨a, q, h, he⟩
  · rw [h]; exact Or.inl ⟨rfl, rfl, rfl⟩
  · refine Or.inr ⟨?_, by rw [he], by rw [he]; simp⟩
    have := (flatten_set h).length_eq
    rw [List.length_cons] at this
    rw [he]; exact this.symm

/-- the loop ends, within a number of iterations given by the points left -/
theorem adLoop_ends (have0 want inc : Nat) (hinc : 0 < inc) (fuel : Nat) (s : AdState) (hi : s.i < s.vox.length)
    (hf : (2 * left s + (if s.any then 1 else 0)) * (s.vox.length + 1) + (s.vox.length - s.i) < fuel) :
    ∃ t, adLoop have0 want inc fuel s = some (.ok t) := by
  induction fuel generalizing s with
  | zero => omega
  | succ fuel ih =>
    by_cases hw : have0 + s.taken.length < want
    · rw [adLoop_succ _ _ _ _ _ hw hi]
      have hn := adStep_vox_length s
      have hl := adStep_left s
      generalize hN : s.vox.length = n at *
      by_cases hr : n ≤ s.i + inc
      · rw [if_pos hr]
        by_cases ha : (adStep s).any = true
        · rw [if_pos ha]
          have hpos : 0 < n := by omega
          have hmod := Nat.mod_lt (s.i + inc + 123653) hpos
          apply ih
          · simpa [hn] using hmod
          · simp only [left, Bool.false_eq_true, if_false, Nat.add_zero, hn] at *
            rcases hl with ⟨h1, h2, -⟩ | ⟨h1, h2, -⟩
            · rw [ha] at h2
              rw [h1]
              simp only [← h2, if_true] at hf
              rw [Nat.add_mul, Nat.one_mul] at hf
              omega
            · have : 2 * s.vox.flatten.length = 2 * (adStep s).vox.flatten.length + 2 := by omega
              rw [this, Nat.add_mul, Nat.add_mul] at hf
              omega
        · rw [if_neg ha]; exact ⟨_, rfl⟩
      · rw [if_neg hr]
        apply ih
        · simp only [hn]; omega
        · simp only [left, hn] at *
          rcases hl with ⟨h1, h2, -⟩ | ⟨h1, h2, -⟩
          · rw [h1, h2]; omega
          · rw [h2]
            have : 2 * s.vox.flatten.length = 2 * (adStep s).vox.flatten.length + 2 := by omega
            rw [this, Nat.add_mul, Nat.add_mul] at hf
            simp only [if_true]
            rw [Nat.add_mul]
            omega
    · exact ⟨s.taken, by rw [adLoop, if_neg hw]⟩

/-- any relation kept by the steps holds between the start and the result -/
theorem adLoop_inv (have0 want inc : Nat) (P : AdState → Prop)
    (hstep : ∀ s, P s → have0 + s.taken.length < want → s.i < s.vox.length →
      (s.i + inc < s.vox.length → P { adStep s with i := s.i + inc }) ∧
      (s.vox.length ≤ s.i + inc → P { adStep s with i := (s.i + inc + 123653) % s.vox.length, any := false }))
    (fuel : Nat) (s : AdState) (hP : P s) (t : List Nat) (h : adLoop have0 want inc fuel s = some (.ok t)) :
    ∃ s', P s' ∧ s'.taken = t := by
  induction fuel generalizing s with
  | zero => simp [adLoop] at h
  | succ fuel ih =>
    by_cases hw : have0 + s.taken.length < want
    · by_cases hi : s.i < s.vox.length
      · rw [adLoop_succ _ _ _ _ _ hw hi] at h
        obtain ⟨h1, h2⟩ := hstep s hP hw hi
        split at h
        · rename_i hr
          split at h
          · exact ih _ (h2 hr) h
          · rename_i ha
            simp only [Option.some.injEq, Outcome.ok.injEq] at h
            refine ⟨s, hP, ?_⟩
            rcases adStep_left s with ⟨-, -, h'⟩ | ⟨-, h', -⟩
            · rw [← h', h]
            · exact absurd h' ha
        · rename_i hr
          exact ih _ (h1 (by omega)) h
      · rw [adLoop, if_pos hw, List.getElem?_eq_none (by omega)] at h
        simp at h
    · rw [adLoop, if_neg hw] at h
      simp only [Option.some.injEq, Outcome.ok.injEq] at h
      exact ⟨s, hP, h⟩

theorem adLoop_result (have0 want inc fuel : Nat) (v : List (List Nat)) (t : List Nat)
    (h : adLoop have0 want inc fuel ⟨v, 0, false, []⟩ = some (.ok t)) :
    (∃ rest, (t ++ rest).Perm v.flatten) ∧ (t = [] ∨ have0 + t.length ≤ want) := by
  obtain ⟨s', ⟨h1, h2⟩, rfl⟩ := adLoop_inv have0 want inc
    (fun s => (s.taken ++ s.vox.flatten).Perm v.flatten ∧ (s.taken = [] ∨ have0 + s.taken.length ≤ want)) (by
      rintro s ⟨hp, hl⟩ hw hi
      have key : ((adStep s).taken ++ (adStep s).vox.flatten).Perm v.flatten ∧
          ((adStep s).taken = [] ∨ have0 + (adStep s).taken.length ≤ want) := by
        refine ⟨(adStep_perm s).trans hp, Or.inr ?_⟩
        rcases adStep_left s with ⟨-, -, h⟩ | ⟨-, -, h⟩
        · rw [h]; omega
        · omega
      exact ⟨fun _ => key, fun _ => key⟩) fuel ⟨v, 0, false, []⟩ ⟨by simp, Or.inl rfl⟩ t h
  exact ⟨⟨_, h1⟩, h2⟩

/-- with increment 1, the voxels before index `123653 % n` give at most their first point -/
theorem adLoop_starves (have0 want fuel : Nat) (v : List (List Nat)) (t : List Nat)
    (h : adLoop have0 want 1 fuel ⟨v, 0, false, []⟩ = some (.ok t)) :
    ∀ a ∈ t, ∃ j l, v[j]? = some l ∧ a ∈ l ∧ (j < 123653 % v.length → l.head? = some a) := by
  obtain ⟨s', ⟨-, -, -, h4⟩, rfl⟩ := adLoop_inv have0 want 1
    (fun s => s.vox.length = v.length ∧
      (∀ j, j < 123653 % v.length → s.vox[j]? = v[j]? ∨ j < s.i) ∧
      (∀ (j : Nat) (q : List Nat), s.vox[j]? = some q → ∃ l, v[j]? = some l ∧ q <:+ l) ∧
      ∀ a ∈ s.taken, ∃ j l, v[j]? = some l ∧ a ∈ l ∧ (j < 123653 % v.length → l.head? = some a)) (by
      rintro s ⟨hn, hr, hsuf, ht⟩ hw hi
      have key : (adStep s).vox.length = v.length ∧
          (∀ j, j < 123653 % v.length → (adStep s).vox[j]? = v[j]? ∨ j < s.i + 1) ∧
          (∀ (j : Nat) (q : List Nat), (adStep s).vox[j]? = some q → ∃ l, v[j]? = some l ∧ q <:+ l) ∧
          ∀ a ∈ (adStep s).taken, ∃ j l, v[j]? = some l ∧ a ∈ l ∧ (j < 123653 % v.length → l.head? = some a) := by
        rcases adStep_cases s with ⟨he, -⟩ | ⟨a, q, h, he⟩
        · rw [he]
          refine ⟨hn, fun j hj => ?_, hsuf, ht⟩
          rcases hr j hj with h | h
          · exact Or.inl h
          · exact Or.inr (by omega)
        · rw [he]
          refine ⟨by simpa using hn, fun j hj => ?_, fun j q' hq' => ?_, fun b hb => ?_⟩
          · by_cases hij : j = s.i
            · exact Or.inr (by omega)
            · rcases hr j hj with h | h
              · left
                show (s.vox.set s.i q)[j]? = v[j]?
                rw [List.getElem?_set_ne (fun hh => hij hh.symm), h]
              · exact Or.inr (by omega)
          · by_cases hij : j = s.i
            · subst hij
              obtain ⟨l, hl, hs⟩ := hsuf _ _ h
              refine ⟨l, hl, ?_⟩
              have hq'' : (s.vox.set s.i q)[s.i]? = some q' := hq'
              rw [List.getElem?_set_self (by omega)] at hq''
              obtain rfl : q = q' := by simpa using hq''
              exact (List.suffix_cons a q).trans hs
            · have hq'' : (s.vox.set s.i q)[j]? = some q' := hq'
              rw [List.getElem?_set_ne (fun hh => hij hh.symm)] at hq''
              exact hsuf j q' hq''
          · have hb' : b ∈ s.taken ++ [a] := hb
            rcases List.mem_append.1 hb' with hb' | hb'
            · exact ht b hb'
            · obtain rfl : b = a := by simpa using hb'
              obtain ⟨l, hl, hs⟩ := hsuf _ _ h
              refine ⟨s.i, l, hl, hs.subset (List.mem_cons_self ..), fun hlt => ?_⟩
              rcases hr s.i hlt with hh | hh
              · rw [h, hl] at hh
                obtain rfl : b :: q = l := by simpa using hh
                rfl
              · omega
      obtain ⟨k1, k2, k3, k4⟩ := key
      refine ⟨fun _ => ⟨k1, k2, k3, k4⟩, fun hge => ⟨k1, fun j hj => Or.inr ?_, k3, k4⟩⟩
      show j < (s.i + 1 + 123653) % s.vox.length
      have : s.i + 1 = s.vox.length := by omega
      rw [this, Nat.add_mod_left, hn]; exact hj) fuel ⟨v, 0, false, []⟩ ⟨rfl, fun j _ => Or.inl rfl,
        fun j q hq => ⟨q, hq, List.suffix_refl q⟩, by simp⟩ t h
  exact h4

/-- what is taken stays taken -/
theorem adLoop_prefix (have0 want inc fuel : Nat) (s : AdState) (t : List Nat)
    (h : adLoop have0 want inc fuel s = some (.ok t)) : s.taken <+: t := by
  obtain ⟨s', h1, rfl⟩ := adLoop_inv have0 want inc (fun s' => s.taken <+: s'.taken) (by
      intro s' hp _ _
      have key : s.taken <+: (adStep s').taken := by
        rcases adStep_cases s' with ⟨he, -⟩ | ⟨a, q, -, he⟩
        · rw [he]; exact hp
        · rw [he]; exact hp.trans (List.prefix_append ..)
      exact ⟨fun _ => key, fun _ => key⟩) fuel s (List.prefix_refl _) t h
  exact h1

/-- the first round, with increment 1: the first point of each voxel, in order -/
theorem adLoop_first_round (have0 want : Nat) (todo : List (List Nat)) (done : List (List Nat)) (fuel : Nat) (any : Bool)
    (tk : List Nat) (hne : ∀ l ∈ todo, l ≠ []) (hw : have0 + tk.length + todo.length ≤ want) (t : List Nat)
    (h : adLoop have0 want 1 fuel ⟨done ++ todo, done.length, any, tk⟩ = some (.ok t)) :
    ∃ heads, List.Forall₂ (fun l a => l.head? = some a) todo heads ∧ (tk ++ heads) <+: t := by
  induction todo generalizing done fuel any tk with
  | nil => exact ⟨[], List.Forall₂.nil, by simpa using adLoop_prefix _ _ _ _ _ _ h⟩
  | cons l todo ih =>
    obtain ⟨a, q, rfl⟩ := List.exists_cons_of_ne_nil (hne l (List.mem_cons_self ..))
    cases fuel with
    | zero => simp [adLoop] at h
    | succ fuel =>
      rw [List.length_cons] at hw
      rw [adLoop_succ _ _ _ _ _ (by simp only; omega) (by simp)] at h
      have hst : adStep ⟨done ++ (a :: q) :: todo, done.length, any, tk⟩ =
          ⟨done ++ q :: todo, done.length, true, tk ++ [a]⟩ := by
        simp [adStep]
      rw [hst] at h
      simp only [if_true] at h
      split at h
      · rename_i hlen
        have h0 : todo = [] := by
          apply List.eq_nil_of_length_eq_zero
          simp only [List.length_append, List.length_cons] at hlen; omega
        subst h0
        exact ⟨[a], List.Forall₂.cons rfl List.Forall₂.nil, adLoop_prefix _ _ _ _ _ _ h⟩
      · have e : (⟨done ++ q :: todo, done.length + 1, true, tk ++ [a]⟩ : AdState) =
            ⟨(done ++ [q]) ++ todo, (done ++ [q]).length, true, tk ++ [a]⟩ := by simp
        rw [e] at h
        obtain ⟨hs, h1, h2⟩ := ih (done ++ [q]) fuel true (tk ++ [a])
          (fun l hl => hne l (List.mem_cons_of_mem _ hl)) (by simp; omega) h
        exact ⟨a :: hs, List.Forall₂.cons rfl h1, by simpa using h2⟩

/-- the first pass, any increment: the `j`-th point taken is the first one of voxel `j * inc` -/
theorem adLoop_first_pass (have0 want inc : Nat) (hinc : 0 < inc) (v : List (List Nat)) (hne : ∀ l ∈ v, l ≠ []) (fuel k : Nat)
    (s : AdState) (hk : s.taken.length = k) (hi : s.i = k * inc) (hl : s.vox.length = v.length)
    (hv : ∀ j, k ≤ j → s.vox[j * inc]? = v[j * inc]?) (t : List Nat) (h : adLoop have0 want inc fuel s = some (.ok t))
    (j : Nat) (hkj : k ≤ j) (hj : j * inc < v.length) (hw : have0 + j < want) : t[j]? = (v[j * inc]?).bind List.head? := by
  induction fuel generalizing k s with
  | zero => simp [adLoop] at h
  | succ fuel ih =>
    have hki : k * inc ≤ j * inc := Nat.mul_le_mul_right _ hkj
    have hik : k * inc < v.length := by omega
    rw [adLoop_succ _ _ _ _ _ (by omega) (by omega)] at h
    have hvk := hv k (le_refl _)
    obtain ⟨a, q, hq⟩ := List.exists_cons_of_ne_nil (hne v[k * inc] (List.getElem_mem hik))
    have hvk' : s.vox[s.i]? = some (a :: q) := by rw [hi, hvk, List.getElem?_eq_getElem hik, hq]
    have hst : adStep s = { s with vox := s.vox.set s.i q, any := true, taken := s.taken ++ [a] } := by
      unfold adStep; rw [hvk']
    have hpre : ∀ {t}, s.taken ++ [a] <+: t → t[k]? = (v[k * inc]?).bind List.head? := by
      rintro t ⟨r, rfl⟩
      rw [List.getElem?_eq_getElem hik, hq]
      simp [← hk]
    by_cases hjk : j = k
    · subst hjk
      split at h
      · rw [hst, if_pos rfl] at h
        exact hpre (adLoop_prefix _ _ _ _ _ _ h)
      · have := adLoop_prefix _ _ _ _ _ _ h
        rw [hst] at this
        exact hpre this
    · have hlt : k + 1 ≤ j := by omega
      have hmul : (k + 1) * inc ≤ j * inc := Nat.mul_le_mul_right _ hlt
      have hsucc : (k + 1) * inc = k * inc + inc := Nat.succ_mul k inc
      rw [if_neg (by omega)] at h
      rw [hst] at h
      refine ih (k + 1) _ (by simp [hk]) (by simp only; omega) (by simp [hl]) (fun j' hj' => ?_) h hlt
      have h2 : (k + 1) * inc ≤ j' * inc := Nat.mul_le_mul_right _ hj'
      simp only
      rw [List.getElem?_set_ne (by omega)]
      exact hv j' (by omega)

end Vox
end Verif
