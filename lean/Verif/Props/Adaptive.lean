import Mathlib.Algebra.Order.Ring.Rat
import Mathlib.Data.Rat.Floor
import Mathlib.Tactic.NormNum
import Verif.Lemmas.Adaptive
/-
C51: FilterDecimateAdaptive.  C52: FilterRemoveByVoxelOccupancy.
-/
set_option linter.unusedSectionVars false
namespace Verif
namespace Props
open Flt Vox

/-! ### C51: the loop -/

/-- The sampling loop ends for every input: with at least one usable voxel it gives an answer, with none it reads out of bounds
unless the output is already large enough. -/
theorem adaptive_loop_ends (have0 want inc : Nat) (hinc : 0 < inc) (v : List (List Nat)) :
    ∃ fuel0, ∀ fuel, fuel0 ≤ fuel → ∃ r, adLoop have0 want inc fuel ⟨v, 0, false, []⟩ = some r ∧
      (r = .ub ↔ v = [] ∧ have0 < want) ∧ r ≠ .throw := by
  cases v with
  | nil =>
    refine ⟨1, fun fuel hf => ?_⟩
    obtain ⟨f, rfl⟩ : ∃ f, fuel = f + 1 := ⟨fuel - 1, by omega⟩
    by_cases h : have0 < want
    · exact ⟨.ub, by simp [adLoop, h], by simp [h], by simp⟩
    · exact ⟨.ok [], by simp [adLoop, h], by simp [h], by simp⟩
  | cons l v =>
    refine ⟨(2 * (List.flatten (l :: v)).length) * ((l :: v).length + 1) + (l :: v).length + 1, fun fuel hf => ?_⟩
    · obtain ⟨t, ht⟩ := adLoop_ends have0 want inc hinc fuel ⟨l :: v, 0, false, []⟩ (by simp) (by
        simp only [left, Bool.false_eq_true, if_false, Nat.add_zero, Nat.sub_zero] at hf ⊢
        omega)
      exact ⟨.ok t, ht, by simp, by simp⟩

/-- The first round takes the first point of every voxel, in the order of the voxels (if so many are wanted). -/
theorem adaptive_first_round (have0 want : Nat) (v : List (List Nat)) (hne : ∀ l ∈ v, l ≠ [])
    (hw : have0 + v.length ≤ want) (fuel : Nat) (t : List Nat)
    (h : adLoop have0 want 1 fuel ⟨v, 0, false, []⟩ = some (.ok t)) :
    ∃ heads, List.Forall₂ (fun l a => l.head? = some a) v heads ∧ heads <+: t := by
  obtain ⟨hs, h1, h2⟩ := adLoop_first_round have0 want v [] fuel false [] hne (by simpa using hw) t h
  exact ⟨hs, h1, by simpa using h2⟩

/-- But later rounds are not round-robin: they start at voxel `123653 % n` every time, so the voxels before it never give a
second point, however many points are wanted and however many they hold. -/
theorem adaptive_starves (have0 want : Nat) (v : List (List Nat)) (hnd : v.flatten.Nodup) (fuel : Nat) (t : List Nat)
    (h : adLoop have0 want 1 fuel ⟨v, 0, false, []⟩ = some (.ok t)) (j : Nat) (hj : j < 123653 % v.length) (l : List Nat)
    (hl : v[j]? = some l) : ∀ a ∈ l.tail, a ∉ t := by
  intro a ha hat
  obtain ⟨j', l', hl', hal', hh⟩ := adLoop_starves have0 want fuel v t h a hat
  rw [List.nodup_flatten] at hnd
  have hal : a ∈ l := List.mem_of_mem_tail ha
  by_cases hjj : j = j'
  · subst hjj
    rw [hl] at hl'
    obtain rfl : l = l' := by simpa using hl'
    have hd := hh hj
    have := hnd.1 l (List.mem_of_getElem? hl)
    cases l with
    | nil => simp at ha
    | cons b l =>
      obtain rfl : b = a := by simpa using hd
      rw [List.nodup_cons] at this
      exact this.1 ha
  · obtain ⟨h1, e1⟩ := List.getElem?_eq_some_iff.1 hl
    obtain ⟨h2, e2⟩ := List.getElem?_eq_some_iff.1 hl'
    have hp := hnd.2
    rw [List.pairwise_iff_getElem] at hp
    rcases lt_or_gt_of_ne hjj with hlt | hlt
    · have := hp j j' h1 h2 hlt
      rw [e1, e2] at this
      exact this hal hal'
    · have := hp j' j h2 h1 hlt
      rw [e1, e2] at this
      exact this hal' hal

/-- Seven voxels of three points each, all 21 wanted: only 11 are given. -/
theorem adaptive_starves_example :
    adLoop 0 21 1 100 ⟨[[0, 1, 2], [3, 4, 5], [6, 7, 8], [9, 10, 11], [12, 13, 14], [15, 16, 17], [18, 19, 20]], 0, false, []⟩ =
      some (.ok [0, 3, 6, 9, 12, 15, 18, 16, 19, 17, 20]) := by decide +kernel

/-! ### C51: the filter -/

section
variable {K X : Type} [Zero K]

/-- The voxel of `q` has at least `minPer` points of `pts`; `key` = the voxel of each point. -/
def UsableBy (key : FPt K → Idx) (minPer : Nat) (pts : List (FPt K)) (q : FPt K) : Prop :=
  minPer ≤ (pointsIn key pts (key q)).length

/-- the class of a new output -/
def simpleCloud : Cloud K := { hasI := false, hasRing := false, hasT := false }

theorem inVoxel_length (key : FPt K → Idx) (pts : List (FPt K)) (k : Idx) :
    ((List.range pts.length).filter fun i => keyAt key pts i = k).length = (pointsIn key pts k).length := by
  have h : pointsAt pts _ = Outcome.ok (pointsIn key pts k) := pointsAt_voxel key k pts
  generalize (List.range pts.length).filter (fun i => decide (keyAt key pts i = k)) = l at *
  generalize pointsIn key pts k = r at *
  induction l generalizing r with
  | nil =>
    simp only [pointsAt, Outcome.ok.injEq] at h
    rw [← h]; rfl
  | cons i l ih =>
    rw [pointsAt] at h
    split at h
    · simp only [Outcome.bind_eq_ok, Outcome.ok.injEq] at h
      obtain ⟨r', h1, rfl⟩ := h
      simp [ih r' h1]
    · cases h

theorem pointsAt_getElem? (pts : List (FPt K)) (l : List Nat) (ps : List (FPt K)) (h : pointsAt pts l = .ok ps) (j : Nat) :
    ps[j]? = (l[j]?).bind (fun i => pts[i]?) := by
  induction l generalizing ps j with
  | nil =>
    simp only [pointsAt, Outcome.ok.injEq] at h
    rw [← h]; simp
  | cons i l ih =>
    rw [pointsAt] at h
    split at h
    · rename_i q hq
      simp only [Outcome.bind_eq_ok, Outcome.ok.injEq] at h
      obtain ⟨r', h1, rfl⟩ := h
      cases j with
      | zero => simp [hq]
      | succ j => simpa using ih r' h1 j
    · cases h

theorem head_pointsAt (key : FPt K → Idx) (pts : List (FPt K)) (k : Idx) :
    (((List.range pts.length).filter fun i => keyAt key pts i = k).head?).bind (fun i => pts[i]?) = (pointsIn key pts k).head? := by
  have := pointsAt_getElem? pts _ _ (pointsAt_voxel key k pts) 0
  simp only [← List.head?_eq_getElem?] at this
  exact this.symm

/-- One call of an enabled filter, all voxel indices fitting 32 bits. It ends. If there is a usable voxel, or nothing is wanted,
it appends to the output points of usable voxels of the input, none of them twice, and no more than are wanted; otherwise the
behaviour is undefined.
Part of C51: undefined if no voxel is usable (`adaptive_empty_input_ub`), not round-robin after the first round (`adaptive_starves`). -/
theorem adaptive_result_by_partial [VoxelIdx K] (key : FPt K → Idx) (p : AdParams) (hen : p.enabled = true) (vs : K)
    (visitM : List (Idx × List Nat) → List (Idx × List Nat)) (hv : ∀ g, (visitM g).Perm g) (rnd : Nat → Nat → Nat)
    (m : FMap K X) (c : Cloud K) (hm : m.get p.inp = some (.pts c)) (hout : p.out ≠ "")
    (ho : ∀ x, m.get p.out ≠ some (.other x)) (hr : ∀ q ∈ c.pts, voxelOf vs q = .ok (key q)) :
    ∃ fuel0, ∀ fuel, fuel0 ≤ fuel →
      ((∃ q ∈ c.pts, UsableBy key p.minPer c.pts q) ∨ p.want ≤ sizeNow m p.out →
        ∃ (m' : FMap K X) (idxs : List Nat) (ps : List (FPt K)), filterAdaptive p vs visitM rnd fuel m = some (.ok m') ∧ idxs.Nodup ∧
          List.Forall₂ (fun i q => c.pts[i]? = some q) idxs ps ∧ (∀ q ∈ ps, UsableBy key p.minPer c.pts q) ∧
          (ps = [] ∨ sizeNow m p.out + ps.length ≤ p.want) ∧ AppendedTo p.out simpleCloud ps m m') ∧
      ((∀ q ∈ c.pts, ¬ UsableBy key p.minPer c.pts q) → sizeNow m p.out < p.want →
        filterAdaptive p vs visitM rnd fuel m = some .ub) := by
  obtain ⟨r, hr1, hrk⟩ := getOrCreate_ok (simpleCloud : Cloud K) m p.out (fun _ => ho)
  have hsz : sizeNow r.2 p.out = sizeNow m p.out := by
    unfold sizeNow
    rw [hrk]
    cases hg : m.get p.out with
    | none => simp [hout, simpleCloud]
    | some l => simp
  obtain ⟨g, hg1, hg2⟩ := processMulti_by key vs (keyAt key c.pts) c.pts 0 [] (MInv.nil _) hr (by
    intro j hj
    simp [keyAt, List.getElem?_eq_getElem hj])
  rw [Nat.zero_add] at hg2
  generalize hV : ((visitM g).map (·.2)).filter (fun l => decide (p.minPer ≤ l.length)) = v
  have hvm : ∀ l ∈ v, ∃ k, l ≠ [] ∧ l = (List.range c.pts.length).filter (fun i => keyAt key c.pts i = k) ∧
      p.minPer ≤ l.length := by
    intro l hl
    rw [← hV, List.mem_filter] at hl
    obtain ⟨⟨k, l'⟩, he, rfl⟩ := List.mem_map.1 hl.1
    obtain ⟨q1, q2⟩ := (hg2.2 k l').1 ((hv g).mem_iff.1 he)
    exact ⟨k, q1, q2, by simpa using hl.2⟩
  have hvnil : v = [] ↔ ∀ q ∈ c.pts, ¬ UsableBy key p.minPer c.pts q := by
    constructor
    · intro h0 q hq hu
      have : ((List.range c.pts.length).filter fun i => keyAt key c.pts i = key q) ∈ v := by
        rw [← hV, List.mem_filter, List.mem_map]
        refine ⟨⟨(key q, _), (hv g).mem_iff.2 ((hg2.2 _ _).2 ⟨?_, rfl⟩), rfl⟩, ?_⟩
        · intro hnil
          have h1 := inVoxel_length key c.pts (key q)
          rw [hnil] at h1
          have : q ∈ pointsIn key c.pts (key q) := by simp [pointsIn, hq]
          rw [List.eq_nil_of_length_eq_zero h1.symm] at this
          cases this
        · rw [inVoxel_length]; simpa [UsableBy] using hu
      rw [h0] at this; cases this
    · intro h0
      by_contra hne
      obtain ⟨l, hl⟩ := List.exists_mem_of_ne_nil v hne
      obtain ⟨k, h1, h2, h3⟩ := hvm l hl
      obtain ⟨i, hi⟩ := List.exists_mem_of_ne_nil l h1
      rw [h2, List.mem_filter, List.mem_range] at hi
      have hk : key c.pts[i] = k := by
        have := hi.2
        simpa [keyAt, List.getElem?_eq_getElem hi.1] using this
      apply h0 c.pts[i] (List.getElem_mem hi.1)
      rw [UsableBy, hk, ← inVoxel_length, ← h2]; exact h3
  have hvnd : v.flatten.Nodup := by
    rw [List.nodup_flatten]
    constructor
    · intro l hl
      obtain ⟨k, -, h2, -⟩ := hvm l hl
      rw [h2]; exact List.nodup_range.filter _
    · rw [← hV]
      apply List.Pairwise.filter
      rw [List.pairwise_map]
      have hkn : ((visitM g).map (·.1)).Nodup := ((hv g).map _).nodup_iff.2 hg2.1
      rw [List.Nodup, List.pairwise_map] at hkn
      refine hkn.imp_of_mem ?_
      rintro ⟨k1, l1⟩ ⟨k2, l2⟩ h1 h2 hk
      obtain ⟨-, e1⟩ := (hg2.2 k1 l1).1 ((hv g).mem_iff.1 h1)
      obtain ⟨-, e2⟩ := (hg2.2 k2 l2).1 ((hv g).mem_iff.1 h2)
      intro a ha1 ha2
      simp only [e1, e2, List.mem_filter, decide_eq_true_eq] at ha1 ha2
      exact hk (ha1.2.symm.trans ha2.2)
  have hinc : 0 < increment rnd v.length p.want := by unfold increment; split <;> omega
  obtain ⟨fuel0, hF⟩ := adaptive_loop_ends (sizeNow m p.out) p.want (increment rnd v.length p.want) hinc v
  refine ⟨fuel0, fun fuel hf => ?_⟩
  obtain ⟨o, ho1, ho2, ho3⟩ := hF fuel hf
  have hloop : adaptiveIndices rnd fuel (sizeNow r.2 p.out) p.want p.minPer ((visitM g).map (·.2)) = some o := by
    unfold adaptiveIndices
    simp only [hV, hsz]
    exact ho1
  have hr1' : getOrCreatePointLayer (some { hasI := false, hasRing := false, hasT := false }) m p.out true = .ok r := hr1
  constructor
  · intro hcase
    have hne : o ≠ .ub := by
      intro h
      obtain ⟨h1, h2⟩ := ho2.1 h
      rw [hvnil] at h1
      rcases hcase with ⟨q, hq, hu⟩ | hle
      · exact h1 q hq hu
      · omega
    cases o with
    | throw => exact absurd rfl ho3
    | ub => exact absurd rfl hne
    | ok idxs =>
      obtain ⟨⟨rest, hperm⟩, hlen⟩ := adLoop_result _ _ _ _ v idxs ho1
      have hnd : idxs.Nodup := by
        have := hperm.nodup_iff.2 hvnd
        exact (List.nodup_append.1 this).1
      have hmem : ∀ i ∈ idxs, ∃ l ∈ v, i ∈ l := by
        intro i hi
        have := hperm.mem_iff.1 (List.mem_append_left rest hi)
        rwa [List.mem_flatten] at this
      obtain ⟨ps, hps1, hps2⟩ := pointsAt_map c.pts idxs (by
        intro i hi
        obtain ⟨l, hl, hil⟩ := hmem i hi
        obtain ⟨k, -, h2, -⟩ := hvm l hl
        rw [h2, List.mem_filter, List.mem_range] at hil
        exact hil.1)
      refine ⟨ps.foldl (fun m q => insertInto m p.out q) r.2, idxs, ps, ?_, hnd, hps2, ?_, ?_, ?_, ?_⟩
      · unfold filterAdaptive
        rw [if_neg (by simp [hen])]
        simp only [pointLayer, hm]
        rw [if_neg hout, hr1']
        simp only [hg1, hloop, hps1, Outcome.bind]
      · intro q hq
        obtain ⟨i, hi, hiq⟩ : ∃ i ∈ idxs, c.pts[i]? = some q := by
          obtain ⟨n, hn, rfl⟩ := List.mem_iff_getElem.1 hq
          have hl := hps2.length_eq
          have := List.Forall₂.get hps2 (i := n) (by omega) hn
          exact ⟨idxs[n]'(by omega), List.getElem_mem _, by simpa using this⟩
        obtain ⟨l, hl, hil⟩ := hmem i hi
        obtain ⟨k, -, h2, h3⟩ := hvm l hl
        rw [h2, List.mem_filter] at hil
        have hk : key q = k := by
          have := hil.2
          simpa [keyAt, hiq] using this
        rw [UsableBy, hk, ← inVoxel_length, ← h2]; exact h3
      · have := hps2.length_eq
        rcases hlen with h | h
        · left; rw [h] at this; exact List.eq_nil_of_length_eq_zero this.symm
        · right; omega
      · cases hg : m.get p.out with
        | none =>
          refine ⟨simpleCloud, Or.inr ⟨rfl, rfl⟩, ?_⟩
          rw [get_appendAll _ hout, if_pos rfl, hrk, if_pos ⟨rfl, hout, hg⟩]; rfl
        | some L =>
          cases L with
          | other x => exact absurd hg (ho x)
          | pts c0 =>
            refine ⟨c0, Or.inl rfl, ?_⟩
            rw [get_appendAll _ hout, if_pos rfl, hrk, if_neg (by rw [hg]; simp), hg]; rfl
      · intro n hn
        rw [get_appendAll _ hout, if_neg hn, hrk, if_neg (fun h => hn h.1)]
  · intro h1 h2
    obtain rfl := ho2.2 ⟨hvnil.2 h1, h2⟩
    unfold filterAdaptive
    rw [if_neg (by simp [hen])]
    simp only [pointLayer, hm]
    rw [if_neg hout, hr1']
    simp only [hg1, hloop]

/-- What is output first: with the usable voxels in the order of visit, the `j`-th point is the first input point of voxel `j · inc` as long as there is
such a voxel and more points are wanted; `inc` is 1 unless there are more usable voxels than points wanted. -/
theorem adaptive_first_pass_by [VoxelIdx K] (key : FPt K → Idx) (p : AdParams) (hen : p.enabled = true) (vs : K)
    (visitM : List (Idx × List Nat) → List (Idx × List Nat)) (hv : ∀ g, (visitM g).Perm g) (rnd : Nat → Nat → Nat)
    (m : FMap K X) (c : Cloud K) (hm : m.get p.inp = some (.pts c)) (hout : p.out ≠ "")
    (ho : ∀ x, m.get p.out ≠ some (.other x)) (hr : ∀ q ∈ c.pts, voxelOf vs q = .ok (key q)) :
    ∃ ks : List Idx, ks.Nodup ∧ (∀ k, k ∈ ks ↔ ∃ q ∈ c.pts, UsableBy key p.minPer c.pts q ∧ key q = k) ∧
      ∀ fuel m', filterAdaptive p vs visitM rnd fuel m = some (.ok m') →
        ∃ ps, AppendedTo p.out simpleCloud ps m m' ∧
          ∀ j k, ks[j * (if p.want < ks.length then max 1 (rnd ks.length p.want) else 1)]? = some k → sizeNow m p.out + j < p.want →
            ps[j]? = (pointsIn key c.pts k).head? := by
  obtain ⟨r, hr1, hrk⟩ := getOrCreate_ok (simpleCloud : Cloud K) m p.out (fun _ => ho)
  have hsz : sizeNow r.2 p.out = sizeNow m p.out := by
    unfold sizeNow
    rw [hrk]
    cases hg : m.get p.out with
    | none => simp [hout, simpleCloud]
    | some l => simp
  obtain ⟨g, hg1, hg2⟩ := processMulti_by key vs (keyAt key c.pts) c.pts 0 [] (MInv.nil _) hr (by
    intro j hj
    simp [keyAt, List.getElem?_eq_getElem hj])
  rw [Nat.zero_add] at hg2
  let e := (visitM g).filter fun x => decide (p.minPer ≤ x.2.length)
  have hemem : ∀ k l, (k, l) ∈ e ↔ (l ≠ [] ∧ l = (List.range c.pts.length).filter fun i => keyAt key c.pts i = k) ∧ p.minPer ≤ l.length := by
    intro k l
    simp only [e, List.mem_filter, (hv g).mem_iff, decide_eq_true_eq, hg2.2]
  have hve : ((visitM g).map (·.2)).filter (fun l => decide (p.minPer ≤ l.length)) = e.map (·.2) := by
    rw [List.filter_map]; rfl
  have hkn : ((visitM g).map (·.1)).Nodup := ((hv g).map _).nodup_iff.2 hg2.1
  have hlen : (e.map (·.1)).length = (e.map (·.2)).length := by simp
  refine ⟨e.map (·.1), hkn.sublist (List.filter_sublist.map _), fun k => ?_, fun fuel m' hf => ?_⟩
  · constructor
    · intro hk
      obtain ⟨⟨k', l⟩, hel, rfl⟩ := List.mem_map.1 hk
      obtain ⟨⟨h1, h2⟩, h3⟩ := (hemem k' l).1 hel
      obtain ⟨i, hi⟩ := List.exists_mem_of_ne_nil l h1
      rw [h2, List.mem_filter, List.mem_range] at hi
      have hk : key c.pts[i] = k' := by
        have := hi.2
        simpa [keyAt, List.getElem?_eq_getElem hi.1] using this
      refine ⟨c.pts[i], List.getElem_mem hi.1, ?_, hk⟩
      rw [UsableBy, hk, ← inVoxel_length, ← h2]; exact h3
    · rintro ⟨q, hq, hu, rfl⟩
      refine List.mem_map.2 ⟨(key q, _), (hemem _ _).2 ⟨⟨?_, rfl⟩, ?_⟩, rfl⟩
      · intro hnil
        have h1 := inVoxel_length key c.pts (key q)
        rw [hnil] at h1
        have : q ∈ pointsIn key c.pts (key q) := by simp [pointsIn, hq]
        rw [List.eq_nil_of_length_eq_zero h1.symm] at this
        cases this
      · rw [inVoxel_length]; exact hu
  · have hr1' : getOrCreatePointLayer (some { hasI := false, hasRing := false, hasT := false }) m p.out true = .ok r := hr1
    unfold filterAdaptive at hf
    rw [if_neg (by simp [hen])] at hf
    simp only [pointLayer, hm] at hf
    rw [if_neg hout, hr1'] at hf
    simp only [hg1, adaptiveIndices, hve, hsz] at hf
    generalize hL : adLoop _ _ _ _ _ = o at hf
    cases o with
    | none => simp at hf
    | some o =>
      cases o with
      | throw => simp at hf
      | ub => simp at hf
      | ok idxs =>
        simp only [Option.some.injEq, Outcome.bind_eq_ok, Outcome.ok.injEq] at hf
        obtain ⟨ps, hps, rfl⟩ := hf
        have hinc : 0 < increment rnd (e.map (·.2)).length p.want := by unfold increment; split <;> omega
        refine ⟨ps, ⟨?_, ?_⟩, ?_⟩
        · cases hg : m.get p.out with
          | none =>
            refine ⟨simpleCloud, Or.inr ⟨rfl, rfl⟩, ?_⟩
            rw [get_appendAll _ hout, if_pos rfl, hrk, if_pos ⟨rfl, hout, hg⟩]; rfl
          | some L =>
            cases L with
            | other x => exact absurd hg (ho x)
            | pts c0 =>
              refine ⟨c0, Or.inl rfl, ?_⟩
              rw [get_appendAll _ hout, if_pos rfl, hrk, if_neg (by rw [hg]; simp), hg]; rfl
        · intro n hn
          rw [get_appendAll _ hout, if_neg hn, hrk, if_neg (fun h => hn h.1)]
        · intro j k hk hw
          have hi' : (if p.want < (e.map (·.1)).length then max 1 (rnd (e.map (·.1)).length p.want) else 1) =
              increment rnd (e.map (·.2)).length p.want := by rw [hlen]; rfl
          rw [hi'] at hk
          generalize increment rnd (e.map (·.2)).length p.want = inc at *
          rw [List.getElem?_map, Option.map_eq_some_iff] at hk
          obtain ⟨⟨k', l⟩, hel, rfl⟩ := hk
          have hlt := (List.getElem?_eq_some_iff.1 hel).1
          obtain ⟨⟨h1, h2⟩, h3⟩ := (hemem k' l).1 (List.mem_of_getElem? hel)
          have := adLoop_first_pass (sizeNow m p.out) p.want inc hinc (e.map (·.2)) (by
              intro l' hl'
              obtain ⟨⟨k2, l2⟩, he2, rfl⟩ := List.mem_map.1 hl'
              exact ((hemem k2 l2).1 he2).1.1) fuel 0 ⟨e.map (·.2), 0, false, []⟩ rfl (by simp) rfl (fun _ _ => rfl) idxs hL j
            (Nat.zero_le _) (by simpa using hlt) hw
          rw [List.getElem?_map, hel] at this
          simp only [Option.map_some, Option.bind_some] at this
          rw [pointsAt_getElem? c.pts idxs ps hps j]
          rw [this, h2, head_pointsAt key c.pts k']

/-- So, when the points wanted are enough for all usable voxels, each of them gets a point. -/
theorem adaptive_covers_by [VoxelIdx K] (key : FPt K → Idx) (p : AdParams) (hen : p.enabled = true) (vs : K)
    (visitM : List (Idx × List Nat) → List (Idx × List Nat)) (hv : ∀ g, (visitM g).Perm g) (rnd : Nat → Nat → Nat)
    (m : FMap K X) (c : Cloud K) (hm : m.get p.inp = some (.pts c)) (hout : p.out ≠ "")
    (ho : ∀ x, m.get p.out ≠ some (.other x)) (hr : ∀ q ∈ c.pts, voxelOf vs q = .ok (key q))
    (ks : List Idx) (hks : ks.Nodup) (hu : ∀ k, k ∈ ks ↔ ∃ q ∈ c.pts, UsableBy key p.minPer c.pts q ∧ key q = k)
    (hw : sizeNow m p.out + ks.length ≤ p.want) (fuel : Nat) (m' : FMap K X)
    (h : filterAdaptive p vs visitM rnd fuel m = some (.ok m')) :
    ∃ ps, AppendedTo p.out simpleCloud ps m m' ∧ ∀ k ∈ ks, ∃ q ∈ ps, q ∈ c.pts ∧ key q = k := by
  obtain ⟨ks', h1, h2, h3⟩ := adaptive_first_pass_by key p hen vs visitM hv rnd m c hm hout ho hr
  obtain ⟨ps, h4, h5⟩ := h3 fuel m' h
  have hperm : ks'.Perm ks := (List.perm_ext_iff_of_nodup h1 hks).2 fun k => by rw [h2, hu]
  refine ⟨ps, h4, fun k hk => ?_⟩
  obtain ⟨j, hj, hjk⟩ := List.mem_iff_getElem.1 (hperm.mem_iff.2 hk)
  have hl := hperm.length_eq
  rw [if_neg (by omega)] at h5
  have := h5 j k (by rw [Nat.mul_one, List.getElem?_eq_getElem hj, hjk]) (by omega)
  obtain ⟨q, hq, _, hqk⟩ := (hu k).1 hk
  have hne : pointsIn key c.pts k ≠ [] := by
    have : q ∈ pointsIn key c.pts k := by simp [pointsIn, hq, hqk]
    exact List.ne_nil_of_mem this
  obtain ⟨a, l, hal⟩ := List.exists_cons_of_ne_nil hne
  rw [hal] at this
  have ha : a ∈ pointsIn key c.pts k := by rw [hal]; simp
  simp only [pointsIn, List.mem_filter, decide_eq_true_eq] at ha
  exact ⟨a, List.mem_of_getElem? this, ha⟩

end

section
variable {K X : Type} [Field K] [LinearOrder K] [IsStrictOrderedRing K] [FloorRing K]

/-- The voxel of `q` has at least `minPer` points of `pts`. -/
def Usable (vs : K) (minPer : Nat) (pts : List (FPt K)) (q : FPt K) : Prop :=
  minPer ≤ (inVoxel vs pts (voxelKey vs q)).length

/-- One call of an enabled filter, all voxel indices fitting 32 bits. It ends. If there is a usable voxel, or nothing is wanted,
it appends to the output points of usable voxels of the input, none of them twice, and no more than are wanted; otherwise the
behaviour is undefined.
Part of C51: undefined if no voxel is usable (`adaptive_empty_input_ub`), not round-robin after the first round (`adaptive_starves`). -/
theorem adaptive_result_partial (p : AdParams) (hen : p.enabled = true) (vs : K)
    (visitM : List (Idx × List Nat) → List (Idx × List Nat)) (hv : ∀ g, (visitM g).Perm g) (rnd : Nat → Nat → Nat)
    (m : FMap K X) (c : Cloud K) (hm : m.get p.inp = some (.pts c)) (hout : p.out ≠ "")
    (ho : ∀ x, m.get p.out ≠ some (.other x)) (hr : ∀ q ∈ c.pts, InRange vs q) :
    ∃ fuel0, ∀ fuel, fuel0 ≤ fuel →
      ((∃ q ∈ c.pts, Usable vs p.minPer c.pts q) ∨ p.want ≤ sizeNow m p.out →
        ∃ (m' : FMap K X) (idxs : List Nat) (ps : List (FPt K)), filterAdaptive p vs visitM rnd fuel m = some (.ok m') ∧ idxs.Nodup ∧
          List.Forall₂ (fun i q => c.pts[i]? = some q) idxs ps ∧ (∀ q ∈ ps, Usable vs p.minPer c.pts q) ∧
          (ps = [] ∨ sizeNow m p.out + ps.length ≤ p.want) ∧ AppendedTo p.out simpleCloud ps m m') ∧
      ((∀ q ∈ c.pts, ¬ Usable vs p.minPer c.pts q) → sizeNow m p.out < p.want →
        filterAdaptive p vs visitM rnd fuel m = some .ub) :=
  adaptive_result_by_partial (voxelKey vs) p hen vs visitM hv rnd m c hm hout ho fun q hq => voxelOf_ok _ _ (hr q hq)

/-- What is output first: with the usable voxels in the order of visit, the `j`-th point is the first input point of voxel `j · inc` as long as there is
such a voxel and more points are wanted; `inc` is 1 unless there are more usable voxels than points wanted. -/
theorem adaptive_first_pass (p : AdParams) (hen : p.enabled = true) (vs : K)
    (visitM : List (Idx × List Nat) → List (Idx × List Nat)) (hv : ∀ g, (visitM g).Perm g) (rnd : Nat → Nat → Nat)
    (m : FMap K X) (c : Cloud K) (hm : m.get p.inp = some (.pts c)) (hout : p.out ≠ "")
    (ho : ∀ x, m.get p.out ≠ some (.other x)) (hr : ∀ q ∈ c.pts, InRange vs q) :
    ∃ ks : List Idx, ks.Nodup ∧ (∀ k, k ∈ ks ↔ ∃ q ∈ c.pts, Usable vs p.minPer c.pts q ∧ voxelKey vs q = k) ∧
      ∀ fuel m', filterAdaptive p vs visitM rnd fuel m = some (.ok m') →
        ∃ ps, AppendedTo p.out simpleCloud ps m m' ∧
          ∀ j k, ks[j * (if p.want < ks.length then max 1 (rnd ks.length p.want) else 1)]? = some k → sizeNow m p.out + j < p.want →
            ps[j]? = (inVoxel vs c.pts k).head? :=
  adaptive_first_pass_by (voxelKey vs) p hen vs visitM hv rnd m c hm hout ho fun q hq => voxelOf_ok _ _ (hr q hq)

/-- So, when the points wanted are enough for all usable voxels, each of them gets a point. -/
theorem adaptive_covers (p : AdParams) (hen : p.enabled = true) (vs : K)
    (visitM : List (Idx × List Nat) → List (Idx × List Nat)) (hv : ∀ g, (visitM g).Perm g) (rnd : Nat → Nat → Nat)
    (m : FMap K X) (c : Cloud K) (hm : m.get p.inp = some (.pts c)) (hout : p.out ≠ "")
    (ho : ∀ x, m.get p.out ≠ some (.other x)) (hr : ∀ q ∈ c.pts, InRange vs q)
    (ks : List Idx) (hks : ks.Nodup) (hu : ∀ k, k ∈ ks ↔ ∃ q ∈ c.pts, Usable vs p.minPer c.pts q ∧ voxelKey vs q = k)
    (hw : sizeNow m p.out + ks.length ≤ p.want) (fuel : Nat) (m' : FMap K X)
    (h : filterAdaptive p vs visitM rnd fuel m = some (.ok m')) :
    ∃ ps, AppendedTo p.out simpleCloud ps m m' ∧ ∀ k ∈ ks, ∃ q ∈ ps, q ∈ c.pts ∧ voxelKey vs q = k :=
  adaptive_covers_by (voxelKey vs) p hen vs visitM hv rnd m c hm hout ho (fun q hq => voxelOf_ok _ _ (hr q hq)) ks hks hu hw fuel m' h

/-- An empty input cloud is such a case: the program reads past the end of an empty list. -/
theorem adaptive_empty_input_ub (p : AdParams) (hen : p.enabled = true) (vs : K)
    (visitM : List (Idx × List Nat) → List (Idx × List Nat)) (hv : ∀ g, (visitM g).Perm g) (rnd : Nat → Nat → Nat)
    (m : FMap K X) (c : Cloud K) (hm : m.get p.inp = some (.pts c)) (hc : c.pts = []) (hout : p.out ≠ "")
    (ho : ∀ x, m.get p.out ≠ some (.other x)) (hw : sizeNow m p.out < p.want) :
    ∃ fuel0, ∀ fuel, fuel0 ≤ fuel → filterAdaptive p vs visitM rnd fuel m = some .ub := by
  obtain ⟨f, h⟩ := adaptive_result_partial p hen vs visitM hv rnd m c hm hout ho (by rw [hc]; simp)
  exact ⟨f, fun fuel hf => (h fuel hf).2 (by rw [hc]; simp) hw⟩

/-- A disabled filter does nothing, and without an output name a null pointer is used. -/
theorem adaptive_disabled (p : AdParams) (hen : p.enabled = false) (vs : K)
    (visitM : List (Idx × List Nat) → List (Idx × List Nat)) (rnd : Nat → Nat → Nat) (fuel : Nat) (m : FMap K X) :
    filterAdaptive p vs visitM rnd fuel m = some (.ok m) := by
  unfold filterAdaptive; rw [if_pos hen]
theorem adaptive_no_output_ub (p : AdParams) (hen : p.enabled = true) (hout : p.out = "") (vs : K)
    (visitM : List (Idx × List Nat) → List (Idx × List Nat)) (rnd : Nat → Nat → Nat) (fuel : Nat) (m : FMap K X)
    (c : Cloud K) (hm : m.get p.inp = some (.pts c)) : filterAdaptive p vs visitM rnd fuel m = some .ub := by
  unfold filterAdaptive
  rw [if_neg (by simp [hen])]
  simp only [pointLayer, hm, if_pos hout]

/-- Three points, one voxel with two of them; two points wanted. -/
def exAdMap : FMap ℚ Unit :=
  [("raw", .pts { pts := [⟨1/2, 3/2, 0, 1, 0, 0⟩, ⟨5/2, 1/2, 7/2, 2, 0, 0⟩, ⟨3/4, 5/4, 1/2, 3, 0, 0⟩] })]
example : (filterAdaptive { inp := "raw", out := "o", want := 2 } (1 : ℚ) id (fun a b => a / b) 20 exAdMap) = some (.ok
    (AMap.set exAdMap "o" (.pts { pts := [⟨1/2, 3/2, 0, 0, 0, 0⟩, ⟨5/2, 1/2, 7/2, 0, 0, 0⟩],
                                  hasI := false, hasRing := false, hasT := false }))) := by decide +kernel
example : ∃ q ∈ ptsOf exAdMap "raw", Usable (1 : ℚ) 2 (ptsOf exAdMap "raw") q :=
  ⟨⟨1/2, 3/2, 0, 1, 0, 0⟩, by simp [ptsOf, exAdMap, AMap.get], by unfold Usable; decide +kernel⟩
example : (∀ q ∈ ptsOf exAdMap "raw", InRange (1 : ℚ) q) := by unfold InRange Fits; decide +kernel
end

/-! ### C52 -/

section
variable {K X : Type} [Field K] [LinearOrder K] [IsStrictOrderedRing K]

/-- Where a point goes, by the occupancy of its voxel (`none`: not in the voxel map): above `max thr (1-thr)` it is static, below
`min thr (1-thr)` dynamic, otherwise it is dropped. -/
theorem occTarget_spec (p : OccParams K) (o : Option K) :
    occTarget p o = match o with
      | none => ""
      | some o => if max p.thr (1 - p.thr) < o then p.static else if o < min p.thr (1 - p.thr) then p.dynamic else "" := by
  cases o with
  | none => rfl
  | some o =>
    have h1 : occFree p.thr = min p.thr (1 - p.thr) := by
      unfold occFree
      split
      · rename_i h; rw [min_eq_right]; linarith
      · rename_i h; rw [min_eq_left]; linarith
    have h2 : 1 - min p.thr (1 - p.thr) = max p.thr (1 - p.thr) := by
      rcases le_total p.thr (1 - p.thr) with h | h
      · rw [min_eq_left h, max_eq_right h]
      · rw [min_eq_right h, max_eq_left h]; ring
    simp only [occTarget, h1, h2]

/-- No occupancy value is both. -/
theorem occ_exclusive (thr o : K) : ¬ (max thr (1 - thr) < o ∧ o < min thr (1 - thr)) := by
  rintro ⟨h1, h2⟩
  have := (le_max_left thr (1 - thr)).trans_lt h1
  have := h2.trans_le (min_le_left thr (1 - thr))
  exact lt_asymm ‹thr < o› this

/-- The filter sends each point of the input, in order, to the output its occupancy selects, once, or drops it, also when an output
is the input layer; all other layers, the voxel map included, are untouched. -/
theorem occupancy_partitions (asVoxels : X → Option (K → K → K → Option K)) (p : OccParams K) (m : FMap K X) (c : Cloud K)
    (h0 : 0 ≤ p.thr) (h1 : p.thr ≤ 1) (hm : m.get p.inp = some (.pts c)) (x : X) (hx : m.get p.voxels = some (.other x))
    (occ : K → K → K → Option K) (hocc : asVoxels x = some occ) (ho : Openable [p.static, p.dynamic] m)
    (hs : p.static ≠ "" ∨ p.dynamic ≠ "") :
    ∃ m', filterOccupancy asVoxels p m = .ok m' ∧
      Partitioned c [p.static, p.dynamic, ""] (fun q => occTarget p (occ q.x q.y q.z)) m m' := by
  obtain ⟨m1, hm1, hk⟩ := openOutputs_ok (emptyLike c) [p.static, p.dynamic] m ho
  have hin := open_input _ _ _ _ p.inp c hm hk
  have ho' : Openable [p.static, p.dynamic, ""] m := by
    intro n hn hn0 y
    simp only [List.mem_cons, List.not_mem_nil, or_false] at hn
    apply ho n _ hn0 y
    simp only [List.mem_cons, List.not_mem_nil, or_false]
    tauto
  refine ⟨_, ?_, partitioned_of c [p.static, p.dynamic, ""] _ m m1 ho' ?_ ?_⟩
  · have hsz : sizeNow m1 p.inp = c.pts.length := by simp [sizeNow, hin]
    have := partSnap_eq p.inp (fun q => occTarget p (occ q.x q.y q.z)) c.pts.length 0 m1 c.pts c [] (by simpa using hin)
      (by omega)
    simp only [List.drop_zero] at this
    simp only [filterOccupancy, Outcome.assert, h0, h1, and_self, if_true, Outcome.bind, pointLayer, hm, hx, hocc, hm1, hsz, this, hs]
  · intro q _
    simp only [occTarget]
    split
    · simp
    · split
      · simp
      · split <;> simp
  · intro k
    rw [hk]
    by_cases hk0 : k = ""
    · simp [hk0]
    · simp [hk0]

/-- A threshold outside of [0,1] is refused; so is a layer that is not a voxel map. -/
theorem occupancy_refuses (asVoxels : X → Option (K → K → K → Option K)) (p : OccParams K) (m : FMap K X)
    (h : p.thr < 0 ∨ 1 < p.thr ∨ (∀ c, m.get p.inp ≠ some (.pts c)) ∨ (∀ x, m.get p.voxels = some (.other x) → asVoxels x = none)) :
    filterOccupancy asVoxels p m = .throw := by
  by_cases h1 : p.thr ≤ 1 ∧ 0 ≤ p.thr
  · have h := (h.resolve_left (not_lt.2 h1.2)).resolve_left (not_lt.2 h1.1)
    simp only [filterOccupancy, Outcome.assert, h1, and_self, if_true, Outcome.bind]
    rcases h with h | h
    · have : pointLayer m p.inp = .throw := by
        unfold pointLayer; split
        · rename_i c hc; exact absurd hc (h c)
        · rfl
      rw [this]
    · cases hp : pointLayer m p.inp with
      | throw => rfl
      | ub => unfold pointLayer at hp; split at hp <;> cases hp
      | ok c =>
        simp only []
        split
        · rename_i x hx; rw [h x hx]
        · rfl
  · simp only [filterOccupancy, Outcome.assert, Outcome.bind]
    rw [if_neg (by simpa using h1)]

/-- A voxel map saying 0.9 for x < 1, 0.1 for 1 ≤ x < 2, 0.5 up to 3, and unknown beyond. -/
def exOcc : K → K → K → Option K := fun x _ _ =>
  if x < 1 then some (9/10) else if x < 2 then some (1/10) else if x < 3 then some (1/2) else none
example : (filterOccupancy (K := ℚ) (X := Unit) (fun _ => some exOcc) ⟨"in", "vox", "st", "dy", 3/10⟩
    [("in", .pts { pts := [⟨0, 0, 0, 0, 0, 0⟩, ⟨1, 0, 0, 0, 0, 0⟩, ⟨2, 0, 0, 0, 0, 0⟩, ⟨3, 0, 0, 0, 0, 0⟩] }), ("vox", .other ())]).Sat
    fun r => AMap.get r "st" = some (.pts { pts := [⟨0, 0, 0, 0, 0, 0⟩] }) ∧
      AMap.get r "dy" = some (.pts { pts := [⟨1, 0, 0, 0, 0, 0⟩] }) := by decide +kernel
end

end Props
end Verif
