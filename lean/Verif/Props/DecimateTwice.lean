import Verif.Props.FpDecimate
/-!
C107: decimating twice.
-/
namespace Verif
namespace Props
open Spec Fp Flt Vox
variable {K X : Type}

/-- If there is one result for each group and each group is one point, which its result is, the results are the points. -/
theorem perm_of_groups {α γ : Type} (f : α → γ) (input reps : List α) (cs : List γ) (hf : (input.map f).Nodup) (h1 : cs.Nodup)
    (h2 : ∀ c, c ∈ cs ↔ ∃ p ∈ input, f p = c) (h3 : List.Forall₂ (fun c r => ∀ p ∈ input, f p = c → r = p) cs reps) : reps.Perm input := by
  have e : reps.map f = cs ∧ ∀ r ∈ reps, r ∈ input := by
    have h2' : ∀ k ∈ cs, ∃ p ∈ input, f p = k := fun k hk => (h2 k).1 hk
    clear h1 h2
    induction h3 with
    | nil => exact ⟨rfl, by simp⟩
    | @cons k r ks reps hr _ ih =>
      obtain ⟨p, hp, rfl⟩ := h2' k (List.mem_cons_self ..)
      have := hr p hp rfl
      subst this
      obtain ⟨e1, e2⟩ := ih (fun k hk => h2' k (List.mem_cons_of_mem _ hk))
      refine ⟨by rw [List.map_cons, e1], ?_⟩
      intro a ha
      rcases List.mem_cons.1 ha with rfl | ha
      · exact hp
      · exact e2 a ha
  have hi : input.Nodup := List.Nodup.of_map f hf
  have hr : reps.Nodup := List.Nodup.of_map f (e.1 ▸ h1)
  rw [List.perm_ext_iff_of_nodup hr hi]
  intro a
  refine ⟨e.2 a, fun ha => ?_⟩
  have : f a ∈ reps.map f := by rw [e.1]; exact (h2 _).2 ⟨a, ha, rfl⟩
  obtain ⟨b, hb, hab⟩ := List.mem_map.1 this
  have := List.inj_on_of_nodup_map hf (e.2 b hb) ha hab
  rw [← this]; exact hb

/-- the only point of its voxel -/
theorem pointsIn_single (key : FPt K → Idx) (input : List (FPt K)) (hk : (input.map key).Nodup) (p : FPt K) (hp : p ∈ input) :
    pointsIn key input (key p) = [p] := by
  unfold pointsIn
  induction input with
  | nil => cases hp
  | cons q l ih =>
    rw [List.map_cons, List.nodup_cons] at hk
    rcases List.mem_cons.1 hp with rfl | hp
    · rw [List.filter_cons_of_pos (by simp), List.filter_eq_nil_iff.2]
      intro a ha
      simp only [decide_eq_true_eq]
      intro e
      exact hk.1 (e ▸ List.mem_map_of_mem ha)
    · rw [List.filter_cons_of_neg (by
        simp only [decide_eq_true_eq]
        intro e
        exact hk.1 (e ▸ List.mem_map_of_mem hp)), ih hk.2 hp]

/-- What tells two points of a result apart: the voxel, or with `flatten_to` the column. -/
def groupOf (f : Option K) (key : FPt K → Idx) (q : FPt K) : Idx :=
  match f with
  | none => key q
  | some _ => ((key q).1, (key q).2.1, 0)

/-- Points in different voxels (columns, if flattened) are all kept as they are. -/
theorem output_of_distinct [Zero K] (key : FPt K → Idx) (rep : List (FPt K) → FPt K → Prop) (f : Option K) (input reps : List (FPt K))
    (hk : (input.map (groupOf f key)).Nodup) (hone : ∀ p ∈ input, ∀ r, rep [p] r → r = p)
    (hflat : ∀ z, f = some z → ∀ p ∈ input, p = ⟨p.x, p.y, z, 0, 0, 0⟩) (h : OutputBy key rep f input reps) : reps.Perm input := by
  cases f with
  | none =>
    obtain ⟨ks, h1, h2, h3⟩ := h
    refine perm_of_groups key input reps ks hk h1 h2 (h3.imp fun c r hr p hp e => ?_)
    rw [← e, pointsIn_single key input hk p hp] at hr
    exact hone p hp r hr
  | some z =>
    obtain ⟨cs, h1, h2, h3⟩ := h
    have hk' : (input.map key).Nodup := List.Nodup.of_map (fun k : Idx => ((k.1, k.2.1, 0) : Idx)) (by rw [List.map_map]; exact hk)
    have hk2 : (input.map fun q => column (key q)).Nodup :=
      List.Nodup.of_map (fun c : ℤ × ℤ => ((c.1, c.2, 0) : Idx)) (by rw [List.map_map]; exact hk)
    refine perm_of_groups (fun q => column (key q)) input reps cs hk2 h1 h2 (h3.imp ?_)
    rintro c r ⟨k, q, e1, e2, e3, rfl⟩ p hp e
    obtain ⟨p', hp'⟩ := List.exists_mem_of_ne_nil _ e2
    obtain ⟨hp1, hp2⟩ : p' ∈ input ∧ key p' = k := by simpa [pointsIn] using hp'
    have : p' = p := List.inj_on_of_nodup_map hk2 hp1 hp (by rw [e, hp2]; exact e1)
    subst this
    rw [← hp2, pointsIn_single key input hk' p' hp1] at e3
    rw [hone p' hp1 q e3]
    exact (hflat z rfl p' hp1).symm

/-- The results are in different voxels (columns, if flattened), if each representative is in the voxel it stands for. -/
theorem output_distinct [Zero K] (key : FPt K → Idx) (rep : List (FPt K) → FPt K → Prop) (f : Option K) (input reps : List (FPt K))
    (hin : ∀ k r, pointsIn key input k ≠ [] → rep (pointsIn key input k) r → key r = k)
    (hflat : ∀ z, f = some z → ∀ k r, pointsIn key input k ≠ [] → rep (pointsIn key input k) r → column (key ⟨r.x, r.y, z, 0, 0, 0⟩) = column (key r))
    (h : OutputBy key rep f input reps) : (reps.map (groupOf f key)).Nodup := by
  cases f with
  | none =>
    obtain ⟨ks, h1, h2, h3⟩ := h
    have e : reps.map key = ks := by
      have h2' : ∀ k ∈ ks, ∃ p ∈ input, key p = k := fun k hk => (h2 k).1 hk
      clear h1 h2
      induction h3 with
      | nil => rfl
      | @cons k r ks reps hr _ ih =>
        obtain ⟨p, hp, hpk⟩ := h2' k (List.mem_cons_self ..)
        rw [List.map_cons, ih (fun k hk => h2' k (List.mem_cons_of_mem _ hk)), hin k r (by
          apply List.ne_nil_of_mem (a := p)
          simp [pointsIn, hp, hpk]) hr]
    exact (show (reps.map key).Nodup by rw [e]; exact h1)
  | some z =>
    obtain ⟨cs, h1, h2, h3⟩ := h
    have e : reps.map (fun q => column (key q)) = cs := by
      clear h1 h2
      induction h3 with
      | nil => rfl
      | @cons c r cs reps hr _ ih =>
        obtain ⟨k, q, e1, e2, e3, rfl⟩ := hr
        rw [List.map_cons, ih, hflat z rfl k q e2 e3, hin k q e2 e3, e1]
    have := h1.map (f := fun c : ℤ × ℤ => ((c.1, c.2, 0) : Idx)) (by
      rintro ⟨a, b⟩ ⟨c, d⟩ h
      simp only [Prod.mk.injEq, and_true] at h
      exact Prod.ext h.1 h.2)
    rw [← e, List.map_map] at this
    exact this

section
variable [Zero K] [One K] [Add K] [Sub K] [Mul K] [Div K] [NatCast K] [LT K] [DecidableLT K] [VoxelIdx K]

/-- The clouds `n :: l`, of which `c` is the first, and a new output; several inputs only for FirstPoint; small clouds passed through only for FirstPoint and one input. -/
structure ToNew (p : DecParams K) (m : FMap K X) (n : String) (l : List String) (c : Cloud K) : Prop where
  inp : p.inputs = n :: l
  first : m.get n = some (.pts c)
  clouds : ∀ k ∈ l, ∃ d, m.get k = some (.pts d)
  named : p.out ≠ ""
  fresh : m.get p.out = none
  container : p.method = .firstPoint ∨ p.useTsl = true ∧ l = []
  all : p.minPts = 0 ∨ p.method = .firstPoint ∧ l = []

/-- the points of all the inputs -/
def inputPts (p : DecParams K) (m : FMap K X) : List (FPt K) := p.inputs.flatMap (ptsOf m)

theorem decimate_pass_by (key : FPt K → Idx) (rep : List (FPt K) → FPt K → Prop) (p : DecParams K)
    (hrep : ∀ draw ps, ps ≠ [] → ∃ r, representative p.method draw ps = .ok r ∧ rep ps r)
    (visit1 : List (Idx × FPt K) → List (Idx × FPt K)) (hv1 : ∀ g, (visit1 g).Perm g)
    (visitM : List (Idx × List Nat) → List (Idx × List Nat)) (hvM : ∀ g, (visitM g).Perm g)
    (draws : Nat → Nat) (grid : GridM) (m : FMap K X) (n : String) (l : List String) (c : Cloud K) (h : ToNew p m n l c)
    (hr : ∀ q ∈ inputPts p m, voxelOf p.res q = .ok (key q)) (fuel : Nat) (hf : (inputPts p m).length < fuel) :
    ∃ m' out grid', filterDecimate p visit1 visitM draws fuel grid m = some (.ok (m', grid')) ∧
      (if 0 < p.minPts ∧ (inputPts p m).length ≤ p.minPts then out = passed p.flatten (inputPts p m) else OutputBy key rep p.flatten (inputPts p m) out) ∧
      m'.get p.out = some (.pts { emptyLike c with pts := out.map (conform (emptyLike c)) }) ∧ ∀ k, k ≠ p.out → m'.get k = m.get k := by
  have hall : ∀ k ∈ p.inputs, ∃ d, m.get k = some (.pts d) := by
    intro k hk
    rw [h.inp] at hk
    rcases List.mem_cons.1 hk with rfl | hk
    · exact ⟨c, h.first⟩
    · exact h.clouds k hk
  have hi : GoodInputs p m := fun k hk => .inl (hall k hk)
  have ho : GoodOutput p m := ⟨h.named, fun x hx => by rw [h.fresh] at hx; cases hx⟩
  have hpres : present p m = n :: l := by
    unfold present
    rw [← h.inp, List.filter_eq_self]
    intro k hk
    obtain ⟨d, hd⟩ := hall k hk
    rw [hd]; rfl
  have hnotin : p.out ∉ p.inputs := by
    intro hk
    obtain ⟨d, hd⟩ := hall _ hk
    rw [h.fresh] at hd; cases hd
  have hsz : ∀ k ∈ present p m, sizeNow m k < fuel := by
    intro k hk
    refine lt_of_le_of_lt ?_ hf
    rw [hpres, ← h.inp] at hk
    obtain ⟨d, hd⟩ := hall k hk
    have e : sizeNow m k = (ptsOf m k).length := by simp [sizeNow, ptsOf, hd]
    rw [e]
    unfold inputPts
    rw [List.length_flatMap]
    exact List.single_le_sum (by simp) _ (List.mem_map_of_mem hk)
  have hcl : classOf m n = emptyLike c := by simp [classOf, h.first]
  have hsize : l = [] → sizeNow m n = (inputPts p m).length := by
    intro e
    simp [inputPts, h.inp, e, ptsOf, sizeNow, h.first]
  have fin : ∀ m' small reps, AppendedTo p.out (classOf m n) (small ++ reps) m m' →
      m'.get p.out = some (.pts { emptyLike c with pts := (small ++ reps).map (conform (emptyLike c)) }) ∧ ∀ k, k ≠ p.out → m'.get k = m.get k := by
    rintro m' small reps ⟨⟨c0, h1 | h1, h2⟩, h3⟩
    · rw [h.fresh] at h1; cases h1
    · refine ⟨?_, h3⟩
      rw [h2, h1.2, hcl]
      rfl
  have hpassnil : passed p.flatten ([] : List (FPt K)) = [] := by cases p.flatten <;> rfl
  by_cases hsm : 0 < p.minPts ∧ (inputPts p m).length ≤ p.minPts
  · obtain ⟨hp, rfl⟩ := h.all.resolve_left (by omega)
    have hb : bigOnes p m = [] := by
      unfold bigOnes; rw [hpres]
      simp [isSmall, hsize rfl, hsm.1, hsm.2]
    have hs : smallOnes p m = [n] := by
      unfold smallOnes; rw [hpres]
      simp [isSmall, hsize rfl, hsm.1, hsm.2]
    obtain ⟨m', reps, h1, h2, h3⟩ := decimate_first_by key p hp visit1 hv1 visitM draws grid m hi ho n [] hpres (fun _ => hnotin)
      (by rw [hb]; simp) fuel hsz
    have hreps : reps = [] := by
      rw [hb] at h2
      cases hfl : p.flatten with
      | none =>
        rw [hfl] at h2
        obtain ⟨ks, -, q2, q3⟩ := h2
        cases q3 with
        | nil => rfl
        | @cons k => obtain ⟨_, hk, _⟩ := (q2 k).1 (List.mem_cons_self ..); cases hk
      | some z =>
        rw [hfl] at h2
        obtain ⟨ks, -, q2, q3⟩ := h2
        cases q3 with
        | nil => rfl
        | @cons k => obtain ⟨_, hk, _⟩ := (q2 k).1 (List.mem_cons_self ..); cases hk
    refine ⟨m', passed p.flatten (inputPts p m), grid, h1, by rw [if_pos hsm], ?_⟩
    have := fin m' _ _ h3
    rw [hreps, hs, List.append_nil] at this
    simpa only [inputPts, h.inp] using this
  · have hb : bigOnes p m = n :: l := by
      unfold bigOnes; rw [hpres, List.filter_eq_self]
      intro k hk
      rcases h.all with h0 | ⟨-, rfl⟩
      · simp [isSmall, h0]
      · rw [List.mem_singleton] at hk
        subst hk
        simp only [isSmall, hsize rfl, hsm, decide_false, Bool.not_false]
    have hs : smallOnes p m = [] := by
      unfold smallOnes; rw [hpres, List.filter_eq_nil_iff]
      intro k hk
      rcases h.all with h0 | ⟨-, rfl⟩
      · simp [isSmall, h0]
      · rw [List.mem_singleton] at hk
        subst hk
        simp only [isSmall, hsize rfl, hsm, decide_false]
        simp
    have hpts : (bigOnes p m).flatMap (ptsOf m) = inputPts p m := by rw [hb, inputPts, h.inp]
    have fin' : ∀ m' reps, AppendedTo p.out (classOf m n) (passed p.flatten ((smallOnes p m).flatMap (ptsOf m)) ++ reps) m m' →
        m'.get p.out = some (.pts { emptyLike c with pts := reps.map (conform (emptyLike c)) }) ∧ ∀ k, k ≠ p.out → m'.get k = m.get k := by
      intro m' reps hh
      have := fin m' _ _ hh
      rw [hs] at this
      simpa only [List.flatMap_nil, hpassnil, List.nil_append] using this
    by_cases hp : p.method = .firstPoint
    · obtain ⟨m', reps, h1, h2, h3⟩ := decimate_first_by key p hp visit1 hv1 visitM draws grid m hi ho n l hpres (fun _ => hnotin)
        (by rw [hpts]; exact hr) fuel hsz
      rw [hpts] at h2
      refine ⟨m', reps, grid, h1, ?_, fin' m' reps h3⟩
      rw [if_neg hsm]
      have conv : ∀ k r, (pointsIn key (inputPts p m) k).head? = some r → rep (pointsIn key (inputPts p m) k) r := by
        intro k r hk
        cases hv : pointsIn key (inputPts p m) k with
        | nil => rw [hv] at hk; cases hk
        | cons a t =>
          rw [hv] at hk
          simp only [List.head?_cons, Option.some.injEq] at hk
          subst hk
          obtain ⟨r, e1, e2⟩ := hrep 0 (a :: t) (by simp)
          rw [hp] at e1
          have : r = a := by simpa [representative] using e1.symm
          rw [← this]; exact this ▸ e2
      cases hfl : p.flatten with
      | none =>
        rw [hfl] at h2
        obtain ⟨ks, g1, g2, g3⟩ := h2
        exact ⟨ks, g1, g2, g3.imp fun k r hk => conv k r hk⟩
      | some z =>
        rw [hfl] at h2
        obtain ⟨ks, g1, g2, g3⟩ := h2
        refine ⟨ks, g1, g2, g3.imp ?_⟩
        rintro k r ⟨k', q, e1, e2, e3, e4⟩
        exact ⟨k', q, e1, e2, conv k' q e3, e4⟩
    · obtain ⟨ht, rfl⟩ := h.container.resolve_left hp
      have hpts1 : ptsOf m n = inputPts p m := by simp [inputPts, h.inp]
      obtain ⟨m', reps, grid', h1, h2, h3⟩ := decimate_multi_by key rep p hrep hp ht visit1 visitM hvM draws grid m hi ho
        n [] hpres (fun _ => hnotin) n hb (by rw [hpts1]; exact hr) fuel hsz
      rw [hpts1] at h2
      refine ⟨m', reps, grid', h1, ?_, fin' m' reps h3⟩
      rw [if_neg hsm]; exact h2

omit [One K] [Add K] [Sub K] [Mul K] [Div K] [NatCast K] [LT K] [DecidableLT K] [VoxelIdx K] in
theorem conform_conform (c : Cloud K) (q : FPt K) : conform c (conform c q) = conform c q := by
  simp only [conform]
  congr 1 <;> split <;> rfl

omit [One K] [Add K] [Sub K] [Mul K] [Div K] [NatCast K] [LT K] [DecidableLT K] [VoxelIdx K] in
theorem conform_bare (c : Cloud K) (x y z : K) : conform c ⟨x, y, z, 0, 0, 0⟩ = ⟨x, y, z, 0, 0, 0⟩ := by
  simp [conform]

omit [One K] [Add K] [Sub K] [Mul K] [Div K] [NatCast K] [LT K] [DecidableLT K] [VoxelIdx K] in
/-- Each point of the output: a representative of a voxel, flattened if asked to. -/
theorem output_mem (key : FPt K → Idx) (rep : List (FPt K) → FPt K → Prop) (f : Option K) (input reps : List (FPt K)) (h : OutputBy key rep f input reps) :
    reps.length ≤ input.length ∧
    ∀ r ∈ reps, ∃ k q, pointsIn key input k ≠ [] ∧ rep (pointsIn key input k) q ∧ r = flat f q := by
  cases f with
  | none =>
    obtain ⟨ks, q1, q2, q3⟩ := h
    constructor
    · rw [← q3.length_eq]
      have : ks.length ≤ (input.map key).length := by
        apply List.Subperm.length_le
        apply List.subperm_of_subset q1
        intro k hk
        obtain ⟨p, hp, hpk⟩ := (q2 k).1 hk
        exact List.mem_map.2 ⟨p, hp, hpk⟩
      simpa using this
    · have q2' : ∀ k ∈ ks, pointsIn key input k ≠ [] := by
        intro k hk
        obtain ⟨p, hp, hpk⟩ := (q2 k).1 hk
        apply List.ne_nil_of_mem (a := p)
        simp [pointsIn, hp, hpk]
      clear q2 q1
      induction q3 with
      | nil => simp
      | @cons k r ks reps hr _ ih =>
        intro s hs
        rcases List.mem_cons.1 hs with rfl | hs
        · exact ⟨k, s, q2' k (List.mem_cons_self ..), hr, rfl⟩
        · exact ih (fun k hk => q2' k (List.mem_cons_of_mem _ hk)) s hs
  | some z =>
    obtain ⟨cs, q1, q2, q3⟩ := h
    constructor
    · rw [← q3.length_eq]
      have : cs.length ≤ (input.map fun q => column (key q)).length := by
        apply List.Subperm.length_le
        apply List.subperm_of_subset q1
        intro k hk
        obtain ⟨p, hp, hpk⟩ := (q2 k).1 hk
        exact List.mem_map.2 ⟨p, hp, hpk⟩
      simpa using this
    · clear q2 q1
      induction q3 with
      | nil => simp
      | @cons k r ks reps hr _ ih =>
        intro s hs
        rcases List.mem_cons.1 hs with rfl | hs
        · obtain ⟨k', q, -, e2, e3, e4⟩ := hr
          exact ⟨k', q, e2, e3, e4⟩
        · exact ih s hs

/-- Decimating the result once more changes nothing but the order: for any numbers, if each representative is in the voxel it stands for and the representative of one point is
that point. -/
theorem decimate_twice_by (key : FPt K → Idx) (rep : List (FPt K) → FPt K → Prop) (p p2 : DecParams K)
    (hrep : ∀ draw ps, ps ≠ [] → ∃ r, representative p.method draw ps = .ok r ∧ rep ps r)
    (hkey : ∀ a b : FPt K, a.x = b.x → a.y = b.y → a.z = b.z → key a = key b ∧ voxelOf p.res a = voxelOf p.res b)
    (visit1 : List (Idx × FPt K) → List (Idx × FPt K)) (hv1 : ∀ g, (visit1 g).Perm g)
    (visitM : List (Idx × List Nat) → List (Idx × List Nat)) (hvM : ∀ g, (visitM g).Perm g)
    (draws draws2 : Nat → Nat) (grid grid2 : GridM) (m : FMap K X) (n : String) (l : List String) (c : Cloud K) (h : ToNew p m n l c)
    (hr : ∀ q ∈ inputPts p m, voxelOf p.res q = .ok (key q)) (fuel : Nat) (hf : (inputPts p m).length < fuel)
    (hin : ∀ k r, pointsIn key (inputPts p m) k ≠ [] → rep (pointsIn key (inputPts p m) k) r → key r = k ∧ voxelOf p.res r = .ok k)
    (hflat : ∀ z, p.flatten = some z → ∀ r k, voxelOf p.res r = .ok k →
      column (key ⟨r.x, r.y, z, 0, 0, 0⟩) = column k ∧ voxelOf p.res ⟨r.x, r.y, z, 0, 0, 0⟩ = .ok (key ⟨r.x, r.y, z, 0, 0, 0⟩))
    (hone : ∀ q, (q = ⟨q.x, q.y, q.z, 0, 0, 0⟩ ∨ ∃ k, rep (pointsIn key (inputPts p m) k) q) →
      ∀ s, rep [conform (emptyLike c) q] s → s = conform (emptyLike c) q)
    (h2 : p2 = { p with inputs := [p.out], out := p2.out }) (hout : p2.out ≠ "") (hne : p2.out ≠ p.out) (hnew : m.get p2.out = none) :
    ∃ m1 g1 m2 g2 a b, filterDecimate p visit1 visitM draws fuel grid m = some (.ok (m1, g1)) ∧
      filterDecimate p2 visit1 visitM draws2 fuel grid2 m1 = some (.ok (m2, g2)) ∧ m1.get p.out = some (.pts a) ∧ m2.get p2.out = some (.pts b) ∧ b.pts.Perm a.pts ∧ b = { a with pts := b.pts } := by
  obtain ⟨m1, reps, grid', e1, d1, o1, k1⟩ := decimate_pass_by key rep p hrep visit1 hv1 visitM hvM draws grid m n l c h hr fuel hf
  have hm2 : p2.method = p.method := by rw [h2]
  have hr2 : p2.res = p.res := by rw [h2]
  have hf2 : p2.flatten = p.flatten := by rw [h2]
  have hi2 : p2.inputs = [p.out] := by rw [h2]
  have hmin2 : p2.minPts = p.minPts := by rw [h2]
  have hcf : ∀ q, key (conform (emptyLike c) q) = key q ∧ voxelOf p.res (conform (emptyLike c) q) = voxelOf p.res q :=
    fun q => hkey _ _ rfl rfl rfl
  have hin2 : inputPts p2 m1 = reps.map (conform (emptyLike c)) := by
    simp [inputPts, hi2, ptsOf, o1]
  have hto : ToNew p2 m1 p.out [] { emptyLike c with pts := reps.map (conform (emptyLike c)) } :=
    ⟨hi2, o1, by simp, hout, by rw [k1 _ hne]; exact hnew, by rw [hm2, h2]; exact h.container.imp id (fun hh => ⟨hh.1, rfl⟩),
      by rw [hm2, hmin2]; exact h.all.imp id (fun hh => ⟨hh.1, rfl⟩)⟩
  -- the length and the voxels of the first result, and the second run once it is known to be the same
  have hrest : reps.length ≤ (inputPts p m).length ∧ (∀ r ∈ reps, voxelOf p.res r = .ok (key r)) ∧
      (∀ z, p.flatten = some z → ∀ r ∈ reps, r = ⟨r.x, r.y, z, 0, 0, 0⟩) ∧
      ((0 < p.minPts ∧ (inputPts p m).length ≤ p.minPts) ∨
        (reps.map (groupOf p.flatten key)).Nodup ∧ ∀ r ∈ reps, ∀ s, rep [conform (emptyLike c) r] s → s = conform (emptyLike c) r) := by
    by_cases hsm : 0 < p.minPts ∧ (inputPts p m).length ≤ p.minPts
    · rw [if_pos hsm] at d1
      subst d1
      cases hfl : p.flatten with
      | none => exact ⟨le_refl _, hr, by simp, .inl hsm⟩
      | some z =>
        refine ⟨by simp [passed], ?_, ?_, .inl hsm⟩
        · intro r hr'
          obtain ⟨q, hq, rfl⟩ := List.mem_map.1 hr'
          exact (hflat z hfl q _ (hr q hq)).2
        · intro z' e r hr'
          cases e
          obtain ⟨q, hq, rfl⟩ := List.mem_map.1 hr'
          rfl
    · rw [if_neg hsm] at d1
      obtain ⟨hl, hmem⟩ := output_mem key rep p.flatten _ reps d1
      refine ⟨hl, ?_, ?_, .inr ⟨?_, ?_⟩⟩
      · intro r hr'
        obtain ⟨k, q, a1, a2, rfl⟩ := hmem r hr'
        cases hfl : p.flatten with
        | none => obtain ⟨b1, b2⟩ := hin k q a1 a2; show voxelOf p.res q = .ok (key q); rw [b1]; exact b2
        | some z => exact (hflat z hfl q k (hin k q a1 a2).2).2
      · intro z hz r hr'
        obtain ⟨k, q, a1, a2, rfl⟩ := hmem r hr'
        rw [hz]; rfl
      · refine output_distinct key rep p.flatten _ reps (fun k r a b => (hin k r a b).1) ?_ d1
        intro z hz k r a b
        rw [(hflat z hz r k (hin k r a b).2).1, (hin k r a b).1]
      · intro r hr'
        refine hone r ?_
        obtain ⟨k, q, a1, a2, rfl⟩ := hmem r hr'
        cases p.flatten with
        | none => exact .inr ⟨k, a2⟩
        | some z => exact .inl rfl
  obtain ⟨hlen, hvox, hbare, hcase⟩ := hrest
  obtain ⟨m'', reps2, grid'', e2, d2, o2, -⟩ := decimate_pass_by key rep p2 (by rw [hm2]; exact hrep) visit1 hv1 visitM hvM draws2 grid2 m1 p.out [] _ hto
    (by
      rw [hin2]
      intro q hq
      obtain ⟨r, hr', rfl⟩ := List.mem_map.1 hq
      rw [hr2, (hcf r).2, (hcf r).1, hvox r hr']) fuel (by rw [hin2, List.length_map]; omega)
  refine ⟨m1, grid', m'', grid'', _, _, e1, e2, o1, o2, ?_, rfl⟩
  rw [hin2, hmin2, hf2] at d2
  have hcc : (reps.map (conform (emptyLike c))).map (conform (emptyLike c)) = reps.map (conform (emptyLike c)) := by
    rw [List.map_map]
    exact List.map_congr_left fun q _ => conform_conform _ q
  refine (show (reps2.map (conform (emptyLike c))).Perm (reps.map (conform (emptyLike c))) from ?_)
  have hbare' : ∀ z, p.flatten = some z → ∀ r ∈ reps.map (conform (emptyLike c)), r = ⟨r.x, r.y, z, 0, 0, 0⟩ := by
    intro z hz r hr'
    obtain ⟨q, hq, rfl⟩ := List.mem_map.1 hr'
    rw [hbare z hz q hq, conform_bare]
  by_cases hsm : 0 < p.minPts ∧ (reps.map (conform (emptyLike c))).length ≤ p.minPts
  · rw [if_pos hsm] at d2
    have : reps2 = reps.map (conform (emptyLike c)) := by
      rw [d2]
      cases hfl : p.flatten with
      | none => rfl
      | some z =>
        have hid : ∀ a ∈ reps.map (conform (emptyLike c)), (⟨a.x, a.y, z, 0, 0, 0⟩ : FPt K) = a := fun a ha => (hbare' z hfl a ha).symm
        exact (List.map_congr_left hid).trans (List.map_id _)
    rw [this, hcc]
  · rw [if_neg hsm] at d2
    obtain ⟨hnd, hone'⟩ := hcase.resolve_left (by rw [List.length_map] at hsm; omega)
    have hp := output_of_distinct key rep p.flatten (reps.map (conform (emptyLike c))) reps2 (by
      rw [List.map_map, show groupOf p.flatten key ∘ conform (emptyLike c) = groupOf p.flatten key from funext fun q => (by
        cases p.flatten <;> simp [groupOf, (hcf q).1])]; exact hnd) (by
      intro q hq s hs
      obtain ⟨r, hr', rfl⟩ := List.mem_map.1 hq
      exact hone' r hr' s hs) hbare' d2
    have : (reps2.map (conform (emptyLike c))).Perm ((reps.map (conform (emptyLike c))).map (conform (emptyLike c))) := hp.map _
    rw [hcc] at this
    exact this
end

/-! ### numbers without rounding -/
section
variable [Field K] [LinearOrder K] [IsStrictOrderedRing K] [FloorRing K]

theorem truncZ_mono' {a b : K} (h : a ≤ b) : truncZ a ≤ truncZ b := by
  unfold truncZ
  split_ifs with h1 h2 h2
  · exact Int.floor_le_floor h
  · exact absurd (le_trans h1 h) h2
  · exact (Int.ceil_nonpos.2 (not_le.1 h1).le).trans (Int.floor_nonneg.2 h2)
  · exact Int.ceil_le_ceil h

theorem mean_between (l : List K) (hl : l ≠ []) : (∃ x ∈ l, x ≤ l.sum / l.length) ∧ ∃ x ∈ l, l.sum / l.length ≤ x := by
  have hn : (0 : K) < l.length := by exact_mod_cast List.length_pos_iff.2 hl
  have e : (l.map fun _ => l.sum / (l.length : K)).sum = l.sum := by
    rw [List.map_const', List.sum_replicate, nsmul_eq_mul]; field_simp
  constructor
  · exact List.exists_le_of_sum_le hl (f := fun x => x) (g := fun _ => l.sum / (l.length : K)) (by rw [e, List.map_id'])
  · exact List.exists_le_of_sum_le hl (f := fun _ => l.sum / (l.length : K)) (g := fun x => x) (by rw [e, List.map_id'])

/-- The mean of coordinates with the same index has that index. -/
theorem truncZ_mean (res : K) (l : List K) (hl : l ≠ []) (i : ℤ) (h : ∀ x ∈ l, truncZ (x / res) = i) : truncZ (l.sum / l.length / res) = i := by
  obtain ⟨⟨x, hx, h1⟩, y, hy, h2⟩ := mean_between (l.map (· / res)) (by simpa using hl)
  have e : (l.map (· / res)).sum / ((l.map (· / res)).length : K) = l.sum / l.length / res := by
    rw [List.length_map]
    have : (l.map (· / res)).sum = l.sum / res := by
      clear hl h h1 h2 hx hy
      induction l with
      | nil => simp
      | cons a l ih => rw [List.map_cons, List.sum_cons, List.sum_cons, ih]; ring
    rw [this]; ring
  rw [e] at h1 h2
  obtain ⟨a, ha, rfl⟩ := List.mem_map.1 hx
  obtain ⟨b, hb, rfl⟩ := List.mem_map.1 hy
  have q1 := truncZ_mono' h1
  have q2 := truncZ_mono' h2
  rw [h a ha] at q1
  rw [h b hb] at q2
  exact le_antisymm q2 q1

/-- The average of points of a voxel is in that voxel. -/
theorem average_in_voxel (res : K) (v : List (FPt K)) (hv : v ≠ []) (k : Idx) (h : ∀ q ∈ v, voxelKey res q = k) : voxelKey res (average v) = k := by
  have e : ∀ f : FPt K → K, ((v.map f).length : K) = v.length := by intro f; rw [List.length_map]
  have h1 := truncZ_mean res (v.map (·.x)) (by simpa using hv) k.1 (by
    intro x hx; obtain ⟨q, hq, rfl⟩ := List.mem_map.1 hx; rw [← h q hq]; rfl)
  have h2 := truncZ_mean res (v.map (·.y)) (by simpa using hv) k.2.1 (by
    intro x hx; obtain ⟨q, hq, rfl⟩ := List.mem_map.1 hx; rw [← h q hq]; rfl)
  have h3 := truncZ_mean res (v.map (·.z)) (by simpa using hv) k.2.2 (by
    intro x hx; obtain ⟨q, hq, rfl⟩ := List.mem_map.1 hx; rw [← h q hq]; rfl)
  rw [e] at h1 h2 h3
  exact Prod.ext h1 (Prod.ext h2 h3)

/-- A representative is in the voxel it stands for. -/
theorem isRep_in_voxel (res : K) (meth : Method) (v : List (FPt K)) (hv : v ≠ []) (k : Idx) (h : ∀ q ∈ v, voxelKey res q = k) (r : FPt K)
    (hr : IsRep meth v r) : voxelKey res r = k := by
  cases meth with
  | firstPoint => exact h r (List.mem_of_head? hr)
  | randomPoint => exact h r hr
  | closestToAverage => exact h r hr.1
  | voxelAverage =>
    have : r = average v := hr
    rw [this]; exact average_in_voxel res v hv k h

/-- Without rounding, all methods, any inputs, with or without `flatten_to`: decimating the result once more, with the same parameters, gives the same points. -/
theorem decimate_twice (p p2 : DecParams K)
    (visit1 : List (Idx × FPt K) → List (Idx × FPt K)) (hv1 : ∀ g, (visit1 g).Perm g)
    (visitM : List (Idx × List Nat) → List (Idx × List Nat)) (hvM : ∀ g, (visitM g).Perm g)
    (draws draws2 : Nat → Nat) (grid grid2 : GridM) (m : FMap K X) (n : String) (l : List String) (c : Cloud K) (h : ToNew p m n l c)
    (hr : ∀ q ∈ inputPts p m, InRange p.res q) (hz : ∀ z, p.flatten = some z → Fits (truncZ (z / p.res)))
    (fuel : Nat) (hf : (inputPts p m).length < fuel)
    (h2 : p2 = { p with inputs := [p.out], out := p2.out }) (hout : p2.out ≠ "") (hne : p2.out ≠ p.out) (hnew : m.get p2.out = none) :
    ∃ m1 g1 m2 g2 a b, filterDecimate p visit1 visitM draws fuel grid m = some (.ok (m1, g1)) ∧
      filterDecimate p2 visit1 visitM draws2 fuel grid2 m1 = some (.ok (m2, g2)) ∧
      m1.get p.out = some (.pts a) ∧ m2.get p2.out = some (.pts b) ∧ b.pts.Perm a.pts ∧ b = { a with pts := b.pts } := by
  have hmem : ∀ k, ∀ q ∈ pointsIn (voxelKey p.res) (inputPts p m) k, q ∈ inputPts p m ∧ voxelKey p.res q = k := by
    intro k q hq
    simpa [pointsIn] using hq
  refine decimate_twice_by (voxelKey p.res) (IsRep p.method) p p2 (fun draw ps h => representative_ok p.method draw ps h) ?_ visit1 hv1 visitM hvM
    draws draws2 grid grid2 m n l c h (fun q hq => voxelOf_ok _ _ (hr q hq)) fuel hf ?_ ?_ ?_ h2 hout hne hnew
  · intro a b e1 e2 e3
    constructor
    · simp only [voxelKey, e1, e2, e3]
    · simp only [voxelOf, e1, e2, e3]
  · intro k r hk hrep
    have e := isRep_in_voxel p.res p.method _ hk k (fun q hq => (hmem k q hq).2) r hrep
    refine ⟨e, ?_⟩
    obtain ⟨q, hq⟩ := List.exists_mem_of_ne_nil _ hk
    obtain ⟨hq1, hq2⟩ := hmem k q hq
    obtain ⟨i0, i1, i2, i3⟩ := hr q hq1
    have e' : voxelKey p.res r = voxelKey p.res q := e.trans hq2.symm
    have e1 : truncZ (r.x / p.res) = truncZ (q.x / p.res) := congrArg Prod.fst e'
    have e2 : truncZ (r.y / p.res) = truncZ (q.y / p.res) := congrArg (fun k => k.2.1) e'
    have e3 : truncZ (r.z / p.res) = truncZ (q.z / p.res) := congrArg (fun k => k.2.2) e'
    rw [voxelOf_ok p.res r ⟨i0, by rw [e1]; exact i1, by rw [e2]; exact i2, by rw [e3]; exact i3⟩, e]
  · intro z hfl r k hk
    obtain ⟨i, hi, j, hj, l', -, hl⟩ : ∃ i, coord2idx p.res r.x = .ok i ∧ ∃ j, coord2idx p.res r.y = .ok j ∧ ∃ l, coord2idx p.res r.z = .ok l ∧ k = (i, j, l) := by
      unfold voxelOf at hk
      simp only [Outcome.bind_eq_ok, Outcome.ok.injEq] at hk
      obtain ⟨i, hi, j, hj, l, hl, e⟩ := hk
      exact ⟨i, hi, j, hj, l, hl, e.symm⟩
    have fx : ∀ x i, coord2idx p.res x = .ok i → p.res ≠ 0 ∧ Fits (truncZ (x / p.res)) ∧ truncZ (x / p.res) = i := by
      intro x i h
      unfold coord2idx at h
      split_ifs at h with h1 h2
      exact ⟨h1, h2, by simpa using h⟩
    obtain ⟨a0, a1, a2⟩ := fx _ _ hi
    obtain ⟨-, b1, b2⟩ := fx _ _ hj
    refine ⟨?_, voxelOf_ok _ _ ⟨a0, a1, b1, hz z hfl⟩⟩
    rw [hl]
    simp only [column, voxelKey, a2, b2]
  · intro q hq s hs
    cases hm : p.method with
    | firstPoint => rw [hm] at hs; simpa [IsRep, eq_comm] using hs
    | randomPoint => rw [hm] at hs; simpa [IsRep] using hs
    | closestToAverage => rw [hm] at hs; simpa [IsRep] using hs.1
    | voxelAverage =>
      rw [hm] at hs hq
      have hs : s = average [conform (emptyLike c) q] := hs
      have hq' : q = ⟨q.x, q.y, q.z, 0, 0, 0⟩ := by
        rcases hq with hq | ⟨k, hq⟩
        · exact hq
        · have hq : q = average (pointsIn (voxelKey p.res) (inputPts p m) k) := hq
          rw [hq]; rfl
      rw [hs, hq', conform_bare]
      simp [average]
end

/-! ### the arithmetic of the machine -/

/-- the voxel, if it is defined -/
def okKey [VoxelIdx K] (res : K) (q : FPt K) : Idx :=
  match voxelOf res q with
  | .ok k => k
  | _ => (0, 0, 0)

/-- In machine arithmetic, all methods but the average: the same. -/
theorem decimate_float_twice_partial (A : Arith) (p p2 : DecParams A.Num) (hp : p.method ≠ .voxelAverage)
    (visit1 : List (Idx × FPt A.Num) → List (Idx × FPt A.Num)) (hv1 : ∀ g, (visit1 g).Perm g)
    (visitM : List (Idx × List Nat) → List (Idx × List Nat)) (hvM : ∀ g, (visitM g).Perm g)
    (draws draws2 : Nat → Nat) (grid grid2 : GridM) (m : FMap A.Num X) (n : String) (l : List String) (c : Cloud A.Num) (h : ToNew p m n l c)
    (hr : ∀ q ∈ inputPts p m, ∃ k, VoxelF A p.res q k) (hz : ∀ z, p.flatten = some z → ∃ i, IdxF A p.res z i)
    (fuel : Nat) (hf : (inputPts p m).length < fuel)
    (h2 : p2 = { p with inputs := [p.out], out := p2.out }) (hout : p2.out ≠ "") (hne : p2.out ≠ p.out) (hnew : m.get p2.out = none) :
    ∃ m1 g1 m2 g2 a b, filterDecimate p visit1 visitM draws fuel grid m = some (.ok (m1, g1)) ∧
      filterDecimate p2 visit1 visitM draws2 fuel grid2 m1 = some (.ok (m2, g2)) ∧
      m1.get p.out = some (.pts a) ∧ m2.get p2.out = some (.pts b) ∧ b.pts.Perm a.pts ∧ b = { a with pts := b.pts } := by
  have hok : ∀ q k, voxelOf p.res q = .ok k → okKey p.res q = k := by intro q k h; simp [okKey, h]
  have hmem : ∀ k, ∀ q ∈ pointsIn (okKey p.res) (inputPts p m) k, q ∈ inputPts p m ∧ okKey p.res q = k := by
    intro k q hq
    simpa [pointsIn] using hq
  have hvox : ∀ q ∈ inputPts p m, voxelOf p.res q = .ok (okKey p.res q) := by
    intro q hq
    obtain ⟨k, hk⟩ := hr q hq
    have := (voxelF_iff A p.res q k).2 hk
    rw [hok q k this, this]
  refine decimate_twice_by (okKey p.res) (IsRepF A p.method) p p2 (fun draw ps h => representative_float A p.method draw ps h) ?_ visit1 hv1 visitM hvM
    draws draws2 grid grid2 m n l c h hvox fuel hf ?_ ?_ ?_ h2 hout hne hnew
  · intro a b e1 e2 e3
    have : voxelOf p.res a = voxelOf p.res b := by simp only [voxelOf, e1, e2, e3]
    exact ⟨by simp only [okKey, this], this⟩
  · intro k r _ hrep
    obtain ⟨q1, q2⟩ := hmem k r (rep_in_voxel A p.method hp _ r hrep)
    exact ⟨q2, by rw [hvox r q1, q2]⟩
  · intro z hfl r k hk
    obtain ⟨i, hi⟩ := hz z hfl
    obtain ⟨a1, a2, -⟩ := (voxelF_iff A p.res r k).1 hk
    have hv : voxelOf p.res (⟨r.x, r.y, z, 0, 0, 0⟩ : FPt A.Num) = .ok (k.1, k.2.1, i) := (voxelF_iff A p.res _ _).2 ⟨a1, a2, hi⟩
    rw [hok _ _ hv]
    exact ⟨rfl, hv⟩
  · intro q _ s hs
    have := rep_in_voxel A p.method hp _ s hs
    simpa using this

/-! ### the average, twice; examples -/

/-- 41 points at 1 and one at 1/2 -/
def exFlAvg : FMap binary32.Num Unit :=
  [("raw", .pts { hasI := false, hasRing := false, hasT := false, pts := List.replicate 41 ⟨binary32.num (.fin 1), 0, 0, 0, 0, 0⟩ ++ [⟨binary32.num (.fin (1 / 2)), 0, 0, 0, 0, 0⟩] })]
def exFlDec (meth : Method) (inp out : String) : DecParams binary32.Num :=
  { inputs := [inp], out := out, res := binary32.num (.fin 1), method := meth }

def xsOf (m : FMap binary32.Num Unit) (n : String) : List Fl := (ptsOf m n).map fun q => binary32.val q.x

def twiceAvg (meth : Method) : Option (List Fl × List Fl) :=
  match filterDecimate (exFlDec meth "raw" "a") id id (fun _ => 0) 99 {} exFlAvg with
  | some (.ok r) =>
    match filterDecimate (exFlDec meth "a" "b") id id (fun _ => 0) 99 {} r.1 with
    | some (.ok s) => some (xsOf r.1 "a", xsOf s.1 "b")
    | _ => none
  | _ => none

/-- With the average, in `float`, decimating twice is not the same as decimating once: of the two averages one has left its voxel for that of the other. -/
theorem decimate_float_average_twice : twiceAvg .voxelAverage = some ([.fin (16777215 / 16777216), .fin (1 / 2)], [.fin (3 / 4)]) := by
  decide +kernel

example : twiceAvg .firstPoint = some ([.fin 1, .fin (1 / 2)], [.fin 1, .fin (1 / 2)]) := by decide +kernel
example : twiceAvg .closestToAverage = some ([.fin 1, .fin (1 / 2)], [.fin 1, .fin (1 / 2)]) := by decide +kernel
/-- the hypotheses are met -/
example : ToNew (exFlDec .closestToAverage "raw" "a") exFlAvg "raw" [] { hasI := false, hasRing := false, hasT := false, pts := List.replicate 41 ⟨binary32.num (.fin 1), 0, 0, 0, 0, 0⟩ ++ [⟨binary32.num (.fin (1 / 2)), 0, 0, 0, 0, 0⟩] } :=
  ⟨rfl, rfl, by simp, by simp [exFlDec], by decide +kernel, .inr ⟨rfl, rfl⟩, .inl rfl⟩

example : ∀ q ∈ inputPts (exFlDec .closestToAverage "raw" "a") exFlAvg, ∃ k, VoxelF binary32 (binary32.num (.fin 1)) q k := by
  intro q hq
  have hq : q = ⟨binary32.num (.fin 1), 0, 0, 0, 0, 0⟩ ∨ q = ⟨binary32.num (.fin (1 / 2)), 0, 0, 0, 0, 0⟩ := by
    have : q ∈ List.replicate 41 (⟨binary32.num (.fin 1), 0, 0, 0, 0, 0⟩ : FPt binary32.Num) ++ [⟨binary32.num (.fin (1 / 2)), 0, 0, 0, 0, 0⟩] := by
      simpa [inputPts, exFlDec, ptsOf, exFlAvg, AMap.get] using hq
    rw [List.mem_append, List.mem_replicate, List.mem_singleton] at this
    tauto
  have z : IdxF binary32 (binary32.num (.fin 1)) (0 : binary32.Num) 0 := ⟨0, by decide +kernel, by decide +kernel, by norm_num, by norm_num⟩
  rcases hq with rfl | rfl
  · exact ⟨(1, 0, 0), ⟨1, by decide +kernel, by decide +kernel, by decide +kernel, by decide +kernel⟩, z, z⟩
  · exact ⟨(0, 0, 0), ⟨1 / 2, by decide +kernel, by decide +kernel, by decide +kernel, by decide +kernel⟩, z, z⟩

/-! ### small clouds -/

section
variable [Zero K] [One K] [Add K] [Sub K] [Mul K] [Div K] [NatCast K] [LT K] [DecidableLT K] [VoxelIdx K]

/-- With a method other than FirstPoint and a minimum number of points to decimate, whatever number of points the first run gives: if it is not above the minimum, the second run
is an error. -/
theorem decimate_twice_small_throws (p2 : DecParams K) (hp : p2.method ≠ .firstPoint) (visit1 : List (Idx × FPt K) → List (Idx × FPt K))
    (visitM : List (Idx × List Nat) → List (Idx × List Nat)) (draws : Nat → Nat) (grid : GridM) (m1 : FMap K X) (n : String) (a : Cloud K)
    (ha : m1.get n = some (.pts a)) (hin : p2.inputs = [n]) (hout : p2.out ≠ "") (hnew : m1.get p2.out = none) (h0 : 0 < p2.minPts) (hs : a.pts.length ≤ p2.minPts)
    (fuel : Nat) (hf : a.pts.length < fuel) : filterDecimate p2 visit1 visitM draws fuel grid m1 = some .throw := by
  have hpres : present p2 m1 = [n] := by unfold present; rw [hin]; simp [ha]
  refine decimate_multi_small_throws p2 hp visit1 visitM draws grid m1 ?_ ⟨hout, by rw [hnew]; simp⟩ n [] hpres ?_ ?_ fuel ?_
  · intro k hk
    rw [hin, List.mem_singleton] at hk
    subst hk; exact .inl ⟨a, ha⟩
  · intro _ hk
    rw [hin, List.mem_singleton] at hk
    rw [hk, ha] at hnew; cases hnew
  · unfold bigOnes
    rw [hpres]
    simp [isSmall, sizeNow, ha, h0, hs]
  · intro k hk
    rw [hpres, List.mem_singleton] at hk
    subst hk; simpa [sizeNow, ha] using hf
end

/-- three points in one voxel, and one more cloud with two in another -/
def exTwoSmall : FMap ℚ Unit :=
  [("big", .pts { pts := [⟨1, 0, 0, 0, 0, 0⟩, ⟨5 / 4, 0, 0, 0, 0, 0⟩, ⟨3 / 2, 0, 0, 0, 0, 0⟩, ⟨5, 0, 0, 0, 0, 0⟩] }),
   ("small", .pts { pts := [⟨3, 0, 0, 0, 0, 0⟩, ⟨7 / 2, 0, 0, 0, 0, 0⟩] })]

def twiceMin (minPts : Nat) (meth : Method) (inp : List String) (fl : Option ℚ) : Option (Outcome (List (FPt ℚ) × List (FPt ℚ))) :=
  match filterDecimate { inputs := inp, out := "a", res := (1 : ℚ), method := meth, minPts := minPts, flatten := fl } id id (fun _ => 0) 99 {} exTwoSmall with
  | some (.ok r) =>
    (filterDecimate { inputs := ["a"], out := "b", res := (1 : ℚ), method := meth, minPts := minPts, flatten := fl } id id (fun _ => 0) 99 {} r.1).map fun o =>
      o.bind fun s => .ok (ptsOf r.1 "a", ptsOf s.1 "b")
  | _ => none

/-- With a minimum number of points and several inputs it is not so even for FirstPoint: the points of a small cloud, passed through the first time, are decimated the second time. -/
theorem decimate_twice_mixed : (twiceMin 2 .firstPoint ["big", "small"] none).map (fun o => o.bind fun s => .ok (s.1.map (·.x), s.2.map (·.x))) =
    some (.ok ([3, 7 / 2, 1, 5], [3, 1, 5])) := by
  decide +kernel

/-- with one input it is, also with heights flattened, and one input cloud passed through -/
example : (twiceMin 2 .firstPoint ["big"] (some 7)).map (fun o => o.bind fun s => .ok (s.1.map (·.x), s.2.map (·.x))) = some (.ok ([1, 5], [1, 5])) := by
  decide +kernel
/-- the second run of another method is an error -/
example : twiceMin 2 .voxelAverage ["big"] none = some .throw := by decide +kernel
example : ToNew { inputs := ["big", "small"], out := "a", res := (1 : ℚ), method := .firstPoint, flatten := some 7 } exTwoSmall "big" ["small"]
    { pts := [⟨1, 0, 0, 0, 0, 0⟩, ⟨5 / 4, 0, 0, 0, 0, 0⟩, ⟨3 / 2, 0, 0, 0, 0, 0⟩, ⟨5, 0, 0, 0, 0, 0⟩] } :=
  ⟨rfl, rfl, by simpa using ⟨_, by rfl⟩, by simp, by decide +kernel, .inl rfl, .inl rfl⟩

/-- a cloud with a coordinate that is not a number -/
def exFlNan : FMap binary32.Num Unit :=
  [("raw", .pts { pts := [⟨binary32.num (.fin 1), 0, 0, 0, 0, 0⟩, ⟨0, binary32.num .nan, 0, 0, 0, 0⟩] })]
example : (filterDecimate (exFlDec .firstPoint "raw" "a") id id (fun _ => 0) 99 {} exFlNan).map (·.isUb) = some true := by decide +kernel
example : ¬ ∃ k, VoxelF binary32 (binary32.num (.fin 1)) ⟨0, binary32.num .nan, 0, 0, 0, 0⟩ k :=
  no_voxel_of_not_finite _ _ _ ⟨.nan, List.mem_cons_of_mem _ (List.mem_cons_self ..), .inl rfl⟩

end Props
end Verif
