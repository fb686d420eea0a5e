import Verif.Lemmas.Decimate
set_option linter.unusedSectionVars false
namespace Verif
namespace Vox
open Flt
variable {K X : Type}
section
variable [Field K] [LinearOrder K] [IsStrictOrderedRing K] [FloorRing K]

theorem foldl_add (l : List K) (a : K) : l.foldl (· + ·) a = a + l.sum := by
  induction l generalizing a with
  | nil => simp
  | cons x l ih => rw [List.foldl_cons, ih, List.sum_cons, add_assoc]

theorem meanOf_eq (ps : List (FPt K)) : meanOf ps = average ps := by
  simp only [meanOf, average, foldl_add, barePt, zero_add, mul_one_div]

theorem sqErr_eq (a b : FPt K) : sqErr a b = dist2 a b := by simp only [sqErr, dist2]; ring

theorem closestLoop_spec (mean : FPt K) (ps : List (FPt K)) (b : FPt K) :
    ∃ r, closestLoop mean ps (some b) = some r ∧ r ∈ b :: ps ∧ ∀ q ∈ b :: ps, dist2 r mean ≤ dist2 q mean := by
  induction ps generalizing b with
  | nil => exact ⟨b, rfl, by simp, by simp⟩
  | cons p ps ih =>
    by_cases h : sqErr p mean < sqErr b mean
    · obtain ⟨r, h1, h2, h3⟩ := ih p
      refine ⟨r, by rw [closestLoop, if_pos h, h1], List.mem_cons_of_mem _ h2, ?_⟩
      intro q hq
      rcases List.mem_cons.1 hq with rfl | hq
      · have := h3 p (List.mem_cons_self ..)
        rw [sqErr_eq, sqErr_eq] at h
        exact this.trans h.le
      · exact h3 q hq
    · obtain ⟨r, h1, h2, h3⟩ := ih b
      refine ⟨r, by rw [closestLoop, if_neg h, h1], ?_, ?_⟩
      · rcases List.mem_cons.1 h2 with rfl | h2
        · exact List.mem_cons_self ..
        · exact List.mem_cons_of_mem _ (List.mem_cons_of_mem _ h2)
      · intro q hq
        rcases List.mem_cons.1 hq with rfl | hq
        · exact h3 q (List.mem_cons_self ..)
        · rcases List.mem_cons.1 hq with rfl | hq
          · have := h3 b (List.mem_cons_self ..)
            rw [sqErr_eq, sqErr_eq, not_lt] at h
            exact this.trans h
          · exact h3 q (List.mem_cons_of_mem _ hq)

theorem representative_ok (meth : Method) (draw : Nat) (ps : List (FPt K)) (h : ps ≠ []) :
    ∃ r, representative meth draw ps = .ok r ∧ IsRep meth ps r := by
  cases meth with
  | firstPoint =>
    cases ps with
    | nil => exact absurd rfl h
    | cons p ps => exact ⟨p, rfl, rfl⟩
  | voxelAverage => exact ⟨_, rfl, meanOf_eq ps⟩
  | randomPoint =>
    have hl : 0 < ps.length := List.length_pos_iff.2 h
    have hd : draw % ps.length < ps.length := Nat.mod_lt _ hl
    refine ⟨ps[draw % ps.length], ?_, List.getElem_mem hd⟩
    simp only [representative, List.getElem?_eq_getElem hd]
  | closestToAverage =>
    cases ps with
    | nil => exact absurd rfl h
    | cons p ps =>
      obtain ⟨r, h1, h2, h3⟩ := closestLoop_spec (meanOf (p :: ps)) ps p
      refine ⟨r, ?_, h2, ?_⟩
      · simp only [representative, closestLoop, h1]
      · rw [← meanOf_eq]; exact h3

end

section
variable [Zero K] [One K] [Add K] [Sub K] [Mul K] [Div K] [NatCast K] [LT K] [DecidableLT K]

/-- the representatives of a list of non-empty voxels -/
theorem representatives_by (key : FPt K → Idx) (rep : List (FPt K) → FPt K → Prop) (meth : Method) (draws : Nat → Nat) (pts : List (FPt K)) (g : List (Idx × List Nat))
    (hg : ∀ k l, (k, l) ∈ g → l ≠ [] ∧ l = (List.range pts.length).filter fun i => keyAt key pts i = k) (hrep : ∀ draw ps, ps ≠ [] → ∃ r, representative meth draw ps = .ok r ∧ rep ps r) (j : Nat) :
    ∃ rs, representatives meth draws pts j g = .ok rs ∧ rs.map (·.1) = g.map (·.1) ∧
      ∀ k r, (k, r) ∈ rs → pointsIn key pts k ≠ [] ∧ rep (pointsIn key pts k) r := by
  induction g generalizing j with
  | nil => exact ⟨[], rfl, rfl, by simp⟩
  | cons e g ih =>
    obtain ⟨k, l⟩ := e
    obtain ⟨hne, hl⟩ := hg k l (List.mem_cons_self ..)
    obtain ⟨rs, h1, h2, h3⟩ := ih (fun k l h => hg k l (List.mem_cons_of_mem _ h)) (j + 1)
    have hp := pointsAt_voxel key k pts
    rw [← hl] at hp
    have hv : pointsIn key pts k ≠ [] := by
      intro h0
      rw [h0] at hp
      cases l with
      | nil => exact hne rfl
      | cons i l =>
        rw [pointsAt] at hp
        split at hp
        · simp only [Outcome.bind_eq_ok, Outcome.ok.injEq] at hp
          obtain ⟨_, _, h⟩ := hp; cases h
        · cases hp
    obtain ⟨r, hr, hrep⟩ := hrep (draws j) (pointsIn key pts k) hv
    have he : l.isEmpty = false := by cases l <;> simp_all
    refine ⟨(k, r) :: rs, ?_, by simp [h2], ?_⟩
    · rw [representatives, he]
      simp only [Bool.false_eq_true, if_false, hp, Outcome.bind, hr, h1]
    · intro k' r' h
      rcases List.mem_cons.1 h with h | h
      · obtain ⟨rfl, rfl⟩ := Prod.mk.injEq .. ▸ h
        exact ⟨hv, hrep⟩
      · exact h3 k' r' h

end

section
variable [Zero K]

/-! ### collecting -/

/-- the voxels `collect` takes with `flatten_to` -/
def columns : List (Idx × FPt K) → List (ℤ × ℤ) → List (Idx × FPt K)
  | [], _ => []
  | e :: g, used => if used.contains (column e.1) then columns g used else e :: columns g (column e.1 :: used)

theorem collect_none (out : String) (g : List (Idx × FPt K)) (used : List (ℤ × ℤ)) (m : FMap K X) :
    collect out none g used m = (g.map (·.2)).foldl (fun m p => insertInto m out p) m := by
  induction g generalizing m used with
  | nil => rfl
  | cons e g ih => rw [collect, List.map_cons, List.foldl_cons]; exact ih ..

theorem collect_some (out : String) (z : K) (g : List (Idx × FPt K)) (used : List (ℤ × ℤ)) (m : FMap K X) :
    collect out (some z) g used m =
      ((columns g used).map fun e => barePt e.2.x e.2.y z).foldl (fun m p => insertInto m out p) m := by
  induction g generalizing m used with
  | nil => rfl
  | cons e g ih =>
    obtain ⟨k, p⟩ := e
    rw [collect, columns]
    by_cases h : used.contains (column k) = true
    · have h' : used.contains (k.1, k.2.1) = true := h
      rw [if_pos h]; simp only [h', if_true]; exact ih ..
    · have h' : ¬ used.contains (k.1, k.2.1) = true := h
      rw [if_neg h]; simp only [h', if_false, List.map_cons, List.foldl_cons]; exact ih ..

theorem columns_spec (g : List (Idx × FPt K)) (used : List (ℤ × ℤ)) :
    ((columns g used).map fun e => column e.1).Nodup ∧
    (∀ c, c ∈ (columns g used).map (fun e => column e.1) ↔ c ∉ used ∧ ∃ e ∈ g, column e.1 = c) ∧
    ∀ e ∈ columns g used, e ∈ g := by
  induction g generalizing used with
  | nil => simp [columns]
  | cons e g ih =>
    rw [columns]
    by_cases h : used.contains (column e.1) = true
    · rw [if_pos h]
      obtain ⟨h1, h2, h3⟩ := ih used
      refine ⟨h1, fun c => ?_, fun a ha => List.mem_cons_of_mem _ (h3 a ha)⟩
      rw [h2]
      have hu : column e.1 ∈ used := by simpa using h
      constructor
      · rintro ⟨a, b, hb, hc⟩; exact ⟨a, b, List.mem_cons_of_mem _ hb, hc⟩
      · rintro ⟨a, b, hb, hc⟩
        rcases List.mem_cons.1 hb with rfl | hb
        · exact absurd (hc ▸ hu) a
        · exact ⟨a, b, hb, hc⟩
    · rw [if_neg h]
      have hu : column e.1 ∉ used := by simpa using h
      obtain ⟨h1, h2, h3⟩ := ih (column e.1 :: used)
      refine ⟨?_, fun c => ?_, ?_⟩
      · rw [List.map_cons, List.nodup_cons]
        refine ⟨?_, h1⟩
        rw [h2]; simp
      · rw [List.map_cons, List.mem_cons, h2]
        constructor
        · rintro (rfl | ⟨a, b, hb, hc⟩)
          · exact ⟨hu, e, List.mem_cons_self .., rfl⟩
          · exact ⟨fun hh => a (List.mem_cons_of_mem _ hh), b, List.mem_cons_of_mem _ hb, hc⟩
        · rintro ⟨a, b, hb, hc⟩
          by_cases hce : c = column e.1
          · exact Or.inl hce
          · rcases List.mem_cons.1 hb with rfl | hb
            · exact absurd hc.symm hce
            · refine Or.inr ⟨?_, b, hb, hc⟩
              rw [List.mem_cons]; rintro (hh | hh)
              · exact hce hh
              · exact a hh
      · intro a ha
        rcases List.mem_cons.1 ha with rfl | ha
        · exact List.mem_cons_self ..
        · exact List.mem_cons_of_mem _ (h3 a ha)

/-- representatives, voxel by voxel, give the output the specification asks for -/
theorem output_of_reps (key : FPt K → Idx) (rep : List (FPt K) → FPt K → Prop) (f : Option K) (input : List (FPt K)) (g : List (Idx × FPt K))
    (hnd : (g.map (·.1)).Nodup) (hk : ∀ k, k ∈ g.map (·.1) ↔ ∃ p ∈ input, key p = k)
    (hr : ∀ k r, (k, r) ∈ g → pointsIn key input k ≠ [] ∧ rep (pointsIn key input k) r) (out : String)
    (m : FMap K X) :
    ∃ reps, OutputBy key rep f input reps ∧
      collect out f g [] m = reps.foldl (fun m p => insertInto m out p) m := by
  cases f with
  | none =>
    refine ⟨g.map (·.2), ⟨g.map (·.1), hnd, hk, ?_⟩, collect_none ..⟩
    rw [List.forall₂_map_left_iff, List.forall₂_map_right_iff, List.forall₂_same]
    intro e he
    exact (hr e.1 e.2 he).2
  | some z =>
    obtain ⟨h1, h2, h3⟩ := columns_spec g []
    refine ⟨(columns g []).map fun e => barePt e.2.x e.2.y z,
      ⟨(columns g []).map (fun e => column e.1), h1, fun c => ?_, ?_⟩, collect_some ..⟩
    · rw [h2]
      constructor
      · rintro ⟨-, e, he, rfl⟩
        obtain ⟨p, hp, hpk⟩ := (hk e.1).1 (List.mem_map_of_mem he)
        exact ⟨p, hp, by rw [hpk]⟩
      · rintro ⟨p, hp, rfl⟩
        obtain ⟨e, he, hek⟩ := List.mem_map.1 ((hk (key p)).2 ⟨p, hp, rfl⟩)
        exact ⟨by simp, e, he, by rw [hek]⟩
    · rw [List.forall₂_map_left_iff, List.forall₂_map_right_iff, List.forall₂_same]
      intro e he
      obtain ⟨q1, q2⟩ := hr e.1 e.2 (h3 e he)
      exact ⟨e.1, e.2, rfl, q1, q2, rfl⟩

/-- appending by repeated insertion -/
theorem get_appendAll (out : String) (hout : out ≠ "") (ps : List (FPt K)) (m : FMap K X) (k : String) :
    AMap.get (ps.foldl (fun m p => insertInto m out p) m) k = if k = out then addPts (m.get k) ps else m.get k := by
  rw [get_foldl_insertInto (fun _ => out) ps m k]
  by_cases h : k = out
  · subst h; simp [hout]
  · have : ¬ out = k := fun hh => h hh.symm
    by_cases h0 : k = ""
    · rw [if_pos h0, if_neg h]
    · simp [h, this, h0]

/-! ### passing small clouds through -/

theorem passLive_eq (inp out : String) (f : Option K) (hne : inp ≠ out) (c : Cloud K) (fuel i : Nat) (m : FMap K X)
    (hm : m.get inp = some (.pts c)) (hf : c.pts.length < fuel + i) (hi : i ≤ c.pts.length) :
    passLive inp out f fuel i m = some (((c.pts.drop i).map (flat f)).foldl (fun m p => insertInto m out p) m) := by
  induction fuel generalizing i m with
  | zero => omega
  | succ fuel ih =>
    rw [passLive]
    simp only [hm]
    by_cases hl : i < c.pts.length
    · rw [List.getElem?_eq_getElem hl]
      simp only []
      rw [ih (i + 1) _ ?_ (by omega) (by omega), List.drop_eq_getElem_cons hl, List.map_cons, List.foldl_cons]
      rw [get_insertInto, if_neg (fun h => hne h.1), hm]
    · rw [List.getElem?_eq_none (by omega), List.drop_eq_nil_of_le (by omega)]
      simp

theorem passLive_none (out : String) (hout : out ≠ "") (f : Option K) (c : Cloud K) (fuel i : Nat) (m : FMap K X)
    (hm : m.get out = some (.pts c)) (hi : i < c.pts.length) : passLive out out f fuel i m = none := by
  induction fuel generalizing i m c with
  | zero => rfl
  | succ fuel ih =>
    rw [passLive]
    simp only [hm, List.getElem?_eq_getElem hi]
    refine ih { c with pts := c.pts ++ [conform c (flat f c.pts[i])] } (i + 1) _ ?_ (by simp; omega)
    rw [get_insertInto, if_pos ⟨rfl, hout⟩, hm]; rfl

/-- is the cloud small enough to be passed through? -/
def isSmall (p : DecParams K) (m : FMap K X) (n : String) : Bool := decide (0 < p.minPts ∧ sizeNow m n ≤ p.minPts)

theorem sizeNow_congr (m m' : FMap K X) (n : String) (h : m'.get n = m.get n) : sizeNow m' n = sizeNow m n := by
  unfold sizeNow; rw [h]
theorem ptsOf_congr (m m' : FMap K X) (n : String) (h : m'.get n = m.get n) : ptsOf m' n = ptsOf m n := by
  unfold ptsOf; rw [h]

theorem flat_map (f : Option K) (ps : List (FPt K)) : ps.map (flat f) = passed f ps := by
  cases f with
  | none => exact List.map_id' ps
  | some z => rfl

theorem passed_append (f : Option K) (a b : List (FPt K)) : passed f (a ++ b) = passed f a ++ passed f b := by
  rw [← flat_map, ← flat_map, ← flat_map, List.map_append]

theorem passSmall_eq (p : DecParams K) (hout : p.out ≠ "") (fuel : Nat) (ns : List String) (m : FMap K X)
    (hin : ∀ n ∈ ns, ∃ c, m.get n = some (.pts c) ∧ c.pts.length < fuel)
    (ha : 0 < p.minPts → p.out ∉ ns) :
    ∃ m1, passSmall p fuel ns m = some (ns.filter (fun n => !isSmall p m n), m1) ∧
      ∀ k, m1.get k = if k = p.out then
        addPts (m.get k) (passed p.flatten ((ns.filter fun n => isSmall p m n).flatMap (ptsOf m))) else m.get k := by
  induction ns generalizing m with
  | nil =>
    refine ⟨m, rfl, fun k => ?_⟩
    have : passed p.flatten (List.flatMap (ptsOf m) []) = [] := by cases p.flatten <;> rfl
    simp only [List.filter_nil, this, addPts_nil, ite_self]
  | cons n ns ih =>
    obtain ⟨c, hc, hf⟩ := hin n (List.mem_cons_self ..)
    rw [passSmall]
    by_cases hs : 0 < p.minPts ∧ sizeNow m n ≤ p.minPts
    · have hno := ha hs.1
      rw [List.mem_cons, not_or] at hno
      have hpl := passLive_eq n p.out p.flatten (fun h => hno.1 h.symm) c fuel 0 m hc (by omega) (by omega)
      have hsm : isSmall p m n = true := by simp [isSmall, hs]
      rw [if_pos hs, hpl]
      simp only [List.drop_zero]
      generalize hmm : List.foldl (fun m p_1 => insertInto m p.out p_1) m (List.map (flat p.flatten) c.pts) = m2
      have hg : ∀ k, m2.get k = if k = p.out then addPts (m.get k) (c.pts.map (flat p.flatten)) else m.get k := by
        intro k; rw [← hmm]; exact get_appendAll _ hout _ _ _
      have hsame : ∀ k ∈ ns, m2.get k = m.get k := by
        intro k hk
        rw [hg, if_neg]; rintro rfl; exact hno.2 hk
      obtain ⟨m1, h1, h2⟩ := ih m2 (by
        intro k hk
        rw [hsame k hk]
        exact hin k (List.mem_cons_of_mem _ hk)) (fun _ => hno.2)
      have hfil : ∀ q : Bool → Bool, (ns.filter fun k => q (isSmall p m2 k)) = ns.filter fun k => q (isSmall p m k) := by
        intro q
        apply List.filter_congr
        intro k hk
        simp only [isSmall, sizeNow_congr m m2 k (hsame k hk)]
      refine ⟨m1, ?_, fun k => ?_⟩
      · rw [h1, hfil, List.filter_cons_of_neg (by simp [hsm])]
      · rw [h2, hg, List.filter_cons_of_pos hsm, List.flatMap_cons]
        have e1 := hfil id
        simp only [id_eq] at e1
        rw [e1]
        have e2 : (List.filter (fun n => isSmall p m n) ns).flatMap (ptsOf m2) =
            (List.filter (fun n => isSmall p m n) ns).flatMap (ptsOf m) := by
          rw [List.flatMap_def, List.flatMap_def]
          congr 1
          apply List.map_congr_left
          intro k hk
          exact ptsOf_congr m m2 k (hsame k (List.mem_of_mem_filter hk))
        have e3 : ptsOf m n = c.pts := by simp [ptsOf, hc]
        rw [e2, e3]
        split
        · rw [addPts_addPts, passed_append, flat_map]
        · rfl
    · have hsm : isSmall p m n = false := by simp only [isSmall, hs, decide_false]
      obtain ⟨m1, h1, h2⟩ := ih m (fun k hk => hin k (List.mem_cons_of_mem _ hk))
        (fun h hh => ha h (List.mem_cons_of_mem _ hh))
      rw [if_neg hs, h1]
      refine ⟨m1, ?_, fun k => ?_⟩
      · rw [List.filter_cons_of_pos (by simp [hsm])]
      · rw [h2, List.filter_cons_of_neg (by simp [hsm])]

end

end Vox
end Verif
