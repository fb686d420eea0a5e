import Mathlib.Algebra.Order.Ring.Rat
import Mathlib.Tactic.NormNum
import Mathlib.Tactic.LinearCombination
import Mathlib.Tactic.Linarith
import Verif.Lemmas.Deskew
import Verif.Lemmas.FilterValues
import Verif.Lemmas.Velocity
/-
C54: motion compensation.
-/
set_option linter.unusedSectionVars false
namespace Verif
namespace Props
open Flt
section
variable {K X Q : Type} [Field K] [LinearOrder K] [IsStrictOrderedRing K]

/-- what is written is the moved point, as far as the channels go -/
theorem deskewRes_eq (e : RotEnv K Q) (vw : P3 K × P3 K) (poses : Option (AMap K Q)) (c c0 : Cloud K) (p : FPt K) :
    deskewRes e vw poses c c0 p =
      conform c0 (conform c (if p.AtOrigin then blankPt else p.at (deskewPos e vw poses p))) := by
  unfold deskewRes
  by_cases h : p.AtOrigin
  · rw [if_pos h, if_pos (show p.x = 0 ∧ p.y = 0 ∧ p.z = 0 from h)]; simp [conform, blankPt]
  · rw [if_neg h, if_neg (show ¬ (p.x = 0 ∧ p.y = 0 ∧ p.z = 0) from h)]
    rcases c with ⟨_, a, b, d⟩
    rcases c0 with ⟨_, a', b', d'⟩
    cases a <;> cases b <;> cases d <;> cases a' <;> cases b' <;> cases d' <;>
      simp [deskewWrite, conform, FPt.at, blankPt]

theorem getOrCreate_out (P : DeskewParams K) (m : FMap K X) (hout : P.out ≠ "") (c0 : Cloud K)
    (h : m.get P.out = some (.pts c0) ∨ (m.get P.out = none ∧ P.newCloud = some c0)) :
    ∃ r, getOrCreatePointLayer P.newCloud m P.out false = .ok r ∧ AMap.get r.2 P.out = some (.pts c0) ∧
      ∀ n, n ≠ P.out → AMap.get r.2 n = m.get n := by
  unfold getOrCreatePointLayer
  rw [if_neg hout]
  rcases h with h | ⟨h, h'⟩
  · rw [h]; exact ⟨_, rfl, h, fun _ _ => rfl⟩
  · rw [h, h']; exact ⟨_, rfl, by simp, fun n hn => by simp [hn]⟩

/-- The general statement: whatever the order in which the parallel loop runs, the filter appends one point for each point of the
input, in the order of the input; points away from the origin are moved by the motion at their own stamp, with their other
channels; nothing else in the map changes.  It holds also if the output is the input.
Part of C54: points at the origin are not moved (`deskew_origin_finding`) and the precise mode ignores the linear velocity. -/
theorem deskew_result_partial (e : RotEnv K Q) (P : DeskewParams K) (source : Option (K → Outcome (AMap K Q))) (order : Nat → List Nat)
    (horder : ∀ n, (order n).Perm (List.range n)) (m : FMap K X) (c c0 : Cloud K)
    (hreal : P.realized = true) (hout : P.out ≠ "") (hinp : P.inp ≠ "") (hm : m.get P.inp = some (.pts c))
    (h0 : m.get P.out = some (.pts c0) ∨ (m.get P.out = none ∧ P.newCloud = some c0))
    (hne : c.pts ≠ []) (hT : c.hasT = true) (hskip : P.skip = false)
    (vw : P3 K × P3 K) (poses : Option (AMap K Q)) (hmot : deskewMotion P source (c.pts.map (·.t)) = .ok (vw, poses)) :
    ∃ m', filterDeskew e P source order m = .ok m' ∧
      AppendedMap P.out P.newCloud c (fun p => if p.AtOrigin then blankPt else p.at (deskewPos e vw poses p)) m m' := by
  obtain ⟨r, hr, hro, hrn⟩ := getOrCreate_out P m hout c0 h0
  have hin : AMap.get r.2 P.inp = some (.pts c) := by
    by_cases h : P.inp = P.out
    · rw [h]
      rcases h0 with h0 | ⟨h0, -⟩
      · rw [h, h0] at hm; rw [hro]; exact hm
      · rw [h, h0] at hm; cases hm
    · rw [hrn _ h]; exact hm
  have hio : P.inp = P.out → c0 = c := by
    intro h; rw [h, hro] at hin; simpa using hin
  obtain ⟨m', hrun, hg, hrest⟩ := deskewLoop_eq e vw poses P.inp P.out c c0 hio (order c.pts.length) []
    (AMap.set r.2 P.out (.pts { c0 with pts := c0.pts ++ List.replicate c.pts.length blankPt }))
    (by rw [List.append_nil]; exact (horder _).nodup_iff.2 List.nodup_range)
    (fun i hi => by simpa using (horder _).mem_iff.1 hi)
    (fun h => by simp [h, hin])
    (by rw [AMap.get_set, if_pos rfl, slots_nil])
  refine ⟨m', ?_, c0, h0, ?_, ?_⟩
  · have hb : (!c.hasT || P.skip) = false := by simp [hT, hskip]
    simp only [filterDeskew, Outcome.assert, hreal, hout, hinp, if_true, ne_eq, not_false_eq_true, Outcome.bind, hr, hin,
      List.isEmpty_iff, hne, if_false, hb, hro, hmot, Bool.false_eq_true]
    exact hrun
  · rw [hg, slots_full c _ _ (horder _)]
    rw [show deskewRes e vw poses c c0 = _ from funext (deskewRes_eq e vw poses c c0)]
  · intro n hn
    rw [hrest n hn]; simp [hn, hrn n hn]

/-- Constant twist: point `p` becomes `exp(w t) p + v t`, `t` being its own stamp. -/
theorem deskew_constant_twist (e : RotEnv K Q) (v w : P3 K) (p : FPt K) :
    deskewPos e (v, w) none p = e.rot (w.smul p.t) p.pos + v.smul p.t := rfl

/-- With the constant-twist mode, the twist given is the one used. -/
theorem deskew_motion_constant (P : DeskewParams K) (source : Option (K → Outcome (AMap K Q))) (ts : List K)
    (h : P.precise = false) (vw : P3 K × P3 K) (ht : P.twist = some vw) : deskewMotion P source ts = .ok (vw, none) := by
  simp [deskewMotion, h, ht]

/-- A zero twist, or a zero stamp, leaves the coordinates as they are. -/
theorem deskew_zero (e : RotEnv K Q) (he : ∀ p, e.rot 0 p = p) (v w : P3 K) (p : FPt K)
    (h : (v = 0 ∧ w = 0) ∨ p.t = 0) : deskewPos e (v, w) none p = p.pos := by
  have hz : ∀ a : P3 K, a.smul 0 = 0 := by intro a; ext <;> simp
  have hz' : (0 : P3 K).smul p.t = 0 := by ext <;> simp
  have hadd : ∀ a : P3 K, a + 0 = a := by intro a; ext <;> simp
  unfold deskewPos
  rcases h with ⟨rfl, rfl⟩ | h
  · simp only [hz', he, hadd]
  · simp only [h, hz, he, hadd]

/-- Points with the same stamp, none of them at the origin, move as a rigid body: their distances are kept. -/
theorem deskew_rigid (e : RotEnv K Q) (he : ∀ w p q, (e.rot w p).distSq (e.rot w q) = p.distSq q) (v w : P3 K) (p q : FPt K)
    (ht : p.t = q.t) : (deskewPos e (v, w) none p).distSq (deskewPos e (v, w) none q) = p.pos.distSq q.pos := by
  rw [← he (w.smul p.t) p.pos q.pos]
  simp only [deskewPos, ← ht, P3.distSq, P3.normSq, P3.dot, P3.sub_x, P3.sub_y, P3.sub_z, P3.add_x, P3.add_y, P3.add_z]
  ring

/-- The number of points: as many more as the input has. -/
theorem deskew_count (out : String) (new : Option (Cloud K)) (c : Cloud K) (f : FPt K → FPt K) (m m' : FMap K X)
    (h : AppendedMap out new c f m m') (c0 : Cloud K) (hc : m.get out = some (.pts c0)) :
    ∃ c1, m'.get out = some (.pts c1) ∧ c1.pts.length = c0.pts.length + c.pts.length ∧ c1.pts.take c0.pts.length = c0.pts := by
  obtain ⟨c0', h0, hm', -⟩ := h
  rcases h0 with h0 | ⟨h0, -⟩
  · rw [hc] at h0
    obtain rfl : c0 = c0' := by simpa using h0
    exact ⟨_, hm', by simp, by simp⟩
  · rw [hc] at h0; cases h0

/-- When stamps are missing (and it is told to ignore that) or it is told to skip, the filter copies all the points. -/
theorem deskew_skip_copies (e : RotEnv K Q) (P : DeskewParams K) (source : Option (K → Outcome (AMap K Q))) (order : Nat → List Nat)
    (m : FMap K X) (c c0 : Cloud K) (hreal : P.realized = true) (hout : P.out ≠ "") (hinp : P.inp ≠ "")
    (hm : m.get P.inp = some (.pts c))
    (h0 : m.get P.out = some (.pts c0) ∨ (m.get P.out = none ∧ P.newCloud = some c0)) (hne : c.pts ≠ [])
    (h : P.skip = true ∨ (c.hasT = false ∧ P.silent = true)) :
    ∃ m', filterDeskew e P source order m = .ok m' ∧
      m'.get P.out = some (.pts { c0 with pts := c0.pts ++ c.pts.map (conform c0) }) ∧ ∀ n, n ≠ P.out → m'.get n = m.get n := by
  obtain ⟨r, hr, hro, hrn⟩ := getOrCreate_out P m hout c0 h0
  have hin : AMap.get r.2 P.inp = some (.pts c) := by
    by_cases h : P.inp = P.out
    · rw [h]
      rcases h0 with h0 | ⟨h0, -⟩
      · rw [h, h0] at hm; rw [hro]; exact hm
      · rw [h, h0] at hm; cases hm
    · rw [hrn _ h]; exact hm
  have hp := partSnap_eq P.inp (fun _ => P.out) c.pts.length 0 r.2 c.pts c [] (by simpa using hin) (by omega)
  simp only [List.drop_zero] at hp
  have hg := fun k => get_foldl_insertInto (fun _ => P.out) c.pts r.2 k
  refine ⟨c.pts.foldl (fun m p => insertInto m P.out p) r.2, ?_, ?_, ?_⟩
  rotate_left
  · rw [hg, if_neg hout, hro]
    simp [addPts]
  · intro n hn
    rw [hg, hrn n hn]
    have : (c.pts.filter fun _ => decide (P.out = n)) = [] := by simp [Ne.symm hn]
    split
    · rfl
    · rw [this, addPts_nil]
  · have hb : (!c.hasT || P.skip) = true := by
      rcases h with h | h
      · simp [h]
      · simp [h.1]
    have hb2 : (P.silent || P.skip) = true := by
      rcases h with h | h
      · simp [h]
      · simp [h.2]
    simp only [filterDeskew, Outcome.assert, hreal, hout, hinp, if_true, ne_eq, not_false_eq_true, Outcome.bind, hr, hin,
      List.isEmpty_iff, hne, if_false, hb, hb2]
    exact hp

/-- Refusals: unrealized parameters, no output name, no stamps without leave to ignore it, no twist (or, in precise mode, no
attached source). -/
theorem deskew_refuses (e : RotEnv K Q) (P : DeskewParams K) (source : Option (K → Outcome (AMap K Q))) (order : Nat → List Nat)
    (m : FMap K X)
    (h : P.realized = false ∨ P.out = "" ∨ (m.get P.inp = none ∧ P.inp ≠ P.out) ∨
      (∃ c, m.get P.inp = some (.pts c) ∧ c.pts ≠ [] ∧ P.skip = false ∧
        ((c.hasT = false ∧ P.silent = false) ∨ (P.precise = false ∧ P.twist = none ∧ c.hasT = true) ∨
          (P.precise = true ∧ source = none ∧ c.hasT = true)))) :
    filterDeskew e P source order m = .throw := by
  by_cases h1 : P.realized = true
  swap
  · simp [filterDeskew, h1]
  by_cases h2 : P.out = ""
  · simp [filterDeskew, h2, h1]
  replace h := (h.resolve_left (by simp [h1])).resolve_left h2
  simp only [filterDeskew, Outcome.assert, h1, h2, ne_eq, not_false_eq_true, if_true, Outcome.bind]
  have hr : getOrCreatePointLayer P.newCloud m P.out false = .throw ∨
      ∃ c0, (m.get P.out = some (.pts c0) ∨ (m.get P.out = none ∧ P.newCloud = some c0)) := by
    unfold getOrCreatePointLayer
    rw [if_neg h2]
    cases hg : m.get P.out with
    | none =>
      cases hn : P.newCloud with
      | none => exact Or.inl rfl
      | some c0 => exact Or.inr ⟨c0, by simp⟩
    | some l =>
      cases l with
      | other x => exact Or.inl rfl
      | pts c0 => exact Or.inr ⟨c0, by simp⟩
  rcases hr with hr | ⟨c0, h0⟩
  · rw [hr]
  obtain ⟨r, hr, hro, hrn⟩ := getOrCreate_out P m h2 c0 h0
  rw [hr]
  by_cases h3 : P.inp = ""
  · simp [h3]
  simp only [h3, not_false_eq_true, if_true]
  rcases h with ⟨h, hne⟩ | ⟨c, hc, hne, hs, h⟩
  · rw [hrn _ hne, h]
  · have hin : AMap.get r.2 P.inp = some (.pts c) := by
      by_cases h : P.inp = P.out
      · rw [h]
        rcases h0 with h0 | ⟨h0, -⟩
        · rw [h, h0] at hc; rw [hro]; exact hc
        · rw [h, h0] at hc; cases hc
      · rw [hrn _ h]; exact hc
    rw [hin]
    simp only [List.isEmpty_iff, hne, if_false, hs, Bool.or_false]
    rcases h with ⟨ht, hsi⟩ | ⟨hp, htw, ht⟩ | ⟨hp, htw, ht⟩
    · simp [ht, hsi]
    · simp [ht, hro, deskewMotion, hp, htw]
    · simp [ht, hro, deskewMotion, hp, htw]

/-- Precise mode: the poses are those reconstructed for the time from the first to the last stamp of the cloud, whatever the order
of the points; with some, each point takes the one whose time is nearest to its own stamp. -/
theorem deskew_motion_precise (P : DeskewParams K) (hP : P.precise = true) (rec : K → Outcome (AMap K Q)) (ts : List K)
    (first last : K) (h : IsRange ts first last) :
    (rec (last - first) = .throw → deskewMotion P (some rec) ts = .throw) ∧
    ∀ tr, rec (last - first) = .ok tr → ∃ poses, deskewMotion P (some rec) ts = .ok ((0, 0), poses) ∧
      (tr ≠ [] → poses = some tr) ∧ (tr = [] → poses = none) := by
  have hne : ts ≠ [] := by
    rintro rfl
    simpa using h.1
  obtain ⟨lo, hi, h1, h2, h3⟩ := range_of_ne ts hne
  obtain ⟨rfl, rfl⟩ := h3.unique h
  refine ⟨fun hr => by simp [deskewMotion, hP, h1, h2, hr], fun tr hr => ?_⟩
  refine ⟨if tr.isEmpty then none else some tr, by simp [deskewMotion, hP, h1, h2, hr], ?_, ?_⟩
  · intro hn; cases tr with
    | nil => exact absurd rfl hn
    | cons a l => rfl
  · rintro rfl; rfl

/-- With poses, the rotation applied to a point is that of the pose at the time nearest to its stamp. -/
theorem deskew_precise_nearest (e : RotEnv K Q) (tr : AMap K Q) (hs : AMap.Sorted tr) (hne : tr ≠ []) (v w : P3 K) (p : FPt K) :
    ∃ t q, (t, q) ∈ tr ∧ (∀ u r, (u, r) ∈ tr → |t - p.t| ≤ |u - p.t|) ∧
      deskewPos e (v, w) (some tr) p = e.poseRot q p.pos + v.smul p.t := by
  obtain ⟨k, hk⟩ : ∃ k, Vel.findClosest tr p.t = some k := by
    cases tr with
    | nil => exact absurd rfl hne
    | cons a l => exact ⟨_, rfl⟩
  obtain ⟨⟨q, hq⟩, hmin⟩ := Vel.findClosest_some tr p.t k hk
  refine ⟨k, q, hq, fun u r hur => hmin _ hur, ?_⟩
  have hg : AMap.get tr k = some q := AMap.get_eq_some_of_mem tr hs k q hq
  simp only [deskewPos, hk, hg]

/-! ### where it falls short -/

/-- In precise mode the linear velocity is not used: each point is rotated by the pose nearest in time and stays at its distance from
the sensor, whatever the `twist` parameter is. -/
theorem deskew_precise_no_translation (e : RotEnv K Q) (he : ∀ q p, (e.poseRot q p).normSq = p.normSq) (he0 : ∀ w p, (e.rot w p).normSq = p.normSq)
    (P : DeskewParams K) (hP : P.precise = true) (source : Option (K → Outcome (AMap K Q))) (ts : List K)
    (vw : P3 K × P3 K) (poses : Option (AMap K Q)) (h : deskewMotion P source ts = .ok (vw, poses)) (p : FPt K) :
    (deskewPos e vw poses p).normSq = p.pos.normSq := by
  have hvw : vw = (0, 0) := by
    unfold deskewMotion at h
    rw [if_pos hP] at h
    split at h
    · cases h
    · split at h
      · rw [Outcome.bind_eq_ok] at h
        obtain ⟨tr, -, h⟩ := h
        simp only [Outcome.ok.injEq, Prod.mk.injEq] at h
        exact h.1.symm
      · cases h
  subst hvw
  have hz : (0 : P3 K).smul p.t = 0 := by ext <;> simp
  have hadd : ∀ a : P3 K, a + 0 = a := by intro a; ext <;> simp
  unfold deskewPos
  simp only [hz, hadd]
  split
  · split
    · split
      · exact he _ _
      · rfl
    · rfl
  · exact he0 _ _

/-- In precise mode without enough data in the velocity buffer, the "constant velocity" fallback does not move the points at all. -/
theorem deskew_precise_fallback_still (e : RotEnv K Q) (he : ∀ p, e.rot 0 p = p) (P : DeskewParams K) (hP : P.precise = true)
    (rec : K → Outcome (AMap K Q)) (hrec : ∀ s, rec s = .ok []) (ts : List K) (hts : ts ≠ []) :
    ∃ vw poses, deskewMotion P (some rec) ts = .ok (vw, poses) ∧ ∀ p, deskewPos e vw poses p = p.pos := by
  have h1 : ∃ lo, ts.foldl optMin none = some lo := by
    rcases ts with _ | ⟨t, ts⟩
    · exact absurd rfl hts
    · have : ∀ (l : List K) a, ∃ b, l.foldl optMin (some a) = some b := by
        intro l; induction l with
        | nil => exact fun a => ⟨a, rfl⟩
        | cons x l ih => intro a; simp only [List.foldl_cons, optMin]; split <;> exact ih _
      exact this ts t
  have h2 : ∃ hi, ts.foldl optMax none = some hi := by
    rcases ts with _ | ⟨t, ts⟩
    · exact absurd rfl hts
    · have : ∀ (l : List K) a, ∃ b, l.foldl optMax (some a) = some b := by
        intro l; induction l with
        | nil => exact fun a => ⟨a, rfl⟩
        | cons x l ih => intro a; simp only [List.foldl_cons, optMax]; split <;> exact ih _
      exact this ts t
  obtain ⟨lo, h1⟩ := h1
  obtain ⟨hi, h2⟩ := h2
  refine ⟨(0, 0), none, by simp [deskewMotion, hP, h1, h2, hrec], fun p => ?_⟩
  exact deskew_zero e he 0 0 p (Or.inl ⟨rfl, rfl⟩)

/-- A missing input layer with the name of the output is not an error: it is created, empty. -/
theorem deskew_missing_input_created (e : RotEnv K Q) (P : DeskewParams K) (source : Option (K → Outcome (AMap K Q)))
    (order : Nat → List Nat) (m : FMap K X) (h : P.inp = P.out) (hout : P.out ≠ "") (hreal : P.realized = true)
    (hm : m.get P.out = none) (c0 : Cloud K) (hc : P.newCloud = some c0) (hc0 : c0.pts = []) :
    filterDeskew e P source order m = .ok (m.set P.out (.pts c0)) := by
  simp [filterDeskew, Outcome.assert, hreal, hout, h, getOrCreatePointLayer, hm, hc, hc0]
end

/-! ### examples -/

/-- a planar "rotation" by swapping, enough to run the model over ℚ: quarter turns about z for ω_z = 1 -/
def exRot : RotEnv ℚ Unit where
  rot w p := if w.z = 1 then ⟨-p.y, p.x, p.z⟩ else p
  poseRot _ p := ⟨-p.y, p.x, p.z⟩
def exDeskMap : FMap ℚ Unit :=
  [("raw", .pts { pts := [⟨1, 2, 3, 7, 4, 0⟩, ⟨1, 2, 3, 8, 5, 1⟩, ⟨0, 0, 0, 9, 6, 1⟩] })]
def exDeskP : DeskewParams ℚ where
  inp := "raw"
  out := "d"
  newCloud := some { pts := [], hasI := true, hasRing := false, hasT := false }
  twist := some (⟨10, 0, 0⟩, ⟨0, 0, 1⟩)
/-- The point at the origin is not moved, although its stamp is that of the second one, and loses its intensity. -/
example : (filterDeskew exRot exDeskP none (fun n => (List.range n).reverse) exDeskMap).Sat fun r =>
    AMap.get r "d" = some (.pts ⟨[⟨1, 2, 3, 7, 0, 0⟩, ⟨8, 1, 3, 8, 0, 0⟩, ⟨0, 0, 0, 0, 0, 0⟩], true, false, false⟩) := by
  decide +kernel

/-- So the clause "each point is moved by the motion at its stamp" is false for points at the origin, and their channels are lost. -/
theorem deskew_origin_finding : ∃ m', filterDeskew exRot exDeskP none List.range exDeskMap = .ok m' ∧
    ∃ co, m'.get "d" = some (.pts co) ∧ co.pts[2]? = some ⟨0, 0, 0, 0, 0, 0⟩ ∧
      deskewPos exRot (⟨10, 0, 0⟩, ⟨0, 0, 1⟩) none (⟨0, 0, 0, 9, 6, 1⟩ : FPt ℚ) = ⟨10, 0, 0⟩ := by
  have : (filterDeskew exRot exDeskP none List.range exDeskMap).Sat fun r =>
      AMap.get r "d" = some (.pts ⟨[⟨1, 2, 3, 7, 0, 0⟩, ⟨8, 1, 3, 8, 0, 0⟩, ⟨0, 0, 0, 0, 0, 0⟩], true, false, false⟩) := by
    decide +kernel
  obtain ⟨m', h1, h2⟩ := Outcome.sat_iff.1 this
  exact ⟨m', h1, _, h2, rfl, by decide +kernel⟩
/-- precise mode: a quarter turn, no translation in spite of the twist -/
example : (filterDeskew exRot { exDeskP with precise := true } (some fun _ => .ok [(0, ())]) List.range exDeskMap).Sat fun r =>
    AMap.get r "d" = some (.pts ⟨[⟨-2, 1, 3, 7, 0, 0⟩, ⟨-2, 1, 3, 8, 0, 0⟩, ⟨0, 0, 0, 0, 0, 0⟩], true, false, false⟩) := by
  decide +kernel
/-- stamps 5, 2, 4: poses are asked for a span of 3 -/
example : IsRange [(5 : ℚ), 2, 4] 2 5 ∧
    ∃ poses, deskewMotion { exDeskP with precise := true } (some fun s => .ok [(s, ())]) [(5 : ℚ), 2, 4] = .ok ((0, 0), poses) ∧
      poses = some [(3, ())] := by
  have h : IsRange [(5 : ℚ), 2, 4] 2 5 := by refine ⟨?_, ?_, ?_⟩ <;> decide +kernel
  obtain ⟨-, h2⟩ := deskew_motion_precise { exDeskP with precise := true } rfl (fun s => .ok [(s, ())]) [(5 : ℚ), 2, 4] 2 5 h
  obtain ⟨poses, h3, h4, -⟩ := h2 _ rfl
  refine ⟨h, poses, h3, (h4 (by simp)).trans ?_⟩
  norm_num

end Props
end Verif
