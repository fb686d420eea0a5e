import Verif.Lemmas.MatchersAdTop
import Verif.Lemmas.MatchersAdExact
import Verif.Lemmas.MatchersBase
import Verif.Lemmas.MatcherRace
import Verif.Props.MatcherSolver
import Mathlib.Algebra.Order.Ring.Rat
/-
Properties C16, C18-C24: the point matchers.
-/
namespace Verif.Props
open Verif Verif.Spec
variable {K : Type} [Field K] [LinearOrder K]
/- any numbers, e.g. those of a machine: no law is assumed -/
variable {N : Type} [LT N] [DecidableLT N] [LE N] [DecidableLE N] [Zero N] [Add N] [Mul N] [One N] [NatCast N]

/-! ### a concrete setting, used in the examples -/

/-- Two local points at x = 0 and x = 1. -/
def exPts : List (P3 Rat) := [⟨0, 0, 0⟩, ⟨1, 0, 0⟩]

/-- A global map with a single point, at x = 1/2: always the nearest. -/
def exGlobal : GLayer Rat :=
  { nnSingle := fun q => some ⟨0, ⟨1/2, 0, 0⟩, (q.x - 1/2) * (q.x - 1/2)⟩
    nnMultiple := fun q k => [⟨0, ⟨1/2, 0, 0⟩, (q.x - 1/2) * (q.x - 1/2)⟩].take k
    nnRadius := fun q r k => if (q.x - 1/2) * (q.x - 1/2) ≤ r then
      [⟨0, ⟨1/2, 0, 0⟩, (q.x - 1/2) * (q.x - 1/2)⟩].take k else []
    nnPlane := fun q _ => some (⟨⟨⟨0, 0, 1⟩, 0⟩, ⟨0, 0, 0⟩⟩, q.z) }

/-- Flags initialised for these maps. -/
def exState : MatchState Rat :=
  { localFlags := [("l", ⟨some [false, false], []⟩)], globalFlags := [("g", ⟨some [false], []⟩)] }

/-- Distance-threshold matcher with default options. -/
def exDT : DTCfg Rat := { eps := 1/100, thr := 1, angDeg := 0, angSq := 0 }

theorem exShuffle : ShuffleOK exDT.toPtsCfg := fun _ => List.Perm.refl _

theorem exFits : FlagsFit exState exGlobal "g" "l" 2 := by
  have hg : Readable exState.globalFlags "g" 0 := by
    refine ⟨⟨some [false], []⟩, by decide, ?_⟩
    rintro v ⟨⟩; decide
  refine ⟨?_, ?_, ?_, ?_⟩
  · intro i hi
    refine ⟨⟨some [false, false], []⟩, by decide, ?_⟩
    rintro v ⟨⟩; exact hi
  · rintro q nb ⟨⟩; exact hg
  · intro q k nb h
    have h := List.mem_of_mem_take h
    simp only [List.mem_singleton] at h; subst h; exact hg
  · intro q r k nb h
    simp only [exGlobal] at h
    split at h
    · have h := List.mem_of_mem_take h
      simp only [List.mem_singleton] at h; subst h; exact hg
    · simp at h

theorem exOverlap (c : PtsCfg Rat) (tf : P3 Rat → P3 Rat) (m : Rat) : Overlap c tf exGlobal exPts m :=
  ⟨rfl, by decide, fun _ _ => rfl⟩

/-! ### C16 -/

/-- C16: the paired ratio of what `run_matchers` returns for any list of point matchers (with at least one pairing
per point in adaptive ones) is in `[0,1]`; zero if nothing could be paired; hard discard iff below the
minimum. -/
theorem pointMatchers_pairedRatio [IsStrictOrderedRing K] {Pose : Type}
    (matchers : List (Matcher K Pose (MatchState K)))
    (iter : Nat) (pose : Pose) (tf : Pose → P3 K → P3 K) (globals : AMap String (GLayer K))
    (locals : AMap String (Option (List (P3 K))))
    (hm : ∀ M ∈ matchers, ∃ m, AccCfg m ∧ M.impl = (m.toMatcher tf globals locals).impl)
    (hb : ∀ gl ∈ globals, SearchBounded gl.2) (ms0 ms1 : MatchState K) (prs : Pairings K)
    (h : runMatchers matchers iter pose ms0 = .ok (ms1, prs)) (minRatio : K) :
    0 ≤ (pairedRatio minRatio prs).1 ∧ (pairedRatio minRatio prs).1 ≤ 1 ∧
    (prs.potential = 0 → (pairedRatio minRatio prs).1 = 0) ∧
    ((pairedRatio minRatio prs).2 = true ↔ (pairedRatio minRatio prs).1 < minRatio) := by
  have hacc := runMatchers_accounting matchers iter pose ms0 ms1 prs (by
    intro M hM ms b ms' out hout
    obtain ⟨m, hcfg, himpl⟩ := hm M hM
    rw [himpl] at hout
    simp only [PtMatcher.toMatcher, Outcome.bind_eq_ok, Outcome.ok.injEq, Prod.mk.injEq] at hout
    obtain ⟨r, hr, _, _, rfl⟩ := hout
    exact Lemmas.pointsMatch_acc m hcfg _ _ globals hb locals ms r hr) h
  obtain ⟨h1, h2, h3, _, h5⟩ := pairedRatio_in_range minRatio prs hacc
  exact ⟨h1, h2, h3, h5⟩

example : AccCfg (.distanceThreshold exDT) := exShuffle

/-! ### C18 -/

/-- C18: run any list of matchers in their one-to-one configuration.  The record made of the pairings is exactly the
list of point-to-point pairings returned; in it no global point and no local point is used twice; and no
point that was already flagged before is used.
Part of C18: false of the adaptive matcher and of the parallel build (`adaptive_reuses_global`, `tbb_matcher_reuses_global`). -/
theorem points_used_once_partial {Pose : Type} (matchers : List (Matcher N Pose (MatchState N))) (iter : Nat)
    (pose : Pose) (tf : Pose → P3 N → P3 N) (globals : AMap String (GLayer N))
    (locals : AMap String (Option (List (P3 N))))
    (hm : ∀ M ∈ matchers, ∃ m, OneToOne m ∧ M.impl = (m.toMatcher tf globals locals).impl)
    (ms0 ms1 : MatchState N) (prs : Pairings N) (h0 : ms0.ghost = [])
    (h : runMatchers matchers iter pose ms0 = .ok (ms1, prs)) :
    ms1.ghost.map (·.2.2) = prs.pt2pt ∧ UsedOnce ms1.ghost ∧
    (∀ t ∈ ms1.ghost, ¬ Flagged ms0.globalFlags t.1 t.2.2.globalIdx ∧
      ¬ Flagged ms0.localFlags t.2.1 t.2.2.localIdx) ∧
    (∀ t ∈ ms1.ghost, Flagged ms1.globalFlags t.1 t.2.2.globalIdx ∧
      Flagged ms1.localFlags t.2.1 t.2.2.localIdx) := by
  obtain ⟨h1, h2⟩ := Lemmas.runMatchersLoop_once matchers iter pose tf globals locals hm ms0 ms0 ms1 {} prs
    ⟨by rw [h0]; exact List.Pairwise.nil, by simp [h0], by simp [h0], by simp [h0], by simp [h0],
      fun _ _ h => h, fun _ _ h => h⟩ (by simp [h0]) h
  exact ⟨h2, h1.once, fun t ht => ⟨h1.gnew t ht, h1.lnew t ht⟩, fun t ht => ⟨h1.gset t ht, h1.lset t ht⟩⟩

/-- Two runs of the default distance-threshold matcher on the example: both local points have the same nearest
global point, which is used once. -/
example : (runMatchers (Pose := Unit)
    [(PtMatcher.distanceThreshold exDT).toMatcher (fun _ p => p) [("g", exGlobal)]
       [("g", some exPts)],
     (PtMatcher.distanceThreshold exDT).toMatcher (fun _ p => p) [("g", exGlobal)]
       [("g", some exPts)]] 0 ()
    { localFlags := [("g", ⟨some [false, false], []⟩)], globalFlags := [("g", ⟨some [false], []⟩)] }).Sat
    fun r => r.2.pt2pt = [⟨0, 0, ⟨1/2, 0, 0⟩, ⟨0, 0, 0⟩, 1/4⟩] ∧ r.2.potential = 4 := by decide +kernel

/-- C18, negative: the adaptive matcher never marks global points, so that with the same default options it pairs a
global point with several local points. -/
theorem adaptive_reuses_global : (adLayer (K := Rat)
    { eps := 1/100, absMax := 2, first2second := 1, minCorr := 1, planeMinDist := 0, planeEigThr := 0,
      ciHigh := fun _ hi _ => hi, eig := fun _ => ⟨⟨0, 0, 0⟩, (0, 0, 0), ⟨0, 0, 0⟩, ⟨0, 0, 0⟩, ⟨0, 0, 0⟩⟩,
      planeDist := fun _ _ => 0, mkPlane := fun _ _ => ⟨⟨0, 0, 0⟩, 0⟩ }
    (fun p => p) exGlobal "g" "l" exPts exState {}).Sat
    fun r => r.2.pt2pt.map (fun p => (p.globalIdx, p.localIdx)) = [(0, 0), (0, 1)] := by decide +kernel

/-- C18, negative (TBB build): if two workers have points whose nearest global point is the same, not yet marked, and
not used earlier in their sub-ranges, there is an interleaving in which both are paired with it. -/
theorem tbb_matcher_reuses_global (s : Race.State) (i j : Nat) (hij : i ≠ j) (g l1 l2 : Nat)
    (pre1 post1 pre2 post2 : List (Nat × Nat))
    (h1 : s.workers[i]? = some ⟨pre1 ++ (l1, g) :: post1, false⟩)
    (h2 : s.workers[j]? = some ⟨pre2 ++ (l2, g) :: post2, false⟩)
    (hp1 : ∀ t ∈ pre1, t.2 ≠ g) (hp2 : ∀ t ∈ pre2, t.2 ≠ g) (hg : g ∉ s.marked) :
    ∃ s', Race.Steps s s' ∧ ∃ pre, s'.pairs = pre ++ [(l1, g), (l2, g)] :=
  Race.both_pair s i j hij g l1 l2 pre1 post1 pre2 post2 h1 h2 hp1 hp2 hg

/-- C18: with one worker (the whole range handled by a single thread) no global point is paired twice, in any
number of steps. -/
theorem serial_matcher_once (tasks : List (Nat × Nat)) (marked : List Nat) (s' : Race.State)
    (h : Race.Steps { marked := marked, workers := [⟨tasks, false⟩] } s') : (s'.pairs.map (·.2)).Nodup :=
  Race.single_worker h ⟨tasks, false⟩ rfl ⟨by simp, by simp, by simp⟩

example : ∃ s', Race.Steps { workers := [⟨[(0, 7)], false⟩, ⟨[(1, 7)], false⟩] } s' ∧
    ∃ pre, s'.pairs = pre ++ [(0, 7), (1, 7)] :=
  tbb_matcher_reuses_global _ 0 1 (by decide) 7 0 1 [] [] [] [] rfl rfl (by simp) (by simp) (by simp)

/-! ### C19 -/

/-- C19: each new pairing is of a local point with a neighbour reported for it, below the limit; at most
`pairingsPerPoint` per local point. -/
theorem dt_pairs_below_limit (c : DTCfg K) (tf : P3 K → P3 K) (g : GLayer K) (gName lName : String)
    (pts : List (P3 K)) (ms : MatchState K) (out : Pairings K) (r : MatchState K × Pairings K)
    (hs : ShuffleOK c.toPtsCfg) (hb : SearchBounded g) (h : dtLayer c tf g gName lName pts ms out = .ok r) :
    ∃ new, AddedPt out r.2 new ∧
      (∀ pr ∈ new, ∃ p nb, pts[pr.localIdx]? = some p ∧ Reported c g (tf p) nb ∧
        IsPairOf pr pr.localIdx p nb ∧ pr.errSq < Limit c (tf p)) ∧
      ∀ l, (new.filter fun pr => decide (pr.localIdx = l)).length ≤ c.ppp := by
  obtain ⟨new, h1, h2, h3, _⟩ := Lemmas.dt_sound hs h
  refine ⟨new, h1, fun pr hpr => ?_, h3 hb⟩
  obtain ⟨p, nb, a, b, c', d⟩ := h2 pr hpr
  exact ⟨p, nb, a, b, c', not_le.mp d⟩

/-- C19, completeness: with re-matching allowed, each reported neighbour below the limit is paired. -/
theorem dt_pairs_complete (c : DTCfg K) (tf : P3 K → P3 K) (g : GLayer K) (gName lName : String)
    (pts : List (P3 K)) (ms : MatchState K) (out : Pairings K) (r : MatchState K × Pairings K)
    (hs : ShuffleOK c.toPtsCfg) (hso : SearchSorted g) (hal : c.allowLocal = true) (hag : c.allowGlobal = true)
    (ho : Overlap c.toPtsCfg tf g pts (c.thr + c.eps)) (h : dtLayer c tf g gName lName pts ms out = .ok r)
    (l : Nat) (p : P3 K) (nb : Nbr K) (hp : pts[l]? = some p) (hrep : Reported c g (tf p) nb)
    (hlt : nb.d2 < Limit c (tf p)) : ∃ pr ∈ r.2.pt2pt, IsPairOf pr l p nb := by
  obtain ⟨new, h1, _, _, h4⟩ := Lemmas.dt_sound hs h
  rcases h4 (fun _ _ _ => le_trans) hso ho l p nb hp hrep (not_le.mpr hlt) with ⟨pr, h5, h6⟩ | ⟨h5, _⟩ | ⟨h5, _⟩
  · exact ⟨pr, by rw [h1]; exact List.mem_append_right _ h5, h6⟩
  · rw [hal] at h5; cases h5
  · rw [hag] at h5; cases h5

/-- C19, completeness with the default options: a reported neighbour below the limit is paired unless the local point
had been matched before, or the global point was already taken (by this or an earlier matcher). -/
theorem dt_pairs_complete_default (c : DTCfg K) (tf : P3 K → P3 K) (g : GLayer K) (gName lName : String)
    (pts : List (P3 K)) (ms : MatchState K) (out : Pairings K) (r : MatchState K × Pairings K)
    (hs : ShuffleOK c.toPtsCfg) (hso : SearchSorted g)
    (ho : Overlap c.toPtsCfg tf g pts (c.thr + c.eps)) (h : dtLayer c tf g gName lName pts ms out = .ok r)
    (l : Nat) (p : P3 K) (nb : Nbr K) (hp : pts[l]? = some p) (hrep : Reported c g (tf p) nb)
    (hlt : nb.d2 < Limit c (tf p)) :
    (∃ pr ∈ r.2.pt2pt, IsPairOf pr l p nb) ∨ Flagged ms.localFlags lName l ∨
      Flagged r.1.globalFlags gName nb.idx := by
  obtain ⟨new, h1, _, _, h4⟩ := Lemmas.dt_sound hs h
  rcases h4 (fun _ _ _ => le_trans) hso ho l p nb hp hrep (not_le.mpr hlt) with ⟨pr, h5, h6⟩ | ⟨_, h5⟩ | ⟨_, h5⟩
  · exact Or.inl ⟨pr, by rw [h1]; exact List.mem_append_right _ h5, h6⟩
  · exact Or.inr (Or.inl h5)
  · exact Or.inr (Or.inr h5)

/-- C19, negative: in the TBB build with several pairings per point only neighbours within the plain distance
threshold are searched for, so that the angular part of the limit is lost. -/
theorem dt_tbb_ignores_angular (c : DTCfg N) (tf : P3 N → P3 N) (g : GLayer N) (gName lName : String)
    (pts : List (P3 N)) (ms : MatchState N) (out : Pairings N) (r : MatchState N × Pairings N)
    (hs : ShuffleOK c.toPtsCfg) (htbb : c.tbb = true) (hppp : c.ppp ≠ 1)
    (hrad : ∀ q ρ k, ∀ nb ∈ g.nnRadius q ρ k, nb.d2 ≤ ρ) (h : dtLayer c tf g gName lName pts ms out = .ok r) :
    ∃ new, AddedPt out r.2 new ∧ ∀ pr ∈ new, pr.errSq ≤ c.thr * c.thr := by
  obtain ⟨new, h1, h2, _, _⟩ := Lemmas.dt_sound hs h
  refine ⟨new, h1, fun pr hpr => ?_⟩
  obtain ⟨p, nb, _, h4, h5, _⟩ := h2 pr hpr
  rw [h5.2.2.2.2]
  rcases h4 with ⟨h, _⟩ | ⟨_, h, _⟩ | ⟨_, _, h⟩
  · exact absurd h hppp
  · rw [htbb] at h; cases h
  · exact hrad _ _ _ _ h

/-- Two neighbours per point, threshold 1/4, angular threshold of 45 degrees, serial build. -/
def exSerial : DTCfg Rat :=
  { eps := 1/100, thr := 1/4, angDeg := 45, angSq := 1, ppp := 2, allowLocal := true, allowGlobal := true }

/-- C19, negative: serial and TBB builds differ on the same input: one makes a pairing, the other none. -/
theorem dt_builds_differ :
    (dtLayer exSerial (fun p => p) exGlobal "g" "l" exPts exState {}).Sat (fun r => r.2.pt2pt.length = 1) ∧
    (dtLayer { exSerial with tbb := true } (fun p => p) exGlobal "g" "l" exPts exState {}).Sat
      (fun r => r.2.pt2pt.length = 0) := by
  constructor <;> decide +kernel

/-- C19, negative: the boxes are compared with the plain threshold as margin; when they do not meet nothing is paired
although the angular part would allow it. -/
theorem dt_far_boxes_nothing (c : DTCfg N) (tf : P3 N → P3 N) (g : GLayer N) (gName lName : String)
    (pts : List (P3 N)) (ms : MatchState N) (out : Pairings N) (r : MatchState N × Pairings N)
    (hbox : ∀ tl, transformLocal c.toPtsCfg tf pts = .ok tl → g.boxesMeet tl.xs (c.thr + c.eps) = false)
    (h : dtLayer c tf g gName lName pts ms out = .ok r) : r.2.pt2pt = out.pt2pt := by
  unfold dtLayer at h
  simp only [Outcome.bind_def, Outcome.bind_eq_ok] at h
  obtain ⟨_, _, _, _, _, _, _, _, h⟩ := h
  rcases Lemmas.layerFrame_ok h with rfl | ⟨tl, htl, _, _, h3, _⟩
  · rfl
  · rw [hbox tl htl] at h3; cases h3

example : SearchBounded exGlobal ∧ SearchSorted exGlobal := by
  refine ⟨⟨fun q k => List.length_take_le _ _, fun q r k => ?_⟩, fun q k => ?_, fun q r k => ?_⟩
  · simp only [exGlobal]; split
    · exact List.length_take_le _ _
    · simp
  · exact List.Pairwise.sublist (List.take_sublist _ _) (by simp)
  · simp only [exGlobal]; split
    · exact List.Pairwise.sublist (List.take_sublist _ _) (by simp)
    · simp

example : (dtLayer exDT (fun p => p) exGlobal "g" "l" exPts exState {}).Sat
    fun r => r.2.pt2pt = [⟨0, 0, ⟨1/2, 0, 0⟩, ⟨0, 0, 0⟩, 1/4⟩] := by decide +kernel

/-! ### C20 -/

/-- C20, negative: with a limit smaller than the cloud, the distance-threshold matcher always runs past the sampled
points: on every valid input on which it gets to the loop it ends in undefined behaviour. -/
theorem dt_limit_out_of_bounds (c : DTCfg N) (tf : P3 N → P3 N) (g : GLayer N) (gName lName : String)
    (pts : List (P3 N)) (ms : MatchState N) (out : Pairings N) (hs : ShuffleOK c.toPtsCfg)
    (hc : 1 ≤ c.ppp ∧ 0 < c.thr ∧ 0 ≤ c.angDeg) (hnn : g.nnCapable = true) (hm : 0 < c.maxLocal)
    (hn : c.maxLocal < pts.length) (ho : Overlap c.toPtsCfg tf g pts (c.thr + c.eps))
    (hf : FlagsFit ms g gName lName pts.length) : dtLayer c tf g gName lName pts ms out = .ub :=
  Lemmas.dt_subset_ub hs hc hnn hm hn ho hf

example : dtLayer (K := Rat) { eps := 1/100, thr := 1, angDeg := 0, angSq := 0, maxLocal := 1 } (fun p => p)
    exGlobal "g" "l" exPts exState {} = .ub :=
  dt_limit_out_of_bounds _ _ _ _ _ _ _ _ (fun _ => List.Perm.refl _) (by decide +kernel) rfl (by decide)
    (by decide) (exOverlap _ _ _) exFits

/-- C20, negative: it never ends normally, whatever the flags. -/
theorem dt_limit_never_ok (c : DTCfg N) (tf : P3 N → P3 N) (g : GLayer N) (gName lName : String)
    (pts : List (P3 N)) (ms : MatchState N) (out : Pairings N) (hs : ShuffleOK c.toPtsCfg)
    (hm : 0 < c.maxLocal) (hn : c.maxLocal < pts.length)
    (ho : Overlap c.toPtsCfg tf g pts (c.thr + c.eps)) (r : MatchState N × Pairings N) :
    dtLayer c tf g gName lName pts ms out ≠ .ok r := Lemmas.dt_subset_not_ok hs hm hn ho r

/-- C20: with flags initialised for the maps, the other matchers are memory-safe with any limit and any shuffle, and
the distance-threshold matcher when the limit is off or not smaller than the cloud.
Partial: the distance-threshold matcher with a limit in force is unsafe (`dt_limit_out_of_bounds`); the adaptive
matcher has a separate theorem (`adaptive_defined_iff`). -/
theorem matcher_memory_safe_partial [IsStrictOrderedRing K] (m : PtMatcher K) (hs : ShuffleOK m.base)
    (tf : P3 K → P3 K) (g : GLayer K) (gName lName : String) (pts : List (P3 K))
    (hm : SafeOptions pts.length m) (ms : MatchState K) (out : Pairings K)
    (hf : FlagsFit ms g gName lName pts.length) : m.layer tf g gName lName pts ms out ≠ .ub :=
  Lemmas.layer_not_ub m hs hm hf

example : (PtMatcher.point2plane (K := Rat) { eps := 1/100, thr := 1, maxLocal := 1 }).layer (fun p => p)
    exGlobal "g" "l" exPts exState {} ≠ .ub :=
  matcher_memory_safe_partial _ (fun _ => List.Perm.refl _) _ _ _ _ _ (by exact trivial) _ _ exFits

/-- C20, negative: the sample is made of the first `maxLocal` points, so that the points after these are never
eligible: no plane pairing is ever made for them. -/
theorem limit_only_first_points (c : PlCfg N) (tf : P3 N → P3 N) (g : GLayer N) (gName lName : String)
    (pts : List (P3 N)) (ms : MatchState N) (out : Pairings N) (r : MatchState N × Pairings N)
    (hs : ShuffleOK c.toPtsCfg) (hm : 0 < c.maxLocal) (h : plLayer c tf g gName lName pts ms out = .ok r) :
    ∃ new, r.2.pt2pl = out.pt2pl ++ new ∧ ∀ b ∈ new, b.ptLocal ∈ pts.take c.maxLocal := by
  obtain ⟨ls, new, h1, _, h3, h4⟩ := Lemmas.pl_result hs h
  refine ⟨new, h1, fun b hb => ?_⟩
  obtain ⟨k, hk, he⟩ := List.mem_iff_getElem.mp hb
  have hk' : k < ls.length := by rw [h4.length_eq]; exact hk
  have hrel := (List.forall₂_iff_get.mp h4).2 k hk' hk
  simp only [List.get_eq_getElem] at hrel
  rw [he] at hrel
  obtain ⟨h5, _⟩ := hrel
  have hsam := h3 _ (List.getElem_mem hk')
  refine List.mem_iff_getElem?.mpr ⟨ls[k], ?_⟩
  rw [List.getElem?_take, if_pos (by rcases hsam.2 with h | h <;> omega)]
  exact h5

/-! ### C21 -/

/-- C21: the output of the inlier-ratio matcher (when the maps overlap) is made of the `round(n * ratio)` candidates
of least error, where the candidates are the sampled, eligible local points with a nearest neighbour, one
candidate each; of these, all are output except those whose global point was already taken. -/
theorem ir_keeps_best (c : IRCfg K) (tf : P3 K → P3 K) (g : GLayer K) (gName lName : String)
    (pts : List (P3 K)) (ms : MatchState K) (out : Pairings K) (r : MatchState K × Pairings K)
    (hs : ShuffleOK c.toPtsCfg) (ho : Overlap c.toPtsCfg tf g pts c.eps)
    (h : irLayer c tf g gName lName pts ms out = .ok r) :
    ∃ cand new, AddedPt out r.2 new ∧
      -- the candidates
      (cand.map (·.localIdx)).Nodup ∧
      (∀ p ∈ cand, Sampled c.toPtsCfg pts.length p.localIdx ∧ ∃ q nb, pts[p.localIdx]? = some q ∧
        g.nnSingle (tf q) = some nb ∧ IsPairOf p p.localIdx q nb ∧ Eligible c.toPtsCfg ms lName p.localIdx) ∧
      (∀ l q nb, Sampled c.toPtsCfg pts.length l → pts[l]? = some q → g.nnSingle (tf q) = some nb →
        (c.allowLocal = true ∨ flagAt ms.localFlags lName l = .ok false) →
        ∃ p ∈ cand, p.localIdx = l ∧ p.globalIdx = nb.idx ∧ p.errSq = nb.d2) ∧
      -- those kept
      new.length ≤ c.round ((cand.length : K) * c.ratio) ∧ List.Sublist new cand ∧
      (∃ best rest, cand = best ++ rest ∧ best.length ≤ c.round ((cand.length : K) * c.ratio) ∧
        (rest ≠ [] → best.length = c.round ((cand.length : K) * c.ratio)) ∧
        (∀ x ∈ best, ∀ y ∈ rest, x.errSq ≤ y.errSq) ∧ (∀ x ∈ new, x ∈ best) ∧
        ∀ x ∈ best, x ∈ new ∨ (c.allowGlobal = false ∧ Flagged r.1.globalFlags gName x.globalIdx)) := by
  obtain ⟨_, h1 | ⟨cand, new, h1, h2, h3, h4, h5, h6, h7, h8, _⟩⟩ := Lemmas.ir_result hs h
  · exact absurd ho h1.2
  · refine ⟨cand, new, h1, h3, h5, h6, ?_, h7.trans (List.take_sublist _ _), _, _,
      (List.take_append_drop _ cand).symm, List.length_take_le _ _, ?_, ?_, fun x hx => h7.subset hx, h8⟩
    · exact le_trans h7.length_le (List.length_take_le _ _)
    · intro hne
      rw [List.length_take]
      have : (cand.drop (c.round ((cand.length : K) * c.ratio))).length ≠ 0 := by
        intro hh; exact hne (List.length_eq_zero_iff.mp hh)
      rw [List.length_drop] at this
      omega
    · intro x hx y hy
      have := h4 (fun _ => True) Lemmas.totalOn_true (fun _ _ => trivial)
      rw [← List.take_append_drop (c.round ((cand.length : K) * c.ratio)) cand, List.pairwise_append] at this
      exact this.2.2 x hx y hy

/-- C21, negative: without candidates (e.g. all local points already matched) the matcher throws instead of returning
no pairings. -/
theorem ir_no_candidates_throws :
    irLayer (K := Rat) { eps := 1/100, ratio := 1/2, round := fun _ => 0 } (fun p => p) exGlobal "g" "l" exPts
      { exState with localFlags := [("l", ⟨some [true, true], []⟩)] } {} = .throw := Outcome.eq_throw_of (by decide +kernel)

example : (irLayer (K := Rat) { eps := 1/100, ratio := 1/2, round := fun _ => 1 } (fun p => p) exGlobal "g" "l"
    exPts exState {}).Sat fun r => r.2.pt2pt = [⟨0, 1, ⟨1/2, 0, 0⟩, ⟨1, 0, 0⟩, 1/4⟩] := by decide +kernel

/-! ### C22 -/

/-- C22, planes: each new pairing belongs to a different local point and its plane was reported for that point at a
distance within the threshold. -/
theorem p2pl_within_threshold (c : PlCfg K) (tf : P3 K → P3 K) (g : GLayer K) (gName lName : String)
    (pts : List (P3 K)) (ms : MatchState K) (out : Pairings K) (r : MatchState K × Pairings K)
    (hs : ShuffleOK c.toPtsCfg) (h : plLayer c tf g gName lName pts ms out = .ok r) :
    ∃ ls new, r.2.pt2pl = out.pt2pl ++ new ∧ ls.Nodup ∧
      List.Forall₂ (fun (l : Nat) b => pts[l]? = some b.ptLocal ∧
        ∃ d, g.nnPlane (tf b.ptLocal) c.thr = some (b.plGlobal, d) ∧ d ≤ c.thr) ls new := by
  obtain ⟨ls, new, h1, h2, _, h4⟩ := Lemmas.pl_result hs h
  refine ⟨ls, new, h1, h2, h4.imp ?_⟩
  rintro l b ⟨a, d, e, hd⟩
  exact ⟨a, d, e, not_lt.mp hd⟩

/-- C22, planes, completeness: each sampled point, not matched before, for which a plane within the threshold is
reported is paired with it. -/
theorem p2pl_complete (c : PlCfg K) (tf : P3 K → P3 K) (g : GLayer K) (gName lName : String)
    (pts : List (P3 K)) (ms : MatchState K) (out : Pairings K) (r : MatchState K × Pairings K)
    (hs : ShuffleOK c.toPtsCfg) (hf : FlagsFit ms g gName lName pts.length)
    (ho : Overlap c.toPtsCfg tf g pts (c.thr + c.eps)) (h : plLayer c tf g gName lName pts ms out = .ok r)
    (l : Nat) (p : P3 K) (pl : PlanePatch K) (d : K)
    (hsam : Sampled c.toPtsCfg pts.length l) (hp : pts[l]? = some p) (hel : Eligible c.toPtsCfg ms lName l)
    (hpl : g.nnPlane (tf p) c.thr = some (pl, d)) (hd : d ≤ c.thr) :
    (⟨pl, p⟩ : PtPlPair K) ∈ r.2.pt2pl := Lemmas.pl_complete hs hf ho h l p pl d hsam hp hel hpl (not_lt.mpr hd)

example : (plLayer (K := Rat) { eps := 1/100, thr := 1 } (fun p => p) exGlobal "g" "l" exPts exState {}).Sat
    fun r => r.2.pt2pl.map (·.ptLocal) = exPts := by decide +kernel

/-- C22, lines: at most one pairing per local point, and the line is the one fitted to *all* the neighbours reported,
of which at least `minimumLinePoints` pass the distance filter.
Partial: the property asks for a fit to the neighbours within the threshold only, which is false
(`p2ln_fits_far_points`). -/
theorem p2ln_fit_partial (c : LnCfg N) (tf : P3 N → P3 N) (g : GLayer N) (gName lName : String)
    (pts : List (P3 N)) (ms : MatchState N) (out : Pairings N) (r : MatchState N × Pairings N)
    (hs : ShuffleOK c.toPtsCfg) (h : lnLayer c tf g gName lName pts ms out = .ok r) :
    ∃ ls new, r.2.pt2ln = out.pt2ln ++ new ∧ ls.Nodup ∧
      List.Forall₂ (fun (l : Nat) b => pts[l]? = some b.ptLocal ∧
        b.lnGlobal = ⟨(c.eig ((g.nnMultiple (tf b.ptLocal) c.knn).map (·.pt))).mean,
          c.unit (c.eig ((g.nnMultiple (tf b.ptLocal) c.knn).map (·.pt))).vecs.2.2⟩ ∧
        c.minPts ≤ lnCut (c.thr * c.thr) ((g.nnMultiple (tf b.ptLocal) c.knn).map (·.d2)) ∧
        3 ≤ (g.nnMultiple (tf b.ptLocal) c.knn).length) ls new := by
  obtain ⟨ls, new, h1, h2, _, h4⟩ := Lemmas.ln_result hs h
  refine ⟨ls, new, h1, h2, h4.imp ?_⟩
  rintro l b ⟨p, h5, h6, h7, h8, h9⟩
  subst h6
  exact ⟨h5, h7, h8, h9⟩

/-- A map reporting two points near the origin and one far away. -/
def exFarGlobal : GLayer Rat :=
  { nnMultiple := fun _ k =>
      [⟨0, ⟨1, 0, 0⟩, 1⟩, ⟨1, ⟨2, 0, 0⟩, 4⟩, ⟨2, ⟨30, 0, 0⟩, 900⟩].take k }

/-- A line matcher with threshold 2 and at least two points per line. The stand-in for the eigen-analysis averages the
`x` coordinates and reports the `x` axis as main direction. -/
def exLine : LnCfg Rat :=
  { eps := 1/100, thr := 2, knn := 3, eigThr := 1, minPts := 2, unit := fun v => v,
    eig := fun ps => ⟨⟨(ps.map (·.x)).sum / ps.length, 0, 0⟩, (0, 0, 1), ⟨0, 1, 0⟩, ⟨0, 0, 1⟩, ⟨1, 0, 0⟩⟩ }

/-- C22, negative: with threshold 2 the third point (at distance 30) takes part in the fit: the mean of the points is 11,
not 3/2. -/
theorem p2ln_fits_far_points :
    (lnLayer exLine (fun p => p) exFarGlobal "g" "l" [⟨0, 0, 0⟩]
      { localFlags := [("l", ⟨some [false], []⟩)] } {}).Sat
      fun r => r.2.pt2ln = [⟨⟨⟨11, 0, 0⟩, ⟨1, 0, 0⟩⟩, ⟨0, 0, 0⟩⟩] := by decide +kernel

/-- C22, negative: `minimumLinePoints = 2` does not work with two neighbours: the fit throws. -/
theorem p2ln_two_points_throws :
    lnLayer { exLine with knn := 2 } (fun p => p) exFarGlobal "g" "l" [⟨0, 0, 0⟩]
      { localFlags := [("l", ⟨some [false], []⟩)] } {} = .throw := Outcome.eq_throw_of (by decide +kernel)

/-! ### C23 -/

/-- C23: the output of the adaptive matcher, local point by local point.
Part of C23: not well defined if no neighbour is found (`adaptive_nothing_found_ub`). -/
theorem adaptive_limits_partial (c : AdCfg K) (tf : P3 K → P3 K) (g : GLayer K) (gName lName : String)
    (pts : List (P3 K)) (ms : MatchState K) (out : Pairings K) (r : MatchState K × Pairings K)
    (hs : ShuffleOK c.toPtsCfg) (hf : FlagsFit ms g gName lName pts.length)
    (h : adLayer c tf g gName lName pts ms out = .ok r) :
    ∃ lim, ∃ parts : List (List (PtPair K) × List (PtPlPair K)),
      c.minCorr * c.minCorr ≤ lim ∧ parts.length ≤ pts.length ∧
      r.2.pt2pt = out.pt2pt ++ (parts.map (·.1)).flatten ∧
      r.2.pt2pl = out.pt2pl ++ (parts.map (·.2)).flatten ∧
      ∀ (l : Nat) (ch : List (PtPair K) × List (PtPlPair K)), parts[l]? = some ch →
        AdaptivePart c tf g pts lim l ch.1 ch.2 := by
  obtain ⟨lim, parts, h1, h2, h3, h4, h5⟩ := Lemmas.ad_result hs hf h
  refine ⟨lim, parts, ?_, h2, h3, h4, fun l ch hch => ?_⟩
  · rcases h1 with h1 | h1
    · exact h1.ge
    · exact h1.le
  · obtain ⟨k, e, ra⟩ := h5 l ch hch
    simp only [not_lt, not_le] at e ra
    exact ⟨k, e, ra⟩

/-- C23: the output of the adaptive matcher exactly, and its limit: the larger of the square of `minimumCorrDist` and the upper confidence
limit of the errors of the two first candidates of all points, the histogram spanning the least to the greatest error of the two nearest
reported neighbours.  If a map is empty or the boxes do not meet, nothing is paired. -/
theorem adaptive_exact (c : AdCfg K) (tf : P3 K → P3 K) (g : GLayer K) (gName lName : String)
    (pts : List (P3 K)) (ms : MatchState K) (out : Pairings K) (r : MatchState K × Pairings K)
    (hs : ShuffleOK c.toPtsCfg) (hf : FlagsFit ms g gName lName pts.length)
    (h : adLayer c tf g gName lName pts ms out = .ok r) :
    r.1.globalFlags = ms.globalFlags ∧
    (Overlap c.toPtsCfg tf g pts c.eps →
      ∃ near lo hi, ∃ parts : List (List (PtPair K) × List (PtPlPair K)),
        AdNears c tf g ms lName pts near ∧ Spans (AdErr c tf g ms lName pts) lo hi ∧
        AdParts c ms gName pts (max (c.minCorr * c.minCorr) (c.ciHigh lo hi (AdErrors near))) near parts ∧
        r.2.pt2pt = out.pt2pt ++ (parts.map (·.1)).flatten ∧ r.2.pt2pl = out.pt2pl ++ (parts.map (·.2)).flatten) ∧
    (¬ Overlap c.toPtsCfg tf g pts c.eps → r.2.pt2pt = out.pt2pt ∧ r.2.pt2pl = out.pt2pl) := by
  by_cases ho : Overlap c.toPtsCfg tf g pts c.eps
  · obtain ⟨h0, near, lo, hi, parts, h1, h2, h3, h4⟩ := Lemmas.ad_exact hs hf ho h
    have hm : ∀ a b : K, stdMax a b = max a b := fun a b => by
      unfold stdMax; split
      · rename_i hh; exact (max_eq_right hh.le).symm
      · rename_i hh; exact (max_eq_left (not_lt.mp hh)).symm
    rw [hm] at h3
    exact ⟨h0, fun _ => ⟨near, lo, hi, parts, h1, h2 _ Lemmas.totalOn_true (fun _ _ _ _ => trivial), h3, h4⟩, fun h => (h ho).elim⟩
  · obtain ⟨h0, h1⟩ := Lemmas.ad_apart ho h
    exact ⟨h0, fun h => (ho h).elim, fun _ => h1⟩

/-- C23: once the maps overlap, the adaptive matcher is undefined exactly when no neighbour is found, and ends normally
otherwise.  (So the property's "well defined on any input" is false.) -/
theorem adaptive_defined_iff (c : AdCfg N) (tf : P3 N → P3 N) (g : GLayer N) (gName lName : String)
    (pts : List (P3 N)) (ms : MatchState N) (out : Pairings N) (hs : ShuffleOK c.toPtsCfg)
    (hf : FlagsFit ms g gName lName pts.length) (hnn : g.nnCapable = true)
    (ho : Overlap c.toPtsCfg tf g pts c.eps) (h3 : 3 ≤ c.planeMinFound) :
    (NothingFound c tf g ms lName pts → adLayer c tf g gName lName pts ms out = .ub) ∧
    (¬ NothingFound c tf g ms lName pts → ∃ r, adLayer c tf g gName lName pts ms out = .ok r) :=
  Lemmas.ad_ub_iff hs hf hnn ho h3

/-- Options for the examples. -/
def exAd (absMax : Rat) : AdCfg Rat :=
  { eps := 1/100, absMax := absMax, first2second := 1, minCorr := 1, planeMinDist := 0, planeEigThr := 0,
    ciHigh := fun _ hi _ => hi, eig := fun _ => ⟨⟨0, 0, 0⟩, (0, 0, 0), ⟨0, 0, 0⟩, ⟨0, 0, 0⟩, ⟨0, 0, 0⟩⟩,
    planeDist := fun _ _ => 0, mkPlane := fun _ _ => ⟨⟨0, 0, 0⟩, 0⟩ }

/-- C23, negative: with the maximum distance below that of all neighbours (all local points too far from the map, boxes
touching), undefined behaviour. -/
theorem adaptive_nothing_found_ub : adLayer (exAd (1/4)) (fun p => p) exGlobal "g" "l" exPts exState {} = .ub := by
  refine (adaptive_defined_iff (exAd (1/4)) (fun p => p) exGlobal "g" "l" exPts exState {}
    (fun _ => List.Perm.refl _) exFits rfl (exOverlap _ _ _) (by decide)).1 ?_
  intro l p _ hp _ nb hnb
  have hp : p = ⟨0, 0, 0⟩ ∨ p = ⟨1, 0, 0⟩ := by
    have := List.mem_of_getElem? hp
    simpa [exPts] using this
  have hnb := List.mem_of_mem_take hnb
  rcases hp with rfl | rfl <;>
    (simp [AdReported, exAd, exGlobal] at hnb; subst hnb; norm_num [exAd])

example : (adLayer (exAd 2) (fun p => p) exGlobal "g" "l" exPts exState {}).Sat
    fun r => r.2.pt2pt.length = 2 := by decide +kernel

/-- Points at squared distances 1/4 and 25/4 from the only global point: with the upper end of the range as limit, only the near one is
paired (the limit is not included). -/
example : (adLayer { exAd 3 with minCorr := 1/2 } (fun p => p) exGlobal "g" "l" [⟨0, 0, 0⟩, ⟨3, 0, 0⟩] exState {}).Sat
    fun r => r.2.pt2pt.map (·.errSq) = [1/4] := by decide +kernel

/-- C23, negative: the distance of the local point to the detected plane is computed from the local point *not*
transformed by the pose: here the transformed point is on the plane z = 0 (all global points are) but the
untransformed one is at distance 5, and no plane pairing is made. -/
theorem adaptive_plane_untransformed :
    (adLayer (K := Rat)
      { eps := 1/100, absMax := 10, first2second := 1, minCorr := 10, detectPlanes := true, planeMinDist := 1,
        planeSearch := 4, planeEigThr := 1/2, ciHigh := fun _ hi _ => hi,
        eig := fun _ => ⟨⟨0, 0, 0⟩, (0, 1, 1), ⟨0, 0, 1⟩, ⟨1, 0, 0⟩, ⟨0, 1, 0⟩⟩,
        planeDist := fun _ p => |p.z|, mkPlane := fun _ n => ⟨n, 0⟩ }
      (fun p => ⟨p.x, p.y, p.z - 5⟩)
      { nnRadius := fun _ _ _ => [⟨0, ⟨1, 0, 0⟩, 1⟩, ⟨1, ⟨0, 1, 0⟩, 1⟩, ⟨2, ⟨-1, 0, 0⟩, 1⟩, ⟨3, ⟨0, -1, 0⟩, 1⟩] }
      "g" "l" [⟨0, 0, 5⟩]
      { localFlags := [("l", ⟨some [false], []⟩)], globalFlags := [("g", ⟨some [false, false, false, false], []⟩)] }
      {}).Sat fun r => r.2.pt2pl.length = 0 ∧ r.2.pt2pt.length = 1 := by decide +kernel

/-! ### C24 -/

/-- C24: if the matcher ends normally then (1) each listed local layer exists; (2) the layer function was called exactly
once for each wanted pair of layers present in both maps; (3) the pairings are those of the calls, and (4)
the recorded weights are the blocks (number of pairings, weight) of the weighted calls that made
pairings, in order. -/
theorem layers_matched_exactly (m : PtMatcher N) (tf : P3 N → P3 N) (weights : AMap String (AMap String N))
    (globals : AMap String (GLayer N)) (locals : AMap String (Option (List (P3 N)))) (ms : MatchState N)
    (r : MatchState N × Pairings N) (hg : globals.Sorted)
    (hw : ∀ gn ls, weights.get gn = some ls → ls.Sorted)
    (h : pointsMatch (m.layer tf) weights globals locals ms = .ok r) :
    (∀ gn ln, (globals.get gn).isSome → (ListedWeight weights gn ln).isSome → (locals.get ln).isSome) ∧
    ∃ calls, LayerCalls (m.layer tf) (ms, {}) calls r ∧
      (calls.map fun c => (c.gName, c.lName)).Nodup ∧
      (∀ gn ln, (gn, ln) ∈ calls.map (fun c => (c.gName, c.lName)) ↔
        (globals.get gn).isSome ∧ Wanted weights gn ln ∧ (locals.get ln).isSome) ∧
      (∀ c ∈ calls, globals.get c.gName = some c.g ∧ locals.get c.lName = some (some c.pts) ∧
        c.w = ListedWeight weights c.gName c.lName) ∧
      r.2.pt2pt.length = (calls.map (·.n)).sum ∧
      r.2.pointWeights = (calls.map LayerCall.block).flatten :=
  Lemmas.layers_exact m tf weights globals locals ms r hg hw h

/-- C24: listing a local layer that does not exist is an error. -/
theorem missing_layer_error (m : PtMatcher N) (tf : P3 N → P3 N) (weights : AMap String (AMap String N))
    (globals : AMap String (GLayer N)) (locals : AMap String (Option (List (P3 N)))) (ms : MatchState N)
    (hg : globals.Sorted) (hw : ∀ gn ls, weights.get gn = some ls → ls.Sorted) (gn ln : String)
    (h1 : (globals.get gn).isSome) (h2 : (ListedWeight weights gn ln).isSome) (h3 : locals.get ln = none)
    (r : MatchState N × Pairings N) : pointsMatch (m.layer tf) weights globals locals ms ≠ .ok r := by
  intro h
  have := (layers_matched_exactly m tf weights globals locals ms r hg hw h).1 gn ln h1 h2
  rw [h3] at this; cases this

/-- C24: weights are fully covered when a table is given: their counts add up to the number of pairings. -/
theorem weights_cover_pairings (m : PtMatcher N) (tf : P3 N → P3 N) (weights : AMap String (AMap String N))
    (globals : AMap String (GLayer N)) (locals : AMap String (Option (List (P3 N)))) (ms : MatchState N)
    (r : MatchState N × Pairings N) (hg : globals.Sorted)
    (hw : ∀ gn ls, weights.get gn = some ls → ls.Sorted) (hne : weights ≠ [])
    (h : pointsMatch (m.layer tf) weights globals locals ms = .ok r) :
    (r.2.pointWeights.map (·.1)).sum = r.2.pt2pt.length ∧ ∀ b ∈ r.2.pointWeights, b.1 ≠ 0 := by
  obtain ⟨_, calls, h1, h2, h3, h4, h5, h6⟩ := layers_matched_exactly m tf weights globals locals ms r hg hw h
  have hsome : ∀ c ∈ calls, c.w.isSome := by
    intro c hc
    obtain ⟨_, _, h7⟩ := h4 c hc
    have := ((h3 c.gName c.lName).mp (List.mem_map.mpr ⟨c, hc, rfl⟩)).2.1
    rcases this with ⟨h, _⟩ | ⟨ls, h8, h9⟩
    · exact absurd h hne
    · rw [h7]; simp [ListedWeight, h8, h9]
  rw [h6, h5]
  clear h1 h2 h3 h4 h5 h6
  induction calls with
  | nil => simp
  | cons c cs ih =>
    obtain ⟨ih1, ih2⟩ := ih fun c hc => hsome c (List.mem_cons_of_mem _ hc)
    obtain ⟨w, hcw⟩ := Option.isSome_iff_exists.mp (hsome c List.mem_cons_self)
    have hb : c.block = if c.n = 0 then [] else [(c.n, w)] := by simp [LayerCall.block, hcw]
    by_cases hn : c.n = 0
    · simp only [List.map_cons, List.flatten_cons, hb, hn, if_pos, List.nil_append, List.sum_cons, Nat.zero_add]
      exact ⟨ih1, ih2⟩
    · simp only [List.map_cons, List.flatten_cons, hb, if_neg hn, List.cons_append, List.nil_append, List.sum_cons]
      refine ⟨by rw [ih1], ?_⟩
      intro b hb
      rcases List.mem_cons.mp hb with rfl | hb
      · exact hn
      · exact ih2 b hb

omit [Field K] [LinearOrder K] in
/-- C24: the weights table built from the configuration: the last entry given for a pair of layers holds, with
weight 1 when none is given. -/
theorem weights_table (one : K) (es : List (LayerMatch K)) (g l : String) :
    ListedWeight (initWeights one es) g l =
      ((es.reverse.find? fun e => decide (e.global = g ∧ e.local = l)).map fun e => e.weight.getD one) :=
  Lemmas.initWeights_get one es g l

/-- The two layers "a" and "b" matched with weights 3 and 5; the second one makes no pairing. -/
example : (pointsMatch ((PtMatcher.distanceThreshold exDT).layer (fun p => p))
    (initWeights 1 [⟨"a", "l", some 3⟩, ⟨"b", "l", some 5⟩]) [("a", exGlobal), ("b", { exGlobal with isEmpty := true })]
    [("l", some exPts)]
    { localFlags := [("l", ⟨some [false, false], []⟩)], globalFlags := [("a", ⟨some [false], []⟩)] }).Sat
    fun r => r.2.pointWeights = [(1, 3)] ∧ r.2.pt2pt.length = 1 := by decide +kernel

end Verif.Props
