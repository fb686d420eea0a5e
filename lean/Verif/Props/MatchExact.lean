import Verif.Lemmas.MatchersExact
import Verif.Props.Matchers
/-
What the point matchers output, exactly, and which flags they set (C18, C19, C21, C22).  Any number type.
-/
namespace Verif.Props
open Verif Verif.Spec
variable {N : Type} [LT N] [DecidableLT N] [LE N] [DecidableLE N] [Zero N] [Add N] [Mul N] [One N] [NatCast N]

/-- C19 (C18): the output of the distance-threshold matcher (when the maps overlap), exactly: going through the local points in
order, each eligible one wishes a pairing with each reported neighbour before the first at or beyond the limit, and wishes are
granted first come first served (all of them, if global points may be matched again).  Nothing else is added, and
`pairingsPerPoint` potential pairings are counted per point.  The flags gain the points of the pairings made, and no other;
if global points may be matched again no flag is set at all. -/
theorem dt_exact (c : DTCfg N) (tf : P3 N → P3 N) (g : GLayer N) (gName lName : String)
    (pts : List (P3 N)) (ms : MatchState N) (out : Pairings N) (r : MatchState N × Pairings N)
    (hs : ShuffleOK c.toPtsCfg) (ho : Overlap c.toPtsCfg tf g pts (c.thr + c.eps))
    (h : dtLayer c tf g gName lName pts ms out = .ok r) :
    ∃ new, new = Granted c.allowGlobal (Flagged ms.globalFlags gName) (DtWished c tf g ms lName pts) ∧
      r.2 = { out with potential := out.potential + pts.length * c.ppp, pt2pt := out.pt2pt ++ new } ∧
      FlagsGained ms.globalFlags r.1.globalFlags gName
        (fun i => c.allowGlobal = false ∧ ∃ p ∈ new, p.globalIdx = i) ∧
      FlagsGained ms.localFlags r.1.localFlags lName
        (fun i => c.allowGlobal = false ∧ ∃ p ∈ new, p.localIdx = i) := by
  obtain ⟨h1, h2, h3⟩ := Lemmas.dt_exact_ok hs ho h
  refine ⟨_, rfl, h1, ?_, ?_⟩
  · intro l i; simpa using h2 l i
  · intro l i; simpa using h3 l i

/-- C18, negative: if global points may be matched again the distance-threshold matcher does not remember the local points
either: running it a second time, with already matched *local* points not allowed, makes all its pairings again. -/
theorem dt_local_forgotten (c : DTCfg N) (tf : P3 N → P3 N) (g : GLayer N) (gName lName : String)
    (pts : List (P3 N)) (ms : MatchState N) (out : Pairings N) (r r2 : MatchState N × Pairings N)
    (hs : ShuffleOK c.toPtsCfg) (ho : Overlap c.toPtsCfg tf g pts (c.thr + c.eps))
    (hg : c.allowGlobal = true) (h : dtLayer c tf g gName lName pts ms out = .ok r)
    (h2 : dtLayer c tf g gName lName pts r.1 r.2 = .ok r2) :
    ∃ new, r.2.pt2pt = out.pt2pt ++ new ∧ r2.2.pt2pt = out.pt2pt ++ new ++ new := by
  obtain ⟨new, e1, e2, _, e4⟩ := dt_exact c tf g gName lName pts ms out r hs ho h
  obtain ⟨new2, f1, f2, _, _⟩ := dt_exact c tf g gName lName pts r.1 r.2 r2 hs ho h2
  have hfl : ∀ l, Flagged r.1.localFlags lName l ↔ Flagged ms.localFlags lName l := by
    intro l; rw [e4 lName l]; simp [hg]
  have hw : DtWished c tf g r.1 lName pts = DtWished c tf g ms lName pts := by
    unfold DtWished
    congr 1
    funext l
    exact Lemmas.dtWishAt_congr (hfl l)
  have hnew : new2 = new := by rw [e1, f1, hw]; simp [Granted, hg]
  refine ⟨new, by rw [e2], ?_⟩
  rw [f2, hnew, e2]

/-- Already matched local points not allowed, global ones allowed. -/
def exForget : DTCfg Rat := { eps := 1/100, thr := 1, angDeg := 0, angSq := 0, allowGlobal := true }

example : exForget.allowLocal = false ∧
    (dtLayer exForget (fun p => p) exGlobal "g" "l" exPts exState {}).Sat fun r =>
      r.2.pt2pt.length = 2 ∧
      (dtLayer exForget (fun p => p) exGlobal "g" "l" exPts r.1 r.2).Sat fun r2 => r2.2.pt2pt.length = 4 := by
  decide +kernel

/-- C21 (C18): the output of the inlier-ratio matcher (when the maps overlap), exactly: the candidates, one for each sampled
eligible local point with a nearest neighbour, are ordered by error; of the first `round(n * ratio)` those are output which are
granted first come first served; the flags gain the points of these pairings, and no other. -/
theorem ir_exact (c : IRCfg N) (tf : P3 N → P3 N) (g : GLayer N) (gName lName : String)
    (pts : List (P3 N)) (ms : MatchState N) (out : Pairings N) (r : MatchState N × Pairings N)
    (hs : ShuffleOK c.toPtsCfg) (ho : Overlap c.toPtsCfg tf g pts c.eps)
    (h : irLayer c tf g gName lName pts ms out = .ok r) :
    ∃ best rest new,
      -- the candidates
      ((best ++ rest).map (·.localIdx)).Nodup ∧
      (∀ p ∈ best ++ rest, Sampled c.toPtsCfg pts.length p.localIdx ∧ ∃ q nb, pts[p.localIdx]? = some q ∧
        g.nnSingle (tf q) = some nb ∧ IsPairOf p p.localIdx q nb ∧ Eligible c.toPtsCfg ms lName p.localIdx) ∧
      (∀ l q nb, Sampled c.toPtsCfg pts.length l → pts[l]? = some q → g.nnSingle (tf q) = some nb →
        (c.allowLocal = true ∨ flagAt ms.localFlags lName l = .ok false) →
        ∃ p ∈ best ++ rest, p.localIdx = l) ∧
      -- in order of error, if errors can be compared
      (∀ S : N → Prop, TotalOn S → (∀ p ∈ best ++ rest, S p.errSq) →
        (best ++ rest).Pairwise fun a b => a.errSq ≤ b.errSq) ∧
      -- those output
      best.length = c.round (((best ++ rest).length : N) * c.ratio) ∧
      new = Granted c.allowGlobal (Flagged ms.globalFlags gName) best ∧
      r.2 = { out with potential := out.potential + pts.length, pt2pt := out.pt2pt ++ new } ∧
      FlagsGained ms.globalFlags r.1.globalFlags gName (fun i => ∃ p ∈ new, p.globalIdx = i) ∧
      FlagsGained ms.localFlags r.1.localFlags lName (fun i => ∃ p ∈ new, p.localIdx = i) := by
  obtain ⟨_, h1 | ⟨cand, new, h1, h2, h3, h4, h5, h6, h7, h8, h9, h10⟩⟩ := Lemmas.ir_result hs h
  · exact absurd ho h1.2
  · obtain ⟨k1, k2, k3⟩ := h10
    refine ⟨cand.take (c.round ((cand.length : N) * c.ratio)), cand.drop (c.round ((cand.length : N) * c.ratio)),
      Granted c.allowGlobal (Flagged ms.globalFlags gName) (cand.take (c.round ((cand.length : N) * c.ratio))), ?_⟩
    rw [List.take_append_drop]
    refine ⟨h3, h5, ?_, h4, ?_, rfl, k1, ?_, ?_⟩
    · intro l q nb a1 a2 a3 a4
      obtain ⟨p, hp, hl, _⟩ := h6 l q nb a1 a2 a3 a4
      exact ⟨p, hp, hl⟩
    · rw [List.length_take]; omega
    · intro l i; simpa using k2 l i
    · intro l i; simpa using k3 l i

/-- C22: the output of the plane matcher (when the maps overlap), exactly: for each sampled, eligible local point, in the order
of visit, the pairing with the nearest plane if it is not farther than the threshold.  The local flags gain these points, the
global flags are untouched. -/
theorem p2pl_exact (c : PlCfg N) (tf : P3 N → P3 N) (g : GLayer N) (gName lName : String)
    (pts : List (P3 N)) (ms : MatchState N) (out : Pairings N) (r : MatchState N × Pairings N)
    (hs : ShuffleOK c.toPtsCfg) (ho : Overlap c.toPtsCfg tf g pts (c.thr + c.eps))
    (h : plLayer c tf g gName lName pts ms out = .ok r) :
    ∃ order, VisitOrder c.toPtsCfg pts.length order ∧
      r.2.pt2pl = out.pt2pl ++ DuePerPoint c.toPtsCfg ms lName pts (DuePlane c tf g) order ∧
      FlagsGained ms.localFlags r.1.localFlags lName
        (fun j => j ∈ order ∧ DueAt c.toPtsCfg ms lName pts (DuePlane c tf g) j) ∧
      r.1.globalFlags = ms.globalFlags := Lemmas.pl_exact hs ho h

/-- C22: the output of the line matcher (when the maps overlap), exactly.
Partial: the line due for a point is fitted to *all* the neighbours reported, also those beyond the threshold
(`p2ln_fits_far_points`). -/
theorem p2ln_exact_partial (c : LnCfg N) (tf : P3 N → P3 N) (g : GLayer N) (gName lName : String)
    (pts : List (P3 N)) (ms : MatchState N) (out : Pairings N) (r : MatchState N × Pairings N)
    (hs : ShuffleOK c.toPtsCfg) (ho : Overlap c.toPtsCfg tf g pts (c.thr + c.eps))
    (h : lnLayer c tf g gName lName pts ms out = .ok r) :
    ∃ order, VisitOrder c.toPtsCfg pts.length order ∧
      r.2.pt2ln = out.pt2ln ++ DuePerPoint c.toPtsCfg ms lName pts (DueLine c tf g) order ∧
      FlagsGained ms.localFlags r.1.localFlags lName
        (fun j => j ∈ order ∧ DueAt c.toPtsCfg ms lName pts (DueLine c tf g) j) ∧
      r.1.globalFlags = ms.globalFlags := Lemmas.ln_exact hs ho h

/-- C23 (C18): the local flags set by the adaptive matcher are those of the points given a plane pairing and, unless global points
may be matched again, of those given point pairings; no other. -/
theorem adaptive_flags (c : AdCfg N) (tf : P3 N → P3 N) (g : GLayer N) (gName lName : String)
    (pts : List (P3 N)) (ms : MatchState N) (out : Pairings N) (r : MatchState N × Pairings N)
    (h : adLayer c tf g gName lName pts ms out = .ok r) :
    ∃ newPt ls newPl, r.2.pt2pt = out.pt2pt ++ newPt ∧ r.2.pt2pl = out.pt2pl ++ newPl ∧
      List.Forall₂ (fun (l : Nat) (b : PtPlPair N) => pts[l]? = some b.ptLocal) ls newPl ∧
      FlagsGained ms.localFlags r.1.localFlags lName
        (fun i => (c.allowGlobal = false ∧ ∃ p ∈ newPt, p.localIdx = i) ∨ i ∈ ls) := Lemmas.ad_gain h

example : Overlap exLine.toPtsCfg (fun p => p) exFarGlobal [⟨0, 0, 0⟩] (exLine.thr + exLine.eps) := by
  exact ⟨rfl, by simp, fun _ _ => rfl⟩

/-- Three wishes, two of them for global point 0: the first is granted. -/
def exWishes : List (PtPair Rat) :=
  [⟨0, 0, ⟨1, 0, 0⟩, ⟨0, 0, 0⟩, 1⟩, ⟨0, 1, ⟨1, 0, 0⟩, ⟨1, 0, 0⟩, 0⟩, ⟨2, 1, ⟨1, 1, 0⟩, ⟨1, 0, 0⟩, 1⟩]

example : (firstCome (fun _ => False) exWishes).map (·.localIdx) = [0, 1] ∧
    (firstCome (fun i => i = 0) exWishes).map (·.localIdx) = [1] := by
  simp [firstCome, exWishes]

end Verif.Props
