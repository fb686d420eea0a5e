import Verif.Spec.FrameFree
import Verif.Lemmas.EndToEnd
import Mathlib.Algebra.BigOperators.Group.List.Basic
/-
Lemmas for C109.
-/
namespace Verif.Lemmas
open Verif Verif.Spec
set_option linter.unusedSectionVars false
variable {K : Type} [Field K] [LinearOrder K] [IsStrictOrderedRing K]

theorem compose_composePoint (G T : Pose3 K) (x : P3 K) : (G.compose T).composePoint x = G.composePoint (T.composePoint x) := by
  ext <;> simp only [Pose3.compose, Pose3.composePoint, M3.mul, M3.mulVec, P3.add_x, P3.add_y, P3.add_z] <;> ring

theorem composePoint_sub (G : Pose3 K) (a b : P3 K) : G.composePoint a - G.composePoint b = G.R.mulVec (a - b) := by
  ext <;> simp only [Pose3.composePoint, M3.mulVec, P3.add_x, P3.add_y, P3.add_z, P3.sub_x, P3.sub_y, P3.sub_z] <;> ring

theorem distSq_frame {G : Pose3 K} (hG : IsRotation G.R) (a b : P3 K) :
    P3.distSq (G.composePoint a) (G.composePoint b) = P3.distSq a b := by
  unfold P3.distSq
  rw [composePoint_sub, rot_normSq hG]

theorem dtLimit_noAngle {c : DTCfg K} (h : c.angSq = 0) (v : P3 K) : dtLimit c v = c.thr * c.thr := by
  simp [dtLimit, h]

/-- The pair of a local point as coordinates. -/
def spot (c : DTCfg K) (T : Pose3 K) (g : GLayer K) (x : P3 K) : Option (P3 K × P3 K) :=
  (g.nnSingle (T.composePoint x)).bind fun nb => if nb.d2 < c.thr * c.thr then some (x, nb.pt) else none

theorem cand_spots {c : DTCfg K} (h : c.angSq = 0) (T : Pose3 K) (g : GLayer K) (pts : List (P3 K)) :
    (((List.range pts.length).filterMap (cand c T.composePoint g pts)).map fun q => (q.local, q.global)) =
      pts.filterMap (spot c T g) := by
  have key : ∀ n, n ≤ pts.length → (((List.range n).filterMap (cand c T.composePoint g pts)).map fun q => (q.local, q.global)) =
      (pts.take n).filterMap (spot c T g) := by
    intro n
    induction n with
    | zero => intro _; simp
    | succ n ih =>
      intro hn
      have hlt : n < pts.length := by omega
      have hp : pts[n]? = some pts[n] := List.getElem?_eq_getElem hlt
      rw [List.range_succ, List.filterMap_append, List.map_append, ih (by omega), List.take_add_one, hp, List.filterMap_append]
      congr 1
      have : spot c T g pts[n] = (cand c T.composePoint g pts n).map fun q => (q.local, q.global) := by
        simp only [spot, cand, hp, Option.bind_some, dtLimit_noAngle h]
        cases g.nnSingle (T.composePoint pts[n]) with
        | none => rfl
        | some nb => simp only [Option.bind_some]; split <;> rfl
      simp only [Option.toList_some, List.filterMap_cons, List.filterMap_nil, this]
      cases cand c T.composePoint g pts n <;> rfl
  have := key pts.length le_rfl
  rwa [List.take_length] at this

/-- The nearest point, seen from the other frame. -/
theorem spot_frame {c : DTCfg K} {G T : Pose3 K} (hG : IsRotation G.R) {g g' : GLayer K} {gpts gpts' pts : List (P3 K)}
    (hg : ServesPoints g gpts) (hg' : ServesPoints g' gpts') (hperm : gpts'.Perm (gpts.map G.composePoint))
    (hnt : NoTies gpts pts T) {x : P3 K} (hx : x ∈ pts) :
    spot c (G.compose T) g' x = (spot c T g x).map fun q => (q.1, G.composePoint q.2) := by
  obtain ⟨nb, h1, h2, h3, h4⟩ := hg.nearest (T.composePoint x)
  obtain ⟨nb', k1, k2, k3, k4⟩ := hg'.nearest ((G.compose T).composePoint x)
  have hm := List.mem_of_getElem? h2
  have hm' : nb'.pt ∈ gpts.map G.composePoint := hperm.subset (List.mem_of_getElem? k2)
  obtain ⟨y, hy, hye⟩ := List.mem_map.mp hm'
  rw [compose_composePoint] at k3 k4
  rw [← hye, distSq_frame hG] at k3
  have hyb : y = nb.pt := by
    refine hnt x hx y hy nb.pt hm ?_ h4
    intro w hw
    have := k4 (G.composePoint w) (hperm.symm.subset (List.mem_map.mpr ⟨w, hw, rfl⟩))
    rwa [← hye, distSq_frame hG, distSq_frame hG] at this
  simp only [spot, h1, k1, Option.bind_some, k3, h3, hyb]
  split <;> simp [← hye, hyb]

/-- The matcher, whatever the points: without angular threshold and with repeated use of map points. -/
theorem simple_match_any {c : DTCfg K} {s : Solver K (Pose3 K)} {mr : K} {name : String} {g : GLayer K} {gpts pts : List (P3 K)}
    {dense : Bool} (hg : ServesPoints g gpts) (hc : PlainMatcher c pts.length) (hang : c.angSq = 0) (hmany : c.allowGlobal = true)
    (it : Nat) (T : Pose3 K) :
    ∃ ms, runMatchers (simpleIcp c s mr name g gpts.length dense pts).matchers it T
        (simpleIcp c s mr name g gpts.length dense pts).freshMS =
      .ok (ms, { pt2pt := (List.range pts.length).filterMap (cand c T.composePoint g pts), potential := pts.length }) := by
  by_cases hne : pts = []
  · subst hne
    refine ⟨freshState name gpts.length dense 0, ?_⟩
    have hl : dtLayer c T.composePoint g name name [] (freshState name gpts.length dense 0) {} =
        .ok (freshState name gpts.length dense 0, {}) := by
      unfold dtLayer layerFrame
      simp [hc.ppp, hc.thr, hc.angDeg, hg.capable, Outcome.assert, Outcome.bind]
    simp only [runMatchers, simpleIcp, runMatchersLoop, Matcher.run, PtMatcher.toMatcher, PtMatcher.base, PtMatcher.layer]
    simp [pointsMatch, foldOutcome, globalLayerStep, hc.noTable, localLayersFor, localLayerStep, AMap.get, hl, Outcome.bind,
      Pairings.pushBackCopy]
  · refine simple_match hg hc hne it T (Or.inl hmany) ?_
    by_cases hb : g.boxesMeet (pts.map T.composePoint) (c.thr + c.eps) = true
    · exact Or.inl hb
    · refine Or.inr fun i => ?_
      cases hcd : cand c T.composePoint g pts i with
      | none => rfl
      | some q =>
        exfalso
        obtain ⟨q1, q2, q3, -⟩ := cand_some hg hcd
        rw [dtLimit_noAngle hang] at q3
        refine hb (hg.boxes _ _ ⟨_, List.mem_map.mpr ⟨_, List.mem_of_getElem? q1, rfl⟩, _, q2, ?_, ?_⟩)
        · linarith [hc.thr, hc.eps]
        · have h2 : c.thr * c.thr ≤ (c.thr + c.eps) * (c.thr + c.eps) :=
            mul_self_le_mul_self hc.thr.le (by linarith [hc.eps])
          linarith

/-! ### the solver -/

theorem mean_perm {a b : List (P3 K)} (h : a.Perm b) : mean a = mean b := by
  unfold mean
  rw [(h.map (·.x)).sum_eq, (h.map (·.y)).sum_eq, (h.map (·.z)).sum_eq, h.length_eq]

theorem sum_frame (G : Pose3 K) (a : List (P3 K)) :
    ((a.map G.composePoint).map (·.x)).sum = G.R.a00 * (a.map (·.x)).sum + G.R.a01 * (a.map (·.y)).sum + G.R.a02 * (a.map (·.z)).sum + a.length * G.t.x ∧
    ((a.map G.composePoint).map (·.y)).sum = G.R.a10 * (a.map (·.x)).sum + G.R.a11 * (a.map (·.y)).sum + G.R.a12 * (a.map (·.z)).sum + a.length * G.t.y ∧
    ((a.map G.composePoint).map (·.z)).sum = G.R.a20 * (a.map (·.x)).sum + G.R.a21 * (a.map (·.y)).sum + G.R.a22 * (a.map (·.z)).sum + a.length * G.t.z := by
  induction a with
  | nil => simp
  | cons v a ih =>
    obtain ⟨h1, h2, h3⟩ := ih
    simp only [List.map_cons, List.sum_cons, h1, h2, h3, List.length_cons, Nat.cast_add, Nat.cast_one, Pose3.composePoint, M3.mulVec,
      P3.add_x, P3.add_y, P3.add_z]
    refine ⟨?_, ?_, ?_⟩ <;> ring

theorem mean_frame (G : Pose3 K) {a : List (P3 K)} (h : a ≠ []) : mean (a.map G.composePoint) = G.composePoint (mean a) := by
  have hn : (a.length : K) ≠ 0 := by
    have : 0 < a.length := List.length_pos_iff.mpr h
    exact_mod_cast this.ne'
  obtain ⟨h1, h2, h3⟩ := sum_frame G a
  unfold mean
  rw [h1, h2, h3]
  ext <;> simp only [Pose3.composePoint, M3.mulVec, P3.add_x, P3.add_y, P3.add_z, List.length_map] <;> field_simp

/-- The pairs, as coordinates, and the functions of them the solver depends on. -/
def farSum (norm : P3 K → K) (eps : K) (cl cg : P3 K) (R : M3 K) (l : List (P3 K × P3 K)) : K :=
  ((l.filter fun q => !decide (norm (q.2 - cg) < eps ∨ norm (q.1 - cl) < eps)).map fun q =>
    P3.distSq (R.mulVec (q.1 - cl)) (q.2 - cg)).sum

theorem turnCost_eq (norm : P3 K → K) (eps : K) (ps : List (PtPair K)) (R : M3 K) :
    turnCost norm eps ps R = farSum norm eps (mean (ps.map (·.local))) (mean (ps.map (·.global))) R
      (ps.map fun q => (q.local, q.global)) := by
  unfold turnCost farSum farPairs
  rw [List.filter_map, List.map_map]
  rfl

theorem farSum_frame {norm : P3 K → K} (hn : IsNorm norm) {G : Pose3 K} (hG : IsRotation G.R) (eps : K) (cl cg : P3 K) (R : M3 K)
    (l : List (P3 K × P3 K)) :
    farSum norm eps cl (G.composePoint cg) (G.R.mul R) (l.map fun q => (q.1, G.composePoint q.2)) = farSum norm eps cl cg R l := by
  unfold farSum
  induction l with
  | nil => rfl
  | cons q l ih =>
    have h1 : norm (G.composePoint q.2 - G.composePoint cg) = norm (q.2 - cg) := by rw [composePoint_sub, norm_rot hn hG]
    have h2 : P3.distSq ((G.R.mul R).mulVec (q.1 - cl)) (G.composePoint q.2 - G.composePoint cg) =
        P3.distSq (R.mulVec (q.1 - cl)) (q.2 - cg) := by
      rw [composePoint_sub, mul_mulVec]
      unfold P3.distSq
      rw [← mulVec_sub, rot_normSq hG]
    simp only [List.map_cons, List.filter_cons, h1]
    split
    · simp only [List.map_cons, List.sum_cons, h2, ih]
    · exact ih

theorem farSum_perm (norm : P3 K → K) (eps : K) (cl cg : P3 K) (R : M3 K) {l l' : List (P3 K × P3 K)} (h : l.Perm l') :
    farSum norm eps cl cg R l = farSum norm eps cl cg R l' := ((h.filter _).map _).sum_eq

/-- The Horn solver: its rotation is a best one, and its translation takes centroid to centroid. -/
theorem horn_turn {e : HornEnv K} {p : Pairings K} {wp : WeightParams K} (heig : ∀ N, IsTopEigen N (e.eig N))
    (h : PlainPoints p wp) {r : TFResult K} (hr : optimalTfHorn e p wp = .ok (some r)) :
    IsRotation r.pose.R ∧ (∀ R, IsRotation R → turnCost e.norm e.eps p.pt2pt r.pose.R ≤ turnCost e.norm e.eps p.pt2pt R) ∧
      r.pose.t = mean (p.pt2pt.map (·.global)) - r.pose.R.mulVec (mean (p.pt2pt.map (·.local))) := by
  obtain ⟨hne, -, o, q, ho, hq, hpose, -⟩ := horn_shape h.noScale hr
  have hlen : 0 < p.pt2pt.length := List.length_pos_iff.mpr hne
  set ctL := mean (p.pt2pt.map (·.local)) with hL
  set ctG := mean (p.pt2pt.map (·.global)) with hG
  have hwa : 0 < (visitCfg p wp ctL ctG false e.norm e.eps).waPoints := by
    have := h.wPt
    have hnk : (0 : K) < p.pt2pt.length := by exact_mod_cast hlen
    simp only [visitCfg, h.ln2ln, h.pl2pl, List.length_nil, Nat.cast_zero, mul_zero, add_zero]
    positivity
  obtain ⟨s', h1, h3⟩ := plain_loop_near (c := visitCfg p wp ctL ctG false e.norm e.eps) h.noKernel h.noScale rfl hwa
    p.pt2pt.length p.pt2pt ⟨[(p.pt2pt.length, 1)], 0, [], [], [], 0⟩ 0 rfl rfl rfl (by omega)
  have hc : corrs p = p.pt2pt.map .pt := by simp [corrs, h.ln2ln, h.pl2pl]
  have hv : o.visited = s'.visited := by
    have hw : 0 < wp.pairWeights.pt2pt + wp.pairWeights.ln2ln + wp.pairWeights.pl2pl := by
      have := h.wPt; have := h.wLn; have := h.wPl; linarith
    unfold visitCorrespondences at ho
    simp only [h.pt2ln, h.pt2pl, h.noTable, hc, List.isEmpty_nil, if_true, Outcome.bind_def, List.length_nil,
      Outcome.assert, hw, Outcome.bind, h1, Outcome.pure_def, Outcome.ok.injEq] at ho
    rw [← ho]
  have htop := negQuat_top (heig (hornN (hornS o)))
  rw [← hq] at htop
  have hrot : IsRotation q.toMatrix := top_rotation htop
  rw [hpose]
  refine ⟨hrot, fun R hT => ?_, ?_⟩
  · have h4 := horn_attitude htop hT
    rw [hv, h3] at h4
    simp only [visitCfg, List.nil_append] at h4
    rw [attitudeCost_map, attitudeCost_map] at h4
    exact le_of_mul_le_mul_left h4 hwa
  · ext <;> simp [poseFromRot]

theorem transpose_rot {R : M3 K} (h : IsRotation R) : R.mul R.transpose = M3.one ∧ IsRotation R.transpose := by
  have r := rot_rows h
  obtain ⟨a, b, c, d, e, f⟩ := r
  have h1 : R.mul R.transpose = M3.one := by
    ext <;> simp only [M3.mul, M3.transpose, M3.one] <;> first | assumption | linarith
  have hd := h.2
  refine ⟨h1, ?_, ?_⟩
  · have : R.transpose.transpose = R := rfl
    rw [this, h1]
  · simp only [M3.det, M3.transpose] at hd ⊢
    linarith

/-- The solutions for the same pairs seen from two frames. -/
theorem horn_frame {e : HornEnv K} {wp : WeightParams K} (heig : ∀ N, IsTopEigen N (e.eig N)) (hn : IsNorm e.norm)
    (hw : PlainSolver wp) {G : Pose3 K} (hG : IsRotation G.R) {ps ps' : List (PtPair K)} {n n' : Nat}
    (hp : (ps'.map fun q => (q.local, q.global)).Perm (ps.map fun q => (q.local, G.composePoint q.global)))
    (hone : OneBestTurn e.norm e.eps ps) {r r' : TFResult K}
    (hr : optimalTfHorn e { pt2pt := ps, potential := n } wp = .ok (some r))
    (hr' : optimalTfHorn e { pt2pt := ps', potential := n' } wp = .ok (some r')) : r'.pose = G.compose r.pose := by
  have pl : ∀ (qs : List (PtPair K)) k, PlainPoints ({ pt2pt := qs, potential := k } : Pairings K) wp :=
    fun qs k => ⟨rfl, rfl, rfl, rfl, rfl, hw.noKernel, hw.noScale, hw.wPt, hw.wLn, hw.wPl⟩
  obtain ⟨a1, a2, a3⟩ := horn_turn heig (pl ps n) hr
  obtain ⟨b1, b2, b3⟩ := horn_turn heig (pl ps' n') hr'
  have hne : ps ≠ [] := by
    obtain ⟨h, -⟩ := horn_shape hw.noScale hr
    exact h
  simp only at a2 a3 b2 b3
  have hl : mean (ps'.map (·.local)) = mean (ps.map (·.local)) := by
    have := hp.map (fun q : P3 K × P3 K => q.1)
    simp only [List.map_map, Function.comp_def] at this
    exact mean_perm this
  have hg : mean (ps'.map (·.global)) = G.composePoint (mean (ps.map (·.global))) := by
    have := hp.map (fun q : P3 K × P3 K => q.2)
    simp only [List.map_map, Function.comp_def] at this
    rw [mean_perm this, ← mean_frame G (by simpa using hne), List.map_map]
    rfl
  have hcost : ∀ R, turnCost e.norm e.eps ps' (G.R.mul R) = turnCost e.norm e.eps ps R := by
    intro R
    rw [turnCost_eq, turnCost_eq, hl, hg, farSum_perm _ _ _ _ _ hp,
      ← farSum_frame hn hG e.eps _ _ R (ps.map fun q => (q.local, q.global)), List.map_map]
    rfl
  obtain ⟨t1, t2⟩ := transpose_rot hG
  have hback : ∀ R : M3 K, G.R.mul (G.R.transpose.mul R) = R := by
    intro R
    rw [← M3.mul_assoc, t1]
    ext <;> simp [M3.mul, M3.one]
  have hrr : r.pose.R = G.R.transpose.mul r'.pose.R := by
    refine hone _ _ a1 (rot_mul t2 b1) a2 fun R hR => ?_
    rw [← hcost, hback, ← hcost]
    exact b2 _ (rot_mul hG hR)
  have hR : r'.pose.R = G.R.mul r.pose.R := by rw [hrr, hback]
  refine Pose3.ext hR ?_
  rw [b3, hR, hl, hg, mul_mulVec]
  simp only [Pose3.compose, a3, mulVec_sub]
  ext <;> simp [Pose3.composePoint] <;> ring

/-! ### the loop -/

/-- What the two runs have in common at the same point. -/
structure LoopSame (G : Pose3 K) (failed : Bool) (s s' : LoopState K (Pose3 K)) : Prop where
  n : s'.n = s.n
  pose : s'.sol.pose = if failed then Pose3.identity else G.compose s.sol.pose
  scale : s'.sol.scale = s.sol.scale
  pairings : SamePairs G s.pairings s'.pairings
  prev : s'.prev = G.compose s.prev
  prev2 : s'.prev2 = s.prev2.map G.compose
  log : Option.Rel (List.Forall₂ (SameDetail G)) s.log s'.log
  reason : s'.reason = s.reason
  trace : s'.trace = [] ↔ s.trace = []

theorem samePairs_size {G : Pose3 K} {a b : Pairings K} (h : SamePairs G a b) :
    b.pt2pt.length = a.pt2pt.length ∧ b.size = a.size ∧ b.isEmpty = a.isEmpty := by
  have h1 : b.pt2pt.length = a.pt2pt.length := by simpa using h.pairs.length_eq
  obtain ⟨ha, hb⟩ := h.rest
  refine ⟨h1, ?_, ?_⟩
  · rw [ha, hb]; simp [Pairings.size, h1]
  · rw [ha, hb]
    simp only [Pairings.isEmpty, List.isEmpty_nil, Bool.and_true]
    rw [Bool.eq_iff_iff, List.isEmpty_iff, List.isEmpty_iff, ← List.length_eq_zero_iff, ← List.length_eq_zero_iff, h1]

section
variable {ops : PoseOps K (Pose3 K)} {e : HornEnv K} {nearOne : P3 K → Bool} {ratio : K} {wp : WeightParams K} {c : DTCfg K}
  {mr : K} {name name' : String} {G : Pose3 K} {g g' : GLayer K} {gpts gpts' pts pts' : List (P3 K)} {dense dense' : Bool}
  {p : IcpParams K}

/-- The matchers. -/
theorem match_frame (hs : MapSetting ops c G g g' gpts gpts' pts pts') (sv sv' : Solver K (Pose3 K)) (it : Nat) {T : Pose3 K}
    {ms : MatchState K} {prs : Pairings K}
    (hm : runMatchers (simpleIcp c sv mr name g gpts.length dense pts).matchers it T
        (simpleIcp c sv mr name g gpts.length dense pts).freshMS = .ok (ms, prs))
    (hnt : NoTies gpts pts T) :
    ∃ ms' prs', runMatchers (simpleIcp c sv' mr name' g' gpts'.length dense' pts').matchers it (G.compose T)
        (simpleIcp c sv' mr name' g' gpts'.length dense' pts').freshMS = .ok (ms', prs') ∧ SamePairs G prs prs' := by
  have hlen := hs.points.length_eq
  have hc' : PlainMatcher c pts'.length := by rw [hlen]; exact hs.matcher
  obtain ⟨m1, h1⟩ := simple_match_any (s := sv) (mr := mr) (name := name) (dense := dense) hs.serves hs.matcher hs.angSq
    hs.many it T
  obtain ⟨m2, h2⟩ := simple_match_any (s := sv') (mr := mr) (name := name') (dense := dense') hs.serves' hc' hs.angSq
    hs.many it (G.compose T)
  rw [hm] at h1
  cases h1
  refine ⟨m2, _, h2, ⟨?_, hlen, rfl, rfl⟩⟩
  simp only
  rw [cand_spots hs.angSq]
  have e1 : (((List.range pts.length).filterMap (cand c T.composePoint g pts)).map fun q => (q.local, G.composePoint q.global)) =
      (pts.filterMap (spot c T g)).map fun q => (q.1, G.composePoint q.2) := by
    rw [← cand_spots hs.angSq, List.map_map]; rfl
  rw [e1, List.map_filterMap]
  refine (hs.points.filterMap _).trans (List.Perm.of_eq ?_)
  refine List.filterMap_congr fun x hx => ?_
  exact spot_frame hs.rot hs.serves hs.serves' hs.map hnt hx

/-- Two solvers which do the same with the same pairs seen from two frames, if these are as `C` says. -/
def SolverSame (tnorm : Pose3 K → K) (G : Pose3 K) (sv sv' : Solver K (Pose3 K)) (C : Pairings K → Prop) : Prop :=
  ∀ (prs prs' : Pairings K), SamePairs G prs prs' → prs.isEmpty = false → C prs →
    ∀ (out out' : Sol K (Pose3 K)) (sc sc' : SolverCtx (Pose3 K)) (T : Pose3 K) (fin fin' fin1 : List Nat) (ok : Bool) (sol : Sol K (Pose3 K)),
      sc.guess = some T → sc'.guess = some (G.compose T) → runSolvers tnorm [sv] prs out sc fin = .ok (ok, sol, fin1) →
      ∃ sol', runSolvers tnorm [sv'] prs' out' sc' fin' = .ok (ok, sol', fin') ∧ sol'.scale = sol.scale ∧
        (ok = true → sol'.pose = G.compose sol.pose) ∧ (ok = false → sol.pose = Pose3.identity ∧ sol'.pose = Pose3.identity)

/-- The solver. -/
theorem solve_frame (hs : FrameSetting ops e wp c G g g' gpts gpts' pts pts') {prs prs' : Pairings K} (hp : SamePairs G prs prs')
    (hne : prs.isEmpty = false) {out out' : Sol K (Pose3 K)} {sc sc' : SolverCtx (Pose3 K)} {fin fin' fin1 : List Nat} {ok : Bool}
    {sol : Sol K (Pose3 K)} (hone : 3 ≤ prs.pt2pt.length → OneBestTurn e.norm e.eps prs.pt2pt)
    (hr : runSolvers ops.tnorm (simpleIcp c (hornAsSolver e nearOne ratio wp) mr name g gpts.length dense pts).solvers prs out sc fin =
      .ok (ok, sol, fin1)) :
    ∃ sol', runSolvers ops.tnorm (simpleIcp c (hornAsSolver e nearOne ratio wp) mr name' g' gpts'.length dense' pts').solvers prs' out' sc'
        fin' = .ok (ok, sol', fin') ∧ sol'.scale = sol.scale ∧ (ok = true → sol'.pose = G.compose sol.pose) ∧
      (ok = false → sol.pose = Pose3.identity ∧ sol'.pose = Pose3.identity) := by
  obtain ⟨hl, hsz, hem⟩ := samePairs_size hp
  obtain ⟨ha, hb⟩ := hp.rest
  have hpos : 0 < prs.pt2pt.length := by
    rw [ha] at hne
    simp only [Pairings.isEmpty, List.isEmpty_nil, Bool.and_true] at hne
    cases h : prs.pt2pt with
    | nil => rw [h] at hne; simp at hne
    | cons a l => simp
  by_cases h3 : 3 ≤ prs.pt2pt.length
  · obtain ⟨r, h1⟩ := horn_total (e := e) hs.fit.solver prs.pt2pt prs.potential h3
    obtain ⟨r', h2⟩ := horn_total (e := e) hs.fit.solver prs'.pt2pt prs'.potential (by omega)
    rw [ha] at hr
    rw [simple_solve ops.tnorm _ _ out sc fin h1] at hr
    rw [hb]
    rw [simple_solve ops.tnorm _ _ out' sc' fin' h2]
    simp only [hornAnswer, Outcome.ok.injEq, Prod.mk.injEq] at hr ⊢
    obtain ⟨rfl, rfl, -⟩ := hr
    exact ⟨_, ⟨rfl, rfl, trivial⟩, rfl, fun _ => horn_frame hs.fit.eig hs.fit.norm hs.fit.solver hs.rot hp.pairs (hone h3) h1 h2,
      fun h => by cases h⟩
  · have h1 := horn_too_few (e := e) hs.fit.solver prs.pt2pt prs.potential hpos (by omega)
    have h2 := horn_too_few (e := e) hs.fit.solver prs'.pt2pt prs'.potential (by omega) (by omega)
    rw [ha] at hr
    rw [simple_solve ops.tnorm _ _ out sc fin h1] at hr
    rw [hb]
    rw [simple_solve ops.tnorm _ _ out' sc' fin' h2]
    simp only [hornAnswer, Outcome.ok.injEq, Prod.mk.injEq] at hr ⊢
    obtain ⟨rfl, rfl, -⟩ := hr
    exact ⟨_, ⟨rfl, rfl, trivial⟩, rfl, fun h => by (cases h), fun _ => ⟨rfl, rfl⟩⟩

theorem horn_same (hs : FrameSetting ops e wp c G g g' gpts gpts' pts pts') :
    SolverSame ops.tnorm G (hornAsSolver e nearOne ratio wp) (hornAsSolver e nearOne ratio wp)
      (fun prs => 3 ≤ prs.pt2pt.length → OneBestTurn e.norm e.eps prs.pt2pt) := by
  intro prs prs' hp hne hC out out' sc sc' T fin fin' fin1 ok sol _ _ h
  exact solve_frame (mr := 0) (name := "") (name' := "") (dense := true) (dense' := true) hs hp hne hC h

theorem frame_map (hs : FrameSetting ops e wp c G g g' gpts gpts' pts pts') : MapSetting ops c G g g' gpts gpts' pts pts' :=
  ⟨hs.fit.serves, hs.serves, hs.fit.matcher, hs.fit.many, hs.rot, hs.map, hs.points, hs.angSq, hs.free⟩

theorem quality_frame {env env' : IcpEnv K (Pose3 K) (MatchState K)} {a b : Pairings K} (hp : SamePairs G a b) (it : Nat) (fin : Bool)
    (T T' : Pose3 K) (h : env.quality = [pairedRatioEval mr]) (h' : env'.quality = [pairedRatioEval mr]) :
    evaluateQuality env'.quality it fin T' b = evaluateQuality env.quality it fin T a := by
  obtain ⟨-, hsz, -⟩ := samePairs_size hp
  rw [h, h']
  simp only [evaluateQuality, evaluateQualityLoop, pairedRatioEval, pairedRatio, hsz, hp.potential]

/-- What is recorded of an iteration. -/
theorem body_event {MS : Type} {env : IcpEnv K (Pose3 K) MS} {init : Pose3 K} {s s1 : LoopState K (Pose3 K)} {brk : Option Reason} {ms : MS}
    {prs : Pairings K} (hm : runMatchers env.matchers s.n s.sol.pose env.freshMS = .ok (ms, prs))
    (hb : icpBody ops env p init s = .ok (s1, brk)) :
    s1.n = s.n ∧ ∃ ev : IterEvent K (Pose3 K), s1.trace = s.trace ++ [ev] ∧ ev.poseIn = s.sol.pose ∧ ev.pairings = prs := by
  unfold icpBody at hb
  simp only [hm, Outcome.bind_eq_ok] at hb
  obtain ⟨x, hx, hb⟩ := hb
  cases hx
  simp only at hb
  split at hb
  · cases hb; exact ⟨rfl, _, rfl, rfl, rfl⟩
  · obtain ⟨⟨ok, sol, fin⟩, hr, hb⟩ := Outcome.bind_eq_ok.mp hb
    simp only at hb
    split at hb
    · cases hb; exact ⟨rfl, _, rfl, rfl, rfl⟩
    · obtain ⟨log, hl, hb⟩ := Outcome.bind_eq_ok.mp hb
      split at hb
      · cases hb; exact ⟨rfl, _, rfl, rfl, rfl⟩
      · obtain ⟨bad, hq, hb⟩ := Outcome.bind_eq_ok.mp hb
        split at hb
        · cases hb; exact ⟨rfl, _, rfl, rfl, rfl⟩
        · split at hb
          · cases hb; exact ⟨rfl, _, rfl, rfl, rfl⟩
          · cases hb; exact ⟨rfl, _, rfl, rfl, rfl⟩

theorem body_reason {MS : Type} {env : IcpEnv K (Pose3 K) MS} {init : Pose3 K} {s s1 : LoopState K (Pose3 K)} {brk : Option Reason}
    (hb : icpBody ops env p init s = .ok (s1, brk)) : s1.reason = s.reason := by
  unfold icpBody at hb
  obtain ⟨⟨ms, prs⟩, hm, hb⟩ := Outcome.bind_eq_ok.mp hb
  simp only at hb
  split at hb
  · cases hb; rfl
  · obtain ⟨⟨ok, sol, fin⟩, hr, hb⟩ := Outcome.bind_eq_ok.mp hb
    simp only at hb
    split at hb
    · cases hb; rfl
    · obtain ⟨log, hl, hb⟩ := Outcome.bind_eq_ok.mp hb
      split at hb
      · cases hb; rfl
      · obtain ⟨bad, hq, hb⟩ := Outcome.bind_eq_ok.mp hb
        split at hb
        · cases hb; rfl
        · split at hb
          · cases hb; rfl
          · cases hb; rfl

/-- Storing the details. -/
theorem save_frame {n : Nat} {st : Bool} {T : Pose3 K} {a b : Pairings K} {l l' l1 : Option (List (Nat × Pose3 K × Pairings K))}
    (hp : SamePairs G a b) (hl : Option.Rel (List.Forall₂ (SameDetail G)) l l') (h : saveDetails p n st T a l = .ok l1) :
    ∃ l1', saveDetails p n st (G.compose T) b l' = .ok l1' ∧ Option.Rel (List.Forall₂ (SameDetail G)) l1 l1' := by
  unfold saveDetails at h ⊢
  split at h
  · rename_i hc
    rw [if_pos hc]
    cases hl with
    | none => cases h
    | some hl =>
      cases h
      exact ⟨_, rfl, .some (List.rel_append hl (.cons ⟨rfl, rfl, hp⟩ .nil))⟩
  · rename_i hc
    cases h
    exact ⟨_, by rw [if_neg hc], hl⟩

variable {sv sv' : Solver K (Pose3 K)} {C : Pairings K → Prop}

/-- One iteration. -/
theorem body_frame (hs : MapSetting ops c G g g' gpts gpts' pts pts') (hsv : SolverSame ops.tnorm G sv sv' C) {init init' : Pose3 K}
    {s s1 s' : LoopState K (Pose3 K)} {brk : Option Reason} (hr : LoopSame G false s s')
    (hb : icpBody ops (simpleIcp c sv mr name g gpts.length dense pts) p init s = .ok (s1, brk))
    (hclear : ∀ ev ∈ s1.trace, NoTies gpts pts ev.poseIn ∧ C ev.pairings) :
    ∃ s1', icpBody ops (simpleIcp c sv' mr name' g' gpts'.length dense' pts') p init' s' =
        .ok (s1', brk) ∧ LoopSame G (decide (brk = some .solverError)) s1 s1' ∧ s1.n = s.n ∧ s1.trace ≠ [] ∧ s.trace <+: s1.trace := by
  have hb0 := hb
  unfold icpBody at hb
  obtain ⟨⟨ms, prs⟩, hm, hb⟩ := Outcome.bind_eq_ok.mp hb
  obtain ⟨hn, ev, htr, hpi, hpr⟩ := body_event hm hb0
  have hcl := hclear ev (by rw [htr]; simp)
  have hne1 : s1.trace ≠ [] := by rw [htr]; simp
  have hpre : s.trace <+: s1.trace := ⟨[ev], htr.symm⟩
  have hnt : NoTies gpts pts s.sol.pose := hpi ▸ hcl.1
  have hone : C prs := hpr ▸ hcl.2
  have hps : s'.sol.pose = G.compose s.sol.pose := by simpa using hr.pose
  obtain ⟨ms', prs', hm', hsp⟩ := match_frame (name' := name') (dense' := dense') hs sv sv' s.n hm hnt
  rw [← hps, ← hr.n] at hm'
  obtain ⟨-, -, hem⟩ := samePairs_size hsp
  unfold icpBody
  rw [hm']
  simp only [Outcome.bind] at hb ⊢
  by_cases hE : prs.isEmpty = true
  · rw [if_pos hE] at hb
    rw [if_pos (hem ▸ hE)]
    cases hb
    exact ⟨_, rfl, ⟨hr.n, by simpa using hr.pose, hr.scale, hsp, hr.prev, hr.prev2, hr.log, hr.reason, by simp⟩, rfl, hne1, hpre⟩
  rw [if_neg hE] at hb
  rw [if_neg (hem ▸ hE)]
  obtain ⟨⟨ok, sol, fin⟩, hrs, hb⟩ := Outcome.bind_eq_ok.mp hb
  obtain ⟨sol', hrs', hsc, hok, hbad⟩ := hsv prs prs' hsp (by simpa using hE) hone s.sol s'.sol _
    { iter := some s'.n, guess := some s'.sol.pose, fromInitial := some (ops.sub s'.sol.pose init'), lastStep := s'.lastCorr }
    s.sol.pose s.fin s'.fin fin ok sol rfl (by simp only [hps]) hrs
  have hsl : (simpleIcp c sv' mr name' g' gpts'.length dense' pts').solvers = [sv'] := rfl
  rw [hsl, hrs']
  simp only [Outcome.bind] at hb ⊢
  cases ok with
  | false =>
    simp only [Bool.not_false, if_true] at hb ⊢
    cases hb
    exact ⟨_, rfl, ⟨hr.n, by simpa using (hbad rfl).2, hsc, hsp, hr.prev, hr.prev2, hr.log, hr.reason, by simp⟩, rfl, hne1, hpre⟩
  | true =>
    simp only [Bool.not_true, Bool.false_eq_true, if_false] at hb ⊢
    have hpose := hok rfl
    have hst : isStalled p (stepNorms ops sol'.pose s'.prev s'.prev2) = isStalled p (stepNorms ops sol.pose s.prev s.prev2) := by
      congr 1
      unfold stepNorms
      rw [hpose, hr.prev, hr.prev2, hs.free]
      cases s.prev2 with
      | none => rfl
      | some q => simp only [Option.map_some]; rw [hs.free]
    rw [hst]
    obtain ⟨log, hl, hb⟩ := Outcome.bind_eq_ok.mp hb
    obtain ⟨log', hl', hlog⟩ := save_frame hsp hr.log hl
    rw [hpose, hr.n, hl']
    simp only [Outcome.bind] at hb ⊢
    by_cases hS : isStalled p (stepNorms ops sol.pose s.prev s.prev2) = true
    · rw [if_pos hS] at hb
      rw [if_pos hS]
      cases hb
      exact ⟨_, rfl, ⟨rfl, by simpa using hpose, hsc, hsp, hr.prev, hr.prev2, hlog, hr.reason, by simp⟩, rfl, hne1, hpre⟩
    rw [if_neg hS] at hb
    rw [if_neg hS]
    obtain ⟨bad, hq, hb⟩ := Outcome.bind_eq_ok.mp hb
    have hq' : checkpointFails (simpleIcp c sv' mr name' g' gpts'.length dense' pts') p s.n
        (G.compose sol.pose) prs' = .ok bad := by
      rw [← hq]
      unfold checkpointFails
      rw [quality_frame (mr := mr) (env := simpleIcp c sv mr name g gpts.length dense pts)
        (env' := simpleIcp c sv' mr name' g' gpts'.length dense' pts') hsp s.n false sol.pose
        (G.compose sol.pose) rfl rfl]
    rw [hq']
    simp only [Outcome.bind] at hb ⊢
    cases bad with
    | true =>
      simp only [if_true] at hb ⊢
      cases hb
      exact ⟨_, rfl, ⟨rfl, by simpa using hpose, hsc, hsp, hr.prev, hr.prev2, hlog, hr.reason, by simp⟩, rfl, hne1, hpre⟩
    | false =>
      simp only [Bool.false_eq_true, if_false, hookStops, simpleIcp] at hb ⊢
      cases hb
      exact ⟨_, rfl, ⟨rfl, by simpa using hpose, hsc, hsp, rfl, by simp [hr.prev], hlog, hr.reason, by simp⟩, rfl, hne1, hpre⟩

/-- The loop. -/
theorem loop_frame (hs : MapSetting ops c G g g' gpts gpts' pts pts') (hsv : SolverSame ops.tnorm G sv sv' C) {init init' : Pose3 K} (fuel : Nat) :
    ∀ {s sf s' : LoopState K (Pose3 K)}, LoopSame G false s s' → s.reason ≠ .solverError →
      icpLoop ops (simpleIcp c sv mr name g gpts.length dense pts) p init fuel s = .ok sf →
      (∀ ev ∈ sf.trace, NoTies gpts pts ev.poseIn ∧ C ev.pairings) →
      ∃ sf', icpLoop ops (simpleIcp c sv' mr name' g' gpts'.length dense' pts') p init' fuel s' = .ok sf' ∧
        LoopSame G (decide (sf.reason = .solverError)) sf sf' ∧ s.n ≤ sf.n ∧ (sf.reason = .solverError → sf.n < s.n + fuel) := by
  induction fuel with
  | zero =>
    intro s sf s' hr hre h _
    cases h
    exact ⟨s', rfl, by simpa [hre] using hr, le_rfl, fun h => absurd h hre⟩
  | succ fuel ih =>
    intro s sf s' hr hre h hclear
    have hmono : ∀ (fuel : Nat) {s sf : LoopState K (Pose3 K)},
        icpLoop ops (simpleIcp c sv mr name g gpts.length dense pts) p init fuel s = .ok sf →
        s.trace <+: sf.trace := by
      intro fuel
      induction fuel with
      | zero => intro s sf h; cases h; exact List.prefix_rfl
      | succ fuel ih =>
        intro s sf h
        unfold icpLoop at h
        obtain ⟨⟨s1, brk⟩, hb, h⟩ := Outcome.bind_eq_ok.mp h
        have hm : s.trace <+: s1.trace := by
          have hb0 := hb
          unfold icpBody at hb
          obtain ⟨⟨ms, prs⟩, hm, -⟩ := Outcome.bind_eq_ok.mp hb
          obtain ⟨-, ev, htr, -⟩ := body_event hm hb0
          exact ⟨[ev], htr.symm⟩
        cases brk with
        | some r => cases h; exact hm
        | none => exact hm.trans (ih (s := { s1 with n := s.n + 1 }) h)
    unfold icpLoop at h ⊢
    obtain ⟨⟨s1, brk⟩, hb, h⟩ := Outcome.bind_eq_ok.mp h
    have hpre : s1.trace <+: sf.trace := by
      cases brk with
      | some r => cases h; exact List.prefix_rfl
      | none => exact hmono fuel (s := { s1 with n := s.n + 1 }) h
    obtain ⟨s1', hb', hr1, hn1, -, -⟩ := body_frame (init' := init') (name' := name') (dense' := dense') hs hsv hr hb
      (fun ev hev => hclear ev (hpre.subset hev))
    rw [hb']
    simp only [Outcome.bind] at h ⊢
    cases brk with
    | some r =>
      cases h
      refine ⟨_, rfl, ⟨hr1.n, ?_, hr1.scale, hr1.pairings, hr1.prev, hr1.prev2, hr1.log, rfl, hr1.trace⟩, hn1.ge, fun _ => ?_⟩
      · simpa using hr1.pose
      · simp only [hn1]; omega
    | none =>
      have hre1 : s1.reason = s.reason := body_reason hb
      obtain ⟨sf', k1, k2, k3, k4⟩ := ih (s := { s1 with n := s.n + 1 }) (s' := { s1' with n := s'.n + 1 })
        ⟨by simp [hr.n], by simpa using hr1.pose, hr1.scale, hr1.pairings, hr1.prev, hr1.prev2, hr1.log, hr1.reason, hr1.trace⟩
        (by simpa [hre1] using hre) h hclear
      simp only at k3 k4
      exact ⟨sf', k1, k2, by omega, fun h => by have := k4 h; omega⟩

/-- The whole registration. -/
theorem align_frame (hs : MapSetting ops c G g g' gpts gpts' pts pts') (hsv : SolverSame ops.tnorm G sv sv' C) {init : Pose3 K}
    {wantsLog : Bool} {r : IcpResult K (Pose3 K)}
    (h : align ops (simpleIcp c sv mr name g gpts.length dense pts) p init 1 wantsLog = .ok r)
    (hclear : ∀ ev ∈ r.trace, NoTies gpts pts ev.poseIn ∧ C ev.pairings) :
    ∃ r', align ops (simpleIcp c sv' mr name' g' gpts'.length dense' pts') p (G.compose init) 1 wantsLog = .ok r' ∧ SameRun G r r' := by
  set env := simpleIcp c sv mr name g gpts.length dense pts with henv
  set env' := simpleIcp c sv' mr name' g' gpts'.length dense' pts' with henv'
  have a1 : env.matchers ≠ [] ∧ env.solvers ≠ [] ∧ env.quality ≠ [] := by simp [henv, simpleIcp]
  have a2 : env.globalEmpty = false ∧ env.localEmpty = false := ⟨rfl, rfl⟩
  have b1 : env'.matchers ≠ [] ∧ env'.solvers ≠ [] ∧ env'.quality ≠ [] := by simp [henv', simpleIcp]
  have b2 : env'.globalEmpty = false ∧ env'.localEmpty = false := ⟨rfl, rfl⟩
  unfold align at h ⊢
  simp only [Outcome.assert, a1, a2, b1, b2, if_true, Outcome.bind_def, ne_eq, not_false_eq_true, and_self] at h ⊢
  obtain ⟨-, -, h⟩ := Outcome.bind_eq_ok.mp h
  obtain ⟨-, -, h⟩ := Outcome.bind_eq_ok.mp h
  obtain ⟨sf, hl, h⟩ := Outcome.bind_eq_ok.mp h
  obtain ⟨q, hq, h⟩ := Outcome.bind_eq_ok.mp h
  have htr : r.trace = sf.trace := by
    split at h
    · cases h
    · cases h; rfl
  obtain ⟨sf', k1, k2, -, k4⟩ := loop_frame (name' := name') (dense' := dense') (init' := G.compose init) hs hsv p.maxIterations
    (s := ⟨0, ⟨init, 1⟩, {}, init, none, none, [], if (wantsLog || p.generateDebugFiles) = true then some [] else none, .undefined, []⟩)
    (s' := ⟨0, ⟨G.compose init, 1⟩, {}, G.compose init, none, none, [], if (wantsLog || p.generateDebugFiles) = true then some [] else none,
      .undefined, []⟩)
    ⟨rfl, rfl, rfl, ⟨List.Perm.refl _, rfl, rfl, rfl⟩, rfl, rfl, by
      by_cases hw : (wantsLog || p.generateDebugFiles) = true
      · simp only [hw, if_true]; exact .some .nil
      · simp only [hw]; exact .none, rfl, Iff.rfl⟩ (by simp) hl (fun ev hev => hclear ev (htr ▸ hev))
  have hq' : evaluateQuality env'.quality sf'.n true sf'.sol.pose sf'.pairings = .ok q := by
    rw [← hq, k2.n]
    exact quality_frame (mr := mr) (env := env) (env' := env') k2.pairings sf.n true _ _ rfl rfl
  have hlog : sf'.log.isSome = sf.log.isSome := by
    have := k2.log
    cases h1 : sf.log <;> cases h2 : sf'.log <;> rw [h1, h2] at this <;> first | rfl | cases this
  simp only [Outcome.bind]
  rw [k1]
  have f1 : env.firstMatcherAttached = false := rfl
  have f2 : env'.firstMatcherAttached = false := rfl
  simp only [hq', hlog, f2]
  simp only [f1] at h
  split at h
  · cases h
  · rename_i hc
    rw [if_neg hc]
    cases h
    refine ⟨_, rfl, ⟨k2.n, ?_, ?_, k2.scale, rfl, k2.pairings, k2.log⟩⟩
    · simp only [k2.n, k2.reason]
    · simp only [k2.pose, decide_eq_true_eq]
      by_cases hr : sf.reason = .solverError
      · have : ¬ sf.n ≥ p.maxIterations := by have := k4 hr; simp only at this; omega
        simp [hr, this]
      · by_cases hn : sf.n ≥ p.maxIterations <;> simp [hr, hn]

end

/-- A solver that never gives up never ends a run. -/
theorem never_failed {MS : Type} {ops : PoseOps K (Pose3 K)} {env : IcpEnv K (Pose3 K) MS} {p : IcpParams K} {init : Pose3 K} {one : K}
    {wantsLog : Bool} (hs : ∀ prs out (sc : SolverCtx (Pose3 K)) fin x, sc.guess.isSome → runSolvers ops.tnorm env.solvers prs out sc fin = .ok x → x.1 = true)
    {r : IcpResult K (Pose3 K)} (h : align ops env p init one wantsLog = .ok r) : r.reason ≠ .solverError := by
  have hbody : ∀ (s s1 : LoopState K (Pose3 K)) brk, icpBody ops env p init s = .ok (s1, brk) → brk ≠ some .solverError := by
    intro s s1 brk hb
    unfold icpBody at hb
    obtain ⟨⟨ms, prs⟩, hm, hb⟩ := Outcome.bind_eq_ok.mp hb
    simp only at hb
    split at hb
    · cases hb; simp
    · obtain ⟨⟨ok, sol, fin⟩, hr, hb⟩ := Outcome.bind_eq_ok.mp hb
      have hok : ok = true := hs _ _ _ _ _ rfl hr
      simp only [hok, Bool.not_true, Bool.false_eq_true, if_false] at hb
      obtain ⟨log, hl, hb⟩ := Outcome.bind_eq_ok.mp hb
      split at hb
      · cases hb; simp
      · obtain ⟨bad, hq, hb⟩ := Outcome.bind_eq_ok.mp hb
        split at hb
        · cases hb; simp
        · split at hb
          · cases hb; simp
          · cases hb; simp
  have hloop : ∀ (fuel : Nat) (s sf : LoopState K (Pose3 K)), s.reason ≠ .solverError → icpLoop ops env p init fuel s = .ok sf →
      sf.reason ≠ .solverError := by
    intro fuel
    induction fuel with
    | zero => intro s sf hr h; cases h; exact hr
    | succ fuel ih =>
      intro s sf hr h
      unfold icpLoop at h
      obtain ⟨⟨s1, brk⟩, hb, h⟩ := Outcome.bind_eq_ok.mp h
      have h1 := hbody s s1 brk hb
      have h2 : s1.reason = s.reason := body_reason hb
      cases brk with
      | some q =>
        simp only [Outcome.ok.injEq] at h
        subst h
        simpa using h1
      | none => exact ih { s1 with n := s.n + 1 } sf (by simpa [h2] using hr) h
  unfold align at h
  simp only [Outcome.bind_def] at h
  obtain ⟨-, -, h⟩ := Outcome.bind_eq_ok.mp h
  obtain ⟨-, -, h⟩ := Outcome.bind_eq_ok.mp h
  obtain ⟨sf, hl, h⟩ := Outcome.bind_eq_ok.mp h
  obtain ⟨q, hq, h⟩ := Outcome.bind_eq_ok.mp h
  have h3 := hloop _ _ sf (by simp) hl
  split at h
  · cases h
  · cases h
    simp only
    split
    · simp
    · exact h3

end Verif.Lemmas
