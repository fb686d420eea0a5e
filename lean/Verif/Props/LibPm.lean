import Verif.Spec.LibPm
import Verif.Props.Covariance
import Mathlib.Tactic.Ring
import Mathlib.Tactic.FieldSimp
import Mathlib.Tactic.Linarith
import Mathlib.Tactic.NormNum
/-
C87: `ICP_LibPointmatcher`.
-/
namespace Verif.Pm
open Verif Verif.Props
variable {K Cfg : Type} [Field K] [LinearOrder K]

theorem pointsToPM_ok (txt : P3 K → P3 K) : ∀ (ls : List (String × Option (Layer K))) (pts : List (P3 K)),
    pointsToPM txt ls = .ok pts ↔ (∀ e ∈ ls, e.2 ≠ none) ∧ pts = (ls.flatMap fun e => pointsOf e.2).map txt
  | [], pts => by simp [pointsToPM, eq_comm]
  | (n, o) :: es, pts => by
    have ih := pointsToPM_ok txt es
    simp only [pointsToPM, Outcome.bind_eq_ok, ih]
    rcases o with _ | (p | p | _) <;> simp [toPoints, pointsOf, eq_comm]

theorem pointsToPM_ne_throw (txt : P3 K → P3 K) : ∀ (ls : List (String × Option (Layer K))), pointsToPM txt ls ≠ .throw
  | [] => by simp [pointsToPM]
  | (n, o) :: es => by
    have ih := pointsToPM_ne_throw txt es
    simp only [pointsToPM, ne_eq, Outcome.bind_eq_throw, ih, not_or, not_exists, not_and, or_false, false_or]
    rcases o with _ | (p | p | _) <;> simp [toPoints]

/-- C87: what an accepted call returns.  The library is given the points of all clouds and voxel maps of the local map, moved by the
initial guess, and those of the global map; the pose returned is the initial guess composed with the library's answer, or the
initial guess if it did not converge; the number of iterations is the one the library reports, 1 if it reports none; no pairings, scale 1, reason "stalled", and the huge default covariance, whatever was given. -/
theorem libpm_result (o : Obj K Cfg) (l g : PMap K) (init : Pose3 K) (r : PmResult K) (h : align o l g init = .ok r) :
    o.available = true ∧ l.layers.length = g.layers.length ∧ o.settings ≠ "" ∧
    ∃ pl pg cfg T, AllPoints l pl ∧ AllPoints g pg ∧ pl ≠ [] ∧ pg ≠ [] ∧ o.lib.config o.settings = some cfg ∧
      o.lib.icp cfg ((pl.map o.lib.txt).map (if o.lib.rigid init then init else Pose3.identity).composePoint) (pg.map o.lib.txt) = .ok T ∧
      (∀ t, T = some t → r.pose = init.compose t) ∧ (T = none → r.pose = init) ∧
      r.nIterations = (o.lib.iterations cfg ((pl.map o.lib.txt).map (if o.lib.rigid init then init else Pose3.identity).composePoint)
        (pg.map o.lib.txt)).getD 1 ∧
      r.scale = 1 ∧ r.reason = .stalled ∧ r.pairings = {} ∧
      evaluateQuality o.quality 0 true r.pose {} = .ok r.quality ∧
      ∀ i j, r.cov i j = if i = j then o.million else 0 := by
  unfold align at h
  split at h
  · cases h
  · rename_i hav
    simp only [Outcome.bind_eq_ok, Outcome.assert_eq_ok, exists_const] at h
    obtain ⟨h1, ⟨h2, h3⟩, h4, h5, h6, pl, hpl, pg, hpg, h7, h8, h⟩ := h
    split at h
    · cases h
    · rename_i cfg hcfg
      simp only [Outcome.bind_eq_ok] at h
      obtain ⟨T, hT, q, hq, c, hc, h⟩ := h
      obtain ⟨a1, a2⟩ := (pointsToPM_ok _ _ _).1 hpl
      obtain ⟨b1, b2⟩ := (pointsToPM_ok _ _ _).1 hpg
      refine ⟨by simpa using hav, h1, h4, _, _, cfg, T, ⟨a1, rfl⟩, ⟨b1, rfl⟩, ?_, ?_, hcfg, ?_, ?_⟩
      · rintro e; rw [e] at a2; subst a2; simp at h7
      · rintro e; rw [e] at b2; subst b2; simp at h8
      · subst a2 b2; exact hT
      · cases h
        obtain ⟨c', hc', hcij⟩ := covariance_no_pairings o.cov o.million {} (o.six (poseOf init T)) (by simp [Pairings.size])
        rw [hc'] at hc; cases hc
        refine ⟨?_, ?_, ?_, rfl, rfl, rfl, hq, hcij⟩
        · rintro t rfl; rfl
        · rintro rfl; rfl
        · subst a2 b2
          dsimp only
          cases o.lib.iterations _ _ _ <;> rfl

/-- C87: without the library every call ends with an exception. -/
theorem libpm_unavailable (o : Obj K Cfg) (l g : PMap K) (init : Pose3 K) (h : o.available = false) :
    align o l g init = .throw := by simp [align, h]

/-- C87: what is refused: a different number of layers, an empty map, no settings, no points. -/
theorem libpm_refused (o : Obj K Cfg) (l g : PMap K) (init : Pose3 K)
    (h : l.layers.length ≠ g.layers.length ∨ isEmpty l = true ∨ isEmpty g = true ∨ o.settings = "") :
    align o l g init = .throw := by
  unfold align
  split
  · rfl
  · by_cases h1 : l.layers.length = g.layers.length
    · by_cases h2 : isEmpty l = false ∧ isEmpty g = false
      · have h3 : o.settings = "" := by
          rcases h with h | h | h | h
          · exact absurd h1 h
          · rw [h] at h2; simp at h2
          · rw [h] at h2; simp at h2
          · exact h
        simp [h1, h2, h3, Outcome.assert]
      · simp only [Outcome.assert, if_pos h1, if_neg h2, Outcome.bind]
    · simp [Outcome.assert, h1]

/-- C87 (finding): maps whose only contents are voxel maps are refused though their voxels can be registered. -/
theorem libpm_voxels_refused (o : Obj K Cfg) (l g : PMap K) (init : Pose3 K) (hl : l.lines = 0) (hp : l.planes = 0)
    (h : ∀ e ∈ l.layers, ∃ p, e.2 = some (.voxels p)) : align o l g init = .throw := by
  have hs : size l = 0 := by
    simp only [size, hl, hp, sizePoints, Nat.zero_add]
    apply List.sum_eq_zero
    intro x hx
    obtain ⟨e, he, rfl⟩ := List.mem_map.1 hx
    obtain ⟨p, hp'⟩ := h e he
    rw [hp']
  unfold align
  split
  · rfl
  · rw [hs]
    by_cases h1 : l.layers.length = g.layers.length
    · by_cases h2 : isEmpty l = false ∧ isEmpty g = false
      · by_cases h3 : o.settings = "" <;> simp [h1, h2, h3, Outcome.assert]
      · simp only [Outcome.assert, if_pos h1, if_neg h2, Outcome.bind]
    · simp [Outcome.assert, h1]

/-- a hand-made library and object for the examples: the library's answer and whether it converges are given -/
def demo (q : List (QualEval ℚ (Pose3 ℚ))) (ans : Option (Pose3 ℚ)) : Obj ℚ Unit where
  available := true
  lib := { txt := id, config := fun s => if s = "bad" then none else some (), icp := fun _ _ _ => .ok ans, rigid := fun _ => true
           iterations := fun _ _ _ => some 7 }
  settings := "cfg"
  quality := q
  cov := { ln := ⟨fun _ => 0, fun _ _ => false⟩, junkErr := fun _ => 0, junkZ := 0, fromValues := fun _ => Pose3.identity, finish := fun _ _ => .throw }
  million := 1000000
  six := fun T => ⟨T.t.x, T.t.y, T.t.z, 0, 0, 0⟩

def demoLocal : PMap ℚ := { layers := [("a", some (.cloud [⟨1, 0, 0⟩, ⟨0, 1, 0⟩])), ("b", some .other), ("c", some (.voxels [⟨0, 0, 1⟩]))] }
def demoGlobal : PMap ℚ := { layers := [("a", some (.cloud [⟨0, 1, 0⟩, ⟨-1, 0, 0⟩])), ("b", some .other), ("c", some (.voxels [⟨0, 0, 1⟩]))] }
/-- a quarter turn about z -/
def turn : Pose3 ℚ := ⟨⟨0, -1, 0, 1, 0, 0, 0, 0, 1⟩, ⟨0, 0, 0⟩⟩
/-- a step along x -/
def step : Pose3 ℚ := ⟨⟨1, 0, 0, 0, 1, 0, 0, 0, 1⟩, ⟨1, 0, 0⟩⟩
/-- an evaluator reusing the pairings of ICP -/
def ratioEval (w r : ℚ) : QualEval ℚ (Pose3 ℚ) := ⟨w, fun _ _ _ p => .ok (pairedRatio r p)⟩

/-- Hypothesis met: an accepted call whose answer is the guess composed with the library's transformation. -/
example : (align (demo [ratioEval 1 (1/5)] (some step)) demoLocal demoGlobal turn).Sat
    (fun r => r.pose = ⟨⟨0, -1, 0, 1, 0, 0, 0, 0, 1⟩, ⟨0, 1, 0⟩⟩ ∧ r.nIterations = 7 ∧ r.quality = 0 ∧ r.cov 0 0 = 1000000) := by decide +kernel
example : (align (demo [ratioEval 1 (1/5)] none) demoLocal demoGlobal turn).Sat (fun r => r.pose = turn ∧ r.reason = .stalled) := by decide +kernel
example : (align { demo [ratioEval 1 (1/5)] none with settings := "" } demoLocal demoGlobal turn).isThrow = true := by decide +kernel
example : (align (demo [ratioEval 1 (1/5)] none) { layers := [("v", some (.voxels [⟨0, 0, 1⟩]))] } { layers := [("v", some (.cloud [⟨0, 0, 1⟩]))] } turn).isThrow = true := by
  decide +kernel

theorem compose_point_aux (A B : Pose3 K) (p : P3 K) : (A.compose B).composePoint p = A.composePoint (B.composePoint p) := by
  ext <;> simp [Pose3.compose, Pose3.composePoint, M3.mul, M3.mulVec] <;> ring

/-- C87: if the answer of the library registers the moved local points with the global ones, then the pose which registers the
local points themselves is that answer *after* the initial guess. -/
theorem libpm_right_pose (init t : Pose3 K) (pl pg : List (P3 K)) (h : Registers t (pl.map init.composePoint) pg) :
    Registers (t.compose init) pl pg := by
  simp only [Registers, List.map_map] at h ⊢
  rw [← h]
  apply List.map_congr_left
  intro p _
  exact compose_point_aux _ _ _

/-- C87 (finding): the pose returned is the guess after the library's answer: it registers the local points with the global ones exactly if, on
the local points, the two orders give the same. -/
theorem libpm_pose_right_iff (o : Obj K Cfg) (l g : PMap K) (init : Pose3 K) (r : PmResult K) (h : align o l g init = .ok r)
    (htxt : ∀ p, o.lib.txt p = p) (hrig : o.lib.rigid init = true)
    (hlib : ∀ cfg src dst T, o.lib.icp cfg src dst = .ok T → ∃ t, T = some t ∧ Registers t src dst) :
    ∃ pl pg t, AllPoints l pl ∧ AllPoints g pg ∧ r.pose = init.compose t ∧ Registers (t.compose init) pl pg ∧
      (Registers r.pose pl pg ↔ ∀ p ∈ pl, (init.compose t).composePoint p = (t.compose init).composePoint p) := by
  obtain ⟨_, _, _, pl, pg, cfg, T, h1, h2, _, _, _, h3, h4, _⟩ := libpm_result o l g init r h
  have hid : ∀ x : List (P3 K), x.map o.lib.txt = x := by
    intro x; rw [List.map_congr_left (fun a _ => htxt a)]; simp
  obtain ⟨t, rfl, hr⟩ := hlib _ _ _ _ h3
  rw [hid, hid, if_pos hrig] at hr
  have hright := libpm_right_pose init t pl pg hr
  refine ⟨pl, pg, t, h1, h2, h4 t rfl, hright, ?_⟩
  rw [h4 t rfl, Registers]
  rw [Registers] at hright
  rw [← hright]
  exact ⟨fun e p hp => List.map_inj_left.1 e p hp, fun e => List.map_inj_left.2 e⟩

theorem compose_ident_aux (t : Pose3 K) : (Pose3.identity : Pose3 K).compose t = t := by
  ext <;> simp [Pose3.compose, Pose3.identity, M3.mul, M3.mulVec, M3.one]
theorem ident_compose_aux (t : Pose3 K) : t.compose (Pose3.identity : Pose3 K) = t := by
  ext <;> simp [Pose3.compose, Pose3.identity, M3.mul, M3.mulVec, M3.one]

/-- C87: with the identity as initial guess the pose returned is the right one. -/
theorem libpm_from_identity_partial (o : Obj K Cfg) (l g : PMap K) (r : PmResult K) (h : align o l g Pose3.identity = .ok r)
    (htxt : ∀ p, o.lib.txt p = p) (hrig : o.lib.rigid Pose3.identity = true)
    (hlib : ∀ cfg src dst T, o.lib.icp cfg src dst = .ok T → ∃ t, T = some t ∧ Registers t src dst) :
    ∃ pl pg, AllPoints l pl ∧ AllPoints g pg ∧ Registers r.pose pl pg := by
  obtain ⟨pl, pg, t, h1, h2, _, _, h5⟩ := libpm_pose_right_iff o l g _ r h htxt hrig hlib
  exact ⟨pl, pg, h1, h2, h5.2 (fun p _ => by rw [compose_ident_aux, ident_compose_aux])⟩

/-- the library that answers perfectly, for the example below: the true pose of the local map is the turn followed by the step -/
def truth : Pose3 ℚ := step.compose turn
def cloudA : PMap ℚ := { layers := [("a", some (.cloud [⟨1, 0, 0⟩, ⟨0, 1, 0⟩, ⟨0, 0, 1⟩]))] }
def cloudB : PMap ℚ := { layers := [("a", some (.cloud [⟨1, 1, 0⟩, ⟨0, 0, 0⟩, ⟨1, 0, 1⟩]))] }

/-- C87 (finding), concrete: the guess is the turn, the library answers the step, which registers the moved points perfectly; the
pose returned takes no point to where it belongs, while the guess then the step would. -/
theorem libpm_wrong_order : Registers step ([⟨1, 0, 0⟩, ⟨0, 1, 0⟩, ⟨0, 0, 1⟩].map turn.composePoint) [⟨1, 1, 0⟩, ⟨0, 0, 0⟩, ⟨1, 0, 1⟩] ∧
    Registers truth [⟨1, 0, 0⟩, ⟨0, 1, 0⟩, ⟨0, 0, 1⟩] [⟨1, 1, 0⟩, ⟨0, 0, 0⟩, ⟨1, 0, 1⟩] ∧
    (align (demo [ratioEval 1 (1/5)] (some step)) cloudA cloudB turn).Sat (fun r =>
      ¬ Registers r.pose [⟨1, 0, 0⟩, ⟨0, 1, 0⟩, ⟨0, 0, 1⟩] [⟨1, 1, 0⟩, ⟨0, 0, 0⟩, ⟨1, 0, 1⟩] ∧
      ∀ p ∈ [(⟨1, 0, 0⟩ : P3 ℚ), ⟨0, 1, 0⟩, ⟨0, 0, 1⟩], r.pose.composePoint p ≠ truth.composePoint p) := by
  unfold Registers
  decide +kernel

theorem ratio_loop_aux [IsStrictOrderedRing K] (pose : Pose3 K) (evs : List (QualEval K (Pose3 K)))
    (hr : ∀ e ∈ evs, ∃ m, ∀ a b c p, e.eval a b c p = .ok (pairedRatio m p)) (hw : ∀ e ∈ evs, 0 < e.weight) :
    ∀ w : K, 0 ≤ w → (evs = [] → 0 < w) → evaluateQualityLoop 0 true pose {} evs w 0 = .ok 0 := by
  induction evs with
  | nil =>
    intro w _ h2
    simp [evaluateQualityLoop, Outcome.assert, h2 rfl]
  | cons e es ih =>
    intro w h1 _
    obtain ⟨m, hm⟩ := hr e (by simp)
    have hpos := hw e (by simp)
    have := ih (fun e he => hr e (by simp [he])) (fun e he => hw e (by simp [he])) (w + e.weight) (by linarith) (fun _ => by linarith)
    simp only [evaluateQualityLoop, hm, Outcome.assert, gt_iff_lt, hpos, if_true, Outcome.bind_def, Outcome.bind, pairedRatio, Outcome.pure_def]
    split
    · rfl
    · simpa using this

/-- C87 (finding): with evaluators that rate the ratio of paired points of the ICP's own pairings (the default pipeline), the quality
reported is 0, whatever the registration was. -/
theorem libpm_ratio_quality_zero [IsStrictOrderedRing K] (o : Obj K Cfg) (l g : PMap K) (init : Pose3 K) (r : PmResult K) (h : align o l g init = .ok r)
    (hr : ∀ e ∈ o.quality, ∃ m, ∀ a b c p, e.eval a b c p = .ok (pairedRatio m p)) (hw : ∀ e ∈ o.quality, 0 < e.weight) :
    r.quality = 0 := by
  obtain ⟨_, _, _, _, _, _, _, _, _, _, _, _, _, _, _, _, _, _, _, hq, _⟩ := libpm_result o l g init r h
  unfold evaluateQuality at hq
  simp only [Outcome.bind_def, Outcome.bind_eq_ok, Outcome.assert_eq_ok, exists_const] at hq
  obtain ⟨hne, hq⟩ := hq
  rw [ratio_loop_aux r.pose o.quality hr hw 0 le_rfl (fun e => absurd e hne)] at hq
  injection hq with hq
  exact hq.symm

/-- Hypotheses met: an exact library, and an evaluator of the kind. -/
example : ∀ e ∈ (demo [ratioEval 1 (1/5)] (some step)).quality, ∃ m, ∀ a b c p, e.eval a b c p = .ok (pairedRatio m p) := by
  intro e he
  have : e = ratioEval 1 (1/5) := by simpa [demo] using he
  subst this
  exact ⟨1/5, fun _ _ _ _ => rfl⟩

/-- a library that answers perfectly whenever one rigid step registers the points, else throws -/
def exactLib : Obj ℚ Unit :=
  { demo [ratioEval 1 (1/5)] none with
    lib := { (demo [] none).lib with icp := fun _ src dst => if src.map step.composePoint = dst then .ok (some step) else .throw } }
example : ∀ cfg src dst T, exactLib.lib.icp cfg src dst = .ok T → ∃ t, T = some t ∧ Registers t src dst := by
  intro cfg src dst T h
  simp only [exactLib] at h
  split at h
  · cases h; exact ⟨step, rfl, by assumption⟩
  · cases h
example : (align exactLib cloudA cloudB turn).Sat (fun r => r.pose ≠ truth ∧ r.quality = 0) := by decide +kernel
example : (align exactLib { layers := [("a", some (.cloud [⟨1, 0, 0⟩]))] } { layers := [("a", some (.cloud [⟨2, 0, 0⟩]))] } Pose3.identity).Sat (fun r => r.pose = step) := by
  decide +kernel

end Verif.Pm
