import Verif.Spec.Generator
import Verif.Lemmas.AMap
import Mathlib.Algebra.Order.Ring.Rat
import Mathlib.Tactic.NormNum
import Mathlib.Tactic.Ring
/-
C78: what a generator does with an observation.
-/
set_option linter.unusedSectionVars false
namespace Verif
namespace Props
open Flt Gen Spec
variable {K X : Type} [Field K] [LinearOrder K]

theorem gen_ready {p : Gen.Params K X} (hp : Ready p) (o : Gen.Obs K X) (robot : Option (Pose3 K)) (s : State K X) :
    process p o robot s = match p.custom with
      | none => processDefault p o robot s
      | some make => processCustom p make o robot s := by
  simp only [process, Outcome.assert, hp.1, hp.2, if_true, Outcome.bind]
  rfl

theorem skipDefault_iff (p : Gen.Params K X) (o : Gen.Obs K X) :
    skipDefault p o = true ↔ o.cls ∈ ignoredClasses ∨ ¬ AcceptsObs p o := by
  simp only [skipDefault, Bool.or_eq_true, beq_iff_eq, Bool.not_eq_true', ignoredClasses, List.mem_cons, List.not_mem_nil, or_false,
    AcceptsObs]
  rw [not_and_or, Bool.not_eq_true, Bool.not_eq_true]
  tauto

theorem skipCustom_iff (p : Gen.Params K X) (o : Gen.Obs K X) :
    skipCustom p o = true ↔ o.cls = "mrpt::obs::CObservationComment" ∨ ¬ AcceptsObs p o := by
  simp only [skipCustom, Bool.or_eq_true, beq_iff_eq, Bool.not_eq_true', AcceptsObs]
  rw [not_and_or, Bool.not_eq_true, Bool.not_eq_true]
  tauto

/-- Comments, GPS and poses, and observations that the user's filters do not accept, have no effect at all and are reported as not
handled (no map definition given). -/
theorem gen_skips (p : Gen.Params K X) (hp : Ready p) (hc : p.custom = none) (o : Gen.Obs K X) (robot : Option (Pose3 K))
    (s : State K X) (h : o.cls ∈ ignoredClasses ∨ ¬ AcceptsObs p o) : process p o robot s = .ok (false, s) := by
  rw [gen_ready hp, hc]
  simp [processDefault, (skipDefault_iff p o).2 h]

theorem placed_eq (robot : Option (Pose3 K)) (sensor : Pose3 K) (q : FPt K) :
    movePt (totalPose robot sensor) q = placed robot sensor q := by
  cases robot with
  | none => rfl
  | some R =>
    simp only [movePt, totalPose, placed, place, Pose3.compose, Pose3.composePoint, M3.mul, M3.mulVec, P3.add_x, P3.add_y, P3.add_z,
      FPt.mk.injEq, and_true, true_and]
    refine ⟨?_, ?_, ?_⟩ <;> ring

/-- A cloud of points: every point is appended to the target layer, placed as seen by the sensor on the robot where it is, with its
channels; a new layer is of the class of the cloud; no other layer is touched; the reference time of the attached source is the stamp.
Part of C78, whose other clauses fail in corners (`gen_velodyne_always_handled`, `gen_custom_gps_throws`, `gen_empty_target`, `gen_imu_leaves_layer`). -/
theorem gen_cloud_partial (p : Gen.Params K X) (hp : Ready p) (hc : p.custom = none) (o : Gen.Obs K X) (hw : AcceptsObs p o)
    (hi : o.cls ∉ ignoredClasses) (pc : Cloud K) (sensor : Pose3 K) (hk : o.kind = .cloud (some pc) sensor)
    (robot : Option (Pose3 K)) (s : State K X) (ht : ∀ x, s.map.get p.target ≠ some (.other x)) :
    ∃ s', process p o robot s = .ok (true, s') ∧
      AddedTo p.target { pc with pts := [] } (pc.pts.map (placed robot sensor)) s.map s'.map ∧
      s'.buf = s.buf.map (·.setRef o.stamp) := by
  have hs : skipDefault p o = false := by
    rw [← Bool.not_eq_true, skipDefault_iff]; tauto
  rw [gen_ready hp, hc]
  simp only [processDefault, hs, special, hk, filterPointCloud]
  have key : ∀ c, (s.map.get p.target = some (.pts c) ∨ s.map.get p.target = none ∧ c = { pc with pts := [] }) →
      AddedTo p.target { pc with pts := [] } (pc.pts.map (placed robot sensor)) s.map
        (s.map.set p.target (.pts (insertAnother c pc (totalPose robot sensor)))) := by
    intro c hc'
    refine ⟨⟨c, hc', ?_⟩, fun n hn => by simp [hn]⟩
    simp only [AMap.get_set, if_pos, insertAnother, List.map_map]
    have : (fun q => conform c (movePt (totalPose robot sensor) q)) = (conform c ∘ placed robot sensor) :=
      funext fun q => by rw [placed_eq]; rfl
    rw [this]
  cases hg : s.map.get p.target with
  | none =>
    refine ⟨⟨_, s.buf.map (·.setRef o.stamp)⟩, rfl, ?_, rfl⟩
    exact key _ (Or.inr ⟨hg, rfl⟩)
  | some L =>
    cases L with
    | other x => exact absurd hg (ht x)
    | pts c =>
      refine ⟨⟨_, s.buf.map (·.setRef o.stamp)⟩, rfl, ?_, rfl⟩
      exact key c (Or.inl hg)

/-- A layer which is no cloud of points is refused, and so is an observation without its cloud. -/
theorem gen_cloud_refused (p : Gen.Params K X) (hp : Ready p) (hc : p.custom = none) (o : Gen.Obs K X) (hw : AcceptsObs p o)
    (hi : o.cls ∉ ignoredClasses) (pc : Option (Cloud K)) (sensor : Pose3 K) (hk : o.kind = .cloud pc sensor)
    (robot : Option (Pose3 K)) (s : State K X) (h : pc = none ∨ ∃ x, s.map.get p.target = some (.other x)) :
    process p o robot s = .throw := by
  have hs : skipDefault p o = false := by
    rw [← Bool.not_eq_true, skipDefault_iff]; tauto
  rw [gen_ready hp, hc]
  cases pc with
  | none => simp [processDefault, hs, special, hk]
  | some pc =>
    obtain ⟨x, hx⟩ := h.resolve_left (by simp)
    simp [processDefault, hs, special, hk, filterPointCloud, hx]

/-- The points of many clouds accumulate in the order in which these are given, each at its own pose. -/
theorem gen_accumulates (p : Gen.Params K X) (hp : Ready p) (hc : p.custom = none)
    (l : List (Gen.Obs K X × Option (Pose3 K))) (pcs : Gen.Obs K X → Cloud K) (sensors : Gen.Obs K X → Pose3 K)
    (hl : ∀ e ∈ l, AcceptsObs p e.1 ∧ e.1.cls ∉ ignoredClasses ∧ e.1.kind = .cloud (some (pcs e.1)) (sensors e.1))
    (s : State K X) (c : Cloud K) (ht : s.map.get p.target = some (.pts c)) :
    ∃ s', processAll p l s = .ok s' ∧
      s'.map.get p.target = some (.pts { c with pts := c.pts ++ (l.flatMap fun e =>
        (pcs e.1).pts.map fun q => conform c (placed e.2 (sensors e.1) q)) }) ∧
      (∀ n, n ≠ p.target → s'.map.get n = s.map.get n) ∧
      s'.buf = s.buf.map fun b => (l.map fun e => e.1.stamp).foldl (fun b t => b.setRef t) b := by
  induction l generalizing s c with
  | nil => exact ⟨s, rfl, by simp [ht], fun _ _ => rfl, by simp⟩
  | cons e l ih =>
    obtain ⟨hw, hi, hk⟩ := hl e (List.mem_cons_self ..)
    obtain ⟨s1, h1, ⟨⟨c1, hc1, hg⟩, h2⟩, h3⟩ := gen_cloud_partial p hp hc e.1 hw hi _ _ hk e.2 s (by intro x hx; rw [ht] at hx; cases hx)
    obtain rfl : c1 = c := by
      rcases hc1 with h | ⟨h, -⟩
      · rw [ht] at h; simpa using h.symm
      · rw [ht] at h; cases h
    obtain ⟨s', h4, h5, h6, h7⟩ := ih (fun e he => hl e (List.mem_cons_of_mem _ he)) s1 _ hg
    refine ⟨s', ?_, ?_, fun n hn => (h6 n hn).trans (h2 n hn), ?_⟩
    · simp only [processAll, h1, Outcome.bind]; exact h4
    · rw [h5]
      simp only [List.flatMap_cons, List.map_map, List.append_assoc]
      rfl
    · rw [h7, h3]
      cases s.buf <;> rfl

/-- Moving the robot by `G` moves the points by `G`. -/
theorem gen_moves_with_robot (G R S : Pose3 K) (q : P3 K) :
    place (some (G.compose R)) S q = G.composePoint (place (some R) S q) := by
  simp only [place, Pose3.compose, Pose3.composePoint, M3.mul, M3.mulVec]
  ext <;> simp only [P3.add_x, P3.add_y, P3.add_z] <;> ring

/-- Angular velocities go, in the frame of the vehicle, to the velocity buffer with their stamp; the map is not touched and the
reference time is not changed. -/
theorem gen_imu (p : Gen.Params K X) (hp : Ready p) (hc : p.custom = none) (o : Gen.Obs K X) (hw : AcceptsObs p o)
    (hi : o.cls ∉ ignoredClasses) (x y z : K) (sensor : Pose3 K) (hk : o.kind = .imu (some x) (some y) (some z) sensor)
    (robot : Option (Pose3 K)) (s : State K X) (b : Vel.Buf K (P3 K)) (hb : s.buf = some b) :
    process p o robot s = .ok (true, { s with buf := some (b.addAngular o.stamp (sensor.R.mulVec ⟨x, y, z⟩)) }) := by
  have hs : skipDefault p o = false := by
    rw [← Bool.not_eq_true, skipDefault_iff]; tauto
  rw [gen_ready hp, hc]
  simp [processDefault, hs, special, hk, processIMU, hb]

/-- Kinds with no method of their own: the observation inserts itself into the layer (a plain new cloud if there is none), and the
answer is whether it did; if it did not, that is an exception if the user wants so. -/
theorem gen_general (p : Gen.Params K X) (hp : Ready p) (hc : p.custom = none) (o : Gen.Obs K X) (hw : AcceptsObs p o)
    (hi : o.cls ∉ ignoredClasses) (robot : Option (Pose3 K)) (s : State K X)
    (hk : o.kind = .rotating ∨ o.kind = .scan2d ∨ o.kind = .other ∨ o.kind = .scan3d none ∨
      ∃ x y z S, o.kind = .imu x y z S ∧ (s.buf = none ∨ x = none ∨ y = none ∨ z = none))
    (c : Cloud K) (hne : p.target ≠ "")
    (h0 : s.map.get p.target = some (.pts c) ∨ s.map.get p.target = none ∧ c = ⟨[], false, false, false⟩) :
    ((o.insert robot (.pts c)).1 = false ∧ p.throwUnhandled = true → process p o robot s = .throw) ∧
    ((o.insert robot (.pts c)).1 = true ∨ p.throwUnhandled = false → ∃ s',
      process p o robot s = .ok ((o.insert robot (.pts c)).1, s') ∧
      s'.map.get p.target = some (o.insert robot (.pts c)).2 ∧ (∀ n, n ≠ p.target → s'.map.get n = s.map.get n) ∧
      (OfPoints o.kind → s'.buf = s.buf.map (·.setRef o.stamp)) ∧ (¬ OfPoints o.kind → s'.buf = s.buf)) := by
  have hs : skipDefault p o = false := by
    rw [← Bool.not_eq_true, skipDefault_iff]; tauto
  obtain ⟨m1, hm1, hg1, hn1⟩ : ∃ m1 : FMap K X, getOrCreatePointLayer (some simple) s.map p.target false = .ok (some c, m1) ∧
      m1.get p.target = some (.pts c) ∧ ∀ n, n ≠ p.target → m1.get n = s.map.get n := by
    unfold getOrCreatePointLayer
    rw [if_neg hne]
    rcases h0 with h | ⟨h, rfl⟩
    · rw [h]; exact ⟨_, rfl, h, fun _ _ => rfl⟩
    · rw [h]; exact ⟨_, rfl, by simp [simple], fun n hn => by simp [hn]⟩
  -- the state before the general case
  obtain ⟨s1, hsp, hmap, hbuf, hbuf'⟩ : ∃ s1, (∃ fl s0, special p o robot s = .ok (false, fl, s0) ∧
        (if fl then { s0 with buf := s0.buf.map (·.setRef o.stamp) } else s0) = s1) ∧ s1.map = s.map ∧
      (OfPoints o.kind → s1.buf = s.buf.map (·.setRef o.stamp)) ∧ (¬ OfPoints o.kind → s1.buf = s.buf) := by
    rcases hk with hk | hk | hk | hk | ⟨x, y, z, S, hk, hh⟩
    · exact ⟨_, ⟨true, s, by simp [special, hk], rfl⟩, rfl, fun _ => rfl, fun h => absurd (by rw [hk]; trivial) h⟩
    · exact ⟨_, ⟨true, s, by simp [special, hk], rfl⟩, rfl, fun _ => rfl, fun h => absurd (by rw [hk]; trivial) h⟩
    · exact ⟨_, ⟨false, s, by simp [special, hk], rfl⟩, rfl, fun h => by rw [hk] at h; exact h.elim, fun _ => rfl⟩
    · exact ⟨_, ⟨true, s, by simp [special, hk], rfl⟩, rfl, fun _ => rfl, fun h => absurd (by rw [hk]; trivial) h⟩
    · refine ⟨_, ⟨false, s, ?_, rfl⟩, rfl, fun h => by rw [hk] at h; exact h.elim, fun _ => rfl⟩
      have : processIMU x y z S o.stamp s.buf = none := by
        unfold processIMU
        rcases hh with h | h | h | h <;> rw [h]
        · cases s.buf <;> rfl
        · cases s.buf <;> cases x <;> rfl
        · cases s.buf <;> cases x <;> cases y <;> rfl
      simp [special, hk, this]
  obtain ⟨fl, s0, hsp, hfl⟩ := hsp
  have hpr : process p o robot s = general p o robot s1 := by
    rw [gen_ready hp, hc]
    simp only [processDefault, hs, hsp, Outcome.bind, Bool.false_eq_true, if_false]
    rw [← hfl]
  have hgen : general p o robot s1 = if !(o.insert robot (.pts c)).1 && p.throwUnhandled then .throw
      else .ok ((o.insert robot (.pts c)).1, { s1 with map := AMap.set m1 p.target (o.insert robot (.pts c)).2 }) := by
    unfold general
    rw [hmap, hm1]
    simp only [Outcome.bind, hg1]
    rcases hk with hk | hk | hk | hk | ⟨x, y, z, S, hk, hh⟩ <;> rw [hk]
  rw [hpr, hgen]
  constructor
  · rintro ⟨h1, h2⟩; simp [h1, h2]
  · intro h
    rw [if_neg (by
      rcases h with h | h <;> simp [h])]
    exact ⟨_, rfl, by simp, fun n hn => by simp [hn, hn1 n hn], hbuf, hbuf'⟩

/-- Depth images without points yet: the points of the image, which are already seen from the robot, are appended. -/
theorem gen_depth (p : Gen.Params K X) (hp : Ready p) (hc : p.custom = none) (o : Gen.Obs K X) (hw : AcceptsObs p o)
    (hi : o.cls ∉ ignoredClasses) (f : Option (Pose3 K) → List (P3 K)) (hk : o.kind = .scan3d (some f))
    (robot : Option (Pose3 K)) (s : State K X) (ht : ∀ x, s.map.get p.target ≠ some (.other x)) (hne : p.target ≠ "") :
    ∃ s', process p o robot s = .ok (true, s') ∧
      AddedTo p.target ⟨[], false, false, false⟩ ((f robot).map fun q => ⟨q.x, q.y, q.z, 0, 0, 0⟩) s.map s'.map ∧
      s'.buf = s.buf.map (·.setRef o.stamp) := by
  have hs : skipDefault p o = false := by
    rw [← Bool.not_eq_true, skipDefault_iff]; tauto
  have hid : ∀ q : P3 K, movePt Pose3.identity ⟨q.x, q.y, q.z, 0, 0, 0⟩ = ⟨q.x, q.y, q.z, 0, 0, 0⟩ := by
    intro q
    simp [movePt, Pose3.identity, Pose3.composePoint, M3.one, M3.mulVec]
  rw [gen_ready hp, hc]
  cases hg : s.map.get p.target with
  | none =>
    refine ⟨⟨_, s.buf.map (·.setRef o.stamp)⟩, by
      simp only [processDefault, hs, special, hk, general, getOrCreatePointLayer, hne, hg, Outcome.bind, if_false, if_true,
        AMap.get_set, Bool.false_eq_true, if_pos]
      rfl, ⟨⟨_, Or.inr ⟨hg, rfl⟩, ?_⟩, fun n hn => ?_⟩, rfl⟩
    · simp only [AMap.get_set, if_true, insertAnother, simple, List.map_map, Function.comp_def, hid]
    · simp [hn]
  | some L =>
    cases L with
    | other x => exact absurd hg (ht x)
    | pts c =>
      refine ⟨⟨_, s.buf.map (·.setRef o.stamp)⟩, by
        simp only [processDefault, hs, special, hk, general, getOrCreatePointLayer, hne, hg, Outcome.bind, if_false, if_true,
          Bool.false_eq_true]
        rfl, ⟨⟨_, Or.inl hg, ?_⟩, fun n hn => ?_⟩, rfl⟩
      · simp only [AMap.get_set, if_true, insertAnother, List.map_map, Function.comp_def, hid]
      · simp [hn]

/-- A custom map: the definition is used only if there is no such layer; the layer is there afterwards even if the observation is
skipped; the observation inserts itself. -/
theorem gen_custom (p : Gen.Params K X) (hp : Ready p) (make : Outcome (Layer (Cloud K) X)) (hc : p.custom = some make)
    (o : Gen.Obs K X) (robot : Option (Pose3 K)) (s : State K X) (L : Layer (Cloud K) X)
    (h0 : s.map.get p.target = some L ∨ s.map.get p.target = none ∧ make = .ok L) :
    let skipped := o.cls = "mrpt::obs::CObservationComment" ∨ ¬ AcceptsObs p o
    (¬ skipped ∧ (o.insert robot L).1 = false ∧ p.throwUnhandled = true → process p o robot s = .throw) ∧
    (skipped → ∃ s', process p o robot s = .ok (false, s') ∧ s'.map.get p.target = some L ∧
      (∀ n, n ≠ p.target → s'.map.get n = s.map.get n) ∧ s'.buf = s.buf) ∧
    (¬ skipped ∧ ((o.insert robot L).1 = true ∨ p.throwUnhandled = false) → ∃ s',
      process p o robot s = .ok ((o.insert robot L).1, s') ∧ s'.map.get p.target = some (o.insert robot L).2 ∧
      (∀ n, n ≠ p.target → s'.map.get n = s.map.get n) ∧ s'.buf = s.buf) := by
  obtain ⟨m1, hm1, hg1, hn1⟩ : ∃ m1 : FMap K X, openCustom p make s.map = .ok (L, m1) ∧ m1.get p.target = some L ∧
      ∀ n, n ≠ p.target → m1.get n = s.map.get n := by
    unfold openCustom
    rcases h0 with h | ⟨h, rfl⟩
    · rw [h]; exact ⟨_, rfl, h, fun _ _ => rfl⟩
    · rw [h]; exact ⟨_, rfl, by simp, fun n hn => by simp [hn]⟩
  intro skipped
  have e : process p o robot s = if skipCustom p o then .ok (false, { s with map := m1 })
      else if !(o.insert robot L).1 && p.throwUnhandled then .throw
      else .ok ((o.insert robot L).1, { s with map := m1.set p.target (o.insert robot L).2 }) := by
    rw [gen_ready hp, hc]
    simp only [processCustom, hm1, Outcome.bind]
  have hsk : skipCustom p o = true ↔ skipped := skipCustom_iff p o
  rw [e]
  refine ⟨?_, ?_, ?_⟩
  · rintro ⟨h1, h2, h3⟩
    rw [if_neg (fun h => h1 (hsk.1 h)), if_pos (by simp [h2, h3])]
  · intro h
    rw [if_pos (hsk.2 h)]
    exact ⟨_, rfl, hg1, hn1, rfl⟩
  · rintro ⟨h1, h2⟩
    rw [if_neg (fun h => h1 (hsk.1 h)), if_neg (by rcases h2 with h | h <;> simp [h])]
    exact ⟨_, rfl, by simp, fun n hn => by simp [hn, hn1 n hn], rfl⟩

/-- Before `initialize()`, or with parameters whose formulas have not been evaluated, nothing is processed; a definition that fails
is an exception. -/
theorem gen_refuses (p : Gen.Params K X) (o : Gen.Obs K X) (robot : Option (Pose3 K)) (s : State K X)
    (h : ¬ Ready p ∨ (Ready p ∧ p.custom = some .throw ∧ s.map.get p.target = none)) : process p o robot s = .throw := by
  rcases h with h | ⟨h, hc, hn⟩
  · by_cases h1 : p.realized = true
    · have h2 : ¬ p.initialized = true := fun h2 => h ⟨h1, h2⟩
      simp [process, Outcome.assert, h1, h2]
    · simp [process, Outcome.assert, h1]
  · rw [gen_ready h, hc]
    simp [processCustom, openCustom, hn]

/-- Whatever the observation: no other layer is ever touched. -/
theorem gen_frame (p : Gen.Params K X) (o : Gen.Obs K X) (robot : Option (Pose3 K)) (s s' : State K X) (b : Bool)
    (h : process p o robot s = .ok (b, s')) (n : String) (hn : n ≠ p.target) : s'.map.get n = s.map.get n := by
  have hoc : ∀ (cr : Option (Cloud K)) (m : FMap K X) r, getOrCreatePointLayer cr m p.target false = .ok r →
      AMap.get r.2 n = m.get n := by
    intro cr m r hr
    unfold getOrCreatePointLayer at hr
    split at hr
    · simp at hr
    · split at hr
      · simp only [Outcome.ok.injEq] at hr; rw [← hr]
      · simp at hr
      · split at hr
        · simp at hr
        · simp only [Outcome.ok.injEq] at hr; rw [← hr]; simp [hn]
  have hpc : ∀ pc S (m m' : FMap K X), filterPointCloud p pc S robot m = .ok m' → m'.get n = m.get n := by
    intro pc S m m' hr
    unfold filterPointCloud at hr
    split at hr
    · simp only [Outcome.ok.injEq] at hr; rw [← hr]; simp [hn]
    · simp at hr
    · simp only [Outcome.ok.injEq] at hr; rw [← hr]; simp [hn]
  have hve : ∀ (m m' : FMap K X), filterVelodyne p o robot m = .ok m' → m'.get n = m.get n := by
    intro m m' hr
    unfold filterVelodyne at hr
    rw [Outcome.bind_eq_ok] at hr
    obtain ⟨r, h1, hr⟩ := hr
    split at hr
    · rw [Outcome.bind_eq_ok] at hr
      obtain ⟨_, _, hr⟩ := hr
      simp only [Outcome.ok.injEq] at hr
      rw [← hr]; simp [hn, hoc _ _ _ h1]
    · simp at hr
  have hsp : ∀ r, special p o robot s = .ok r → r.2.2.map.get n = s.map.get n := by
    intro r hr
    unfold special at hr
    split at hr
    · simp only [Outcome.ok.injEq] at hr; rw [← hr]
    · simp at hr
    · rw [Outcome.bind_eq_ok] at hr
      obtain ⟨m, h1, hr⟩ := hr
      simp only [Outcome.ok.injEq] at hr; rw [← hr]; exact hpc _ _ _ _ h1
    · simp only [Outcome.ok.injEq] at hr; rw [← hr]
    · simp only [Outcome.ok.injEq] at hr; rw [← hr]
    · rw [Outcome.bind_eq_ok] at hr
      obtain ⟨m, h1, hr⟩ := hr
      simp only [Outcome.ok.injEq] at hr; rw [← hr]; exact hve _ _ h1
    · split at hr <;> simp only [Outcome.ok.injEq] at hr <;> rw [← hr]
    · simp only [Outcome.ok.injEq] at hr; rw [← hr]
  have hge : ∀ s0 r, general p o robot s0 = .ok r → r.2.map.get n = s0.map.get n := by
    intro s0 r hr
    unfold general at hr
    rw [Outcome.bind_eq_ok] at hr
    obtain ⟨q, h1, hr⟩ := hr
    split at hr
    · split at hr
      · simp only [Outcome.ok.injEq] at hr; rw [← hr]; simp [hn, hoc _ _ _ h1]
      · simp only [] at hr
        split at hr
        · simp at hr
        · simp only [Outcome.ok.injEq] at hr; rw [← hr]; simp [hn, hoc _ _ _ h1]
    · simp at hr
  unfold process at h
  simp only [Outcome.bind_eq_ok] at h
  obtain ⟨_, _, _, _, h⟩ := h
  split at h
  · unfold processDefault at h
    split at h
    · simp only [Outcome.ok.injEq, Prod.mk.injEq] at h; rw [← h.2]
    · rw [Outcome.bind_eq_ok] at h
      obtain ⟨r, h1, h⟩ := h
      have e1 : (if r.2.1 then ({ r.2.2 with buf := r.2.2.buf.map (·.setRef o.stamp) } : State K X) else r.2.2).map = r.2.2.map := by
        split <;> rfl
      simp only [] at h
      split at h
      · simp only [Outcome.ok.injEq, Prod.mk.injEq] at h
        rw [← h.2, e1]; exact hsp r h1
      · have := hge _ _ h
        simp only [e1] at this
        exact this.trans (hsp r h1)
  · unfold processCustom at h
    rw [Outcome.bind_eq_ok] at h
    obtain ⟨r, h1, h⟩ := h
    have e1 : r.2.get n = s.map.get n := by
      unfold openCustom at h1
      split at h1
      · simp only [Outcome.ok.injEq] at h1; rw [← h1]
      · rw [Outcome.bind_eq_ok] at h1
        obtain ⟨L, _, h1⟩ := h1
        simp only [Outcome.ok.injEq] at h1; rw [← h1]; simp [hn]
    split at h
    · simp only [Outcome.ok.injEq, Prod.mk.injEq] at h; rw [← h.2]; exact e1
    · simp only [] at h
      split at h
      · simp at h
      · simp only [Outcome.ok.injEq, Prod.mk.injEq] at h; rw [← h.2]; simp [hn, e1]

/-- Velodyne scans: they insert themselves into the layer, which is made with intensities, rings and times if there is none; a layer
without these channels is refused. -/
theorem gen_velodyne (p : Gen.Params K X) (hp : Ready p) (hc : p.custom = none) (o : Gen.Obs K X) (hw : AcceptsObs p o)
    (hi : o.cls ∉ ignoredClasses) (hk : o.kind = .velodyne) (robot : Option (Pose3 K)) (s : State K X) (hne : p.target ≠ "") :
    (∀ c, (s.map.get p.target = some (.pts c) ∧ c.hasI = true ∧ c.hasRing = true ∧ c.hasT = true ∨
        s.map.get p.target = none ∧ c = ⟨[], true, true, true⟩) →
      ∃ s', process p o robot s = .ok (true, s') ∧ s'.map.get p.target = some (o.insert robot (.pts c)).2 ∧
        (∀ n, n ≠ p.target → s'.map.get n = s.map.get n) ∧ s'.buf = s.buf.map (·.setRef o.stamp)) ∧
    (∀ L, s.map.get p.target = some L →
      (∀ c, L = .pts c → ¬ (c.hasI = true ∧ c.hasRing = true ∧ c.hasT = true)) → process p o robot s = .throw) := by
  have hs : skipDefault p o = false := by
    rw [← Bool.not_eq_true, skipDefault_iff]; tauto
  rw [gen_ready hp, hc]
  constructor
  · rintro c (⟨hg, h1, h2, h3⟩ | ⟨hg, rfl⟩)
    · refine ⟨⟨AMap.set s.map p.target (o.insert robot (.pts c)).2, s.buf.map (·.setRef o.stamp)⟩, ?_, by simp,
        fun n hn => by simp [hn], rfl⟩
      simp only [processDefault, hs, special, hk, filterVelodyne, getOrCreatePointLayer, hne, hg, Outcome.bind, if_false, if_true,
        Bool.false_eq_true, Outcome.assert, h1, h2, h3, and_self]
    · refine ⟨⟨AMap.set (AMap.set s.map p.target (.pts ⟨[], true, true, true⟩)) p.target
        (o.insert robot (.pts ⟨[], true, true, true⟩)).2, s.buf.map (·.setRef o.stamp)⟩, ?_, by simp,
        fun n hn => by simp [hn], rfl⟩
      simp only [processDefault, hs, special, hk, filterVelodyne, getOrCreatePointLayer, hne, hg, Outcome.bind, if_false, if_true,
        AMap.get_set, Bool.false_eq_true, Outcome.assert, xyzirt, and_self]
  · intro L hg hL
    cases L with
    | other x => simp [processDefault, hs, special, hk, filterVelodyne, getOrCreatePointLayer, hne, hg]
    | pts c =>
      have := hL c rfl
      simp [processDefault, hs, special, hk, filterVelodyne, getOrCreatePointLayer, hne, hg, Outcome.assert, this]

/-! ### where it falls short -/

/-- A Velodyne scan of which nothing could be inserted is reported as handled, even if the user asked for an exception. -/
theorem gen_velodyne_always_handled (p : Gen.Params K X) (hp : Ready p) (hc : p.custom = none) (o : Gen.Obs K X) (hw : AcceptsObs p o)
    (hi : o.cls ∉ ignoredClasses) (hk : o.kind = .velodyne) (robot : Option (Pose3 K)) (s : State K X) (hne : p.target ≠ "")
    (ht : s.map.get p.target = none) (hins : ∀ r L, o.insert r L = (false, L)) :
    ∃ s', process p o robot s = .ok (true, s') ∧ s'.map.get p.target = some (.pts ⟨[], true, true, true⟩) := by
  have hs : skipDefault p o = false := by
    rw [← Bool.not_eq_true, skipDefault_iff]; tauto
  rw [gen_ready hp, hc]
  refine ⟨⟨_, s.buf.map (·.setRef o.stamp)⟩, by
    simp only [processDefault, hs, special, hk, filterVelodyne, getOrCreatePointLayer, hne, ht, Outcome.bind, if_false, if_true,
      AMap.get_set, Bool.false_eq_true, Outcome.assert, xyzirt, and_self, hins]
    rfl, ?_⟩
  simp

/-- With a custom map, GPS and pose observations are not skipped, as they are without: if they cannot be inserted and the user asked
for exceptions, they are exceptions. -/
theorem gen_custom_gps_throws (p : Gen.Params K X) (hp : Ready p) (L : Layer (Cloud K) X) (hc : p.custom = some (.ok L))
    (o : Gen.Obs K X) (hcls : o.cls = "mrpt::obs::CObservationGPS" ∨ o.cls = "mrpt::obs::CObservationRobotPose")
    (hw : AcceptsObs p o) (ht : p.throwUnhandled = true) (hins : ∀ r L, o.insert r L = (false, L)) (robot : Option (Pose3 K))
    (s : State K X) (h0 : s.map.get p.target = some L ∨ s.map.get p.target = none) :
    process p o robot s = .throw ∧ process { p with custom := none } o robot s = .ok (false, s) := by
  constructor
  · refine (gen_custom p hp _ hc o robot s L ?_).1 ⟨?_, ?_, ht⟩
    · rcases h0 with h | h
      · exact Or.inl h
      · exact Or.inr ⟨h, rfl⟩
    · rintro (h | h)
      · rcases hcls with h' | h' <;> rw [h'] at h <;> simp at h
      · exact h hw
    · simp [hins]
  · refine gen_skips { p with custom := none } hp rfl o robot s (Or.inl ?_)
    rcases hcls with h | h <;> rw [h] <;> simp [ignoredClasses]

/-- An empty target name is refused for all kinds of observations but clouds, for which a layer without a name is made. -/
theorem gen_empty_target (p : Gen.Params K X) (hp : Ready p) (hc : p.custom = none) (hn : p.target = "") (o : Gen.Obs K X)
    (hw : AcceptsObs p o) (hi : o.cls ∉ ignoredClasses) (robot : Option (Pose3 K)) (s : State K X) :
    ((o.kind = .rotating ∨ o.kind = .scan2d ∨ o.kind = .velodyne ∨ o.kind = .other) → process p o robot s = .throw) ∧
    ∀ pc S, o.kind = .cloud (some pc) S → s.map.get "" = none → ∃ s' c, process p o robot s = .ok (true, s') ∧
      s'.map.get "" = some (.pts c) := by
  have hs : skipDefault p o = false := by
    rw [← Bool.not_eq_true, skipDefault_iff]; tauto
  constructor
  · intro hk
    rw [gen_ready hp, hc]
    rcases hk with hk | hk | hk | hk <;>
      simp [processDefault, hs, special, hk, general, filterVelodyne, getOrCreatePointLayer, hn]
  · intro pc S hk hg
    obtain ⟨s', h1, ⟨⟨c, -, h2⟩, -⟩, -⟩ := gen_cloud_partial p hp hc o hw hi pc S hk robot s (by rw [hn, hg]; simp)
    exact ⟨s', _, h1, hn ▸ h2⟩

/-- Angular velocities without a parameter source (or incomplete ones) leave an empty layer behind. -/
theorem gen_imu_leaves_layer (p : Gen.Params K X) (hp : Ready p) (hc : p.custom = none) (o : Gen.Obs K X) (hw : AcceptsObs p o)
    (hi : o.cls ∉ ignoredClasses) (x y z : Option K) (S : Pose3 K) (hk : o.kind = .imu x y z S) (robot : Option (Pose3 K))
    (s : State K X) (hb : s.buf = none) (hne : p.target ≠ "") (ht : s.map.get p.target = none)
    (hth : p.throwUnhandled = false) (hins : ∀ r L, o.insert r L = (false, L)) :
    ∃ s', process p o robot s = .ok (false, s') ∧ s'.map.get p.target = some (.pts ⟨[], false, false, false⟩) := by
  obtain ⟨-, h⟩ := gen_general p hp hc o hw hi robot s
    (Or.inr (Or.inr (Or.inr (Or.inr ⟨x, y, z, S, hk, Or.inl hb⟩)))) _ hne (Or.inr ⟨ht, rfl⟩)
  obtain ⟨s', h1, h2, -⟩ := h (Or.inr hth)
  rw [hins] at h1 h2
  exact ⟨s', h1, h2⟩

/-! ### examples -/

/-- a quarter turn about z and a shift -/
def exTurn : Pose3 ℚ := ⟨⟨0, -1, 0, 1, 0, 0, 0, 0, 1⟩, ⟨10, 0, 0⟩⟩
def exShift : Pose3 ℚ := ⟨M3.one, ⟨0, 0, 2⟩⟩
def exObs (k : Gen.Kind ℚ) : Gen.Obs ℚ Unit :=
  { cls := "mrpt::obs::CObservationPointCloud", label := "lidar", stamp := 5, kind := k, insert := fun _ L => (false, L) }
def exGen : Gen.Params ℚ Unit := { target := "raw" }
def exCloud : Cloud ℚ := { pts := [⟨1, 2, 3, 7, 0, 0⟩], hasI := true, hasRing := false, hasT := false }

/-- the sensor is two metres up; the robot has turned and moved -/
example : (process exGen (exObs (.cloud (some exCloud) exShift)) (some exTurn) ⟨[], none⟩).Sat fun r =>
    r.1 = true ∧ AMap.get r.2.map "raw" = some (.pts ⟨[⟨8, 1, 5, 7, 0, 0⟩], true, false, false⟩) := by decide +kernel
example : Ready exGen ∧ AcceptsObs exGen (exObs .rotating) ∧ (exObs .rotating).cls ∉ ignoredClasses := by
  refine ⟨⟨rfl, rfl⟩, ⟨rfl, rfl⟩, ?_⟩
  simp [exObs, ignoredClasses]
/-- two clouds, at two poses -/
example : (processAll exGen [(exObs (.cloud (some exCloud) exShift), some exTurn), (exObs (.cloud (some exCloud) exShift), none)]
    ⟨[], none⟩).Sat fun r =>
    AMap.get r.map "raw" = some (.pts ⟨[⟨8, 1, 5, 7, 0, 0⟩, ⟨1, 2, 5, 7, 0, 0⟩], true, false, false⟩) := by decide +kernel
/-- a gyroscope mounted a quarter turn off -/
example : (process exGen (exObs (.imu (some 1) (some 0) (some 0) exTurn)) none
    ⟨[], some { maxWindow := 1, tol := 1, refTime := 0 }⟩).Sat fun r =>
    r.1 = true ∧ r.2.map = [] ∧ (r.2.buf.map fun b => (b.ang, b.refTime)) = some ([(5, ⟨0, 1, 0⟩)], 0) := by decide +kernel
/-- a custom map: made although the observation is skipped -/
example : (process { exGen with custom := some (.ok (.other ())), labelOk := fun _ => false } (exObs .rotating) none ⟨[], none⟩).Sat
    fun r => r.1 = false ∧ AMap.get r.2.map "raw" = some (.other ()) := by decide +kernel

end Props
end Verif
