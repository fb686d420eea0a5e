import Mathlib.Algebra.Order.Field.Basic
import Mathlib.Algebra.Order.Floor.Ring
import Mathlib.Tactic.Ring
import Mathlib.Tactic.Linarith
import Verif.Model.EdgeGen
import Verif.Model.Matchers
import Verif.Model.Deskew
import Verif.Model.Quality
import Verif.Model.PointsEigen
import Verif.Model.MapUtil
import Verif.Model.SmCli
import Verif.Model.Visual
import Verif.Model.Sm2mm
import Verif.Model.YamlIO
import Verif.Model.MapFile
import Verif.Model.MoreFilters
import Verif.Lemmas.Matchers
import Verif.Lemmas.Icp
/-
What the small functions do that occur both in the model and in the statements of the properties: each is characterised here
by what can be observed of it, so that the statements using it do not depend on how it is written.
-/
namespace Verif
namespace Props
open Flt Vox

section
variable {K X : Type}

/-- Points inserted in a cloud keep their position, and the channels that the class of the cloud has; the others read 0. -/
theorem inserted_point [Zero K] (c : Cloud K) (p q : FPt K) :
    conform c p = q ↔ q.x = p.x ∧ q.y = p.y ∧ q.z = p.z ∧
      (c.hasI = true → q.i = p.i) ∧ (c.hasI = false → q.i = 0) ∧
      (c.hasRing = true → q.ring = p.ring) ∧ (c.hasRing = false → q.ring = 0) ∧
      (c.hasT = true → q.t = p.t) ∧ (c.hasT = false → q.t = 0) := by
  obtain ⟨ps, a, b, d⟩ := c
  obtain ⟨qx, qy, qz, qi, qr, qt⟩ := q
  cases a <;> cases b <;> cases d <;> simp [conform, eq_comm]

example : conform ({ hasI := false } : Cloud ℚ) ⟨1, 2, 3, 4, 5, 6⟩ = ⟨1, 2, 3, 0, 5, 6⟩ := by decide +kernel

/-- The coordinates of a cell are truncated towards zero. -/
theorem truncated_index [Field K] [LinearOrder K] [IsStrictOrderedRing K] [FloorRing K] (q : K) (z : ℤ) :
    truncZ q = z ↔ (0 ≤ q ∧ (z : K) ≤ q ∧ q < z + 1) ∨ (q < 0 ∧ q ≤ z ∧ (z : K) - 1 < q) := by
  unfold truncZ
  split
  · rename_i h
    rw [Int.floor_eq_iff]
    constructor
    · rintro ⟨a, b⟩; exact Or.inl ⟨h, a, b⟩
    · rintro (⟨_, a, b⟩ | ⟨h', _⟩)
      · exact ⟨a, b⟩
      · exact absurd h (not_le.2 h')
  · rename_i h
    have h' : q < 0 := lt_of_not_ge h
    rw [Int.ceil_eq_iff]
    constructor
    · rintro ⟨a, b⟩; exact Or.inr ⟨h', b, a⟩
    · rintro (⟨h2, _⟩ | ⟨_, a, b⟩)
      · exact absurd h2 h
      · exact ⟨b, a⟩

/-- A layer seen as a cloud: its points, their number, and an empty cloud of its class. -/
theorem layer_as_cloud (m : FMap K X) (n : String) (c : Cloud K) (h : m.get n = some (.pts c)) :
    ptsOf m n = c.pts ∧ sizeNow m n = c.pts.length ∧
      (classOf m n).pts = [] ∧ (classOf m n).hasI = c.hasI ∧ (classOf m n).hasRing = c.hasRing ∧
      (classOf m n).hasT = c.hasT := by
  simp [ptsOf, sizeNow, classOf, h, emptyLike]

/-! ### local points considered by the matchers -/

/-- All local points are considered, moved by the pose, unless they are more than the limit: then as many as the limit says,
those of the shuffled indices, each with its own index. -/
theorem local_points_considered (c : PtsCfg K) (hs : ∀ m, (c.shuffle m).Perm (List.range m)) (tf : P3 K → P3 K) (pts : List (P3 K)) :
    ∃ tl, transformLocal c tf pts = .ok tl ∧
      (c.maxLocal = 0 ∨ pts.length ≤ c.maxLocal → tl.xs = pts.map tf ∧ ∀ i, tl.index i = .ok i) ∧
      (c.maxLocal ≠ 0 ∧ c.maxLocal < pts.length → tl.xs.length = c.maxLocal) ∧
      ∀ i x, tl.xs[i]? = some x → ∃ l p, tl.index i = .ok l ∧ pts[l]? = some p ∧ x = tf p := by
  obtain ⟨tl, h1, h2, h3, h4⟩ := Lemmas.transformLocal_good c hs tf pts
  refine ⟨tl, h1, fun h => ⟨(h3 h).2, fun i => by simp [TLocal.index, (h3 h).1]⟩,
    fun h => (h4 (by omega)).2, fun i x hx => ?_⟩
  obtain ⟨l, hl, hlt, _⟩ := h2.tot i (List.getElem?_eq_some_iff.1 hx).1
  obtain ⟨p, hp, hq⟩ := h2.idx i l x hl hx
  exact ⟨l, p, hl, hp, hq⟩

example (p : P3 ℚ) : ∃ tl, transformLocal { eps := (0 : ℚ), maxLocal := 1 } (fun q => q + p) [⟨0, 0, 0⟩, ⟨1, 0, 0⟩] = .ok tl ∧ tl.xs.length = 1 := by
  obtain ⟨tl, h, _, h2, _⟩ := local_points_considered ({ eps := (0 : ℚ), maxLocal := 1 }) (fun _ => .refl _) (fun q => q + p) [⟨0, 0, 0⟩, ⟨1, 0, 0⟩]
  exact ⟨tl, h, h2 (by decide)⟩

/-- Reading a flag: of a layer without flags an exception; otherwise the flag of that point. -/
theorem flag_read (f : AMap String BitField) (layer : String) (i : Nat) :
    (f.get layer = none → flagAt f layer i = .throw) ∧
    (∀ v, f.get layer = some ⟨some v, []⟩ → ∀ b, flagAt f layer i = .ok b ↔ v[i]? = some b) ∧
    (∀ l, f.get layer = some ⟨none, l⟩ → flagAt f layer i = .ok (decide (i ∈ l))) := by
  refine ⟨fun h => by simp [flagAt, h], fun v h b => ?_, fun l h => by simp [flagAt, h, BitField.get]⟩
  simp only [flagAt, h, BitField.get]
  rcases v[i]? with _ | x <;> simp

/-- The neighbours left by the distance filter of the line matcher, for distances in increasing order: those not beyond the
threshold. -/
theorem line_cut [Field K] [LinearOrder K] (thrSq : K) (ds : List K) (hs : ds.Pairwise (· ≤ ·)) :
    lnCut thrSq ds = (ds.filter fun d => decide (d ≤ thrSq)).length := by
  have hw : ∀ l : List K, l.Pairwise (· ≤ ·) →
      (l.takeWhile fun d => !decide (d > thrSq)) = l.filter fun d => decide (d ≤ thrSq) := by
    intro l
    induction l with
    | nil => simp
    | cons a l ih =>
      intro h
      rw [List.pairwise_cons] at h
      by_cases ha : a ≤ thrSq
      · rw [List.takeWhile_cons_of_pos (by simpa using ha), List.filter_cons_of_pos (by simpa using ha), ih h.2]
      · rw [List.takeWhile_cons_of_neg (by simpa using ha), List.filter_cons_of_neg (by simpa using ha)]
        symm
        rw [List.filter_eq_nil_iff]
        intro b hb
        have := h.1 b hb
        simp only [decide_eq_true_eq, not_le]
        exact lt_of_lt_of_le (not_le.1 ha) this
  unfold lnCut
  rcases hl : ds.getLast? with _ | last
  · rw [List.getLast?_eq_none_iff] at hl
    simp [hl]
  · simp only
    split
    · rename_i hlt
      congr 1
      symm
      rw [List.filter_eq_self]
      intro a ha
      obtain ⟨hne, hlast⟩ := List.getLast?_eq_some_iff.1 hl
      rw [hlast] at hs ha
      rcases List.mem_append.1 ha with h | h
      · have := (List.pairwise_append.1 hs).2.2 a h last (by simp)
        simpa using le_trans this (le_of_lt hlt)
      · simp only [List.mem_singleton] at h
        subst h
        simpa using le_of_lt hlt
    · rw [hw ds hs]

example : lnCut (4 : ℚ) [1, 4, 900] = 2 := by decide +kernel

/-! ### edges of images -/

/-- A point is placed on the map with the pose of the robot, if there is one: rotated, then moved. -/
theorem point_placed [Field K] (robot : Option (Pose3 K)) (p : P3 K) :
    (robot = none → Edge.posed robot p = p) ∧
    (∀ T, robot = some T →
      (Edge.posed robot p).x = T.R.a00 * p.x + T.R.a01 * p.y + T.R.a02 * p.z + T.t.x ∧
      (Edge.posed robot p).y = T.R.a10 * p.x + T.R.a11 * p.y + T.R.a12 * p.z + T.t.y ∧
      (Edge.posed robot p).z = T.R.a20 * p.x + T.R.a21 * p.y + T.R.a22 * p.z + T.t.z) := by
  refine ⟨fun h => by simp [Edge.posed, h], fun T h => ?_⟩
  subst h
  exact ⟨rfl, rfl, rfl⟩

/-- The points of a depth image: the viewing direction of the centre of the block, times its mean range in metres, from the
position of the sensor; then placed with the robot. -/
theorem depth_point [Field K] (o : Edge.Rgbd K) (robot : Option (Pose3 K)) (rd cd : Nat) :
    ∃ p, Edge.unproject o robot rd cd = Edge.posed robot p ∧
      p.x = o.trans.x + o.units * Edge.blockMean o.range rd cd * (o.lut (o.cols * (8 * rd + 4) + (8 * cd + 4))).x ∧
      p.y = o.trans.y + o.units * Edge.blockMean o.range rd cd * (o.lut (o.cols * (8 * rd + 4) + (8 * cd + 4))).y ∧
      p.z = o.trans.z + o.units * Edge.blockMean o.range rd cd * (o.lut (o.cols * (8 * rd + 4) + (8 * cd + 4))).z := by
  refine ⟨_, rfl, ?_, ?_, ?_⟩ <;>
    rw [show (8 * rd + 4) = rd * 8 + 4 by ring, show 8 * cd + 4 = cd * 8 + 4 by ring, Nat.mul_comm o.cols] <;> ring

/-- The range of a block of 8 × 8 pixels: the mean of the valid ones rounded down, 0 if none is valid. -/
theorem block_mean (range : Nat → Nat → Nat) (rd cd : Nat) :
    ∃ vals : List Nat, vals = ((List.range 64).map fun k => range (8 * rd + k / 8) (8 * cd + k % 8)).filter (0 < ·) ∧
      (vals = [] → Edge.blockMean range rd cd = 0) ∧
      (vals ≠ [] → Edge.blockMean range rd cd * vals.length ≤ vals.sum ∧
        vals.sum < (Edge.blockMean range rd cd + 1) * vals.length) := by
  have hv : ((List.range 8).flatMap fun i => (List.range 8).map fun j => range (rd * 8 + i) (cd * 8 + j)).filter (· ≠ 0) =
      ((List.range 64).map fun k => range (8 * rd + k / 8) (8 * cd + k % 8)).filter (0 < ·) := by
    have h0 : ((List.range 8).flatMap fun i => (List.range 8).map fun j => (i, j)) =
        (List.range 64).map fun k => (k / 8, k % 8) := by decide
    have h1 : ((List.range 8).flatMap fun i => (List.range 8).map fun j => range (rd * 8 + i) (cd * 8 + j)) =
        (((List.range 8).flatMap fun i => (List.range 8).map fun j => (i, j))).map
          fun e => range (rd * 8 + e.1) (cd * 8 + e.2) := by
      rw [List.map_flatMap]; simp [List.map_map, Function.comp_def]
    rw [h1, h0, List.map_map]
    have h2 : (fun e : Nat × Nat => range (rd * 8 + e.1) (cd * 8 + e.2)) ∘ (fun k => (k / 8, k % 8)) =
        fun k => range (8 * rd + k / 8) (8 * cd + k % 8) := by
      funext k; simp [Nat.mul_comm]
    rw [h2]
    apply List.filter_congr
    intro x _
    simp [Nat.pos_iff_ne_zero]
  refine ⟨_, rfl, fun h => ?_, fun h => ?_⟩
  · unfold Edge.blockMean
    rw [hv, h]; rfl
  · unfold Edge.blockMean
    simp only [hv]
    have hl := List.length_pos_iff.2 h
    rw [if_neg (by omega)]
    exact ⟨Nat.div_mul_le_self _ _, Nat.lt_mul_of_div_lt (Nat.lt_succ_self _) hl⟩

/-- First and second differences of a row of ranges, in units of 1/256; a difference with an invalid range is 0. -/
theorem range_differences (R : Nat → Nat) :
    Edge.decDiff R 0 = 0 ∧ Edge.decDiff2 R 0 = 0 ∧
    (∀ i, R (i + 1) = 0 ∨ R i = 0 → Edge.decDiff R (i + 1) = 0) ∧
    (∀ i, R (i + 1) ≠ 0 → R i ≠ 0 → Edge.decDiff R (i + 1) = 256 * R (i + 1) - 256 * R i) ∧
    (∀ i, Edge.decDiff2 R (i + 1) + Edge.decDiff R i = Edge.decDiff R (i + 1)) := by
  refine ⟨by simp [Edge.decDiff], by simp [Edge.decDiff2], ?_, ?_, ?_⟩
  · rintro i (h | h) <;> simp [Edge.decDiff, h]
  · intro i h1 h2
    simp [Edge.decDiff, h1, h2]; ring
  · intro i
    simp [Edge.decDiff2]

/-- The clouds made by these generators have positions only. -/
theorem edge_clouds [Field K] (ps : List (FPt K)) (p : P3 K) :
    (Edge.simpleOf ps).pts = ps ∧ (Edge.simpleOf ps).hasI = false ∧ (Edge.simpleOf ps).hasRing = false ∧
      (Edge.simpleOf ps).hasT = false ∧ (Edge.simpleCloud : Cloud K).pts = [] ∧ Edge.bare p = ⟨p.x, p.y, p.z, 0, 0, 0⟩ :=
  ⟨rfl, rfl, rfl, rfl, rfl, rfl⟩

/-- A scan is consistent: it has points, and the matrices of points and of ranges have the declared size. -/
theorem scan_consistent (s : Edge.RotScan K) :
    s.consistent ↔ (s.ptsRows, s.ptsCols) = (s.rows, s.cols) ∧ (s.riRows, s.riCols) = (s.rows, s.cols) ∧ 0 < s.rows ∧ 0 < s.cols := by
  unfold Edge.RotScan.consistent
  simp only [Prod.mk.injEq]
  omega

/-! ### others -/

/-- The points of an image are those seen from a pose: rotated, then moved. -/
theorem point_seen [Field K] (T : Pose3 K) (p : P3 K) :
    Qual.viewed none p = p ∧
    (Qual.viewed (some T) p).x = T.R.a00 * p.x + T.R.a01 * p.y + T.R.a02 * p.z + T.t.x ∧
    (Qual.viewed (some T) p).y = T.R.a10 * p.x + T.R.a11 * p.y + T.R.a12 * p.z + T.t.y ∧
    (Qual.viewed (some T) p).z = T.R.a20 * p.x + T.R.a21 * p.y + T.R.a22 * p.z + T.t.z :=
  ⟨rfl, rfl, rfl, rfl⟩

/-- Poses: a point is rotated and moved; a composition applies the second pose first; the identity moves nothing. -/
theorem pose_vocabulary [CommRing K] (A B : Pose3 K) (p : P3 K) :
    A.composePoint p = ⟨A.R.a00 * p.x + A.R.a01 * p.y + A.R.a02 * p.z + A.t.x,
      A.R.a10 * p.x + A.R.a11 * p.y + A.R.a12 * p.z + A.t.y, A.R.a20 * p.x + A.R.a21 * p.y + A.R.a22 * p.z + A.t.z⟩ ∧
    (A.compose B).composePoint p = A.composePoint (B.composePoint p) ∧
    (Pose3.identity : Pose3 K).composePoint p = p := by
  refine ⟨rfl, ?_, ?_⟩
  · ext <;> simp [Pose3.compose, Pose3.composePoint, M3.mul, M3.mulVec] <;> ring
  · ext <;> simp [Pose3.identity, Pose3.composePoint, M3.one, M3.mulVec]

/-- The three classes of voxels by the ratios of their eigenvalues `e0 ≤ e1 ≤ e2`, for a positive smallest one. -/
theorem voxel_classes [Field K] [LinearOrder K] [IsStrictOrderedRing K] (p : Eig.EpParams K) (e0 e1 e2 : K) (h0 : 0 < e0) :
    (Eig.classify p (e0, e1, e2) = .edge ↔ e2 / e0 < p.maxE20 ∧ e1 / e0 < p.maxE10) ∧
    (Eig.classify p (e0, e1, e2) = .plane ↔ ¬ (e2 / e0 < p.maxE20 ∧ e1 / e0 < p.maxE10) ∧
      p.minE20 < e2 / e0 ∧ p.minE10 < e1 / e0 ∧ p.minE1 < e1) := by
  rw [div_lt_iff₀ h0, div_lt_iff₀ h0, lt_div_iff₀ h0, lt_div_iff₀ h0]
  unfold Eig.classify
  constructor
  · split
    · rename_i h; simpa using h
    · split <;> rename_i h _ <;> simp only [reduceCtorEq, false_iff] <;> exact h
  · split
    · rename_i h; simp only [reduceCtorEq, false_iff]; exact fun h' => h'.1 h
    · rename_i h
      split
      · rename_i h2; simp only [true_iff]; exact ⟨h, h2⟩
      · rename_i h2; simp only [reduceCtorEq, false_iff]; exact fun h' => h2 h'.2

/-- Setting the reference time of the velocity buffer changes nothing else. -/
theorem reference_time {V : Type} (b : Vel.Buf K V) (t : K) :
    (b.setRef t).refTime = t ∧ (b.setRef t).lin = b.lin ∧ (b.setRef t).ang = b.ang ∧ (b.setRef t).maxWindow = b.maxWindow :=
  ⟨rfl, rfl, rfl, rfl⟩

/-- The closest sample within a tolerance. -/
theorem closest_within {V : Type} [Field K] [LinearOrder K] (m : AMap K V) (x tol t : K) :
    Vel.findClosestTol m x tol = some t ↔ Vel.findClosest m x = some t ∧ |t - x| ≤ tol := by
  unfold Vel.findClosestTol
  rcases Vel.findClosest m x with _ | s
  · simp
  · simp only [gt_iff_lt]
    split
    · rename_i h
      simp only [Option.some.injEq, reduceCtorEq, false_iff, not_and, not_le]
      rintro rfl; exact h
    · rename_i h
      simp only [Option.some.injEq]
      constructor
      · rintro rfl; exact ⟨rfl, not_lt.1 h⟩
      · exact fun h => h.1

/-- The coordinate used for colours. -/
theorem coordinate_used (p : P3 K) : Viz.coordOf 0 p = p.x ∧ Viz.coordOf 1 p = p.y ∧ Viz.coordOf 2 p = p.z := ⟨rfl, rfl, rfl⟩

/-- Columns that the formats of a text file need. -/
theorem columns_needed (format : String) (n : Nat) :
    Tool.minCols format = some n ↔ (format = "xyz" ∧ n = 3) ∨ (format = "xyzi" ∧ n = 4) ∨
      (format ∈ ["xyzirt", "xyzrgb", "xyzrgb_normalized"] ∧ n = 6) := by
  unfold Tool.minCols
  split
  · rename_i h; subst h; simp [eq_comm]
  · split
    · rename_i h; subst h; simp [eq_comm]
    · split
      · rename_i h1 h2 h3
        simp only [List.mem_cons, List.not_mem_nil, or_false, h1, h2, h3, false_and, true_and, false_or, Option.some.injEq]
        exact eq_comm
      · rename_i h1 h2 h3
        simp [h1, h2, h3]

/-- Looking up a key of a YAML map; anything else has no keys. -/
theorem yaml_find (y : YamlIO.Y K) (k : String) (v : YamlIO.Y K) :
    y.find k = some v ↔ ∃ m, y = .map m ∧ AMap.get m k = some v := by
  cases y <;> simp [YamlIO.Y.find]

/-- The text identifying a file of georeferencing. -/
theorem georef_magic (s : String) : s = YamlIO.magic ↔ s = "mp2p_icp::Georeferencing" := Iff.rfl

/-- The separator of layer names is the vertical bar. -/
theorem rename_separator : MapFile.bar.val = '|'.toNat := rfl

/-- The points of a layer as the merging filter sees them. -/
theorem merged_points (E : MoreF.MergeExt K X) (c : Cloud K) (x : X) :
    MoreF.toPoints E (.pts c) = some (c.pts.map fun p => ⟨p.x, p.y, p.z⟩) ∧ MoreF.toPoints E (.other x) = E.voxels x := ⟨rfl, rfl⟩

/-- The magnitude compared with the thresholds of the stopping rule is the absolute value. -/
theorem stall_magnitude [Field K] [LinearOrder K] [IsStrictOrderedRing K] (x : K) : absK x = |x| := Lemmas.absK_eq x

/-- The blank point has all its channels 0. -/
theorem blank_point [Field K] : (blankPt : FPt K) = ⟨0, 0, 0, 0, 0, 0⟩ := rfl

/-- Keyframes as the export commands see them: as they are in the map, the observations by their stamps. -/
theorem keyframes_exported {P S T τ G B : Type} (e : SmCli.Env P S T τ G B) (sm : List (Tool.Key P S T)) (i : Nat) (k : Tool.Key P S T)
    (h : sm[i]? = some k) :
    ∃ k', (SmCli.keysObs e sm)[i]? = some k' ∧ (SmCli.keysObs e sm).length = sm.length ∧ k'.pose = k.pose ∧ k'.twist = k.twist ∧
      (k.sf = none → k'.sf = none) ∧ ∀ s, k.sf = some s → k'.sf = some (e.obs s) := by
  refine ⟨⟨k.pose, k.sf.map e.obs, k.twist⟩, ?_, ?_, rfl, rfl, ?_, ?_⟩
  · simp [SmCli.keysObs, h]
  · simp [SmCli.keysObs]
  · intro hs; simp [hs]
  · intro x hs; simp [hs]

/-- The variables at the start of sm2mm: the given ones, and those of twist and pose, which are 0 unless given. -/
theorem initial_variables [Zero K] (custom : List (String × K)) (n : String) (hc : ∀ e ∈ custom, e.1 ≠ n) :
    AMap.get (Sm.initVars custom) n =
      if n ∈ ["vx", "vy", "vz", "wx", "wy", "wz", "robot_x", "robot_y", "robot_z", "robot_yaw", "robot_pitch", "robot_roll"]
      then some 0 else none := by
  have h : ∀ (l : List (String × K)) v, (∀ e ∈ l, e.1 ≠ n) → AMap.get (Sm.setVars v l) n = AMap.get v n := by
    intro l
    induction l with
    | nil => intro v _; rfl
    | cons e l ih =>
      intro v hl
      rw [show Sm.setVars v (e :: l) = Sm.setVars (AMap.set v e.1 e.2) l from rfl, ih _ (fun e he => hl e (by simp [he])), AMap.get_set,
        if_neg (Ne.symm (hl e (by simp)))]
  unfold Sm.initVars
  rw [h _ _ hc]
  have hn0 : AMap.get ([] : AMap String K) n = none := rfl
  by_cases hn : n ∈ ["vx", "vy", "vz", "wx", "wy", "wz", "robot_x", "robot_y", "robot_z", "robot_yaw", "robot_pitch", "robot_roll"]
  · rw [if_pos hn]
    simp only [List.mem_cons, List.not_mem_nil, or_false] at hn
    simp only [Sm.setVars, Sm.twistVars, Sm.poseVars, List.foldl_cons, List.foldl_nil, AMap.get_set, P3.zero_x, P3.zero_y, P3.zero_z]
    rcases hn with h | h | h | h | h | h | h | h | h | h | h | h <;> subst h <;> rfl
  · rw [if_neg hn]
    simp only [List.mem_cons, List.not_mem_nil, or_false, not_or] at hn
    obtain ⟨a1, a2, a3, a4, a5, a6, a7, a8, a9, a10, a11, a12⟩ := hn
    rw [h, h]
    · exact hn0
    · simp only [Sm.twistVars, List.forall_mem_cons]
      exact ⟨Ne.symm a1, Ne.symm a2, Ne.symm a3, Ne.symm a4, Ne.symm a5, Ne.symm a6, by simp⟩
    · simp only [Sm.poseVars, List.forall_mem_cons]
      exact ⟨Ne.symm a7, Ne.symm a8, Ne.symm a9, Ne.symm a10, Ne.symm a11, Ne.symm a12, by simp⟩

end

/-! ### texts -/
section
open MapUtil

/-- The pieces of a text between separators: the empty ones are left out, the others kept in order. -/
theorem text_pieces (sep : Char) (s : Txt) :
    ∃ pieces : List Txt, [sep].intercalate pieces = s ∧ (∀ p ∈ pieces, sep ∉ p) ∧
      MapUtil.tokens sep s = pieces.filter fun p => decide (p ≠ []) := by
  refine ⟨s.splitOn sep, List.intercalate_splitOn sep, ?_, ?_⟩
  · unfold List.splitOn
    induction s with
    | nil => simp [List.splitOnP_nil]
    | cons a s ih =>
      rw [List.splitOnP_cons_eq_if_modifyHead]
      split
      · intro p hp
        rcases List.mem_cons.1 hp with h | h
        · simp [h]
        · exact ih p h
      · rename_i ha
        intro p hp
        rcases hq : List.splitOnP (fun x => x == sep) s with _ | ⟨q, l⟩
        · simp [hq] at hp
        · rw [hq] at hp ih
          simp only [List.modifyHead_cons, List.mem_cons] at hp
          rcases hp with h | h
          · subst h
            have := ih q (by simp)
            simp only [List.mem_cons, not_or]
            exact ⟨fun h => ha (by simp [h]), this⟩
          · exact ih p (by simp [h])
  · unfold MapUtil.tokens
    apply List.filter_congr
    intro x _
    cases x <;> simp

example : MapUtil.tokens ':' "a::bc".toList = ["a".toList, "bc".toList] := by decide +kernel

/-- What the summary of a map begins with, and what it says of the layers. -/
theorem summary_texts {K : Type} (f : Fmt) (m : UMap K) (p v : Nat) (id label : Txt) (hi : m.id = some id) (hl : m.label = some label)
    (hg : m.georef = none) (n1 : String) (c1 : List (P3 K)) (t1 : Txt) (hm : m.layers = [(n1, some (.cloud c1 t1))]) :
    header m = "id=".toList ++ id ++ " label='".toList ++ label ++ "' ".toList ∧
    layersPiece f m p v = f.units p ++ " points, ".toList ++ f.units v ++ " voxels in ".toList ++ f.dec 1 ++
      " layers (".toList ++ ("\"".toList ++ n1.toList ++ "\":".toList ++ t1 ++ " ".toList) ++ ")".toList := by
  constructor
  · simp only [header, hi, hl, hg, Option.getD_none, List.append_nil]
    simp
  · simp only [layersPiece, hm, layerTexts, List.length_singleton]
    simp [Layer.text]

end
end Props
end Verif
