import Verif.Lemmas.SolverMisc
import Verif.Lemmas.Spectral
import Mathlib.Algebra.Order.Ring.Rat
import Mathlib.Analysis.SpecialFunctions.Pow.Real
import Mathlib.Tactic.NormNum
/-
Properties C25, C27-C30, C61: the closed-form solvers.
-/
namespace Verif.Props
open Verif Verif.Spec
set_option linter.unusedSectionVars false
variable {K : Type} [Field K] [LinearOrder K] [IsStrictOrderedRing K]

/-! ### concrete settings, used in the examples -/

/-- Euclidean norm. -/
noncomputable def realNorm (v : P3 ℝ) : ℝ := Real.sqrt v.normSq

theorem normSq_nonneg (v : P3 K) : 0 ≤ v.normSq := by
  simp only [P3.normSq, P3.dot]
  linarith [mul_self_nonneg v.x, mul_self_nonneg v.y, mul_self_nonneg v.z]

theorem realNorm_ok : IsNorm realNorm := fun v =>
  ⟨Real.sqrt_nonneg _, Real.mul_self_sqrt (normSq_nonneg v)⟩

theorem realSqrt_ok : IsSqrt Real.sqrt := fun x hx => Real.mul_self_sqrt hx

/-- Cramer's rule; zero for singular systems. -/
noncomputable def cramer (M : M3 ℝ) (v : P3 ℝ) : P3 ℝ :=
  ⟨((M.a11 * M.a22 - M.a12 * M.a21) * v.x + (M.a02 * M.a21 - M.a01 * M.a22) * v.y + (M.a01 * M.a12 - M.a02 * M.a11) * v.z) / M.det,
   ((M.a12 * M.a20 - M.a10 * M.a22) * v.x + (M.a00 * M.a22 - M.a02 * M.a20) * v.y + (M.a02 * M.a10 - M.a00 * M.a12) * v.z) / M.det,
   ((M.a10 * M.a21 - M.a11 * M.a20) * v.x + (M.a01 * M.a20 - M.a00 * M.a21) * v.y + (M.a00 * M.a11 - M.a01 * M.a10) * v.z) / M.det⟩

theorem cramer_ok : IsSolver cramer := by
  intro M v hd
  ext <;> simp only [M3.mulVec, cramer] <;> field_simp <;> simp only [M3.det] <;> ring

/-- A real environment for OLAE. -/
noncomputable def realOlae : OlaeEnv ℝ := ⟨realNorm, 1 / 10000, Real.sqrt, cramer⟩

/-- A real environment for Horn: an exact eigen-solver. -/
noncomputable def realHorn : HornEnv ℝ := ⟨realNorm, 1 / 10000, fun N => (Lemmas.exists_top N).choose⟩

theorem realHorn_top (N : Sym4 ℝ) : IsTopEigenvector N (realHorn.eig N) :=
  Lemmas.eigenvector_of_top (Lemmas.exists_top N).choose_spec

/-- A half turn about `x` followed by a translation. -/
noncomputable def exT : Pose3 ℝ := ⟨rotXpi, ⟨1, 2, 3⟩⟩

/-- Four points of a plane moved by `exT`. -/
def exPairs : Pairings ℝ :=
  { pt2pt := [⟨0, 0, ⟨2, 2, 3⟩, ⟨1, 0, 0⟩, 0⟩, ⟨1, 1, ⟨0, 2, 3⟩, ⟨-1, 0, 0⟩, 0⟩, ⟨2, 2, ⟨1, 1, 3⟩, ⟨0, 1, 0⟩, 0⟩,
      ⟨3, 3, ⟨1, 3, 3⟩, ⟨0, -1, 0⟩, 0⟩] }

/-- Default parameters. -/
noncomputable def exParams : WeightParams ℝ :=
  { useScaleOutlier := false, scaleThr := 6 / 5, pairWeights := ⟨1, 1, 1, 1, 1⟩, kernel := .none, kernelParam := 1, estimate := none }

theorem exPairs_plain : PlainPoints exPairs exParams :=
  ⟨rfl, rfl, rfl, rfl, rfl, rfl, rfl, by simp [exParams], by simp [exParams], by simp [exParams]⟩

theorem exPairs_meanL : mean (exPairs.pt2pt.map (·.local)) = ⟨0, 0, 0⟩ := by
  ext <;> simp [mean, exPairs]

theorem exPairs_meanG : mean (exPairs.pt2pt.map (·.global)) = ⟨1, 2, 3⟩ := by
  ext <;> simp [mean, exPairs] <;> norm_num

theorem realNorm_ge {v : P3 ℝ} (h : v.normSq = 1) : ¬ realNorm v < 1 / 10000 := by
  unfold realNorm; rw [h]; norm_num

theorem exPairs_far : ∀ q ∈ exPairs.pt2pt, ¬ (realNorm (q.global - mean (exPairs.pt2pt.map (·.global))) < 1 / 10000 ∨
    realNorm (q.local - mean (exPairs.pt2pt.map (·.local))) < 1 / 10000) := by
  rw [exPairs_meanL, exPairs_meanG]
  intro q hq
  simp only [exPairs, List.mem_cons, List.not_mem_nil, or_false] at hq
  rintro (h | h) <;> revert h <;> apply realNorm_ge <;>
    rcases hq with rfl | rfl | rfl | rfl <;> simp [P3.normSq, P3.dot] <;> norm_num

theorem exPairs_noiseFree : NoiseFree exPairs exT := by
  refine ⟨⟨?_, ?_⟩, ?_, ?_, ?_⟩
  · ext <;> simp [exT, rotXpi, M3.transpose, M3.mul, M3.one]
  · simp [exT, rotXpi, M3.det]
  · intro q hq
    simp only [exPairs, List.mem_cons, List.not_mem_nil, or_false] at hq
    rcases hq with rfl | rfl | rfl | rfl <;> ext <;>
      simp [exT, rotXpi, Pose3.composePoint, M3.mulVec] <;> norm_num
  · simp [exPairs]
  · simp [exPairs]

theorem exPairs_two : TwoDirections exPairs realNorm (1 / 10000) (mean (exPairs.pt2pt.map (·.local)))
    (mean (exPairs.pt2pt.map (·.global))) := by
  have hfar := exPairs_far
  refine ⟨0, 2, _, _, _, _, Or.inl ⟨_, rfl, rfl, rfl⟩, Or.inl ⟨_, rfl, rfl, rfl⟩, ?_, ?_, ?_⟩
  · rintro ⟨q, hq, h⟩; exact hfar q (List.mem_of_getElem? hq) h
  · rintro ⟨q, hq, h⟩; exact hfar q (List.mem_of_getElem? hq) h
  · rw [exPairs_meanL]
    simp [P3.cross, P3.ext_iff]

/-! ### C25 -/

/-- C25: with a guess `T` and unit normals, the output has exactly a selection of the plane and line pairings, each as the
pair of its local point with the closest point of the plane or line to the moved point; the pairings left out have an
error below `ratio` times the largest of their kind, and only if at least three were kept. What is missing from the
property: the point pairs (and line-line, plane-plane pairs) given in the input are dropped, see
`pt2pt_conversion_drops`. -/
theorem pt2pt_conversion_partial {norm : P3 K → K} (hn : IsNorm norm) {nearOne : P3 K → Bool} {ratio : K} {inp out : Pairings K}
    {guess : Option (Pose3 K)} (h : pt2lnPlToPt2pt norm nearOne ratio inp guess = .ok out)
    (hpl : ∀ q ∈ inp.pt2pl, q.plGlobal.plane.n.normSq = 1) (hln : ∀ q ∈ inp.pt2ln, q.lnGlobal.director.normSq ≠ 0) :
    ∃ T, guess = some T ∧ ∃ keptP dropP keptL dropL cP cL,
      (keptP ++ dropP).Perm inp.pt2pl ∧ (keptL ++ dropL).Perm inp.pt2ln ∧
      List.Forall₂ (FromPlane T) keptP cP ∧ List.Forall₂ (FromLine T) keptL cL ∧
      out = { pt2pt := cP ++ cL } ∧
      (∀ d ∈ dropP, ∃ m ∈ inp.pt2pl, ∀ c cm, FromPlane T d c → FromPlane T m cm →
        0 ≤ ratio → mismatch T c < ratio ^ 2 * mismatch T cm) ∧
      (∀ d ∈ dropL, ∃ m ∈ inp.pt2ln, ∀ c cm, FromLine T d c → FromLine T m cm →
        0 ≤ ratio → mismatch T c < ratio ^ 2 * mismatch T cm) ∧
      (dropP ≠ [] → 3 ≤ keptP.length) ∧ (dropL ≠ [] → 3 ≤ keptP.length + keptL.length) := by
  cases guess with
  | none => cases h
  | some T =>
    refine ⟨T, rfl, ?_⟩
    simp only [pt2lnPlToPt2pt] at h
    split at h
    · cases h
      obtain ⟨kP, dP, p1, e1, d1, n1⟩ := Lemmas.appendFromSorted_spec (planeToPt T) inp.pt2pl [] ratio
      obtain ⟨kL, dL, p2, e2, d2, n2⟩ := Lemmas.appendFromSorted_spec (lineToPt norm T) inp.pt2ln
        (kP.map fun b => (planeToPt T b).2) ratio
      rw [List.nil_append] at e1
      have sq : ∀ {a b x y : K}, a * a = x → b * b = y → 0 ≤ a → 0 ≤ b → 0 ≤ ratio → a < b * ratio →
          x < ratio ^ 2 * y := by
        intro a b x y h1 h2 h3 h4 h5 h6
        have := mul_self_lt_mul_self h3 h6
        rw [h1] at this
        have h7 : b * ratio * (b * ratio) = ratio ^ 2 * y := by rw [← h2]; ring
        linarith
      -- the closest point is unique
      have uP : ∀ (d : PtPlPair K) (c c' : PtPair K), FromPlane T d c → FromPlane T d c' → mismatch T c = mismatch T c' := by
        rintro d c c' ⟨a1, a2, a3⟩ ⟨b1, b2, b3⟩
        have l1 := a3 _ b2
        have l2 := b3 _ a2
        have s : ∀ (c : PtPair K), c.local = d.ptLocal → mismatch T c = P3.distSq c.global (T.composePoint d.ptLocal) := by
          intro c hc; simp only [mismatch, hc, P3.distSq, P3.normSq, P3.dot, P3.sub_x, P3.sub_y, P3.sub_z]; ring
        rw [s c a1, s c' b1]; exact le_antisymm l1 l2
      have uL : ∀ (d : PtLnPair K) (c c' : PtPair K), FromLine T d c → FromLine T d c' → mismatch T c = mismatch T c' := by
        rintro d c c' ⟨a1, ⟨s1, a2⟩, a3⟩ ⟨b1, ⟨s2, b2⟩, b3⟩
        have l1 := a3 s2
        have l2 := b3 s1
        rw [← b2] at l1; rw [← a2] at l2
        have s : ∀ (c : PtPair K), c.local = d.ptLocal → mismatch T c = P3.distSq c.global (T.composePoint d.ptLocal) := by
          intro c hc; simp only [mismatch, hc, P3.distSq, P3.normSq, P3.dot, P3.sub_x, P3.sub_y, P3.sub_z]; ring
        rw [s c a1, s c' b1]; exact le_antisymm l1 l2
      have mP : ∀ q ∈ kP ++ dP, q ∈ inp.pt2pl := fun q hq => p1.subset hq
      have mL : ∀ q ∈ kL ++ dL, q ∈ inp.pt2ln := fun q hq => p2.subset hq
      refine ⟨kP, dP, kL, dL, _, _, p1, p2, ?_, ?_, by rw [e1, e2], ?_, ?_, ?_, ?_⟩
      · rw [List.forall₂_map_right_iff]
        exact List.forall₂_same.mpr fun q hq => (Lemmas.planeToPt_spec (hpl q (mP q (List.mem_append_left _ hq)))).1
      · rw [List.forall₂_map_right_iff]
        exact List.forall₂_same.mpr fun q hq => (Lemmas.lineToPt_spec hn (hln q (mL q (List.mem_append_left _ hq)))).1
      · intro d hd
        obtain ⟨m, hm, _, hlt⟩ := d1 d hd
        refine ⟨m, hm, fun c cm hc hcm hr => ?_⟩
        obtain ⟨f1, g1, z1⟩ := Lemmas.planeToPt_spec (T := T) (hpl d (mP d (List.mem_append_right _ hd)))
        obtain ⟨f2, g2, z2⟩ := Lemmas.planeToPt_spec (T := T) (hpl m hm)
        rw [uP d c _ hc f1, uP m cm _ hcm f2]
        exact sq g1 g2 z1 z2 hr hlt
      · intro d hd
        obtain ⟨m, hm, _, hlt⟩ := d2 d hd
        refine ⟨m, hm, fun c cm hc hcm hr => ?_⟩
        obtain ⟨f1, g1, z1⟩ := Lemmas.lineToPt_spec (T := T) hn (hln d (mL d (List.mem_append_right _ hd)))
        obtain ⟨f2, g2, z2⟩ := Lemmas.lineToPt_spec (T := T) hn (hln m hm)
        rw [uL d c _ hc f1, uL m cm _ hcm f2]
        exact sq g1 g2 z1 z2 hr hlt
      · intro hd; simpa using n1 hd
      · intro hd; simpa using n2 hd
    · cases h

/-- C25: without a guess of the pose the conversion is refused. -/
theorem pt2pt_conversion_needs_guess {norm : P3 K → K} {nearOne : P3 K → Bool} {ratio : K} {inp : Pairings K} :
    pt2lnPlToPt2pt norm nearOne ratio inp none = .throw := rfl

/-- C25, negative: the point, line-line and plane-plane pairings and the weights of the input never reach the output:
two inputs which differ only in these give the same result. -/
theorem pt2pt_conversion_drops {norm : P3 K → K} {nearOne : P3 K → Bool} {ratio : K} {inp inp' : Pairings K}
    {guess : Option (Pose3 K)} (h1 : inp.pt2ln = inp'.pt2ln) (h2 : inp.pt2pl = inp'.pt2pl) :
    pt2lnPlToPt2pt norm nearOne ratio inp guess = pt2lnPlToPt2pt norm nearOne ratio inp' guess := by
  simp only [pt2lnPlToPt2pt, h1, h2]

/-- Two planes and a line; a point pair which is lost. -/
def exConv : Pairings Rat :=
  { pt2pt := [⟨0, 0, ⟨9, 9, 9⟩, ⟨8, 8, 8⟩, 0⟩]
    pt2pl := [⟨⟨⟨⟨0, 0, 1⟩, -1⟩, ⟨0, 0, 1⟩⟩, ⟨2, 3, 5⟩⟩, ⟨⟨⟨⟨1, 0, 0⟩, 0⟩, ⟨0, 0, 0⟩⟩, ⟨1, 1, 1⟩⟩]
    pt2ln := [⟨⟨⟨0, 0, 0⟩, ⟨0, 0, 2⟩⟩, ⟨0, 4, 7⟩⟩] }

example : (pt2lnPlToPt2pt (fun v => |v.x| + |v.y| + |v.z|) (fun _ => true) (1 / 4) exConv (some Pose3.identity)).Sat
    (fun o => o.pt2pt.map (fun c => (c.local, c.global)) =
      [(⟨2, 3, 5⟩, ⟨2, 3, 1⟩), (⟨1, 1, 1⟩, ⟨0, 1, 1⟩), (⟨0, 4, 7⟩, ⟨0, 0, 7⟩)]) := by decide +kernel

/-! ### C27 -/

/-- C27: for a table of block weights which covers the point pairs, and outliers none of which is the first pair of a
block, the walk is defined, the pairs visited are exactly those not discarded (given outliers, those on a centroid, those
with a scale mismatch), each with the weight of its kind and block times the kernel factor. -/
theorem visit_block_weights_partial {p : Pairings K} {wp : WeightParams K} {ctL ctG : P3 K} {nrm : Bool} {norm : P3 K → K} {eps : K}
    {outl : List Nat} (hB : BlocksCover p) (hsrt : outl.Pairwise (· < ·))
    (hout : ∀ o ∈ outl, o < p.pt2pt.length → ¬ StartsBlock p.pointWeights o) :
    visitCorrespondences p wp ctL ctG outl nrm norm eps ≠ .ub ∧
    ∀ o, visitCorrespondences p wp ctL ctG outl nrm norm eps = .ok o →
      o.wSum = (o.visited.map (·.w)).sum ∧
      ∃ idx : List Nat, idx.Pairwise (· < ·) ∧ o.outliers.Pairwise (· < ·) ∧
      List.Forall₂ (VisitedAs p wp ctL ctG nrm norm) idx o.visited ∧
      ∀ j, (j ∈ idx ↔ j < numCorr p ∧ j ∉ o.outliers ∧ ¬ OnCentroid p ctL ctG norm eps j) ∧
        (j ∈ o.outliers ↔ j < numCorr p ∧ (j ∈ outl ∨ (¬ OnCentroid p ctL ctG norm eps j ∧ wp.useScaleOutlier = true ∧
        ScaleMismatch p ctL ctG norm wp.scaleThr j))) := by
  obtain ⟨h1, h2⟩ := Lemmas.visit_spec (p := p) (wp := wp) (ctL := ctL) (ctG := ctG) (nrm := nrm) (norm := norm)
    (eps := eps) hB.1 hB.2 hsrt hout
  refine ⟨h1, fun o ho => ?_⟩
  obtain ⟨_, _, h3, h4⟩ := h2 o ho
  exact ⟨h3, h4⟩

/-- C27: with no kernel and no discarded pair, the weights add up to one if there is no table of block weights. -/
theorem visit_weights_sum_one {p : Pairings K} {wp : WeightParams K} {ctL ctG : P3 K} {nrm : Bool} {norm : P3 K → K} {eps : K}
    (hB : p.pointWeights = []) (hkern : wp.kernel = .none) (hk : kindTotal p wp.pairWeights ≠ 0) {o : VisitOut K}
    (ho : visitCorrespondences p wp ctL ctG [] nrm norm eps = .ok o) (hout : o.outliers = [])
    (hcen : ∀ i, ¬ OnCentroid p ctL ctG norm eps i) : o.wSum = 1 := by
  have hBC : BlocksCover p := ⟨by simp [hB], fun h => absurd hB h⟩
  rw [Lemmas.visit_wsum hBC hkern hk ho hout hcen]
  have : (pointWeightList p).sum = p.pt2pt.length := by simp [pointWeightList, hB]
  rw [this]
  exact div_self hk

/-- C27: with a table, the weights add up to one exactly if the block weights have mean one (or points have no weight). -/
theorem visit_weights_sum_table {p : Pairings K} {wp : WeightParams K} {ctL ctG : P3 K} {nrm : Bool} {norm : P3 K → K} {eps : K}
    (hB : BlocksCover p) (hkern : wp.kernel = .none) (hk : kindTotal p wp.pairWeights ≠ 0) {o : VisitOut K}
    (ho : visitCorrespondences p wp ctL ctG [] nrm norm eps = .ok o) (hout : o.outliers = [])
    (hcen : ∀ i, ¬ OnCentroid p ctL ctG norm eps i) (hw : wp.pairWeights.pt2pt ≠ 0) :
    o.wSum = 1 ↔ (pointWeightList p).sum = p.pt2pt.length := by
  rw [Lemmas.visit_wsum hB hkern hk ho hout hcen, div_eq_one_iff_eq hk]
  unfold kindTotal
  constructor
  · intro h
    refine mul_left_cancel₀ hw ?_
    linarith
  · intro h; rw [h]

/-- A rational setting: three point pairs in two blocks of weights 1 and 5. -/
def exVisit : Pairings Rat :=
  { pt2pt := [⟨0, 0, ⟨1, 0, 0⟩, ⟨1, 0, 0⟩, 0⟩, ⟨1, 1, ⟨0, 1, 0⟩, ⟨0, 1, 0⟩, 0⟩, ⟨2, 2, ⟨0, 0, 1⟩, ⟨0, 0, 1⟩, 0⟩]
    pointWeights := [(1, 1), (2, 5)] }

/-- Its parameters. -/
def exVisitP : WeightParams Rat :=
  { useScaleOutlier := false, scaleThr := 6 / 5, pairWeights := ⟨1, 1, 1, 1, 1⟩, kernel := .none, kernelParam := 1, estimate := none }

/-- A rational stand-in for the norm. -/
def taxi (v : P3 Rat) : Rat := |v.x| + |v.y| + |v.z|

example : (visitCorrespondences exVisit exVisitP 0 0 [2] false taxi (1 / 10000)).Sat
    (fun o => o.visited.map (·.w) = [1 / 3, 5 / 3] ∧ o.outliers = [2]) := by decide +kernel

/-- C27, negative: if the first pair of a block is an outlier, the cursor falls behind and later pairs get the weight of a
different block. Here pair 2 belongs to the block of weight 5 and pair 3 to that of weight 7, but after the outlier 1
they are given 5 and 5. -/
theorem visit_outlier_shifts_blocks : ∃ (p : Pairings Rat) (wp : WeightParams Rat) (outl : List Nat) (o : VisitOut Rat),
    BlocksCover p ∧ outl = [1] ∧ pointWeightList p = [1, 5, 5, 7] ∧
    visitCorrespondences p wp 0 0 outl false taxi (1 / 10000) = .ok o ∧
    o.visited.map (fun v => v.w / (wp.pairWeights.pt2pt / kindTotal p wp.pairWeights)) = [1, 5, 5] := by
  let p : Pairings Rat :=
    { pt2pt := [⟨0, 0, ⟨1, 0, 0⟩, ⟨1, 0, 0⟩, 0⟩, ⟨1, 1, ⟨0, 1, 0⟩, ⟨0, 1, 0⟩, 0⟩, ⟨2, 2, ⟨0, 0, 1⟩, ⟨0, 0, 1⟩, 0⟩,
        ⟨3, 3, ⟨0, 0, 1⟩, ⟨0, 0, 1⟩, 0⟩]
      pointWeights := [(1, 1), (2, 5), (1, 7)] }
  refine ⟨p, exVisitP, [1], ⟨[⟨⟨1, 0, 0⟩, ⟨1, 0, 0⟩, 1 / 4⟩, ⟨⟨0, 0, 1⟩, ⟨0, 0, 1⟩, 5 / 4⟩, ⟨⟨0, 0, 1⟩, ⟨0, 0, 1⟩, 5 / 4⟩], 11 / 4, [1]⟩,
    ⟨by decide, by decide⟩, rfl, by decide, by decide +kernel, by decide +kernel⟩

/-- C27, negative: an empty block in the table shifts the weights: pair 1 belongs to the block of weight 7. -/
theorem visit_empty_block_shifts : ∃ (p : Pairings Rat) (wp : WeightParams Rat) (o : VisitOut Rat),
    pointWeightList p = [1, 7] ∧ visitCorrespondences p wp 0 0 [] false taxi (1 / 10000) = .ok o ∧
    o.visited.map (fun v => v.w / (wp.pairWeights.pt2pt / kindTotal p wp.pairWeights)) = [1, 5] := by
  let p : Pairings Rat :=
    { pt2pt := [⟨0, 0, ⟨1, 0, 0⟩, ⟨1, 0, 0⟩, 0⟩, ⟨1, 1, ⟨0, 1, 0⟩, ⟨0, 1, 0⟩, 0⟩]
      pointWeights := [(1, 1), (0, 5), (1, 7)] }
  exact ⟨p, exVisitP, ⟨[⟨⟨1, 0, 0⟩, ⟨1, 0, 0⟩, 1 / 2⟩, ⟨⟨0, 1, 0⟩, ⟨0, 1, 0⟩, 5 / 2⟩], 3, []⟩, by decide, by decide +kernel,
    by decide +kernel⟩

/-- C27, negative: a table which covers less than the point pairs makes the walk read past its end. -/
theorem visit_short_table_ub : ∃ (p : Pairings Rat) (wp : WeightParams Rat),
    (p.pointWeights.map (·.1)).sum < p.pt2pt.length ∧ visitCorrespondences p wp 0 0 [] false taxi (1 / 10000) = .ub := by
  let p : Pairings Rat :=
    { pt2pt := [⟨0, 0, ⟨1, 0, 0⟩, ⟨1, 0, 0⟩, 0⟩, ⟨1, 1, ⟨0, 1, 0⟩, ⟨0, 1, 0⟩, 0⟩]
      pointWeights := [(1, 1)] }
  exact ⟨p, exVisitP, by decide, Outcome.eq_ub_of (by decide +kernel)⟩

example : BlocksCover exVisit := ⟨by decide, by decide⟩

/-! ### C28 -/

/-- C28: points only, uniform weights: Horn's solver returns a rigid motion whose sum of squared distances is the smallest
among all rigid motions (`IsTopEigen`: contract of the eigen-solver). Missing for the full property: with different
weights per pair the translation is not the optimal one, see `horn_weighted_not_optimal`. -/
theorem horn_optimal_partial {e : HornEnv K} {p : Pairings K} {wp : WeightParams K} (heig : ∀ N, IsTopEigen N (e.eig N))
    (h : PlainPoints p wp) (hn : 3 ≤ p.pt2pt.length)
    (hfar : ∀ q ∈ p.pt2pt, ¬ (e.norm (q.global - mean (p.pt2pt.map (·.global))) < e.eps ∨
      e.norm (q.local - mean (p.pt2pt.map (·.local))) < e.eps)) :
    ∃ r, optimalTfHorn e p wp = .ok (some r) ∧ r.outliers = [] ∧ IsRotation r.pose.R ∧
      ∀ T : Pose3 K, IsRotation T.R → pointCost p.pt2pt r.pose ≤ pointCost p.pt2pt T :=
  Lemmas.horn_plain heig h hn hfar

/-- C28, over the reals with the usual contract of an eigen-solver: a unit eigenvector of the largest eigenvalue. -/
theorem horn_optimal_real {e : HornEnv ℝ} {p : Pairings ℝ} {wp : WeightParams ℝ} (heig : ∀ N, IsTopEigenvector N (e.eig N))
    (h : PlainPoints p wp) (hn : 3 ≤ p.pt2pt.length)
    (hfar : ∀ q ∈ p.pt2pt, ¬ (e.norm (q.global - mean (p.pt2pt.map (·.global))) < e.eps ∨
      e.norm (q.local - mean (p.pt2pt.map (·.local))) < e.eps)) :
    ∃ r, optimalTfHorn e p wp = .ok (some r) ∧ r.outliers = [] ∧ IsRotation r.pose.R ∧
      ∀ T : Pose3 ℝ, IsRotation T.R → pointCost p.pt2pt r.pose ≤ pointCost p.pt2pt T :=
  Lemmas.horn_plain (fun N => Lemmas.top_of_eigenvector (heig N)) h hn hfar

example : ∃ r, optimalTfHorn realHorn exPairs exParams = .ok (some r) ∧ r.outliers = [] ∧ IsRotation r.pose.R ∧
    ∀ T : Pose3 ℝ, IsRotation T.R → pointCost exPairs.pt2pt r.pose ≤ pointCost exPairs.pt2pt T :=
  horn_optimal_real realHorn_top exPairs_plain (by simp [exPairs]) exPairs_far

/-- C28: for all weights, kernels and kinds of pairings (no scale-based detection), the rotation is optimal for the
weighted vector pairs of the walk, which are those of `visit_block_weights_partial`, and the translation takes the
centroid of the local points to that of the global ones. -/
theorem horn_rotation_optimal {e : HornEnv K} {p : Pairings K} {wp : WeightParams K} (heig : ∀ N, IsTopEigen N (e.eig N))
    (hB : BlocksCover p) (hs : wp.useScaleOutlier = false) {r : TFResult K} (h : optimalTfHorn e p wp = .ok (some r)) :
    ∃ (idx : List Nat) (vs : List (Visited K)),
      List.Forall₂ (VisitedAs p wp (mean (p.pt2pt.map (·.local))) (mean (p.pt2pt.map (·.global))) false e.norm) idx vs ∧
      idx.Pairwise (· < ·) ∧
      (∀ j, j ∈ idx ↔ j < numCorr p ∧ ¬ OnCentroid p (mean (p.pt2pt.map (·.local))) (mean (p.pt2pt.map (·.global))) e.norm e.eps j) ∧
      r.outliers = [] ∧ IsRotation r.pose.R ∧
      (∀ R, IsRotation R → attitudeCost vs r.pose.R ≤ attitudeCost vs R) ∧
      r.pose.composePoint (mean (p.pt2pt.map (·.local))) = mean (p.pt2pt.map (·.global)) := by
  obtain ⟨_, _, o, q, ho, hq, hpose, hout⟩ := Lemmas.horn_shape hs h
  obtain ⟨_, hspec⟩ := visit_block_weights_partial (p := p) (wp := wp) (ctL := mean (p.pt2pt.map (·.local)))
    (ctG := mean (p.pt2pt.map (·.global))) (nrm := false) (norm := e.norm) (eps := e.eps) (outl := []) hB (by simp) (by simp)
  obtain ⟨_, idx, h1, _, h3, h4⟩ := hspec o ho
  have hnil : o.outliers = [] := by
    apply List.eq_nil_iff_forall_not_mem.mpr
    intro j hj
    obtain ⟨_, hj⟩ := (h4 j).2.mp hj
    rcases hj with hj | ⟨_, hj, _⟩
    · simp at hj
    · rw [hs] at hj; cases hj
  have htop := Lemmas.negQuat_top (heig (hornN (hornS o)))
  rw [← hq] at htop
  refine ⟨idx, o.visited, h3, h1, ?_, by rw [hout, hnil], ?_, ?_, ?_⟩
  · intro j
    rw [(h4 j).1, hnil]
    simp
  · rw [hpose]; exact Lemmas.top_rotation htop
  · intro R hR
    rw [hpose]; exact Lemmas.horn_attitude htop hR
  · rw [hpose]
    ext <;> simp [poseFromRot, Pose3.composePoint]

/-- C28: noise-free data, all kinds of pairings, all weights and kernels: the result, if there is one, is the true motion,
provided that two of the vectors used are not parallel. -/
theorem horn_recovers {e : HornEnv K} (heig : ∀ N, IsTopEigen N (e.eig N)) (hn : IsNorm e.norm) (he : 0 < e.eps)
    {p : Pairings K} {wp : WeightParams K} {T : Pose3 K} (hT : NoiseFree p T) (hB : BlocksCover p)
    (hthr : wp.useScaleOutlier = true → 1 ≤ wp.scaleThr)
    (htwo : TwoDirections p e.norm e.eps (mean (p.pt2pt.map (·.local))) (mean (p.pt2pt.map (·.global))))
    {r : TFResult K} (h : optimalTfHorn e p wp = .ok (some r)) : r.pose = T ∧ r.outliers = [] :=
  Lemmas.horn_exact heig hn he hT hB hthr htwo h

example : ∃ r, optimalTfHorn realHorn exPairs exParams = .ok (some r) ∧ r.pose = exT := by
  obtain ⟨r, h, _⟩ := horn_optimal_real realHorn_top exPairs_plain (by simp [exPairs]) exPairs_far
  refine ⟨r, h, ?_⟩
  exact (horn_recovers (e := realHorn) (fun N => Lemmas.top_of_eigenvector (realHorn_top N)) realNorm_ok (by norm_num [realHorn])
    exPairs_noiseFree ⟨by simp [exPairs], by simp [exPairs]⟩ (by simp [exParams]) exPairs_two h).1

/-- Two pairs of weight 2 and two of weight 1, the first two displaced. -/
def exWeighted : Pairings Rat :=
  { pt2pt := [⟨0, 0, ⟨1, 0, 6⟩, ⟨1, 0, 0⟩, 0⟩, ⟨1, 1, ⟨-1, 0, 6⟩, ⟨-1, 0, 0⟩, 0⟩, ⟨2, 2, ⟨0, 1, 0⟩, ⟨0, 1, 0⟩, 0⟩,
      ⟨3, 3, ⟨0, -1, 0⟩, ⟨0, -1, 0⟩, 0⟩]
    pointWeights := [(2, 2), (2, 1)] }

/-- C28, negative: with different weights per block, whatever the eigen-solver does, Horn's result does not minimise the
weighted cost: moving the translation gives a smaller one. -/
theorem horn_weighted_not_optimal (e : HornEnv Rat) (r : TFResult Rat) (h : optimalTfHorn e exWeighted exVisitP = .ok (some r)) :
    ∃ T : Pose3 Rat, T.R = r.pose.R ∧
      weightedCost (exWeighted.pt2pt.zip (pointWeightList exWeighted)) T <
        weightedCost (exWeighted.pt2pt.zip (pointWeightList exWeighted)) r.pose := by
  obtain ⟨_, _, o, q, _, _, hpose, _⟩ := Lemmas.horn_shape rfl h
  have mL : mean (exWeighted.pt2pt.map (·.local)) = ⟨0, 0, 0⟩ := by decide +kernel
  have mG : mean (exWeighted.pt2pt.map (·.global)) = ⟨0, 0, 3⟩ := by decide +kernel
  rw [mL, mG] at hpose
  have hzip : exWeighted.pt2pt.zip (pointWeightList exWeighted) =
      [(⟨0, 0, ⟨1, 0, 6⟩, ⟨1, 0, 0⟩, 0⟩, 2), (⟨1, 1, ⟨-1, 0, 6⟩, ⟨-1, 0, 0⟩, 0⟩, 2), (⟨2, 2, ⟨0, 1, 0⟩, ⟨0, 1, 0⟩, 0⟩, 1),
       (⟨3, 3, ⟨0, -1, 0⟩, ⟨0, -1, 0⟩, 0⟩, 1)] := by decide +kernel
  refine ⟨⟨r.pose.R, r.pose.t + ⟨0, 0, 1⟩⟩, rfl, ?_⟩
  rw [hzip, Lemmas.weightedCost_shift, hpose]
  simp only [poseFromRot]
  generalize q.toMatrix = R
  simp [P3.normSq, P3.dot, M3.mulVec]
  ring_nf
  norm_num

example : (optimalTfHorn ⟨taxi, 1 / 10000, fun _ => ⟨1, 0, 0, 0⟩⟩ exWeighted exVisitP).Sat
    (fun r => r.isSome = true) := by decide +kernel

/-- C28: pairings without any point pair, or with a zero weight for a kind in use, are refused rather than solved. -/
theorem horn_refuses_no_points {e : HornEnv K} {p : Pairings K} {wp : WeightParams K} (h : p.pt2pt = []) :
    optimalTfHorn e p wp = .throw := by
  unfold optimalTfHorn
  have hc : evalCentroidsRobust p {} = .throw := by
    simp [evalCentroidsRobust, h, Outcome.assert]
  simp only [hc, Outcome.bind_def, Outcome.bind, Outcome.assert]
  split
  · rename_i h1; split at h1
    · split
      · rename_i h2; split at h2
        · split
          · rfl
          · rfl
          · rename_i h3; split at h3 <;> simp at h3
        · simp at h2
      · rfl
      · rename_i h2; split at h2 <;> simp at h2
    · simp at h1
  · rfl
  · rename_i h1; split at h1 <;> simp at h1

/-! ### C29 -/

/-- C29: noise-free data, all kinds of pairings, all weights and kernels, unit directions: OLAE's result, if there is one,
is the true motion, provided that two of the vectors used are not parallel and that the quaternion of the rotation has a
unique component of largest absolute value, or a `z` component that is not zero.  For all other rotations the system solved is
singular (`olae_tie_singular`). -/
theorem olae_recovers_partial {e : OlaeEnv K} (hsq : IsSqrt e.sqrt) (hsol : IsSolver e.solve) (hn : IsNorm e.norm) (he : 0 < e.eps)
    {p : Pairings K} {wp : WeightParams K} {T : Pose3 K} (hT : NoiseFree p T) (hB : BlocksCover p) (hU : UnitDirections p)
    (hc : ClearAxis T.R) (hthr : wp.useScaleOutlier = true → 1 ≤ wp.scaleThr)
    (htwo : TwoDirections p e.norm e.eps (mean (p.pt2pt.map (·.local))) (mean (p.pt2pt.map (·.global))))
    {r : TFResult K} (h : optimalTfOlae e p wp = .ok r) : r.pose = T ∧ r.outliers = [] :=
  Lemmas.olae_exact hsq hsol hn he hT hB hU hc hthr htwo h

/-- C29: in the plain case OLAE does return a result. -/
theorem olae_succeeds {e : OlaeEnv K} {p : Pairings K} {wp : WeightParams K} (h : PlainPoints p wp) (hne : p.pt2pt ≠ [])
    (hfar : ∀ q ∈ p.pt2pt, ¬ (e.norm (q.global - mean (p.pt2pt.map (·.global))) < e.eps ∨
      e.norm (q.local - mean (p.pt2pt.map (·.local))) < e.eps)) : ∃ r, optimalTfOlae e p wp = .ok r := by
  have hlen : 0 < p.pt2pt.length := List.length_pos_iff.mpr hne
  have hcen := Lemmas.centroids_ok p {} (by simp) (by simp) (by simpa using hlen)
  simp only [Lemmas.inliers_nil] at hcen
  obtain ⟨o, w, hv, _, ho, _⟩ := Lemmas.plain_visit' h hlen (mean (p.pt2pt.map (·.local)))
    (mean (p.pt2pt.map (·.global))) true e.norm e.eps hfar
  unfold optimalTfOlae olaeBuild
  have h1 := h.wPt.le
  simp only [Outcome.assert, h1, h.wLn, h.wPl, if_true, Outcome.bind_def, Outcome.bind, hcen, hv, Outcome.pure_def, ho, ne_eq,
    not_true_eq_false, if_false]
  exact ⟨_, rfl⟩

example : ∃ r, optimalTfOlae realOlae exPairs exParams = .ok r ∧ r.pose = exT := by
  obtain ⟨r, h⟩ := olae_succeeds (e := realOlae) exPairs_plain (by simp [exPairs]) exPairs_far
  refine ⟨r, h, ?_⟩
  refine (olae_recovers_partial (e := realOlae) realSqrt_ok cramer_ok realNorm_ok (by norm_num [realOlae])
    exPairs_noiseFree ⟨by simp [exPairs], by simp [exPairs]⟩ ⟨by simp [exPairs], by simp [exPairs]⟩ ?_ (by simp [exParams]) exPairs_two h).1
  unfold ClearAxis UniqueMax
  left; right; left
  simp [exT, rotXpi]
  norm_num

/-- C29, negative: for noise-free data of a motion with any other rotation (`z` component zero, and no component larger than the
others: right angles about `x` or `y`, half turns about the bisectors of these axes, …), the branch taken solves a singular
system: the contract of the linear solver says nothing about the result. -/
theorem olae_tie_singular {e : OlaeEnv K} (hsq : IsSqrt e.sqrt) (hn : IsNorm e.norm) (he : 0 < e.eps)
    {p : Pairings K} {wp : WeightParams K} {T : Pose3 K} (hT : NoiseFree p T) (hB : BlocksCover p) (hU : UnitDirections p)
    (hc : ¬ ClearAxis T.R) (hthr : wp.useScaleOutlier = true → 1 ≤ wp.scaleThr)
    (htwo : TwoDirections p e.norm e.eps (mean (p.pt2pt.map (·.local))) (mean (p.pt2pt.map (·.global))))
    {r : TFResult K} (h : optimalTfOlae e p wp = .ok r) :
    ∃ (M : M3 K) (v : P3 K), M.det = 0 ∧ r.pose.R = rotZpi.mul (gibbsQuat e.sqrt (e.solve M v)).toMatrix :=
  Lemmas.olae_tie hsq hn he hT hB hU hc hthr htwo h

/-- A right angle about `x` is such a rotation. -/
theorem right_angle_tie {R : M3 K} (h0 : R.a00 = 1) (h1 : R.a11 = 0) (h2 : R.a22 = 0) : ¬ ClearAxis R := by
  unfold ClearAxis UniqueMax
  rw [h0, h1, h2]
  norm_num

/-- A right angle about `x` and a translation. -/
noncomputable def exT90 : Pose3 ℝ := ⟨⟨1, 0, 0, 0, 0, -1, 0, 1, 0⟩, ⟨1, 2, 3⟩⟩

/-- Four points of a plane moved by `exT90`. -/
def exPairs90 : Pairings ℝ :=
  { pt2pt := [⟨0, 0, ⟨2, 2, 3⟩, ⟨1, 0, 0⟩, 0⟩, ⟨1, 1, ⟨0, 2, 3⟩, ⟨-1, 0, 0⟩, 0⟩, ⟨2, 2, ⟨1, 2, 4⟩, ⟨0, 1, 0⟩, 0⟩,
      ⟨3, 3, ⟨1, 2, 2⟩, ⟨0, -1, 0⟩, 0⟩] }

/-- C29, negative, concrete: an exact environment (Cramer's rule, zero for singular systems) and noise-free pairs for
which OLAE succeeds with a wrong motion. -/
theorem olae_right_angle_wrong : NoiseFree exPairs90 exT90 ∧ IsSqrt realOlae.sqrt ∧ IsSolver realOlae.solve ∧
    IsNorm realOlae.norm ∧ ∃ r, optimalTfOlae realOlae exPairs90 exParams = .ok r ∧ r.pose ≠ exT90 := by
  have mL : mean (exPairs90.pt2pt.map (·.local)) = ⟨0, 0, 0⟩ := by ext <;> simp [mean, exPairs90]
  have mG : mean (exPairs90.pt2pt.map (·.global)) = ⟨1, 2, 3⟩ := by ext <;> simp [mean, exPairs90] <;> norm_num
  have hfar : ∀ q ∈ exPairs90.pt2pt, ¬ (realNorm (q.global - mean (exPairs90.pt2pt.map (·.global))) < 1 / 10000 ∨
      realNorm (q.local - mean (exPairs90.pt2pt.map (·.local))) < 1 / 10000) := by
    rw [mL, mG]
    intro q hq
    simp only [exPairs90, List.mem_cons, List.not_mem_nil, or_false] at hq
    rintro (h | h) <;> revert h <;> apply realNorm_ge <;>
      rcases hq with rfl | rfl | rfl | rfl <;> simp [P3.normSq, P3.dot] <;> norm_num
  have hT : NoiseFree exPairs90 exT90 := by
    refine ⟨⟨?_, ?_⟩, ?_, ?_, ?_⟩
    · ext <;> simp [exT90, M3.transpose, M3.mul, M3.one]
    · simp [exT90, M3.det]
    · intro q hq
      simp only [exPairs90, List.mem_cons, List.not_mem_nil, or_false] at hq
      rcases hq with rfl | rfl | rfl | rfl <;> ext <;>
        simp [exT90, Pose3.composePoint, M3.mulVec] <;> norm_num
    · simp [exPairs90]
    · simp [exPairs90]
  have htwo : TwoDirections exPairs90 realNorm (1 / 10000) (mean (exPairs90.pt2pt.map (·.local)))
      (mean (exPairs90.pt2pt.map (·.global))) := by
    refine ⟨0, 2, _, _, _, _, Or.inl ⟨_, rfl, rfl, rfl⟩, Or.inl ⟨_, rfl, rfl, rfl⟩, ?_, ?_, ?_⟩
    · rintro ⟨q, hq, h⟩; exact hfar q (List.mem_of_getElem? hq) h
    · rintro ⟨q, hq, h⟩; exact hfar q (List.mem_of_getElem? hq) h
    · rw [mL]
      simp [P3.cross, P3.ext_iff]
  refine ⟨hT, realSqrt_ok, cramer_ok, realNorm_ok, ?_⟩
  obtain ⟨r, h⟩ := olae_succeeds (e := realOlae) (p := exPairs90) (wp := exParams)
    ⟨rfl, rfl, rfl, rfl, rfl, rfl, rfl, by simp [exParams], by simp [exParams], by simp [exParams]⟩ (by simp [exPairs90]) hfar
  refine ⟨r, h, ?_⟩
  obtain ⟨M, v, hd, hR⟩ := olae_tie_singular (e := realOlae) realSqrt_ok realNorm_ok (by norm_num [realOlae]) hT
    ⟨by simp [exPairs90], by simp [exPairs90]⟩ ⟨by simp [exPairs90], by simp [exPairs90]⟩ (right_angle_tie rfl rfl rfl) (by simp [exParams]) htwo h
  intro hp
  rw [hp] at hR
  have h0 := congrArg M3.a00 hR
  simp [exT90, realOlae, cramer, hd, gibbsQuat, Quat.toMatrix, rotZpi, M3.mul] at h0
  norm_num at h0

/-- C29: each of the four linear systems has the true Gibbs vector (of the rotation, or of the rotation followed by the
half turn about `x`, `y` or `z`) as a solution, for every unit quaternion `q` and every symmetric `A` of unit trace
(auto-correlation of unit vectors), where the component is not zero; and its determinant is `-8 c² det(I-A)`. -/
theorem olae_systems_consistent {q : Quat K} (hq : q.normSq = 1) {A : M3 K} (h01 : A.a10 = A.a01) (h02 : A.a20 = A.a02)
    (h12 : A.a21 = A.a12) (htr : A.trace = 1) :
    let B := q.toMatrix.mul A
    let s := olaeSystems ⟨B.a21 - B.a12, B.a02 - B.a20, B.a10 - B.a01⟩ B
    let D := (M3.one.add (M3.smul (-1) A)).det
    (q.r ≠ 0 → s.M.mulVec ⟨-(q.x / q.r), -(q.y / q.r), -(q.z / q.r)⟩ = s.v) ∧
    (q.x ≠ 0 → s.Mx.mulVec ⟨q.r / q.x, -(q.z / q.x), q.y / q.x⟩ = s.vx) ∧
    (q.y ≠ 0 → s.My.mulVec ⟨q.z / q.y, q.r / q.y, -(q.x / q.y)⟩ = s.vy) ∧
    (q.z ≠ 0 → s.Mz.mulVec ⟨-(q.y / q.z), q.x / q.z, q.r / q.z⟩ = s.vz) ∧
    s.M.det = -8 * q.r ^ 2 * D ∧ s.Mx.det = -8 * q.x ^ 2 * D ∧ s.My.det = -8 * q.y ^ 2 * D ∧ s.Mz.det = -8 * q.z ^ 2 * D := by
  have hA : Lemmas.SymOne A := ⟨h01, h02, h12, htr⟩
  obtain ⟨d0, dx, dy, dz⟩ := Lemmas.olae_dets hq hA rfl
  intro B s D
  refine ⟨?_, ?_, ?_, ?_, by rw [pow_two]; exact d0, by rw [pow_two]; exact dx, by rw [pow_two]; exact dy,
    by rw [pow_two]; exact dz⟩
  · intro hr
    exact Lemmas.olae_solution hq hr hA
  · intro hr
    have := Lemmas.olae_solution (q := Lemmas.turnX q) (by rw [Lemmas.turnX_norm]; exact hq) (by simpa [Lemmas.turnX] using hr) hA
    rw [Lemmas.turnX_matrix, Lemmas.M3.mul_assoc, ← (Lemmas.olae_x B).1, ← (Lemmas.olae_x B).2] at this
    have e : Lemmas.gibbsOf (Lemmas.turnX q) = ⟨q.r / q.x, -(q.z / q.x), q.y / q.x⟩ := by
      simp only [Lemmas.gibbsOf, Lemmas.turnX]
      ext <;> simp only <;> field_simp
    rw [e] at this
    exact this
  · intro hr
    have := Lemmas.olae_solution (q := Lemmas.turnY q) (by rw [Lemmas.turnY_norm]; exact hq) (by simpa [Lemmas.turnY] using hr) hA
    rw [Lemmas.turnY_matrix, Lemmas.M3.mul_assoc, ← (Lemmas.olae_y B).1, ← (Lemmas.olae_y B).2] at this
    have e : Lemmas.gibbsOf (Lemmas.turnY q) = ⟨q.z / q.y, q.r / q.y, -(q.x / q.y)⟩ := by
      simp only [Lemmas.gibbsOf, Lemmas.turnY]
      ext <;> simp only <;> field_simp
    rw [e] at this
    exact this
  · intro hr
    have := Lemmas.olae_solution (q := Lemmas.turnZ q) (by rw [Lemmas.turnZ_norm]; exact hq) (by simpa [Lemmas.turnZ] using hr) hA
    rw [Lemmas.turnZ_matrix, Lemmas.M3.mul_assoc, ← (Lemmas.olae_z B).1, ← (Lemmas.olae_z B).2] at this
    have e : Lemmas.gibbsOf (Lemmas.turnZ q) = ⟨-(q.y / q.z), q.x / q.z, q.r / q.z⟩ := by
      simp only [Lemmas.gibbsOf, Lemmas.turnZ]
      ext <;> simp only <;> field_simp
    rw [e] at this
    exact this

example : let q : Quat Rat := ⟨3 / 5, 4 / 5, 0, 0⟩
    let A : M3 Rat := ⟨1 / 2, 1 / 8, 0, 1 / 8, 1 / 4, 0, 0, 0, 1 / 4⟩
    q.normSq = 1 ∧ A.trace = 1 ∧ (M3.one.add (M3.smul (-1) A)).det ≠ 0 := by decide +kernel

/-! ### C30 -/

/-- C30: for a positive parameter, the factor of each kernel is in `(0,1]`, is one for a zero error and does not grow with
the error. -/
theorem kernel_factor {k : RobustKernel} {c : K} (hc : 0 < c) {f : K → K} (h : createRobustKernel k c = some f) :
    f 0 = 1 ∧ (∀ e, 0 ≤ e → 0 < f e ∧ f e ≤ 1) ∧ ∀ e e', 0 ≤ e → e ≤ e' → f e' ≤ f e := by
  cases k with
  | none => cases h
  | gemanMcClure =>
    simp only [createRobustKernel, Option.some.injEq] at h
    subst h
    have anti : ∀ e e' : K, 0 ≤ e → e ≤ e' → c * c / ((e' + c) * (e' + c)) ≤ c * c / ((e + c) * (e + c)) := by
      intro e e' h0 h1
      apply div_le_div_of_nonneg_left (by positivity) (by positivity)
      exact mul_self_le_mul_self (by linarith) (by linarith)
    have h0 : c * c / ((0 + c) * (0 + c)) = 1 := by rw [zero_add]; exact div_self (by positivity)
    refine ⟨h0, fun e he => ⟨by positivity, ?_⟩, anti⟩
    have := anti 0 e le_rfl he
    rwa [h0] at this
  | cauchy =>
    simp only [createRobustKernel, Option.some.injEq] at h
    subst h
    have anti : ∀ e e' : K, 0 ≤ e → e ≤ e' → c * c / (e' + c * c) ≤ c * c / (e + c * c) := by
      intro e e' h0 h1
      apply div_le_div_of_nonneg_left (by positivity) (by positivity)
      linarith
    have h0 : c * c / (0 + c * c) = 1 := by rw [zero_add]; exact div_self (by positivity)
    refine ⟨h0, fun e he => ⟨by positivity, ?_⟩, anti⟩
    have := anti 0 e le_rfl he
    rwa [h0] at this

/-- C30: strictly: a larger error has a strictly smaller factor. -/
theorem kernel_strict {k : RobustKernel} {c : K} (hc : 0 < c) {f : K → K} (h : createRobustKernel k c = some f) (e e' : K)
    (he : 0 ≤ e) (hlt : e < e') : f e' < f e := by
  cases k with
  | none => cases h
  | gemanMcClure =>
    simp only [createRobustKernel, Option.some.injEq] at h
    subst h
    apply div_lt_div_of_pos_left (by positivity) (by positivity)
    exact mul_self_lt_mul_self (by linarith) (by linarith)
  | cauchy =>
    simp only [createRobustKernel, Option.some.injEq] at h
    subst h
    apply div_lt_div_of_pos_left (by positivity) (by positivity)
    linarith

/-- C30: only the kernel "none" has no weight function. -/
theorem kernel_none_iff {k : RobustKernel} {c : K} : createRobustKernel k c = none ↔ k = .none := by
  cases k <;> simp [createRobustKernel]

example : ∃ f, createRobustKernel .gemanMcClure (3 / 2 : Rat) = some f ∧ f 1 = 9 / 25 :=
  ⟨_, rfl, by decide +kernel⟩

/-- C30, negative: for a negative Geman-McClure parameter the factor is above one for small errors. -/
theorem kernel_negative_parameter : ∃ f : Rat → Rat, createRobustKernel .gemanMcClure (-1 : Rat) = some f ∧ 1 < f (1 / 2) :=
  ⟨_, rfl, by decide +kernel⟩

/-! ### C61 -/

/-- C61: with a robust kernel and no pose estimate in the parameters, a walk which ends has visited no pair at all. -/
theorem robust_needs_estimate {p : Pairings K} {wp : WeightParams K} {ctL ctG : P3 K} {nrm : Bool} {norm : P3 K → K} {eps : K}
    {outl : List Nat} (hk : wp.kernel ≠ .none) (he : wp.estimate = none) {o : VisitOut K}
    (h : visitCorrespondences p wp ctL ctG outl nrm norm eps = .ok o) : o.visited = [] :=
  Lemmas.visit_no_estimate hk he h

/-- C61: `Solver_Horn` does not put the current pose in the parameters: with a robust kernel and points away from the
centroids it never gives a pose, whatever guess it is given. -/
theorem solver_horn_robust_never {e : HornEnv K} {nearOne : P3 K → Bool} {ratio : K} {p : Pairings K} {wp : WeightParams K}
    {guess : Option (Pose3 K)} (hk : wp.kernel ≠ .none) (he : wp.estimate = none) (hs : wp.useScaleOutlier = false)
    (hB : BlocksCover p) (h1 : p.pt2ln = []) (h2 : p.pt2pl = [])
    (hi : ∃ i, i < numCorr p ∧ ¬ OnCentroid p (mean (p.pt2pt.map (·.local))) (mean (p.pt2pt.map (·.global))) e.norm e.eps i)
    (r : TFResult K) : solverHorn e nearOne ratio wp p guess ≠ .ok (some r) := by
  intro h
  unfold solverHorn at h
  rw [if_neg (by simp [h1, h2])] at h
  obtain ⟨_, _, o, q, ho, _, _, _⟩ := Lemmas.horn_shape hs h
  have hv := robust_needs_estimate hk he ho
  obtain ⟨_, hspec⟩ := visit_block_weights_partial (p := p) (wp := wp) (ctL := mean (p.pt2pt.map (·.local)))
    (ctG := mean (p.pt2pt.map (·.global))) (nrm := false) (norm := e.norm) (eps := e.eps) (outl := []) hB (by simp) (by simp)
  obtain ⟨_, idx, _, _, h3, h4⟩ := hspec o ho
  rw [hv] at h3
  have hidx : idx = [] := by cases h3; rfl
  obtain ⟨i, hi1, hi2⟩ := hi
  have : i ∈ idx := by
    rw [(h4 i).1]
    refine ⟨hi1, ?_, hi2⟩
    intro hj
    rcases ((h4 i).2.mp hj).2 with hj | ⟨_, hj, _⟩
    · simp at hj
    · rw [hs] at hj; cases hj
  rw [hidx] at this
  simp at this

example : solverHorn ⟨taxi, 1 / 10000, fun _ => ⟨1, 0, 0, 0⟩⟩ (fun _ => true) (1 / 4)
    { exVisitP with kernel := .cauchy } exVisit (some Pose3.identity) = .throw := Outcome.eq_throw_of (by decide +kernel)

end Verif.Props
