import Verif.Spec.HornSame
import Verif.Spec.FrameFree
/-
Specifications for a registration in another unit of length (C125).
-/
namespace Verif.Spec
open Verif
variable {K : Type} [Field K] [LinearOrder K]

/-- A pose in another unit of length: the same rotation, the translation times `u`. -/
def inUnit (u : K) (T : Pose3 K) : Pose3 K := ⟨T.R, T.t.smul u⟩

/-- The parameters in another unit of length: the least step of the translation times `k`. -/
def paramsInUnit (k : K) (p : IcpParams K) : IcpParams K := { p with minAbsStepTrans := k * p.minAbsStepTrans }

/-- The matcher in another unit of length: the distance threshold and the margin of its bounding boxes times `u`. -/
def matcherInUnit (u : K) (c : DTCfg K) : DTCfg K := { c with thr := u * c.thr, eps := u * c.eps }

/-- In the unit which multiplies all translations by `u`, the length of the difference of two poses is multiplied by `k` and its angle is the same
(for the library's difference of poses `k` is `u`). -/
def UnitFree (ops : PoseOps K (Pose3 K)) (u k : K) : Prop :=
  ∀ a b, ops.logNorms (ops.sub (inUnit u a) (inUnit u b)) = (k * (ops.logNorms (ops.sub a b)).1, (ops.logNorms (ops.sub a b)).2)

/-- Two sets of pairings, point to point, that pair the same points, in two units. -/
structure UnitPairs (u : K) (a b : Pairings K) : Prop where
  pairs : Scaled u a.pt2pt b.pt2pt
  potential : b.potential = a.potential
  rest : a = { pt2pt := a.pt2pt, potential := a.potential } ∧ b = { pt2pt := b.pt2pt, potential := b.potential }

/-- The records of an iteration, in two units. -/
def UnitDetail (u : K) (a b : Nat × Pose3 K × Pairings K) : Prop :=
  b.1 = a.1 ∧ b.2.1 = inUnit u a.2.1 ∧ UnitPairs u a.2.2 b.2.2

/-- Two runs that tell the same, in two units. -/
structure UnitRun (u : K) (r r' : IcpResult K (Pose3 K)) : Prop where
  nIterations : r'.nIterations = r.nIterations
  reason : r'.reason = r.reason
  pose : r'.pose = inUnit u r.pose
  scale : r'.scale = r.scale
  quality : r'.quality = r.quality
  pairings : UnitPairs u r.pairings r'.pairings
  log : Option.Rel (List.Forall₂ (UnitDetail u)) r.log r'.log

/-- Nothing was left to chance in that iteration, and the solver's fixed distance left no pair out, in either unit. -/
structure UnitClear (norm : P3 K → K) (eps u : K) (gpts pts : List (P3 K)) (ev : IterEvent K (Pose3 K)) : Prop where
  noTies : NoTies gpts pts ev.poseIn
  oneBest : 3 ≤ ev.pairings.pt2pt.length → OneBestFit ev.pairings.pt2pt
  far : AwayFromCentroids norm eps ev.pairings.pt2pt
  farThere : AwayFromCentroids norm (eps / u) ev.pairings.pt2pt

/-- Two registrations of the same data in two units. -/
structure UnitSetting (ops : PoseOps K (Pose3 K)) (e : HornEnv K) (wp : WeightParams K) (c : DTCfg K) (u k : K)
    (g g' : GLayer K) (gpts pts : List (P3 K)) : Prop where
  fit : FitSetting ops e wp c g gpts pts
  serves : ServesPoints g' (gpts.map (P3.smul u))
  unit : 0 < u
  factor : 0 < k
  angSq : c.angSq = 0
  free : UnitFree ops u k

end Verif.Spec
