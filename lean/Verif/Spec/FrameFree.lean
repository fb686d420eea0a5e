import Verif.Spec.EndToEnd
/-
Specifications for registrations of the same data seen from another frame, in another order (C109).
-/
namespace Verif.Spec
open Verif
variable {K : Type} [Field K] [LinearOrder K]

/-- The same pairings, but for their order and indices, with the map points moved by `G`; nothing else is paired. -/
structure SamePairs (G : Pose3 K) (a b : Pairings K) : Prop where
  pairs : (b.pt2pt.map fun q => (q.local, q.global)).Perm (a.pt2pt.map fun q => (q.local, G.composePoint q.global))
  potential : b.potential = a.potential
  rest : a = { pt2pt := a.pt2pt, potential := a.potential } ∧ b = { pt2pt := b.pt2pt, potential := b.potential }

/-- At pose `T` no local point is equally near to two different places of the map nearest to it. -/
def NoTies (gpts pts : List (P3 K)) (T : Pose3 K) : Prop :=
  ∀ x ∈ pts, ∀ y ∈ gpts, ∀ z ∈ gpts,
    (∀ w ∈ gpts, P3.distSq (T.composePoint x) y ≤ P3.distSq (T.composePoint x) w) →
    (∀ w ∈ gpts, P3.distSq (T.composePoint x) z ≤ P3.distSq (T.composePoint x) w) → y = z

/-- The pairs not within `eps` of the centroid, in either map. -/
def farPairs (norm : P3 K → K) (eps : K) (ps : List (PtPair K)) : List (PtPair K) :=
  ps.filter fun q => !decide (norm (q.global - mean (ps.map (·.global))) < eps ∨ norm (q.local - mean (ps.map (·.local))) < eps)

/-- Sum of the squared distances of those pairs, both seen from their centroids, after rotation by `R`. -/
def turnCost (norm : P3 K → K) (eps : K) (ps : List (PtPair K)) (R : M3 K) : K :=
  ((farPairs norm eps ps).map fun q => P3.distSq (R.mulVec (q.local - mean (ps.map (·.local))))
    (q.global - mean (ps.map (·.global)))).sum

/-- There are not two rotations that both are the best. -/
def OneBestTurn (norm : P3 K → K) (eps : K) (ps : List (PtPair K)) : Prop :=
  ∀ A B : M3 K, IsRotation A → IsRotation B →
    (∀ R, IsRotation R → turnCost norm eps ps A ≤ turnCost norm eps ps R) →
    (∀ R, IsRotation R → turnCost norm eps ps B ≤ turnCost norm eps ps R) → A = B

/-- Nothing was left to chance in that iteration: nearest points were unique and, if there were enough pairs, the best rotation too. -/
structure ClearIter (norm : P3 K → K) (eps : K) (gpts pts : List (P3 K)) (ev : IterEvent K (Pose3 K)) : Prop where
  noTies : NoTies gpts pts ev.poseIn
  oneBest : 3 ≤ ev.pairings.pt2pt.length → OneBestTurn norm eps ev.pairings.pt2pt

/-- Differences of poses do not depend on the frame `G` they are seen from (`a ⊖ b` is `b⁻¹ a`, so they do not). -/
def FrameFree (ops : PoseOps K (Pose3 K)) (G : Pose3 K) : Prop :=
  ∀ a b, ops.logNorms (ops.sub (G.compose a) (G.compose b)) = ops.logNorms (ops.sub a b)

/-- The records of an iteration, seen from the two frames. -/
def SameDetail (G : Pose3 K) (a b : Nat × Pose3 K × Pairings K) : Prop :=
  b.1 = a.1 ∧ b.2.1 = G.compose a.2.1 ∧ SamePairs G a.2.2 b.2.2

/-- Two runs that tell the same, seen from the two frames. -/
structure SameRun (G : Pose3 K) (r r' : IcpResult K (Pose3 K)) : Prop where
  nIterations : r'.nIterations = r.nIterations
  reason : r'.reason = r.reason
  pose : r'.pose = if r.reason = .solverError then Pose3.identity else G.compose r.pose
  scale : r'.scale = r.scale
  quality : r'.quality = r.quality
  pairings : SamePairs G r.pairings r'.pairings
  log : Option.Rel (List.Forall₂ (SameDetail G)) r.log r'.log

/-- Two registrations of the same data: in the second the map is moved by `G` and stored in another order, and the local points come
in another order; neither has an angular threshold. -/
structure FrameSetting (ops : PoseOps K (Pose3 K)) (e : HornEnv K) (wp : WeightParams K) (c : DTCfg K) (G : Pose3 K)
    (g g' : GLayer K) (gpts gpts' pts pts' : List (P3 K)) : Prop where
  fit : FitSetting ops e wp c g gpts pts
  serves : ServesPoints g' gpts'
  rot : IsRotation G.R
  map : gpts'.Perm (gpts.map G.composePoint)
  points : pts'.Perm pts
  angSq : c.angSq = 0
  free : FrameFree ops G

/-- The same without saying anything of the solver. -/
structure MapSetting (ops : PoseOps K (Pose3 K)) (c : DTCfg K) (G : Pose3 K) (g g' : GLayer K) (gpts gpts' pts pts' : List (P3 K)) : Prop where
  serves : ServesPoints g gpts
  serves' : ServesPoints g' gpts'
  matcher : PlainMatcher c pts.length
  many : c.allowGlobal = true
  rot : IsRotation G.R
  map : gpts'.Perm (gpts.map G.composePoint)
  points : pts'.Perm pts
  angSq : c.angSq = 0
  free : FrameFree ops G

end Verif.Spec
