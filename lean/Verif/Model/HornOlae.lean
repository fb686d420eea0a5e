import Verif.Model.Visit
/-
Closed-form solvers: /repo/mp2p_icp/src/optimal_tf_horn.cpp, optimal_tf_olae.cpp, Solver_Horn.cpp, Solver_OLAE.cpp.
-/
namespace Verif
variable {K : Type}

/-- A symmetric 4x4 matrix, `N` of optimal_tf_horn.cpp:134-155, given by its upper triangle (the code copies it to the
lower one). -/
structure Sym4 (K : Type) where
  n00 : K
  n01 : K
  n02 : K
  n03 : K
  n11 : K
  n12 : K
  n13 : K
  n22 : K
  n23 : K
  n33 : K

/-- `N` times a 4-vector. -/
def Sym4.mulVec [Add K] [Mul K] (N : Sym4 K) (v : Quat K) : Quat K :=
  ⟨N.n00 * v.r + N.n01 * v.x + N.n02 * v.y + N.n03 * v.z, N.n01 * v.r + N.n11 * v.x + N.n12 * v.y + N.n13 * v.z,
   N.n02 * v.r + N.n12 * v.x + N.n22 * v.y + N.n23 * v.z, N.n03 * v.r + N.n13 * v.x + N.n23 * v.y + N.n33 * v.z⟩

section
variable [Field K] [LinearOrder K]

/-- `lambda_each_pair` of `se3_l2_internal`, optimal_tf_horn.cpp:101-117. -/
def hornAdd (S : M3 K) (v : Visited K) : M3 K :=
  ⟨S.a00 + v.w * v.r.x * v.b.x, S.a01 + v.w * v.r.x * v.b.y, S.a02 + v.w * v.r.x * v.b.z,
   S.a10 + v.w * v.r.y * v.b.x, S.a11 + v.w * v.r.y * v.b.y, S.a12 + v.w * v.r.y * v.b.z,
   S.a20 + v.w * v.r.z * v.b.x, S.a21 + v.w * v.r.z * v.b.y, S.a22 + v.w * v.r.z * v.b.z⟩

/-- `S` after the walk, optimal_tf_horn.cpp:97-130. -/
def hornS (o : VisitOut K) : M3 K :=
  let S := o.visited.foldl hornAdd M3.zero
  if 0 < o.wSum then S.smul (1 / o.wSum) else S

/-- `N` from `S`, optimal_tf_horn.cpp:132-155. -/
def hornN (S : M3 K) : Sym4 K where
  n00 := S.a00 + S.a11 + S.a22
  n01 := S.a12 - S.a21
  n02 := S.a20 - S.a02
  n03 := S.a01 - S.a10
  n11 := S.a00 - S.a11 - S.a22
  n12 := S.a01 + S.a10
  n13 := S.a20 + S.a02
  n22 := -S.a00 + S.a11 - S.a22
  n23 := S.a12 + S.a21
  n33 := -S.a00 - S.a11 + S.a22

/-- Constants and external functions: `norm` (Euclidean norm), `eps = 1e-4`, `eig` = last column of the eigenvector
matrix of `eig_symmetric(…, sorted)`, optimal_tf_horn.cpp:159-163. -/
structure HornEnv (K : Type) where
  norm : P3 K → K
  eps : K
  eig : Sym4 K → Quat K

/-- `se3_l2_internal`, optimal_tf_horn.cpp:77-199: `none` = returns false. Else attitude and new outliers. -/
def se3L2Internal (e : HornEnv K) (p : Pairings K) (wp : WeightParams K) (ctLocal ctGlobal : P3 K) (outl : List Nat) :
    Outcome (Option (Quat K × List Nat)) := do
  Outcome.assert (p.pt2ln.length = 0)
  Outcome.assert (p.pt2pl.length = 0)
  if p.pt2pt.length + p.ln2ln.length + p.pl2pl.length < 3 then return none
  else
    let o ← visitCorrespondences p wp ctLocal ctGlobal outl false e.norm e.eps
    let v := e.eig (hornN (hornS o))
    let v := if v.r < 0 then ⟨-v.r, -v.x, -v.y, -v.z⟩ else v
    return some (v, o.outliers)

/-- Result of an optimal-pose function: pose and outliers (`OptimalTF_Result`). -/
structure TFResult (K : Type) where
  pose : Pose3 K
  outliers : List Nat
  deriving DecidableEq, Repr

/-- Translation from the centroids, optimal_tf_horn.cpp:240-247 and optimal_tf_olae.cpp:349-356. -/
def poseFromRot (R : M3 K) (ctLocal ctGlobal : P3 K) : Pose3 K := ⟨R, ctGlobal - (R.mulVec ctLocal + 0)⟩

/-- `optimal_tf_horn`, optimal_tf_horn.cpp:201-252; `none` = returns false. -/
def optimalTfHorn (e : HornEnv K) (p : Pairings K) (wp : WeightParams K) : Outcome (Option (TFResult K)) := do
  Outcome.assert (0 ≤ wp.pairWeights.pt2pt)
  Outcome.assert (0 ≤ wp.pairWeights.ln2ln)
  Outcome.assert (0 ≤ wp.pairWeights.pl2pl)
  let (ctL, ctG) ← evalCentroidsRobust p {}
  match ← se3L2Internal e p wp ctL ctG [] with
  | none => return none
  | some (q, outl) =>
    if wp.useScaleOutlier = true ∧ outl ≠ [] then
      let (ctL, ctG) ← evalCentroidsRobust p { point2point := outl }
      match ← se3L2Internal e p wp ctL ctG outl with
      | none => return none
      | some (q, outl) => return some ⟨poseFromRot q.toMatrix ctL ctG, outl⟩
    else return some ⟨poseFromRot q.toMatrix ctL ctG, outl⟩

/-- `OLAE_LinearSystems`, optimal_tf_olae.cpp:55-63. -/
structure OlaeSys (K : Type) where
  M : M3 K
  Mx : M3 K
  My : M3 K
  Mz : M3 K
  v : P3 K
  vx : P3 K
  vy : P3 K
  vz : P3 K

/-- `lambda_each_pair` of OLAE, optimal_tf_olae.cpp:84-156: updates `v` and `B`. -/
def olaeAdd (a : P3 K × M3 K) (p : Visited K) : P3 K × M3 K :=
  (a.1 - P3.smul p.w ⟨p.b.y * p.r.z - p.b.z * p.r.y, -p.b.x * p.r.z + p.b.z * p.r.x, p.b.x * p.r.y - p.b.y * p.r.x⟩,
   a.2.add (M3.smul p.w ⟨p.b.x * p.r.x, p.b.x * p.r.y, p.b.x * p.r.z, p.b.y * p.r.x, p.b.y * p.r.y, p.b.y * p.r.z,
     p.b.z * p.r.x, p.b.z * p.r.y, p.b.z * p.r.z⟩))

/-- `v` and `B` after the walk with `lambda_final`, optimal_tf_olae.cpp:159-179. -/
def olaeVB (o : VisitOut K) : P3 K × M3 K :=
  let a := o.visited.foldl olaeAdd (0, M3.zero)
  if 0 < o.wSum then (P3.smul (1 / o.wSum) a.1, M3.smul (1 / o.wSum) a.2) else a

/-- The four linear systems, optimal_tf_olae.cpp:182-233. -/
def olaeSystems (v : P3 K) (B : M3 K) : OlaeSys K :=
  let S := B.add B.transpose
  let p := B.trace + 1
  let m := B.trace - 1
  let M0 : M3 K := ⟨S.a00 - p, S.a01, S.a02, S.a01, S.a11 - p, S.a12, S.a02, S.a12, S.a22 - p⟩
  let z1 := v.x
  let z2 := v.y
  let z3 := v.z
  { M := M0
    v := v
    Mx := ⟨m, -z3, z2, -z3, M0.a22, -S.a12, z2, -S.a12, M0.a11⟩
    vx := ⟨-z1, S.a02, -S.a01⟩
    My := ⟨M0.a22, z3, -S.a02, z3, m, -z1, -S.a02, -z1, M0.a00⟩
    vy := ⟨-S.a12, -z2, S.a01⟩
    Mz := ⟨M0.a11, -S.a01, -z2, -S.a01, M0.a00, z1, -z2, z1, m⟩
    vz := ⟨S.a12, -S.a02, -z3⟩ }

/-- `gibbs2pose`, optimal_tf_olae.cpp:33-44: quaternion `(r, -x, -y, -z)` with `r = 1/sqrt(1+|g|²)`. -/
def gibbsQuat (sqrt : K → K) (g : P3 K) : Quat K :=
  let r := 1 / sqrt (1 + g.x * g.x + g.y * g.y + g.z * g.z)
  ⟨r, -(g.x * r), -(g.y * r), -(g.z * r)⟩

/-- External functions of OLAE: norm, square root, and `colPivHouseholderQr().solve`. -/
structure OlaeEnv (K : Type) where
  norm : P3 K → K
  eps : K
  sqrt : K → K
  solve : M3 K → P3 K → P3 K

/-- Rotations by π about the axes: `CPose3D(0,0,0, 0,0,π)`, `(0,0,0, 0,π,0)`, `(0,0,0, π,0,0)`
(arguments are yaw, pitch, roll), optimal_tf_olae.cpp:316, 328, 340, as exact matrices. -/
def rotXpi : M3 K := ⟨1, 0, 0, 0, -1, 0, 0, 0, -1⟩
/-- Rotation by π about `y`, optimal_tf_olae.cpp:328. -/
def rotYpi : M3 K := ⟨-1, 0, 0, 0, 1, 0, 0, 0, -1⟩
/-- Rotation by π about `z`, optimal_tf_olae.cpp:340. -/
def rotZpi : M3 K := ⟨-1, 0, 0, 0, -1, 0, 0, 0, 1⟩

/-- `mrpt::max3`. -/
def max3 (a b c : K) : K := max a (max b c)

/-- Choice among the four systems and attitude, optimal_tf_olae.cpp:294-347. -/
def olaeAttitude (e : OlaeEnv K) (s : OlaeSys K) : M3 K :=
  let d0 := |s.M.det|
  let dx := |s.Mx.det|
  let dy := |s.My.det|
  let dz := |s.Mz.det|
  if max3 dx dy dz < d0 then (gibbsQuat e.sqrt (e.solve s.M s.v)).toMatrix
  else if max3 d0 dy dz < dx then rotXpi.mul (gibbsQuat e.sqrt (e.solve s.Mx s.vx)).toMatrix
  else if max3 d0 dx dz < dy then rotYpi.mul (gibbsQuat e.sqrt (e.solve s.My s.vy)).toMatrix
  else rotZpi.mul (gibbsQuat e.sqrt (e.solve s.Mz s.vz)).toMatrix

/-- `olae_build_linear_system`, optimal_tf_olae.cpp:65-238. -/
def olaeBuild (e : OlaeEnv K) (p : Pairings K) (wp : WeightParams K) (ctLocal ctGlobal : P3 K) (outl : List Nat) :
    Outcome (OlaeSys K × List Nat) := do
  let o ← visitCorrespondences p wp ctLocal ctGlobal outl true e.norm e.eps
  return (olaeSystems (olaeVB o).1 (olaeVB o).2, o.outliers)

/-- `optimal_tf_olae`, optimal_tf_olae.cpp:242-360. -/
def optimalTfOlae (e : OlaeEnv K) (p : Pairings K) (wp : WeightParams K) : Outcome (TFResult K) := do
  Outcome.assert (0 ≤ wp.pairWeights.pt2pt)
  Outcome.assert (0 ≤ wp.pairWeights.ln2ln)
  Outcome.assert (0 ≤ wp.pairWeights.pl2pl)
  let (ctL, ctG) ← evalCentroidsRobust p {}
  let (sys, outl) ← olaeBuild e p wp ctL ctG []
  if outl ≠ [] then
    let (ctL, ctG) ← evalCentroidsRobust p { point2point := outl }
    let (sys, outl) ← olaeBuild e p wp ctL ctG outl
    return ⟨poseFromRot (olaeAttitude e sys) ctL ctG, outl⟩
  else return ⟨poseFromRot (olaeAttitude e sys) ctL ctG, outl⟩

/-- `Solver_Horn::impl_optimal_pose`, Solver_Horn.cpp:40-61: pairings with lines or planes as targets are converted
first. -/
def solverHorn (e : HornEnv K) (nearOne : P3 K → Bool) (ratio : K) (wp : WeightParams K) (p : Pairings K)
    (guess : Option (Pose3 K)) : Outcome (Option (TFResult K)) := do
  if p.pt2ln ≠ [] ∨ p.pt2pl ≠ [] then
    let p' ← pt2lnPlToPt2pt e.norm nearOne ratio p guess
    optimalTfHorn e p' wp
  else optimalTfHorn e p wp

/-- `Solver_OLAE::impl_optimal_pose`, Solver_OLAE.cpp:42-63. -/
def solverOlae (e : OlaeEnv K) (nearOne : P3 K → Bool) (ratio : K) (wp : WeightParams K) (p : Pairings K)
    (guess : Option (Pose3 K)) : Outcome (TFResult K) := do
  if p.pt2ln ≠ [] ∨ p.pt2pl ≠ [] then
    let p' ← pt2lnPlToPt2pt e.norm nearOne ratio p guess
    optimalTfOlae e p' wp
  else optimalTfOlae e p wp

end
end Verif
