import Verif.Model.ErrorTerms
import Verif.Model.Outcome
/-
`mp2p_icp::covariance`, /repo/mp2p_icp/src/covariance.cpp:30-141.
The stacked error vector is a list of optional values: `none` is a row which `err.resize(n)` created and nobody has
written (uninitialised).  `estimateJacobian` (finite differences), `setFromValues` and `inverse_LLt` are MRPT functions:
parameters.
-/
namespace Verif.Cov
variable {K : Type}

/-- `err.block<n,1>(start, 0) = ret` (e.g. covariance.cpp:80): outside of the vector it is undefined. -/
def writeAt (v : List (Option K)) (start : Nat) (vals : List K) : Outcome (List (Option K)) :=
  if start + vals.length ≤ v.length then
    .ok (v.take start ++ vals.map some ++ v.drop (start + vals.length))
  else .ub

/-- One of the five loops: pairing number `i` is written at row `base + i * step` (covariance.cpp:75-122). -/
def writeLoop (base step : Nat) : Nat → List (List K) → List (Option K) → Outcome (List (Option K))
  | _, [], v => .ok v
  | i, r :: rs, v => (writeAt v (base + i * step) r).bind (writeLoop base step (i + 1) rs)

/-- The error vectors of the pairings, one list per kind. -/
structure Rows (K : Type) where
  pt2pt : List (List K)
  pt2ln : List (List K)
  ln2ln : List (List K)
  pt2pl : List (List K)
  pl2pl : List (List K)

/-- `errorLambda` after the errors are evaluated, covariance.cpp:64-122.  Line 104 advances the base by the number of line
pairs, not by four times it. -/
def stack (r : Rows K) : Outcome (List (Option K)) :=
  let n := (r.pt2pt.length + r.pl2pl.length + r.pt2ln.length + r.pt2pl.length) * 3 + r.ln2ln.length * 4
  (Outcome.assert (0 < n)).bind fun _ =>
  (writeLoop 0 3 0 r.pt2pt (List.replicate n none)).bind fun v =>
  let base := r.pt2pt.length * 3
  (writeLoop base 3 0 r.pt2ln v).bind fun v =>
  let base := base + r.pt2ln.length * 3
  (writeLoop base 4 0 r.ln2ln v).bind fun v =>
  let base := base + r.ln2ln.length
  (writeLoop base 3 0 r.pt2pl v).bind fun v =>
  let base := base + r.pt2pl.length * 3
  writeLoop base 3 0 r.pl2pl v

variable [Field K]

/-- The errors of all the pairings at a pose, covariance.cpp:75-122. -/
def rowsAt (E : Err.LnEnv K) (junk : Fin 4 → K) (p : Pairings K) (T : Pose3 K) : Rows K where
  pt2pt := p.pt2pt.map fun q => List.ofFn (Err.pt2pt q T)
  pt2ln := p.pt2ln.map fun q => List.ofFn (Err.pt2ln q T)
  ln2ln := p.ln2ln.map fun q => List.ofFn (Err.ln2ln E junk q T)
  pt2pl := p.pt2pl.map fun q => List.ofFn (Err.pt2pl q T)
  pl2pl := p.pl2pl.map fun q => List.ofFn (Err.pl2pl q T)

/-- The six numbers of a pose. -/
structure Six (K : Type) where
  x : K
  y : K
  z : K
  yaw : K
  pitch : K
  roll : K

/-- `xInitial`, covariance.cpp:42-48: entry 0 is set twice and entry 2 (z) never; `junk` is what it held. -/
def xInitial (T : Six K) (junk : K) : Six K := ⟨T.x, T.y, junk, T.yaw, T.pitch, T.roll⟩

/-- External functions: pose from six numbers; numeric Jacobian, product and inverse, from the function and the point. -/
structure Env (K : Type) where
  ln : Err.LnEnv K
  junkErr : Fin 4 → K
  junkZ : K
  fromValues : Six K → Pose3 K
  finish : (Six K → Outcome (List (Option K))) → Six K → Outcome (Fin 6 → Fin 6 → K)

/-- `covariance`, covariance.cpp:30-141; `million` is the literal 1e6 of line 38. -/
def covariance (E : Env K) (million : K) (p : Pairings K) (T : Six K) : Outcome (Fin 6 → Fin 6 → K) :=
  if p.isEmpty then .ok fun i j => if i = j then million else 0
  else E.finish (fun x => stack (rowsAt E.ln E.junkErr p (E.fromValues x))) (xInitial T E.junkZ)

/-! ### the numeric Jacobian and what follows (covariance.cpp:50-52, 126-140) -/

/-- One of the six numbers changed by `h`. -/
def Six.bump (x : Six K) (j : Fin 6) (h : K) : Six K :=
  match j with
  | 0 => { x with x := x.x + h }
  | 1 => { x with y := x.y + h }
  | 2 => { x with z := x.z + h }
  | 3 => { x with yaw := x.yaw + h }
  | 4 => { x with pitch := x.pitch + h }
  | 5 => { x with roll := x.roll + h }

/-- The values of a vector; using one that was never written is undefined. -/
def written {K : Type} : List (Option K) → Outcome (List K)
  | [] => .ok []
  | none :: _ => .ub
  | some a :: l => (written l).bind fun r => .ok (a :: r)

/-- The function at `x` with number `j` increased, and decreased, by its step: the body of the loop of MRPT's `estimateJacobian`, called at
covariance.cpp:129-134. -/
def sides (f : Six K → Outcome (List (Option K))) (x : Six K) (incr : Fin 6 → K) (j : Fin 6) : Outcome (List K × List K) :=
  ((f (x.bump j (incr j))).bind written).bind fun a => ((f (x.bump j (-(incr j)))).bind written).bind fun b => .ok (a, b)

/-- `mrpt::math::estimateJacobian` as documented by MRPT: steps must be positive; central differences; the rows of the result. -/
def numJacobian [LT K] [DecidableLT K] (f : Six K → Outcome (List (Option K))) (x : Six K) (incr : Fin 6 → K) : Outcome (List (Fin 6 → K)) :=
  (Outcome.assert (∀ j, 0 < incr j)).bind fun _ =>
  (sides f x incr 0).bind fun s0 => (sides f x incr 1).bind fun s1 => (sides f x incr 2).bind fun s2 =>
  (sides f x incr 3).bind fun s3 => (sides f x incr 4).bind fun s4 => (sides f x incr 5).bind fun s5 =>
  let s : Fin 6 → List K × List K := ![s0, s1, s2, s3, s4, s5]
  .ok ((List.range s0.1.length).map fun i j => 1 / 2 / incr j * ((s j).1.getD i 0 - (s j).2.getD i 0))

/-- `xIncrs`, covariance.cpp:50-52. -/
def incrs (dXyz dAng : K) : Fin 6 → K := ![dXyz, dXyz, dXyz, dAng, dAng, dAng]

/-- `hessian = jacobᵀ * jacob`, covariance.cpp:136. -/
def hessianOf (J : List (Fin 6 → K)) : Fin 6 → Fin 6 → K := fun i j => (J.map fun r => r i * r j).sum

/-- The end of `covariance`, covariance.cpp:126-140; `inv` is MRPT's `inverse_LLt`. -/
def mrptFinish [LT K] [DecidableLT K] (inv : (Fin 6 → Fin 6 → K) → Fin 6 → Fin 6 → K) (dXyz dAng : K)
    (f : Six K → Outcome (List (Option K))) (x : Six K) : Outcome (Fin 6 → Fin 6 → K) :=
  (numJacobian f x (incrs dXyz dAng)).bind fun J => .ok (inv (hessianOf J))

/-- `CPose3D::setFromValues`, covariance.cpp:62; `rot` gives the rotation matrix for yaw, pitch and roll. -/
def poseOf (rot : K → K → K → M3 K) (x : Six K) : Pose3 K := ⟨rot x.yaw x.pitch x.roll, ⟨x.x, x.y, x.z⟩⟩

/-- MRPT's rotation matrix, from the cosines and sines of yaw, pitch and roll (`CPose3D::rebuildRotationMatrix`). -/
def eulerR (cy sy cp sp cr sr : K) : M3 K :=
  ⟨cy * cp, cy * sp * sr - sy * cr, cy * sp * cr + sy * sr,
   sy * cp, sy * sp * sr + cy * cr, sy * sp * cr - cy * sr,
   -sp, cp * sr, cp * cr⟩

/-- `covariance` down to the inverse of the matrix. -/
def covarianceOf [LT K] [DecidableLT K] (ln : Err.LnEnv K) (junkErr : Fin 4 → K) (junkZ : K) (rot : K → K → K → M3 K)
    (inv : (Fin 6 → Fin 6 → K) → Fin 6 → Fin 6 → K) (dXyz dAng million : K) (p : Pairings K) (T : Six K) : Outcome (Fin 6 → Fin 6 → K) :=
  covariance ⟨ln, junkErr, junkZ, poseOf rot, mrptFinish inv dXyz dAng⟩ million p T

end Verif.Cov
