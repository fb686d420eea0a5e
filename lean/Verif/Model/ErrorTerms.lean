import Verif.Model.Linalg
import Verif.Model.Pairings
import Mathlib.Data.Matrix.Mul
import Mathlib.LinearAlgebra.Matrix.Notation
import Mathlib.Algebra.Order.Field.Basic
/-
Error terms of the optimizer and their Jacobians, /repo/mp2p_icp/src/errorTerms.cpp.
The 12 columns of a Jacobian are the entries of the pose matrix, column by column: r00,r10,r20, r01,r11,r21,
r02,r12,r22, tx,ty,tz.  The square root and the "angle smaller than tolerance" test of the line-to-line term are
parameters.  `TLine3D::distance` and `getAngle` are MRPT functions (external): the first one is given by its squared value.
-/
namespace Verif.Err
variable {K : Type} [Field K]

/-- Derivative of `T ⊕ l` with respect to the pose entries: the matrix literal of errorTerms.cpp:57-60 (also 101-104,
150-153, 226-229 and the upper half of 301-303). -/
def composeJac (l : P3 K) : Matrix (Fin 3) (Fin 12) K :=
  !![l.x,   0,   0, l.y,   0,   0, l.z,   0,   0, 1, 0, 0;
       0, l.x,   0,   0, l.y,   0,   0, l.z,   0, 0, 1, 0;
       0,   0, l.x,   0,   0, l.y,   0,   0, l.z, 0, 0, 1]

/-- `error_point2point`, errorTerms.cpp:36-66: the error (lines 44-48). -/
def pt2pt (p : PtPair K) (T : Pose3 K) : Fin 3 → K :=
  let g := T.composePoint p.local
  ![g.x - p.global.x, g.y - p.global.y, g.z - p.global.z]

/-- `error_point2point`: the Jacobian, errorTerms.cpp:52-61. -/
def pt2ptJac (p : PtPair K) : Matrix (Fin 3) (Fin 12) K := composeJac p.local

/-- `error_point2line`, errorTerms.cpp:68-113: the error (lines 76-89). -/
def pt2ln (p : PtLnPair K) (T : Pose3 K) : Fin 3 → K :=
  let g := T.composePoint p.ptLocal
  let u := p.lnGlobal.director
  let q := g - p.lnGlobal.pBase
  let uq := u.dot q
  ![q.x - u.x * uq, q.y - u.y * uq, q.z - u.z * uq]

/-- `error_point2line`: the Jacobian, errorTerms.cpp:91-109. -/
def pt2lnJac (p : PtLnPair K) : Matrix (Fin 3) (Fin 12) K :=
  let u := p.lnGlobal.director
  !![1 - u.x * u.x, -u.x * u.y, -u.x * u.z;
     -u.y * u.x, 1 - u.y * u.y, -u.y * u.z;
     -u.z * u.x, -u.z * u.y, 1 - u.z * u.z] * composeJac p.ptLocal

/-- `error_point2plane`, errorTerms.cpp:115-161: the error (lines 121-135). -/
def pt2pl (p : PtPlPair K) (T : Pose3 K) : Fin 3 → K :=
  let g := T.composePoint p.ptLocal
  let n := p.plGlobal.plane.n
  let modN := n.x * n.x + n.y * n.y + n.z * n.z
  let e := n.x * g.x + n.y * g.y + n.z * g.z + p.plGlobal.plane.d
  ![-(n.x / modN) * e, -(n.y / modN) * e, -(n.z / modN) * e]

/-- `error_point2plane`: the Jacobian, errorTerms.cpp:136-157. -/
def pt2plJac (p : PtPlPair K) : Matrix (Fin 3) (Fin 12) K :=
  let n := p.plGlobal.plane.n
  let modN := n.x * n.x + n.y * n.y + n.z * n.z
  !![-(n.x * n.x) / modN, -n.x * n.y / modN, -n.x * n.z / modN;
     -n.y * n.x / modN, -(n.y * n.y) / modN, -n.y * n.z / modN;
     -n.z * n.x / modN, -n.z * n.y / modN, -(n.z * n.z) / modN] * composeJac p.ptLocal

/-- `error_plane2plane`, errorTerms.cpp:328-363: the error (lines 335-340).  `getNormalVector` returns the first three
coefficients, not normalised. -/
def pl2pl (p : PlPair K) (T : Pose3 K) : Fin 3 → K :=
  let r := T.R.mulVec p.pLocal.plane.n
  ![r.x - p.pGlobal.plane.n.x, r.y - p.pGlobal.plane.n.y, r.z - p.pGlobal.plane.n.z]

/-- `error_plane2plane`: the Jacobian, errorTerms.cpp:342-360. -/
def pl2plJac (p : PlPair K) : Matrix (Fin 3) (Fin 12) K :=
  let n := p.pLocal.plane.n
  !![n.x,   0,   0, n.y,   0,   0, n.z,   0,   0, 0, 0, 0;
       0, n.x,   0,   0, n.y,   0,   0, n.z,   0, 0, 0, 0;
       0,   0, n.x,   0,   0, n.y,   0,   0, n.z, 0, 0, 0]

/-- The external functions used by `error_line2line`: the square root and the test of errorTerms.cpp:193, 215
(`|getAngle(global, moved local)·180/2π| < 0.01`) on the two director vectors. -/
structure LnEnv (K : Type) where
  sqrt : K → K
  parallel : P3 K → P3 K → Bool

/-- Director of the moved local line as computed in errorTerms.cpp:187-190: the *row* vector `(u0,1)` times the 4x4 matrix
of the pose, first three entries, i.e. `R` transposed times `u0`. -/
def ln2lnDir (p : LnPair K) (T : Pose3 K) : P3 K := T.R.transpose.mulVec p.lnLocal.director

/-- Base of the moved local line minus the global base, errorTerms.cpp:178-179, 204-207. -/
def ln2lnBase (p : LnPair K) (T : Pose3 K) : P3 K := T.composePoint p.lnLocal.pBase - p.lnGlobal.pBase

/-- `r_w`, errorTerms.cpp:240-245. -/
def ln2lnCross (p : LnPair K) (T : Pose3 K) : P3 K :=
  let U := ln2lnDir p T
  let u1 := p.lnGlobal.director
  ⟨U.y * u1.z - U.z * u1.y, -(U.x * u1.z - U.z * u1.x), U.x * u1.y - U.y * u1.x⟩

/-- `error_line2line`, errorTerms.cpp:163-326: the error (lines 215-218 and 238-252).  In the "parallel" branch only
entry 0 is written: the others keep what the (uninitialised) vector held, the parameter `junk`. -/
def ln2ln (E : LnEnv K) (junk : Fin 4 → K) (p : LnPair K) (T : Pose3 K) : Fin 4 → K :=
  let U := ln2lnDir p T
  let u1 := p.lnGlobal.director
  let q := ln2lnBase p T
  if E.parallel u1 U then
    ![q.normSq - q.dot u1 * q.dot u1 / u1.normSq, junk 1, junk 2, junk 3]
  else
    let rw := ln2lnCross p T
    ![q.dot rw / E.sqrt rw.normSq, U.x - u1.x, U.y - u1.y, U.z - u1.z]

/-- `J1_2` of the general branch, errorTerms.cpp:258-287. -/
def ln2lnJ12 (E : LnEnv K) (p : LnPair K) (T : Pose3 K) : P3 K :=
  let u1 := p.lnGlobal.director
  let q := ln2lnBase p T
  let rw := ln2lnCross p T
  let A := q.x * rw.x + q.y * rw.y + q.z * rw.z
  let Ax := -u1.z * q.y + u1.y * q.z
  let Ay := u1.z * q.x - u1.x * q.z
  let Az := -u1.y * q.x + u1.x * q.y
  let B := E.sqrt rw.normSq
  let Bx := (-u1.z * rw.y + u1.y * rw.z) / B
  let By := (u1.z * rw.x + u1.x * rw.z) / B
  let Bz := (-u1.y * rw.x + u1.x * rw.y) / B
  ⟨(Ax * B - A * Bx) / (B * B), (Ay * B - A * By) / (B * B), (Az * B - A * Bz) / (B * B)⟩

/-- `J2` of the general branch, errorTerms.cpp:300-309. -/
def ln2lnJ2 (p : LnPair K) : Matrix (Fin 6) (Fin 12) K :=
  let p0 := p.lnLocal.pBase
  let u0 := p.lnLocal.director
  !![p0.x,    0,    0, p0.y,    0,    0, p0.z,    0,    0, 1, 0, 0;
        0, p0.x,    0,    0, p0.y,    0,    0, p0.z,    0, 0, 1, 0;
        0,    0, p0.x,    0,    0, p0.y,    0,    0, p0.z, 0, 0, 1;
     -u0.x,    0,    0, -u0.y,    0,    0, -u0.z,    0,    0, 0, 0, 0;
        0, -u0.x,    0,    0, -u0.y,    0,    0, -u0.z,    0, 0, 0, 0;
        0,    0, -u0.x,    0,    0, -u0.y,    0,    0, -u0.z, 0, 0, 0]

/-- `J1` of the general branch, errorTerms.cpp:254-296. -/
def ln2lnJ1 (E : LnEnv K) (p : LnPair K) (T : Pose3 K) : Matrix (Fin 4) (Fin 6) K :=
  let rw := ln2lnCross p T
  let B := E.sqrt rw.normSq
  let j := ln2lnJ12 E p T
  !![rw.x / B, rw.y / B, rw.z / B, j.x, j.y, j.z;
     0, 0, 0, 1, 0, 0;
     0, 0, 0, 0, 1, 0;
     0, 0, 0, 0, 0, 1]

/-- `J1` of the "parallel" branch, errorTerms.cpp:219-223. -/
def ln2lnJ1Par (p : LnPair K) (T : Pose3 K) : Matrix (Fin 1) (Fin 3) K :=
  let rv := p.lnGlobal.director
  let q := ln2lnBase p T
  let s := 2 / rv.normSq * q.dot rv
  !![2 * q.x - s * rv.x, 2 * q.y - s * rv.y, 2 * q.z - s * rv.z]

/-- `error_line2line`: the Jacobian, errorTerms.cpp:219-235 and 253-316; in the "parallel" branch rows 1 to 3 keep what the
caller's (uninitialised) matrix held. -/
def ln2lnJac (E : LnEnv K) (junk : Matrix (Fin 4) (Fin 12) K) (p : LnPair K) (T : Pose3 K) :
    Matrix (Fin 4) (Fin 12) K :=
  if E.parallel p.lnGlobal.director (ln2lnDir p T) then
    fun i j => if i = 0 then (ln2lnJ1Par p T * composeJac p.lnLocal.pBase) 0 j else junk i j
  else ln2lnJ1 E p T * ln2lnJ2 p

end Verif.Err
