import Verif.Model.Geom
/-
Small fixed-size linear algebra used by the solvers: 3x3 matrices, poses and the rotation matrix of a quaternion.
Models the parts of `mrpt::math::CMatrixDouble33`, `Eigen::Matrix3d` and `mrpt::poses::CPose3D` which mp2p_icp uses
(external libraries, not in /repo): entries are elements of `K`.
-/
namespace Verif

/-- A 3x3 matrix. -/
@[ext] structure M3 (K : Type) where
  a00 : K
  a01 : K
  a02 : K
  a10 : K
  a11 : K
  a12 : K
  a20 : K
  a21 : K
  a22 : K
  deriving DecidableEq, Repr

namespace M3
variable {K : Type}

/-- Zero matrix. -/
def zero [Zero K] : M3 K := ⟨0, 0, 0, 0, 0, 0, 0, 0, 0⟩
/-- Identity matrix. -/
def one [Zero K] [One K] : M3 K := ⟨1, 0, 0, 0, 1, 0, 0, 0, 1⟩
/-- Sum. -/
def add [Add K] (A B : M3 K) : M3 K :=
  ⟨A.a00 + B.a00, A.a01 + B.a01, A.a02 + B.a02, A.a10 + B.a10, A.a11 + B.a11, A.a12 + B.a12,
   A.a20 + B.a20, A.a21 + B.a21, A.a22 + B.a22⟩
/-- Scalar times matrix. -/
def smul [Mul K] (s : K) (A : M3 K) : M3 K :=
  ⟨s * A.a00, s * A.a01, s * A.a02, s * A.a10, s * A.a11, s * A.a12, s * A.a20, s * A.a21, s * A.a22⟩
/-- Transpose. -/
def transpose (A : M3 K) : M3 K :=
  ⟨A.a00, A.a10, A.a20, A.a01, A.a11, A.a21, A.a02, A.a12, A.a22⟩
/-- Trace. -/
def trace [Add K] (A : M3 K) : K := A.a00 + A.a11 + A.a22
/-- Matrix times vector. -/
def mulVec [Add K] [Mul K] (A : M3 K) (v : P3 K) : P3 K :=
  ⟨A.a00 * v.x + A.a01 * v.y + A.a02 * v.z, A.a10 * v.x + A.a11 * v.y + A.a12 * v.z,
   A.a20 * v.x + A.a21 * v.y + A.a22 * v.z⟩
/-- Matrix product. -/
def mul [Add K] [Mul K] (A B : M3 K) : M3 K :=
  ⟨A.a00 * B.a00 + A.a01 * B.a10 + A.a02 * B.a20, A.a00 * B.a01 + A.a01 * B.a11 + A.a02 * B.a21,
   A.a00 * B.a02 + A.a01 * B.a12 + A.a02 * B.a22,
   A.a10 * B.a00 + A.a11 * B.a10 + A.a12 * B.a20, A.a10 * B.a01 + A.a11 * B.a11 + A.a12 * B.a21,
   A.a10 * B.a02 + A.a11 * B.a12 + A.a12 * B.a22,
   A.a20 * B.a00 + A.a21 * B.a10 + A.a22 * B.a20, A.a20 * B.a01 + A.a21 * B.a11 + A.a22 * B.a21,
   A.a20 * B.a02 + A.a21 * B.a12 + A.a22 * B.a22⟩
/-- Determinant. -/
def det [Add K] [Sub K] [Mul K] (A : M3 K) : K :=
  A.a00 * (A.a11 * A.a22 - A.a12 * A.a21) - A.a01 * (A.a10 * A.a22 - A.a12 * A.a20)
    + A.a02 * (A.a10 * A.a21 - A.a11 * A.a20)
/-- `a bᵀ`. -/
def outer [Mul K] (a b : P3 K) : M3 K :=
  ⟨a.x * b.x, a.x * b.y, a.x * b.z, a.y * b.x, a.y * b.y, a.y * b.z, a.z * b.x, a.z * b.y, a.z * b.z⟩
end M3

/-- `mrpt::poses::CPose3D`: rotation matrix and translation. -/
@[ext] structure Pose3 (K : Type) where
  R : M3 K
  t : P3 K
  deriving DecidableEq, Repr

namespace Pose3
variable {K : Type}
/-- `CPose3D::composePoint`. -/
def composePoint [Add K] [Mul K] (T : Pose3 K) (p : P3 K) : P3 K := T.R.mulVec p + T.t
/-- `CPose3D::operator+`: composition of poses. -/
def compose [Add K] [Mul K] (A B : Pose3 K) : Pose3 K := ⟨A.R.mul B.R, A.R.mulVec B.t + A.t⟩
/-- `CPose3D::Identity`. -/
def identity [Zero K] [One K] : Pose3 K := ⟨M3.one, 0⟩
end Pose3

/-- A quaternion `q_r + q_x i + q_y j + q_z k` (`mrpt::math::CQuaternionDouble`). -/
@[ext] structure Quat (K : Type) where
  r : K
  x : K
  y : K
  z : K
  deriving DecidableEq, Repr

namespace Quat
variable {K : Type}
/-- Squared norm. -/
def normSq [Add K] [Mul K] (q : Quat K) : K := q.r * q.r + q.x * q.x + q.y * q.y + q.z * q.z

/-- Rotation matrix of a unit quaternion (`CQuaternion::rotationMatrixNoResize`, used by the constructor
`CPose3D(q,x,y,z)`). -/
def toMatrix [Add K] [Sub K] [Mul K] [One K] (q : Quat K) : M3 K :=
  let two : K := 1 + 1
  ⟨q.r * q.r + q.x * q.x - q.y * q.y - q.z * q.z, two * (q.x * q.y - q.r * q.z), two * (q.z * q.x + q.r * q.y),
   two * (q.x * q.y + q.r * q.z), q.r * q.r - q.x * q.x + q.y * q.y - q.z * q.z, two * (q.y * q.z - q.r * q.x),
   two * (q.z * q.x - q.r * q.y), two * (q.y * q.z + q.r * q.x), q.r * q.r - q.x * q.x - q.y * q.y + q.z * q.z⟩
end Quat

end Verif
