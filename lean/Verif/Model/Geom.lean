/-
Elementary geometric types.  Models the MRPT value types used by the code:
`mrpt::math::TPoint3D(f)`, `TVector3D`, `TLine3D`, `TPlane`, and `mp2p_icp::plane_patch_t`
(/repo/mp2p_icp_map/include/mp2p_icp/plane_patch.h, point_plane_pair_t.h).
Simplification: `float`/`double` coordinates are elements of a type `K` (a field where needed).
-/
namespace Verif

/-- `mrpt::math::TPoint3D` / `TVector3D`. -/
@[ext] structure P3 (K : Type) where
  x : K
  y : K
  z : K
  deriving DecidableEq, Repr

namespace P3
variable {K : Type}

instance [Add K] : Add (P3 K) := ⟨fun a b => ⟨a.x + b.x, a.y + b.y, a.z + b.z⟩⟩
instance [Sub K] : Sub (P3 K) := ⟨fun a b => ⟨a.x - b.x, a.y - b.y, a.z - b.z⟩⟩
instance [Neg K] : Neg (P3 K) := ⟨fun a => ⟨-a.x, -a.y, -a.z⟩⟩
instance [Zero K] : Zero (P3 K) := ⟨⟨0, 0, 0⟩⟩

/-- scalar times vector -/
def smul [Mul K] (s : K) (a : P3 K) : P3 K := ⟨s * a.x, s * a.y, s * a.z⟩
/-- dot product -/
def dot [Add K] [Mul K] (a b : P3 K) : K := a.x * b.x + a.y * b.y + a.z * b.z
/-- squared Euclidean norm -/
def normSq [Add K] [Mul K] (a : P3 K) : K := a.dot a
/-- cross product -/
def cross [Sub K] [Mul K] (a b : P3 K) : P3 K :=
  ⟨a.y * b.z - a.z * b.y, a.z * b.x - a.x * b.z, a.x * b.y - a.y * b.x⟩
/-- squared Euclidean distance -/
def distSq [Add K] [Sub K] [Mul K] (a b : P3 K) : K := (a - b).normSq

@[simp] theorem add_x [Add K] (a b : P3 K) : (a + b).x = a.x + b.x := rfl
@[simp] theorem add_y [Add K] (a b : P3 K) : (a + b).y = a.y + b.y := rfl
@[simp] theorem add_z [Add K] (a b : P3 K) : (a + b).z = a.z + b.z := rfl
@[simp] theorem sub_x [Sub K] (a b : P3 K) : (a - b).x = a.x - b.x := rfl
@[simp] theorem sub_y [Sub K] (a b : P3 K) : (a - b).y = a.y - b.y := rfl
@[simp] theorem sub_z [Sub K] (a b : P3 K) : (a - b).z = a.z - b.z := rfl
@[simp] theorem neg_x [Neg K] (a : P3 K) : (-a).x = -a.x := rfl
@[simp] theorem neg_y [Neg K] (a : P3 K) : (-a).y = -a.y := rfl
@[simp] theorem neg_z [Neg K] (a : P3 K) : (-a).z = -a.z := rfl
@[simp] theorem zero_x [Zero K] : (0 : P3 K).x = 0 := rfl
@[simp] theorem zero_y [Zero K] : (0 : P3 K).y = 0 := rfl
@[simp] theorem zero_z [Zero K] : (0 : P3 K).z = 0 := rfl
@[simp] theorem smul_x [Mul K] (s : K) (a : P3 K) : (a.smul s).x = s * a.x := rfl
@[simp] theorem smul_y [Mul K] (s : K) (a : P3 K) : (a.smul s).y = s * a.y := rfl
@[simp] theorem smul_z [Mul K] (s : K) (a : P3 K) : (a.smul s).z = s * a.z := rfl
end P3

/-- `mrpt::math::TLine3D`: base point and director vector. -/
@[ext] structure Line3 (K : Type) where
  pBase : P3 K
  director : P3 K
  deriving DecidableEq, Repr

/-- `mrpt::math::TPlane`: coefficients of `A x + B y + C z + D = 0`; `n = (A,B,C)`. -/
@[ext] structure Plane (K : Type) where
  n : P3 K
  d : K
  deriving DecidableEq, Repr

/-- `mp2p_icp::plane_patch_t`. -/
@[ext] structure PlanePatch (K : Type) where
  plane : Plane K
  centroid : P3 K
  deriving DecidableEq, Repr

end Verif
