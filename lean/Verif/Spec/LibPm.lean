import Verif.Model.LibPm
/-
What the libpointmatcher wrapper should do.
-/
namespace Verif.Pm
variable {K Cfg : Type} [Field K] [LinearOrder K]

/-- The points of a layer: those of a cloud, the occupied voxels of a voxel map. -/
def pointsOf : Option (Layer K) → List (P3 K)
  | some (.cloud p) => p
  | some (.voxels p) => p
  | _ => []

/-- The points of the layers that are clouds or voxel maps, layer after layer in order of name. -/
def AllPoints (m : PMap K) (pts : List (P3 K)) : Prop :=
  (∀ e ∈ m.layers, e.2 ≠ none) ∧
    pts = m.layers.flatMap fun e => pointsOf e.2

/-- A transformation which takes the i-th point of one list to the i-th of the other. -/
def Registers (T : Pose3 K) (src dst : List (P3 K)) : Prop := src.map T.composePoint = dst

end Verif.Pm
