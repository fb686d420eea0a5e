import Verif.Model.FpFilters
import Verif.Model.Decimate
/-
Voxel decimation in the arithmetic of the machine: the filters of `Model/Decimate.lean`, run with the numbers of a format.
-/
namespace Verif
namespace Fp

instance (A : Arith) : Sub A.Num := ⟨A.sub⟩

/-- `coord2idx` in `float`, PointCloudToVoxelGrid.h:116-120, PointCloudToVoxelGridSingle.h:109-113 -/
instance (A : Arith) : Vox.VoxelIdx A.Num := ⟨fun res x => coord2idxF A res x⟩

end Fp
end Verif
