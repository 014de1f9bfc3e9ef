/-!
The spatial hash of the voxel maps (util/vector3i_hash.hpp).
-/

namespace Verif.VoxelHash

/-- `XORVector3iHash::operator()` (vector3i_hash.hpp:15-20) and `XORVector3iHash::hash` (line 22). `int * size_t`: the coordinate is converted to `size_t` (modulo 2^64), and the product wraps; `size_t` has 64 bits. -/
def hash (x y z : Int) : BitVec 64 := (BitVec.ofInt 64 x * 73856093#64) ^^^ (BitVec.ofInt 64 y * 19349669#64) ^^^ (BitVec.ofInt 64 z * 83492791#64)

/-- `XORVector3iHash::equal` (vector3i_hash.hpp:23): `Eigen` compares all coefficients. -/
def equal (a b : Int × Int × Int) : Bool := a.1 == b.1 && a.2.1 == b.2.1 && a.2.2 == b.2.2

end Verif.VoxelHash
