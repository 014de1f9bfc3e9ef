import Verif.Model.VoxelMap

/-!
`GaussianVoxel` in floating-point arithmetic (ann/gaussian_voxelmap.hpp:15-60): the additions, multiplications and divisions of the mean and of the covariance are those of a set of operations.
-/

namespace Verif.Voxel.Machine

open Verif

variable {K : Type} [NatCast K]

/-- A call of one of the two members that change a voxel. The point arrives already transformed, and the covariance is the value of `T.matrix() * cov * T.matrix().transpose()`
(gaussian_voxelmap.hpp:41) as computed by Eigen, whose order of operations is not modelled. -/
inductive Step (K : Type) where
  | add (tp : Pt K) (cov : Mat4 K)
  | finalize

/-- `GaussianVoxel::GaussianVoxel` (gaussian_voxelmap.hpp:20). -/
def fresh (o : Ops K) : GaussianVoxel K := ⟨false, 0, Pt.zero o, fun _ _ => o.zero⟩

/-- `mean *= s` (gaussian_voxelmap.hpp:35): every component is multiplied. -/
def scale (o : Ops K) (p : Pt K) (s : K) : Pt K := ⟨o.mul p.x s, o.mul p.y s, o.mul p.z s, o.mul p.w s⟩

/-- `GaussianVoxel::add` (gaussian_voxelmap.hpp:32-42). A voxel that has been finalized is multiplied with its number of points first. The conversion of `num_points` from `size_t` to `double` is taken to be
exact (it is up to 2⁵³ points). -/
def add (o : Ops K) (v : GaussianVoxel K) (tp : Pt K) (cov : Mat4 K) : GaussianVoxel K :=
  let v := if v.finalized then
      { v with finalized := false, mean := scale o v.mean (v.numPoints : K), cov := fun i j => o.mul (v.cov i j) (v.numPoints : K) }
    else v
  { v with
    numPoints := v.numPoints + 1
    mean := Pt.add o v.mean tp
    cov := fun i j => o.add (v.cov i j) (cov i j) }

/-- `GaussianVoxel::finalize` (gaussian_voxelmap.hpp:45-53). Eigen's `/=` divides every component. -/
def finalize (o : Ops K) (v : GaussianVoxel K) : GaussianVoxel K :=
  if v.finalized then v
  else { v with finalized := true, mean := Pt.sdiv o v.mean (v.numPoints : K), cov := fun i j => o.div (v.cov i j) (v.numPoints : K) }

/-- One call. -/
def step (o : Ops K) (v : GaussianVoxel K) : Step K → GaussianVoxel K
  | .add tp cov => add o v tp cov
  | .finalize => finalize o v

/-- The calls that a voxel receives from its creation on: `IncrementalVoxelMap::insert` adds the points of the cloud that fall into it and then finalizes it (incremental_voxelmap.hpp:54-90). -/
def run (o : Ops K) (steps : List (Step K)) : GaussianVoxel K := steps.foldl (step o) (fresh o)

end Verif.Voxel.Machine
