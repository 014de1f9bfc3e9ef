import Verif.Model.RegistrationMemory

/-!
Registration against an `IncrementalVoxelMap` with any voxel contents. `RegMem.voxelWorld` is the case of Gaussian voxels.
-/

namespace Verif.RegMem

open Matrix Verif Verif.Voxel

variable {K : Type} [Field K] [LinearOrder K]

/-- `Traits<VoxelContents>::normal` and `cov`. A function that the container does not have makes the program fail to compile; it is marked `exception` here. -/
structure Attrs (K V : Type) where
  normal : V → Nat → Res (Pt K)
  cov : V → Nat → Res (Mat4 K)

/-- `Traits<FlatContainer<HasNormals, HasCovs>>` (flat_container.hpp:139-140). -/
def flatAttrs (s : FlatSetting K) : Attrs K (FlatVoxel K) :=
  ⟨fun v i => if s.hasNormals then rd v.normals i else .error .exception, fun v i => if s.hasCovs then rd v.covs i else .error .exception⟩

/-- `Traits<GaussianVoxel>` (gaussian_voxelmap.hpp:71). -/
def gaussianAttrs : Attrs K (GaussianVoxel K) := ⟨fun _ _ => .error .exception, fun v _ => .ok v.cov⟩

/-- `Traits<IncrementalVoxelMap>::normal` (incremental_voxelmap.hpp:216-221). -/
def mapNormal {V : Type} (a : Attrs K V) (m : VoxelMap K V) (i : Nat) : Res (Pt K) := do
  let (_, v) ← rd m.flat (voxelId i)
  a.normal v (pointId i)

/-- `Traits<IncrementalVoxelMap>::cov` (incremental_voxelmap.hpp:222-227). -/
def mapCov {V : Type} (a : Attrs K V) (m : VoxelMap K V) (i : Nat) : Res (Mat4 K) := do
  let (_, v) ← rd m.flat (voxelId i)
  a.cov v (pointId i)

/-- Target cloud and target tree are the same `IncrementalVoxelMap` (odometry_benchmark_small_gicp_model_omp.cpp:34,
odometry_benchmark_small_vgicp_model_omp.cpp:34). -/
def mapWorld [FloorRing K] {V : Type} (c : Contents K V) (a : Attrs K V) (maxD : K) (m : VoxelMap K V) (source : PCloud K) (junk : Nat × K) : World K where
  srcPoint := source.point
  srcCov := source.cov
  tgtPoint := fun i => do
    let p ← pointAt c m i
    return ofPt p
  tgtNormal := fun i => do
    let n ← mapNormal a m i
    return ofPt n
  tgtCov := mapCov a m
  nn := fun q => do
    let r ← Voxel.search c maxD m (toPt q) 1 (-1) [junk.1] [junk.2]
    return r.found.head?

end Verif.RegMem
