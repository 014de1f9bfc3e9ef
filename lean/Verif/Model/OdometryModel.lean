import Verif.Model.OdometryPipeline
import Verif.Model.RegistrationMap

/-!
Odometry against a voxel map that accumulates the frames (`src/benchmark/odometry_benchmark_small_gicp_model_omp.cpp`, `odometry_benchmark_small_gicp_model_tbb.cpp`,
`odometry_benchmark_small_vgicp_model_omp.cpp`, `odometry_benchmark_small_vgicp_model_tbb.cpp`), and frame-to-frame odometry against the voxel map of the previous frame
(`odometry_benchmark_small_vgicp_omp.cpp`, `odometry_benchmark_small_vgicp_tbb.cpp`).
-/

namespace Verif.OdometryModel

open Matrix Verif Verif.PointCloud Verif.Features Verif.RegMem Verif.Factors Verif.Optimizer Verif.Lie Verif.Pipeline Verif.Voxel Verif.OdometryPipeline

/-- The voxel contents of an engine. -/
structure MapKind (V : Type) where
  contents : Contents ℝ V
  attrs : Attrs ℝ V

/-- `GaussianVoxelMap` of the engines `small_vgicp_model_omp` and `small_vgicp_model_tbb`. -/
noncomputable def gaussianKind : MapKind (GaussianVoxel ℝ) := ⟨gaussianContents, gaussianAttrs⟩

/-- `FlatContainerCov` with the default setting (flat_container.hpp:24-27, 125). -/
noncomputable def covSetting : FlatSetting ℝ := ⟨1 / 10 * (1 / 10), 10, false, true⟩

/-- `IncrementalVoxelMap<FlatContainerCov>` of the engines `small_gicp_model_omp` and `small_gicp_model_tbb`. -/
noncomputable def linearKind : MapKind (FlatVoxel ℝ) := ⟨flatContents covSetting, flatAttrs covSetting⟩

/-- The members `voxelmap` (null before the first frame) and `T_world_lidar` (odometry_benchmark_small_gicp_model_omp.cpp:59-60). -/
structure ScanToModel (V : Type) where
  map : Option (VoxelMap ℝ V)
  T : Pose ℝ

/-- The constructor (odometry_benchmark_small_gicp_model_omp.cpp:14). -/
noncomputable def ScanToModel.init {V : Type} : ScanToModel V := ⟨none, Pose.one⟩

/-- `estimate_covariances_omp(*points, params.num_neighbors, params.num_threads)` and the TBB version (normal_estimation_omp.hpp:8-17, 58-60,
normal_estimation_tbb.hpp:20-30): the tree is built by one thread, and is not kept. -/
noncomputable def ownCovariances (e : Env) (o : Params) (f : Frame) : Res RCloud := do
  let p ← prepareFrame e o ⟨{ f.exec with tree := .sequential }, f.cloud⟩
  return p.cloud

/-- `std::make_shared<IncrementalVoxelMap<...>>(params.voxel_resolution)` and `insert(*points)` (odometry_benchmark_small_gicp_model_omp.cpp:26-27). A zero
resolution makes `inv_leaf_size` infinite; see `Pipeline.createVoxelmap`. -/
noncomputable def newMap {V : Type} (k : MapKind V) (resolution : ℝ) (c : RCloud) : Res (VoxelMap ℝ V) := do
  let pts ← voxelSource c
  if resolution = 0 ∧ pts ≠ [] then .error .intOverflow
  else Voxel.insert k.contents (VoxelMap.new resolution) pts 1

/-- `registration.align(*voxelmap, *points, *voxelmap, init)` with default settings apart from `max_dist_sq`. -/
noncomputable def alignToMap {V : Type} (k : MapKind V) (e : Env) (x : FrameExec) (maxDistSq : ℝ) (m : VoxelMap ℝ V) (c : RCloud) (init : Pose ℝ) : Res (Pose ℝ) := do
  let r := Helper.Registration.default .gicp
  let (res, _, _) ← RegMem.align (gicpMem e.inv) (mapWorld k.contents k.attrs e.maxD m c e.junk)
    ⟨distanceRejector maxDistSq, nullFactor, e.solve, se3Exp, converged r.rotationEps r.translationEps⟩ x.lin x.err (.lm r.lm) init c.size
  return res.T

/-- `estimate(points)` of the four engines (odometry_benchmark_small_gicp_model_omp.cpp:16-50, odometry_benchmark_small_gicp_model_tbb.cpp:22-55,
odometry_benchmark_small_vgicp_model_omp.cpp:16-50, odometry_benchmark_small_vgicp_model_tbb.cpp:22-55): `max_correspondence_distance` is not used, the rejector keeps its
default `max_dist_sq`. -/
noncomputable def modelStep {V : Type} (k : MapKind V) (e : Env) (o : Params) (s : ScanToModel V) (f : Frame) : Res (ScanToModel V × Pose ℝ) := do
  let c ← ownCovariances e o f
  match s.map with
  | none => do
    let m ← newMap k o.voxelResolution c
    return (⟨some m, s.T⟩, s.T)
  | some m => do
    let T ← alignToMap k e f.exec (Helper.Registration.default .gicp).maxDistSq m c s.T
    let pts ← voxelSource c
    let m ← Voxel.insert k.contents m pts T.matrix
    return (⟨some m, T⟩, T)

/-- The four engines (benchmark_odom.hpp:49-80 with the member functions `estimate`). -/
noncomputable def modelOnline {V : Type} (k : MapKind V) (e : Env) (o : Params) (s : ScanToModel V) (points : List (Option Frame)) :
    Res (ScanToModel V × List (Option Frame) × List (Pose ℝ)) :=
  Odometry.online (sampleFrame e o) (modelStep k e o) s points

/-- A frame of the engines `small_vgicp_omp` and `small_vgicp_tbb` after preprocessing: `target_points` and `target_voxelmap`
(odometry_benchmark_small_vgicp_omp.cpp:57-58). -/
structure MapFrame where
  exec : FrameExec
  cloud : RCloud
  map : VoxelMap ℝ (GaussianVoxel ℝ)

/-- Tree, covariances and voxel map (odometry_benchmark_small_vgicp_omp.cpp:21-25, odometry_benchmark_small_vgicp_tbb.cpp:26-29). The TBB version leaves the
tree to `estimate_covariances_tbb`, which builds it with one thread (normal_estimation_tbb.hpp:20-30): the case `tree := .sequential`. -/
noncomputable def prepareMapFrame (e : Env) (o : Params) (f : Frame) : Res MapFrame := do
  let p ← prepareFrame e o f
  let m ← newMap gaussianKind o.voxelResolution p.cloud
  return ⟨f.exec, p.cloud, m⟩

/-- The registration to the previous frame (odometry_benchmark_small_vgicp_omp.cpp:33-36, odometry_benchmark_small_vgicp_tbb.cpp:37-40). -/
noncomputable def registerMapFrames (e : Env) (o : Params) (target source : MapFrame) : Res (Pose ℝ) :=
  alignToMap gaussianKind e source.exec (o.maxCorrespondenceDistance * o.maxCorrespondenceDistance) target.map source.cloud Pose.one

/-- The engines `small_vgicp_omp` and `small_vgicp_tbb`. -/
noncomputable def vgicpOnline (e : Env) (o : Params) (s : Odometry.FrameToFrame ℝ MapFrame) (points : List (Option Frame)) :
    Res (Odometry.FrameToFrame ℝ MapFrame × List (Option Frame) × List (Pose ℝ)) :=
  Odometry.online (sampleFrame e o) (Odometry.frameToFrame (prepareMapFrame e o) (registerMapFrames e o)) s points

end Verif.OdometryModel
