import Verif.Model.VoxelMapMachine
import Verif.Model.OdometryPipeline

/-!
The odometry engines of `src/benchmark` in machine arithmetic: a `double` is an element of a type `V` of which nothing is known but the names of the operations, a pose is an element of a type `P`.
`Model/Odometry.lean`, `Model/OdometryPipeline.lean` and `Model/OdometryModel.lean` describe the same code with exact arithmetic.
-/

namespace Verif.Machine

open Verif Verif.PointCloud Verif.Features
open Verif.OdometryPipeline (TreeExec LoopExec)

/-- `OnlineOdometryEstimation::estimate(std::vector<PointCloud::Ptr>&)` (benchmark_odom.hpp:49-80), as `Odometry.online`: `none` is a null pointer, each pointer is reset after use. -/
def online {C Q S P : Type} (sample : C → Res Q) (step : S → Q → Res (S × P)) (s : S) (points : List (Option C)) : Res (S × List (Option C) × List P) :=
  (List.range points.length).foldlM (fun (st : S × List (Option C) × List P) i => do
    let q ← rd st.2.1 i
    match q with
    | none => .error .nullDeref
    | some c => do
      let d ← sample c
      let r ← step st.1 d
      let ps ← wr st.2.1 i none
      return (r.1, ps, st.2.2 ++ [r.2])) (s, points, [])

/-- How the functions run on one frame; `lin` and `err` are the calls of the reduction while the frame is registered. -/
structure FrameExec (P M : Type) where
  tree : TreeExec
  loop : LoopExec
  lin : P → List (GICP M) → RegMem.Exec
  err : P → List (GICP M) → RegMem.Exec

/-- A frame: the cloud, and how the functions will run on it. -/
structure Frame (V P M : Type) where
  exec : FrameExec P M
  cloud : Cloud (Fin 4 → V) M

/-- A frame after preprocessing. -/
structure Prepared (V P M : Type) where
  exec : FrameExec P M
  cloud : Cloud (Fin 4 → V) M
  tree : KdTree.Tree V

/-- `OdometryEstimationParams` (benchmark_odom.hpp:20-28), without `visualize` and `num_threads`; the number of threads is part of the executions. -/
structure OdomParams (V : Type) where
  numNeighbors : Int
  downsamplingResolution : V
  voxelResolution : V
  maxCorrespondenceDistance : V

/-- What the engines compute with. `identity` is `Isometry3d::Identity()`, `mul` the product of poses; `registration` and `meth` are the settings of a default-constructed `Registration<GICPFactor, ...>` (registration.hpp:46-53),
the rejector with its default `max_dist_sq`; `junk` is what the local variables of the factors hold before a search. -/
structure OdomEnv (V P H B D M R : Type) where
  prep : PrepEnv V M R
  eval : Eval V P H B M
  voxels : VoxelEval V P M
  identity : P
  mul : P → P → P
  registration : Config V P H B D
  meth : Method V
  junk : Nat × V

section

variable {V P H B D M R : Type} [LT V] [DecidableLT V] [LE V] [DecidableLE V]

/-- `voxelgrid_sampling(*points[i], params.downsampling_resolution)` (benchmark_odom.hpp:59). The points are read first. -/
def sampleFrame (e : OdomEnv V P H B D M R) (o : OdomParams V) (f : Frame V P M) : Res (Frame V P M) := do
  let pts ← cloudPoints f.cloud
  let out ← voxelgridSampling e.prep.ops e.prep.scalars e.prep.sort pts o.downsamplingResolution
  return ⟨f.exec, sampledCloud out⟩

/-- `KdTree(points, builder)` (kdtree.hpp:145-153, 255-262), as `OdometryPipeline.frameTree`: `none` if the schedule is not a complete execution. -/
def frameTree (e : PrepEnv V M R) (x : TreeExec) (pts : List (Pt V)) : Option (Res (KdTree.Tree V)) :=
  match x with
  | .sequential => some (KdTree.construct e.ops e.builder (pts.length + 1) pts)
  | .parallel sched =>
    if pts.length = 0 then some (.ok ⟨[], [], none⟩)
    else
      match KdTree.runSchedule e.ops e.builder pts sched (KdTree.parInit pts) with
      | none => none
      | some (.error f) => some (.error f)
      | some (.ok ps) => (KdTree.parFinish ps).map .ok

/-- `estimate_covariances`, `estimate_covariances_omp`, `estimate_covariances_tbb` with a given tree (normal_estimation.hpp:149-152, normal_estimation_omp.hpp:69-72, normal_estimation_tbb.hpp:69-72), as
`OdometryPipeline.covariances`. -/
def covariances (e : PrepEnv V M R) (x : LoopExec) (t : KdTree.Tree V) (numNeighbors : Int) (c : Cloud (Fin 4 → V) M) : Option (Res (Cloud (Fin 4 → V) M)) :=
  match x with
  | .sequential => some (estimate e.features covarianceSetter (kdKnn e t) numNeighbors c)
  | .parallel chunks sched =>
    if chunks.flatten.Perm (List.range c.size) then estimatePar e.features covarianceSetter (kdKnn e t) numNeighbors c chunks sched else none

/-- Tree and covariances (odometry_benchmark_small_gicp.cpp:20-21, odometry_benchmark_small_gicp_omp.cpp:22-23, odometry_benchmark_small_gicp_tbb.cpp:25-26). An incomplete execution is marked `abort`; the theorems
exclude it. -/
def prepareFrame (e : OdomEnv V P H B D M R) (o : OdomParams V) (f : Frame V P M) : Res (Prepared V P M) := do
  let pts ← cloudPoints f.cloud
  let t ← (frameTree e.prep f.exec.tree pts).getD (.error .abort)
  let c ← (covariances e.prep f.exec.loop t o.numNeighbors f.cloud).getD (.error .abort)
  return ⟨f.exec, c, t⟩

variable [Zero V] [Add V] [Sub V] [Mul V] [Div V] [Zero H] [Add H] [Zero B] [Add B]

/-- The settings of the registration with `registration.rejector.max_dist_sq = params.max_correspondence_distance * params.max_correspondence_distance` (odometry_benchmark_small_gicp.cpp:29-30). -/
def gated (e : OdomEnv V P H B D M R) (o : OdomParams V) : Config V P H B D := { e.registration with rejector := distanceRejector (o.maxCorrespondenceDistance * o.maxCorrespondenceDistance) }

/-! ### a frame against the one before it, on a kd-tree -/

/-- The registration of a frame to the one before it, from the identity (odometry_benchmark_small_gicp.cpp:29-32, odometry_benchmark_small_gicp_omp.cpp:33-38, odometry_benchmark_small_gicp_tbb.cpp:34-37). -/
def registerFrames (e : OdomEnv V P H B D M R) (o : OdomParams V) (target source : Prepared V P M) : Res P := do
  let pts ← cloudPoints target.cloud
  let (res, _, _) ← align (gicpFactor e.eval) (cloudWorld target.cloud source.cloud (kdNearest e.eval e.prep.maxD pts target.tree (pts.length + 1) e.junk)) (gated e o) source.exec.lin source.exec.err e.meth
    e.identity source.cloud.size
  return res.T

/-- The members `target_points` with `target_tree` or `target_voxelmap` (null before the first frame), and `T` (odometry_benchmark_small_gicp.cpp:49-52, odometry_benchmark_small_vgicp_omp.cpp:57-60). -/
structure FrameToFrame (P Q : Type) where
  target : Option Q
  T : P

/-- `estimate(points)` of the engines that register a frame to the one before it (odometry_benchmark_small_gicp.cpp:16-43, odometry_benchmark_small_gicp_omp.cpp:16-48, odometry_benchmark_small_gicp_tbb.cpp:21-48,
odometry_benchmark_small_vgicp_omp.cpp:17-49, odometry_benchmark_small_vgicp_tbb.cpp:22-53), as `Odometry.frameToFrame`. -/
def frameToFrame {C Q : Type} (mul : P → P → P) (prep : C → Res Q) (reg : Q → Q → Res P) (s : FrameToFrame P Q) (d : C) : Res (FrameToFrame P Q × P) := do
  let p ← prep d
  match s.target with
  | none => return (⟨some p, s.T⟩, s.T)
  | some t => do
    let r ← reg t p
    return (⟨some p, mul s.T r⟩, mul s.T r)

/-- The engines `small_gicp`, `small_gicp_omp` and `small_gicp_tbb`. -/
def gicpOnline (e : OdomEnv V P H B D M R) (o : OdomParams V) (points : List (Option (Frame V P M))) : Res (FrameToFrame P (Prepared V P M) × List (Option (Frame V P M)) × List P) :=
  online (sampleFrame e o) (frameToFrame e.mul (prepareFrame e o) (registerFrames e o)) ⟨none, e.identity⟩ points

/-! ### a frame against the voxel map of the one before it -/

/-- A frame of the engines `small_vgicp_omp` and `small_vgicp_tbb` after preprocessing (odometry_benchmark_small_vgicp_omp.cpp:57-58). -/
structure MapFrame (V P M : Type) where
  exec : FrameExec P M
  cloud : Cloud (Fin 4 → V) M
  map : Voxel.VoxelMap V (GVoxel V M)

/-- Tree, covariances and voxel map (odometry_benchmark_small_vgicp_omp.cpp:21-25, odometry_benchmark_small_vgicp_tbb.cpp:26-29), as `OdometryModel.prepareMapFrame`. The TBB version leaves the tree to
`estimate_covariances_tbb`, which builds it with one thread (normal_estimation_tbb.hpp:20-30): the case `tree := .sequential`. -/
def prepareMapFrame (e : OdomEnv V P H B D M R) (o : OdomParams V) (f : Frame V P M) : Res (MapFrame V P M) := do
  let p ← prepareFrame e o f
  let m ← createGaussian e.prep.ops e.prep.scalars e.eval.apply e.voxels e.identity p.cloud o.voxelResolution
  return ⟨f.exec, p.cloud, m⟩

/-- `registration.align(*target_voxelmap, *points, *target_voxelmap, ...)` (odometry_benchmark_small_vgicp_omp.cpp:33-36, odometry_benchmark_small_vgicp_tbb.cpp:37-40,
odometry_benchmark_small_gicp_model_omp.cpp:31-34, odometry_benchmark_small_vgicp_model_omp.cpp:31-34). -/
def alignToMap {C : Type} (e : OdomEnv V P H B D M R) (c : Cells V P M C) (cfg : Config V P H B D) (x : FrameExec P M) (m : Voxel.VoxelMap V C) (cloud : Cloud (Fin 4 → V) M) (init : P) : Res P := do
  let (res, _, _) ← align (gicpFactor e.eval) (mapWorld e.prep.ops e.prep.scalars c e.prep.maxD m cloud e.junk) cfg x.lin x.err e.meth init cloud.size
  return res.T

/-- The registration to the previous frame (odometry_benchmark_small_vgicp_omp.cpp:33-36, odometry_benchmark_small_vgicp_tbb.cpp:37-40). -/
def registerMapFrames (e : OdomEnv V P H B D M R) (o : OdomParams V) (target source : MapFrame V P M) : Res P :=
  alignToMap e (gaussianCells e.prep.ops e.voxels) (gated e o) source.exec target.map source.cloud e.identity

/-- The engines `small_vgicp_omp` and `small_vgicp_tbb`. -/
def vgicpOnline (e : OdomEnv V P H B D M R) (o : OdomParams V) (points : List (Option (Frame V P M))) : Res (FrameToFrame P (MapFrame V P M) × List (Option (Frame V P M)) × List P) :=
  online (sampleFrame e o) (frameToFrame e.mul (prepareMapFrame e o) (registerMapFrames e o)) ⟨none, e.identity⟩ points

/-! ### a frame against the voxel map of all frames so far -/

/-- The members `voxelmap` (null before the first frame) and `T_world_lidar` (odometry_benchmark_small_gicp_model_omp.cpp:59-60). -/
structure ScanToModel (V P C : Type) where
  map : Option (Voxel.VoxelMap V C)
  T : P

/-- `estimate(points)` of the four engines (odometry_benchmark_small_gicp_model_omp.cpp:16-50, odometry_benchmark_small_gicp_model_tbb.cpp:22-55, odometry_benchmark_small_vgicp_model_omp.cpp:16-50,
odometry_benchmark_small_vgicp_model_tbb.cpp:22-55), as `OdometryModel.modelStep`: the tree for the covariances is built by one thread (normal_estimation_omp.hpp:10-12, normal_estimation_tbb.hpp:20-30) and is not
kept; `max_correspondence_distance` is not used. -/
def modelStep {C : Type} (e : OdomEnv V P H B D M R) (c : Cells V P M C) (o : OdomParams V) (s : ScanToModel V P C) (f : Frame V P M) : Res (ScanToModel V P C × P) := do
  let p ← prepareFrame e o ⟨{ f.exec with tree := .sequential }, f.cloud⟩
  match s.map with
  | none => do
    let m ← insertCloud e.prep.ops e.prep.scalars e.eval.apply c (newMap e.prep.ops e.prep.scalars o.voxelResolution) p.cloud e.identity
    return (⟨some m, s.T⟩, s.T)
  | some m => do
    let T ← alignToMap e c e.registration f.exec m p.cloud s.T
    let m ← insertCloud e.prep.ops e.prep.scalars e.eval.apply c m p.cloud T
    return (⟨some m, T⟩, T)

/-- The four engines; `c` is `GaussianVoxel`, or `FlatContainer` with covariances. -/
def modelOnline {C : Type} (e : OdomEnv V P H B D M R) (c : Cells V P M C) (o : OdomParams V) (points : List (Option (Frame V P M))) : Res (ScanToModel V P C × List (Option (Frame V P M)) × List P) :=
  online (sampleFrame e o) (modelStep e c o) ⟨none, e.identity⟩ points

end

end Verif.Machine
