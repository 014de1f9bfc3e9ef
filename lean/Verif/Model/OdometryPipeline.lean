import Verif.Model.Pipeline
import Verif.Model.KdTreeParallel
import Verif.Model.Odometry

/-!
What the odometry engines of `src/benchmark/odometry_benchmark_small_gicp*.cpp` run on each frame: the functions `sample`, `prep` and `reg` of
`Odometry.lean`, with all memory accesses, over the real numbers.
-/

namespace Verif.OdometryPipeline

open Matrix Verif Verif.PointCloud Verif.Features Verif.RegMem Verif.Factors Verif.Optimizer Verif.Lie Verif.Pipeline

/-- How a kd-tree is built: by `KdTreeBuilder`, or by `KdTreeBuilderOMP` or `KdTreeBuilderTBB` with a schedule of its tasks. -/
inductive TreeExec where
  | sequential
  | parallel (sched : List (List Bool))

/-- `KdTree(points, builder)` (kdtree.hpp:145-153, 255-262): `none` if the schedule is not a complete execution. -/
noncomputable def frameTree (e : Env) (x : TreeExec) (pts : List (Pt ℝ)) : Option (Res (KdTree.Tree ℝ)) :=
  match x with
  | .sequential => some (KdTree.construct (exactOps ℝ) e.builder (pts.length + 1) pts)
  | .parallel sched =>
    if pts.length = 0 then some (.ok ⟨[], [], none⟩)
    else
      match KdTree.runSchedule (exactOps ℝ) e.builder pts sched (KdTree.parInit pts) with
      | none => none
      | some (.error f) => some (.error f)
      | some (.ok ps) => (KdTree.parFinish ps).map .ok

/-- How the loop of `estimate_covariances` runs: in one thread, or divided and interleaved. -/
inductive LoopExec where
  | sequential
  | parallel (chunks : List (List Nat)) (sched : List Nat)

/-- `estimate_covariances`, `estimate_covariances_omp`, `estimate_covariances_tbb` with a given tree (normal_estimation.hpp:149-152,
normal_estimation_omp.hpp:69-72, normal_estimation_tbb.hpp:69-72). `none` if the execution is not complete. -/
noncomputable def covariances (e : Env) (x : LoopExec) (t : KdTree.Tree ℝ) (numNeighbors : Int) (c : RCloud) : Option (Res RCloud) :=
  match x with
  | .sequential => some (estimate covarianceSetter e.eig (fun _ => .ok (kdKnn e t)) numNeighbors c)
  | .parallel chunks sched =>
    if chunks.flatten.Perm (List.range c.size) then estimatePar covarianceSetter e.eig (fun _ => .ok (kdKnn e t)) numNeighbors c chunks sched else none

/-- How the functions run on one frame; `lin` and `err` are the calls of the reduction while the frame is registered. -/
structure FrameExec where
  tree : TreeExec
  loop : LoopExec
  lin : Pose ℝ → List (GICP ℝ) → Exec
  err : Pose ℝ → List (GICP ℝ) → Exec

/-- A frame: the cloud, and how the functions will run on it. -/
structure Frame where
  exec : FrameExec
  cloud : RCloud

/-- A frame after preprocessing. -/
structure Prepared where
  exec : FrameExec
  cloud : RCloud
  tree : KdTree.Tree ℝ

/-- `OdometryEstimationParams` (benchmark_odom.hpp:20-28), without `visualize` and `num_threads`; the number of threads is part of the executions. -/
structure Params where
  numNeighbors : Int
  downsamplingResolution : ℝ
  voxelResolution : ℝ
  maxCorrespondenceDistance : ℝ

/-- The default values (benchmark_odom.hpp:22-27). -/
noncomputable def Params.default : Params := ⟨20, 1 / 4, 1, 1⟩

/-- `voxelgrid_sampling(*points[i], params.downsampling_resolution)` (benchmark_odom.hpp:59, odometry_benchmark_small_gicp_tbb_flow.cpp:63). As in
`Pipeline.preprocess` the points are read first. -/
noncomputable def sampleFrame (e : Env) (o : Params) (f : Frame) : Res Frame := do
  let pts ← cloudPoints f.cloud
  let out ← Downsample.voxelgridSampling e.sort pts o.downsamplingResolution
  return ⟨f.exec, sampledCloud out⟩

/-- Tree and covariances (odometry_benchmark_small_gicp.cpp:20-21, odometry_benchmark_small_gicp_omp.cpp:22-23,
odometry_benchmark_small_gicp_tbb.cpp:25-26, odometry_benchmark_small_gicp_tbb_flow.cpp:64-65). An incomplete execution is marked `abort`; the theorems exclude it. -/
noncomputable def prepareFrame (e : Env) (o : Params) (f : Frame) : Res Prepared := do
  let pts ← cloudPoints f.cloud
  let t ← (frameTree e f.exec.tree pts).getD (.error .abort)
  let c ← (covariances e f.exec.loop t o.numNeighbors f.cloud).getD (.error .abort)
  return ⟨f.exec, c, t⟩

/-- The registration of a frame to the one before it, from the identity, with default settings apart from the distance of the rejector
(odometry_benchmark_small_gicp.cpp:29-32, odometry_benchmark_small_gicp_omp.cpp:33-38, odometry_benchmark_small_gicp_tbb.cpp:34-37,
odometry_benchmark_small_gicp_tbb_flow.cpp:89-94). -/
noncomputable def registerFrames (e : Env) (o : Params) (target source : Prepared) : Res (Pose ℝ) := do
  let pts ← cloudPoints target.cloud
  let r := Helper.Registration.default .gicp
  let r := { r with maxDistSq := o.maxCorrespondenceDistance * o.maxCorrespondenceDistance }
  let (res, _, _) ← RegMem.align (gicpMem e.inv) (cloudWorld target.cloud source.cloud (kdNearest e.maxD pts target.tree (pts.length + 1) e.junk))
    ⟨distanceRejector r.maxDistSq, nullFactor, e.solve, se3Exp, converged r.rotationEps r.translationEps⟩ source.exec.lin source.exec.err (.lm r.lm) Pose.one source.cloud.size
  return res.T

/-- The engines `small_gicp`, `small_gicp_omp` and `small_gicp_tbb` (benchmark_odom.hpp:49-80 with the member functions `estimate`). -/
noncomputable def gicpOnline (e : Env) (o : Params) (s : Odometry.FrameToFrame ℝ Prepared) (points : List (Option Frame)) :
    Res (Odometry.FrameToFrame ℝ Prepared × List (Option Frame) × List (Pose ℝ)) :=
  Odometry.online (sampleFrame e o) (Odometry.frameToFrame (prepareFrame e o) (registerFrames e o)) s points

/-- The preprocessing node of `small_gicp_tbb_flow` (odometry_benchmark_small_gicp_tbb_flow.cpp:61-67). -/
noncomputable def flowPrepare (e : Env) (o : Params) (f : Frame) : Res Prepared := do
  let d ← sampleFrame e o f
  prepareFrame e o d

/-- The engine `small_gicp_tbb_flow` (odometry_benchmark_small_gicp_tbb_flow.cpp:50-170). -/
noncomputable def gicpFlow (e : Env) (o : Params) (s : Odometry.Flow ℝ Frame Prepared) (es : List Odometry.Event) : Option (Res (Odometry.Flow ℝ Frame Prepared)) :=
  s.run (flowPrepare e o) (registerFrames e o) es

end Verif.OdometryPipeline
