import Verif.Model.Benchmark
import Verif.Model.OdometryModel

/-!
The engines of `odometry_benchmark` that process one frame after the other, as they are registered (`src/benchmark/odometry_benchmark_small_*.cpp`).

The parameters `visualize` and `num_threads` have no part in them: the way the parallel loops run is `exec`, which may be anything.
-/

namespace Verif.BenchmarkEngines

open Verif Verif.Factors Verif.Features Verif.Benchmark Verif.OdometryPipeline Verif.OdometryModel Verif.Pipeline

/-- The parameters an engine is made with. -/
def engineParams (p : Benchmark.Params ℝ) : OdometryPipeline.Params := ⟨p.numNeighbors, p.downsamplingResolution, p.voxelResolution, p.maxCorrespondenceDistance⟩

/-- The clouds, as shared pointers, each with the way the functions run on it. -/
def framesOf (exec : Nat → FrameExec) (clouds : List RCloud) : List (Option Frame) := clouds.mapIdx (fun i c => some ⟨exec i, c⟩)

/-- The trajectory returned by `estimate` (benchmark_odom.hpp:49-80). -/
def trajectoryOf {S : Type} (r : Res (S × List (Option Frame) × List (Pose ℝ))) : Res (List (Pose ℝ)) := do
  let (_, _, traj) ← r
  return traj

/-- `SmallGICPOnlineOdometryEstimation` and its OMP and TBB versions (odometry_benchmark_small_gicp.cpp:58, odometry_benchmark_small_gicp_omp.cpp:65,
odometry_benchmark_small_gicp_tbb.cpp:66). -/
noncomputable def gicpEngine (e : Env) (exec : Nat → FrameExec) (p : Benchmark.Params ℝ) (clouds : List RCloud) : Res (List (Pose ℝ)) :=
  trajectoryOf (gicpOnline e (engineParams p) .init (framesOf exec clouds))

/-- `SmallVGICPOnlineOdometryEstimationOMP` and its TBB version (odometry_benchmark_small_vgicp_omp.cpp:63, odometry_benchmark_small_vgicp_tbb.cpp:69). -/
noncomputable def vgicpEngine (e : Env) (exec : Nat → FrameExec) (p : Benchmark.Params ℝ) (clouds : List RCloud) : Res (List (Pose ℝ)) :=
  trajectoryOf (vgicpOnline e (engineParams p) .init (framesOf exec clouds))

/-- The engines with a model (odometry_benchmark_small_gicp_model_omp.cpp:64, odometry_benchmark_small_gicp_model_tbb.cpp:71,
odometry_benchmark_small_vgicp_model_omp.cpp:64, odometry_benchmark_small_vgicp_model_tbb.cpp:71). -/
noncomputable def modelEngine {V : Type} (k : MapKind V) (e : Env) (exec : Nat → FrameExec) (p : Benchmark.Params ℝ) (clouds : List RCloud) : Res (List (Pose ℝ)) :=
  trajectoryOf (modelOnline k e (engineParams p) .init (framesOf exec clouds))

/-- The engines, in the order of CMakeLists.txt:183-192. The order of static initialisation of different files is not fixed; the theorems hold for every order. -/
noncomputable def engines (e : Env) (exec : Nat → FrameExec) : Registry (Benchmark.Params ℝ) (List RCloud → Res (List (Pose ℝ))) :=
  [("small_gicp".toList, gicpEngine e exec), ("small_gicp_omp".toList, gicpEngine e exec), ("small_vgicp_omp".toList, vgicpEngine e exec),
   ("small_gicp_tbb".toList, gicpEngine e exec), ("small_vgicp_tbb".toList, vgicpEngine e exec),
   ("small_gicp_model_tbb".toList, modelEngine linearKind e exec), ("small_gicp_model_omp".toList, modelEngine linearKind e exec),
   ("small_vgicp_model_tbb".toList, modelEngine gaussianKind e exec), ("small_vgicp_model_omp".toList, modelEngine gaussianKind e exec)]

end Verif.BenchmarkEngines
