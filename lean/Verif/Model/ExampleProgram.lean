import Verif.Model.ExamplePipeline
import Verif.Model.BasicExamples
import Verif.Model.OdometryPipeline

/-!
Model of `example1` and `main` of `src/example/03_registration_template.cpp`. `example2` is in `ExamplePipeline`. Not modelled: what is printed.
-/

namespace Verif.Example

open Matrix Verif Verif.Factors Verif.PointCloud Verif.RegMem Verif.Features Verif.Pipeline Verif.OdometryPipeline Verif.Optimizer Verif.Lie Verif.Helper Verif.BasicExamples

/-- How the parallel parts of `example1` run on one cloud: blocks of the sampler, tasks of the tree builder, the loop of `estimate_covariances_omp`. -/
structure CloudRun where
  blocks : List Nat
  tree : List (List Bool)
  chunks : List (List Nat)
  sched : List Nat

/-- `voxelgrid_sampling_omp(*cloud, 0.25, 4)` (03_registration_template.cpp:32-33): the points of the new cloud. -/
noncomputable def sample1 (e : Env) (x : CloudRun) (c : RCloud) : Option (Res (List (Pt ℝ))) :=
  match cloudPoints c with
  | .error f => some (.error f)
  | .ok pts => Downsample.voxelgridSamplingPar e.sortOmp Downsample.ompCut x.blocks pts (1 / 4)

/-- `registration.align(*target, *source, *target_tree, Identity)` with the GICP factor (03_registration_template.cpp:43-50). -/
noncomputable def align1 (e : Env) (y : RegExec) (target source : RCloud) (tree : KdTree.Tree ℝ) : Res (Result ℝ) := do
  let pts ← cloudPoints target
  runMethod e y (gicpMem e.inv) (cloudWorld target source (kdNearest e.maxD pts tree (pts.length + 1) e.junk))
    { Registration.default .gicp with numThreads := 4, maxDistSq := 1 * 1 } Pose.one source.size

/-- `example1` (03_registration_template.cpp:21-59): the result it prints. The constructor of `PointCloud` is in lines 28-29. -/
noncomputable def example1 (e : Env) (value : Files.F32 → ℝ) (xt xs : CloudRun) (y : RegExec) (target source : List Files.V4) : Option (Res (Result ℝ)) :=
  andThen (some (Cloud.ofPoints (homogeneous value) (target.map vector))) fun target =>
  andThen (some (Cloud.ofPoints (homogeneous value) (source.map vector))) fun source =>
  andThen (sample1 e xt target) fun target =>
  andThen (sample1 e xs source) fun source =>
  andThen (frameTree e (.parallel xt.tree) target) fun targetTree =>
  andThen (frameTree e (.parallel xs.tree) source) fun sourceTree =>
  andThen (covariances e (.parallel xt.chunks xt.sched) targetTree 10 (sampledCloud target)) fun target =>
  andThen (covariances e (.parallel xs.chunks xs.sched) sourceTree 10 (sampledCloud source)) fun source =>
  some (align1 e y target source targetTree)

/-- How the parallel parts of the program run. -/
structure ProgramRun where
  xt : CloudRun
  xs : CloudRun
  y1 : RegExec
  x2 : PrepExec2
  y2 : RegExec

/-- The coordinates of the points of a file as `example2` converts them (03_registration_template.cpp:265-275). -/
def coordinates (value : Files.F32 → ℝ) (pts : List Files.V4) : List (Fin 3 → ℝ) := pts.map fun v => ![value v.x, value v.y, value v.z]

/-- `main` (03_registration_template.cpp:324-337): the value it returns, and the results of the two examples. -/
noncomputable def main (e : Env) (top : QueueTop ℝ) (value : Files.F32 → ℝ) (x : ProgramRun) (target source : Option (List Files.Byte)) : Option (Res Ended) :=
  andThen (some (Files.readPly target)) fun t =>
  andThen (some (Files.readPly source)) fun s =>
  if t.isEmpty || s.isEmpty then some (.ok ⟨1, []⟩)
  else
    andThen (example1 e value x.xt x.xs x.y1 t s) fun r1 =>
    andThen (example2 e top x.x2 x.y2 (coordinates value t) (coordinates value s)) fun r2 =>
    some (.ok ⟨0, [r1, r2.1]⟩)

end Verif.Example
