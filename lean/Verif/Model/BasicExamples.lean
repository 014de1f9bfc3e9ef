import Verif.Model.Python
import Verif.Model.PointFiles

/-!
Model of the basic registration examples `src/example/01_basic_registration.cpp` and `src/example/basic_registration.py`, and of `read_ply` of the Python module
(`src/python/misc.cpp`), over the real numbers. Not modelled: what is printed, and the comparison with a known pose at the end of the Python file, which uses scipy.
-/

namespace Verif.BasicExamples

open Verif Verif.PointCloud Verif.Features Verif.RegMem Verif.Factors Verif.Pipeline Verif.Optimizer Verif.Lie Verif.Python

/-- A run is a complete execution with its outcome, or no complete execution (`none`); the rest follows a first part that gave a value. -/
def andThen {A B : Type} (x : Option (Res A)) (f : A → Option (Res B)) : Option (Res B) :=
  match x with
  | none => none
  | some (.error e) => some (.error e)
  | some (.ok a) => f a

/-- An `Eigen::Vector4f` of `read_ply` as a vector of four components (read_points.hpp:100-107). -/
def vector (v : Files.V4) : Fin (1 + 3) → Files.F32 := ![v.x, v.y, v.z, v.w]

/-! ### `01_basic_registration.cpp` -/

/-- `example1` (01_basic_registration.cpp:12-28): the result it prints. -/
noncomputable def example1 (e : Env) (value : Files.F32 → ℝ) (xt xs : PrepExec) (y : RegExec) (target source : List Files.V4) : Option (Res (Result ℝ)) :=
  Pipeline.align e xt xs y value (target.map vector) (source.map vector) Pose.one
    { Helper.Setting.default with numThreads := 4, downsamplingResolution := 1 / 4, maxCorrespondenceDistance := 1 }

/-- `example2` (01_basic_registration.cpp:31-57): the result it prints, and `result2`, in which target and source are exchanged. -/
noncomputable def example2 (e : Env) (value : Files.F32 → ℝ) (xt xs : PrepExec) (y y2 : RegExec) (target source : List Files.V4) : Option (Res (Result ℝ × Result ℝ)) :=
  andThen (preprocessVector e xt value (target.map vector) (1 / 4) 10 4) fun t =>
  andThen (preprocessVector e xs value (source.map vector) (1 / 4) 10 4) fun s =>
  some (do
    let result ← Pipeline.alignClouds e y t.1 s.1 t.2 Pose.one { Helper.Setting.default with numThreads := 4, maxCorrespondenceDistance := 1 }
    let result2 ← Pipeline.alignClouds e y2 s.1 t.1 s.2 Pose.one { Helper.Setting.default with numThreads := 4, maxCorrespondenceDistance := 1 }
    return (result, result2))

/-- How the parallel parts of the program run: both calls of `preprocess_points` and `align` of each example, and the second `align` of `example2`. -/
structure Runs where
  xt1 : PrepExec
  xs1 : PrepExec
  y1 : RegExec
  xt2 : PrepExec
  xs2 : PrepExec
  y2 : RegExec
  y3 : RegExec

/-- How the program ends: the value of `main`, and the results of `example1` and `example2`. -/
structure Ended where
  code : Int
  results : List (Result ℝ)

/-- `main` (01_basic_registration.cpp:59-71); the arguments are the contents of the two files, `none` for a file that cannot be opened. -/
noncomputable def main (e : Env) (value : Files.F32 → ℝ) (x : Runs) (target source : Option (List Files.Byte)) : Option (Res Ended) :=
  andThen (some (Files.readPly target)) fun t =>
  andThen (some (Files.readPly source)) fun s =>
  if t.isEmpty || s.isEmpty then some (.ok ⟨1, []⟩)
  else
    andThen (example1 e value x.xt1 x.xs1 x.y1 t s) fun r1 =>
    andThen (example2 e value x.xt2 x.xs2 x.y2 x.y3 t s) fun r2 =>
    some (.ok ⟨0, [r1, r2.1, r2.2]⟩)

/-! ### `basic_registration.py` -/

/-- `read_ply` of the Python module (misc.cpp:21-24). -/
def readCloud (value : Files.F32 → ℝ) (file : Option (List Files.Byte)) : Res RCloud := do
  let pts ← Files.readPly file
  Cloud.ofPoints (homogeneous value) (pts.map vector)

/-- `read_ply(...)` and `.points()` (basic_registration.py:142-146, 178-182). -/
def loadPoints (value : Files.F32 → ℝ) (file : Option (List Files.Byte)) : Res NumpyArray := do
  let c ← readCloud value file
  points c

/-- `example_numpy1` (basic_registration.py:11-30). The default of `num_threads` is 1, so that the sequential functions run. -/
noncomputable def exampleNumpy1 (e : Env) (xt xs : PrepExec) (y : RegExec) (target source : NumpyArray) : Option (Res (Result ℝ)) :=
  Python.alignArrays e xt xs y target source Pose.one "GICP" { alignDefaults 1 with downsamplingResolution := 1 / 4 }

/-- `align(target, source, target_tree)` on what `preprocess_points` returned (basic_registration.py:60, 83). A cloud that is `None` is dereferenced (align.cpp:180-183). -/
noncomputable def alignPrepared (e : Env) (y : RegExec) (target source : Option (RCloud × KdTree.Tree ℝ)) : Res (Result ℝ) :=
  match target, source with
  | some t, some s => Python.alignClouds e y t.1 s.1 t.2 Pose.one "GICP" (alignDefaults 1)
  | _, _ => .error .nullDeref

/-- `example_numpy2` (basic_registration.py:33-65). -/
noncomputable def exampleNumpy2 (e : Env) (xt xs : PrepRun) (y : RegExec) (target source : NumpyArray) : Option (Res (Result ℝ)) :=
  andThen (preprocessArray e xt target (1 / 4) 10) fun t =>
  andThen (preprocessArray e xs source (1 / 4) 10) fun s =>
  some (alignPrepared e y t s)

/-- `example_small1` (basic_registration.py:69-88). -/
noncomputable def exampleSmall1 (e : Env) (xt xs : PrepRun) (y : RegExec) (targetRaw sourceRaw : NumpyArray) : Option (Res (Result ℝ)) :=
  andThen (some (pointCloud targetRaw)) fun target =>
  andThen (some (pointCloud sourceRaw)) fun source =>
  andThen (preprocessCloud e xt target (1 / 4) 10) fun t =>
  andThen (preprocessCloud e xs source (1 / 4) 10) fun s =>
  some (alignPrepared e y t s)

/-- `KdTree(cloud)` (kdtree.cpp:51): always built by `KdTreeBuilderOMP`. -/
noncomputable def kdTree (e : Env) (x : List (List Bool)) (c : RCloud) : Option (Res (KdTree.Tree ℝ)) :=
  match cloudPoints c with
  | .error f => some (.error f)
  | .ok pts => OdometryPipeline.frameTree e (.parallel x) pts

/-- `example_small2` (basic_registration.py:91-119); `voxelgrid_sampling`, `estimate_covariances` and `align` run with one thread, with the default of 20 neighbours. -/
noncomputable def exampleSmall2 (e : Env) (xt xs : List (List Bool)) (y : RegExec) (targetRaw sourceRaw : NumpyArray) : Option (Res (Result ℝ)) :=
  andThen (some (pointCloud targetRaw)) fun targetAll =>
  andThen (some (pointCloud sourceRaw)) fun sourceAll =>
  andThen (sampleCloud e [] targetAll (1 / 4) 1) fun target =>
  andThen (sampleCloud e [] sourceAll (1 / 4) 1) fun source =>
  andThen (kdTree e xt target) fun targetTree =>
  andThen (kdTree e xs source) fun sourceTree =>
  andThen (estimateFeatures covarianceSetter e ⟨[], [], []⟩ target (some ⟨target.points, targetTree⟩) 20 1) fun target =>
  andThen (estimateFeatures covarianceSetter e ⟨[], [], []⟩ source (some ⟨source.points, sourceTree⟩) 20 1) fun source =>
  some (Python.alignClouds e y target source targetTree Pose.one "GICP" (alignDefaults 1))

/-- How the parallel parts of the script run. -/
structure PyRuns where
  xt1 : PrepExec
  xs1 : PrepExec
  y1 : RegExec
  xt2 : PrepRun
  xs2 : PrepRun
  y2 : RegExec
  xt3 : PrepRun
  xs3 : PrepRun
  y3 : RegExec
  xt4 : List (List Bool)
  xs4 : List (List Bool)
  y4 : RegExec

/-- The script (basic_registration.py:177-187): the results of the four examples. -/
noncomputable def script (e : Env) (value : Files.F32 → ℝ) (x : PyRuns) (target source : Option (List Files.Byte)) : Option (Res (List (Result ℝ))) :=
  andThen (some (loadPoints value target)) fun t =>
  andThen (some (loadPoints value source)) fun s =>
  andThen (exampleNumpy1 e x.xt1 x.xs1 x.y1 t s) fun r1 =>
  andThen (exampleNumpy2 e x.xt2 x.xs2 x.y2 t s) fun r2 =>
  andThen (exampleSmall1 e x.xt3 x.xs3 x.y3 t s) fun r3 =>
  andThen (exampleSmall2 e x.xt4 x.xs4 x.y4 t s) fun r4 =>
  some (.ok [r1, r2, r3, r4])

end Verif.BasicExamples
