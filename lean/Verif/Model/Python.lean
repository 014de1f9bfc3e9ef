import Verif.Model.OdometryPipeline

/-!
Model of the functions of the Python module that take or return numpy arrays (`src/python/pointcloud.cpp`, `src/python/preprocess.cpp`), of
`align` on clouds (`src/python/align.cpp`), and of the scan-to-scan odometry of `src/example/kitti_odometry.py`, over the real numbers. The
conversion of arrays to `Eigen::MatrixXd` by pybind11 is not modelled: an array is its shape and its entries. Diagnostics are left out.
-/

namespace Verif.Python

open Matrix Verif Verif.PointCloud Verif.Features Verif.RegMem Verif.Factors Verif.Optimizer Verif.Lie Verif.Pipeline Verif.OdometryPipeline

/-- An `Eigen::MatrixXd`, converted from a two-dimensional array. Entries outside the shape have no meaning. -/
structure NumpyArray where
  rows : Nat
  cols : Nat
  entry : Nat → Nat → ℝ

/-- The assignment to `point(i)` (pointcloud.cpp:30, 34, preprocess.cpp:222, 224): row `i` followed by 1, or row `i`. -/
def rowPoint (a : NumpyArray) (i : Nat) : V4 :=
  if a.cols = 3 then ![a.entry i 0, a.entry i 1, a.entry i 2, 1] else ![a.entry i 0, a.entry i 1, a.entry i 2, a.entry i 3]

/-- The loop that fills a cloud (pointcloud.cpp:26-36, preprocess.cpp:218-226). -/
def fill (a : NumpyArray) : Res RCloud :=
  (List.range a.rows).foldlM (fun (c : RCloud) i => c.setPoint i (rowPoint a i)) ((Cloud.empty : RCloud).resize a.rows)

/-- `PointCloud(points)` (pointcloud.cpp:20-39). -/
def pointCloud (a : NumpyArray) : Res RCloud := if a.cols ≠ 3 ∧ a.cols ≠ 4 then .ok Cloud.empty else fill a

/-- A vector of `n` 4-vectors as `n × 4` array: `Eigen::Map(v[0].data(), n, 4)`. The first element is accessed whatever `n` is. -/
def mapRows (v : List (Option V4)) (n : Nat) : Res NumpyArray :=
  if v = [] then .error .oob
  else do
    let rows ← (List.range n).mapM (getSlot v)
    return ⟨n, 4, fun i j => if h : j < 4 then (rows.getD i 0) ⟨j, h⟩ else 0⟩

/-- `points()` (pointcloud.cpp:77). -/
def points (c : RCloud) : Res NumpyArray := mapRows c.points c.size

/-- `normals()` (pointcloud.cpp:88). -/
def normals (c : RCloud) : Res NumpyArray := mapRows c.normals c.size

/-- `Traits<Eigen::MatrixXd>::point` (points/eigen.hpp:16). -/
def arrayPoint (a : NumpyArray) (i : Nat) : Pt ℝ := ⟨a.entry i 0, a.entry i 1, a.entry i 2, 1⟩

/-- `voxelgrid_sampling` or `voxelgrid_sampling_omp` on points that have been read (preprocess.cpp:27-30, 71-75). `none` if `blocks` is not a complete execution. -/
noncomputable def sample (e : Env) (blocks : List Nat) (pts : List (Pt ℝ)) (resolution : ℝ) (numThreads : Int) : Option (Res RCloud) :=
  (if numThreads = 1 then some (Downsample.voxelgridSampling e.sort pts resolution) else Downsample.voxelgridSamplingPar e.sortOmp Downsample.ompCut blocks pts resolution).map
    (fun r => r.map sampledCloud)

/-- `voxelgrid_sampling(points: PointCloud, ...)` (preprocess.cpp:24-31). -/
noncomputable def sampleCloud (e : Env) (blocks : List Nat) (c : RCloud) (resolution : ℝ) (numThreads : Int) : Option (Res RCloud) :=
  match cloudPoints c with
  | .error f => some (.error f)
  | .ok pts => sample e blocks pts resolution numThreads

/-- `voxelgrid_sampling(points: numpy.ndarray, ...)` (preprocess.cpp:63-76). The inner `none` is `nullptr`. -/
noncomputable def sampleArray (e : Env) (blocks : List Nat) (a : NumpyArray) (resolution : ℝ) (numThreads : Int) : Option (Res (Option RCloud)) :=
  if a.cols ≠ 3 ∧ a.cols ≠ 4 then some (.ok none)
  else (sample e blocks ((List.range a.rows).map (arrayPoint a)) resolution numThreads).map (fun r => r.map some)

/-- A `KdTree` object: the points it refers to, and the tree. -/
structure TreeArg where
  points : List (Option V4)
  tree : KdTree.Tree ℝ

/-- How the parallel parts run: the tasks of `KdTreeBuilderOMP`, and the loop over the points. -/
structure EstExec where
  tree : List (List Bool)
  chunks : List (List Nat)
  sched : List Nat

/-- `estimate_normals`, `estimate_covariances`, `estimate_normals_covariances` (preprocess.cpp:108-120, 142-154, 176-188). The tree holds the points of its own cloud;
without a tree one is built of `points`, always by `KdTreeBuilderOMP`. `none` if `x` is not a complete execution. -/
noncomputable def estimateFeatures (S : Setter) (e : Env) (x : EstExec) (c : RCloud) (tree : Option TreeArg) (numNeighbors numThreads : Int) : Option (Res RCloud) :=
  let run (knn : Search) : Option (Res RCloud) :=
    if numThreads = 1 then some (estimate S e.eig (fun _ => .ok knn) numNeighbors c)
    else if x.chunks.flatten.Perm (List.range c.size) then estimatePar S e.eig (fun _ => .ok knn) numNeighbors c x.chunks x.sched
    else none
  match tree with
  | some t => run (fun _ q k => kdKnn e t.tree t.points q k)
  | none =>
    match cloudPoints c with
    | .error f => some (.error f)
    | .ok pts =>
      match frameTree e (.parallel x.tree) pts with
      | none => none
      | some (.error f) => some (.error f)
      | some (.ok t) => run (kdKnn e t)

/-- How the parallel parts of `preprocess_points` run. -/
structure PrepRun where
  blocks : List Nat
  tree : List (List Bool)
  chunks : List (List Nat)
  sched : List Nat

/-- The common part of both versions of `preprocess_points` (preprocess.cpp:228-231, 269-272): the parallel functions are called for every number of threads. -/
noncomputable def preprocessOmp (e : Env) (x : PrepRun) (c : RCloud) (resolution : ℝ) (numNeighbors : Int) : Option (Res (RCloud × KdTree.Tree ℝ)) :=
  match cloudPoints c with
  | .error f => some (.error f)
  | .ok pts =>
    match Downsample.voxelgridSamplingPar e.sortOmp Downsample.ompCut x.blocks pts resolution with
    | none => none
    | some (.error f) => some (.error f)
    | some (.ok out) =>
      match frameTree e (.parallel x.tree) out with
      | none => none
      | some (.error f) => some (.error f)
      | some (.ok t) =>
        if x.chunks.flatten.Perm (List.range out.length) then
          (estimatePar normalCovarianceSetter e.eig (fun _ => .ok (kdKnn e t)) numNeighbors (sampledCloud out) x.chunks x.sched).map (fun r => do
            let c ← r
            return (c, t))
        else none

/-- `preprocess_points(points: numpy.ndarray, ...)` (preprocess.cpp:210-232). The inner `none` is `{nullptr, nullptr}`. -/
noncomputable def preprocessArray (e : Env) (x : PrepRun) (a : NumpyArray) (resolution : ℝ) (numNeighbors : Int) : Option (Res (Option (RCloud × KdTree.Tree ℝ))) :=
  if a.cols ≠ 3 ∧ a.cols ≠ 4 then some (.ok none)
  else
    match fill a with
    | .error f => some (.error f)
    | .ok c => (preprocessOmp e x c resolution numNeighbors).map (fun r => r.map some)

/-- `preprocess_points(points: PointCloud, ...)` (preprocess.cpp:261-273). -/
noncomputable def preprocessCloud (e : Env) (x : PrepRun) (c : RCloud) (resolution : ℝ) (numNeighbors : Int) : Option (Res (Option (RCloud × KdTree.Tree ℝ))) :=
  if c.size = 0 then some (.ok none)
  else (preprocessOmp e x c resolution numNeighbors).map (fun r => r.map some)

/-- The rows of an array as vectors (align.cpp:72-92): the arguments of the C++ `align`, which reads their first three components only. -/
def rowVectors (a : NumpyArray) : List (Fin (1 + 3) → ℝ) := (List.range a.rows).map (rowPoint a)

/-- `align(target_points: numpy.ndarray, source_points: numpy.ndarray, ...)` (align.cpp:26-95). -/
noncomputable def alignArrays (e : Env) (xt xs : PrepExec) (y : RegExec) (target source : NumpyArray) (initT : Pose ℝ) (name : String) (s : Helper.Setting) : Option (Res (Result ℝ)) :=
  if target.cols ≠ 3 ∧ target.cols ≠ 4 then some (.ok (Result.init Pose.one))
  else if source.cols ≠ 3 ∧ source.cols ≠ 4 then some (.ok (Result.init Pose.one))
  else
    match Helper.parseType true name with
    | none => some (.ok (Result.init Pose.one))
    | some t => Pipeline.align e xt xs y id (rowVectors target) (rowVectors source) initT { s with type := t }

/-- `align(target, source, target_tree, ...)` on clouds with a tree of the target (align.cpp:149-184). -/
noncomputable def alignClouds (e : Env) (y : RegExec) (target source : RCloud) (t : KdTree.Tree ℝ) (initT : Pose ℝ) (name : String) (s : Helper.Setting) : Res (Result ℝ) := do
  let pts ← cloudPoints target
  runRegistration e y (cloudWorld target source (kdNearest e.maxD pts t (pts.length + 1) e.junk)) source.size (Helper.pyAlignCloud initT name s)

/-! ### `kitti_odometry.py` -/

/-- The default arguments of `align` on clouds (align.cpp:185-195) with a given number of threads. The other fields are not used. -/
noncomputable def alignDefaults (numThreads : Int) : Helper.Setting := ⟨.gicp, 1, 1 / 4, 1, 1 / 10 * Real.pi / 180, 1 / 1000, numThreads, 20, false⟩

/-- A scan, and how the functions run on it. -/
structure Scan where
  array : NumpyArray
  prep : PrepRun
  reg : RegExec

/-- `ScanToScanMatchingOdometry` (kitti_odometry.py:11-16). The outer `none` is `target = None`, the inner one `target = (None, None)`. -/
structure ScanToScan where
  lastCurrent : Pose ℝ
  worldLidar : Pose ℝ
  target : Option (Option (RCloud × KdTree.Tree ℝ))

/-- `__init__` (kitti_odometry.py:12-16). -/
noncomputable def ScanToScan.init : ScanToScan := ⟨Pose.one, Pose.one, none⟩

/-- `estimate` (kitti_odometry.py:18-31); 10 neighbours are the default of `preprocess_points`. `align` dereferences a cloud that is `None` (align.cpp:180-183). An incomplete execution is marked `abort`; the theorems exclude it. -/
noncomputable def ScanToScan.estimate (e : Env) (numThreads : Int) (s : ScanToScan) (scan : Scan) : Res (ScanToScan × Pose ℝ) := do
  let prepared ← (preprocessArray e scan.prep scan.array (1 / 4) 10).getD (.error .abort)
  match s.target, prepared with
  | none, _ => return ({ s with target := some prepared }, s.worldLidar)
  | some (some (target, targetTree)), some (downsampled, _) => do
    let result ← alignClouds e scan.reg target downsampled targetTree s.lastCurrent "GICP" (alignDefaults numThreads)
    let s := { s with lastCurrent := result.T }
    let s := { s with worldLidar := s.worldLidar.mul result.T }
    let s := { s with target := some prepared }
    return (s, s.worldLidar)
  | some _, _ => .error .nullDeref

/-- The loop over the files (kitti_odometry.py:79-83): the poses returned by `estimate`. -/
noncomputable def scanToScan (e : Env) (numThreads : Int) : ScanToScan → List Scan → Res (List (Pose ℝ))
  | _, [] => .ok []
  | s, scan :: scans => do
    let (s, T) ← s.estimate e numThreads scan
    let Ts ← scanToScan e numThreads s scans
    return T :: Ts

end Verif.Python
