import Verif.Model.Python
import Verif.Model.OdometryModel
import Mathlib.LinearAlgebra.Matrix.NonsingularInverse

/-!
Model of the voxel maps of the Python module (`src/python/voxelmap.cpp`, `align` on a voxel map in `src/python/align.cpp`) and of the scan-to-model odometry of
`src/example/kitti_odometry.py`, over the real numbers. Conversions by pybind11 and the viewer are left out.
-/

namespace Verif.Python

open Matrix Verif Verif.PointCloud Verif.Features Verif.RegMem Verif.Factors Verif.Optimizer Verif.Lie Verif.Pipeline Verif.Voxel Verif.OdometryPipeline

/-- `traits::voxel_points` (incremental_voxelmap.hpp:253-264). -/
def voxelPoints {K V : Type} (c : Contents K V) (m : VoxelMap K V) : Res (List (Pt K)) := do
  let rows ← m.flat.mapM (fun v => (List.range (c.size v.2)).mapM (c.point v.2))
  return rows.flatten

/-- `voxel_points` (voxelmap.cpp:96-101). The first element is accessed whatever the size is. -/
def voxelPointsArray {V : Type} (c : Contents ℝ V) (m : VoxelMap ℝ V) : Res NumpyArray := do
  let pts ← voxelPoints c m
  if pts = [] then .error .oob
  else return ⟨pts.length, 4, fun i j => if h : j < 4 then ((pts[i]?.map ofPt).getD 0) ⟨j, h⟩ else 0⟩

/-- `set_lru` (voxelmap.cpp:78-83). -/
def setLru {K V : Type} (m : VoxelMap K V) (horizon clearCycle : Nat) : VoxelMap K V := { m with lruHorizon := horizon, lruClearCycle := clearCycle }

/-- `insert` (voxelmap.cpp:57-59). -/
noncomputable def insertCloud (m : VoxelMap ℝ (GaussianVoxel ℝ)) (c : RCloud) (T : Pose ℝ) : Res (VoxelMap ℝ (GaussianVoxel ℝ)) := do
  let pts ← voxelSource c
  Voxel.insert gaussianContents m pts T.matrix

/-- `align(target_voxelmap, source, ...)` (align.cpp:234-255). -/
noncomputable def alignVoxels (e : Env) (y : RegExec) (m : VoxelMap ℝ (GaussianVoxel ℝ)) (source : RCloud) (initT : Pose ℝ) (s : Helper.Setting) : Res (Result ℝ) :=
  runRegistration e y (voxelWorld e.maxD m source e.junk) source.size (Helper.pyAlignVoxelmap initT s)

/-- `numpy.linalg.inv` of the matrix of a pose, without rounding. A singular matrix raises `LinAlgError`. -/
noncomputable def numpyInv (T : Pose ℝ) : Res (Pose ℝ) := open Classical in
  if Matrix.det T.R = 0 then .error .exception else .ok ⟨(T.R : Matrix (Fin 3) (Fin 3) ℝ)⁻¹, -((T.R : Matrix (Fin 3) (Fin 3) ℝ)⁻¹ *ᵥ T.t)⟩

/-- `ScanToModelMatchingOdometry` (kitti_odometry.py:34-40). -/
structure ScanToModelPy where
  lastCurrent : Pose ℝ
  worldLidar : Pose ℝ
  target : VoxelMap ℝ (GaussianVoxel ℝ)

/-- `__init__` (kitti_odometry.py:35-40). -/
noncomputable def ScanToModelPy.init : ScanToModelPy := ⟨Pose.one, Pose.one, setLru (VoxelMap.new 1) 100 10⟩

/-- `estimate` (kitti_odometry.py:42-57). A cloud that is `None` cannot be converted to a reference: pybind11 raises `TypeError`. The call of `voxel_points` for the viewer is
kept, its value is not used. An incomplete execution is marked `abort`; the theorems exclude it. -/
noncomputable def ScanToModelPy.estimate (e : Env) (numThreads : Int) (s : ScanToModelPy) (scan : Scan) : Res (ScanToModelPy × Pose ℝ) := do
  let prepared ← (preprocessArray e scan.prep scan.array (1 / 4) 10).getD (.error .abort)
  match prepared with
  | none => .error .exception
  | some (downsampled, _) =>
    if s.target.flat.length = 0 then do
      let target ← insertCloud s.target downsampled Pose.one
      return ({ s with target := target }, s.worldLidar)
    else do
      let result ← alignVoxels e scan.reg s.target downsampled (s.worldLidar.mul s.lastCurrent) (alignDefaults numThreads)
      let inv ← numpyInv s.worldLidar
      let s := { s with lastCurrent := inv.mul result.T }
      let s := { s with worldLidar := result.T }
      let target ← insertCloud s.target downsampled s.worldLidar
      let s := { s with target := target }
      let _ ← voxelPointsArray gaussianContents s.target
      return (s, s.worldLidar)

/-- The loop over the files (kitti_odometry.py:79-83) with option `-m`: the poses returned by `estimate`. -/
noncomputable def scanToModel (e : Env) (numThreads : Int) : ScanToModelPy → List Scan → Res (List (Pose ℝ))
  | _, [] => .ok []
  | s, scan :: scans => do
    let (s, T) ← s.estimate e numThreads scan
    let Ts ← scanToModel e numThreads s scans
    return T :: Ts

end Verif.Python
