import Verif.Model.PythonVoxel

/-!
Model of the five voxel-map classes of the Python module (`src/python/voxelmap.cpp`): construction, `insert`, `set_lru`, `size`, `voxel_points`, `voxel_normals`, `voxel_covs`. `__repr__` and
the conversions by pybind11 are left out. A transformation is given as a pose: matrices with another last row than `0 0 0 1` are left out. An attribute of a point is read from the cloud when
`add` needs it, so that an unset attribute of a point that is not stored does no harm.
-/

namespace Verif.Python

open Matrix Verif Verif.PointCloud Verif.Features Verif.RegMem Verif.Factors Verif.Optimizer Verif.Lie Verif.Pipeline Verif.Voxel Verif.OdometryPipeline

/-- What `define_class` (voxelmap.cpp:18-144) uses of a voxel type. -/
structure VoxelClass (V : Type) where
  contents : Contents ℝ V
  /-- `VoxelContents::add(setting, transformed_pt, points, i, T)` -/
  addFrom : V → Pt ℝ → RCloud → Nat → Mat4 ℝ → Res V
  /-- `has_normals` of `define_class` -/
  hasNormals : Bool
  /-- `has_covs` of `define_class` -/
  hasCovs : Bool
  /-- `traits::normal(voxel, i)` -/
  normal : V → Nat → Res (Pt ℝ)
  /-- `traits::cov(voxel, i)` -/
  cov : V → Nat → Res (Mat4 ℝ)

/-- The default of `FlatContainer::Setting` (flat_container.hpp:24-27), which Python cannot change. -/
noncomputable def flatDefault (hasNormals hasCovs : Bool) : FlatSetting ℝ := ⟨1 / 10 * (1 / 10), 10, hasNormals, hasCovs⟩

/-- `FlatContainer::add` (flat_container.hpp:43-61) on a `PointCloud`. -/
noncomputable def flatAddFrom (s : FlatSetting ℝ) (v : FlatVoxel ℝ) (tp : Pt ℝ) (c : RCloud) (i : Nat) (T : Mat4 ℝ) : Res (FlatVoxel ℝ) :=
  if s.maxNum ≤ v.points.length ∨ v.points.any (fun p => decide (Pt.sqDist (exactOps ℝ) p tp < s.minSqDist)) then .ok v
  else do
    let v := { v with points := v.points ++ [tp] }
    let v ← if s.hasNormals then do
        let n ← c.normal i
        pure { v with normals := v.normals ++ [mulPt T (toPt n)] }
      else pure v
    if s.hasCovs then do
      let C ← c.cov i
      return { v with covs := v.covs ++ [T * C * T.transpose] }
    else return v

/-- `GaussianVoxel::add` (gaussian_voxelmap.hpp:32-42) on a `PointCloud`. -/
noncomputable def gaussianAddFrom (v : GaussianVoxel ℝ) (tp : Pt ℝ) (c : RCloud) (i : Nat) (T : Mat4 ℝ) : Res (GaussianVoxel ℝ) := do
  let v := if v.finalized then
      { v with finalized := false, mean := v.mean.smul (v.numPoints : ℝ), cov := (v.numPoints : ℝ) • v.cov }
    else v
  let v := { v with numPoints := v.numPoints + 1, mean := Voxel.Pt.plus v.mean tp }
  let C ← c.cov i
  return { v with cov := v.cov + T * C * T.transpose }

/-- `IncrementalVoxelMap`, `IncrementalVoxelMapNormal`, `IncrementalVoxelMapCov`, `IncrementalVoxelMapNormalCov` (voxelmap.cpp:147-150; traits: flat_container.hpp:138-140). -/
noncomputable def flatClass (hasNormals hasCovs : Bool) : VoxelClass (FlatVoxel ℝ) where
  contents := flatContents (flatDefault hasNormals hasCovs)
  addFrom := flatAddFrom (flatDefault hasNormals hasCovs)
  hasNormals := hasNormals
  hasCovs := hasCovs
  normal v i := rd v.normals i
  cov v i := rd v.covs i

/-- `GaussianVoxelMap` (voxelmap.cpp:151; traits: gaussian_voxelmap.hpp:70-71). A voxel has no normal: `has_normals` is false, and `traits::normal` would not compile. -/
noncomputable def gaussianClass : VoxelClass (GaussianVoxel ℝ) where
  contents := gaussianContents
  addFrom := gaussianAddFrom
  hasNormals := false
  hasCovs := true
  normal _ _ := .error .oob
  cov v _ := .ok v.cov

variable {V : Type}

/-- Loop body of `insert` (incremental_voxelmap.hpp:57-73) on a `PointCloud`. -/
noncomputable def insertPoint (k : VoxelClass V) (T : Mat4 ℝ) (c : RCloud) (m : VoxelMap ℝ V) (i : Nat) : Res (VoxelMap ℝ V) := do
  let p ← c.point i
  let pt := mulPt T (toPt p)
  let coord ← coordOf m.invLeaf pt
  let (m, idx) := match find m.table coord with
    | some i => (m, i)
    | none => ({ m with table := (coord, m.flat.length) :: m.table,
                        flat := m.flat ++ [((⟨m.lruCounter, coord⟩ : Info), k.contents.fresh)] }, m.flat.length)
  let (info, v) ← rd m.flat idx
  let v ← k.addFrom v pt c i T
  let flat ← wr m.flat idx ({ info with lru := m.lruCounter }, v)
  return { m with flat := flat }

/-- `insert(points, T)` (voxelmap.cpp:57-59, incremental_voxelmap.hpp:54-93). -/
noncomputable def mapInsert (k : VoxelClass V) (m : VoxelMap ℝ V) (c : RCloud) (T : Pose ℝ) : Res (VoxelMap ℝ V) := do
  let m ← (List.range c.size).foldlM (insertPoint k T.matrix c) m
  let m ← evict m
  return finalizeAll k.contents m

/-- Calls that change a map: `insert` (voxelmap.cpp:57-59) and `set_lru` (voxelmap.cpp:78-83). -/
inductive MapCall where
  | insert (points : RCloud) (T : Pose ℝ)
  | setLru (horizon clearCycle : Nat)

/-- The calls of a program on one map, in order. -/
noncomputable def mapCalls (k : VoxelClass V) : VoxelMap ℝ V → List MapCall → Res (VoxelMap ℝ V)
  | m, [] => .ok m
  | m, .insert c T :: calls => do
    let m ← mapInsert k m c T
    mapCalls k m calls
  | m, .setLru horizon clearCycle :: calls => mapCalls k (setLru m horizon clearCycle) calls

/-- `__len__`, `size` (voxelmap.cpp:47-49, incremental_voxelmap.hpp:48). -/
def mapSize (m : VoxelMap ℝ V) : Nat := m.flat.length

/-- `traits::voxel_normals` (incremental_voxelmap.hpp:266-277). -/
def voxelNormals (k : VoxelClass V) (m : VoxelMap ℝ V) : Res (List (Pt ℝ)) := do
  let rows ← m.flat.mapM (fun v => (List.range (k.contents.size v.2)).mapM (k.normal v.2))
  return rows.flatten

/-- `traits::voxel_covs` (incremental_voxelmap.hpp:279-290). -/
def voxelCovs (k : VoxelClass V) (m : VoxelMap ℝ V) : Res (List (Mat4 ℝ)) := do
  let rows ← m.flat.mapM (fun v => (List.range (k.contents.size v.2)).mapM (k.cov v.2))
  return rows.flatten

/-- `voxel_normals` (voxelmap.cpp:114-117). The first element is accessed whatever the size is. A class without normals has no such method: `AttributeError`. -/
def voxelNormalsArray (k : VoxelClass V) (m : VoxelMap ℝ V) : Res NumpyArray :=
  if k.hasNormals then do
    let ns ← voxelNormals k m
    if ns = [] then .error .oob
    else return ⟨ns.length, 4, fun i j => if h : j < 4 then ((ns[i]?.map ofPt).getD 0) ⟨j, h⟩ else 0⟩
  else .error .exception

/-- `voxel_covs` (voxelmap.cpp:131-134). The 16 numbers of a matrix follow each other column by column, and are read as a row. -/
def voxelCovsArray (k : VoxelClass V) (m : VoxelMap ℝ V) : Res NumpyArray :=
  if k.hasCovs then do
    let Cs ← voxelCovs k m
    if Cs = [] then .error .oob
    else return ⟨Cs.length, 16, fun i j => if h : j < 16 then (Cs[i]?.getD 0) ⟨j % 4, by omega⟩ ⟨j / 4, by omega⟩ else 0⟩
  else .error .exception

end Verif.Python
