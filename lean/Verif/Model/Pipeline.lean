import Verif.Model.RegistrationMemory
import Verif.Model.Features
import Verif.Model.Downsampling
import Verif.Model.Helper

/-!
Model of `src/small_gicp/registration/registration_helper.cpp` with everything it calls: construction of the clouds, down-sampling,
kd-trees, estimation of normals and covariances, voxel maps, and the registration itself, with all memory accesses, over the real
numbers. `Helper.lean` models which objects these functions configure; here the objects run.
-/

namespace Verif.Pipeline

open Matrix Verif Verif.PointCloud Verif.Features Verif.RegMem Verif.Helper Verif.Factors Verif.Optimizer Verif.Lie

/-- What the library takes from outside: `std::numeric_limits<double>::max()`, `std::nth_element`, `std::sort`, `quick_sort_omp`
(modelled in `SortOmp.lean`; here its result), Eigen's eigen-solver, inverse and linear solver, and the values that local variables hold
before they are first written. -/
structure Env where
  maxD : ℝ
  nthElement : List (Nat × ℝ) → Nat → List (Nat × ℝ)
  sort : List (Nat × Nat) → List (Nat × Nat)
  sortOmp : List (Nat × Nat) → List (Nat × Nat)
  eig : M3 → M3
  inv : M3 → M3
  solve : Matrix (Fin 6) (Fin 6) ℝ → (Fin 6 → ℝ) → (Fin 6 → ℝ)
  junk : Nat × ℝ

/-- `KdTreeBuilder()` with `AxisAlignedProjection` (kdtree.hpp:129-130, projection.hpp:13). -/
noncomputable def Env.builder (e : Env) : KdTree.Builder ℝ := ⟨20, KdTree.findAxis (exactOps ℝ) 128, e.nthElement⟩

/-- The cloud returned by a sampler that emitted `out` (downsampling.hpp:56-77, downsampling_omp.hpp:58-94): each emitted point is stored
with `set_point`; the `resize` calls leave normals and covariances unset. `Downsampling.lean` models how the points are stored. -/
def sampledCloud (out : List (Pt ℝ)) : RCloud :=
  ⟨out.map (fun p => some (ofPt p)), List.replicate out.length none, List.replicate out.length none⟩

/-- `knn_search` of a kd-tree on a cloud with points `slots`, as called by `estimate_local_features` (kdtree.hpp:172-176, 272-274,
normal_estimation.hpp:67-69): `k_indices` and `k_sq_dists` hold zeros. The bound on the recursion depth is larger than the tree. -/
noncomputable def kdKnn (e : Env) (t : KdTree.Tree ℝ) : Search := fun slots q k => do
  let pts ← cloudPoints (⟨slots, [], []⟩ : PCloud ℝ)
  let r ← KdTree.knnSearch (exactOps ℝ) e.maxD pts t (pts.length + 1) (-1) k (List.replicate k 0) (List.replicate k 0) (toPt q) 0
  return r.found.map Prod.fst

/-- How the parallel parts of `preprocess_points` are executed: the schedule of the blocks of `voxelgrid_sampling_omp`, and the division
and interleaving of the loop of `estimate_normals_covariances_omp`. -/
structure PrepExec where
  blocks : List Nat
  chunks : List (List Nat)
  sched : List Nat

/-- `preprocess_points(points, downsampling_resolution, num_neighbors, num_threads)` (registration_helper.cpp:22-34): the down-sampled cloud
with normals and covariances, and its kd-tree. `none` if `x` is not a complete execution. The samplers read all points; here they are
read before anything else, so that an unset point is reported even where the sampler would stop earlier. -/
noncomputable def preprocess (e : Env) (x : PrepExec) (points : RCloud) (resolution : ℝ) (numNeighbors numThreads : Int) : Option (Res (RCloud × KdTree.Tree ℝ)) :=
  match cloudPoints points with
  | .error f => some (.error f)
  | .ok pts =>
    if numThreads = 1 then some (do
      let out ← Downsample.voxelgridSampling e.sort pts resolution
      let t ← KdTree.construct (exactOps ℝ) e.builder (out.length + 1) out
      let c ← estimate normalCovarianceSetter e.eig (fun _ => .ok (kdKnn e t)) numNeighbors (sampledCloud out)
      return (c, t))
    else
      match Downsample.voxelgridSamplingPar e.sortOmp Downsample.ompCut x.blocks pts resolution with
      | none => none
      | some (.error f) => some (.error f)
      | some (.ok out) =>
        if x.chunks.flatten.Perm (List.range out.length) then
          match KdTree.construct (exactOps ℝ) e.builder (out.length + 1) out with
          | .error f => some (.error f)
          | .ok t => (estimatePar normalCovarianceSetter e.eig (fun _ => .ok (kdKnn e t)) numNeighbors (sampledCloud out) x.chunks x.sched).map (fun r => do
              let c ← r
              return (c, t))
        else none

/-- `preprocess_points` on a vector of points (registration_helper.cpp:37-41). `cast` converts a coordinate to `double`. -/
noncomputable def preprocessVector {T : Type} {d : Nat} (e : Env) (x : PrepExec) (cast : T → ℝ) (points : List (Fin (d + 3) → T)) (resolution : ℝ) (numNeighbors numThreads : Int) :
    Option (Res (RCloud × KdTree.Tree ℝ)) :=
  match (Cloud.ofPoints (homogeneous cast) points : Res RCloud) with
  | .error f => some (.error f)
  | .ok c => preprocess e x c resolution numNeighbors numThreads

/-- What `IncrementalVoxelMap::insert` and `GaussianVoxel::add` read of a cloud (incremental_voxelmap.hpp:57, gaussian_voxelmap.hpp:41):
points and covariances. All of them are read first; the normals are not read. -/
def voxelSource (c : RCloud) : Res (List (Voxel.SrcPt ℝ)) := (List.range c.size).mapM (fun i => do
  let p ← c.point i
  let C ← c.cov i
  return ⟨toPt p, ⟨0, 0, 0, 0⟩, C⟩)

/-- `create_gaussian_voxelmap` (registration_helper.cpp:50-54): one insertion with the identity. A zero resolution makes `inv_leaf_size`
infinite, whose conversion to `int` is undefined. Simplified: an empty map with zero resolution is built here with `inv_leaf_size` 0; searching it
is undefined in the code, so the theorems exclude a zero resolution. -/
noncomputable def createVoxelmap (c : RCloud) (resolution : ℝ) : Res (Voxel.VoxelMap ℝ (Voxel.GaussianVoxel ℝ)) := do
  let pts ← voxelSource c
  if resolution = 0 ∧ pts ≠ [] then .error .intOverflow
  else Voxel.insert Voxel.gaussianContents (Voxel.VoxelMap.new resolution) pts 1

/-- How one call of the reduction is executed (reduction_omp.hpp:21-66): see `Exec.omp`. -/
structure OmpExec where
  assign : List (List Nat)
  sched : List Nat
  comb : List Nat

/-- How all calls of the reduction are executed; they may depend on the pose and on the factors. -/
structure RegExec where
  lin : {F : Type} → Pose ℝ → List F → OmpExec
  err : {F : Type} → Pose ℝ → List F → OmpExec

/-- `Registration<Method, ParallelReductionOMP>::align` for a configured object (registration.hpp:31-43). -/
noncomputable def runMethod {F : Type} (e : Env) (y : RegExec) (mf : MemFactor F ℝ) (w : World ℝ) (r : Registration) (initT : Pose ℝ) (sourceSize : Nat) : Res (Result ℝ) := do
  let (res, _, _) ← RegMem.align mf w ⟨distanceRejector r.maxDistSq, nullFactor, e.solve, se3Exp, converged r.rotationEps r.translationEps⟩
    (fun T fs => .omp r.numThreads.toNat (y.lin T fs).assign (y.lin T fs).sched (y.lin T fs).comb)
    (fun T fs => .omp r.numThreads.toNat (y.err T fs).assign (y.err T fs).sched (y.err T fs).comb) (.lm r.lm) initT sourceSize
  return res

noncomputable def runRegistration (e : Env) (y : RegExec) (w : World ℝ) (sourceSize : Nat) : Outcome → Res (Result ℝ)
  | .abort => .error .abort
  | .identity => .ok (Result.init Pose.one)
  | .run r _ initT =>
    match r.method with
    | .icp => runMethod e y icpMem w r initT sourceSize
    | .planeIcp => runMethod e y planeMem w r initT sourceSize
    | .gicp => runMethod e y (gicpMem e.inv) w r initT sourceSize

/-- `align(target, source, target_tree, init_T, setting)` (registration_helper.cpp:81-122). -/
noncomputable def alignClouds (e : Env) (y : RegExec) (target source : RCloud) (t : KdTree.Tree ℝ) (initT : Pose ℝ) (s : Setting) : Res (Result ℝ) := do
  let pts ← cloudPoints target
  runRegistration e y (cloudWorld target source (kdNearest e.maxD pts t (pts.length + 1) e.junk)) source.size (alignCloud initT s)

/-- `align(target, source, init_T, setting)` on a voxel map (registration_helper.cpp:125-137). -/
noncomputable def alignMap (e : Env) (y : RegExec) (target : Voxel.VoxelMap ℝ (Voxel.GaussianVoxel ℝ)) (source : RCloud) (initT : Pose ℝ) (s : Setting) : Res (Result ℝ) :=
  runRegistration e y (voxelWorld e.maxD target source e.junk) source.size (alignVoxelmap initT s)

/-- `align(target, source, init_T, setting)` on vectors of points (registration_helper.cpp:57-69). `none` if `xt` or `xs` is not a complete
execution of the preprocessing of target or source. -/
noncomputable def align {T : Type} {d : Nat} (e : Env) (xt xs : PrepExec) (y : RegExec) (cast : T → ℝ) (target source : List (Fin (d + 3) → T)) (initT : Pose ℝ) (s : Setting) :
    Option (Res (Result ℝ)) :=
  match preprocessVector e xt cast target s.downsamplingResolution 10 s.numThreads with
  | none => none
  | some (.error f) => some (.error f)
  | some (.ok tgt) =>
    match preprocessVector e xs cast source s.downsamplingResolution 10 s.numThreads with
    | none => none
    | some (.error f) => some (.error f)
    | some (.ok src) =>
      some (if s.type = .vgicp then do
          let m ← createVoxelmap tgt.1 s.voxelResolution
          alignMap e y m src.1 initT s
        else alignClouds e y tgt.1 src.1 tgt.2 initT s)

end Verif.Pipeline
