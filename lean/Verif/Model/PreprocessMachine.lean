import Verif.Model.DownsamplingMachine
import Verif.Model.RegistrationMachine
import Verif.Model.Pipeline

/-!
`preprocess_points` in machine arithmetic: voxel-grid sampling, kd-tree and estimation of normals and covariances once more, where a `double` is an element of a type `V` of which nothing is known but the
names of the operations. `Props/PreprocessAnyArith.lean` shows that exact arithmetic gives the functions of `Model/DownsamplingMachine.lean` and `Model/Features.lean`.
-/

namespace Verif.Machine

open Verif Verif.PointCloud Verif.Features Verif.Downsample

variable {V M R : Type}

/-! ### voxel keys -/

/-- The conversions between `double` and `int`. `trunc x` is `static_cast<int>(x)`, `none` where it is undefined (NaN, infinities and values whose truncation is not an `int`); `ofInt` is the conversion back,
`one` is `1.0`. -/
structure Scalars (V : Type) where
  one : V
  trunc : V → Option Int
  ofInt : Int → V

/-- One coordinate of `fast_floor` (fast_floor.hpp:12-15). -/
def fastFloor [LT V] [DecidableLT V] (s : Scalars V) (x : V) : Res Int :=
  match s.trunc x with
  | none => .error .intOverflow
  | some n => do
    let n ← int32 n
    int32 (n - if x < s.ofInt n then 1 else 0)

/-- Key of one point (downsampling.hpp:37-49, downsampling_omp.hpp:41-52, downsampling_tbb.hpp:41-53). -/
def voxelKey [LT V] [DecidableLT V] (o : Ops V) (s : Scalars V) (inv : V) (p : Pt V) : Res Nat := do
  let q := Downsample.Machine.scaled o inv p
  let cx ← fastFloor s q.x
  let cy ← fastFloor s q.y
  let cz ← fastFloor s q.z
  let cw ← fastFloor s q.w
  let x ← int32 (cx + COORD_OFFSET)
  let y ← int32 (cy + COORD_OFFSET)
  let z ← int32 (cz + COORD_OFFSET)
  let w ← int32 (cw + COORD_OFFSET)
  if (x < 0 ∨ y < 0 ∨ z < 0 ∨ w < 0) ∨
      ((COORD_MASK : Int) < x ∨ (COORD_MASK : Int) < y ∨ (COORD_MASK : Int) < z ∨ (COORD_MASK : Int) < w) then
    return INVALID_COORD
  else return packBits x y z

/-- `coord_pt` (downsampling.hpp:35-50). -/
def coordPt [LT V] [DecidableLT V] (o : Ops V) (s : Scalars V) (inv : V) (points : List (Pt V)) : Res (List (Nat × Nat)) :=
  points.zipIdx.mapM (fun pi => do
    let k ← voxelKey o s inv pi.1
    return (k, pi.2))

/-- `voxelgrid_sampling` (downsampling.hpp:23-78). A zero leaf size needs no special treatment here: `1.0 / leaf_size` is what the division of the machine gives. -/
def voxelgridSampling [LT V] [DecidableLT V] (o : Ops V) (s : Scalars V) (sort : List (Nat × Nat) → List (Nat × Nat)) (points : List (Pt V)) (leaf : V) : Res (List (Pt V)) := do
  if points.length = 0 then return []
  else
    let cp ← coordPt o s (o.div s.one leaf) points
    let out ← Downsample.Machine.blockPoints o points (sort cp)
    if out.length ≤ points.length then return out else .error .oob

/-- `voxelgrid_sampling_omp` (downsampling_omp.hpp:26-95) and `voxelgrid_sampling_tbb` (downsampling_tbb.hpp:26-93); `cut` and `sched` as in `Model/Downsampling.lean`. -/
def voxelgridSamplingPar [LT V] [DecidableLT V] (o : Ops V) (s : Scalars V) (sort : List (Nat × Nat) → List (Nat × Nat)) (cut : List (Nat × Nat) → List (List (Nat × Nat)))
    (sched : List Nat) (points : List (Pt V)) (leaf : V) : Option (Res (List (Pt V))) :=
  if points.length = 0 then some (.ok [])
  else
    match coordPt o s (o.div s.one leaf) points with
    | .error e => some (.error e)
    | .ok cp =>
      match Downsample.Machine.parStart o points (cut (sort cp)) with
      | .error e => some (.error e)
      | .ok st =>
        match parRun sched st with
        | none => none
        | some (.error e) => some (.error e)
        | some (.ok st) => if st.finished then some (parResult st) else none

/-! ### normals and covariances -/

/-- What the feature estimation computes. `R` is the type of the matrix of eigenvectors. `zero` is `Vector4d::Zero()`, `add` the sum of points, `addOuter A p` is `A += p * p.transpose()`; `eigenvectors sum cross n` is
mean, covariance and the eigen-solver (normal_estimation.hpp:85-91); `normal p vectors` is the normal of `NormalSetter::set` (normal_estimation.hpp:19-24), `cov` and `invalidCov` are the matrices of `CovarianceSetter`
(normal_estimation.hpp:34-35, 41-43). -/
structure FeatureEval (V M R : Type) where
  zero : Fin 4 → V
  add : (Fin 4 → V) → (Fin 4 → V) → (Fin 4 → V)
  zeroM : M
  addOuter : M → (Fin 4 → V) → M
  eigenvectors : (Fin 4 → V) → M → Nat → R
  normal : (Fin 4 → V) → R → (Fin 4 → V)
  cov : R → M
  invalidCov : M

/-- A `knn_search` on the current points of a cloud, as `Features.Search`. -/
abbrev Search (V : Type) := List (Option (Fin 4 → V)) → (Fin 4 → V) → Nat → Res (List Nat)

/-- The search and the eigen-decomposition (normal_estimation.hpp:67-91), as `Features.localFrame`. -/
def localFrame (fe : FeatureEval V M R) (knn : Search V) (numNeighbors : Int) (cloud : Cloud (Fin 4 → V) M) (i : Nat) : Res (Option R) :=
  if numNeighbors < 0 then .error .exception
  else do
    let p ← cloud.point i
    let kIndices ← knn cloud.points p numNeighbors.toNat
    if kIndices.length < 5 then .ok none
    else do
      let acc ← kIndices.foldlM (fun (acc : (Fin 4 → V) × M) j => do
        let pt ← cloud.point j
        .ok (fe.add acc.1 pt, fe.addOuter acc.2 pt)) (fe.zero, fe.zeroM)
      .ok (some (fe.eigenvectors acc.1 acc.2 kIndices.length))

/-- `NormalSetter::set` or `set_invalid` (normal_estimation.hpp:15-25). -/
def writeNormal (fe : FeatureEval V M R) (cloud : Cloud (Fin 4 → V) M) (i : Nat) : Option R → Res (Cloud (Fin 4 → V) M)
  | none => cloud.setNormal i fe.zero
  | some r => do
    let p ← cloud.point i
    cloud.setNormal i (fe.normal p r)

/-- `CovarianceSetter::set` or `set_invalid` (normal_estimation.hpp:33-45). -/
def writeCov (fe : FeatureEval V M R) (cloud : Cloud (Fin 4 → V) M) (i : Nat) : Option R → Res (Cloud (Fin 4 → V) M)
  | none => cloud.setCov i fe.invalidCov
  | some r => cloud.setCov i (fe.cov r)

/-- `Setter::set_invalid` / `Setter::set`. -/
def writeFeatures (fe : FeatureEval V M R) (S : Setter) (cloud : Cloud (Fin 4 → V) M) (i : Nat) (f : Option R) : Res (Cloud (Fin 4 → V) M) := do
  let c1 ← if S.normals then writeNormal fe cloud i f else .ok cloud
  if S.covs then writeCov fe c1 i f else .ok c1

/-- `estimate_local_features` for one point (normal_estimation.hpp:66-92). -/
def estimateOne (fe : FeatureEval V M R) (S : Setter) (knn : Search V) (numNeighbors : Int) (cloud : Cloud (Fin 4 → V) M) (i : Nat) : Res (Cloud (Fin 4 → V) M) := do
  let f ← localFrame fe knn numNeighbors cloud i
  writeFeatures fe S cloud i f

/-- `estimate_local_features` on a given tree (normal_estimation.hpp:104-110). -/
def estimate (fe : FeatureEval V M R) (S : Setter) (knn : Search V) (numNeighbors : Int) (cloud : Cloud (Fin 4 → V) M) : Res (Cloud (Fin 4 → V) M) :=
  (List.range cloud.size).foldlM (estimateOne fe S knn numNeighbors) (cloud.resize cloud.size)

/-- One action of the parallel loop, as `Features.actStep`. -/
def actStep (fe : FeatureEval V M R) (knn : Search V) (numNeighbors : Int) (s : Cloud (Fin 4 → V) M × (Nat → Option (Option R))) : Act → Res (Cloud (Fin 4 → V) M × (Nat → Option (Option R)))
  | .frame i => do
    let f ← localFrame fe knn numNeighbors s.1 i
    .ok (s.1, Function.update s.2 i (some f))
  | .normal i => do
    match s.2 i with
    | none => .error .uninit
    | some f => do
      let c ← writeNormal fe s.1 i f
      .ok (c, s.2)
  | .cov i => do
    match s.2 i with
    | none => .error .uninit
    | some f => do
      let c ← writeCov fe s.1 i f
      .ok (c, s.2)

/-- `estimate_local_features_omp` and `estimate_local_features_tbb` (normal_estimation_omp.hpp:10-26, normal_estimation_tbb.hpp:10-30), as `Features.estimatePar`. -/
def estimatePar (fe : FeatureEval V M R) (S : Setter) (knn : Search V) (numNeighbors : Int) (cloud : Cloud (Fin 4 → V) M) (chunks : List (List Nat)) (sched : List Nat) : Option (Res (Cloud (Fin 4 → V) M)) :=
  (parOrder sched (chunks.map (fun c => c.flatMap S.acts))).map (fun order => do
    let s ← order.foldlM (actStep fe knn numNeighbors) (cloud.resize cloud.size, fun _ => none)
    .ok s.1)

/-! ### preprocess_points -/

variable [LT V] [DecidableLT V] [LE V] [DecidableLE V]

/-- What the preprocessing takes from outside (as `Pipeline.Env`). -/
structure PrepEnv (V M R : Type) where
  ops : Ops V
  scalars : Scalars V
  features : FeatureEval V M R
  maxD : V
  nthElement : List (Nat × V) → Nat → List (Nat × V)
  sort : List (Nat × Nat) → List (Nat × Nat)
  sortOmp : List (Nat × Nat) → List (Nat × Nat)

/-- `KdTreeBuilder()` with `AxisAlignedProjection` (kdtree.hpp:129-130, projection.hpp:13). -/
def PrepEnv.builder (e : PrepEnv V M R) : KdTree.Builder V := ⟨20, KdTree.findAxis e.ops 128, e.nthElement⟩

/-- `Eigen::Vector4d` in the two forms used by the models (inverse of `toPt`). -/
def ofPt (p : Pt V) : Fin 4 → V := ![p.x, p.y, p.z, p.w]

/-- The cloud returned by a sampler that emitted `out` (as `Pipeline.sampledCloud`). -/
def sampledCloud (out : List (Pt V)) : Cloud (Fin 4 → V) M :=
  ⟨out.map (fun p => some (ofPt p)), List.replicate out.length none, List.replicate out.length none⟩

/-- `knn_search` of a kd-tree, as called by `estimate_local_features` (kdtree.hpp:172-176, 272-274, normal_estimation.hpp:67-69): `k_indices` and `k_sq_dists` hold zeros, `epsilon` is zero. The bound on the
recursion depth is larger than the tree. -/
def kdKnn (e : PrepEnv V M R) (t : KdTree.Tree V) : Search V := fun slots q k => do
  let pts ← cloudPoints (⟨slots, [], []⟩ : Cloud (Fin 4 → V) M)
  let r ← KdTree.knnSearch e.ops e.maxD pts t (pts.length + 1) (-1) k (List.replicate k 0) (List.replicate k e.ops.zero) (toPt q) e.ops.zero
  return r.found.map Prod.fst

/-- `preprocess_points(points, downsampling_resolution, num_neighbors, num_threads)` (registration_helper.cpp:22-34), as `Pipeline.preprocess`: `none` if `x` is not a complete execution; the points are read
first. -/
def preprocess (e : PrepEnv V M R) (x : Pipeline.PrepExec) (points : Cloud (Fin 4 → V) M) (resolution : V) (numNeighbors numThreads : Int) : Option (Res (Cloud (Fin 4 → V) M × KdTree.Tree V)) :=
  match cloudPoints points with
  | .error f => some (.error f)
  | .ok pts =>
    if numThreads = 1 then some (do
      let out ← voxelgridSampling e.ops e.scalars e.sort pts resolution
      let t ← KdTree.construct e.ops e.builder (out.length + 1) out
      let c ← estimate e.features normalCovarianceSetter (kdKnn e t) numNeighbors (sampledCloud out)
      return (c, t))
    else
      match voxelgridSamplingPar e.ops e.scalars e.sortOmp Downsample.ompCut x.blocks pts resolution with
      | none => none
      | some (.error f) => some (.error f)
      | some (.ok out) =>
        if x.chunks.flatten.Perm (List.range out.length) then
          match KdTree.construct e.ops e.builder (out.length + 1) out with
          | .error f => some (.error f)
          | .ok t => (estimatePar e.features normalCovarianceSetter (kdKnn e t) numNeighbors (sampledCloud out) x.chunks x.sched).map (fun r => do
              let c ← r
              return (c, t))
        else none

/-- `preprocess_points` on a vector of points (registration_helper.cpp:37-41). `cast` converts a coordinate to `double`. -/
def preprocessVector [One V] {T : Type} {d : Nat} (e : PrepEnv V M R) (x : Pipeline.PrepExec) (cast : T → V) (points : List (Fin (d + 3) → T)) (resolution : V) (numNeighbors numThreads : Int) :
    Option (Res (Cloud (Fin 4 → V) M × KdTree.Tree V)) :=
  match (Cloud.ofPoints (homogeneous cast) points : Res (Cloud (Fin 4 → V) M)) with
  | .error f => some (.error f)
  | .ok c => preprocess e x c resolution numNeighbors numThreads

/-- `align(target, source, init_T, setting)` on vectors of points for a registration type other than VGICP (registration_helper.cpp:57-69): preprocessing of both with 10 neighbours, then `Registration::align`.
Factor `mf`, settings `cfg` and optimiser `meth` are those the helper configures (`Model/Helper.lean`), or any others. `none` if `xt` or `xs` is not a complete execution. -/
def alignVectors {F P H B D T : Type} {d : Nat} [One V] [Zero V] [Add V] [Sub V] [Mul V] [Div V] [Zero H] [Add H] [Zero B] [Add B] (e : PrepEnv V M R) (E : Eval V P H B M) (xt xs : Pipeline.PrepExec) (cast : T → V)
    (target source : List (Fin (d + 3) → T)) (resolution : V) (numThreads : Int) (mf : Factor F V P H B M) (junk : Nat × V) (cfg : Config V P H B D) (execL execE : P → List F → RegMem.Exec) (meth : Method V)
    (T0 : P) : Option (Res (Result V P H B × List F × List (Iteration F V P H B D))) :=
  match preprocessVector e xt cast target resolution 10 numThreads with
  | none => none
  | some (.error f) => some (.error f)
  | some (.ok tgt) =>
    match preprocessVector e xs cast source resolution 10 numThreads with
    | none => none
    | some (.error f) => some (.error f)
    | some (.ok src) => some (do
        let pts ← cloudPoints tgt.1
        align mf (cloudWorld tgt.1 src.1 (kdNearest E e.maxD pts tgt.2 (pts.length + 1) junk)) cfg execL execE meth T0 src.1.size)

end Verif.Machine
