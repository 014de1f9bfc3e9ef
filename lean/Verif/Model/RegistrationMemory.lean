import Verif.Model.Optimizer
import Verif.Model.PointCloud
import Verif.Model.KdTree
import Verif.Model.VoxelMap

/-!
Registration with every access to a container and every search as an operation that can fail: the factors of
`include/small_gicp/factors/`, the reductions of `include/small_gicp/registration/` and `Registration::align`, run on real
containers (a `PointCloud` with a kd-tree, or a `GaussianVoxelMap`). `Model/Factors.lean` and `Model/Reduction.lean` describe the same
code with total accesses; Props/RegistrationMemory.lean relates the two.
-/

namespace Verif.RegMem

open Matrix Verif Verif.Factors Verif.Reduction Verif.Optimizer Verif.PointCloud Verif.Knn

variable {K : Type} [Field K] [LinearOrder K]

/-- What a factor calls during `linearize` and `error`: `traits::point`, `traits::normal`, `traits::cov` on the two clouds and
`traits::nearest_neighbor_search` on the target tree (`none` when 0 is returned). -/
structure World (K : Type) where
  srcPoint : Nat → Res (Fin 4 → K)
  srcCov : Nat → Res (Matrix (Fin 4) (Fin 4) K)
  tgtPoint : Nat → Res (Fin 4 → K)
  tgtNormal : Nat → Res (Fin 4 → K)
  tgtCov : Nat → Res (Matrix (Fin 4) (Fin 4) K)
  nn : (Fin 4 → K) → Res (Option (Nat × K))

/-! ### factors -/

/-- Search and rejection (icp_factor.hpp:34-40, plane_icp_factor.hpp:34-40, gicp_factor.hpp:49-55): the transformed source point and
the target index, if the correspondence is accepted. -/
def search (w : World K) (rej : Rejector K) (T : Pose K) (i : Nat) : Res ((Fin 4 → K) × Option Nat) := do
  let p ← w.srcPoint i
  match ← w.nn (T.apply p) with
  | none => .ok (T.apply p, none)
  | some (k, d) => if rej T k i d then .ok (T.apply p, none) else .ok (T.apply p, some k)

/-- `ICPFactor::linearize` (icp_factor.hpp:20-54). -/
def icpLinearize (w : World K) (rej : Rejector K) (T : Pose K) (i : Nat) (_f : ICP) : Res (ICP × Option (Sys K)) := do
  match ← search w rej T i with
  | (_, none) => .ok (⟨npos, i⟩, none)
  | (q, some k) => do
    let tp ← w.tgtPoint k
    let residual := tp - q
    let p ← w.srcPoint i
    let J := blocks (T.R * skew (head3 p)) (-T.R)
    .ok (⟨k, i⟩, some (Jᵀ * J, Jᵀ *ᵥ residual, 1 / 2 * (residual ⬝ᵥ residual)))

/-- `ICPFactor::error` (icp_factor.hpp:57-64). -/
def icpError (w : World K) (T : Pose K) (f : ICP) : Res K :=
  if f.target = npos then .ok 0
  else do
    let tp ← w.tgtPoint f.target
    let p ← w.srcPoint f.source
    let residual := tp - T.apply p
    .ok (1 / 2 * (residual ⬝ᵥ residual))

/-- `PointToPlaneICPFactor::linearize` (plane_icp_factor.hpp:20-58). -/
def planeLinearize (w : World K) (rej : Rejector K) (T : Pose K) (i : Nat) (_f : PlaneICP) : Res (PlaneICP × Option (Sys K)) := do
  match ← search w rej T i with
  | (_, none) => .ok (⟨npos, i⟩, none)
  | (q, some k) => do
    let normal ← w.tgtNormal k
    let tp ← w.tgtPoint k
    let residual := tp - q
    let err := normal * residual
    let p ← w.srcPoint i
    let J := blocks (diagonal (head3 normal) * T.R * skew (head3 p)) (diagonal (head3 normal) * (-T.R))
    .ok (⟨k, i⟩, some (Jᵀ * J, Jᵀ *ᵥ err, 1 / 2 * (err ⬝ᵥ err)))

/-- `PointToPlaneICPFactor::error` (plane_icp_factor.hpp:60-70). -/
def planeError (w : World K) (T : Pose K) (f : PlaneICP) : Res K :=
  if f.target = npos then .ok 0
  else do
    let p ← w.srcPoint f.source
    let tp ← w.tgtPoint f.target
    let residual := tp - T.apply p
    let normal ← w.tgtNormal f.target
    let err := normal * residual
    .ok (1 / 2 * (err ⬝ᵥ err))

/-- `GICPFactor::linearize` (gicp_factor.hpp:35-73). `inv` is Eigen's 3x3 `inverse()`. -/
def gicpLinearize (inv : Matrix (Fin 3) (Fin 3) K → Matrix (Fin 3) (Fin 3) K) (w : World K) (rej : Rejector K) (T : Pose K) (i : Nat) (f : GICP K) :
    Res (GICP K × Option (Sys K)) := do
  match ← search w rej T i with
  | (_, none) => .ok (⟨npos, i, f.mahalanobis⟩, none)
  | (q, some k) => do
    let ct ← w.tgtCov k
    let cs ← w.srcCov i
    let RCR := ct + T.matrix * cs * T.matrixᵀ
    let m := setBlock33 f.mahalanobis (inv (block33 RCR))
    let tp ← w.tgtPoint k
    let residual := tp - q
    let p ← w.srcPoint i
    let J := blocks (T.R * skew (head3 p)) (-T.R)
    .ok (⟨k, i, m⟩, some (Jᵀ * m * J, (Jᵀ * m) *ᵥ residual, 1 / 2 * (residual ⬝ᵥ m *ᵥ residual)))

/-- `GICPFactor::error` (gicp_factor.hpp:81-89). -/
def gicpError (w : World K) (T : Pose K) (f : GICP K) : Res K :=
  if f.target = npos then .ok 0
  else do
    let p ← w.srcPoint f.source
    let tp ← w.tgtPoint f.target
    let residual := tp - T.apply p
    .ok (1 / 2 * (residual ⬝ᵥ f.mahalanobis *ᵥ residual))

/-- A factor type as the reductions and optimisers see it. `target` and `source` are the members `target_index` and `source_index` (of the
wrapped factor for a robust one). -/
structure MemFactor (F K : Type) where
  init : F
  linearize : World K → Rejector K → Pose K → Nat → F → Res (F × Option (Sys K))
  error : World K → Pose K → F → Res K
  inlier : F → Bool
  target : F → Nat
  source : F → Nat

def icpMem : MemFactor ICP K := ⟨ICP.init, icpLinearize, icpError, ICP.inlier, ICP.target, ICP.source⟩

def planeMem : MemFactor PlaneICP K := ⟨ICP.init, planeLinearize, planeError, ICP.inlier, ICP.target, ICP.source⟩

def gicpMem (inv : Matrix (Fin 3) (Fin 3) K → Matrix (Fin 3) (Fin 3) K) : MemFactor (GICP K) K := 
  ⟨GICP.init, gicpLinearize inv, gicpError, GICP.inlier, GICP.target, GICP.source⟩

/-- `RobustFactor` (robust_kernel.hpp:57-107). -/
def robustMem {F : Type} (wt sqrt : K → K) (mf : MemFactor F K) : MemFactor F K where
  init := mf.init
  linearize := fun w rej T i f => do
    match ← mf.linearize w rej T i f with
    | (f', none) => .ok (f', none)
    | (f', some (H, b, e)) => .ok (f', some (wt (sqrt e) • H, wt (sqrt e) • b, e * wt (sqrt e)))
  error := fun w T f => do
    let e ← mf.error w T f
    .ok (wt (sqrt e) * e)
  inlier := mf.inlier
  target := mf.target
  source := mf.source

/-! ### reductions -/

variable {F S E : Type}

/-- Loop body of `SerialReduction::linearize` (reduction.hpp:32-44). -/
def serialStep [Add S] (lin : Nat → F → Res (F × Option S)) (st : List F × S) (i : Nat) : Res (List F × S) := do
  let f ← rd st.1 i
  let r ← lin i f
  let fs ← wr st.1 i r.1
  match r.2 with
  | none => return (fs, st.2)
  | some s => return (fs, st.2 + s)

/-- Effect of an action of `ParallelReductionOMP::linearize` (reduction_omp.hpp:38-45). -/
def ompAct [Add S] (lin : Nat → F → Res (F × Option S)) (st : OmpState F S) : OmpAct → Res (OmpState F S)
  | .lin t i => do
    let f ← rd st.factors i
    let r ← lin i f
    let fs ← wr st.factors i r.1
    let ls ← wr st.locals t r.2
    return { st with factors := fs, locals := ls }
  | .acc t => do
    match ← rd st.locals t with
    | none => return st
    | some s => do
      let old ← rd st.sums t
      let sums ← wr st.sums t (old + s)
      return { st with sums := sums }

/-- Actions of the bodies of `ParallelReductionTBB::linearize` (reduction_tbb.hpp:30-69). -/
def tbbAct [Zero S] [Add S] (lin : Nat → F → Res (F × Option S)) (st : TbbState F S) : TbbAct → Res (TbbState F S)
  | .split c => return st.setBody c ⟨0, 0, none⟩
  | .enter b => return st.setBody b { st.bodies b with tmp := (st.bodies b).acc }
  | .lin b i => do
    let f ← rd st.factors i
    let r ← lin i f
    let fs ← wr st.factors i r.1
    return { st with factors := fs }.setBody b { st.bodies b with loc := r.2 }
  | .add b =>
    match (st.bodies b).loc with
    | none => return st
    | some s => return st.setBody b { st.bodies b with tmp := (st.bodies b).tmp + s }
  | .leave b => return st.setBody b { st.bodies b with acc := (st.bodies b).tmp }
  | .join b c => return st.setBody b { st.bodies b with acc := (st.bodies b).acc + (st.bodies c).acc }

/-- How one call of a reduction is executed: in sequence; by OpenMP with given threads, distribution of the iterations, interleaving
and order of combination; by TBB with given splitting and order of actions. -/
inductive Exec where
  | serial
  | omp (numThreads : Nat) (assign : List (List Nat)) (sched comb : List Nat)
  | tbb (tree : RTree) (order : List TbbAct)

/-- `linearize` of the three reductions (reduction.hpp:21-47, reduction_omp.hpp:20-55, reduction_tbb.hpp:118-131). An interleaving
that is not a complete execution is marked `abort`; `Exec.Complete` excludes it. -/
def reduceLinearize [Zero S] [Add S] (lin : Nat → F → Res (F × Option S)) (ex : Exec) (fs : List F) : Res (List F × S) :=
  match ex with
  | .serial => (List.range fs.length).foldlM (serialStep lin) (fs, 0)
  | .omp n assign sched _ =>
    match parOrder sched (assign.mapIdx ompThread) with
    | none => .error .abort
    | some order => do
      let st ← order.foldlM (ompAct lin) ⟨fs, List.replicate n none, List.replicate n 0⟩
      let s ← ompGather n st.sums
      return (st.factors, s)
  | .tbb _ order => do
    let st ← order.foldlM (tbbAct lin) ⟨fs, fun _ => ⟨0, 0, none⟩⟩
    return (st.factors, (st.bodies []).acc)

/-- `error` of the three reductions (reduction.hpp:56-62, reduction_omp.hpp:58-66, reduction_tbb.hpp:134-138). -/
def reduceError [Zero E] [Add E] (err : F → Res E) (ex : Exec) (fs : List F) : Res E :=
  match ex with
  | .serial => (List.range fs.length).foldlM (fun sum i => do
      let f ← rd fs i
      let e ← err f
      return sum + e) 0
  | .omp _ assign _ comb => do
    let parts ← assign.mapM (fun is => is.foldlM (fun sum i => do
      let f ← rd fs i
      let e ← err f
      return sum + e) (0 : E))
    comb.foldlM (fun sum t => do
      let p ← rd parts t
      return sum + p) 0
  | .tbb _ order => do
    let st ← order.foldlM (tbbAct (fun _ f => do
      let e ← err f
      return (f, some e))) ⟨fs, fun _ => ⟨0, 0, none⟩⟩
    return (st.bodies []).acc

/-- A complete execution of a loop over `n` factors with at least one thread. -/
def Exec.Complete (n : Nat) : Exec → Prop
  | .serial => True
  | .omp threads assign sched comb => 0 < threads ∧ assign.length ≤ threads ∧ assign.flatten.Perm (List.range n) ∧
      (∃ order, parOrder sched (assign.mapIdx ompThread) = some order) ∧ comb.Perm (List.range assign.length)
  | .tbb tree order => Covers tree 0 n ∧ Trace tree [] [] order

/-! ### Registration::align -/

/-- Everything `Registration::align` uses besides the clouds (registration.hpp:48-53, optimizer.hpp). -/
structure Config (K : Type) where
  rejector : Rejector K
  general : General K
  solve : Matrix (Fin 6) (Fin 6) K → (Fin 6 → K) → (Fin 6 → K)
  exp : (Fin 6 → K) → Pose K
  converged : (Fin 6 → K) → Bool

/-- The optimisation problem of a `Registration`. `execL` and `execE` say how each call of the reduction happens to be executed. -/
def problem {F : Type} (mf : MemFactor F K) (w : World K) (cfg : Config K) (execL execE : Pose K → List F → Exec) : Problem F K :=
  ⟨fun T fs => reduceLinearize (mf.linearize w cfg.rejector T) (execL T fs) fs, fun T fs => reduceError (mf.error w T) (execE T fs) fs,
   cfg.general, cfg.solve, cfg.exp, cfg.converged, mf.inlier⟩

/-- Which optimiser (optimizer.hpp:12-156) with which settings. -/
inductive Method (K : Type) where
  | lm (st : LMSetting K)
  | gn (lambda : K) (maxIterations : Int)

/-- `Optimizer::optimize` on a fresh vector of factors, one per source point (registration.hpp:41-42). -/
def Method.run {F : Type} (meth : Method K) (P : Problem F K) (T0 : Pose K) (fs : List F) : Res (Result K × List F × List (Iteration F K)) :=
  match meth with
  | .lm st => levenbergMarquardt P st T0 fs
  | .gn lambda m => gaussNewton P lambda m T0 fs

/-- `Registration::align` (registration.hpp:33-43). -/
def align {F : Type} (mf : MemFactor F K) (w : World K) (cfg : Config K) (execL execE : Pose K → List F → Exec) (meth : Method K) (T0 : Pose K)
    (sourceSize : Nat) : Res (Result K × List F × List (Iteration F K)) :=
  meth.run (problem mf w cfg execL execE) T0 (List.replicate sourceSize mf.init)

/-! ### containers -/

/-- `Eigen::Vector4d` in the two forms used by the models. -/
def toPt (v : Fin 4 → K) : Pt K := ⟨v 0, v 1, v 2, v 3⟩
def ofPt (p : Pt K) : Fin 4 → K := ![p.x, p.y, p.z, p.w]

abbrev PCloud (K : Type) := Cloud (Fin 4 → K) (Matrix (Fin 4) (Fin 4) K)

/-- The points a kd-tree on a cloud refers to (kdtree.hpp:146, 236). The tree reads single points when it needs them; here all of them
are read at once, so that a single unset point already makes the construction fail. -/
def cloudPoints (c : PCloud K) : Res (List (Pt K)) := (List.range c.size).mapM (fun i => do
  let p ← c.point i
  return toPt p)

/-- `traits::nearest_neighbor_search` on a kd-tree (kdtree.hpp:161-163, 261-263, 285-287, 296-298) with the local variables `k_index` and
`k_sq_dist` of the factors, which hold arbitrary values `junk` before the call. -/
def kdNearest (maxD : K) (points : List (Pt K)) (t : KdTree.Tree K) (fuel : Nat) (junk : Nat × K) (q : Fin 4 → K) : Res (Option (Nat × K)) := do
  let r ← KdTree.nearestNeighborSearch (exactOps K) maxD points t fuel [junk.1] [junk.2] (toPt q) 0
  return r.found.head?

/-- Target and source are point clouds, the target tree is a kd-tree. -/
def cloudWorld (target source : PCloud K) (nn : (Fin 4 → K) → Res (Option (Nat × K))) : World K :=
  ⟨source.point, source.cov, target.point, target.normal, target.cov, nn⟩

/-- `Traits<IncrementalVoxelMap>::cov` with `Traits<GaussianVoxel>::cov` (incremental_voxelmap.hpp:222-227, gaussian_voxelmap.hpp:71). -/
def voxelCov (m : Voxel.VoxelMap K (Voxel.GaussianVoxel K)) (i : Nat) : Res (Matrix (Fin 4) (Fin 4) K) := do
  let (_, v) ← rd m.flat (Voxel.voxelId i)
  return v.cov

/-- Target cloud and target tree are the same `GaussianVoxelMap`, as in the voxelised GICP of registration_helper.cpp:125-137 and of the
Python and PCL interfaces. Its traits have no usable `normal` (`Traits<GaussianVoxel>` declares none), so plane factors do not compile. -/
def voxelWorld [FloorRing K] (maxD : K) (m : Voxel.VoxelMap K (Voxel.GaussianVoxel K)) (source : PCloud K) (junk : Nat × K) : World K where
  srcPoint := source.point
  srcCov := source.cov
  tgtPoint := fun i => do
    let p ← Voxel.pointAt Voxel.gaussianContents m i
    return ofPt p
  tgtNormal := fun _ => .error .exception
  tgtCov := voxelCov m
  nn := fun q => do
    let r ← Voxel.search Voxel.gaussianContents maxD m (toPt q) 1 (-1) [junk.1] [junk.2]
    return r.found.head?

end Verif.RegMem
