import Verif.Model.PointCloud
import Verif.Model.Factors
import Verif.Model.Parallel
import Mathlib.Analysis.Real.Sqrt

/-!
Model of `include/small_gicp/util/normal_estimation.hpp` and its OpenMP and TBB versions, over the real numbers.

`eig` is `Eigen::SelfAdjointEigenSolver<Matrix3d>::computeDirect(..).eigenvectors()`. `knn pts q k` is `knn_search` of the tree for a
query `q`: the first `n` entries of `k_indices`, where `n` is the returned count. The tree holds a reference to the cloud
(kdtree.hpp), so the result may depend on the current points `pts` of the cloud.
-/

namespace Verif.Features

open Matrix Verif Verif.PointCloud Verif.Factors

abbrev V4 := Fin 4 → ℝ
abbrev M4 := Matrix (Fin 4) (Fin 4) ℝ
abbrev M3 := Matrix (Fin 3) (Fin 3) ℝ
abbrev RCloud := Cloud V4 M4
abbrev Search := List (Option V4) → V4 → Nat → Res (List Nat)

/-- `v.normalized()` of Eigen: a vector whose squared norm is not positive is returned unchanged. -/
noncomputable def normalized (v : Fin 3 → ℝ) : Fin 3 → ℝ := if 0 < v ⬝ᵥ v then fun i => v i / Real.sqrt (v ⬝ᵥ v) else v

/-- Which attributes a setter writes. -/
structure Setter where
  normals : Bool
  covs : Bool
  deriving DecidableEq, Repr

/-- `NormalSetter` (normal_estimation.hpp:13-26). -/
def normalSetter : Setter := ⟨true, false⟩
/-- `CovarianceSetter` (normal_estimation.hpp:31-46). -/
def covarianceSetter : Setter := ⟨false, true⟩
/-- `NormalCovarianceSetter` (normal_estimation.hpp:51-63): first the normal, then the covariance. -/
def normalCovarianceSetter : Setter := ⟨true, true⟩

/-- The normal written by `NormalSetter::set` for a point `p` (normal_estimation.hpp:19-24). -/
noncomputable def normalOf (p : V4) (eigenvectors : M3) : V4 :=
  let n := normalized (fun i => eigenvectors i 0)
  let normal : V4 := ![n 0, n 1, n 2, 0]
  if p ⬝ᵥ normal > 0 then -normal else normal

/-- The covariance written by `CovarianceSetter::set` (normal_estimation.hpp:41-43). -/
noncomputable def covOf (eigenvectors : M3) : M4 :=
  setBlock33 0 (eigenvectors * diagonal ![1 / 1000, 1, 1] * eigenvectorsᵀ)

/-- The covariance written by `CovarianceSetter::set_invalid` (normal_estimation.hpp:34-35). -/
def invalidCov : M4 := fun i j => if i = 3 ∧ j = 3 then 0 else (1 : M4) i j

/-- The search and the eigen-decomposition (normal_estimation.hpp:67-89): `none` when fewer than 5 neighbours are found, otherwise
the eigenvectors. A negative `num_neighbors` makes the `std::vector` constructor throw; `num_neighbors = 0` gives two empty arrays. -/
noncomputable def localFrame (eig : M3 → M3) (knn : Search) (numNeighbors : Int) (cloud : RCloud) (i : Nat) : Res (Option M3) :=
  if numNeighbors < 0 then .error .exception
  else do
    let p ← cloud.point i
    let kIndices ← knn cloud.points p numNeighbors.toNat
    if kIndices.length < 5 then .ok none
    else do
      let (sumPoints, sumCross) ← kIndices.foldlM (fun (acc : V4 × M4) j => do
        let pt ← cloud.point j
        .ok (acc.1 + pt, acc.2 + vecMulVec pt pt)) (0, 0)
      let n : ℝ := kIndices.length
      let mean : V4 := n⁻¹ • sumPoints
      let cov : M4 := n⁻¹ • (sumCross - vecMulVec mean sumPoints)
      .ok (some (eig (block33 cov)))

/-- `NormalSetter::set` or `set_invalid` (normal_estimation.hpp:15-25). -/
noncomputable def writeNormal (cloud : RCloud) (i : Nat) : Option M3 → Res RCloud
  | none => cloud.setNormal i 0
  | some V => do
    let p ← cloud.point i
    cloud.setNormal i (normalOf p V)

/-- `CovarianceSetter::set` or `set_invalid` (normal_estimation.hpp:33-45). -/
noncomputable def writeCov (cloud : RCloud) (i : Nat) : Option M3 → Res RCloud
  | none => cloud.setCov i invalidCov
  | some V => cloud.setCov i (covOf V)

/-- `Setter::set_invalid` / `Setter::set`. -/
noncomputable def Setter.write (S : Setter) (cloud : RCloud) (i : Nat) (f : Option M3) : Res RCloud := do
  let c1 ← if S.normals then writeNormal cloud i f else .ok cloud
  if S.covs then writeCov c1 i f else .ok c1

/-- `estimate_local_features` for one point (normal_estimation.hpp:66-92). -/
noncomputable def estimateOne (S : Setter) (eig : M3 → M3) (knn : Search) (numNeighbors : Int) (cloud : RCloud) (i : Nat) : Res RCloud := do
  let f ← localFrame eig knn numNeighbors cloud i
  S.write cloud i f

/-- `estimate_local_features` (normal_estimation.hpp:95-110); `mkTree` is the construction of the tree of the second overload, and a
constant function for the first one. The loop bound is `size(cloud)`, which the loop body does not change. -/
noncomputable def estimate (S : Setter) (eig : M3 → M3) (mkTree : RCloud → Res Search) (numNeighbors : Int) (cloud : RCloud) : Res RCloud := do
  let cloud := cloud.resize cloud.size
  let knn ← mkTree cloud
  (List.range cloud.size).foldlM (estimateOne S eig knn numNeighbors) cloud

/-- The memory accesses of one iteration of a parallel loop: everything up to the eigenvectors only reads points and writes private
memory; then come the writes of the attributes. -/
inductive Act where
  | frame (i : Nat)
  | normal (i : Nat)
  | cov (i : Nat)
  deriving DecidableEq, Repr

/-- The actions of iteration `i`. -/
def Setter.acts (S : Setter) (i : Nat) : List Act :=
  .frame i :: ((if S.normals then [.normal i] else []) ++ (if S.covs then [.cov i] else []))

/-- One action; `locals i` is the private memory of iteration `i`. -/
noncomputable def actStep (eig : M3 → M3) (knn : Search) (numNeighbors : Int) (s : RCloud × (Nat → Option (Option M3))) : Act → Res (RCloud × (Nat → Option (Option M3)))
  | .frame i => do
    let f ← localFrame eig knn numNeighbors s.1 i
    .ok (s.1, Function.update s.2 i (some f))
  | .normal i => do
    match s.2 i with
    | none => .error .uninit
    | some f => do
      let c ← writeNormal s.1 i f
      .ok (c, s.2)
  | .cov i => do
    match s.2 i with
    | none => .error .uninit
    | some f => do
      let c ← writeCov s.1 i f
      .ok (c, s.2)

/-- `estimate_local_features_omp` and `estimate_local_features_tbb` (normal_estimation_omp.hpp:10-26, normal_estimation_tbb.hpp:10-30):
the iterations are divided into `chunks` (of consecutive indices for the schedules in use; any division is allowed here), each
run in order by one thread; `sched` interleaves the actions. `none` if `sched` is not a complete execution. -/
noncomputable def estimatePar (S : Setter) (eig : M3 → M3) (mkTree : RCloud → Res Search) (numNeighbors : Int) (cloud : RCloud)
    (chunks : List (List Nat)) (sched : List Nat) : Option (Res RCloud) :=
  (parOrder sched (chunks.map (fun c => c.flatMap S.acts))).map (fun order => do
    let cloud := cloud.resize cloud.size
    let knn ← mkTree cloud
    let s ← order.foldlM (actStep eig knn numNeighbors) (cloud, fun _ => none)
    .ok s.1)

end Verif.Features
