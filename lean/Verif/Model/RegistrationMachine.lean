import Verif.Model.RegistrationMemory

/-!
Optimisers and registration in machine arithmetic. `Model/Optimizer.lean` and `Model/RegistrationMemory.lean` describe the same code with exact arithmetic; here a `double` is an element
of a type `V` of which nothing is known but the names of the operations: no law of arithmetic, no law of order. So the theorems hold for IEEE numbers with rounding, overflow, infinities and NaN.
`Props/RegistrationMachine.lean` shows that exact arithmetic gives the earlier models back.
-/

namespace Verif.Machine

open Verif Verif.Factors Verif.Reduction Verif.PointCloud Verif.Knn Verif.RegMem

/-! ### optimisers -/

/-- What `optimize` calls. `P` is the type of poses, `H` and `B` those of the matrix and the vector of a linear system, `D` that of steps. `delta lambda H b` is `(H + lambda * Identity).ldlt().solve(-b)` (optimizer.hpp:46,
109), `step T delta` is `T * se3_exp(delta)` (optimizer.hpp:53, 112), `converged` is `TerminationCriteria::converged`, the other members are those of the reduction, the general factor and the
factors. -/
structure Problem (F V P H B D : Type) where
  linearize : P → List F → Res (List F × (H × B × V))
  error : P → List F → Res V
  updateLinearized : P → H × B × V → H × B × V
  updateError : P → V → V
  delta : V → H → B → D
  step : P → D → P
  converged : D → Bool
  inlier : F → Bool

/-- `RegistrationResult` (registration_result.hpp:11-30). -/
structure Result (V P H B : Type) where
  T : P
  converged : Bool
  iterations : Nat
  numInliers : Nat
  H : H
  b : B
  error : V

/-- Ghost record of one outer iteration: pose and factors it linearised at, the system after the general factor, the number of error evaluations, the applied step (if any), pose and error
afterwards. -/
structure Iteration (F V P H B D : Type) where
  T0 : P
  factors : List F
  H : H
  b : B
  e0 : V
  evals : Nat
  step : Option D
  T1 : P
  e1 : V

variable {F V P H B D : Type} [Zero V] [Add V] [Mul V] [Div V] [LE V] [DecidableLE V] [Zero H] [Add H] [Zero B] [Add B]

/-- `RegistrationResult(T)` (registration_result.hpp:12-19). -/
def Result.init (T : P) : Result V P H B := ⟨T, false, 0, 0, 0, 0, 0⟩

/-- The loop of `GaussNewtonOptimizer::optimize` (optimizer.hpp:40-58). `fuel` is the number of iterations left until `i < max_iterations` fails. -/
def gnLoop (p : Problem F V P H B D) (lambda : V) : (fuel i : Nat) → Result V P H B → List F → Res (Result V P H B × List F × List (Iteration F V P H B D))
  | 0, _, r, fs => .ok (r, fs, [])
  | fuel + 1, i, r, fs =>
    if r.converged then .ok (r, fs, [])
    else do
      let (fs1, s) ← p.linearize r.T fs
      let (A, b, e) := p.updateLinearized r.T s
      let d := p.delta lambda A b
      let T1 := p.step r.T d
      let r1 : Result V P H B := { r with converged := p.converged d, T := T1, iterations := i, H := A, b := b, error := e }
      let (r2, fs2, log) ← gnLoop p lambda fuel (i + 1) r1 fs1
      .ok (r2, fs2, ⟨r.T, fs1, A, b, e, 0, some d, T1, e⟩ :: log)

/-- `num_inliers` (optimizer.hpp:60, 146). -/
def countInliers (p : Problem F V P H B D) (r : Result V P H B) (fs : List F) : Result V P H B := { r with numInliers := fs.countP p.inlier }

/-- `GaussNewtonOptimizer::optimize` (optimizer.hpp:24-63). -/
def gaussNewton (p : Problem F V P H B D) (lambda : V) (maxIterations : Int) (T0 : P) (fs : List F) : Res (Result V P H B × List F × List (Iteration F V P H B D)) := do
  let (r, fs', log) ← gnLoop p lambda maxIterations.toNat 0 (Result.init T0) fs
  .ok (countInliers p r fs', fs', log)

/-- Result of the lambda loop. -/
structure Inner (V P D : Type) where
  lambda : V
  e : V
  evals : Nat
  accepted : Option (D × P)

/-- The lambda loop of `LevenbergMarquardtOptimizer::optimize` (optimizer.hpp:107-134). The reference error `e` is handed to `update_error`, as in the code. -/
def lmInner (p : Problem F V P H B D) (factor : V) (T : P) (fs : List F) (A : H) (b : B) : (fuel : Nat) → (lambda e : V) → Res (Inner V P D)
  | 0, lambda, e => .ok ⟨lambda, e, 0, none⟩
  | fuel + 1, lambda, e => do
    let d := p.delta lambda A b
    let newT := p.step T d
    let newE ← p.error newT fs
    let e' := p.updateError newT e
    if newE ≤ e' then .ok ⟨lambda / factor, newE, 1, some (d, newT)⟩
    else do
      let r ← lmInner p factor T fs A b fuel (lambda * factor) e'
      .ok { r with evals := r.evals + 1 }

/-- The outer loop (optimizer.hpp:100-144). -/
def lmLoop (p : Problem F V P H B D) (factor : V) (maxInner : Nat) : (fuel i : Nat) → (lambda : V) → Result V P H B → List F → Res (Result V P H B × List F × List (Iteration F V P H B D))
  | 0, _, _, r, fs => .ok (r, fs, [])
  | fuel + 1, i, lambda, r, fs =>
    if r.converged then .ok (r, fs, [])
    else do
      let (fs1, s) ← p.linearize r.T fs
      let (A, b, e) := p.updateLinearized r.T s
      let inner ← lmInner p factor r.T fs1 A b maxInner lambda e
      match inner.accepted with
      | none =>
        let r1 : Result V P H B := { r with iterations := i, H := A, b := b, error := inner.e }
        .ok (r1, fs1, [⟨r.T, fs1, A, b, e, inner.evals, none, r.T, inner.e⟩])
      | some (d, newT) =>
        let r1 : Result V P H B := { r with converged := p.converged d, T := newT, iterations := i, H := A, b := b, error := inner.e }
        let (r2, fs2, log) ← lmLoop p factor maxInner fuel (i + 1) inner.lambda r1 fs1
        .ok (r2, fs2, ⟨r.T, fs1, A, b, e, inner.evals, some d, newT, inner.e⟩ :: log)

/-- Settings of `LevenbergMarquardtOptimizer` (optimizer.hpp:72, 151-155). -/
structure LMSetting (V : Type) where
  maxIterations : Int
  maxInner : Int
  initLambda : V
  lambdaFactor : V

/-- `LevenbergMarquardtOptimizer::optimize` (optimizer.hpp:83-149). -/
def levenbergMarquardt (p : Problem F V P H B D) (st : LMSetting V) (T0 : P) (fs : List F) : Res (Result V P H B × List F × List (Iteration F V P H B D)) := do
  let (r, fs', log) ← lmLoop p st.lambdaFactor st.maxInner.toNat st.maxIterations.toNat 0 st.initLambda (Result.init T0) fs
  .ok (countInliers p r fs', fs', log)

/-! ### factors -/

/-- The expressions of the factors as the machine evaluates them; the order of additions, fused operations and vector instructions are left open. `M` is the type of covariances and of the
Mahalanobis matrix. -/
structure Eval (V P H B M : Type) where
  /-- coordinate differences, distances and projections of the kd-tree -/
  ops : Ops V
  /-- `0.5 * x` -/
  half : V → V
  /-- `T * p` -/
  apply : P → (Fin 4 → V) → (Fin 4 → V)
  /-- `r.squaredNorm()` (icp_factor.hpp:51, plane_icp_factor.hpp:55) -/
  sqNorm : (Fin 4 → V) → V
  /-- `0.5 * r.transpose() * m * r` (gicp_factor.hpp:70) -/
  quad : (Fin 4 → V) → M → V
  /-- `H` and `b` of the three factors: icp_factor.hpp:45-50, plane_icp_factor.hpp:49-54, gicp_factor.hpp:64-69 -/
  icpSystem : P → (p r : Fin 4 → V) → H × B
  planeSystem : P → (normal p err : Fin 4 → V) → H × B
  gicpSystem : P → M → (p r : Fin 4 → V) → H × B
  /-- the update of `mahalanobis` from the covariances of target and source point (gicp_factor.hpp:59-60) -/
  mahalanobis : M → (ct cs : M) → P → M
  /-- `Matrix4d::Zero()` -/
  zeroM : M
  /-- weighting of `H` and `b` by a robust kernel (robust_kernel.hpp:86-87) -/
  scale : V → H × B → H × B

/-- What a factor calls (as `RegMem.World`). -/
structure World (V M : Type) where
  srcPoint : Nat → Res (Fin 4 → V)
  srcCov : Nat → Res M
  tgtPoint : Nat → Res (Fin 4 → V)
  tgtNormal : Nat → Res (Fin 4 → V)
  tgtCov : Nat → Res M
  nn : (Fin 4 → V) → Res (Option (Nat × V))

/-- A correspondence rejector: pose, target index, source index, squared distance. -/
abbrev Rejector (V P : Type) := P → Nat → Nat → V → Bool

/-- `DistanceRejector` (rejector.hpp:19-28). -/
def distanceRejector [LT V] [DecidableLT V] (maxDistSq : V) : Rejector V P := fun _ _ _ d => decide (maxDistSq < d)

/-- `NullRejector` (rejector.hpp:11-16). -/
def nullRejector : Rejector V P := fun _ _ _ _ => false

section Factors

variable {M : Type} [Sub V] (E : Eval V P H B M)

/-- Search and rejection (icp_factor.hpp:34-40, plane_icp_factor.hpp:34-40, gicp_factor.hpp:49-55): the transformed source point and the target index, if the correspondence is accepted. -/
def search (w : World V M) (rej : Rejector V P) (T : P) (i : Nat) : Res ((Fin 4 → V) × Option Nat) := do
  let p ← w.srcPoint i
  match ← w.nn (E.apply T p) with
  | none => .ok (E.apply T p, none)
  | some (k, d) => if rej T k i d then .ok (E.apply T p, none) else .ok (E.apply T p, some k)

/-- `ICPFactor::linearize` (icp_factor.hpp:20-54). -/
def icpLinearize (w : World V M) (rej : Rejector V P) (T : P) (i : Nat) (_f : ICP) : Res (ICP × Option (H × B × V)) := do
  match ← search E w rej T i with
  | (_, none) => .ok (⟨npos, i⟩, none)
  | (q, some k) => do
    let tp ← w.tgtPoint k
    let residual := tp - q
    let p ← w.srcPoint i
    .ok (⟨k, i⟩, some ((E.icpSystem T p residual).1, (E.icpSystem T p residual).2, E.half (E.sqNorm residual)))

/-- `ICPFactor::error` (icp_factor.hpp:57-64). -/
def icpError (w : World V M) (T : P) (f : ICP) : Res V :=
  if f.target = npos then .ok 0
  else do
    let tp ← w.tgtPoint f.target
    let p ← w.srcPoint f.source
    .ok (E.half (E.sqNorm (tp - E.apply T p)))

/-- `PointToPlaneICPFactor::linearize` (plane_icp_factor.hpp:20-58). -/
def planeLinearize (w : World V M) (rej : Rejector V P) (T : P) (i : Nat) (_f : PlaneICP) : Res (PlaneICP × Option (H × B × V)) := do
  match ← search E w rej T i with
  | (_, none) => .ok (⟨npos, i⟩, none)
  | (q, some k) => do
    let normal ← w.tgtNormal k
    let tp ← w.tgtPoint k
    let residual := tp - q
    let err := normal * residual
    let p ← w.srcPoint i
    .ok (⟨k, i⟩, some ((E.planeSystem T normal p err).1, (E.planeSystem T normal p err).2, E.half (E.sqNorm err)))

/-- `PointToPlaneICPFactor::error` (plane_icp_factor.hpp:60-70). -/
def planeError (w : World V M) (T : P) (f : PlaneICP) : Res V :=
  if f.target = npos then .ok 0
  else do
    let p ← w.srcPoint f.source
    let tp ← w.tgtPoint f.target
    let residual := tp - E.apply T p
    let normal ← w.tgtNormal f.target
    .ok (E.half (E.sqNorm (normal * residual)))

/-- `GICPFactor` (gicp_factor.hpp:14-97). -/
structure GICP (M : Type) where
  target : Nat
  source : Nat
  mahalanobis : M

/-- `GICPFactor::linearize` (gicp_factor.hpp:35-73). -/
def gicpLinearize (w : World V M) (rej : Rejector V P) (T : P) (i : Nat) (f : GICP M) : Res (GICP M × Option (H × B × V)) := do
  match ← search E w rej T i with
  | (_, none) => .ok (⟨npos, i, f.mahalanobis⟩, none)
  | (q, some k) => do
    let ct ← w.tgtCov k
    let cs ← w.srcCov i
    let m := E.mahalanobis f.mahalanobis ct cs T
    let tp ← w.tgtPoint k
    let residual := tp - q
    let p ← w.srcPoint i
    .ok (⟨k, i, m⟩, some ((E.gicpSystem T m p residual).1, (E.gicpSystem T m p residual).2, E.quad residual m))

/-- `GICPFactor::error` (gicp_factor.hpp:81-89). -/
def gicpError (w : World V M) (T : P) (f : GICP M) : Res V :=
  if f.target = npos then .ok 0
  else do
    let p ← w.srcPoint f.source
    let tp ← w.tgtPoint f.target
    .ok (E.quad (tp - E.apply T p) f.mahalanobis)

/-- A factor type as the reductions and optimisers see it (as `RegMem.MemFactor`). -/
structure Factor (F V P H B M : Type) where
  init : F
  linearize : World V M → Rejector V P → P → Nat → F → Res (F × Option (H × B × V))
  error : World V M → P → F → Res V
  inlier : F → Bool
  target : F → Nat
  source : F → Nat

def icpFactor : Factor ICP V P H B M := ⟨ICP.init, icpLinearize E, icpError E, ICP.inlier, ICP.target, ICP.source⟩

def planeFactor : Factor PlaneICP V P H B M := ⟨ICP.init, planeLinearize E, planeError E, ICP.inlier, ICP.target, ICP.source⟩

/-- Constructor and `inlier` of `GICPFactor`: gicp_factor.hpp:18-21, 92. -/
def gicpFactor : Factor (GICP M) V P H B M :=
  ⟨⟨npos, npos, E.zeroM⟩, gicpLinearize E, gicpError E, fun f => decide (f.target ≠ npos), GICP.target, GICP.source⟩

/-- `RobustFactor` (robust_kernel.hpp:57-107); `wt` is the weight function of the kernel, `sqrt` is `std::sqrt`. -/
def robust (wt sqrt : V → V) (mf : Factor F V P H B M) : Factor F V P H B M where
  init := mf.init
  linearize := fun w rej T i f => do
    match ← mf.linearize w rej T i f with
    | (f', none) => .ok (f', none)
    | (f', some (A, b, e)) => .ok (f', some ((E.scale (wt (sqrt e)) (A, b)).1, (E.scale (wt (sqrt e)) (A, b)).2, e * wt (sqrt e)))
  error := fun w T f => do
    let e ← mf.error w T f
    .ok (wt (sqrt e) * e)
  inlier := mf.inlier
  target := mf.target
  source := mf.source

/-! ### Registration::align -/

/-- Everything `Registration::align` uses besides the clouds (registration.hpp:48-53, optimizer.hpp). -/
structure Config (V P H B D : Type) where
  rejector : Rejector V P
  updateLinearized : P → H × B × V → H × B × V
  updateError : P → V → V
  delta : V → H → B → D
  step : P → D → P
  converged : D → Bool

/-- The optimisation problem of a `Registration`. The reductions are those of `Model/RegistrationMemory.lean`, which only use `+` and zero; `execL` and `execE` say how each call of the reduction
happens to be executed. -/
def problem (mf : Factor F V P H B M) (w : World V M) (cfg : Config V P H B D) (execL execE : P → List F → Exec) : Problem F V P H B D :=
  ⟨fun T fs => reduceLinearize (mf.linearize w cfg.rejector T) (execL T fs) fs, fun T fs => reduceError (mf.error w T) (execE T fs) fs,
   cfg.updateLinearized, cfg.updateError, cfg.delta, cfg.step, cfg.converged, mf.inlier⟩

/-- Which optimiser (optimizer.hpp:12-156) with which settings. -/
inductive Method (V : Type) where
  | lm (st : LMSetting V)
  | gn (lambda : V) (maxIterations : Int)

def Method.run (meth : Method V) (p : Problem F V P H B D) (T0 : P) (fs : List F) : Res (Result V P H B × List F × List (Iteration F V P H B D)) :=
  match meth with
  | .lm st => levenbergMarquardt p st T0 fs
  | .gn lambda m => gaussNewton p lambda m T0 fs

/-- `Registration::align` (registration.hpp:33-43). -/
def align (mf : Factor F V P H B M) (w : World V M) (cfg : Config V P H B D) (execL execE : P → List F → Exec) (meth : Method V) (T0 : P) (sourceSize : Nat) :
    Res (Result V P H B × List F × List (Iteration F V P H B D)) :=
  meth.run (problem mf w cfg execL execE) T0 (List.replicate sourceSize mf.init)

/-! ### containers -/

/-- `Eigen::Vector4d` in the two forms used by the models. -/
def toPt (v : Fin 4 → V) : Pt V := ⟨v 0, v 1, v 2, v 3⟩

/-- The points a kd-tree on a cloud refers to (as `RegMem.cloudPoints`). -/
def cloudPoints (c : Cloud (Fin 4 → V) M) : Res (List (Pt V)) := (List.range c.size).mapM (fun i => do
  let p ← c.point i
  return toPt p)

/-- `traits::nearest_neighbor_search` on a kd-tree (kdtree.hpp:161-163, 261-263, 285-287, 296-298) with the local variables `k_index` and `k_sq_dist` of the factors, which hold arbitrary values
`junk` before the call. `maxD` is `std::numeric_limits<double>::max()`. -/
def kdNearest [LT V] [DecidableLT V] (maxD : V) (points : List (Pt V)) (t : KdTree.Tree V) (fuel : Nat) (junk : Nat × V) (q : Fin 4 → V) : Res (Option (Nat × V)) := do
  let r ← KdTree.nearestNeighborSearch E.ops maxD points t fuel [junk.1] [junk.2] (toPt q) 0
  return r.found.head?

/-- Target and source are point clouds, the target tree is a kd-tree. -/
def cloudWorld (target source : Cloud (Fin 4 → V) M) (nn : (Fin 4 → V) → Res (Option (Nat × V))) : World V M :=
  ⟨source.point, source.cov, target.point, target.normal, target.cov, nn⟩

end Factors

end Verif.Machine
