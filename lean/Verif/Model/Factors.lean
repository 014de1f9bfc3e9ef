import Mathlib.Data.Matrix.Mul
import Mathlib.LinearAlgebra.Matrix.Notation
import Mathlib.Algebra.Order.Field.Basic
import Mathlib.Algebra.Order.Group.Abs

/-!
Model of `include/small_gicp/factors/` (per-point factors, robust kernels, general factors), `registration/rejector.hpp` and the
parts of Eigen they use. Arithmetic is exact: `K` is an ordered field. 4-vectors and 4x4 matrices are kept as in the code.
-/

namespace Verif.Factors

open Matrix

variable {K : Type} [Field K] [LinearOrder K]

/-- `std::numeric_limits<size_t>::max()`, the marker of a missing correspondence (icp_factor.hpp:17, 32). -/
def npos : Nat := 2 ^ 64 - 1

/-- `v.head<3>()`. -/
def head3 (v : Fin 4 → K) : Fin 3 → K := ![v 0, v 1, v 2]

/-- `Eigen::Isometry3d`: a 4x4 matrix whose last row is `0 0 0 1`; `R` is `linear()`, `t` is `translation()`. -/
structure Pose (K : Type) where
  R : Matrix (Fin 3) (Fin 3) K
  t : Fin 3 → K

/-- `Isometry3d::Identity()`. -/
def Pose.one : Pose K := ⟨1, 0⟩

/-- Product of two isometries. -/
def Pose.mul (A B : Pose K) : Pose K := ⟨A.R * B.R, A.R *ᵥ B.t + A.t⟩

/-- `T.matrix()`. -/
def Pose.matrix (T : Pose K) : Matrix (Fin 4) (Fin 4) K :=
  !![T.R 0 0, T.R 0 1, T.R 0 2, T.t 0;
     T.R 1 0, T.R 1 1, T.R 1 2, T.t 1;
     T.R 2 0, T.R 2 1, T.R 2 2, T.t 2;
     0, 0, 0, 1]

/-- `T * p` for a 4-vector. -/
def Pose.apply (T : Pose K) (p : Fin 4 → K) : Fin 4 → K := T.matrix *ᵥ p

/-- `skew` (lie.hpp:13-23). -/
def skew (x : Fin 3 → K) : Matrix (Fin 3) (Fin 3) K :=
  !![0, -x 2, x 1;
     x 2, 0, -x 0;
     -x 1, x 0, 0]

/-- `J.block<3, 3>(0, 0) = A; J.block<3, 3>(0, 3) = B` on a zero 4x6 matrix. -/
def blocks (A B : Matrix (Fin 3) (Fin 3) K) : Matrix (Fin 4) (Fin 6) K := fun i j =>
  if hi : i.val < 3 then
    if hj : j.val < 3 then A ⟨i.val, hi⟩ ⟨j.val, hj⟩
    else B ⟨i.val, hi⟩ ⟨j.val - 3, by omega⟩
  else 0

/-- `M.block<3, 3>(0, 0)` of a 4x4 matrix. -/
def block33 (M : Matrix (Fin 4) (Fin 4) K) : Matrix (Fin 3) (Fin 3) K := fun i j => M i.castSucc j.castSucc

/-- `M.block<3, 3>(0, 0) = A`. -/
def setBlock33 (M : Matrix (Fin 4) (Fin 4) K) (A : Matrix (Fin 3) (Fin 3) K) : Matrix (Fin 4) (Fin 4) K := fun i j =>
  if h : i.val < 3 ∧ j.val < 3 then A ⟨i.val, h.1⟩ ⟨j.val, h.2⟩ else M i j

/-- A linearised system `(H, b, e)`. -/
abbrev Sys (K : Type) := Matrix (Fin 6) (Fin 6) K × (Fin 6 → K) × K

/-- What a factor sees: the clouds through `traits::point`, `traits::normal`, `traits::cov`, and `traits::nearest_neighbor_search`
on the target (`none` when nothing is found). Accesses are total here: the source index is below the number of factors, which is
the size of the source cloud (registration.hpp:41), and the target index comes from the search. -/
structure Scene (K : Type) where
  srcPoint : Nat → Fin 4 → K
  tgtPoint : Nat → Fin 4 → K
  tgtNormal : Nat → Fin 4 → K
  srcCov : Nat → Matrix (Fin 4) (Fin 4) K
  tgtCov : Nat → Matrix (Fin 4) (Fin 4) K
  nn : (Fin 4 → K) → Option (Nat × K)

/-- A correspondence rejector: pose, target index, source index, squared distance. -/
abbrev Rejector (K : Type) := Pose K → Nat → Nat → K → Bool

/-- `NullRejector` (rejector.hpp:11-16). -/
def nullRejector : Rejector K := fun _ _ _ _ => false

/-- `DistanceRejector` (rejector.hpp:19-28). -/
def distanceRejector (maxDistSq : K) : Rejector K := fun _ _ _ d => decide (d > maxDistSq)

/-- The search and rejection common to all factors (icp_factor.hpp:34-40, plane_icp_factor.hpp:34-40, gicp_factor.hpp:49-55): the
target index of the correspondence of source point `i`. -/
def correspondence (sc : Scene K) (rej : Rejector K) (T : Pose K) (i : Nat) : Option Nat :=
  match sc.nn (T.apply (sc.srcPoint i)) with
  | none => none
  | some (k, d) => if rej T k i d then none else some k

/-! ### point-to-point -/

/-- `ICPFactor` (icp_factor.hpp:14-70). -/
structure ICP where
  target : Nat
  source : Nat
  deriving DecidableEq, Repr

/-- Constructor (icp_factor.hpp:17). -/
def ICP.init : ICP := ⟨npos, npos⟩

/-- `ICPFactor::linearize` (icp_factor.hpp:20-54). -/
def ICP.linearize (sc : Scene K) (rej : Rejector K) (T : Pose K) (i : Nat) (_f : ICP) : ICP × Option (Sys K) :=
  match correspondence sc rej T i with
  | none => (⟨npos, i⟩, none)
  | some k =>
    let residual := sc.tgtPoint k - T.apply (sc.srcPoint i)
    let J := blocks (T.R * skew (head3 (sc.srcPoint i))) (-T.R)
    (⟨k, i⟩, some (Jᵀ * J, Jᵀ *ᵥ residual, 1 / 2 * (residual ⬝ᵥ residual)))

/-- `ICPFactor::error` (icp_factor.hpp:57-64). -/
def ICP.error (sc : Scene K) (T : Pose K) (f : ICP) : K :=
  if f.target = npos then 0
  else
    let residual := sc.tgtPoint f.target - T.apply (sc.srcPoint f.source)
    1 / 2 * (residual ⬝ᵥ residual)

/-- `ICPFactor::inlier` (icp_factor.hpp:66). -/
def ICP.inlier (f : ICP) : Bool := decide (f.target ≠ npos)

/-! ### point-to-plane -/

/-- `PointToPlaneICPFactor` (plane_icp_factor.hpp:14-75); same members as `ICPFactor`. -/
abbrev PlaneICP := ICP

/-- `PointToPlaneICPFactor::linearize` (plane_icp_factor.hpp:20-58). -/
def PlaneICP.linearize (sc : Scene K) (rej : Rejector K) (T : Pose K) (i : Nat) (_f : PlaneICP) : PlaneICP × Option (Sys K) :=
  match correspondence sc rej T i with
  | none => (⟨npos, i⟩, none)
  | some k =>
    let normal := sc.tgtNormal k
    let residual := sc.tgtPoint k - T.apply (sc.srcPoint i)
    let err := normal * residual
    let J := blocks (diagonal (head3 normal) * T.R * skew (head3 (sc.srcPoint i))) (diagonal (head3 normal) * (-T.R))
    (⟨k, i⟩, some (Jᵀ * J, Jᵀ *ᵥ err, 1 / 2 * (err ⬝ᵥ err)))

/-- `PointToPlaneICPFactor::error` (plane_icp_factor.hpp:60-70). -/
def PlaneICP.error (sc : Scene K) (T : Pose K) (f : PlaneICP) : K :=
  if f.target = npos then 0
  else
    let residual := sc.tgtPoint f.target - T.apply (sc.srcPoint f.source)
    let err := sc.tgtNormal f.target * residual
    1 / 2 * (err ⬝ᵥ err)

/-! ### distribution-to-distribution -/

/-- `GICPFactor` (gicp_factor.hpp:14-97). -/
structure GICP (K : Type) where
  target : Nat
  source : Nat
  mahalanobis : Matrix (Fin 4) (Fin 4) K

/-- Constructor (gicp_factor.hpp:18-21). -/
def GICP.init : GICP K := ⟨npos, npos, 0⟩

/-- The matrix that is inverted (gicp_factor.hpp:59-60). -/
def fusedCov (sc : Scene K) (T : Pose K) (k i : Nat) : Matrix (Fin 3) (Fin 3) K :=
  block33 (sc.tgtCov k + T.matrix * sc.srcCov i * T.matrixᵀ)

/-- `GICPFactor::linearize` (gicp_factor.hpp:35-73). `inv` is Eigen's 3x3 `inverse()`. -/
def GICP.linearize (inv : Matrix (Fin 3) (Fin 3) K → Matrix (Fin 3) (Fin 3) K) (sc : Scene K) (rej : Rejector K) (T : Pose K) (i : Nat)
    (f : GICP K) : GICP K × Option (Sys K) :=
  match correspondence sc rej T i with
  | none => (⟨npos, i, f.mahalanobis⟩, none)
  | some k =>
    let m := setBlock33 f.mahalanobis (inv (fusedCov sc T k i))
    let residual := sc.tgtPoint k - T.apply (sc.srcPoint i)
    let J := blocks (T.R * skew (head3 (sc.srcPoint i))) (-T.R)
    (⟨k, i, m⟩, some (Jᵀ * m * J, (Jᵀ * m) *ᵥ residual, 1 / 2 * (residual ⬝ᵥ m *ᵥ residual)))

/-- `GICPFactor::error` (gicp_factor.hpp:81-89). -/
def GICP.error (sc : Scene K) (T : Pose K) (f : GICP K) : K :=
  if f.target = npos then 0
  else
    let residual := sc.tgtPoint f.target - T.apply (sc.srcPoint f.source)
    1 / 2 * (residual ⬝ᵥ f.mahalanobis *ᵥ residual)

/-- `GICPFactor::inlier` (gicp_factor.hpp:92). -/
def GICP.inlier (f : GICP K) : Bool := decide (f.target ≠ npos)

/-! ### robust kernels -/

/-- `Huber::weight` (robust_kernel.hpp:24-27). -/
def huberWeight (c e : K) : K := if |e| < c then 1 else c / |e|

/-- `Cauchy::weight` (robust_kernel.hpp:47). -/
def cauchyWeight (c e : K) : K := c / (c + e * e)

/-- `RobustFactor::linearize` (robust_kernel.hpp:70-91) around the linearisation `lin` of the wrapped factor. `w` is the weight
function of the kernel, `sqrt` is `std::sqrt`. -/
def robustLinearize {F : Type} (w sqrt : K → K) (lin : Nat → F → F × Option (Sys K)) (i : Nat) (f : F) : F × Option (Sys K) :=
  match lin i f with
  | (f', none) => (f', none)
  | (f', some (H, b, e)) => (f', some (w (sqrt e) • H, w (sqrt e) • b, e * w (sqrt e)))

/-- `RobustFactor::error` (robust_kernel.hpp:95-98). -/
def robustError {F : Type} (w sqrt : K → K) (err : F → K) (f : F) : K := w (sqrt (err f)) * err f

/-! ### the factor concept -/

/-- What the reductions and optimisers use of a factor type `F`. `target` is the member `target_index` (of the wrapped factor for a
robust one). -/
structure PointFactor (F K : Type) where
  init : F
  linearize : Scene K → Rejector K → Pose K → Nat → F → F × Option (Sys K)
  error : Scene K → Pose K → F → K
  inlier : F → Bool
  target : F → Nat

def icpFactor : PointFactor ICP K := ⟨ICP.init, ICP.linearize, ICP.error, ICP.inlier, ICP.target⟩

def planeFactor : PointFactor PlaneICP K := ⟨ICP.init, PlaneICP.linearize, PlaneICP.error, ICP.inlier, ICP.target⟩

def gicpFactor (inv : Matrix (Fin 3) (Fin 3) K → Matrix (Fin 3) (Fin 3) K) : PointFactor (GICP K) K :=
  ⟨GICP.init, GICP.linearize inv, GICP.error, GICP.inlier, GICP.target⟩

/-- `RobustFactor<Kernel, Factor>` (robust_kernel.hpp:57-107); the kernel is constant, so the state is that of the wrapped factor. -/
def robustFactor {F : Type} (w sqrt : K → K) (pf : PointFactor F K) : PointFactor F K :=
  ⟨pf.init, fun sc rej T => robustLinearize w sqrt (pf.linearize sc rej T), fun sc T => robustError w sqrt (pf.error sc T), pf.inlier, pf.target⟩

/-! ### general factors -/

/-- A general factor: `update_linearized_system` and `update_error`. -/
structure General (K : Type) where
  updateLinearized : Pose K → Sys K → Sys K
  updateError : Pose K → K → K

/-- `NullFactor` (general_factor.hpp:11-39). -/
def nullFactor : General K := ⟨fun _ s => s, fun _ e => e⟩

/-- `RestrictDoFFactor` (general_factor.hpp:43-75). -/
structure RestrictDoF (K : Type) where
  lambda : K
  mask : Fin 6 → K

/-- Constructor (general_factor.hpp:45-48). -/
def RestrictDoF.init : RestrictDoF K := ⟨10 ^ 9, fun _ => 1⟩

/-- `set_rotation_mask` (general_factor.hpp:51). -/
def RestrictDoF.setRotationMask (f : RestrictDoF K) (m : Fin 3 → K) : RestrictDoF K :=
  { f with mask := fun i => if h : i.val < 3 then m ⟨i.val, h⟩ else f.mask i }

/-- `set_translation_mask` (general_factor.hpp:54). -/
def RestrictDoF.setTranslationMask (f : RestrictDoF K) (m : Fin 3 → K) : RestrictDoF K :=
  { f with mask := fun i => if i.val < 3 then f.mask i else m ⟨i.val - 3, by omega⟩ }

/-- `update_linearized_system` and `update_error` (general_factor.hpp:58-71). -/
def RestrictDoF.general (f : RestrictDoF K) : General K :=
  ⟨fun _ s => (s.1 + f.lambda • diagonal (fun i => |f.mask i - 1|), s.2), fun _ e => e⟩

end Verif.Factors
