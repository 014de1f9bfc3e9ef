import Verif.Model.Optimizer
import Verif.Model.Lie
import Mathlib.Analysis.SpecialFunctions.Trigonometric.Basic

/-!
Model of `src/small_gicp/registration/registration_helper.cpp` and of the `align` functions of `src/python/align.cpp`: which
preprocessing they request and which configured `Registration` object they run, over the real numbers. Diagnostics on `std::cerr`
are left out.
-/

namespace Verif.Helper

open Matrix Verif Verif.Factors Verif.Optimizer Verif.Lie

/-- `RegistrationSetting::RegistrationType` (registration_helper.hpp:38). `other` stands for an out-of-range value cast to the
enumeration. -/
inductive RegType where
  | icp | planeIcp | gicp | vgicp
  | other (n : Nat)
  deriving DecidableEq, Repr

/-- `RegistrationSetting` (registration_helper.hpp:37-49). -/
structure Setting where
  type : RegType
  voxelResolution : ℝ
  downsamplingResolution : ℝ
  maxCorrespondenceDistance : ℝ
  rotationEps : ℝ
  translationEps : ℝ
  numThreads : Int
  maxIterations : Int
  verbose : Bool

/-- Default member initialisers (registration_helper.hpp:40-48). -/
noncomputable def Setting.default : Setting := ⟨.gicp, 1, 1 / 4, 1, 1 / 10 * Real.pi / 180, 1 / 1000, 4, 20, false⟩

/-- The `PointFactor` argument of `Registration`. -/
inductive Method where
  | icp | planeIcp | gicp
  deriving DecidableEq, Repr

/-- A `Registration<Method, ParallelReductionOMP>` object (registration.hpp:48-53): `reduction`, `rejector`, `criteria`, `optimizer`. -/
structure Registration where
  method : Method
  numThreads : Int
  maxDistSq : ℝ
  rotationEps : ℝ
  translationEps : ℝ
  lm : LMSetting ℝ
  verbose : Bool

/-- Default construction (reduction_omp.hpp:18, rejector.hpp:20, termination_criteria.hpp:12, optimizer.hpp:72). -/
noncomputable def Registration.default (m : Method) : Registration :=
  ⟨m, 4, 1, 1 / 10 * Real.pi / 180, 1 / 1000, ⟨20, 10, 1 / 1000, 10⟩, false⟩

/-- What the object is run on: a cloud with its tree, or a voxel map that is both target and search structure. -/
inductive Target where
  | cloud
  | voxelmap
  deriving DecidableEq, Repr

/-- Outcome of an `align` function: run a registration from an initial guess, return `RegistrationResult(Identity)`, or abort. -/
inductive Outcome where
  | run (r : Registration) (target : Target) (initT : Pose ℝ)
  | identity
  | abort

/-- `align(target, source, target_tree, init_T, setting)` (registration_helper.cpp:81-122). -/
noncomputable def alignCloud (initT : Pose ℝ) (s : Setting) : Outcome :=
  match s.type with
  | .other _ => .abort
  | .icp =>
    let r := Registration.default .icp
    let r := { r with numThreads := s.numThreads }
    let r := { r with maxDistSq := s.maxCorrespondenceDistance * s.maxCorrespondenceDistance }
    let r := { r with rotationEps := s.rotationEps }
    let r := { r with translationEps := s.translationEps }
    let r := { r with lm := { r.lm with maxIterations := s.maxIterations } }
    let r := { r with verbose := s.verbose }
    .run r .cloud initT
  | .planeIcp =>
    let r := Registration.default .planeIcp
    let r := { r with numThreads := s.numThreads }
    let r := { r with maxDistSq := s.maxCorrespondenceDistance * s.maxCorrespondenceDistance }
    let r := { r with rotationEps := s.rotationEps }
    let r := { r with translationEps := s.translationEps }
    let r := { r with lm := { r.lm with maxIterations := s.maxIterations } }
    let r := { r with verbose := s.verbose }
    .run r .cloud initT
  | .gicp =>
    let r := Registration.default .gicp
    let r := { r with numThreads := s.numThreads }
    let r := { r with maxDistSq := s.maxCorrespondenceDistance * s.maxCorrespondenceDistance }
    let r := { r with rotationEps := s.rotationEps }
    let r := { r with translationEps := s.translationEps }
    let r := { r with lm := { r.lm with maxIterations := s.maxIterations } }
    let r := { r with verbose := s.verbose }
    .run r .cloud initT
  | .vgicp => .identity

/-- `align(target_voxelmap, source, init_T, setting)` (registration_helper.cpp:125-137). A wrong type only prints a message. -/
noncomputable def alignVoxelmap (initT : Pose ℝ) (s : Setting) : Outcome :=
  let r := Registration.default .gicp
  let r := { r with numThreads := s.numThreads }
  let r := { r with rotationEps := s.rotationEps }
  let r := { r with translationEps := s.translationEps }
  let r := { r with lm := { r.lm with maxIterations := s.maxIterations } }
  let r := { r with verbose := s.verbose }
  .run r .voxelmap initT

/-- A preprocessing step with the number of threads it runs on (1 for the serial versions). -/
inductive Step where
  | downsample (leafSize : ℝ) (threads : Int)
  | tree
  | features (numNeighbors : Int) (threads : Int)
  | voxelmap (resolution : ℝ)

/-- Default argument of `voxelgrid_sampling_omp` (downsampling_omp.hpp:26). -/
def defaultDownsamplingThreads : Int := 4

/-- `preprocess_points` (registration_helper.cpp:22-34). -/
def preprocess (downsamplingResolution : ℝ) (numNeighbors numThreads : Int) : List Step :=
  if numThreads = 1 then [.downsample downsamplingResolution 1, .tree, .features numNeighbors 1]
  else [.downsample downsamplingResolution defaultDownsamplingThreads, .tree, .features numNeighbors numThreads]

/-- `align(target, source, init_T, setting)` on vectors of points (registration_helper.cpp:57-69): the preprocessing of the target, of
the source, the construction of a voxel map, and the registration. -/
noncomputable def alignPoints (initT : Pose ℝ) (s : Setting) : List Step × Outcome :=
  let prep := preprocess s.downsamplingResolution 10 s.numThreads ++ preprocess s.downsamplingResolution 10 s.numThreads
  if s.type = .vgicp then (prep ++ [.voxelmap s.voxelResolution], alignVoxelmap initT s)
  else (prep, alignCloud initT s)

/-- The strings of the Python interface (align.cpp:49-60); `none` for any other. -/
def parseType (allowVgicp : Bool) (name : String) : Option RegType :=
  if name = "ICP" then some .icp
  else if name = "PLANE_ICP" then some .planeIcp
  else if name = "GICP" then some .gicp
  else if allowVgicp ∧ name = "VGICP" then some .vgicp
  else none

/-- Python `align` on matrices with `tcols` and `scols` columns (align.cpp:26-94); `s.type` is not used. -/
noncomputable def pyAlignPoints (tcols scols : Nat) (initT : Pose ℝ) (name : String) (s : Setting) : List Step × Outcome :=
  if tcols ≠ 3 ∧ tcols ≠ 4 then ([], .identity)
  else if scols ≠ 3 ∧ scols ≠ 4 then ([], .identity)
  else
    match parseType true name with
    | none => ([], .identity)
    | some t => alignPoints initT { s with type := t }

/-- Python `align` on clouds (align.cpp:150-184); the resolutions of `s` are not used (they keep their defaults). -/
noncomputable def pyAlignCloud (initT : Pose ℝ) (name : String) (s : Setting) : Outcome :=
  match parseType false name with
  | none => .identity
  | some t => alignCloud initT { s with type := t, voxelResolution := Setting.default.voxelResolution, downsamplingResolution := Setting.default.downsamplingResolution }

/-- Python `align` on a voxel map (align.cpp:235-254). -/
noncomputable def pyAlignVoxelmap (initT : Pose ℝ) (s : Setting) : Outcome :=
  let r := Registration.default .gicp
  let r := { r with maxDistSq := s.maxCorrespondenceDistance * s.maxCorrespondenceDistance }
  let r := { r with numThreads := s.numThreads }
  let r := { r with lm := { r.lm with maxIterations := s.maxIterations } }
  let r := { r with rotationEps := s.rotationEps }
  let r := { r with translationEps := s.translationEps }
  let r := { r with verbose := s.verbose }
  .run r .voxelmap initT

/-- Running an outcome on a scene with `n` source points. The parallel reduction is represented by the serial one, which it equals
for every schedule (C30). `inv` and `solve` are Eigen's inverse and solver. -/
noncomputable def execute (inv : Matrix (Fin 3) (Fin 3) ℝ → Matrix (Fin 3) (Fin 3) ℝ) (solve : Matrix (Fin 6) (Fin 6) ℝ → (Fin 6 → ℝ) → (Fin 6 → ℝ))
    (sc : Scene ℝ) (n : Nat) : Outcome → Res (Result ℝ)
  | .abort => .error .abort
  | .identity => .ok (Result.init Pose.one)
  | .run r _ initT =>
    match r.method with
    | .icp => (alignLM icpFactor (registrationProblem icpFactor sc (distanceRejector r.maxDistSq) nullFactor solve se3Exp (converged r.rotationEps r.translationEps)) r.lm initT n).map Prod.fst
    | .planeIcp => (alignLM planeFactor (registrationProblem planeFactor sc (distanceRejector r.maxDistSq) nullFactor solve se3Exp (converged r.rotationEps r.translationEps)) r.lm initT n).map Prod.fst
    | .gicp => (alignLM (gicpFactor inv) (registrationProblem (gicpFactor inv) sc (distanceRejector r.maxDistSq) nullFactor solve se3Exp (converged r.rotationEps r.translationEps)) r.lm initT n).map Prod.fst

end Verif.Helper
