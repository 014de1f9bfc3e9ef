import Verif.Model.Helper

/-! What it means for a call of the helper library to honour a `RegistrationSetting`. -/

namespace Verif.Spec

open Verif.Factors Verif.Helper

/-- The point factor a registration type stands for (voxelised GICP is GICP against a voxel map). -/
def methodOf : RegType → Option Method
  | .icp => some .icp
  | .planeIcp => some .planeIcp
  | .gicp => some .gicp
  | .vgicp => some .gicp
  | .other _ => none

/-- The call runs the requested method from the given initial guess, against a voxel map exactly for VGICP, with every requested
setting; the settings that cannot be requested have the values of optimizer.hpp:72. -/
structure HonoursRun (s : Setting) (initT : Pose ℝ) (r : Registration) (target : Target) (T : Pose ℝ) : Prop where
  method : methodOf s.type = some r.method
  target : target = .voxelmap ↔ s.type = .vgicp
  initial : T = initT
  threads : r.numThreads = s.numThreads
  distance : r.maxDistSq = s.maxCorrespondenceDistance ^ 2
  rotation : r.rotationEps = s.rotationEps
  translation : r.translationEps = s.translationEps
  iterations : r.lm.maxIterations = s.maxIterations
  verbose : r.verbose = s.verbose
  fixed : r.lm.maxInner = 10 ∧ r.lm.initLambda = 1 / 1000 ∧ r.lm.lambdaFactor = 10

/-- An outcome honours the settings if it is a run that does. -/
def Honours (s : Setting) (initT : Pose ℝ) (o : Outcome) : Prop := ∃ r target T, o = .run r target T ∧ HonoursRun s initT r target T

end Verif.Spec
