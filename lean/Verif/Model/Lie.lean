import Verif.Model.Factors
import Mathlib.Analysis.SpecialFunctions.Trigonometric.Basic

/-!
Model of `include/small_gicp/util/lie.hpp` over the real numbers, with Eigen's `Quaternion::toRotationMatrix`.
-/

namespace Verif.Lie

open Matrix Verif.Factors

noncomputable section

/-- `Eigen::Quaterniond`. -/
structure Quat where
  w : ℝ
  x : ℝ
  y : ℝ
  z : ℝ

/-- Eigen's `QuaternionBase::toRotationMatrix`: the product formula, without normalisation. -/
def Quat.toRotationMatrix (q : Quat) : Matrix (Fin 3) (Fin 3) ℝ :=
  let tx := 2 * q.x
  let ty := 2 * q.y
  let tz := 2 * q.z
  let twx := tx * q.w
  let twy := ty * q.w
  let twz := tz * q.w
  let txx := tx * q.x
  let txy := ty * q.x
  let txz := tz * q.x
  let tyy := ty * q.y
  let tyz := tz * q.y
  let tzz := tz * q.z
  !![1 - (tyy + tzz), txy - twz, txz + twy;
     txy + twz, 1 - (txx + tzz), tyz - twx;
     txz - twy, tyz + twx, 1 - (txx + tyy)]

/-- `imag_factor` of `so3_exp` (lie.hpp:57-68) as a function of `theta_sq`. -/
def imagFactor (thetaSq : ℝ) : ℝ :=
  if thetaSq < 1e-10 then
    let thetaQuad := thetaSq * thetaSq
    0.5 - 1.0 / 48.0 * thetaSq + 1.0 / 3840.0 * thetaQuad
  else
    let theta := Real.sqrt thetaSq
    let halfTheta := 0.5 * theta
    Real.sin halfTheta / theta

/-- `real_factor` of `so3_exp` (lie.hpp:57-68). -/
def realFactor (thetaSq : ℝ) : ℝ :=
  if thetaSq < 1e-10 then
    let thetaQuad := thetaSq * thetaSq
    1.0 - 1.0 / 8.0 * thetaSq + 1.0 / 384.0 * thetaQuad
  else
    let theta := Real.sqrt thetaSq
    let halfTheta := 0.5 * theta
    Real.cos halfTheta

/-- `so3_exp` (lie.hpp:54-71). -/
def so3Exp (omega : Fin 3 → ℝ) : Quat :=
  let thetaSq := omega ⬝ᵥ omega
  ⟨realFactor thetaSq, imagFactor thetaSq * omega 0, imagFactor thetaSq * omega 1, imagFactor thetaSq * omega 2⟩

/-- `a.head<3>()` of a twist. -/
def rot (a : Fin 6 → ℝ) : Fin 3 → ℝ := ![a 0, a 1, a 2]

/-- `a.tail<3>()` of a twist. -/
def tra (a : Fin 6 → ℝ) : Fin 3 → ℝ := ![a 3, a 4, a 5]

/-- `se3_exp` (lie.hpp:77-96). -/
def se3Exp (a : Fin 6 → ℝ) : Pose ℝ :=
  let omega := rot a
  let thetaSq := omega ⬝ᵥ omega
  let theta := Real.sqrt thetaSq
  let R := (so3Exp omega).toRotationMatrix
  if theta < 1e-10 then ⟨R, R *ᵥ tra a⟩
  else
    let Omega := skew omega
    let V := 1 + ((1 - Real.cos theta) / thetaSq) • Omega + ((theta - Real.sin theta) / (thetaSq * theta)) • Omega * Omega
    ⟨R, V *ᵥ tra a⟩

/-- `TerminationCriteria::converged` (termination_criteria.hpp:17); `norm()` is the square root of the sum of squares. -/
def converged (rotationEps translationEps : ℝ) (delta : Fin 6 → ℝ) : Bool :=
  decide (Real.sqrt (rot delta ⬝ᵥ rot delta) ≤ rotationEps) && decide (Real.sqrt (tra delta ⬝ᵥ tra delta) ≤ translationEps)

end

end Verif.Lie
