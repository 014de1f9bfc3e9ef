import Verif.Model.Arith
import Verif.Model.Factors

/-!
Poses (`Eigen::Isometry3d`) in machine arithmetic.
-/

namespace Verif.Machine

open Verif Verif.Factors

/-- The product of two `Eigen::Isometry3d`: `result.T * se3_exp(delta)` (optimizer.hpp:53, 112) and `T * result.T_target_source` (odometry_benchmark_small_gicp.cpp:37). Eigen multiplies the linear parts, and
adds the translation to the product of linear part and translation; nothing is normalised. `Ops.dot3` is the sum of three products in whatever order, fused or not. -/
def poseMul {V : Type} (o : Ops V) (A B : Pose V) : Pose V :=
  ⟨fun i j => o.dot3 (A.R i 0) (A.R i 1) (A.R i 2) (B.R 0 j) (B.R 1 j) (B.R 2 j), fun i => o.add (o.dot3 (A.R i 0) (A.R i 1) (A.R i 2) (B.t 0) (B.t 1) (B.t 2)) (A.t i)⟩

/-- What `so3_exp` computes with besides `Ops`: literals and functions of the standard library. -/
structure TrigOps (V : Type) where
  one : V
  two : V
  half : V
  /-- `1e-10` -/
  small : V
  /-- `1.0 / 48.0`, `1.0 / 3840.0`, `1.0 / 8.0`, `1.0 / 384.0`, computed when the program is compiled -/
  c48 : V
  c3840 : V
  c8 : V
  c384 : V
  sqrt : V → V
  sin : V → V
  cos : V → V
  neg : V → V

/-- A quaternion (`Eigen::Quaterniond`). -/
structure MQuat (V : Type) where
  w : V
  x : V
  y : V
  z : V

/-- `so3_exp` (lie.hpp:54-71), as `Lie.so3Exp`, operation by operation. -/
def so3Exp {V : Type} [LT V] [DecidableLT V] (o : Ops V) (c : TrigOps V) (omega : Fin 3 → V) : MQuat V :=
  let thetaSq := o.dot3 (omega 0) (omega 1) (omega 2) (omega 0) (omega 1) (omega 2)
  let f : V × V :=
    if thetaSq < c.small then
      let thetaQuad := o.mul thetaSq thetaSq
      (o.add (o.sub c.half (o.mul c.c48 thetaSq)) (o.mul c.c3840 thetaQuad), o.add (o.sub c.one (o.mul c.c8 thetaSq)) (o.mul c.c384 thetaQuad))
    else
      let theta := c.sqrt thetaSq
      let halfTheta := o.mul c.half theta
      (o.div (c.sin halfTheta) theta, c.cos halfTheta)
  ⟨f.2, o.mul f.1 (omega 0), o.mul f.1 (omega 1), o.mul f.1 (omega 2)⟩

/-- `q.toRotationMatrix()` of Eigen, as `Lie.Quat.toRotationMatrix`, operation by operation (lie.hpp:84). -/
def toRotation {V : Type} (o : Ops V) (c : TrigOps V) (q : MQuat V) : Matrix (Fin 3) (Fin 3) V :=
  let tx := o.mul c.two q.x
  let ty := o.mul c.two q.y
  let tz := o.mul c.two q.z
  let twx := o.mul tx q.w
  let twy := o.mul ty q.w
  let twz := o.mul tz q.w
  let txx := o.mul tx q.x
  let txy := o.mul ty q.x
  let txz := o.mul tz q.x
  let tyy := o.mul ty q.y
  let tyz := o.mul tz q.y
  let tzz := o.mul tz q.z
  fun i j => match i, j with
    | 0, 0 => o.sub c.one (o.add tyy tzz)
    | 0, 1 => o.sub txy twz
    | 0, 2 => o.add txz twy
    | 1, 0 => o.add txy twz
    | 1, 1 => o.sub c.one (o.add txx tzz)
    | 1, 2 => o.sub tyz twx
    | 2, 0 => o.sub txz twy
    | 2, 1 => o.add tyz twx
    | 2, 2 => o.sub c.one (o.add txx tyy)

/-- The rotation part of `se3_exp` (lie.hpp:77-84); `t` is the translation (`translationM` below). -/
def se3Exp {V : Type} [LT V] [DecidableLT V] (o : Ops V) (c : TrigOps V) (t : (Fin 6 → V) → Fin 3 → V) (a : Fin 6 → V) : Pose V := ⟨toRotation o c (so3Exp o c ![a 0, a 1, a 2]), t a⟩

/-- `skew` (lie.hpp:13-23). -/
def skewM {V : Type} (o : Ops V) (c : TrigOps V) (x : Fin 3 → V) : Matrix (Fin 3) (Fin 3) V := fun i j => match i, j with
  | 0, 1 => c.neg (x 2)
  | 0, 2 => x 1
  | 1, 0 => x 2
  | 1, 2 => c.neg (x 0)
  | 2, 0 => c.neg (x 1)
  | 2, 1 => x 0
  | 0, 0 => o.zero
  | 1, 1 => o.zero
  | 2, 2 => o.zero

/-- The matrix `V` of `se3_exp` (lie.hpp:91), entry by entry: the factor of the last product is applied to its left matrix; the product is added to the sum of the others. -/
def jacobianM {V : Type} (o : Ops V) (c : TrigOps V) (thetaSq theta : V) (Omega : Matrix (Fin 3) (Fin 3) V) : Matrix (Fin 3) (Fin 3) V := fun i j =>
  let s1 := o.div (o.sub c.one (c.cos theta)) thetaSq
  let s2 := o.div (o.sub theta (c.sin theta)) (o.mul thetaSq theta)
  o.add (o.add (if i = j then c.one else o.zero) (o.mul s1 (Omega i j))) (o.dot3 (o.mul s2 (Omega i 0)) (o.mul s2 (Omega i 1)) (o.mul s2 (Omega i 2)) (Omega 0 j) (Omega 1 j) (Omega 2 j))

/-- The translation of `se3_exp` (lie.hpp:78-81, 86-93). -/
def translationM {V : Type} [LT V] [DecidableLT V] (o : Ops V) (c : TrigOps V) (a : Fin 6 → V) : Fin 3 → V :=
  let omega := ![a 0, a 1, a 2]
  let thetaSq := o.dot3 (omega 0) (omega 1) (omega 2) (omega 0) (omega 1) (omega 2)
  let theta := c.sqrt thetaSq
  let M := if theta < c.small then toRotation o c (so3Exp o c omega) else jacobianM o c thetaSq theta (skewM o c omega)
  fun i => o.dot3 (M i 0) (M i 1) (M i 2) (a 3) (a 4) (a 5)

/-- `se3_exp` (lie.hpp:77-96). -/
def se3Motion {V : Type} [LT V] [DecidableLT V] (o : Ops V) (c : TrigOps V) (a : Fin 6 → V) : Pose V := se3Exp o c (translationM o c) a

end Verif.Machine
