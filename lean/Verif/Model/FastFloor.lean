import Verif.Model.Arith
import Mathlib.Algebra.Order.Floor.Ring

/-!
Model of `include/small_gicp/util/fast_floor.hpp`.
-/

namespace Verif

variable {K : Type} [Field K] [LinearOrder K] [FloorRing K]

/-- Range of `int`. -/
def INT_MIN : Int := -2 ^ 31
def INT_MAX : Int := 2 ^ 31 - 1

/-- A mathematical integer stored in an `int`; signed overflow is undefined behaviour. -/
def int32 (i : Int) : Res Int := if INT_MIN ≤ i ∧ i ≤ INT_MAX then .ok i else .error .intOverflow

/-- Conversion `double → int` (`pt.cast<int>()`, fast_floor.hpp:13): truncation towards zero, undefined if the
truncated value does not fit. -/
def truncToInt (x : K) : Res Int := int32 (if 0 ≤ x then ⌊x⌋ else ⌈x⌉)

/-- One coordinate of `fast_floor` (fast_floor.hpp:12-15). -/
def fastFloor (x : K) : Res Int := do
  let n ← truncToInt x
  int32 (n - if x < (n : K) then 1 else 0)

/-- `fast_floor` on an `Eigen::Array4d`; all four coordinates are converted. -/
def fastFloor4 (p : Pt K) : Res (Int × Int × Int × Int) := do
  let x ← fastFloor p.x
  let y ← fastFloor p.y
  let z ← fastFloor p.z
  let w ← fastFloor p.w
  return (x, y, z, w)

/-- `pt * s` for a 4-vector and a scalar. -/
def Pt.smul {K : Type} [Mul K] (p : Pt K) (s : K) : Pt K := ⟨p.x * s, p.y * s, p.z * s, p.w * s⟩

end Verif
