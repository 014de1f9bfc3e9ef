import Verif.Model.Basic

/-!
Machine arithmetic used by the geometric code, kept abstract so that the same model can be read with exact
arithmetic (`exactOps`) and with rounded arithmetic (`Props/Rounding.lean`).
-/

namespace Verif

/-- Arithmetic on `double`. `sqNorm4` is `Eigen::Vector4d::squaredNorm` (association order and fusing left
open), `dot3` is the 3D `dot`. Division by zero does not fault in IEEE arithmetic; no theorem relies on
the value of `div x zero`. -/
structure Ops (D : Type) where
  zero : D
  add : D → D → D
  sub : D → D → D
  mul : D → D → D
  div : D → D → D
  sqNorm4 : D → D → D → D → D
  dot3 : D → D → D → D → D → D → D

/-- Exact arithmetic of a type with field operations. -/
def exactOps (D : Type) [Zero D] [Add D] [Sub D] [Mul D] [Div D] : Ops D where
  zero := 0
  add := (· + ·)
  sub := (· - ·)
  mul := (· * ·)
  div := (· / ·)
  sqNorm4 a b c d := a * a + b * b + c * c + d * d
  dot3 a b c x y z := a * x + b * y + c * z

/-- `Eigen::Vector4d`. -/
structure Pt (D : Type) where
  x : D
  y : D
  z : D
  w : D
  deriving DecidableEq, Repr

namespace Pt
variable {D : Type}

def zero (o : Ops D) : Pt D := ⟨o.zero, o.zero, o.zero, o.zero⟩
def add (o : Ops D) (a b : Pt D) : Pt D := ⟨o.add a.x b.x, o.add a.y b.y, o.add a.z b.z, o.add a.w b.w⟩
def sub (o : Ops D) (a b : Pt D) : Pt D := ⟨o.sub a.x b.x, o.sub a.y b.y, o.sub a.z b.z, o.sub a.w b.w⟩
/-- `cwiseProduct` -/
def cmul (o : Ops D) (a b : Pt D) : Pt D := ⟨o.mul a.x b.x, o.mul a.y b.y, o.mul a.z b.z, o.mul a.w b.w⟩
/-- division by a scalar -/
def sdiv (o : Ops D) (a : Pt D) (s : D) : Pt D := ⟨o.div a.x s, o.div a.y s, o.div a.z s, o.div a.w s⟩

/-- `(a - b).squaredNorm()` -/
def sqDist (o : Ops D) (a b : Pt D) : D :=
  o.sqNorm4 (o.sub a.x b.x) (o.sub a.y b.y) (o.sub a.z b.z) (o.sub a.w b.w)

end Pt

/-- Conversion of an `int` to `size_t` in a mixed comparison or division. -/
def toU64 (i : Int) : Nat := (i % 2 ^ 64).toNat

/-- Conversion to `std::uint32_t`. -/
def toU32 (n : Nat) : Nat := n % 2 ^ 32

end Verif
