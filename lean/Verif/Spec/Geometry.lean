import Verif.Model.Arith
import Mathlib.Algebra.Field.Defs
import Mathlib.Algebra.Group.Defs

/-!
Mathematical distance between points, written without reference to the machine operations.
-/

namespace Verif.Spec

/-- Squared Euclidean distance of 4-vectors. -/
def sqd {K : Type} [Field K] (p q : Pt K) : K := (p.x - q.x) ^ 2 + (p.y - q.y) ^ 2 + (p.z - q.z) ^ 2 + (p.w - q.w) ^ 2

/-- Squared distance of point `i` of a cloud to `q` (indices outside the cloud are never asked for). -/
def cloudDist {K : Type} [Field K] (points : List (Pt K)) (q : Pt K) (i : Nat) : K :=
  match points[i]? with
  | some p => sqd p q
  | none => 0

end Verif.Spec
