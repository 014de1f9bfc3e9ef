import Mathlib.Algebra.Field.Basic
import Verif.Model.Basic

/-! Specifications for the classes of the template example. -/

namespace Verif.Spec

/-- Contract of `std::priority_queue` with a comparison by distance: the top is an element with the greatest distance. -/
def TopSpec {K : Type} [LE K] (top : List (Nat × K) → Nat) : Prop :=
  ∀ q, q ≠ [] → ∃ t, q[top q]? = some t ∧ ∀ c ∈ q, c.2 ≤ t.2

/-- Squared distance in space of point `i` to the first three coordinates of `q`. -/
def spaceDist {K : Type} [Field K] (points : List (Fin 3 → K)) (q : Fin 4 → K) (i : Nat) : K :=
  match points[i]? with
  | some p => (p 0 - q 0) ^ 2 + (p 1 - q 1) ^ 2 + (p 2 - q 2) ^ 2
  | none => 0

end Verif.Spec
