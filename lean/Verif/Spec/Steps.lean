import Mathlib.LinearAlgebra.Matrix.DotProduct
import Mathlib.Data.Matrix.Basic
import Mathlib.Data.Matrix.Mul
import Mathlib.Algebra.Order.Field.Basic

/-! Specification of the steps of the optimisers. -/

namespace Verif.Spec

open Matrix

variable {K : Type} [Field K] [LinearOrder K]

/-- The quadratic model of the error with damping `lam`, without its constant part: `b x + x (H + lam I) x / 2`. -/
def dampedModel (H : Matrix (Fin 6) (Fin 6) K) (b : Fin 6 → K) (lam : K) (x : Fin 6 → K) : K :=
  b ⬝ᵥ x + 1 / 2 * (x ⬝ᵥ H *ᵥ x) + lam / 2 * (x ⬝ᵥ x)

/-- `d` is the only minimiser of the damped model. -/
def MinimisesModel (H : Matrix (Fin 6) (Fin 6) K) (b : Fin 6 → K) (lam : K) (d : Fin 6 → K) : Prop :=
  ∀ x, x ≠ d → dampedModel H b lam d < dampedModel H b lam x

end Verif.Spec
