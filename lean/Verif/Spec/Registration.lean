import Mathlib.Data.Matrix.Mul
import Mathlib.LinearAlgebra.Matrix.Symmetric
import Mathlib.Algebra.Order.Field.Basic

/-! Specifications for the registration properties. -/

namespace Verif.Spec

open Matrix

variable {K : Type} [Field K] [LinearOrder K]

/-- Symmetric and positive semi-definite. -/
structure SymPSD {n : Type} [Fintype n] (A : Matrix n n K) : Prop where
  symm : Aᵀ = A
  psd : ∀ x : n → K, 0 ≤ x ⬝ᵥ A *ᵥ x

/-- A sound linearised least-squares system `(H, b, e)`: `H` symmetric positive semi-definite, `e` non-negative and the local
quadratic model `e + b.x + x.Hx / 2` non-negative everywhere. -/
structure GoodSystem {n : Type} [Fintype n] (H : Matrix n n K) (b : n → K) (e : K) : Prop where
  hess : SymPSD H
  nonneg : 0 ≤ e
  model : ∀ x : n → K, 0 ≤ e + b ⬝ᵥ x + 1 / 2 * (x ⬝ᵥ H *ᵥ x)

/-- Contract of Eigen's `inverse()` on 3x3 matrices: nothing is said about singular ones. -/
def InverseContract (inv : Matrix (Fin 3) (Fin 3) K → Matrix (Fin 3) (Fin 3) K) : Prop :=
  ∀ A, (∃ B, A * B = 1) → A * inv A = 1

/-- Contract of `ldlt().solve`: on a positive definite matrix it returns the solution. -/
def SolveContract {n : Type} [Fintype n] (solve : Matrix n n K → (n → K) → (n → K)) : Prop :=
  ∀ A : Matrix n n K, Aᵀ = A → (∀ x, x ≠ 0 → 0 < x ⬝ᵥ A *ᵥ x) → ∀ r, A *ᵥ solve A r = r

end Verif.Spec
