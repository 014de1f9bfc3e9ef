import Verif.Model.Factors
import Mathlib.LinearAlgebra.Matrix.Determinant.Basic
import Mathlib.Analysis.SpecialFunctions.Trigonometric.Basic

/-! Specification of rigid transforms and twists. -/

namespace Verif.Spec

open Matrix Verif.Factors

/-- Orthogonal with determinant one. -/
def IsRotation (R : Matrix (Fin 3) (Fin 3) ℝ) : Prop := Rᵀ * R = 1 ∧ R.det = 1

/-- The matrix of a twist: rotation part first. -/
def twistMatrix (a : Fin 6 → ℝ) : Matrix (Fin 4) (Fin 4) ℝ :=
  !![0, -a 2, a 1, a 3;
     a 2, 0, -a 0, a 4;
     -a 1, a 0, 0, a 5;
     0, 0, 0, 0]

/-- Stretching between `1` and `c`: squared lengths are multiplied by a factor in `[1, c]`, and so is the volume. -/
def StretchAtMost (R : Matrix (Fin 3) (Fin 3) ℝ) (c : ℝ) : Prop :=
  (∀ u, u ⬝ᵥ u ≤ (R *ᵥ u) ⬝ᵥ (R *ᵥ u) ∧ (R *ᵥ u) ⬝ᵥ (R *ᵥ u) ≤ c * (u ⬝ᵥ u)) ∧ 1 ≤ R.det ∧ R.det ≤ c

end Verif.Spec
