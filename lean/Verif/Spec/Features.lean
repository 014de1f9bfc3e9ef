import Mathlib.Data.Matrix.Mul
import Mathlib.LinearAlgebra.Matrix.Notation
import Mathlib.Data.Real.Basic

/-! Specifications for normal and covariance estimation. -/

namespace Verif.Spec

open Matrix

/-- Centroid of a list of points. -/
noncomputable def meanPoint (pts : List (Fin 3 → ℝ)) : Fin 3 → ℝ := fun a => (pts.map (fun q => q a)).sum / pts.length

/-- Sample covariance (divided by the number of points). -/
noncomputable def sampleCov (pts : List (Fin 3 → ℝ)) : Matrix (Fin 3) (Fin 3) ℝ := fun a b =>
  (pts.map (fun q => (q a - meanPoint pts a) * (q b - meanPoint pts b))).sum / pts.length

/-- Sum of squared extents of the points along `x`, measured from the meanPoint. -/
noncomputable def spread (pts : List (Fin 3 → ℝ)) (x : Fin 3 → ℝ) : ℝ := (pts.map (fun q => ((q - meanPoint pts) ⬝ᵥ x) ^ 2)).sum

/-- `V` is an orthonormal basis of eigenvectors of `A`, in increasing order of the eigenvalues. -/
def EigenBasis (A V : Matrix (Fin 3) (Fin 3) ℝ) : Prop :=
  Vᵀ * V = 1 ∧ ∃ ev : Fin 3 → ℝ, A * V = V * diagonal ev ∧ ev 0 ≤ ev 1 ∧ ev 1 ≤ ev 2

end Verif.Spec
