import Verif.Model.Factors
import Mathlib.Analysis.Real.Sqrt
import Mathlib.Data.Matrix.Mul

/-! Lengths of vectors, and the distance of two poses. -/

namespace Verif.Spec

open Matrix Verif.Factors

/-- Euclidean length. -/
noncomputable def len {ι : Type} [Fintype ι] (v : ι → ℝ) : ℝ := Real.sqrt (v ⬝ᵥ v)

/-- Square root of the sum of the squared entries of a matrix. -/
noncomputable def fro (A : Matrix (Fin 3) (Fin 3) ℝ) : ℝ := len (fun p : Fin 3 × Fin 3 => A p.1 p.2)

/-- Distance of two poses. For rotations, the first part under the square root is the squared chord `(2 sin (α / 2))²` of the angle `α` between them; the second one is the squared distance of the
translations. -/
noncomputable def poseGap (T S : Pose ℝ) : ℝ := Real.sqrt (1 / 2 * fro (T.R - S.R) ^ 2 + len (T.t - S.t) ^ 2)

end Verif.Spec
