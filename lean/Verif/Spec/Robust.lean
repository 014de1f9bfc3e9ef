import Mathlib.Analysis.SpecialFunctions.Log.Basic
import Mathlib.Analysis.SpecialFunctions.Pow.NNReal

/-! What a robust kernel is meant to minimise: the losses of M-estimation, as functions of the squared error `e`. -/

namespace Verif.Spec

/-- Huber's loss: the squared error up to the width `c` of its root, linear in the root beyond. -/
noncomputable def huberLoss (c e : ℝ) : ℝ := if e < c ^ 2 then e else 2 * c * Real.sqrt e - c ^ 2

/-- Cauchy's loss; `c` is the square of the width. -/
noncomputable def cauchyLoss (c e : ℝ) : ℝ := c * Real.log (1 + e / c)

/-- The loss at a list of errors. -/
noncomputable def totalLoss (loss : ℝ → ℝ) (errors : List ℝ) : ℝ := (errors.map loss).sum

end Verif.Spec
