import Verif.Spec.Descent

/-! What a registration with the Gauss–Newton optimiser computes, in the terms of `Spec/Descent.lean`. -/

namespace Verif.Spec

open Matrix Verif Verif.Factors Verif.Optimizer Verif.Lie

open Classical in
/-- Gauss–Newton iteration with constant damping `lam`, as a relation between results before and after at most `n` more iterations, the first of which has number `i`. Each iteration finds the
partners at the current pose and takes the step of their damped system whatever it does to the cost. It ends after a small step or when `n` is used up. -/
inductive GNRun (m : Metric) (M : (Fin 3 → ℝ) → Option Site → Prop) (src : List Site) (lam rotEps traEps : ℝ) : Nat → Nat → Result ℝ → Result ℝ → Prop
  | budget (i : Nat) (r : Result ℝ) : GNRun m M src lam rotEps traEps 0 i r r
  | done (n i : Nat) (r : Result ℝ) : r.converged = true → GNRun m M src lam rotEps traEps n i r r
  | step (n i : Nat) (r r' : Result ℝ) (partner : List (Option Site)) (H : Matrix (Fin 6) (Fin 6) ℝ) (b d : Fin 6 → ℝ) :
      r.converged = false → Linearised m M src r.T partner H b → Damped H b lam d →
      GNRun m M src lam rotEps traEps n (i + 1) ⟨r.T.mul (se3Exp d), decide (SmallStep rotEps traEps d), i, paired partner, H, b, totalCost m src partner r.T r.T⟩ r' →
      GNRun m M src lam rotEps traEps (n + 1) i r r'

end Verif.Spec
