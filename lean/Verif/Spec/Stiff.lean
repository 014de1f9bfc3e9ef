import Verif.Spec.Descent

/-!
Descent with additional stiffness: Levenberg–Marquardt on the cost of matched pairs, where a fixed matrix is added to the Gauss–Newton matrix.
-/

namespace Verif.Spec

open Matrix Verif Verif.Factors Verif.Optimizer Verif.Lie

/-- Stiffness `lambda` in the directions that are masked (mask 0), none in the others (mask 1). -/
noncomputable def stiffness (lambda : ℝ) (mask : Fin 6 → ℝ) : Matrix (Fin 6) (Fin 6) ℝ := fun i j => if i = j then lambda * |mask i - 1| else 0

open Classical in
/-- `LMRun` with the matrix `D` added to every Gauss–Newton matrix: it changes the steps and the reported matrix, but neither the gradient nor the cost that decides about a step. -/
inductive StiffRun (D : Matrix (Fin 6) (Fin 6) ℝ) (m : Metric) (M : (Fin 3 → ℝ) → Option Site → Prop) (src : List Site) (inner : Nat) (factor rotEps traEps : ℝ) :
    Nat → Nat → ℝ → Result ℝ → Result ℝ → Prop
  | budget (i : Nat) (lam : ℝ) (r : Result ℝ) : StiffRun D m M src inner factor rotEps traEps 0 i lam r r
  | done (n i : Nat) (lam : ℝ) (r : Result ℝ) : r.converged = true → StiffRun D m M src inner factor rotEps traEps n i lam r r
  | stuck (n i : Nat) (lam : ℝ) (r : Result ℝ) (partner : List (Option Site)) (H : Matrix (Fin 6) (Fin 6) ℝ) (b : Fin 6 → ℝ) (d : Nat → Fin 6 → ℝ) :
      r.converged = false → Linearised m M src r.T partner H b →
      (∀ k < inner, Damped (H + D) b (lam * factor ^ k) (d k) ∧ totalCost m src partner r.T r.T < totalCost m src partner r.T (r.T.mul (se3Exp (d k)))) →
      StiffRun D m M src inner factor rotEps traEps (n + 1) i lam r ⟨r.T, false, i, paired partner, H + D, b, totalCost m src partner r.T r.T⟩
  | step (n i : Nat) (lam : ℝ) (r r' : Result ℝ) (partner : List (Option Site)) (H : Matrix (Fin 6) (Fin 6) ℝ) (b : Fin 6 → ℝ) (k : Nat) (d : Nat → Fin 6 → ℝ) :
      r.converged = false → Linearised m M src r.T partner H b → k < inner →
      (∀ j < k, Damped (H + D) b (lam * factor ^ j) (d j) ∧ totalCost m src partner r.T r.T < totalCost m src partner r.T (r.T.mul (se3Exp (d j)))) →
      Damped (H + D) b (lam * factor ^ k) (d k) → totalCost m src partner r.T (r.T.mul (se3Exp (d k))) ≤ totalCost m src partner r.T r.T →
      StiffRun D m M src inner factor rotEps traEps n (i + 1) (lam * factor ^ k / factor)
        ⟨r.T.mul (se3Exp (d k)), decide (SmallStep rotEps traEps (d k)), i, paired partner, H + D, b, totalCost m src partner r.T (r.T.mul (se3Exp (d k)))⟩ r' →
      StiffRun D m M src inner factor rotEps traEps (n + 1) i lam r r'

/-- The step of the damped problem without the masked directions. -/
def RestrictedStep (mask : Fin 6 → ℝ) (H : Matrix (Fin 6) (Fin 6) ℝ) (b : Fin 6 → ℝ) (lam : ℝ) (d : Fin 6 → ℝ) : Prop :=
  ∀ i, (mask i = 0 → d i = 0) ∧ (mask i ≠ 0 → ((H + lam • (1 : Matrix (Fin 6) (Fin 6) ℝ)) *ᵥ d) i = -b i)

/-- `T` moved by steps one after the other. -/
noncomputable def follow (T : Pose ℝ) (steps : List (Fin 6 → ℝ)) : Pose ℝ := steps.foldl (fun T d => T.mul (se3Exp d)) T

/-- Squared length of the masked components. -/
noncomputable def maskedPart (mask d : Fin 6 → ℝ) : ℝ := ∑ i, (if mask i = 0 then d i ^ 2 else 0)

end Verif.Spec
