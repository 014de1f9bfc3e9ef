import Verif.Model.PreprocessMachine

/-!
The sums and the covariance matrix of `estimate_local_features` in terms of the operations on numbers; `Model/PreprocessMachine.lean` leaves them open.
-/

namespace Verif.Machine

open Verif

section

variable {V R : Type}

/-- `(sum_cross - mean * sum_points.transpose()) / n` with `mean = sum_points / n` (normal_estimation.hpp:85-86), entry by entry; no operations are fused. `n` is the number of neighbours as a `double`. -/
def covMatrix (o : Ops V) (n : V) (sumPoints : Fin 4 → V) (sumCross : Matrix (Fin 4) (Fin 4) V) : Matrix (Fin 4) (Fin 4) V := fun j k =>
  o.div (o.sub (sumCross j k) (o.mul (o.div (sumPoints j) n) (sumPoints k))) n

/-- The evaluation of `estimate_local_features` (normal_estimation.hpp:77-91): the sums (lines 77-83), and the solver `eig` on the upper left block (lines 88-89). `normal` and `cov` are the computations of the setters
(lines 19-24, 41-43), `invalidCov` is the matrix of lines 34-35. -/
def roundedFeatures (o : Ops V) (ofNat : Nat → V) (eig : Matrix (Fin 3) (Fin 3) V → R) (normal : (Fin 4 → V) → R → (Fin 4 → V)) (cov : R → Matrix (Fin 4) (Fin 4) V) (invalidCov : Matrix (Fin 4) (Fin 4) V) :
    FeatureEval V (Matrix (Fin 4) (Fin 4) V) R where
  zero := fun _ => o.zero
  add := fun s p j => o.add (s j) (p j)
  zeroM := fun _ _ => o.zero
  addOuter := fun S p j k => o.add (S j k) (o.mul (p j) (p k))
  eigenvectors := fun s S n => eig (fun j k => covMatrix o (ofNat n) s S j.castSucc k.castSucc)
  normal := normal
  cov := cov
  invalidCov := invalidCov

end

end Verif.Machine
