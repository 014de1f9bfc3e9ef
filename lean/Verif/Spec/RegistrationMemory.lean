import Verif.Model.PointCloud
import Mathlib.LinearAlgebra.Matrix.Notation
import Mathlib.Algebra.Order.Field.Basic

/-! What a registration is expected to find, in terms of the clouds alone. -/

namespace Verif.Spec

open Matrix Verif.PointCloud

variable {K : Type} [Field K] [LinearOrder K]

/-- Every point (normal, covariance) of the cloud has been set. -/
def PointsSet {V M : Type} (c : Cloud V M) : Prop := ∀ i < c.points.length, ∃ p, c.points[i]? = some (some p)
def NormalsSet {V M : Type} (c : Cloud V M) : Prop := ∀ i < c.points.length, ∃ v, c.normals[i]? = some (some v)
def CovsSet {V M : Type} (c : Cloud V M) : Prop := ∀ i < c.points.length, ∃ m, c.covs[i]? = some (some m)

/-- Squared distance of two 4-vectors. -/
def dist2 (p q : Fin 4 → K) : K := (p - q) ⬝ᵥ (p - q)

/-- Some point of the cloud is within the (squared) gate of `q`. -/
def Within {M : Type} (c : Cloud (Fin 4 → K) M) (gate : K) (q : Fin 4 → K) : Prop :=
  ∃ (j : Nat) (p : Fin 4 → K), c.points[j]? = some (some p) ∧ dist2 p q ≤ gate

/-- Point `k` of the cloud is nearest to `q`. -/
def Closest {M : Type} (c : Cloud (Fin 4 → K) M) (q : Fin 4 → K) (k : Nat) : Prop :=
  ∃ p, c.points[k]? = some (some p) ∧ ∀ (j : Nat) (p' : Fin 4 → K), c.points[j]? = some (some p') → dist2 p q ≤ dist2 p' q

end Verif.Spec
