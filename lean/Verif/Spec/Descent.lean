import Verif.Spec.Pipeline
import Verif.Model.Lie
import Mathlib.LinearAlgebra.Matrix.NonsingularInverse
import Mathlib.Analysis.Calculus.Deriv.Basic

/-!
What a registration computes, in terms of points with normals and covariances in space: Levenberg–Marquardt descent on the summed cost
of matched pairs. The gradient and the Gauss–Newton matrix are given by derivatives; nothing of the factors, reductions and optimisers of the model is used.
Of the model only the data types `Pose` and `Result`, the product of poses and the exponential map (C42) are used.
-/

namespace Verif.Spec

open Matrix Verif Verif.Factors Verif.Optimizer Verif.Lie

/-- A point in space with normal and covariance. -/
structure Site where
  pos : Fin 3 → ℝ
  normal : Fin 3 → ℝ
  cov : Matrix (Fin 3) (Fin 3) ℝ

/-- The same point without normal. -/
def Site.bare (s : Site) : Site := ⟨s.pos, 0, s.cov⟩

/-- The three costs. -/
inductive Metric where
  | point
  | plane
  | cov

/-- The point `x` moved by `T`. -/
def move (T : Pose ℝ) (x : Fin 3 → ℝ) : Fin 3 → ℝ := T.R *ᵥ x + T.t

/-- The weight of the difference of two matched points, fixed at the pose `L`. -/
noncomputable def pairWeight (m : Metric) (L : Pose ℝ) (t s : Site) : Matrix (Fin 3) (Fin 3) ℝ :=
  match m with
  | .point => 1
  | .plane => diagonal (fun i => t.normal i ^ 2)
  | .cov => (t.cov + L.R * s.cov * L.Rᵀ)⁻¹

/-- Difference of a target point and a source point moved by `T`. -/
def pairDiff (T : Pose ℝ) (t s : Site) : Fin 3 → ℝ := t.pos - move T s.pos

/-- The cost of a pair at `T`, with the weight fixed at `L`. -/
noncomputable def pairCost (m : Metric) (L : Pose ℝ) (t s : Site) (T : Pose ℝ) : ℝ := 1 / 2 * (pairDiff T t s ⬝ᵥ pairWeight m L t s *ᵥ pairDiff T t s)

/-- Sum over all source points that have a partner. -/
noncomputable def pairSum (src : List Site) (partner : List (Option Site)) (f : Site → Site → ℝ) : ℝ :=
  (List.zipWith (fun s o => match o with | none => 0 | some t => f t s) src partner).sum

noncomputable def totalCost (m : Metric) (src : List Site) (partner : List (Option Site)) (L T : Pose ℝ) : ℝ := pairSum src partner (fun t s => pairCost m L t s T)

/-- The speed of the difference of a pair when the pose leaves `L` along `x`. -/
noncomputable def pairSpeed (L : Pose ℝ) (x : Fin 6 → ℝ) (t s : Site) : Fin 3 → ℝ := deriv (fun u : ℝ => pairDiff (L.mul (se3Exp (u • x))) t s) 0

/-- The partners of the source points at the pose `L`, by a rule `M` that says which partner a point in space may have, and the Gauss–Newton system: `b` is
the gradient of the cost along `L * exp(x)`, `H` the matrix of the weighted squared speeds of the differences. -/
structure Linearised (m : Metric) (M : (Fin 3 → ℝ) → Option Site → Prop) (src : List Site) (L : Pose ℝ) (partner : List (Option Site)) (H : Matrix (Fin 6) (Fin 6) ℝ)
    (b : Fin 6 → ℝ) : Prop where
  matched : List.Forall₂ (fun s o => M (move L s.pos) o) src partner
  psd : SymPSD H
  hess : ∀ x, x ⬝ᵥ H *ᵥ x = pairSum src partner (fun t s => pairSpeed L x t s ⬝ᵥ pairWeight m L t s *ᵥ pairSpeed L x t s)
  grad : ∀ x, HasDerivAt (fun u : ℝ => totalCost m src partner L (L.mul (se3Exp (u • x)))) (b ⬝ᵥ x) 0

/-- `d` solves the normal equations with damping `lam`. -/
def Damped (H : Matrix (Fin 6) (Fin 6) ℝ) (b : Fin 6 → ℝ) (lam : ℝ) (d : Fin 6 → ℝ) : Prop := (H + lam • (1 : Matrix (Fin 6) (Fin 6) ℝ)) *ᵥ d = -b

/-- The step is small: lengths of its rotation (first three) and translation part. -/
def SmallStep (rotEps traEps : ℝ) (d : Fin 6 → ℝ) : Prop :=
  Real.sqrt (d 0 ^ 2 + d 1 ^ 2 + d 2 ^ 2) ≤ rotEps ∧ Real.sqrt (d 3 ^ 2 + d 4 ^ 2 + d 5 ^ 2) ≤ traEps

/-- Number of source points with a partner. -/
def paired (partner : List (Option Site)) : Nat := partner.countP Option.isSome

open Classical in
/-- Levenberg–Marquardt descent, as a relation between results before and after at most `n` more iterations, the first of which has number `i` and starts with
damping `lam`. Each iteration finds the partners at the current pose and tries the steps with damping `lam`, `lam * factor`, ... (at most `inner` of them) until one does not
increase the cost of these pairs; then the damping is divided by `factor`. It ends after a small step, when no step is found, or when `n` is used up. -/
inductive LMRun (m : Metric) (M : (Fin 3 → ℝ) → Option Site → Prop) (src : List Site) (inner : Nat) (factor rotEps traEps : ℝ) : Nat → Nat → ℝ → Result ℝ → Result ℝ → Prop
  | budget (i : Nat) (lam : ℝ) (r : Result ℝ) : LMRun m M src inner factor rotEps traEps 0 i lam r r
  | done (n i : Nat) (lam : ℝ) (r : Result ℝ) : r.converged = true → LMRun m M src inner factor rotEps traEps n i lam r r
  | stuck (n i : Nat) (lam : ℝ) (r : Result ℝ) (partner : List (Option Site)) (H : Matrix (Fin 6) (Fin 6) ℝ) (b : Fin 6 → ℝ) (d : Nat → Fin 6 → ℝ) :
      r.converged = false → Linearised m M src r.T partner H b →
      (∀ k < inner, Damped H b (lam * factor ^ k) (d k) ∧ totalCost m src partner r.T r.T < totalCost m src partner r.T (r.T.mul (se3Exp (d k)))) →
      LMRun m M src inner factor rotEps traEps (n + 1) i lam r ⟨r.T, false, i, paired partner, H, b, totalCost m src partner r.T r.T⟩
  | step (n i : Nat) (lam : ℝ) (r r' : Result ℝ) (partner : List (Option Site)) (H : Matrix (Fin 6) (Fin 6) ℝ) (b : Fin 6 → ℝ) (k : Nat) (d : Nat → Fin 6 → ℝ) :
      r.converged = false → Linearised m M src r.T partner H b → k < inner →
      (∀ j < k, Damped H b (lam * factor ^ j) (d j) ∧ totalCost m src partner r.T r.T < totalCost m src partner r.T (r.T.mul (se3Exp (d j)))) →
      Damped H b (lam * factor ^ k) (d k) → totalCost m src partner r.T (r.T.mul (se3Exp (d k))) ≤ totalCost m src partner r.T r.T →
      LMRun m M src inner factor rotEps traEps n (i + 1) (lam * factor ^ k / factor)
        ⟨r.T.mul (se3Exp (d k)), decide (SmallStep rotEps traEps (d k)), i, paired partner, H, b, totalCost m src partner r.T (r.T.mul (se3Exp (d k)))⟩ r' →
      LMRun m M src inner factor rotEps traEps (n + 1) i lam r r'

/-- The partner is a nearest target point, if one is within the squared distance `gate`. -/
def NearestWithin (tgt : List Site) (gate : ℝ) (q : Fin 3 → ℝ) : Option Site → Prop
  | none => ∀ t ∈ tgt, gate < (t.pos - q) ⬝ᵥ (t.pos - q)
  | some t => t ∈ tgt ∧ (t.pos - q) ⬝ᵥ (t.pos - q) ≤ gate ∧ ∀ t' ∈ tgt, (t.pos - q) ⬝ᵥ (t.pos - q) ≤ (t'.pos - q) ⬝ᵥ (t'.pos - q)

/-- The partner is a nearest one of the sites that are offered at `q`, if one is within the squared distance `gate`. -/
def NearestOffered (S : (Fin 3 → ℝ) → Site → Prop) (gate : ℝ) (q : Fin 3 → ℝ) : Option Site → Prop
  | none => ∀ t, S q t → gate < (t.pos - q) ⬝ᵥ (t.pos - q)
  | some t => S q t ∧ (t.pos - q) ⬝ᵥ (t.pos - q) ≤ gate ∧ ∀ t', S q t' → (t.pos - q) ⬝ᵥ (t.pos - q) ≤ (t'.pos - q) ⬝ᵥ (t'.pos - q)

/-- The cell of side `resolution` in which a point in space lies. -/
noncomputable def spaceCell (resolution : ℝ) (q : Fin 3 → ℝ) : Int × Int × Int := (⌊q 0 / resolution⌋, ⌊q 1 / resolution⌋, ⌊q 2 / resolution⌋)

open Classical in
/-- The sites that share a cell with `q`. -/
noncomputable def cellSites (tgt : List Site) (resolution : ℝ) (q : Fin 3 → ℝ) : List Site := tgt.filter (fun s => decide (spaceCell resolution s.pos = spaceCell resolution q))

/-- The average of the sites that share a cell with `q`. It has no normal. -/
def CellAverage (tgt : List Site) (resolution : ℝ) (q : Fin 3 → ℝ) (t : Site) : Prop :=
  cellSites tgt resolution q ≠ [] ∧ t.normal = 0 ∧
  t.pos = (((cellSites tgt resolution q).length : ℝ)⁻¹) • ((cellSites tgt resolution q).map Site.pos).sum ∧
  t.cov = (((cellSites tgt resolution q).length : ℝ)⁻¹) • ((cellSites tgt resolution q).map Site.cov).sum

/-- The rule `M`, only for points of the region `D`. -/
def Where (D : (Fin 3 → ℝ) → Prop) (M : (Fin 3 → ℝ) → Option Site → Prop) (q : Fin 3 → ℝ) (o : Option Site) : Prop := D q ∧ M q o

/-- The coordinates of the cell of `q`, and of the number 1, fit in an `int`. -/
def HasCell (resolution : ℝ) (q : Fin 3 → ℝ) : Prop :=
  (∀ i, -2 ^ 31 ≤ ⌊q i / resolution⌋ ∧ ⌊q i / resolution⌋ < 2 ^ 31) ∧ -2 ^ 31 ≤ ⌊1 / resolution⌋ ∧ ⌊1 / resolution⌋ < 2 ^ 31

/-- The points `pts` with normals and covariances from their `k` nearest neighbours each: zero and the identity where fewer than five are found, otherwise the surface
normal and the covariance of a disc across it. -/
def LocalSites (pts : List (Pt ℝ)) (maxD : ℝ) (k : Nat) (l : List Site) : Prop :=
  l.map Site.pos = pts.map xyz ∧ ∀ (i : Nat) (p : Pt ℝ) (s : Site), pts[i]? = some p → l[i]? = some s → ∃ nb, Neighbours pts maxD k p nb ∧
    (nb.length < 5 → s.normal = 0 ∧ s.cov = 1) ∧
    (5 ≤ nb.length → ∃ ps : List (Pt ℝ), nb.map (fun c => pts[c.1]?) = ps.map some ∧ SurfaceNormal p (ps.map xyz) s.normal ∧
      s.cov = 1 - (999 / 1000 : ℝ) • vecMulVec s.normal s.normal)

end Verif.Spec
