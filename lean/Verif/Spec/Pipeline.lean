import Verif.Spec.Features
import Verif.Spec.Registration
import Verif.Spec.RegistrationMemory
import Verif.Spec.Downsampling
import Verif.Spec.KdTree
import Verif.Spec.Knn
import Verif.Spec.Geometry
import Verif.Model.Pipeline

/-! Specifications for the preprocessing and alignment functions of `registration_helper.cpp`. -/

namespace Verif.Spec

open Matrix Verif Verif.Factors Verif.KdTree

/-- The contracts of everything the pipeline takes from outside (see the trusted base). -/
structure EnvMeets (e : Pipeline.Env) : Prop where
  maxD : 0 ≤ e.maxD
  nth : NthElementSpec e.nthElement
  sort : SortSpec e.sort
  sortOmp : SortSpec e.sortOmp
  eig : ∀ A, SymPSD A → EigenBasis A (e.eig A)
  inv : InverseContract e.inv
  solve : SolveContract e.solve

/-- The first three coordinates. -/
def xyz (p : Pt ℝ) : Fin 3 → ℝ := ![p.x, p.y, p.z]

/-- `nb` lists, with squared distances, `k` nearest points to `q` among `pts` (all points if there are fewer), leaving out those whose squared
distance is not below `maxD`. -/
def Neighbours (pts : List (Pt ℝ)) (maxD : ℝ) (k : Nat) (q : Pt ℝ) (nb : List (Nat × ℝ)) : Prop :=
  IsNearest (fun j d => (∃ p, pts[j]? = some p ∧ d = sqd p q) ∧ d < maxD) k nb ∧ (nb.map Prod.fst).Nodup

/-- `n` is a unit normal of the local surface at `p`, on the side of the origin: no other unit vector has a smaller spread over `ps`. -/
def SurfaceNormal (p : Pt ℝ) (ps : List (Fin 3 → ℝ)) (n : Fin 3 → ℝ) : Prop :=
  n ⬝ᵥ n = 1 ∧ xyz p ⬝ᵥ n ≤ 0 ∧ ∀ x, x ⬝ᵥ x = 1 → spread ps n ≤ spread ps x

/-- The covariance of a disc across `n`: variance 0.001 along `n` and 1 across it; last row and column are zero. -/
def DiscCov (n : Fin 3 → ℝ) (C : Matrix (Fin 4) (Fin 4) ℝ) : Prop :=
  block33 C = 1 - (999 / 1000 : ℝ) • vecMulVec n n ∧ ∀ a b : Fin 4, a = 3 ∨ b = 3 → C a b = 0

/-- Normals and covariances of a cloud with points `pts`, from `k` nearest neighbours each: zero and `diag(1, 1, 1, 0)` where fewer than five
are found. -/
def LocalFeatures (pts : List (Pt ℝ)) (maxD : ℝ) (k : Nat) (c : Features.RCloud) : Prop :=
  c.points = pts.map (fun p => some ![p.x, p.y, p.z, p.w]) ∧ c.normals.length = pts.length ∧ c.covs.length = pts.length ∧
  ∀ (i : Nat) (p : Pt ℝ), pts[i]? = some p → ∃ nb n C, Neighbours pts maxD k p nb ∧ c.normals[i]? = some (some n) ∧ c.covs[i]? = some (some C) ∧
    (nb.length < 5 → n = 0 ∧ C = diagonal ![1, 1, 1, 0]) ∧
    (5 ≤ nb.length → n 3 = 0 ∧ ∃ ps : List (Pt ℝ), nb.map (fun c => pts[c.1]?) = ps.map some ∧ SurfaceNormal p (ps.map xyz) (head3 n) ∧ DiscCov (head3 n) C)

end Verif.Spec

namespace Verif.Spec

open Verif

/-- Serial down-sampling: one centroid per occupied cell; if no point is in range, one of the points; nothing for no points. -/
def SerialSample (leaf : ℝ) (pts out : List (Pt ℝ)) : Prop :=
  (pts = [] → out = []) ∧
  ((∃ p ∈ pts, GridInRange leaf p) → ∃ cells : List (Int × Int × Int), cells.Nodup ∧ (∀ c, c ∈ cells ↔ ∃ p ∈ pts, GridInRange leaf p ∧ gridCell leaf p = c) ∧
    out = cells.map (fun c => centroid (cellPoints leaf pts c))) ∧
  (pts ≠ [] → (∀ p ∈ pts, ¬ GridInRange leaf p) → ∃ p ∈ pts, out = [p])

open Classical in
/-- Down-sampling in blocks of 1024: the centroids, in any order, of a partition of the points in range into groups of one cell each, and
copies of as many of the other points as there are blocks without a point in range. -/
def BlockSample (leaf : ℝ) (pts out : List (Pt ℝ)) : Prop :=
  (pts = [] → out = []) ∧
  (pts ≠ [] → ∃ (G : List (List (Pt ℝ))) (E : List (Pt ℝ)), out.Perm (G.map centroid ++ E) ∧ G.flatten.Perm (pts.filter (fun p => decide (GridInRange leaf p))) ∧
    (∀ g ∈ G, g ≠ [] ∧ ∃ c, ∀ p ∈ g, gridCell leaf p = c) ∧ (∀ p ∈ E, p ∈ pts ∧ ¬ GridInRange leaf p) ∧
    E.length + ((pts.filter (fun p => decide (GridInRange leaf p))).length + 1023) / 1024 = (pts.length + 1023) / 1024)

end Verif.Spec
