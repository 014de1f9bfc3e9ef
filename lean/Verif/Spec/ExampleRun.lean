import Verif.Spec.Example
import Verif.Spec.Stiff
import Verif.Spec.Knn

/-! Specification of the sites that the template example registers to. -/

namespace Verif.Spec

open Matrix Verif

/-- The points `pts` with normals: zero if there are fewer than five points, otherwise a unit normal, on the side of the origin, of the surface through the (at most ten) nearest points. -/
def SurfaceSites (pts : List (Fin 3 → ℝ)) (l : List Site) : Prop :=
  l.map Site.pos = pts ∧ ∀ (i : Nat) (p : Fin 3 → ℝ) (s : Site), pts[i]? = some p → l[i]? = some s →
    ∃ nb, IsKnn (spaceDist pts ![p 0, p 1, p 2, 1]) pts.length 10 nb ∧ (pts.length < 5 → s.normal = 0) ∧
      (5 ≤ pts.length → ∃ ps : List (Fin 3 → ℝ), nb.map (fun c => pts[c.1]?) = ps.map some ∧ s.normal ⬝ᵥ s.normal = 1 ∧ p ⬝ᵥ s.normal ≤ 0 ∧
        ∀ x, x ⬝ᵥ x = 1 → spread ps s.normal ≤ spread ps x)

/-- A choice of (at most ten) points of `tgt` nearest to `p` can serve as indices of a list of `n` points: there are fewer than five, which are not used, or all are below `n`. -/
def UsableIn (n : Nat) (nb : List (Nat × ℝ)) : Prop := nb.length < 5 ∨ ∀ c ∈ nb, c.1 < n

/-- All choices of nearest target points of all source points can be used as indices of the source. -/
def AllUsable (tgt src : List (Fin 3 → ℝ)) : Prop :=
  ∀ p ∈ src, ∀ nb, IsKnn (spaceDist tgt ![p 0, p 1, p 2, 1]) tgt.length 10 nb → UsableIn src.length nb

/-- For some source point no choice of nearest target points can be used as indices of the source. -/
def SomeUnusable (tgt src : List (Fin 3 → ℝ)) : Prop :=
  ∃ p ∈ src, ∀ nb, IsKnn (spaceDist tgt ![p 0, p 1, p 2, 1]) tgt.length 10 nb → ¬ UsableIn src.length nb

end Verif.Spec
