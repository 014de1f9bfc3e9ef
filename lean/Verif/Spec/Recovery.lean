import Verif.Spec.GaussNewton
import Verif.Spec.Lie
import Verif.Spec.Distance

/-! Two scans of the same points, and when they determine the pose between them. -/

namespace Verif.Spec

open Matrix Verif Verif.Factors Verif.Optimizer

/-- The rigid pose `T` brings every source point onto a target point, and the target has no two sites at one place. -/
structure Overlaps (tgt src : List Site) (T : Pose ℝ) : Prop where
  rigid : IsRotation T.R
  image : ∀ s ∈ src, ∃ t ∈ tgt, t.pos = move T s.pos
  distinct : ∀ t ∈ tgt, ∀ t' ∈ tgt, t.pos = t'.pos → t = t'

/-- Every movement away from `T` changes the weighted difference of some pair that `T` brings together. -/
def Observable (m : Metric) (tgt src : List Site) (T : Pose ℝ) : Prop :=
  ∀ x : Fin 6 → ℝ, x ≠ 0 → ∃ s ∈ src, ∃ t ∈ tgt, t.pos = move T s.pos ∧ pairWeight m T t s *ᵥ pairSpeed T x t s ≠ 0

/-- The result of a registration of at most `n` iterations that started at the distance `g` from the true pose `T`: never more than three times as far away, all source points are inliers, and
what is left of the distance is bounded by the number of iterations if they were used up, and otherwise by the bounds `re` and `te` for a small step. The last term is what is left because
the rotations drift: it is of eighth order in `g`. -/
structure Recovered (T : Pose ℝ) (ρ C g re te : ℝ) (n size : Nat) (res : Result ℝ) : Prop where
  near : poseGap res.T T ≤ 3 * g
  inliers : 0 < n → res.numInliers = size
  budget : res.converged = false → poseGap res.T T ≤ 2 * ρ ^ n * g + C * g ^ 8
  small : res.converged = true → poseGap res.T T ≤ C * (re + te) + C * g ^ 8

end Verif.Spec
