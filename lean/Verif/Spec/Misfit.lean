import Verif.Spec.Descent

/-! How far a source cloud, moved by a pose, is from a target cloud. Only points in space and poses are used. -/

namespace Verif.Spec

open Matrix Verif.Factors

/-- Squared distance from `q` to the nearest target point, capped at `gate`. -/
noncomputable def nearestGap (tgt : List Site) (gate : ℝ) (q : Fin 3 → ℝ) : ℝ := (tgt.map (fun t => (t.pos - q) ⬝ᵥ (t.pos - q))).foldr min gate

/-- Sum of the capped squared distances of all source points, moved by `T`. -/
noncomputable def misfit (tgt src : List Site) (gate : ℝ) (T : Pose ℝ) : ℝ := (src.map (fun s => nearestGap tgt gate (move T s.pos))).sum

end Verif.Spec
