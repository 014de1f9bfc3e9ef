import Verif.Model.Python

/-!
Model of the factor classes of the Python module (`src/python/factors.cpp`) and of the loop over them in `src/test/python_test.py`, over the real numbers.
-/

namespace Verif.Python

open Matrix Verif Verif.PointCloud Verif.Features Verif.RegMem Verif.Factors Verif.Pipeline

/-- `DistanceRejector()` (factors.cpp:29, rejector.hpp:21): the member `max_dist_sq`. -/
noncomputable def rejectorInit : ℝ := 1

/-- `set_max_distance(dist)` (factors.cpp:32). -/
noncomputable def setMaxDistance (dist : ℝ) : ℝ := dist * dist

/-- What the factors read: a target cloud, a source cloud and a `KdTree` object, which refers to the points of its own cloud. -/
noncomputable def factorWorld (e : Env) (target source : RCloud) (treePoints : List (Pt ℝ)) (t : KdTree.Tree ℝ) : World ℝ :=
  cloudWorld target source (kdNearest e.maxD treePoints t (treePoints.length + 1) e.junk)

/-- `linearize(target, source, kdtree, T, source_index, rejector)` of `ICPFactor`, `PointToPlaneICPFactor` and `GICPFactor` (factors.cpp:54-67, 115-128, 176-189). `f` is the state of the
factor object, which the call changes; the flag and `H`, `b`, `e` are returned, zero where the factor does not write them. `T` is taken for a pose: the last row of the 4x4 matrix is 0, 0, 0, 1. -/
noncomputable def linearize {F : Type} (mf : MemFactor F ℝ) (w : World ℝ) (T : Pose ℝ) (sourceIndex : Nat) (maxDistSq : ℝ) (f : F) : Res (F × Bool × Sys ℝ) := do
  let (f, o) ← mf.linearize w (distanceRejector maxDistSq) T sourceIndex f
  match o with
  | none => return (f, false, (0, 0, 0))
  | some s => return (f, true, s)

/-- One pass of the loop (python_test.py:159-164). -/
noncomputable def addFactor {F : Type} (mf : MemFactor F ℝ) (w : World ℝ) (T : Pose ℝ) (maxDistSq : ℝ) (st : F × Sys ℝ) (i : Nat) : Res (F × Sys ℝ) := do
  let (f, succ, s) ← linearize mf w T i maxDistSq st.1
  if succ then return (f, st.2 + s) else return (f, st.2)

/-- The loop over the source points with one and the same factor object (python_test.py:152-164): the state of the object after it, and the sums. -/
noncomputable def sumFactors {F : Type} (mf : MemFactor F ℝ) (w : World ℝ) (n : Nat) (T : Pose ℝ) (maxDistSq : ℝ) (f : F) : Res (F × Sys ℝ) :=
  (List.range n).foldlM (addFactor mf w T maxDistSq) (f, 0)

end Verif.Python
