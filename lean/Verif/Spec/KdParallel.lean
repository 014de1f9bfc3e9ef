import Verif.Model.KdTreeParallel

/-!
What the running activations of a parallel build are working on.
-/

namespace Verif.KdTree

variable {D : Type}

/-- Index ranges read and permuted by activations that are currently running. -/
def Proc.ranges : Proc D → List (Nat × Nat)
  | .start f l => [(f, l)]
  | .alloc _ f l => [(f, l)]
  | .split _ f _ l _ _ => [(f, l)]
  | .node _ _ l r => l.ranges ++ r.ranges
  | .ret _ => []
  | .stored _ => []

/-- Node slots written by activations that are currently running. -/
def Proc.slots : Proc D → List Nat
  | .start _ _ => []
  | .alloc id _ _ => [id]
  | .split id _ _ _ _ _ => [id]
  | .node id _ l r => id :: (l.slots ++ r.slots)
  | .ret _ => []
  | .stored _ => []

end Verif.KdTree
