import Verif.Model.KdTree

/-!
Contracts of the library functions used by the kd-tree builder, and an abstract (pointer-free) tree.
-/

namespace Verif.KdTree

open Verif

variable {D : Type}

/-- Contract of `std::nth_element` on (index, value) pairs compared by value ([alg.nth.element]): the result is a
permutation, nothing before position `n` is larger and nothing from `n` on is smaller than the element at `n`. -/
structure NthElementSpec [LE D] (nth : List (Nat × D) → Nat → List (Nat × D)) : Prop where
  perm : ∀ l n, (nth l n).Perm l
  split : ∀ l n m, (nth l n)[n]? = some m →
    (∀ a ∈ (nth l n).take n, a.2 ≤ m.2) ∧ (∀ a ∈ (nth l n).drop n, m.2 ≤ a.2)

/-- A direction that the projection may return without breaking the pruning bound: an axis, or a vector of
squared norm at most one. -/
def Proj.UnitBounded [Mul D] [Add D] [One D] [LE D] : Proj D → Prop
  | .axis _ => True
  | .normal a b c => a * a + b * b + c * c ≤ 1

/-- `find_axis` succeeds on every non-empty range of valid indices, with a projection satisfying `P`. -/
def FindAxisSpec (P : Proj D → Prop) (find : List (Pt D) → List Nat → Res (Proj D)) : Prop :=
  ∀ points range, range ≠ [] → (∀ i ∈ range, i < points.length) → ∃ p, find points range = .ok p ∧ P p

/-- Pointer-free kd-tree; leaves carry the point indices they contain. -/
inductive KT (D : Type) where
  | leaf (items : List Nat)
  | node (proj : Proj D) (thresh : D) (l r : KT D)

namespace KT

/-- All point indices, in leaf order. -/
def items : KT D → List Nat
  | leaf is => is
  | node _ _ l r => l.items ++ r.items

/-- Number of nodes. -/
def size : KT D → Nat
  | leaf _ => 1
  | node _ _ l r => 1 + l.size + r.size

def depth : KT D → Nat
  | leaf _ => 0
  | node _ _ l r => 1 + max l.depth r.depth

/-- Every inner node separates its subtrees: projections on the left are at most, on the right at least the
threshold. -/
def Separated [LE D] (o : Ops D) (points : List (Pt D)) : KT D → Prop
  | leaf _ => True
  | node p th l r =>
    (∀ i ∈ l.items, ∀ pt, points[i]? = some pt → p.eval o pt ≤ th) ∧
    (∀ i ∈ r.items, ∀ pt, points[i]? = some pt → th ≤ p.eval o pt) ∧
    l.Separated o points ∧ r.Separated o points

/-- Every projection in the tree satisfies `P`. -/
def AllProj (P : Proj D → Prop) : KT D → Prop
  | leaf _ => True
  | node p _ l r => P p ∧ l.AllProj P ∧ r.AllProj P

/-- Every leaf satisfies the size limit. -/
def LeafSizes (m : Nat) : KT D → Prop
  | leaf is => is.length ≤ m
  | node _ _ l r => l.LeafSizes m ∧ r.LeafSizes m

end KT

/-- The node array and index array `(nodes, indices)` represent the abstract tree `t` rooted at node `i`. -/
inductive Represents (nodes : List (Node D)) (indices : List Nat) : Nat → KT D → Prop
  | leaf (i first last : Nat) (hr : nodes[i]? = some ⟨.leaf first last, INVALID_NODE, INVALID_NODE⟩)
      (hle : first ≤ last) (hlen : last ≤ indices.length) :
      Represents nodes indices i (.leaf (slice indices first last))
  | node (i l r : Nat) (proj : Proj D) (thresh : D) (tl tr : KT D)
      (hn : nodes[i]? = some ⟨.sub proj thresh, l, r⟩)
      (hl : l ≠ INVALID_NODE) (hl' : Represents nodes indices l tl) (hr' : Represents nodes indices r tr) :
      Represents nodes indices i (.node proj thresh tl tr)

end Verif.KdTree
