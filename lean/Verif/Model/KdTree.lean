import Verif.Model.Arith
import Verif.Model.KnnResult

/-!
Model of `include/small_gicp/ann/projection.hpp` and `include/small_gicp/ann/kdtree.hpp`.

Everything is at the level of the C++ arrays: `indices`, `nodes` (allocated with the size of the cloud) and the
node counter. Recursion of `create_node` and `knn_search` takes fuel; running out of fuel is the outcome
`stackOverflow` (unbounded recursion in C++).
-/

namespace Verif.KdTree

open Verif Verif.Knn

variable {D : Type} [LT D] [LE D] [DecidableLT D] [DecidableLE D]

/-- Axis index 0, 1, 2 of `AxisAlignedProjection::axis` (projection.hpp:53); `find_axis` returns only these (line 49). -/
inductive Axis where
  | x | y | z
  deriving DecidableEq, Repr

/-- `AxisAlignedProjection` (projection.hpp:18-54) or `NormalProjection` (projection.hpp:58-99). -/
inductive Proj (D : Type) where
  | axis (a : Axis)
  | normal (nx ny nz : D)
  deriving DecidableEq, Repr

/-- `operator()` of the projections (projection.hpp:23 and 63). -/
def Proj.eval (o : Ops D) : Proj D → Pt D → D
  | .axis .x, p => p.x
  | .axis .y, p => p.y
  | .axis .z, p => p.z
  | .normal nx ny nz, p => o.dot3 nx ny nz p.x p.y p.z

/-- Positions scanned by `find_axis` (projection.hpp:33-41, identical in 73-81): `step * i` for
`i < num_steps`. Division by `max_scan_count = 0` is undefined behaviour. -/
def scanPositions (n : Nat) (maxScanCount : Int) : Res (List Nat) :=
  let m := toU64 maxScanCount
  if n < m then .ok (List.range n)
  else if m = 0 then .error .divByZero
  else
    let step := n / m
    if step = 0 then .error .divByZero
    else .ok ((List.range (n / step)).map (fun i => step * i))

/-- Points scanned by `find_axis` (projection.hpp:39-41). -/
def scanPoints (points : List (Pt D)) (range : List Nat) (maxScanCount : Int) : Res (List (Pt D)) := do
  let pos ← scanPositions range.length maxScanCount
  pos.mapM (fun j => do
    let i ← rd range j
    rd points i)

/-- `AxisAlignedProjection::find_axis` (projection.hpp:32-50). -/
def findAxis (o : Ops D) (maxScanCount : Int) (points : List (Pt D)) (range : List Nat) : Res (Proj D) := do
  let pts ← scanPoints points range maxScanCount
  let sumPt := pts.foldl (fun s p => Pt.add o s p) (Pt.zero o)
  let sumSq := pts.foldl (fun s p => Pt.add o s (Pt.cmul o p p)) (Pt.zero o)
  let mean := Pt.sdiv o sumPt sumPt.w
  let var := Pt.sub o sumSq (Pt.cmul o mean sumPt)
  return .axis (if var.y < var.x then (if var.z < var.x then .x else .z) else (if var.z < var.y then .y else .z))

/-- `NormalProjection::find_axis` (projection.hpp:72-95). The covariance of the scanned points and the
eigen-solver (lines 82-93) are the parameter `solve`, which maps the scanned points to the direction. -/
def findNormal (solve : List (Pt D) → D × D × D) (maxScanCount : Int) (points : List (Pt D)) (range : List Nat) :
    Res (Proj D) := do
  let pts ← scanPoints points range maxScanCount
  let n := solve pts
  return .normal n.1 n.2.1 n.2.2

/-- Active member of the union in `KdTreeNode` (kdtree.hpp:58-67). -/
inductive Payload (D : Type) where
  | unset
  | leaf (first last : Nat)
  | sub (proj : Proj D) (thresh : D)
  deriving DecidableEq, Repr

/-- `INVALID_NODE` (kdtree.hpp:53). -/
def INVALID_NODE : Nat := 2 ^ 32 - 1

/-- `KdTreeNode` (kdtree.hpp:57-71). -/
structure Node (D : Type) where
  payload : Payload D
  left : Nat
  right : Nat
  deriving DecidableEq, Repr

/-- Default-initialised node (kdtree.hpp:69-70). -/
def Node.fresh : Node D := ⟨.unset, INVALID_NODE, INVALID_NODE⟩

/-- Mutable state while building: `kdtree.indices`, `kdtree.nodes`, `node_count`. -/
structure BuildState (D : Type) where
  indices : List Nat
  nodes : List (Node D)
  nodeCount : Nat
  deriving DecidableEq, Repr

/-- The finished tree (kdtree.hpp:236-240). `root = none` is the uninitialised member of an empty cloud. -/
structure Tree (D : Type) where
  indices : List Nat
  nodes : List (Node D)
  root : Option Nat
  deriving DecidableEq, Repr

/-- Builder parameters: `max_leaf_size` (kdtree.hpp:129), the projection's `find_axis`, and `std::nth_element`
(kdtree.hpp:115) on (index, projected value) pairs compared by value. -/
structure Builder (D : Type) where
  maxLeafSize : Int
  findAxis : List (Pt D) → List Nat → Res (Proj D)
  nthElement : List (Nat × D) → Nat → List (Nat × D)

/-- Evaluate the projection of the points of a range (comparator of kdtree.hpp:115). -/
def projectRange (o : Ops D) (points : List (Pt D)) (proj : Proj D) (range : List Nat) : Res (List (Nat × D)) :=
  range.mapM (fun i => do
    let p ← rd points i
    return (i, proj.eval o p))

/-- `N <= max_leaf_size` (kdtree.hpp:103): `size_t` against `int`, compared as `size_t`. -/
def isLeafSize (n : Nat) (maxLeafSize : Int) : Bool := decide (n ≤ toU64 maxLeafSize)

/-- Lines 111-119 of kdtree.hpp: choose the projection, run `nth_element`, read the threshold.
Returns the projection, the threshold and the permuted range. -/
def splitRange (o : Ops D) (b : Builder D) (points : List (Pt D)) (range : List Nat) : Res (Proj D × D × List Nat) := do
  let proj ← b.findAxis points range
  let keyed ← projectRange o points proj range
  let keyed := b.nthElement keyed (range.length / 2)
  let m ← rd keyed (range.length / 2)
  return (proj, m.2, keyed.map Prod.fst)

/-- `KdTreeBuilder::create_node` (kdtree.hpp:96-126). -/
def createNode (o : Ops D) (b : Builder D) (points : List (Pt D)) :
    Nat → Nat → Nat → BuildState D → Res (Nat × BuildState D)
  | 0, _, _, _ => .error .stackOverflow
  | fuel + 1, first, last, s => do
    let n := last - first
    let nodeIndex := toU32 s.nodeCount
    let s := { s with nodeCount := s.nodeCount + 1 }
    if isLeafSize n b.maxLeafSize then
      let node ← rd s.nodes nodeIndex
      let nodes ← wr s.nodes nodeIndex { node with payload := .leaf (toU32 first) (toU32 last) }
      return (nodeIndex, { s with nodes := nodes })
    else
      let (proj, thresh, seg) ← splitRange o b points (slice s.indices first last)
      let s := { s with indices := overwrite s.indices first last seg }
      let mid := first + n / 2
      let node ← rd s.nodes nodeIndex
      let nodes ← wr s.nodes nodeIndex { node with payload := .sub proj thresh }
      let s := { s with nodes := nodes }
      let (l, s) ← createNode o b points fuel first mid s
      let node ← rd s.nodes nodeIndex
      let nodes ← wr s.nodes nodeIndex { node with left := l }
      let s := { s with nodes := nodes }
      let (r, s) ← createNode o b points fuel mid last s
      let node ← rd s.nodes nodeIndex
      let nodes ← wr s.nodes nodeIndex { node with right := r }
      return (nodeIndex, { s with nodes := nodes })

/-- `KdTreeBuilder::build_tree` (kdtree.hpp:80-88); the final `nodes.resize(node_count)` only shrinks when
construction succeeded. -/
def buildTree (o : Ops D) (b : Builder D) (fuel : Nat) (points : List (Pt D)) : Res (Tree D) := do
  let n := points.length
  let s : BuildState D := ⟨List.range n, List.replicate n Node.fresh, 0⟩
  let (root, s) ← createNode o b points fuel 0 n s
  return ⟨s.indices, s.nodes.take s.nodeCount, some root⟩

/-- `UnsafeKdTree::UnsafeKdTree` (kdtree.hpp:146-153): an empty cloud leaves `root` uninitialised. -/
def construct (o : Ops D) (b : Builder D) (fuel : Nat) (points : List (Pt D)) : Res (Tree D) :=
  if points.length = 0 then .ok ⟨[], [], none⟩ else buildTree o b fuel points

/-- Leaf loop of `knn_search` (kdtree.hpp:200-203): positions `i, i+1, ...` while `cnt` remain. -/
def leafLoop (o : Ops D) (points : List (Pt D)) (indices : List Nat) (query : Pt D) :
    Nat → Nat → KnnResult D → Res (KnnResult D)
  | 0, _, r => .ok r
  | cnt + 1, i, r => do
    let idx ← rd indices i
    let p ← rd points idx
    let r ← r.push id idx (Pt.sqDist o p query)
    leafLoop o points indices query cnt (i + 1) r

/-- Recursive `knn_search` (kdtree.hpp:194-233). -/
def searchNode (o : Ops D) (points : List (Pt D)) (t : Tree D) (query : Pt D) (epsilon : D) :
    Nat → Nat → KnnResult D → Res (Bool × KnnResult D)
  | 0, _, _ => .error .stackOverflow
  | fuel + 1, nodeIndex, r => do
    let node ← rd t.nodes nodeIndex
    if node.left = INVALID_NODE then
      match node.payload with
      | .leaf first last =>
        let r ← leafLoop o points t.indices query (last - first) first r
        let f ← fulfilled epsilon r
        return (!f, r)
      | _ => .error .uninit
    else
      match node.payload with
      | .sub proj thresh =>
        let val := proj.eval o query
        let diff := o.sub val thresh
        let cut := o.mul diff diff
        let best := if diff < o.zero then node.left else node.right
        let other := if diff < o.zero then node.right else node.left
        let (go, r) ← searchNode o points t query epsilon fuel best r
        if go = false then return (false, r)
        else
          let worst ← r.worstDistance
          if cut < worst then searchNode o points t query epsilon fuel other r
          else return (true, r)
      | _ => .error .uninit

/-- `UnsafeKdTree::knn_search` (kdtree.hpp:172-176 with `N = -1`, 185-189 with static `N` and
`num_neighbors = -1`). Reading the uninitialised `root` is `uninit`. -/
def knnSearch (o : Ops D) (maxD : D) (points : List (Pt D)) (t : Tree D) (fuel : Nat) (N k : Int)
    (indices : List Nat) (dists : List D) (query : Pt D) (epsilon : D) : Res (KnnResult D) := do
  let r ← Knn.construct maxD N indices dists k
  match t.root with
  | none => .error .uninit
  | some root =>
    let (_, r) ← searchNode o points t query epsilon fuel root r
    return r

/-- `UnsafeKdTree::nearest_neighbor_search` (kdtree.hpp:161-163). -/
def nearestNeighborSearch (o : Ops D) (maxD : D) (points : List (Pt D)) (t : Tree D) (fuel : Nat)
    (indices : List Nat) (dists : List D) (query : Pt D) (epsilon : D) : Res (KnnResult D) :=
  knnSearch o maxD points t fuel 1 (-1) indices dists query epsilon

end Verif.KdTree
