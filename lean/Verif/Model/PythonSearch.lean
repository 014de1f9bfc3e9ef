import Verif.Model.KdTree
import Verif.Model.Parallel

/-!
Model of the search functions of `src/python/kdtree.cpp`. The query matrix is the list of the first three entries of its rows together with
its number of columns. `size_t` and `double` results are stored in lists; a pointer into an array is the rest of the list from there on, so that
a callee may reach into the following rows. The result of a batch is the pair of arrays in row-major order.
-/

namespace Verif.PySearch

open Verif Verif.Knn Verif.KdTree

variable {D : Type} [LT D] [LE D] [DecidableLT D] [DecidableLE D]

/-- A kd-tree object, the constants of `double`, and the recursion depth at which the stack is exhausted. -/
structure Target (D : Type) where
  ops : Ops D
  maxD : D
  one : D
  points : List (Pt D)
  tree : Tree D
  fuel : Nat

/-- `Eigen::Vector4d(pts(i, 0), pts(i, 1), pts(i, 2), 1.0)` (kdtree.cpp:72, 99, 134, 180). -/
def Target.query (g : Target D) (q : D × D × D) : Pt D := ⟨q.1, q.2.1, q.2.2, g.one⟩

/-- `traits::knn_search(kdtree, ..., k, indices, dists)` with the default setting `epsilon = 0` (ann/traits.hpp:22-25, knn_result.hpp:22). -/
def Target.knn (g : Target D) (k : Int) (indices : List Nat) (dists : List D) (q : D × D × D) : Res (KnnResult D) :=
  knnSearch g.ops g.maxD g.points g.tree g.fuel (-1) k indices dists (g.query q) g.ops.zero

/-- `traits::nearest_neighbor_search(kdtree, ..., index, dist)` (ann/traits.hpp:43-57). -/
def Target.nearest (g : Target D) (indices : List Nat) (dists : List D) (q : D × D × D) : Res (KnnResult D) :=
  nearestNeighborSearch g.ops g.maxD g.points g.tree g.fuel indices dists (g.query q) g.ops.zero

/-- `KdTree.nearest_neighbor_search` (kdtree.cpp:69-74): number found, index, squared distance. -/
def nearestOne (g : Target D) (q : D × D × D) : Res (Nat × Nat × D) := do
  let r ← g.nearest [INVALID] [g.maxD] q
  let i ← rd r.indices 0
  let d ← rd r.distances 0
  .ok (r.numFound, i, d)

/-- `KdTree.knn_search` (kdtree.cpp:96-101). A vector of negative length is a `std::length_error`. -/
def knnOne (g : Target D) (q : D × D × D) (k : Int) : Res (List Nat × List D) :=
  if k < 0 then .error .exception
  else do
    let r ← g.knn k (List.replicate k.toNat INVALID) (List.replicate k.toNat g.maxD) q
    .ok (r.indices, r.distances)

/-- The padding loop (kdtree.cpp:182-185) from `j` on while `cnt` places remain. -/
def padLoop (maxD : D) : Nat → Nat → List Nat × List D → Res (List Nat × List D)
  | 0, _, s => .ok s
  | cnt + 1, j, s => do
    let ind ← wr s.1 j INVALID
    let dis ← wr s.2 j maxD
    padLoop maxD cnt (j + 1) (ind, dis)

/-- The product of two `int`. -/
def mulInt (a b : Int) : Res Int := if -2 ^ 31 ≤ a * b ∧ a * b < 2 ^ 31 then .ok (a * b) else .error .intOverflow

/-- One turn of the loop of `batch_knn_search` (kdtree.cpp:176-187). `i` and `k` are `int`, and so is their product. -/
def batchKnnStep (g : Target D) (pts : List (D × D × D)) (k : Int) (s : List Nat × List D) (i : Nat) : Res (List Nat × List D) := do
  let off ← mulInt i k
  let q ← rd pts i
  let r ← g.knn k (s.1.drop off.toNat) (s.2.drop off.toNat) q
  let row ← padLoop g.maxD (k.toNat - r.numFound) r.numFound (r.indices, r.distances)
  .ok (s.1.take off.toNat ++ row.1, s.2.take off.toNat ++ row.2)

/-- `KdTree.batch_knn_search` (kdtree.cpp:165-190). The iterations are distributed over the threads in `chunks`; `sched` interleaves them,
an iteration being one action (it reads and writes only its own row, see `C55_footprint`). A matrix with a negative number of columns
cannot be allocated. -/
def batchKnn (g : Target D) (cols : Nat) (pts : List (D × D × D)) (k : Int) (chunks : List (List Nat)) (sched : List Nat) :
    Option (Res (List Nat × List D)) :=
  (parOrder sched chunks).map fun order =>
    if cols ≠ 3 ∧ cols ≠ 4 then .error .exception
    else if k < 0 then .error .exception
    else order.foldlM (batchKnnStep g pts k) (List.replicate (pts.length * k.toNat) INVALID, List.replicate (pts.length * k.toNat) g.maxD)

/-- One turn of the loop of `batch_nearest_neighbor_search` (kdtree.cpp:133-139). -/
def batchNearestStep (g : Target D) (pts : List (D × D × D)) (s : List Nat × List D) (i : Nat) : Res (List Nat × List D) := do
  let q ← rd pts i
  let r ← g.nearest (s.1.drop i) (s.2.drop i) q
  let s := (s.1.take i ++ r.indices, s.2.take i ++ r.distances)
  if r.numFound = 0 then do
    let ind ← wr s.1 i INVALID
    let dis ← wr s.2 i g.maxD
    .ok (ind, dis)
  else .ok s

/-- `KdTree.batch_nearest_neighbor_search` (kdtree.cpp:124-142). -/
def batchNearest (g : Target D) (cols : Nat) (pts : List (D × D × D)) (chunks : List (List Nat)) (sched : List Nat) :
    Option (Res (List Nat × List D)) :=
  (parOrder sched chunks).map fun order =>
    if cols ≠ 3 ∧ cols ≠ 4 then .error .exception
    else order.foldlM (batchNearestStep g pts) (List.replicate pts.length INVALID, List.replicate pts.length g.maxD)

end Verif.PySearch
