import Verif.Model.Basic
import Verif.Model.Arith
import Verif.Model.Factors
import Verif.Model.RegistrationMemory

/-!
Model of the user-defined classes of `src/example/03_registration_template.cpp`: a point cloud of structures with its traits, a
brute-force search, a correspondence rejector and a general factor.
-/

namespace Verif.Example

open Matrix Verif Verif.Factors Verif.PointCloud Verif.RegMem

variable {K : Type} [Field K] [LinearOrder K]

/-- `MyPoint` (03_registration_template.cpp:64-68). -/
structure MyPoint (K : Type) where
  point : Fin 3 → K
  normal : Fin 3 → K
  features : Fin 36 → K

/-- `MyPointCloud` (03_registration_template.cpp:71). -/
abbrev MyCloud (K : Type) := List (MyPoint K)

/-! ### traits -/

/-- `Traits<MyPointCloud>::point` (03_registration_template.cpp:89-92). -/
def getPoint (c : MyCloud K) (i : Nat) : Res (Fin 4 → K) := do
  let p ← rd c i
  return ![p.point 0, p.point 1, p.point 2, 1]

/-- `Traits<MyPointCloud>::normal` (03_registration_template.cpp:94-97). -/
def getNormal (c : MyCloud K) (i : Nat) : Res (Fin 4 → K) := do
  let p ← rd c i
  return ![p.normal 0, p.normal 1, p.normal 2, 0]

/-- `Traits<MyPointCloud>::resize` (03_registration_template.cpp:107). `std::vector::resize` value-initialises the new elements. -/
def resize (c : MyCloud K) (n : Nat) : MyCloud K := c.take n ++ List.replicate (n - c.length) ⟨0, 0, 0⟩

/-- `Traits<MyPointCloud>::set_point` (03_registration_template.cpp:109). -/
def setPoint (c : MyCloud K) (i : Nat) (pt : Fin 4 → K) : Res (MyCloud K) := do
  let p ← rd c i
  wr c i { p with point := head3 pt }

/-- `Traits<MyPointCloud>::set_normal` (03_registration_template.cpp:111). -/
def setNormal (c : MyCloud K) (i : Nat) (n : Fin 4 → K) : Res (MyCloud K) := do
  let p ← rd c i
  wr c i { p with normal := head3 n }

/-- What the traits show of a cloud: it can be read like a `PointCloud` all of whose points and normals are set. There is no covariance. -/
def view (c : MyCloud K) : PCloud K :=
  ⟨c.map (fun p => some ![p.point 0, p.point 1, p.point 2, 1]), c.map (fun p => some ![p.normal 0, p.normal 1, p.normal 2, 0]), List.replicate c.length none⟩

/-! ### brute-force search -/

/-- The position, in the container of a `std::priority_queue` of pairs compared by their distance (03_registration_template.cpp:125-126), of the element that `top()` returns and `pop()`
removes. -/
abbrev QueueTop (K : Type) := List (Nat × K) → Nat

/-- Body of the loop over the points (03_registration_template.cpp:131-134). `k` is an `int` and is converted to `size_t` by the comparison. The order of the other elements in
the container is not modelled. -/
def pushPop (top : QueueTop K) (k : Int) (queue : List (Nat × K)) (c : Nat × K) : List (Nat × K) :=
  let queue := queue ++ [c]
  if toU64 k < queue.length then queue.eraseIdx (top queue) else queue

/-- The loop that empties the queue (03_registration_template.cpp:139-143); `n` is a bound on its iterations. -/
def drain (top : QueueTop K) : Nat → List (Nat × K) → List Nat → List K → Res (List Nat × List K)
  | 0, _, indices, dists => .ok (indices, dists)
  | n + 1, queue, indices, dists =>
    if queue = [] then .ok (indices, dists)
    else do
      let t ← rd queue (top queue)
      let indices ← wr indices (queue.length - 1) t.1
      let dists ← wr dists (queue.length - 1) t.2
      drain top n (queue.eraseIdx (top queue)) indices dists

/-- The pairs pushed to the queue (03_registration_template.cpp:129-131). -/
def candidates (points : MyCloud K) (pt : Fin 4 → K) : List (Nat × K) :=
  points.mapIdx (fun i p => (i, (p.point - head3 pt) ⬝ᵥ (p.point - head3 pt)))

/-- `MyNearestNeighborSearch::knn_search` (03_registration_template.cpp:123-146): the returned number and the two arrays. -/
def knnSearch (top : QueueTop K) (points : MyCloud K) (pt : Fin 4 → K) (k : Int) (indices : List Nat) (dists : List K) : Res (Nat × List Nat × List K) := do
  let queue := (candidates points pt).foldl (pushPop top k) []
  let (indices, dists) ← drain top queue.length queue indices dists
  return (queue.length, indices, dists)

/-- `traits::nearest_neighbor_search` for a class whose traits define only `knn_search` (ann/traits.hpp:54-57): `knn_search` with `k = 1` on the local variables `k_index` and `k_sq_dist` of
the factors, which hold arbitrary values `junk` before the call. -/
def nearestSearch (top : QueueTop K) (points : MyCloud K) (junk : Nat × K) (q : Fin 4 → K) : Res (Option (Nat × K)) := do
  let (n, indices, dists) ← knnSearch top points q 1 [junk.1] [junk.2]
  return ((indices.zip dists).take n).head?

/-! ### rejector and general factor -/

/-- `MyCorrespondenceRejector::operator()` (03_registration_template.cpp:191-205). Both vectors of features are read from the target. The target index comes from a search of the
target, so the read is in range; the default 0 stands for an index that does not occur. -/
def myRejector (maxDistSq minCos : K) (target _source : MyCloud K) : Rejector K := fun _ k _ d =>
  let targetFeatures := ((target[k]?).map MyPoint.features).getD 0
  let sourceFeatures := ((target[k]?).map MyPoint.features).getD 0
  if d > maxDistSq then true
  else if targetFeatures ⬝ᵥ sourceFeatures < minCos then true
  else false

/-- `MyGeneralFactor` (03_registration_template.cpp:212-255). -/
def myGeneral (lambda : K) : General K :=
  ⟨fun _ s => (s.1 + diagonal (fun i => (![1, 1, 0, 0, 0, 0] : Fin 6 → K) i * lambda), s.2), fun _ e => e⟩

end Verif.Example
