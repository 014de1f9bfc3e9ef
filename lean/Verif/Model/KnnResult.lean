import Verif.Model.Basic

/-!
Model of `include/small_gicp/ann/knn_result.hpp`.

The element type `D` of distances is abstract: the code only compares distances. `maxD` stands for
`std::numeric_limits<double>::max()`. The theorems instantiate `D` with a linear order; `D` with a NaN element
(all comparisons false) is used in `Props/Degenerate.lean`.
`int` counters are modelled as `Nat`/`Int` without wrap-around (`k` is at most `INT_MAX`).
-/

namespace Verif.Knn

open Verif

variable {D : Type} [LT D] [LE D] [DecidableLT D] [DecidableLE D]

/-- `KnnResult::INVALID` (knn_result.hpp:35): the largest `size_t`. -/
def INVALID : Nat := 2 ^ 64 - 1

/-- State of a `KnnResult<N>` object (knn_result.hpp:102-107) including the two caller-provided arrays.
`N` is the template argument (`> 0`: static buffer, otherwise dynamic). -/
structure KnnResult (D : Type) where
  N : Int
  capacity : Int
  numFound : Nat
  indices : List Nat
  distances : List D
  deriving Repr, DecidableEq

/-- `KnnResult::buffer_size` (knn_result.hpp:64-70). -/
def KnnResult.bufferSize (r : KnnResult D) : Nat :=
  if 0 < r.N then r.N.toNat else r.capacity.toNat

/-- `std::fill(p, p + n, v)` on an array `l`; leaving the array is `oob`. -/
def fill {α : Type} (l : List α) (n : Nat) (v : α) : Res (List α) :=
  if n ≤ l.length then .ok (List.replicate n v ++ l.drop n) else .error .oob

/-- `KnnResult::KnnResult` (knn_result.hpp:41-61). -/
def construct (maxD : D) (N : Int) (indices : List Nat) (distances : List D) (numNeighbors : Int) :
    Res (KnnResult D) :=
  if 0 < N ∧ 0 ≤ numNeighbors then .error .abort
  else if ¬ 0 < N ∧ numNeighbors ≤ 0 then .error .abort
  else do
    let size : Nat := if 0 < N then N.toNat else numNeighbors.toNat
    let ind ← fill indices size INVALID
    let dis ← fill distances size maxD
    return { N := N, capacity := numNeighbors, numFound := 0, indices := ind, distances := dis }

/-- `KnnResult::worst_distance` (knn_result.hpp:76). -/
def KnnResult.worstDistance (r : KnnResult D) : Res D :=
  rd r.distances (r.bufferSize - 1)

/-- The shifting loop of `push` (knn_result.hpp:90-93); returns the arrays and the final `insert_loc`. -/
def shiftLoop (d : D) : Nat → List Nat → List D → Res (List Nat × List D × Nat)
  | 0, ind, dis => .ok (ind, dis, 0)
  | loc + 1, ind, dis => do
    let prev ← rd dis loc
    if d < prev then
      let i ← rd ind loc
      let ind ← wr ind (loc + 1) i
      let x ← rd dis loc
      let dis ← wr dis (loc + 1) x
      shiftLoop d loc ind dis
    else
      .ok (ind, dis, loc + 1)

/-- `KnnResult::push` (knn_result.hpp:80-100). `tr` is the `index_transform` member (line 86, 95). -/
def KnnResult.push (r : KnnResult D) (tr : Nat → Nat) (index : Nat) (distance : D) : Res (KnnResult D) := do
  let worst ← r.worstDistance
  if worst ≤ distance then
    return r
  else if r.N = 1 then
    let ind ← wr r.indices 0 (tr index)
    let dis ← wr r.distances 0 distance
    return { r with indices := ind, distances := dis, numFound := min (r.numFound + 1) r.bufferSize }
  else
    let loc := min r.numFound (r.bufferSize - 1)
    let (ind, dis, loc) ← shiftLoop distance loc r.indices r.distances
    let ind ← wr ind loc (tr index)
    let dis ← wr dis loc distance
    return { r with indices := ind, distances := dis, numFound := min (r.numFound + 1) r.bufferSize }

/-- What the caller sees: the first `num_found()` entries of the two arrays (knn_result.hpp:73). -/
def KnnResult.found (r : KnnResult D) : List (Nat × D) := (r.indices.zip r.distances).take r.numFound

/-- Offer a sequence of candidates one after the other. -/
def KnnResult.pushAll (r : KnnResult D) (tr : Nat → Nat) : List (Nat × D) → Res (KnnResult D)
  | [] => .ok r
  | c :: cs => do
    let r ← r.push tr c.1 c.2
    r.pushAll tr cs

/-- `KnnSetting::fulfilled` (knn_result.hpp:17-19). -/
def fulfilled (epsilon : D) (r : KnnResult D) : Res Bool := do
  let w ← r.worstDistance
  return decide (w < epsilon)

end Verif.Knn
