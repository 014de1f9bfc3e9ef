import Verif.Model.FastFloor

/-!
Model of `include/small_gicp/util/downsampling.hpp`, `downsampling_omp.hpp` and `downsampling_tbb.hpp`
(`voxelgrid_sampling*`). Coordinates are elements of an ordered field (exact arithmetic); `std::sort` /
`quick_sort_omp` / `tbb::parallel_sort` are a parameter.
-/

namespace Verif.Downsample

open Verif

variable {K : Type} [Field K] [LinearOrder K] [FloorRing K]

/-- `invalid_coord` (downsampling.hpp:30, downsampling_omp.hpp:33, downsampling_tbb.hpp:33). -/
def INVALID_COORD : Nat := 2 ^ 64 - 1

/-- `coord_bit_mask` (downsampling.hpp:32). -/
def COORD_MASK : Nat := 2 ^ 21 - 1

/-- `coord_offset` (downsampling.hpp:33). -/
def COORD_OFFSET : Int := 2 ^ 20

/-- The packed key (downsampling.hpp:45-48): `int & size_t` is computed in `size_t`, shifts in 64 bits. -/
def packBits (x y z : Int) : Nat :=
  (((toU64 x &&& COORD_MASK) <<< (21 * 0)) % 2 ^ 64) ||| (((toU64 y &&& COORD_MASK) <<< (21 * 1)) % 2 ^ 64) |||
    (((toU64 z &&& COORD_MASK) <<< (21 * 2)) % 2 ^ 64)

/-- Key of one point (downsampling.hpp:37-49, downsampling_omp.hpp:41-52, downsampling_tbb.hpp:41-53). All four
components, including `w`, are converted and range-checked; the conversion and the addition of the offset are undefined
outside `int`. -/
def voxelKey (inv : K) (p : Pt K) : Res Nat := do
  let c ← fastFloor4 (p.smul inv)
  let x ← int32 (c.1 + COORD_OFFSET)
  let y ← int32 (c.2.1 + COORD_OFFSET)
  let z ← int32 (c.2.2.1 + COORD_OFFSET)
  let w ← int32 (c.2.2.2 + COORD_OFFSET)
  if (x < 0 ∨ y < 0 ∨ z < 0 ∨ w < 0) ∨
      ((COORD_MASK : Int) < x ∨ (COORD_MASK : Int) < y ∨ (COORD_MASK : Int) < z ∨ (COORD_MASK : Int) < w) then
    return INVALID_COORD
  else return packBits x y z

/-- `coord_pt` (downsampling.hpp:35-50): (key, index) for every point. The parallel variants fill the same array, one
disjoint element per iteration. -/
def coordPt (inv : K) (points : List (Pt K)) : Res (List (Nat × Nat)) :=
  points.zipIdx.mapM (fun pi => do
    let k ← voxelKey inv pi.1
    return (k, pi.2))

/-- `sum_pt / sum_pt.w()` (downsampling.hpp:67). -/
def normalise (s : Pt K) : Pt K := Pt.sdiv (exactOps K) s s.w

/-- The loop over the sorted array (downsampling.hpp:61-72, downsampling_omp.hpp:73-83, downsampling_tbb.hpp:71-81).
`prev` is the key of the previous array element, `out` the points emitted so far. -/
def sumLoop (points : List (Pt K)) : Nat → Pt K → List (Nat × Nat) → List (Pt K) → Res (List (Pt K) × Pt K)
  | _, sum, [], out => .ok (out, sum)
  | prev, sum, ki :: rest, out =>
    if ki.1 = INVALID_COORD then sumLoop points ki.1 sum rest out
    else
      let os := if prev ≠ ki.1 then (out ++ [normalise sum], Pt.zero (exactOps K)) else (out, sum)
      match rd points ki.2 with
      | .error e => .error e
      | .ok p => sumLoop points ki.1 (Pt.add (exactOps K) os.2 p) rest os.1

/-- Points emitted for one block (downsampling.hpp:60-74 with the whole array as one block;
downsampling_omp.hpp:67-84; downsampling_tbb.hpp:67-82). -/
def blockPoints (points : List (Pt K)) : List (Nat × Nat) → Res (List (Pt K))
  | [] => .error .oob
  | ki :: rest => do
    let p ← rd points ki.2
    let os ← sumLoop points ki.1 p rest []
    return os.1 ++ [normalise os.2]

/-- `voxelgrid_sampling` (downsampling.hpp:23-78). The `n`-th emitted point goes to slot `n` of a buffer with one slot
per input point (lines 57, 67, 74); emitting more than that is out of bounds. A zero leaf size makes `1.0 / leaf_size`
infinite, whose conversion to `int` is undefined. -/
def voxelgridSampling (sort : List (Nat × Nat) → List (Nat × Nat)) (points : List (Pt K)) (leaf : K) : Res (List (Pt K)) := do
  if points.length = 0 then return []
  else if leaf = 0 then .error .intOverflow
  else
    let cp ← coordPt (1 / leaf) points
    let out ← blockPoints points (sort cp)
    if out.length ≤ points.length then return out else .error .oob

/-! ### Parallel variants -/

section Slots

variable {K : Type}

/-- Split into blocks of `n` (downsampling_omp.hpp:62-70, `n = 1024`); the first argument bounds the number of
blocks. -/
def blocksOf (n : Nat) : Nat → List (Nat × Nat) → List (List (Nat × Nat))
  | 0, _ => []
  | fuel + 1, l => if l = [] then [] else l.take n :: blocksOf n fuel (l.drop n)

/-- State of one block's task: the points are computed from read-only data, then a slot range is reserved with
`num_points.fetch_add`, then the points are stored one by one (downsampling_omp.hpp:86-89, downsampling_tbb.hpp:84-87). -/
inductive BlockTask (K : Type) where
  | pending (sub : List (Pt K))
  | writing (next : Nat) (rest : List (Pt K))
  deriving DecidableEq, Repr

/-- Shared state: `num_points`, the output buffer (`none` = never written) and the tasks. -/
structure ParState (K : Type) where
  numPoints : Nat
  buf : List (Option (Pt K))
  tasks : List (BlockTask K)
  deriving DecidableEq, Repr

/-- One step of task `j`; `none` if there is nothing left to do for it. -/
def parStep (j : Nat) (s : ParState K) : Option (Res (ParState K)) :=
  match s.tasks[j]? with
  | none => none
  | some (.pending sub) =>
    some (.ok { s with numPoints := s.numPoints + sub.length, tasks := s.tasks.set j (.writing s.numPoints sub) })
  | some (.writing _ []) => none
  | some (.writing next (p :: rest)) =>
    some (do
      let buf ← wr s.buf next (some p)
      return { s with buf := buf, tasks := s.tasks.set j (.writing (next + 1) rest) })

/-- Run a schedule (sequence of task numbers). -/
def parRun : List Nat → ParState K → Option (Res (ParState K))
  | [], s => some (.ok s)
  | j :: js, s =>
    match parStep j s with
    | none => none
    | some (.error e) => some (.error e)
    | some (.ok s) => parRun js s

/-- All tasks are finished. -/
def ParState.finished (s : ParState K) : Bool :=
  s.tasks.all (fun t => match t with
    | .writing _ [] => true
    | _ => false)

/-- `traits::resize(*downsampled, num_points)` (downsampling_omp.hpp:92, downsampling_tbb.hpp:90). A slot that was
never written is uninitialised memory. -/
def parResult (s : ParState K) : Res (List (Pt K)) :=
  (s.buf.take s.numPoints).mapM (fun x => match x with
    | some p => .ok p
    | none => .error .uninit)

end Slots

/-- State at the start of the parallel loop for the given partition of the sorted array into blocks
(downsampling_omp.hpp:56-66, downsampling_tbb.hpp:58-66). The OMP variant uses `blocksOf 1024`; the ranges produced by
`tbb::parallel_for` are an arbitrary partition into non-empty consecutive ranges. -/
def parStart (points : List (Pt K)) (blocks : List (List (Nat × Nat))) : Res (ParState K) := do
  let subs ← blocks.mapM (blockPoints points)
  return ⟨0, List.replicate points.length none, subs.map .pending⟩

/-- `voxelgrid_sampling_omp` (downsampling_omp.hpp:26-95) and `voxelgrid_sampling_tbb` (downsampling_tbb.hpp:26-93) for
one way `cut` of dividing the sorted array into blocks and one schedule of the block tasks; `none` if the schedule is not
a complete execution. The first parallel loop (keys) writes disjoint elements and is modelled by its result. -/
def voxelgridSamplingPar (sort : List (Nat × Nat) → List (Nat × Nat)) (cut : List (Nat × Nat) → List (List (Nat × Nat)))
    (sched : List Nat) (points : List (Pt K)) (leaf : K) : Option (Res (List (Pt K))) :=
  if points.length = 0 then some (.ok [])
  else if leaf = 0 then some (.error .intOverflow)
  else
    match coordPt (1 / leaf) points with
    | .error e => some (.error e)
    | .ok cp =>
      match parStart points (cut (sort cp)) with
      | .error e => some (.error e)
      | .ok s =>
        match parRun sched s with
        | none => none
        | some (.error e) => some (.error e)
        | some (.ok s) => if s.finished then some (parResult s) else none

/-- Blocks of the OMP variant (downsampling_omp.hpp:62, 66, 70). -/
def ompCut (l : List (Nat × Nat)) : List (List (Nat × Nat)) := blocksOf 1024 l.length l

end Verif.Downsample
