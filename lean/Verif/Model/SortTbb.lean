import Verif.Model.Parallel
import Verif.Model.FastFloor

/-!
Model of `include/small_gicp/util/sort_tbb.hpp` (`radix_sort_tbb`).

The three `tbb::parallel_for` loops of a step are interleaved arbitrarily: the histogram and scatter loops element by
element with one task per tile (TBB runs 4 or 8 consecutive tiles per chunk at least; finer tasks only add schedules), the
prefix loop with one action per bin (a bin's loop touches only the bin's own cells). `std::uint64_t` counters are natural
numbers: every value stored counts elements and is at most `N`. The key type has `width` bits, `key x < 2 ^ width`.
-/

namespace Verif.SortTbb

open Verif

variable {T : Type}

/-- Template parameters (sort_tbb.hpp:31): key function, width of the key type, `bits`, `tile_size`. -/
structure Cfg (T : Type) where
  key : T → Nat
  width : Nat
  bits : Nat
  tile : Nat

/-- `RadixSortBuffers` (sort_tbb.hpp:14-18). -/
structure Buffers (T : Type) where
  tileBuckets : List Nat
  globalOffsets : List Nat
  sortedBuffer : List T

/-- `std::vector::resize`. -/
def resizeTo {α : Type} (l : List α) (n : Nat) (d : α) : List α := l.take n ++ List.replicate (n - l.length) d

/-- `num_steps` (sort_tbb.hpp:44). -/
def numSteps (c : Cfg T) : Nat := (c.width + c.bits - 1) / c.bits

/-- `num_bins` (sort_tbb.hpp:46). -/
def numBins (c : Cfg T) : Nat := 2 ^ c.bits

/-- `num_tiles` (sort_tbb.hpp:48). -/
def numTiles (c : Cfg T) (n : Nat) : Nat := (n + c.tile - 1) / c.tile

/-- The digit used in a step (sort_tbb.hpp:62). -/
def digit (c : Cfg T) (step : Nat) (x : T) : Nat := (c.key x >>> (step * c.bits)) &&& (2 ^ c.bits - 1)

/-- Elements of each tile (sort_tbb.hpp:68-69, 106-107) as (tile, element) pairs. -/
def tileTasks (c : Cfg T) (n : Nat) : List (List (Nat × Nat)) :=
  (List.range (numTiles c n)).map (fun t =>
    (List.range' (t * c.tile) (min ((t + 1) * c.tile) n - t * c.tile)).map (fun i => (t, i)))

/-- Histogram loop body for one element (sort_tbb.hpp:71-74). The loop variable is an `int`: `++i` overflows at `INT_MAX`.
(A tile that begins beyond `INT_MAX` starts with a converted index; such a tile exists only if the one containing element
`INT_MAX` exists too.) -/
def histAct (c : Cfg T) (step nt : Nat) (first : List T) (tb : List Nat) (a : Nat × Nat) : Res (List Nat) := do
  let x ← rd first a.2
  let cell := digit c step x * nt + a.1
  let v ← rd tb cell
  let tb ← wr tb cell (v + 1)
  let _ ← int32 (a.2 + 1)
  return tb

/-- Elements of the last tile per bin (sort_tbb.hpp:80-82). -/
def lastTileAct (nt : Nat) (tb : List Nat) (go : List Nat) (i : Nat) : Res (List Nat) := do
  let v ← rd tb (i * nt - 1)
  wr go i v

/-- One iteration of the prefix loop of a bin (sort_tbb.hpp:91-95). -/
def prefixIter (nt bin : Nat) (s : List Nat × Nat) (tile : Nat) : Res (List Nat × Nat) := do
  let tmp ← rd s.1 (bin * nt + tile)
  let prev ← rd s.1 (bin * nt + (tile - 1))
  let tb ← wr s.1 (bin * nt + tile) (prev + s.2)
  return (tb, tmp)

/-- Per-tile offsets of one bin (sort_tbb.hpp:86-96). -/
def prefixAct (nt : Nat) (tb : List Nat) (bin : Nat) : Res (List Nat) := do
  let last ← rd tb (bin * nt)
  let tb ← wr tb (bin * nt) 0
  let s ← (List.range' 1 (nt - 1)).foldlM (prefixIter nt bin) (tb, last)
  return s.1

/-- Global offsets (sort_tbb.hpp:100-102). -/
def offsetAct (nt : Nat) (tb : List Nat) (go : List Nat) (i : Nat) : Res (List Nat) := do
  let g ← rd go i
  let p ← rd go (i - 1)
  let v ← rd tb (i * nt - 1)
  wr go i (g + (p + v))

/-- Scatter of one element (sort_tbb.hpp:109-114): the buckets and the output buffer. -/
def scatterAct (c : Cfg T) (step nt : Nat) (first : List T) (go : List Nat) (s : List Nat × List T) (a : Nat × Nat) :
    Res (List Nat × List T) := do
  let x ← rd first a.2
  let bin := digit c step x
  let g ← rd go bin
  let v ← rd s.1 (bin * nt + a.1)
  let sorted ← wr s.2 (g + v) x
  let tb ← wr s.1 (bin * nt + a.1) (v + 1)
  return (tb, sorted)

/-- Schedules of the three loops of one step. -/
structure StepSched where
  hist : List Nat
  bins : List Nat
  scatter : List Nat

/-- Memory: the caller's range, the buffers, and which of the two element arrays `first` points to. -/
structure St (T : Type) where
  user : List T
  buf : Buffers T
  swapped : Bool

/-- Array `first` points to. -/
def St.first (s : St T) : List T := if s.swapped then s.buf.sortedBuffer else s.user

/-- Array `sorted` points to. -/
def St.sorted (s : St T) : List T := if s.swapped then s.user else s.buf.sortedBuffer

/-- One step (sort_tbb.hpp:61-119). `none` if the schedules are not complete executions. -/
def radixStep (c : Cfg T) (n step : Nat) (sch : StepSched) (s : St T) : Option (Res (St T)) :=
  let nt := numTiles c n
  let nb := numBins c
  match parOrder sch.hist (tileTasks c n), parOrder sch.bins ((List.range nb).map (fun b => [b])), parOrder sch.scatter (tileTasks c n) with
  | some o1, some o2, some o3 => some (do
      let tb ← o1.foldlM (histAct c step nt s.first) (s.buf.tileBuckets.map (fun _ => 0))
      let go ← (List.range' 1 (nb - 1)).foldlM (lastTileAct nt tb) (s.buf.globalOffsets.map (fun _ => 0))
      let tb ← o2.foldlM (prefixAct nt) tb
      let go ← (List.range' 1 (nb - 1)).foldlM (offsetAct nt tb) go
      let (tb, out) ← o3.foldlM (scatterAct c step nt s.first go) (tb, s.sorted)
      return if s.swapped then ⟨out, ⟨tb, go, s.buf.sortedBuffer⟩, false⟩ else ⟨s.user, ⟨tb, go, out⟩, true⟩)
  | _, _, _ => none

/-- Loop over the steps (sort_tbb.hpp:61). -/
def radixLoop (c : Cfg T) (n : Nat) : List StepSched → Nat → St T → Option (Res (St T))
  | [], _, s => some (.ok s)
  | sch :: rest, step, s =>
    match radixStep c n step sch s with
    | none => none
    | some (.error e) => some (.error e)
    | some (.ok s) => radixLoop c n rest (step + 1) s

/-- `radix_sort_tbb` (sort_tbb.hpp:31-127) on a non-empty or empty range; `dflt` is the default-constructed element used by
`resize`. Returns the caller's range and the buffers. `none` unless one complete schedule per step is given. -/
def radixSort (c : Cfg T) (dflt : T) (scheds : List StepSched) (input : List T) (b : Buffers T) : Option (Res (List T × Buffers T)) :=
  if input = [] then (if scheds = [] then some (.ok (input, b)) else none)
  else if scheds.length ≠ numSteps c then none
  else
    let n := input.length
    let b0 : Buffers T := ⟨resizeTo b.tileBuckets (numBins c * numTiles c n) 0, resizeTo b.globalOffsets (numBins c) 0,
      resizeTo b.sortedBuffer n dflt⟩
    match radixLoop c n scheds 0 ⟨input, b0, false⟩ with
    | none => none
    | some (.error e) => some (.error e)
    | some (.ok s) =>
      -- copy the result to the original buffer (sort_tbb.hpp:123-125)
      if numSteps c % 2 = 1 then some (.ok (s.buf.sortedBuffer, s.buf)) else some (.ok (s.user, s.buf))

/-- The overload without buffers (sort_tbb.hpp:137-141): its template parameters `bits` and `tile_size` are not passed on, so
the call uses the defaults 8 and 256. -/
def radixSortNoBuffers (c : Cfg T) (dflt : T) (scheds : List StepSched) (input : List T) : Option (Res (List T)) :=
  match radixSort { c with bits := 8, tile := 256 } dflt scheds input ⟨[], [], []⟩ with
  | none => none
  | some (.error e) => some (.error e)
  | some (.ok r) => some (.ok r.1)

end Verif.SortTbb
