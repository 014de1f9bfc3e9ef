import Verif.Model.Benchmark
import Verif.Model.Downsampling
import Verif.Model.RegistrationMemory
import Mathlib.Algebra.Order.Field.Basic

/-!
Model of `src/benchmark/downsampling_benchmark.cpp`, the program that compares the variants of the voxel grid, and of the stopwatch of
`include/small_gicp/benchmark/benchmark.hpp`.

Numbers are those of an ordered field; only the variable of the loop over the resolutions is computed with a rounded addition. The program is modelled as it is built without PCL.
Not modelled: what is printed besides the statistics, and the limit of the number of threads set for TBB (lines 84-86).
-/

namespace Verif.DownsamplingBenchmark

open Verif Verif.Benchmark Verif.Downsample Verif.RegMem Verif.PointCloud

variable {K : Type} [Field K] [LinearOrder K] [FloorRing K]

/-! ### stopwatch -/

/-- `Stopwatch` (benchmark.hpp:30-32); the points in time are nanoseconds of the clock. -/
structure Stopwatch where
  t1 : Int
  t2 : Int
  deriving DecidableEq

/-- `start` (benchmark.hpp:20); `now` is what the clock shows. -/
def Stopwatch.start (now : Int) : Stopwatch := ⟨now, now⟩

/-- `lap` (benchmark.hpp:22-25). -/
def Stopwatch.lap (s : Stopwatch) (now : Int) : Stopwatch := ⟨s.t2, now⟩

/-- `msec` (benchmark.hpp:28). -/
def Stopwatch.msec (s : Stopwatch) : K := ((s.t2 - s.t1 : Int) : K) / 1000000

/-! ### one measurement -/

/-- What `str` of a `Summarizer` without full log prints (benchmark.hpp:73-74): mean and deviation (NaN without data), and the last value. -/
structure Printed (K : Type) where
  meanStd : Option (K × K)
  last : K

def printed (sqrt : K → K) (s : Summarizer K) : Printed K := ⟨s.meanStd sqrt, s.last⟩

/-- A run is a complete execution with its outcome, or no complete execution (`none`); the rest follows a first part that gave a value. -/
def next {A B : Type} (x : Option (Res A)) (f : A → Option (Res B)) : Option (Res B) :=
  match x with
  | none => none
  | some (.error e) => some (.error e)
  | some (.ok a) => f a

/-- The local variables of `benchmark` (downsampling_benchmark.cpp:24-26). -/
structure Locals (K : Type) where
  sw : Stopwatch
  times : Summarizer K
  numPoints : Summarizer K

/-- The loop over the clouds (downsampling_benchmark.cpp:29-35), from the `i`-th on. `clock` gives the readings of the clock in the order in which they are made. -/
def benchmarkLoop (clock : Nat → Int) (downsample : Nat → PCloud K → Option (Res (List (Pt K)))) : Nat → List (PCloud K) → Locals K → Option (Res (Locals K))
  | _, [], v => some (.ok v)
  | i, c :: cs, v =>
    next (downsample i c) fun d =>
      let sw := v.sw.lap (clock (i + 1))
      benchmarkLoop clock downsample (i + 1) cs ⟨sw, v.times.push sw.msec, v.numPoints.push (d.length : K)⟩

/-- The line printed by `benchmark` (downsampling_benchmark.cpp:37): times and numbers of points. -/
structure Line (K : Type) where
  times : Printed K
  points : Printed K

/-- `benchmark` (downsampling_benchmark.cpp:22-38). -/
def benchmark (sqrt : K → K) (clock : Nat → Int) (downsample : Nat → PCloud K → Option (Res (List (Pt K)))) (raw : List (PCloud K)) : Option (Res (Line K)) :=
  next (benchmarkLoop clock downsample 0 raw ⟨.start (clock 0), .init false, .init false⟩) fun v => some (.ok ⟨printed sqrt v.times, printed sqrt v.numPoints⟩)

/-- `voxelgrid_sampling(*points, leaf_size)` (downsampling_benchmark.cpp:108, 127): the points that are left. -/
def serialVariant (sort : List (Nat × Nat) → List (Nat × Nat)) (leaf : K) (c : PCloud K) : Option (Res (List (Pt K))) :=
  some (do
    let ps ← cloudPoints c
    voxelgridSampling sort ps leaf)

/-- `voxelgrid_sampling_omp(*points, leaf_size, num_threads)` (lines 110, 129) and `voxelgrid_sampling_tbb(*points, leaf_size)` (lines 113, 132). -/
def parallelVariant (sort : List (Nat × Nat) → List (Nat × Nat)) (cut : List (Nat × Nat) → List (List (Nat × Nat))) (sched : List Nat) (leaf : K) (c : PCloud K) :
    Option (Res (List (Pt K))) :=
  match cloudPoints c with
  | .error e => some (.error e)
  | .ok ps => voxelgridSamplingPar sort cut sched ps leaf

/-! ### the program -/

/-- How the parallel variants run on one cloud. -/
structure Exec where
  ompSched : List Nat
  tbbCut : List (Nat × Nat) → List (List (Nat × Nat))
  tbbSched : List Nat

/-- What the program is given: text conversions, sorting of strings, values of floats, the three sorts of the keys, the executions of the parallel variants (for the group and
the cloud), the readings of the clock (for the group and the variant), square root, and the arithmetic of the loop over the resolutions: the doubles `0.1` and `1.51`, the
addition of doubles, and how many iterations are followed. -/
structure Setup (K : Type) where
  stoi : Text → Res Int
  stoul : Text → Res Nat
  sortText : List Text → List Text
  value : Files.F32 → K
  sort : List (Nat × Nat) → List (Nat × Nat)
  sortOmp : List (Nat × Nat) → List (Nat × Nat)
  sortTbb : List (Nat × Nat) → List (Nat × Nat)
  exec : Nat → Nat → Exec
  clock : Nat → Nat → Nat → Int
  sqrt : K → K
  withTbb : Bool
  tenth : K
  bound : K
  add : K → K → K
  iterations : Nat

/-- The measurements of one group (downsampling_benchmark.cpp:107-114, 126-133), the `g`-th of the program. -/
def group (s : Setup K) (g : Nat) (leaf : K) (clouds : List (PCloud K)) : Option (Res (List (Line K))) :=
  next (benchmark s.sqrt (s.clock g 0) (fun _ c => serialVariant s.sort leaf c) clouds) fun a =>
  next (benchmark s.sqrt (s.clock g 1) (fun i c => parallelVariant s.sortOmp ompCut (s.exec g i).ompSched leaf c) clouds) fun b =>
  if s.withTbb then
    next (benchmark s.sqrt (s.clock g 2) (fun i c => parallelVariant s.sortTbb (s.exec g i).tbbCut (s.exec g i).tbbSched leaf c) clouds) fun t =>
    some (.ok [a, b, t])
  else some (.ok [a, b])

/-- The loop over the resolutions (downsampling_benchmark.cpp:117-134) with at most `n` tests of its condition; `none` if it has not ended then. The results are the values of
`leaf_size` with the lines printed for them. -/
def resolutionLoop (s : Setup K) (clouds : List (PCloud K)) : Nat → Nat → K → Option (Res (List (K × List (Line K))))
  | 0, _, _ => none
  | n + 1, g, leaf =>
    if leaf ≤ s.bound then
      next (group s g leaf clouds) fun ls =>
      next (resolutionLoop s clouds n (g + 1) (s.add leaf s.tenth)) fun rest =>
      some (.ok ((leaf, ls) :: rest))
    else some (.ok [])

/-- The variables the options set (downsampling_benchmark.cpp:65-66). -/
structure Options where
  numThreads : Int
  maxNumFrames : Nat
  deriving DecidableEq

def Options.default : Options := ⟨4, 1000⟩

def kwMaxNumFrames : Text := ['-', '-', 'm', 'a', 'x', '_', 'n', 'u', 'm', '_', 'f', 'r', 'a', 'm', 'e', 's']

/-- The loop over the arguments (downsampling_benchmark.cpp:68-78); the list is `argv[i]`, `argv[i + 1]`, … . `none` is `return 1`. -/
def scan (stoi : Text → Res Int) (stoul : Text → Res Nat) : Options → List Text → Res (Option Options)
  | o, [] => .ok (some o)
  | o, arg :: rest =>
    if arg = kwNumThreads then do
      let v ← nextArg rest
      let n ← stoi v
      scan stoi stoul { o with numThreads := n } rest
    else if arg = kwMaxNumFrames then do
      let v ← nextArg rest
      let n ← stoul v
      scan stoi stoul { o with maxNumFrames := n } rest
    else if arg.length ≥ 2 && arg.take 2 = ['-', '-'] then .ok none
    else scan stoi stoul o rest

/-- How the program ends: the value returned by `main`, and what is printed: the number of frames with the statistics of their sizes (line 90), and the groups with their
resolutions. -/
structure Ended (K : Type) where
  code : Int
  frames : Option (Nat × Printed K)
  groups : List (K × List (Line K))

/-- `main` (downsampling_benchmark.cpp:55-137). -/
def main (s : Setup K) (disk : Disk) (argv : List Text) : Option (Res (Ended K)) :=
  if argv.length < 2 then some (.ok ⟨0, none, []⟩)
  else
    next (some (rd argv 1)) fun path =>
    next (some (scan s.stoi s.stoul .default (argv.drop 1))) fun o =>
    match o with
    | none => some (.ok ⟨1, none, []⟩)
    | some o =>
      next (some (kittiDataset s.sortText disk path o.maxNumFrames)) fun frames =>
      next (some (convert s.value frames true)) fun cs =>
      next (group s 0 (1 / 2) cs.1) fun warm =>
      next (resolutionLoop s cs.1 s.iterations 1 s.tenth) fun rest =>
      some (.ok ⟨0, some (frames.length, printed s.sqrt (summarize frames (fun ps => (ps.length : K)))), (1 / 2, warm) :: rest⟩)

end Verif.DownsamplingBenchmark
