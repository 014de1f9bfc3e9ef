import Verif.Model.Benchmark
import Verif.Model.Downsampling
import Mathlib.Algebra.Order.Field.Basic

/-!
Model of `src/benchmark/kdtree_benchmark.cpp`: the program that compares the times for the construction of kd-trees of ten sizes.

Numbers are those of an ordered field (exact arithmetic). Not modelled: what is printed besides the statistics, and the second of warming up (lines 104-118), which
repeats a downsampling made before.
-/

namespace Verif.KdtreeBenchmark

open Verif Verif.Benchmark Verif.Downsample

variable {K : Type} [Field K] [LinearOrder K] [FloorRing K]

/-! ### options -/

/-- The variables the options set (kdtree_benchmark.cpp:25-27). -/
structure Options where
  numThreads : Int
  numTrials : Int
  method : Text
  deriving DecidableEq

def kwNumTrials : Text := ['-', '-', 'n', 'u', 'm', '_', 't', 'r', 'i', 'a', 'l', 's']
def kwMethod : Text := ['-', '-', 'm', 'e', 't', 'h', 'o', 'd']
def mSmall : Text := ['s', 'm', 'a', 'l', 'l']
def mOmp : Text := ['o', 'm', 'p']
def mTbb : Text := ['t', 'b', 'b']

/-- Default values (kdtree_benchmark.cpp:25-27). -/
def Options.default : Options := ⟨4, 100, mSmall⟩

/-- The loop over the arguments (kdtree_benchmark.cpp:29-41); the list is `argv[i]`, `argv[i + 1]`, … . `none` is `return 1`. -/
def scan (stoi : Text → Res Int) : Options → List Text → Res (Option Options)
  | o, [] => .ok (some o)
  | o, arg :: rest =>
    if arg = kwNumThreads then do
      let v ← nextArg rest
      let n ← stoi v
      scan stoi { o with numThreads := n } rest
    else if arg = kwNumTrials then do
      let v ← nextArg rest
      let n ← stoi v
      scan stoi { o with numTrials := n } rest
    else if arg = kwMethod then do
      let v ← nextArg rest
      scan stoi { o with method := v } rest
    else if arg.length ≥ 2 && arg.take 2 = ['-', '-'] then .ok none
    else scan stoi o rest

/-! ### search for the resolutions -/

/-- `std::pair<double, size_t>` (kdtree_benchmark.cpp:57-58): a resolution and the number of points it leaves. -/
structure Probe (K : Type) where
  leaf : K
  size : Nat

/-- `voxelgrid_sampling(*raw_points, leaf)->size()` (kdtree_benchmark.cpp:57, 58, 63, 68, 73). -/
def sizeAt (sort : List (Nat × Nat) → List (Nat × Nat)) (raw : List (Pt K)) (leaf : K) : Res Nat := do
  let d ← voxelgridSampling sort raw leaf
  return d.length

/-- The loop of `search_voxel_resolution` (kdtree_benchmark.cpp:60-86) with `n` iterations left. In line 75 a target of 0 gives infinity or NaN in the code and 1 here:
the comparison fails in each case. -/
def searchLoop (count : K → Res Nat) (target : Nat) : Nat → Probe K → Probe K → Res K
  | 0, left, right => .ok ((left.leaf + right.leaf) * (1 / 2))
  | n + 1, left, right =>
    if left.size < target then do
      let c ← count (left.leaf * (1 / 10))
      searchLoop count target n ⟨left.leaf * (1 / 10), c⟩ right
    else if right.size > target then do
      let c ← count (right.leaf * 10)
      searchLoop count target n left ⟨right.leaf * 10, c⟩
    else do
      let mid := (left.leaf + right.leaf) * (1 / 2)
      let c ← count mid
      if |1 - (c : K) / (target : K)| < 1 / 1000 then return mid
      else if c > target then searchLoop count target n ⟨mid, c⟩ right
      else searchLoop count target n left ⟨mid, c⟩

/-- `search_voxel_resolution` (kdtree_benchmark.cpp:56-87). -/
def searchVoxelResolution (count : K → Res Nat) (target : Nat) : Res K := do
  let l ← count (1 / 10)
  let r ← count 1
  searchLoop count target 20 ⟨1 / 10, l⟩ ⟨1, r⟩

/-- `raw_points->size() * target` for the ten values of `target` (kdtree_benchmark.cpp:93-94), rounded down by the conversion to `size_t`. Simplified: in the code
the values after the first are results of subtractions in floating-point arithmetic. -/
def targets (n : Nat) : List Nat := (List.range 10).map (fun j => n * (10 - j) / 10)

/-- The loop over the targets (kdtree_benchmark.cpp:91-99): `downsampling_resolutions` and `downsampled`. -/
def downsampleAll (sort : List (Nat × Nat) → List (Nat × Nat)) (raw : List (Pt K)) : Res (List (K × List (Pt K))) :=
  (targets raw.length).mapM (fun t => do
    let r ← searchVoxelResolution (sizeAt sort raw) t
    let d ← voxelgridSampling sort raw r
    return (r, d))

/-! ### measurements -/

/-- What is printed of one `Summarizer` (benchmark.hpp:66-75). -/
structure Report (K : Type) where
  meanStd : Option (K × K)
  median : Option K

/-- What the program is given: text conversions, sorting of strings, values of floats, sorting of the keys, construction of a tree with a method and a number of threads
(`KdTree.construct` and its parallel variants), the measured times (for the cloud and the trial), square root and `nth_element`. -/
structure Setup (K : Type) where
  stoi : Text → Res Int
  sortText : List Text → List Text
  value : Files.F32 → K
  sort : List (Nat × Nat) → List (Nat × Nat)
  build : Text → Int → List (Pt K) → Res Unit
  withTbb : Bool
  msec : Nat → Nat → K
  sqrt : K → K
  nthElement : List K → Nat → Nat → Res (List K)

/-- One measurement (kdtree_benchmark.cpp:128-135, 139-147, 153-161). `j < num_trials` converts `num_trials` to `size_t`. All trials build the same tree, so that it is
built once here, if at all. -/
def measure (s : Setup K) (o : Options) (i : Nat) (points : List (Pt K)) : Res (Report K) := do
  let n := toU64 o.numTrials
  if n ≠ 0 then s.build o.method o.numThreads points
  let times := (List.range n).foldl (fun t j => t.push (s.msec i j)) (Summarizer.init true)
  let med ← times.median s.nthElement
  return ⟨times.meanStd s.sqrt, med⟩

/-- The measurements (kdtree_benchmark.cpp:122-164). -/
def measureAll (s : Setup K) (o : Options) (clouds : List (List (Pt K))) : Res (List (Report K)) :=
  if o.method = mSmall then
    if o.numThreads ≠ 1 then .ok [] else clouds.zipIdx.mapM (fun ci => measure s o ci.2 ci.1)
  else if o.method = mOmp then clouds.zipIdx.mapM (fun ci => measure s o ci.2 ci.1)
  else if s.withTbb ∧ o.method = mTbb then clouds.zipIdx.mapM (fun ci => measure s o ci.2 ci.1)
  else .ok []

/-! ### the program -/

/-- `PointCloud(kitti.points[0])` (kdtree_benchmark.cpp:53, point_cloud.hpp:25-31): the fourth component is 1. -/
def rawCloud (value : Files.F32 → K) (scan : List Files.V4) : List (Pt K) := scan.map (fun v => ⟨value v.x, value v.y, value v.z, 1⟩)

/-- How the program ends: the value returned by `main`, the resolutions with the sizes printed for them, and the reports. -/
structure Ended (K : Type) where
  code : Int
  resolutions : List (K × Nat)
  reports : List (Report K)

/-- `main` (kdtree_benchmark.cpp:12-167). -/
def main (s : Setup K) (disk : Disk) (argv : List Text) : Res (Ended K) :=
  if argv.length < 2 then .ok ⟨0, [], []⟩
  else do
    let datasetPath ← rd argv 1
    match ← scan s.stoi Options.default (argv.drop 1) with
    | none => return ⟨1, [], []⟩
    | some o => do
      let points ← kittiDataset s.sortText disk datasetPath 1
      let first ← rd points 0
      let down ← downsampleAll s.sort (rawCloud s.value first)
      let reports ← measureAll s o (down.map (·.2))
      return ⟨0, down.map (fun rd => (rd.1, rd.2.length)), reports⟩

end Verif.KdtreeBenchmark
