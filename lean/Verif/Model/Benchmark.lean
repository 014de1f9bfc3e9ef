import Verif.Model.Basic
import Verif.Model.PointCloud
import Verif.Model.PointFiles
import Verif.Model.Factors
import Mathlib.Algebra.Field.Defs
import Mathlib.Data.Nat.Cast.Defs

/-!
Model of the benchmark tools: `include/small_gicp/benchmark/benchmark.hpp` (statistics, data sets), `src/small_gicp/benchmark/benchmark_odom.cpp` (registry of
engines) and `src/benchmark/odometry_benchmark.cpp` (the program).

Numbers are those of a field; NaN is `none`. Text is a list of characters. Not modelled: stopwatches and what is printed on the terminal.
-/

namespace Verif.Benchmark

open Verif Verif.Factors Verif.PointCloud

variable {K : Type} [Field K]

/-! ### statistics -/

/-- `Summarizer` (benchmark.hpp:78-84). -/
structure Summarizer (K : Type) where
  fullLog : Bool
  fullData : List K
  numData : Nat
  sum : K
  sqSum : K
  lastX : K

/-- Constructor (benchmark.hpp:37). -/
def Summarizer.init (fullLog : Bool) : Summarizer K := ⟨fullLog, [], 0, 0, 0, 0⟩

/-- `push` (benchmark.hpp:39-46). -/
def Summarizer.push (s : Summarizer K) (x : K) : Summarizer K :=
  { s with numData := s.numData + 1, sum := s.sum + x, sqSum := s.sqSum + x * x, lastX := x, fullData := s.fullData ++ [x] }

/-- `mean_std` (benchmark.hpp:48-52). Without data both are `0.0 / 0`, which is NaN. -/
def Summarizer.meanStd (sqrt : K → K) (s : Summarizer K) : Option (K × K) :=
  if s.numData = 0 then none
  else
    let mean := s.sum / (s.numData : K)
    let var := (s.sqSum - mean * s.sum) / (s.numData : K)
    some (mean, sqrt var)

/-- `median` (benchmark.hpp:54-62). `nthElement l nth last` is `std::nth_element(l.begin(), l.begin() + nth, l.begin() + last)`; the call
passes `sorted.end()` as `nth` and the middle as `last`. -/
def Summarizer.median (nthElement : List K → Nat → Nat → Res (List K)) (s : Summarizer K) : Res (Option K) :=
  if !s.fullLog || s.fullData.isEmpty then .ok none
  else do
    let sorted ← nthElement s.fullData s.fullData.length (s.fullData.length / 2)
    let x ← rd sorted (s.fullData.length / 2)
    return some x

/-- `last` (benchmark.hpp:64). -/
def Summarizer.last (s : Summarizer K) : K := s.lastX

/-- The data of `summarize` (benchmark.hpp:87-94). The text made of it (benchmark.hpp:66-75) is left out. -/
def summarize {α : Type} (container : List α) (transform : α → K) : Summarizer K :=
  container.foldl (fun s a => s.push (transform a)) (.init false)

/-! ### data sets -/

abbrev Text := List Char

/-- The files the program sees: the names in a directory in the order of the iterator (`none`: it cannot be opened), the content of a file
(`none`: it cannot be opened), and whether a file can be written. -/
structure Disk where
  dir : Text → Option (List Text)
  file : Text → Option (List Files.Byte)
  writable : Text → Bool

/-- The path of an entry of a directory, `dir / name`. -/
def join (dir name : Text) : Text := if dir.getLast? = some '/' then dir ++ name else dir ++ '/' :: name

/-- `std::filesystem::path::extension` of a file name: from the last dot; nothing if there is no dot, or only one at the beginning. The names `.` and `..` do not
occur (the iterator leaves them out). -/
def extension (name : Text) : Text :=
  let suffix := name.reverse.takeWhile (· ≠ '.')
  if suffix.length + 1 < name.length then '.' :: suffix.reverse else []

def dotBin : Text := ['.', 'b', 'i', 'n']

/-- The names of the constructor of `KittiDataset` (benchmark.hpp:99-111). `sort` is `std::sort` on strings. An iterator that cannot be made throws. -/
def datasetFiles (sort : List Text → List Text) (disk : Disk) (path : Text) (maxNumData : Nat) : Res (List Text) :=
  match disk.dir path with
  | none => .error .exception
  | some names =>
    let filenames := (names.filter (fun n => extension n = dotBin)).map (join path)
    let filenames := sort filenames
    .ok (if filenames.length > maxNumData then filenames.take maxNumData else filenames)

/-- The constructor of `KittiDataset` (benchmark.hpp:98-115): the member `points`. -/
def kittiDataset (sort : List Text → List Text) (disk : Disk) (path : Text) (maxNumData : Nat) : Res (List (List Files.V4)) := do
  let filenames ← datasetFiles sort disk path maxNumData
  filenames.mapM (fun f => Files.readPoints (disk.file f))

/-- `raw_points[i].cast<double>()` (benchmark.hpp:124). -/
def castPoint (value : Files.F32 → K) (v : Files.V4) : Fin 4 → K := ![value v.x, value v.y, value v.z, value v.w]

/-- `convert` (benchmark.hpp:117-140): the clouds, and the member `points` afterwards. -/
def convert {M : Type} (value : Files.F32 → K) (points : List (List Files.V4)) (release : Bool) : Res (List (Cloud (Fin 4 → K) M) × List (List Files.V4)) := do
  let converted ← points.mapM (fun raw => Cloud.ofPoints (castPoint value) raw)
  return (converted, if release then [] else points)

/-! ### engines -/

/-- `odometry_registry` (benchmark_odom.cpp:7), for engines of type `E` made from parameters of type `P`. -/
abbrev Registry (P E : Type) := List (Text × (P → E))

/-- `register_odometry` (benchmark_odom.cpp:9-12). -/
def register {P E : Type} (r : Registry P E) (name : Text) (factory : P → E) : Registry P E × Nat :=
  (r ++ [(name, factory)], (r ++ [(name, factory)]).length - 1)

/-- `odometry_names` (benchmark_odom.cpp:14-18). -/
def odometryNames {P E : Type} (r : Registry P E) : List Text := r.map (·.1)

/-- `create_odometry` (benchmark_odom.cpp:20-27); `none` is the null pointer. -/
def createOdometry {P E : Type} (r : Registry P E) (name : Text) (params : P) : Option E :=
  (r.find? (fun p => p.1 = name)).map (fun p => p.2 params)

/-! ### the program -/

/-- `OdometryEstimationParams` (benchmark_odom.hpp:19-27). -/
structure Params (K : Type) where
  visualize : Bool
  numThreads : Int
  numNeighbors : Int
  downsamplingResolution : K
  voxelResolution : K
  maxCorrespondenceDistance : K

/-- The default values (benchmark_odom.hpp:21-26). -/
def Params.default : Params K := ⟨false, 4, 20, 1 / 4, 1, 1⟩

def kwVisualize : Text := ['-', '-', 'v', 'i', 's', 'u', 'a', 'l', 'i', 'z', 'e']
def kwNumThreads : Text := ['-', '-', 'n', 'u', 'm', '_', 't', 'h', 'r', 'e', 'a', 'd', 's']
def kwNumNeighbors : Text := ['-', '-', 'n', 'u', 'm', '_', 'n', 'e', 'i', 'g', 'h', 'b', 'o', 'r', 's']
def kwDownsampling : Text := ['-', '-', 'd', 'o', 'w', 'n', 's', 'a', 'm', 'p', 'l', 'i', 'n', 'g', '_', 'r', 'e', 's', 'o', 'l', 'u', 't', 'i', 'o', 'n']
def kwVoxel : Text := ['-', '-', 'v', 'o', 'x', 'e', 'l', '_', 'r', 'e', 's', 'o', 'l', 'u', 't', 'i', 'o', 'n']
def kwEngine : Text := ['-', '-', 'e', 'n', 'g', 'i', 'n', 'e']
def smallGicp : Text := ['s', 'm', 'a', 'l', 'l', '_', 'g', 'i', 'c', 'p']

/-- The values the text on usage gives as defaults (odometry_benchmark.cpp:13-16, 27), without those it does not mention. -/
def usageDefaults : Params K × Text := (⟨false, 4, 20, 1 / 4, 2, 1⟩, smallGicp)

/-- `argv[i + 1]`, converted to a string: `argv[argc]` is the null pointer. -/
def nextArg : List Text → Res Text
  | [] => .error .nullDeref
  | v :: _ => .ok v

/-- How texts become numbers: `std::stoi` and `std::stod`; an error is an exception. -/
structure Numbers (K : Type) where
  stoi : Text → Res Int
  stod : Text → Res K

/-- The loop over the arguments (odometry_benchmark.cpp:37-55); the list is `argv[i]`, `argv[i + 1]`, … . `none` is `return 1`. -/
def scan (num : Numbers K) : Params K → Text → List Text → Res (Option (Params K × Text))
  | o, engine, [] => .ok (some (o, engine))
  | o, engine, arg :: rest =>
    if arg = kwVisualize then scan num { o with visualize := true } engine rest
    else if arg = kwNumThreads then do
      let v ← nextArg rest
      let n ← num.stoi v
      scan num { o with numThreads := n } engine rest
    else if arg = kwNumNeighbors then do
      let v ← nextArg rest
      let n ← num.stoi v
      scan num { o with numNeighbors := n } engine rest
    else if arg = kwDownsampling then do
      let v ← nextArg rest
      let x ← num.stod v
      scan num { o with downsamplingResolution := x } engine rest
    else if arg = kwVoxel then do
      let v ← nextArg rest
      let x ← num.stod v
      scan num { o with voxelResolution := x } engine rest
    else if arg = kwEngine then do
      let v ← nextArg rest
      scan num o v rest
    else if arg.length ≥ 2 && arg.take 2 = ['-', '-'] then .ok none
    else scan num o engine rest

/-- `T(i, j)` for the first three rows (odometry_benchmark.cpp:90). -/
def entry (T : Pose K) (i : Fin 3) (j : Nat) : K := if h : j < 3 then T.R i ⟨j, h⟩ else T.t i

/-- The text of the output file (odometry_benchmark.cpp:83-94). `fmt` is `fmt::format("{:.6f}", x)`. -/
def trajectoryText (fmt : K → Text) (traj : List (Pose K)) : Text :=
  traj.foldl (fun out T =>
    (List.finRange 3).foldl (fun out i => (List.range 4).foldl (fun out j =>
      (if i.val ≠ 0 ∨ j ≠ 0 then out ++ [' '] else out) ++ fmt (entry T i j)) out) out ++ ['\n']) []

/-- How the program ends: the value returned by `main` and the file written, if any. -/
structure Ended where
  code : Int
  written : Option (Text × Text)

/-- What the program is given: text conversions, sorting of strings, values of floats and the registered engines. An engine estimates the trajectory of the clouds. -/
structure Setup (K M : Type) where
  num : Numbers K
  fmt : K → Text
  sort : List Text → List Text
  value : Files.F32 → K
  engines : Registry (Params K) (List (Cloud (Fin 4 → K) M) → Res (List (Pose K)))

/-- `main` (odometry_benchmark.cpp:6-97). With fewer than three arguments it prints how it is used. An output file that cannot be opened is not reported. -/
def main {M : Type} (s : Setup K M) (disk : Disk) (argv : List Text) : Res Ended :=
  if argv.length < 3 then .ok ⟨0, none⟩
  else do
    let datasetPath ← rd argv 1
    let outputPath ← rd argv 2
    match ← scan s.num Params.default smallGicp argv with
    | none => return ⟨1, none⟩
    | some (params, engine) =>
      match createOdometry s.engines engine params with
      | none => return ⟨1, none⟩
      | some estimate => do
        let points ← kittiDataset s.sort disk datasetPath 1000000
        let (rawPoints, _) ← convert s.value points true
        let traj ← estimate rawPoints
        return ⟨0, if disk.writable outputPath then some (outputPath, trajectoryText s.fmt traj) else none⟩

end Verif.Benchmark
