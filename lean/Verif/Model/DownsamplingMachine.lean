import Verif.Model.Downsampling

/-!
`voxelgrid_sampling`, `voxelgrid_sampling_omp` and `voxelgrid_sampling_tbb` once more, with the arithmetic as a parameter: the same statements as in `Model/Downsampling.lean`, every `+`, `*` and `/` on
`double` an operation of `Ops`. `Props/DownsamplingRounding.lean` shows that exact arithmetic gives the functions of `Model/Downsampling.lean`.
-/

namespace Verif.Downsample.Machine

open Verif Verif.Downsample

section AnyArithmetic

variable {K : Type}

/-- `traits::point(points, i) * inv_leaf_size` (downsampling.hpp:37). -/
def scaled (o : Ops K) (inv : K) (p : Pt K) : Pt K := ⟨o.mul p.x inv, o.mul p.y inv, o.mul p.z inv, o.mul p.w inv⟩

/-- `sum_pt / sum_pt.w()` (downsampling.hpp:67). -/
def normalise (o : Ops K) (s : Pt K) : Pt K := Pt.sdiv o s s.w

/-- The loop over the sorted array (downsampling.hpp:61-72, downsampling_omp.hpp:73-83, downsampling_tbb.hpp:71-81). -/
def sumLoop (o : Ops K) (points : List (Pt K)) : Nat → Pt K → List (Nat × Nat) → List (Pt K) → Res (List (Pt K) × Pt K)
  | _, sum, [], out => .ok (out, sum)
  | prev, sum, ki :: rest, out =>
    if ki.1 = INVALID_COORD then sumLoop o points ki.1 sum rest out
    else
      let os := if prev ≠ ki.1 then (out ++ [normalise o sum], Pt.zero o) else (out, sum)
      match rd points ki.2 with
      | .error e => .error e
      | .ok p => sumLoop o points ki.1 (Pt.add o os.2 p) rest os.1

/-- Points emitted for one block (downsampling.hpp:60-74, downsampling_omp.hpp:67-84, downsampling_tbb.hpp:67-82). -/
def blockPoints (o : Ops K) (points : List (Pt K)) : List (Nat × Nat) → Res (List (Pt K))
  | [] => .error .oob
  | ki :: rest => do
    let p ← rd points ki.2
    let os ← sumLoop o points ki.1 p rest []
    return os.1 ++ [normalise o os.2]

/-- State at the start of the parallel loop over the blocks (downsampling_omp.hpp:56-66, downsampling_tbb.hpp:58-66). -/
def parStart (o : Ops K) (points : List (Pt K)) (blocks : List (List (Nat × Nat))) : Res (ParState K) := do
  let subs ← blocks.mapM (blockPoints o points)
  return ⟨0, List.replicate points.length none, subs.map .pending⟩

end AnyArithmetic

variable {K : Type} [Field K] [LinearOrder K] [FloorRing K]

/-- Key of one point (downsampling.hpp:37-49, downsampling_omp.hpp:41-52, downsampling_tbb.hpp:41-53). The conversion to `int`, the comparison in `fast_floor` (fast_floor.hpp:13-14) and all that follows are
free of rounding. -/
def voxelKey (o : Ops K) (inv : K) (p : Pt K) : Res Nat := do
  let c ← fastFloor4 (scaled o inv p)
  let x ← int32 (c.1 + COORD_OFFSET)
  let y ← int32 (c.2.1 + COORD_OFFSET)
  let z ← int32 (c.2.2.1 + COORD_OFFSET)
  let w ← int32 (c.2.2.2 + COORD_OFFSET)
  if (x < 0 ∨ y < 0 ∨ z < 0 ∨ w < 0) ∨
      ((COORD_MASK : Int) < x ∨ (COORD_MASK : Int) < y ∨ (COORD_MASK : Int) < z ∨ (COORD_MASK : Int) < w) then
    return INVALID_COORD
  else return packBits x y z

/-- `coord_pt` (downsampling.hpp:35-50). -/
def coordPt (o : Ops K) (inv : K) (points : List (Pt K)) : Res (List (Nat × Nat)) :=
  points.zipIdx.mapM (fun pi => do
    let k ← voxelKey o inv pi.1
    return (k, pi.2))

/-- `voxelgrid_sampling` (downsampling.hpp:23-78), with `inv_leaf_size` as computed on line 28. -/
def voxelgridSampling (o : Ops K) (sort : List (Nat × Nat) → List (Nat × Nat)) (points : List (Pt K)) (leaf : K) : Res (List (Pt K)) := do
  if points.length = 0 then return []
  else if leaf = 0 then .error .intOverflow
  else
    let cp ← coordPt o (o.div 1 leaf) points
    let out ← blockPoints o points (sort cp)
    if out.length ≤ points.length then return out else .error .oob

/-- `voxelgrid_sampling_omp` (downsampling_omp.hpp:26-95) and `voxelgrid_sampling_tbb` (downsampling_tbb.hpp:26-93) for one way `cut` of dividing the sorted array into blocks and one schedule of the block
tasks; `none` if the schedule is not a complete execution. Writing the points to the output does not compute anything, so that the steps are those of `Model/Downsampling.lean`. -/
def voxelgridSamplingPar (o : Ops K) (sort : List (Nat × Nat) → List (Nat × Nat)) (cut : List (Nat × Nat) → List (List (Nat × Nat)))
    (sched : List Nat) (points : List (Pt K)) (leaf : K) : Option (Res (List (Pt K))) :=
  if points.length = 0 then some (.ok [])
  else if leaf = 0 then some (.error .intOverflow)
  else
    match coordPt o (o.div 1 leaf) points with
    | .error e => some (.error e)
    | .ok cp =>
      match parStart o points (cut (sort cp)) with
      | .error e => some (.error e)
      | .ok s =>
        match parRun sched s with
        | none => none
        | some (.error e) => some (.error e)
        | some (.ok s) => if s.finished then some (parResult s) else none

end Verif.Downsample.Machine
