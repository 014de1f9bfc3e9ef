import Verif.Model.FastFloor
import Verif.Model.KnnResult
import Mathlib.Data.Matrix.Mul

/-!
Model of `include/small_gicp/ann/incremental_voxelmap.hpp`, `flat_container.hpp` and `gaussian_voxelmap.hpp` in exact
arithmetic.

`std::unordered_map` is an association list (first match wins), i.e. its hashing is trusted. `flat_voxels` holds
`shared_ptr`s in C++; the model holds the voxels themselves (`VoxelHeap.lean` has the pointers; C83 relates the two). `size_t`
arithmetic on the LRU counters wraps modulo 2^64.
-/

namespace Verif.Voxel

open Verif Verif.Knn

/-- `Eigen::Matrix4d` -/
abbrev Mat4 (K : Type) := Matrix (Fin 4) (Fin 4) K

/-- `Eigen::Vector3i` -/
abbrev Coord := Int × Int × Int

variable {K : Type} [Field K] [LinearOrder K] [FloorRing K]

/-- A source point with its attributes (`traits::point/normal/cov(points, i)`). -/
structure SrcPt (K : Type) where
  pt : Pt K
  normal : Pt K
  cov : Mat4 K

/-- `T * v` for a 4x4 matrix (the matrix of an `Eigen::Isometry3d`). -/
def mulPt (T : Mat4 K) (p : Pt K) : Pt K where
  x := T 0 0 * p.x + T 0 1 * p.y + T 0 2 * p.z + T 0 3 * p.w
  y := T 1 0 * p.x + T 1 1 * p.y + T 1 2 * p.z + T 1 3 * p.w
  z := T 2 0 * p.x + T 2 1 * p.y + T 2 2 * p.z + T 2 3 * p.w
  w := T 3 0 * p.x + T 3 1 * p.y + T 3 2 * p.z + T 3 3 * p.w

/-- What `IncrementalVoxelMap` requires of its `VoxelContents` (the setting is baked into `add`). -/
structure Contents (K V : Type) where
  /-- default constructor -/
  fresh : V
  /-- `add(setting, transformed_pt, points, i, T)` -/
  add : V → Pt K → SrcPt K → Mat4 K → V
  finalize : V → V
  /-- `traits::size(voxel)` -/
  size : V → Nat
  /-- `traits::point(voxel, i)` -/
  point : V → Nat → Res (Pt K)
  /-- `Traits<VoxelContents>::knn_search(voxel, pt, result)`; the function is the index transform of the result -/
  search : V → Pt K → (Nat → Nat) → KnnResult K → Res (KnnResult K)

/-! ### FlatContainer -/

/-- `FlatContainer::Setting` (flat_container.hpp:24-27) and the template flags (line 20). -/
structure FlatSetting (K : Type) where
  minSqDist : K
  maxNum : Nat
  hasNormals : Bool
  hasCovs : Bool

/-- `FlatContainer` (flat_container.hpp:115-119). -/
structure FlatVoxel (K : Type) where
  points : List (Pt K)
  normals : List (Pt K)
  covs : List (Mat4 K)

/-- `FlatContainer::add` (flat_container.hpp:43-61). -/
def FlatVoxel.add (s : FlatSetting K) (v : FlatVoxel K) (tp : Pt K) (src : SrcPt K) (T : Mat4 K) : FlatVoxel K :=
  if s.maxNum ≤ v.points.length ∨ v.points.any (fun p => decide (Pt.sqDist (exactOps K) p tp < s.minSqDist)) then v
  else
    { points := v.points ++ [tp]
      normals := if s.hasNormals then v.normals ++ [mulPt T src.normal] else v.normals
      covs := if s.hasCovs then v.covs ++ [T * src.cov * T.transpose] else v.covs }

/-- `FlatContainer::knn_search(pt, result)` (flat_container.hpp:104-112): loop over the points, `i` counting up. -/
def flatSearchFrom (q : Pt K) (tr : Nat → Nat) : Nat → List (Pt K) → KnnResult K → Res (KnnResult K)
  | _, [], r => .ok r
  | i, p :: ps, r => do
    let r ← r.push tr i (Pt.sqDist (exactOps K) p q)
    flatSearchFrom q tr (i + 1) ps r

/-- `FlatContainer` as voxel contents. -/
def flatContents (s : FlatSetting K) : Contents K (FlatVoxel K) where
  fresh := ⟨[], [], []⟩
  add v tp src T := v.add s tp src T
  finalize v := v
  size v := v.points.length
  point v i := rd v.points i
  search v q tr r := flatSearchFrom q tr 0 v.points r

/-! ### GaussianVoxel -/

/-- `GaussianVoxel` (gaussian_voxelmap.hpp:56-59). -/
structure GaussianVoxel (K : Type) where
  finalized : Bool
  numPoints : Nat
  mean : Pt K
  cov : Mat4 K

def Pt.plus (a b : Pt K) : Pt K := ⟨a.x + b.x, a.y + b.y, a.z + b.z, a.w + b.w⟩
def Pt.divBy (p : Pt K) (s : K) : Pt K := ⟨p.x / s, p.y / s, p.z / s, p.w / s⟩

/-- `GaussianVoxel::GaussianVoxel` (gaussian_voxelmap.hpp:20). -/
def GaussianVoxel.fresh : GaussianVoxel K := ⟨false, 0, ⟨0, 0, 0, 0⟩, 0⟩

/-- `GaussianVoxel::add` (gaussian_voxelmap.hpp:32-42). -/
def GaussianVoxel.add (v : GaussianVoxel K) (tp : Pt K) (src : SrcPt K) (T : Mat4 K) : GaussianVoxel K :=
  let v := if v.finalized then
      { v with finalized := false, mean := v.mean.smul (v.numPoints : K), cov := (v.numPoints : K) • v.cov }
    else v
  { v with
    numPoints := v.numPoints + 1
    mean := Pt.plus v.mean tp
    cov := v.cov + T * src.cov * T.transpose }

/-- `GaussianVoxel::finalize` (gaussian_voxelmap.hpp:45-53). -/
def GaussianVoxel.finalize (v : GaussianVoxel K) : GaussianVoxel K :=
  if v.finalized then v
  else { v with finalized := true, mean := Pt.divBy v.mean (v.numPoints : K), cov := (v.numPoints : K)⁻¹ • v.cov }

/-- `GaussianVoxel` as voxel contents (traits: gaussian_voxelmap.hpp:64-90). -/
def gaussianContents : Contents K (GaussianVoxel K) where
  fresh := GaussianVoxel.fresh
  add v tp src T := v.add tp src T
  finalize v := v.finalize
  size _ := 1
  point v _ := .ok v.mean
  search v q tr r := r.push tr 0 (Pt.sqDist (exactOps K) v.mean q)

/-! ### IncrementalVoxelMap -/

/-- `VoxelInfo` (incremental_voxelmap.hpp:21-31). -/
structure Info where
  lru : Nat
  coord : Coord
  deriving DecidableEq, Repr

/-- `IncrementalVoxelMap` (incremental_voxelmap.hpp:187-202). -/
structure VoxelMap (K V : Type) where
  invLeaf : K
  lruHorizon : Nat
  lruClearCycle : Nat
  lruCounter : Nat
  offsets : List Coord
  flat : List (Info × V)
  table : List (Coord × Nat)

/-- `voxels.find(coord)`. -/
def find (table : List (Coord × Nat)) (c : Coord) : Option Nat := table.lookup c

/-- The nested loops of case 27 (incremental_voxelmap.hpp:176-182). -/
def offsets27 : List Coord :=
  [-1, 0, 1].flatMap (fun i => [-1, 0, 1].flatMap (fun j => [-1, 0, 1].map (fun k => (i, j, k))))

def offsets7 : List Coord :=
  [(0, 0, 0), (1, 0, 0), (0, 1, 0), (0, 0, 1), (-1, 0, 0), (0, -1, 0), (0, 0, -1)]

/-- `set_search_offsets` (incremental_voxelmap.hpp:156-185): cases 1 and 7 assign, case 27 appends. -/
def setSearchOffsets (old : List Coord) (n : Int) : List Coord :=
  if n = 7 then offsets7 else if n = 27 then old ++ offsets27 else [(0, 0, 0)]

/-- Constructor (incremental_voxelmap.hpp:45). -/
def VoxelMap.new {V : Type} (leafSize : K) : VoxelMap K V where
  invLeaf := 1 / leafSize
  lruHorizon := 100
  lruClearCycle := 10
  lruCounter := 0
  offsets := setSearchOffsets [] 1
  flat := []
  table := []

/-- `fast_floor(pt * inv_leaf_size).head<3>()` (incremental_voxelmap.hpp:59, 99, 127). -/
def coordOf (invLeaf : K) (p : Pt K) : Res Coord := do
  let c ← fastFloor4 (p.smul invLeaf)
  return (c.1, c.2.1, c.2.2.1)

/-- Loop body of `insert` (incremental_voxelmap.hpp:58-73). -/
def insertOne {V : Type} (c : Contents K V) (T : Mat4 K) (m : VoxelMap K V) (src : SrcPt K) : Res (VoxelMap K V) := do
  let pt := mulPt T src.pt
  let coord ← coordOf m.invLeaf pt
  let (m, idx) := match find m.table coord with
    | some i => (m, i)
    | none => ({ m with table := (coord, m.flat.length) :: m.table,
                        flat := m.flat ++ [((⟨m.lruCounter, coord⟩ : Info), c.fresh)] }, m.flat.length)
  let (info, v) ← rd m.flat idx
  let flat ← wr m.flat idx ({ info with lru := m.lruCounter }, c.add v pt src T)
  return { m with flat := flat }

/-- The insertion loop (incremental_voxelmap.hpp:57-73). -/
def insertLoop {V : Type} (c : Contents K V) (T : Mat4 K) : VoxelMap K V → List (SrcPt K) → Res (VoxelMap K V)
  | m, [] => .ok m
  | m, s :: ss => do
    let m ← insertOne c T m s
    insertLoop c T m ss

/-- `voxels[flat_voxels[i]->first.coord] = i` for `i = 0, 1, ...` (incremental_voxelmap.hpp:83-86); later entries
overwrite earlier ones. -/
def rehashFrom {V : Type} : Nat → List (Info × V) → List (Coord × Nat) → List (Coord × Nat)
  | _, [], t => t
  | i, v :: vs, t => rehashFrom (i + 1) vs ((v.1.coord, i) :: t)

/-- `voxel->first.lru + lru_horizon < lru_counter` (incremental_voxelmap.hpp:78). -/
def isStale (horizon counter : Nat) (info : Info) : Bool := decide ((info.lru + horizon) % 2 ^ 64 < counter)

/-- Counter increment and eviction (incremental_voxelmap.hpp:75-87). -/
def evict {V : Type} (m : VoxelMap K V) : Res (VoxelMap K V) :=
  let counter := (m.lruCounter + 1) % 2 ^ 64
  let m := { m with lruCounter := counter }
  if m.lruClearCycle = 0 then .error .divByZero
  else if counter % m.lruClearCycle = 0 then
    let flat := m.flat.filter (fun v => !isStale m.lruHorizon counter v.1)
    .ok { m with flat := flat, table := rehashFrom 0 flat [] }
  else .ok m

/-- `finalize` loop (incremental_voxelmap.hpp:89-92). -/
def finalizeAll {V : Type} (c : Contents K V) (m : VoxelMap K V) : VoxelMap K V :=
  { m with flat := m.flat.map (fun v => (v.1, c.finalize v.2)) }

/-- `insert` (incremental_voxelmap.hpp:54-93). -/
def insert {V : Type} (c : Contents K V) (m : VoxelMap K V) (points : List (SrcPt K)) (T : Mat4 K) : Res (VoxelMap K V) := do
  let m ← insertLoop c T m points
  let m ← evict m
  return finalizeAll c m

/-- `calc_index` (incremental_voxelmap.hpp:150). -/
def calcIndex (voxelId pointId : Nat) : Nat := ((voxelId <<< 32) % 2 ^ 64) ||| pointId
/-- `voxel_id` (incremental_voxelmap.hpp:151). -/
def voxelId (i : Nat) : Nat := i >>> 32
/-- `point_id` (incremental_voxelmap.hpp:152). -/
def pointId (i : Nat) : Nat := i &&& (2 ^ 32 - 1)

/-- `center + offset` (incremental_voxelmap.hpp:105, 134). -/
def addCoord (a b : Coord) : Res Coord := do
  let x ← int32 (a.1 + b.1)
  let y ← int32 (a.2.1 + b.2.1)
  let z ← int32 (a.2.2 + b.2.2)
  return (x, y, z)

/-- Search loop over the offsets (incremental_voxelmap.hpp:104-115, 133-144). -/
def searchOffsets {V : Type} (c : Contents K V) (m : VoxelMap K V) (q : Pt K) (center : Coord) :
    List Coord → KnnResult K → Res (KnnResult K)
  | [], r => .ok r
  | o :: os, r => do
    let coord ← addCoord center o
    match find m.table coord with
    | none => searchOffsets c m q center os r
    | some idx =>
      let (_, v) ← rd m.flat idx
      let r ← c.search v q (calcIndex idx) r
      searchOffsets c m q center os r

/-- `knn_search` (incremental_voxelmap.hpp:126-147; `N = -1`) and `nearest_neighbor_search` (98-118; `N = 1`,
`k = -1`). -/
def search {V : Type} (c : Contents K V) (maxD : K) (m : VoxelMap K V) (q : Pt K) (N k : Int) (indices : List Nat) (dists : List K) :
    Res (KnnResult K) := do
  let center ← coordOf m.invLeaf q
  let r ← Knn.construct maxD N indices dists k
  searchOffsets c m q center m.offsets r

/-- `Traits<IncrementalVoxelMap>::point` (incremental_voxelmap.hpp:212-217). -/
def pointAt {V : Type} (c : Contents K V) (m : VoxelMap K V) (i : Nat) : Res (Pt K) := do
  let (_, v) ← rd m.flat (voxelId i)
  c.point v (pointId i)

/-- `point_indices` (incremental_voxelmap.hpp:239-251). -/
def pointIndices {V : Type} (c : Contents K V) (m : VoxelMap K V) : List Nat :=
  m.flat.zipIdx.flatMap (fun v => (List.range (c.size v.1.2)).map (fun j => calcIndex v.2 j))

end Verif.Voxel
