import Verif.Model.PreprocessMachine
import Verif.Model.VoxelMap

/-!
`IncrementalVoxelMap` with its two kinds of voxels, and registration against it, in machine arithmetic: a `double` is an element of a type `V` of which nothing is known but the names of the operations.
`Props/VoxelAnyArith.lean` shows that exact arithmetic gives the functions of `Model/VoxelMap.lean`. Tables, flat arrays and index packing involve no `double` and are those of that file.
-/

namespace Verif.Machine

open Verif Verif.Knn Verif.PointCloud

/-! ### voxel contents -/

/-- What `IncrementalVoxelMap` requires of its `VoxelContents` (the setting is baked into `add`). `P` is the type of poses, `M` that of covariances, `C` that of voxels. -/
structure Cells (V P M C : Type) where
  /-- default constructor -/
  fresh : C
  /-- `add(setting, transformed_pt, points, i, T)`; reads the attributes of point `i` -/
  add : P → Cloud (Fin 4 → V) M → C → Pt V → Nat → Res C
  finalize : C → C
  /-- `Traits<VoxelContents>::point`, `normal`, `cov`; a function that the contents do not have makes the program fail to compile and is marked `exception` -/
  point : C → Nat → Res (Pt V)
  normal : C → Nat → Res (Pt V)
  cov : C → Nat → Res M
  /-- `Traits<VoxelContents>::knn_search(voxel, pt, result)`; the function is the index transform of the result -/
  search : C → Pt V → (Nat → Nat) → KnnResult V → Res (KnnResult V)

/-- The expressions of the voxels. `count n` is the conversion of a `size_t` to `double`, `scaleM m x` and `divM m x` are `m *= x` and `m /= x`, `conj T m` is `T.matrix() * m * T.matrix().transpose()`, `applyM T v` is
`T.matrix() * v`. -/
structure VoxelEval (V P M : Type) where
  count : Nat → V
  zeroM : M
  addM : M → M → M
  scaleM : M → V → M
  divM : M → V → M
  conj : P → M → M
  applyM : P → Pt V → Pt V

section Contents

variable {V P M : Type} [LT V] [LE V] [DecidableLT V] [DecidableLE V]

/-- `GaussianVoxel` (gaussian_voxelmap.hpp:55-59). -/
structure GVoxel (V M : Type) where
  finalized : Bool
  numPoints : Nat
  mean : Pt V
  cov : M

/-- `mean *= s` (gaussian_voxelmap.hpp:35): every component is multiplied. -/
def scalePt (o : Ops V) (p : Pt V) (s : V) : Pt V := ⟨o.mul p.x s, o.mul p.y s, o.mul p.z s, o.mul p.w s⟩

/-- `GaussianVoxel::add` (gaussian_voxelmap.hpp:32-42), `cov` being the covariance of the point. -/
def GVoxel.add (o : Ops V) (g : VoxelEval V P M) (T : P) (v : GVoxel V M) (tp : Pt V) (cov : M) : GVoxel V M :=
  let v := if v.finalized then { v with finalized := false, mean := scalePt o v.mean (g.count v.numPoints), cov := g.scaleM v.cov (g.count v.numPoints) } else v
  { v with numPoints := v.numPoints + 1, mean := Pt.add o v.mean tp, cov := g.addM v.cov (g.conj T cov) }

/-- `GaussianVoxel::finalize` (gaussian_voxelmap.hpp:45-53). -/
def GVoxel.finalize (o : Ops V) (g : VoxelEval V P M) (v : GVoxel V M) : GVoxel V M :=
  if v.finalized then v else { v with finalized := true, mean := Pt.sdiv o v.mean (g.count v.numPoints), cov := g.divM v.cov (g.count v.numPoints) }

/-- `GaussianVoxel` as voxel contents (constructor: gaussian_voxelmap.hpp:20; traits: gaussian_voxelmap.hpp:64-90, which have no `normal`). -/
def gaussianCells (o : Ops V) (g : VoxelEval V P M) : Cells V P M (GVoxel V M) where
  fresh := ⟨false, 0, Pt.zero o, g.zeroM⟩
  add T points v tp i := do
    let cov ← points.cov i
    return v.add o g T tp cov
  finalize := GVoxel.finalize o g
  point v _ := .ok v.mean
  normal _ _ := .error .exception
  cov v _ := .ok v.cov
  search v q tr r := r.push tr 0 (Pt.sqDist o v.mean q)

/-- `FlatContainer` (flat_container.hpp:115-119). -/
structure FVoxel (V M : Type) where
  points : List (Pt V)
  normals : List (Pt V)
  covs : List M

/-- `FlatContainer::add` (flat_container.hpp:43-61). -/
def FVoxel.add (o : Ops V) (g : VoxelEval V P M) (s : Voxel.FlatSetting V) (T : P) (points : Cloud (Fin 4 → V) M) (v : FVoxel V M) (tp : Pt V) (i : Nat) : Res (FVoxel V M) :=
  if s.maxNum ≤ v.points.length ∨ v.points.any (fun p => decide (Pt.sqDist o p tp < s.minSqDist)) then .ok v
  else do
    let normals ← if s.hasNormals then do
        let n ← points.normal i
        pure (v.normals ++ [g.applyM T (toPt n)])
      else pure v.normals
    let covs ← if s.hasCovs then do
        let m ← points.cov i
        pure (v.covs ++ [g.conj T m])
      else pure v.covs
    return ⟨v.points ++ [tp], normals, covs⟩

/-- `FlatContainer::knn_search(pt, result)` (flat_container.hpp:104-112): loop over the points, `i` counting up. -/
def flatSearch (o : Ops V) (q : Pt V) (tr : Nat → Nat) : Nat → List (Pt V) → KnnResult V → Res (KnnResult V)
  | _, [], r => .ok r
  | i, p :: ps, r => do
    let r ← r.push tr i (Pt.sqDist o p q)
    flatSearch o q tr (i + 1) ps r

/-- `FlatContainer` as voxel contents (traits: flat_container.hpp:124-150). -/
def flatCells (o : Ops V) (g : VoxelEval V P M) (s : Voxel.FlatSetting V) : Cells V P M (FVoxel V M) where
  fresh := ⟨[], [], []⟩
  add T points v tp i := v.add o g s T points tp i
  finalize v := v
  point v i := rd v.points i
  normal v i := if s.hasNormals then rd v.normals i else .error .exception
  cov v i := if s.hasCovs then rd v.covs i else .error .exception
  search v q tr r := flatSearch o q tr 0 v.points r

end Contents

/-! ### the map -/

section Map

variable {V P M C : Type} [LT V] [DecidableLT V]

/-- Constructor (incremental_voxelmap.hpp:45). -/
def newMap (o : Ops V) (s : Scalars V) (leafSize : V) : Voxel.VoxelMap V C where
  invLeaf := o.div s.one leafSize
  lruHorizon := 100
  lruClearCycle := 10
  lruCounter := 0
  offsets := Voxel.setSearchOffsets [] 1
  flat := []
  table := []

/-- `fast_floor(pt * inv_leaf_size).head<3>()` (incremental_voxelmap.hpp:59, 99, 127). `fast_floor` converts all four coordinates (fast_floor.hpp:12-15). -/
def cellOf (o : Ops V) (s : Scalars V) (inv : V) (p : Pt V) : Res Voxel.Coord := do
  let q := Downsample.Machine.scaled o inv p
  let x ← fastFloor s q.x
  let y ← fastFloor s q.y
  let z ← fastFloor s q.z
  let _ ← fastFloor s q.w
  return (x, y, z)

/-- Loop body of `insert` (incremental_voxelmap.hpp:58-73). `apply T p` is `T * p`. -/
def insertOne (o : Ops V) (s : Scalars V) (apply : P → (Fin 4 → V) → (Fin 4 → V)) (c : Cells V P M C) (T : P) (points : Cloud (Fin 4 → V) M) (m : Voxel.VoxelMap V C) (i : Nat) : Res (Voxel.VoxelMap V C) := do
  let p ← points.point i
  let pt := toPt (apply T p)
  let coord ← cellOf o s m.invLeaf pt
  let (m, idx) := match Voxel.find m.table coord with
    | some i => (m, i)
    | none => ({ m with table := (coord, m.flat.length) :: m.table, flat := m.flat ++ [((⟨m.lruCounter, coord⟩ : Voxel.Info), c.fresh)] }, m.flat.length)
  let (info, v) ← rd m.flat idx
  let v ← c.add T points v pt i
  let flat ← wr m.flat idx ({ info with lru := m.lruCounter }, v)
  return { m with flat := flat }

/-- The insertion loop (incremental_voxelmap.hpp:57-73) over the given indices. -/
def insertLoop (o : Ops V) (s : Scalars V) (apply : P → (Fin 4 → V) → (Fin 4 → V)) (c : Cells V P M C) (T : P) (points : Cloud (Fin 4 → V) M) : Voxel.VoxelMap V C → List Nat → Res (Voxel.VoxelMap V C)
  | m, [] => .ok m
  | m, i :: is => do
    let m ← insertOne o s apply c T points m i
    insertLoop o s apply c T points m is

/-- Counter increment and eviction (incremental_voxelmap.hpp:75-87). -/
def evictStale (m : Voxel.VoxelMap V C) : Res (Voxel.VoxelMap V C) :=
  let counter := (m.lruCounter + 1) % 2 ^ 64
  if m.lruClearCycle = 0 then .error .divByZero
  else if counter % m.lruClearCycle = 0 then
    let flat := m.flat.filter (fun v => !Voxel.isStale m.lruHorizon counter v.1)
    .ok { m with lruCounter := counter, flat := flat, table := Voxel.rehashFrom 0 flat [] }
  else .ok { m with lruCounter := counter }

/-- `insert` (incremental_voxelmap.hpp:54-93). -/
def insertCloud (o : Ops V) (s : Scalars V) (apply : P → (Fin 4 → V) → (Fin 4 → V)) (c : Cells V P M C) (m : Voxel.VoxelMap V C) (points : Cloud (Fin 4 → V) M) (T : P) : Res (Voxel.VoxelMap V C) := do
  let m ← insertLoop o s apply c T points m (List.range points.size)
  let m ← evictStale m
  return { m with flat := m.flat.map (fun v => (v.1, c.finalize v.2)) }

variable [LE V] [DecidableLE V]

/-- Search loop over the offsets (incremental_voxelmap.hpp:104-115, 133-144). -/
def searchCells (c : Cells V P M C) (m : Voxel.VoxelMap V C) (q : Pt V) (center : Voxel.Coord) : List Voxel.Coord → KnnResult V → Res (KnnResult V)
  | [], r => .ok r
  | off :: offs, r => do
    let coord ← Voxel.addCoord center off
    match Voxel.find m.table coord with
    | none => searchCells c m q center offs r
    | some idx =>
      let (_, v) ← rd m.flat idx
      let r ← c.search v q (Voxel.calcIndex idx) r
      searchCells c m q center offs r

/-- `knn_search` (incremental_voxelmap.hpp:126-147; `N = -1`) and `nearest_neighbor_search` (98-118; `N = 1`, `k = -1`). `maxD` is `std::numeric_limits<double>::max()`. -/
def searchMap (o : Ops V) (s : Scalars V) (c : Cells V P M C) (maxD : V) (m : Voxel.VoxelMap V C) (q : Pt V) (N k : Int) (indices : List Nat) (dists : List V) : Res (KnnResult V) := do
  let center ← cellOf o s m.invLeaf q
  let r ← Knn.construct maxD N indices dists k
  searchCells c m q center m.offsets r

/-- Target cloud and target tree are the same `IncrementalVoxelMap` (registration_helper.cpp:141, odometry_benchmark_small_vgicp_model_omp.cpp:34, Python and PCL interfaces). `Traits<IncrementalVoxelMap>::point`,
`normal` and `cov`: incremental_voxelmap.hpp:212-227. `junk` is what the local variables `k_index` and `k_sq_dist` of the factors hold before the call. -/
def mapWorld (o : Ops V) (s : Scalars V) (c : Cells V P M C) (maxD : V) (m : Voxel.VoxelMap V C) (source : Cloud (Fin 4 → V) M) (junk : Nat × V) : World V M where
  srcPoint := source.point
  srcCov := source.cov
  tgtPoint := fun i => do
    let (_, v) ← rd m.flat (Voxel.voxelId i)
    let p ← c.point v (Voxel.pointId i)
    return ofPt p
  tgtNormal := fun i => do
    let (_, v) ← rd m.flat (Voxel.voxelId i)
    let n ← c.normal v (Voxel.pointId i)
    return ofPt n
  tgtCov := fun i => do
    let (_, v) ← rd m.flat (Voxel.voxelId i)
    c.cov v (Voxel.pointId i)
  nn := fun q => do
    let r ← searchMap o s c maxD m (toPt q) 1 (-1) [junk.1] [junk.2]
    return r.found.head?

/-- `create_gaussian_voxelmap` (registration_helper.cpp:50-54): insertion with the identity pose. -/
def createGaussian (o : Ops V) (s : Scalars V) (apply : P → (Fin 4 → V) → (Fin 4 → V)) (g : VoxelEval V P M) (identity : P) (points : Cloud (Fin 4 → V) M) (resolution : V) : Res (Voxel.VoxelMap V (GVoxel V M)) :=
  insertCloud o s apply (gaussianCells o g) (newMap o s resolution) points identity

/-- `align(target, source, init_T, setting)` on vectors of points for VGICP (registration_helper.cpp:57-65, 130-142): preprocessing of both with 10 neighbours, voxel map of the target, `Registration::align`.
`none` if `xt` or `xs` is not a complete execution. -/
def alignVgicp {R F H B D T : Type} {d : Nat} [One V] [Zero V] [Add V] [Sub V] [Mul V] [Div V] [Zero H] [Add H] [Zero B] [Add B] (e : PrepEnv V M R) (E : Eval V P H B M) (g : VoxelEval V P M) (identity : P)
    (xt xs : Pipeline.PrepExec) (cast : T → V) (target source : List (Fin (d + 3) → T)) (resolution voxelResolution : V) (numThreads : Int) (mf : Factor F V P H B M) (junk : Nat × V) (cfg : Config V P H B D)
    (execL execE : P → List F → RegMem.Exec) (meth : Method V) (T0 : P) : Option (Res (Result V P H B × List F × List (Iteration F V P H B D))) :=
  match preprocessVector e xt cast target resolution 10 numThreads with
  | none => none
  | some (.error f) => some (.error f)
  | some (.ok tgt) =>
    match preprocessVector e xs cast source resolution 10 numThreads with
    | none => none
    | some (.error f) => some (.error f)
    | some (.ok src) => some (do
        let m ← createGaussian e.ops e.scalars E.apply g identity tgt.1 voxelResolution
        align mf (mapWorld e.ops e.scalars (gaussianCells e.ops g) e.maxD m src.1 junk) cfg execL execE meth T0 src.1.size)

end Map

end Verif.Machine
