import Verif.Model.VoxelMap

/-!
`IncrementalVoxelMap` as it is in memory (`include/small_gicp/ann/incremental_voxelmap.hpp`): `flat_voxels` holds `shared_ptr`s, here addresses of cells on a heap. `VoxelMap.lean` has
the voxels in place of the addresses. A copy of a map (the implicit copy constructor) has the same addresses. Cells are never freed.
-/

namespace Verif.VoxelHeap

open Verif Verif.Knn Verif.Voxel

variable {K : Type} [Field K] [LinearOrder K] [FloorRing K] {V : Type}

/-- The cells made by `std::make_shared` (incremental_voxelmap.hpp:63); an address is a position. -/
abbrev Heap (V : Type) := List (Info × V)

/-- `IncrementalVoxelMap` (incremental_voxelmap.hpp:187-202). -/
structure Obj (K : Type) where
  invLeaf : K
  lruHorizon : Nat
  lruClearCycle : Nat
  lruCounter : Nat
  offsets : List Coord
  flat : List Nat
  table : List (Coord × Nat)

/-- Constructor (incremental_voxelmap.hpp:45). -/
def Obj.new (leafSize : K) : Obj K := ⟨1 / leafSize, 100, 10, 0, setSearchOffsets [] 1, [], []⟩

/-- Loop body of `insert` (incremental_voxelmap.hpp:58-73). -/
def insertOne (c : Contents K V) (T : Mat4 K) (s : Heap V × Obj K) (src : SrcPt K) : Res (Heap V × Obj K) := do
  let pt := mulPt T src.pt
  let coord ← coordOf s.2.invLeaf pt
  let (h, m, idx) := match find s.2.table coord with
    | some i => (s.1, s.2, i)
    | none => (s.1 ++ [((⟨s.2.lruCounter, coord⟩ : Info), c.fresh)],
        { s.2 with table := (coord, s.2.flat.length) :: s.2.table, flat := s.2.flat ++ [s.1.length] }, s.2.flat.length)
  let a ← rd m.flat idx
  let (info, v) ← rd h a
  let h ← wr h a ({ info with lru := m.lruCounter }, c.add v pt src T)
  return (h, m)

/-- The insertion loop (incremental_voxelmap.hpp:57-73). -/
def insertLoop (c : Contents K V) (T : Mat4 K) : Heap V × Obj K → List (SrcPt K) → Res (Heap V × Obj K)
  | s, [] => .ok s
  | s, p :: ps => do
    let s ← insertOne c T s p
    insertLoop c T s ps

/-- `voxels[flat_voxels[i]->first.coord] = i` (incremental_voxelmap.hpp:83-86). -/
def rehashFrom (h : Heap V) : Nat → List Nat → List (Coord × Nat) → Res (List (Coord × Nat))
  | _, [], t => .ok t
  | i, a :: as, t => do
    let cell ← rd h a
    rehashFrom h (i + 1) as ((cell.1.coord, i) :: t)

/-- `std::remove_if` with the test on `voxel->first.lru` (incremental_voxelmap.hpp:77-80). -/
def removeStale (h : Heap V) (horizon counter : Nat) : List Nat → Res (List Nat)
  | [] => .ok []
  | a :: as => do
    let cell ← rd h a
    let rest ← removeStale h horizon counter as
    return if isStale horizon counter cell.1 then rest else a :: rest

/-- Counter increment and eviction (incremental_voxelmap.hpp:75-87). -/
def evict (h : Heap V) (m : Obj K) : Res (Obj K) :=
  let counter := (m.lruCounter + 1) % 2 ^ 64
  if m.lruClearCycle = 0 then .error .divByZero
  else if counter % m.lruClearCycle = 0 then do
    let flat ← removeStale h m.lruHorizon counter m.flat
    let table ← rehashFrom h 0 flat []
    return { m with lruCounter := counter, flat := flat, table := table }
  else .ok { m with lruCounter := counter }

/-- `finalize` loop (incremental_voxelmap.hpp:89-92). -/
def finalizeAll (c : Contents K V) : Heap V → List Nat → Res (Heap V)
  | h, [] => .ok h
  | h, a :: as => do
    let (info, v) ← rd h a
    let h ← wr h a (info, c.finalize v)
    finalizeAll c h as

/-- `insert` (incremental_voxelmap.hpp:54-93). -/
def insert (c : Contents K V) (s : Heap V × Obj K) (points : List (SrcPt K)) (T : Mat4 K) : Res (Heap V × Obj K) := do
  let (h, m) ← insertLoop c T s points
  let m ← evict h m
  let h ← finalizeAll c h m.flat
  return (h, m)

/-- Search loop over the offsets (incremental_voxelmap.hpp:104-115, 133-144). -/
def searchOffsets (c : Contents K V) (h : Heap V) (m : Obj K) (q : Pt K) (center : Coord) : List Coord → KnnResult K → Res (KnnResult K)
  | [], r => .ok r
  | o :: os, r => do
    let coord ← addCoord center o
    match find m.table coord with
    | none => searchOffsets c h m q center os r
    | some idx =>
      let a ← rd m.flat idx
      let (_, v) ← rd h a
      let r ← c.search v q (calcIndex idx) r
      searchOffsets c h m q center os r

/-- `knn_search` and `nearest_neighbor_search` (incremental_voxelmap.hpp:98-147), as `Voxel.search`. -/
def search (c : Contents K V) (maxD : K) (h : Heap V) (m : Obj K) (q : Pt K) (N k : Int) (indices : List Nat) (dists : List K) : Res (KnnResult K) := do
  let center ← coordOf m.invLeaf q
  let r ← Knn.construct maxD N indices dists k
  searchOffsets c h m q center m.offsets r

/-- Several maps in one memory: construction, insertion and copy construction. -/
inductive Op (K : Type) where
  | construct (leafSize : K)
  | insert (i : Nat) (points : List (SrcPt K)) (T : Mat4 K)
  | copy (i : Nat)

/-- One operation on the maps, which are numbered in the order in which they were made; an unknown number is `oob`. -/
def step (c : Contents K V) (s : Heap V × List (Obj K)) : Op K → Res (Heap V × List (Obj K))
  | .construct leafSize => .ok (s.1, s.2 ++ [Obj.new leafSize])
  | .insert i points T => do
    let m ← rd s.2 i
    let (h, m) ← insert c (s.1, m) points T
    let ms ← wr s.2 i m
    return (h, ms)
  | .copy i => do
    let m ← rd s.2 i
    return (s.1, s.2 ++ [m])

end Verif.VoxelHeap
