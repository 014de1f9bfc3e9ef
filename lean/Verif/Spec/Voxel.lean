import Verif.Model.VoxelMap

/-!
Specification of the incremental voxel map: a partial function from cells to (last insertion call, contents).
-/

namespace Verif.Spec

open Verif Verif.Voxel

variable {K : Type} [Field K] [LinearOrder K] [FloorRing K]

/-- The cell of a point: mathematical floor of the scaled coordinates. -/
def cellOf (invLeaf : K) (p : Pt K) : Coord := (⌊p.x * invLeaf⌋, ⌊p.y * invLeaf⌋, ⌊p.z * invLeaf⌋)

/-- All four scaled coordinates have a floor that fits in an `int`. -/
def CellDefined (invLeaf : K) (p : Pt K) : Prop :=
  (INT_MIN ≤ ⌊p.x * invLeaf⌋ ∧ ⌊p.x * invLeaf⌋ ≤ INT_MAX) ∧ (INT_MIN ≤ ⌊p.y * invLeaf⌋ ∧ ⌊p.y * invLeaf⌋ ≤ INT_MAX) ∧
  (INT_MIN ≤ ⌊p.z * invLeaf⌋ ∧ ⌊p.z * invLeaf⌋ ≤ INT_MAX) ∧ (INT_MIN ≤ ⌊p.w * invLeaf⌋ ∧ ⌊p.w * invLeaf⌋ ≤ INT_MAX)

/-- Abstract voxel map. -/
abbrev AMap (V : Type) := Coord → Option (Nat × V)

/-- Insert one point: the cell is marked as used in call `n` and the point added to its (possibly new) contents. -/
def AMap.addPt {V : Type} (c : Contents K V) (invLeaf : K) (n : Nat) (T : Mat4 K) (A : AMap V) (s : SrcPt K) : AMap V :=
  fun c' =>
    if c' = cellOf invLeaf (mulPt T s.pt) then
      match A c' with
      | some e => some (n, c.add e.2 (mulPt T s.pt) s T)
      | none => some (n, c.add c.fresh (mulPt T s.pt) s T)
    else A c'

/-- The `n`-th insert call (counting from 0): add all points; if `n + 1` is a multiple of the clear cycle drop the cells
not used during the last `horizon` calls; finalize what is left. -/
def AMap.call {V : Type} (c : Contents K V) (invLeaf : K) (horizon cycle : Nat) (n : Nat) (A : AMap V) (pts : List (SrcPt K)) (T : Mat4 K) :
    AMap V :=
  fun c' =>
    ((pts.foldl (AMap.addPt c invLeaf n T) A c').filter (fun e => !(decide (cycle ∣ n + 1) && decide (e.1 + horizon < n + 1)))).map
      (fun e => (e.1, c.finalize e.2))

/-- A history of insert calls, the first one being number `n`. -/
def AMap.run {V : Type} (c : Contents K V) (invLeaf : K) (horizon cycle : Nat) : Nat → AMap V → List (List (SrcPt K) × Mat4 K) → AMap V
  | _, A, [] => A
  | n, A, call :: calls => AMap.run c invLeaf horizon cycle (n + 1) (AMap.call c invLeaf horizon cycle n A call.1 call.2) calls

/-- A point offered to a cell: transformed point, source point, transform. -/
abbrev Sample (K : Type) := Pt K × SrcPt K × Mat4 K

/-- Ghost contents recording everything offered to a cell since it was created (only `fresh`, `add` and `finalize` are
used by `AMap`). -/
def sampleContents : Contents K (List (Sample K)) where
  fresh := []
  add l tp s T := l ++ [(tp, s, T)]
  finalize l := l
  size l := l.length
  point _ _ := .error .oob
  search _ _ _ r := .ok r

/-- For each cell present after a history: the call that used it last and everything it received since it was created. -/
def received (invLeaf : K) (horizon cycle : Nat) (calls : List (List (SrcPt K) × Mat4 K)) : AMap (List (Sample K)) :=
  AMap.run sampleContents invLeaf horizon cycle 0 (fun _ => none) calls

/-- All points of a history that fall in cell `c`, in order. -/
def offered (invLeaf : K) (calls : List (List (SrcPt K) × Mat4 K)) (c : Coord) : List (Sample K) :=
  (calls.flatMap (fun call => call.1.map (fun s => ((mulPt call.2 s.pt, s, call.2) : Sample K)))).filter
    (fun e => decide (cellOf invLeaf e.1 = c))

/-- Cell `c` received a point in insert call number `l`. -/
def Touched (invLeaf : K) (calls : List (List (SrcPt K) × Mat4 K)) (c : Coord) (l : Nat) : Prop :=
  ∃ call, calls[l]? = some call ∧ ∃ s ∈ call.1, cellOf invLeaf (mulPt call.2 s.pt) = c

/-- Point `p` is stored with id `id` in a cell satisfying `cells`; `pts` gives the points of a voxel. -/
def StoredIn {K V : Type} (pts : V → List (Pt K)) (flat : List (Info × V)) (cells : Coord → Prop) (id : Nat) (p : Pt K) : Prop :=
  ∃ i v j, flat[i]? = some v ∧ cells v.1.coord ∧ (pts v.2)[j]? = some p ∧ id = i * 2 ^ 32 + j

/-- Cell arithmetic without machine integers. -/
def shiftCell (a b : Coord) : Coord := (a.1 + b.1, a.2.1 + b.2.1, a.2.2 + b.2.2)

/-- All coordinates of a cell fit in an `int`. -/
def CoordFits (c : Coord) : Prop :=
  (INT_MIN ≤ c.1 ∧ c.1 ≤ INT_MAX) ∧ (INT_MIN ≤ c.2.1 ∧ c.2.1 ≤ INT_MAX) ∧ (INT_MIN ≤ c.2.2 ∧ c.2.2 ≤ INT_MAX)

end Verif.Spec
