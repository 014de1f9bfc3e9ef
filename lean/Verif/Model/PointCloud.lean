import Verif.Model.Basic
import Mathlib.Algebra.Notation.Defs

/-!
Model of `include/small_gicp/points/point_cloud.hpp` and of `random_sampling` (`include/small_gicp/util/downsampling.hpp`).

`V` is the type of 4-vectors and `M` of 4x4 matrices. An array slot is `none` while it holds an indeterminate value: Eigen's
default constructor leaves the coefficients of fixed-size vectors and matrices uninitialised, so this is what
`std::vector::resize` produces.
-/

namespace Verif.PointCloud

open Verif

variable {V M : Type}

/-- `PointCloud` (point_cloud.hpp:69-71). -/
structure Cloud (V M : Type) where
  points : List (Option V)
  normals : List (Option V)
  covs : List (Option M)
  deriving DecidableEq, Repr

/-- Default constructor (point_cloud.hpp:21). -/
def Cloud.empty : Cloud V M := ⟨[], [], []⟩

/-- `std::vector::resize` on a vector of Eigen objects. -/
def resizeSlots {α : Type} (l : List (Option α)) (n : Nat) : List (Option α) := l.take n ++ List.replicate (n - l.length) none

/-- `PointCloud::resize` (point_cloud.hpp:44-48). -/
def Cloud.resize (c : Cloud V M) (n : Nat) : Cloud V M := ⟨resizeSlots c.points n, resizeSlots c.normals n, resizeSlots c.covs n⟩

/-- `size` (point_cloud.hpp:37). -/
def Cloud.size (c : Cloud V M) : Nat := c.points.length

/-- `set_point` (point_cloud.hpp:51, 91). -/
def Cloud.setPoint (c : Cloud V M) (i : Nat) (v : V) : Res (Cloud V M) := do
  let ps ← wr c.points i (some v)
  return { c with points := ps }

/-- `set_normal` (point_cloud.hpp:54, 92). -/
def Cloud.setNormal (c : Cloud V M) (i : Nat) (v : V) : Res (Cloud V M) := do
  let ns ← wr c.normals i (some v)
  return { c with normals := ns }

/-- `set_cov` (point_cloud.hpp:57, 93). -/
def Cloud.setCov (c : Cloud V M) (i : Nat) (m : M) : Res (Cloud V M) := do
  let cs ← wr c.covs i (some m)
  return { c with covs := cs }

/-- Read of a slot that must hold a value. -/
def getSlot {α : Type} (l : List (Option α)) (i : Nat) : Res α := do
  match ← rd l i with
  | some v => return v
  | none => .error .uninit

/-- `point(i)` (point_cloud.hpp:60). -/
def Cloud.point (c : Cloud V M) (i : Nat) : Res V := getSlot c.points i

/-- `normal(i)` (point_cloud.hpp:63). -/
def Cloud.normal (c : Cloud V M) (i : Nat) : Res V := getSlot c.normals i

/-- `cov(i)` (point_cloud.hpp:66). -/
def Cloud.cov (c : Cloud V M) (i : Nat) : Res M := getSlot c.covs i

/-- `has_points`, `has_normals`, `has_covs` (point_cloud.hpp:82-84). -/
def Cloud.hasPoints (c : Cloud V M) : Bool := !c.points.isEmpty
def Cloud.hasNormals (c : Cloud V M) : Bool := !c.normals.isEmpty
def Cloud.hasCovs (c : Cloud V M) : Bool := !c.covs.isEmpty

/-- Constructor from a vector of points (point_cloud.hpp:26-31). `conv` is the conversion of one element: cast to `double`, first
three components, fourth component 1. -/
def Cloud.ofPoints {P : Type} (conv : P → V) (pts : List P) : Res (Cloud V M) :=
  (List.range pts.length).foldlM (fun (c : Cloud V M) i => do
    let p ← rd pts i
    c.setPoint i (conv p)) ((Cloud.empty : Cloud V M).resize pts.length)

/-- Conversion of one element in the constructor (point_cloud.hpp:29): `cast<double>().head<3>()` followed by 1. `p` is a vector of
at least three components (`head<3>` of a shorter one does not compile). -/
def homogeneous {T K : Type} [One K] {d : Nat} (cast : T → K) (p : Fin (d + 3) → T) : Fin 4 → K :=
  fun i => if h : i.val < 3 then cast (p ⟨i.val, by omega⟩) else 1

/-! ### random sampling -/

/-- `std::sample` on forward iterators (selection sampling, as in libstdc++ and libc++): while `n` elements remain to be chosen
from `pop`, draw `d` uniformly from `[0, |pop|)`; the next element is chosen if `d < n`. The draws are given as a list; `none`
if a draw is outside its range or missing. (libstdc++ may derive two draws from one generator call.) -/
def selectionSample {α : Type} : Nat → List Nat → List α → Option (List α)
  | 0, _, _ => some []
  | _ + 1, _, [] => some []
  | _ + 1, [], _ :: _ => none
  | n + 1, d :: ds, a :: pop =>
    if d < (a :: pop).length then
      if d < n + 1 then (selectionSample n ds pop).map (fun l => a :: l)
      else selectionSample (n + 1) ds pop
    else none

/-- `random_sampling` (downsampling.hpp:85-110). -/
def randomSampling (c : Cloud V M) (num : Nat) (draws : List Nat) : Option (Res (Cloud V M)) :=
  if c.size = 0 then some (.ok Cloud.empty)
  else
    let indices := List.range c.size
    let num := if num ≥ indices.length then indices.length else num
    match selectionSample num draws indices with
    | none => none
    | some samples => some (
        (List.range num).foldlM (fun (out : Cloud V M) i => do
          let s ← rd samples i
          let p ← c.point s
          out.setPoint i p) ((Cloud.empty : Cloud V M).resize num))

end Verif.PointCloud
