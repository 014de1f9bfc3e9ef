import Verif.Model.Downsampling
import Verif.Spec.Voxel
import Mathlib.Data.Finset.Dedup

/-!
Specification of voxel-grid sampling.
-/

namespace Verif.Spec

open Verif

variable {K : Type} [Field K] [LinearOrder K] [FloorRing K]

/-- Contract of the sorting functions: a permutation, ascending by key (not necessarily stable). -/
def SortSpec (sort : List (Nat × Nat) → List (Nat × Nat)) : Prop :=
  ∀ l, (sort l).Perm l ∧ (sort l).Pairwise (fun a b => a.1 ≤ b.1)

/-- Cell of a point for a leaf size. -/
def gridCell (leaf : K) (p : Pt K) : Int × Int × Int := (⌊p.x / leaf⌋, ⌊p.y / leaf⌋, ⌊p.z / leaf⌋)

/-- 21-bit range. -/
def In21 (i : Int) : Prop := -2 ^ 20 ≤ i ∧ i ≤ 2 ^ 20 - 1

instance (i : Int) : Decidable (In21 i) := by unfold In21; infer_instance

/-- The point is in the supported range: the documented range for x, y, z, and the same for w (the code checks all
four components; for `w = 1` this excludes only leaf sizes below `2^-20`). -/
def GridInRange (leaf : K) (p : Pt K) : Prop :=
  In21 ⌊p.x / leaf⌋ ∧ In21 ⌊p.y / leaf⌋ ∧ In21 ⌊p.z / leaf⌋ ∧ In21 ⌊p.w / leaf⌋

instance (leaf : K) (p : Pt K) : Decidable (GridInRange leaf p) := by unfold GridInRange; infer_instance

/-- The key computation stays inside `int`. -/
def KeyFits (i : Int) : Prop := INT_MIN ≤ i ∧ i ≤ INT_MAX - 2 ^ 20

def KeyDefined (leaf : K) (p : Pt K) : Prop :=
  KeyFits ⌊p.x / leaf⌋ ∧ KeyFits ⌊p.y / leaf⌋ ∧ KeyFits ⌊p.z / leaf⌋ ∧ KeyFits ⌊p.w / leaf⌋

/-- Arithmetic mean of a list of points. -/
def centroid (ps : List (Pt K)) : Pt K where
  x := (ps.map Pt.x).sum / ps.length
  y := (ps.map Pt.y).sum / ps.length
  z := (ps.map Pt.z).sum / ps.length
  w := (ps.map Pt.w).sum / ps.length

/-- The input points of one cell (in input order). -/
def cellPoints (leaf : K) (points : List (Pt K)) (c : Int × Int × Int) : List (Pt K) :=
  points.filter (fun p => decide (GridInRange leaf p ∧ gridCell leaf p = c))

/-- The occupied cells (as a set). -/
def occupied (leaf : K) (points : List (Pt K)) : Finset (Int × Int × Int) :=
  ((points.filter (fun p => decide (GridInRange leaf p))).map (gridCell leaf)).toFinset

/-- A division of an array into non-empty consecutive blocks. -/
def IsCut (cut : List (Nat × Nat) → List (List (Nat × Nat))) : Prop := ∀ l, (cut l).flatten = l ∧ ∀ b ∈ cut l, b ≠ []

end Verif.Spec
