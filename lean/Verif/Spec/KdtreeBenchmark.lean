import Verif.Spec.Downsampling
import Mathlib.Algebra.Order.Field.Basic

/-!
What a search for a resolution should find (C88), independent of the program.
-/

namespace Verif.Spec

open Verif

variable {K : Type} [Field K] [LinearOrder K] [FloorRing K]

/-- A grid of this size keeps every point: all are within the range of the keys, and no two share a cell. -/
def GridSeparates (leaf : K) (points : List (Pt K)) : Prop := (∀ p ∈ points, GridInRange leaf p) ∧ (points.map (gridCell leaf)).Nodup

/-- `n` is the target up to less than 0.1 %. -/
def WithinPermille (target n : Nat) : Prop := |1 - (n : K) / (target : K)| < 1 / 1000

/-- What is known of the resolution `r` found for a target in at most 20 steps, if `size` gives the number of points for each resolution. Either it hits the target up
to 0.1 %. Or all steps were used: `s` to make the lower end of the interval smaller by tenths until it left enough points, then `g` to make the upper end
ten times larger until it left few enough, then `m` to halve the interval, with enough points at its lower end and few enough at its upper; `r` is the middle of what remains. -/
def FoundResolution (size : K → Nat) (target : Nat) (r : K) : Prop :=
  WithinPermille (K := K) target (size r) ∨
  ∃ s g m : Nat, ∃ l h : K, s + g + m = 20 ∧
    (∀ i < s, size ((1 / 10) ^ (i + 1)) < target) ∧ (0 < g + m → target ≤ size ((1 / 10) ^ (s + 1))) ∧
    (∀ i < g, target < size (10 ^ i)) ∧ (0 < m → size (10 ^ g) ≤ target) ∧
    r = (l + h) / 2 ∧ (1 / 10) ^ (s + 1) ≤ l ∧ l < h ∧ h ≤ 10 ^ g ∧ h - l = (10 ^ g - (1 / 10) ^ (s + 1)) / 2 ^ m ∧
    (0 < m → target ≤ size l ∧ size h ≤ target)

end Verif.Spec
