import Verif.Props.KdTreeExamples
import Mathlib.Algebra.BigOperators.Group.List.Basic
import Mathlib.Algebra.Order.BigOperators.Group.List
import Mathlib.Tactic.FieldSimp

/-!
C10: `AxisAlignedProjection::find_axis`.
-/

namespace Verif.Spec

open Verif.KdTree

/-- Coordinate of a point along an axis. -/
def coord {K : Type} : Axis → Pt K → K
  | .x, p => p.x
  | .y, p => p.y
  | .z, p => p.z

/-- Scatter of a list of numbers: sum of squared deviations from the mean (n times the variance). -/
def scatter {K : Type} [Field K] (l : List K) : K :=
  let mean := l.sum / l.length
  (l.map (fun x => (x - mean) ^ 2)).sum

end Verif.Spec

namespace Verif.Props

open Verif Verif.KdTree Verif.Proofs

variable {K : Type} [Field K] [LinearOrder K] [IsStrictOrderedRing K]

omit [LinearOrder K] [IsStrictOrderedRing K] in
theorem foldl_add_pts (f : Pt K → Pt K) (pts : List (Pt K)) (s : Pt K) :
    pts.foldl (fun s p => Pt.add (exactOps K) s (f p)) s =
      ⟨s.x + (pts.map (fun p => (f p).x)).sum, s.y + (pts.map (fun p => (f p).y)).sum,
       s.z + (pts.map (fun p => (f p).z)).sum, s.w + (pts.map (fun p => (f p).w)).sum⟩ := by
  induction pts generalizing s with
  | nil => simp
  | cons p pts ih =>
    rw [List.foldl_cons, ih]
    simp only [Pt.add, exactOps, List.map_cons, List.sum_cons, add_assoc]

omit [LinearOrder K] [IsStrictOrderedRing K] in
theorem sum_sq_dev (l : List K) (m : K) :
    (l.map (fun x => (x - m) ^ 2)).sum = (l.map (fun x => x * x)).sum - 2 * m * l.sum + l.length * m ^ 2 := by
  induction l with
  | nil => simp
  | cons a l ih =>
    simp only [List.map_cons, List.sum_cons, ih, List.length_cons, Nat.cast_add, Nat.cast_one]
    ring

theorem scatter_eq (l : List K) (hne : l ≠ []) :
    Spec.scatter l = (l.map (fun x => x * x)).sum - l.sum / l.length * l.sum := by
  have hn : (l.length : K) ≠ 0 := by
    have := List.length_pos_of_ne_nil hne
    exact_mod_cast this.ne'
  unfold Spec.scatter
  simp only
  rw [sum_sq_dev]
  field_simp
  ring

/-- C10. For a non-empty range of valid indices into a cloud whose points have `w = 1`, and any non-zero scan count:
`find_axis` succeeds; it evaluates a non-empty sample of points of that range only; and it returns an axis whose sampled
scatter is not smaller than that of any other axis. -/
theorem C10_find_axis_dominant (maxScanCount : Int) (hs : toU64 maxScanCount ≠ 0) (points : List (Pt K)) (range : List Nat)
    (hne : range ≠ []) (hv : ∀ i ∈ range, i < points.length) (hw : ∀ p ∈ points, p.w = 1) :
    ∃ sample a, scanPoints points range maxScanCount = .ok sample ∧ sample ≠ [] ∧
      (∀ p ∈ sample, ∃ i ∈ range, points[i]? = some p) ∧
      findAxis (exactOps K) maxScanCount points range = .ok (.axis a) ∧
      ∀ a', Spec.scatter (sample.map (Spec.coord a')) ≤ Spec.scatter (sample.map (Spec.coord a)) := by
  obtain ⟨pts, h1, h2, h3⟩ := scanPoints_ok points range maxScanCount hs hne hv
  have hw1 : ∀ p ∈ pts, p.w = 1 := by
    intro p hp
    obtain ⟨i, _, hi⟩ := h3 p hp
    exact hw p (List.mem_of_getElem? hi)
  have hwsum : (pts.map (fun p => p.w)).sum = pts.length := by
    rw [List.map_congr_left (g := fun _ => (1 : K)) hw1]; simp
  have hsc : ∀ a, Spec.scatter (pts.map (Spec.coord a)) =
      (pts.map (fun p => Spec.coord a p * Spec.coord a p)).sum -
        (pts.map (Spec.coord a)).sum / pts.length * (pts.map (Spec.coord a)).sum := by
    intro a
    rw [scatter_eq _ (by simpa using h2)]
    simp only [List.map_map, List.length_map, Function.comp_def]
  have hf : findAxis (exactOps K) maxScanCount points range = .ok (.axis
      (if Spec.scatter (pts.map (Spec.coord .y)) < Spec.scatter (pts.map (Spec.coord .x)) then
        (if Spec.scatter (pts.map (Spec.coord .z)) < Spec.scatter (pts.map (Spec.coord .x)) then .x else .z)
       else (if Spec.scatter (pts.map (Spec.coord .z)) < Spec.scatter (pts.map (Spec.coord .y)) then .y else .z))) := by
    unfold findAxis
    rw [h1]
    simp only [bind, Except.bind, pure, Except.pure, foldl_add_pts (fun p => p), foldl_add_pts (fun p => Pt.cmul (exactOps K) p p), hsc]
    simp only [Pt.sub, Pt.cmul, Pt.sdiv, Pt.zero, exactOps, zero_add, hwsum, Spec.coord]
    rfl
  refine ⟨pts, _, h1, h2, h3, hf, ?_⟩
  intro a'
  split_ifs with c1 c2 c2 <;> cases a' <;> first | exact le_refl _ | linarith

/-- Hypotheses of C10 are met by ten points on a line; and (a test) the chosen axis is x. -/
example : ([0, 1, 2] : List Nat) ≠ [] ∧ (∀ i ∈ [0, 1, 2], i < (linePts Rat 10).length) ∧ ∀ p ∈ linePts Rat 10, p.w = 1 := by
  refine ⟨by decide, by decide, ?_⟩
  intro p hp
  simp only [linePts, List.mem_map] at hp
  obtain ⟨i, _, rfl⟩ := hp
  rfl

example : findAxis (exactOps Int) 128 (linePts Int 10) [0, 1, 2] = .ok (.axis .x) := by rfl

/-- Every scanned position is inside the range, for every range size and scan count. -/
theorem C10_scan_in_range (n : Nat) (maxScanCount : Int) (hs : toU64 maxScanCount ≠ 0) (hn : 0 < n) :
    ∃ pos, scanPositions n maxScanCount = .ok pos ∧ pos ≠ [] ∧ ∀ j ∈ pos, j < n := by
  obtain ⟨pos, a, b, c⟩ := scanPositions_ok n maxScanCount hs hn
  exact ⟨pos, a, c, b⟩

/-- `max_scan_count = 0` divides by zero on every range (projection.hpp:35). -/
theorem C10_zero_scan_count_faults (n : Nat) : scanPositions n 0 = .error .divByZero := by
  unfold scanPositions; simp [toU64]

end Verif.Props
