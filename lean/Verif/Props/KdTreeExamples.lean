import Verif.Props.KdTree
import Verif.Proofs.NthInstance
import Mathlib.Algebra.Order.Ring.Rat
import Mathlib.Algebra.Order.Field.Rat
import Mathlib.Algebra.Field.Rat
import Mathlib.Tactic.IntervalCases

/-!
Non-vacuity of the hypotheses of C02 - C06, and counterexamples for the cases the theorems exclude.
-/

namespace Verif.Props

open Verif Verif.Knn Verif.KdTree Verif.Proofs

/-- Ten points on a line (w = 1). -/
def linePts (K : Type) [NatCast K] [Zero K] [One K] (n : Nat) : List (Pt K) := (List.range n).map (fun (i : Nat) => ⟨(i : K), 0, 0, 1⟩)

/-- The hypotheses of C02 - C06 are met by ten rational points, a sorting `nth_element`, leaf size 3. -/
example : NthElementSpec (fun (l : List (Nat × Rat)) (_ : Nat) => isort l) ∧ SafeLeafSize 3 ∧ toU64 128 ≠ 0 ∧
    linePts Rat 10 ≠ [] ∧ (linePts Rat 10).length < 2 ^ 32 ∧ (∀ p ∈ linePts Rat 10, Spec.sqd p ⟨2, 0, 0, 1⟩ < 1000) := by
  refine ⟨isort_nthElementSpec, by unfold SafeLeafSize toU64; decide, by unfold toU64; decide, by decide, by decide, ?_⟩
  intro p hp
  simp only [linePts, List.mem_map, List.mem_range] at hp
  obtain ⟨i, hi, rfl⟩ := hp
  simp only [Spec.sqd]
  interval_cases i <;> norm_num

/-- Default parameters (leaf size 20, scan count 128; kdtree.hpp:129, projection.hpp:15) and any negative `int` leaf
size are covered. -/
example : SafeLeafSize 20 ∧ SafeLeafSize (-1) ∧ SafeLeafSize (-2147483648) ∧ toU64 128 ≠ 0 := by
  unfold SafeLeafSize toU64; decide

/-- `UnitBounded` directions other than axes exist: (3/5, 4/5, 0). -/
example : (Proj.normal (3 / 5) (4 / 5) 0 : Proj Rat).UnitBounded := by
  unfold Proj.UnitBounded; norm_num

/-- Builder over the integers that always splits along x (kernel-reducible). -/
def xBuilder (leaf : Int) : Builder Int := ⟨leaf, fun _ _ => .ok (.axis .x), fun l _ => isort l⟩

/-- The integer builder meets the contracts used by C06. -/
example : FindAxisSpec (fun _ => True) (xBuilder 3).findAxis := fun _ _ _ _ => ⟨_, rfl, trivial⟩

/-- C06 is false for `max_leaf_size = 2`: with 6 points the tree needs 7 nodes but only 6 are allocated. -/
theorem C06_leaf_size_two_overflows : KdTree.construct (exactOps Int) (xBuilder 2) 10 (linePts Int 6) = .error .oob := by
  rfl

/-- C06 is false for `max_leaf_size = 1`: with 2 points the tree needs 3 nodes but only 2 are allocated. -/
theorem C06_leaf_size_one_overflows : KdTree.construct (exactOps Int) (xBuilder 1) 10 (linePts Int 2) = .error .oob := by
  rfl

/-- C06 is false for `max_leaf_size = 0`: a single point is split into an empty range and itself, and the
second node does not fit. -/
theorem C06_leaf_size_zero_overflows : KdTree.construct (exactOps Int) (xBuilder 0) 10 (linePts Int 1) = .error .oob := by
  rfl

/-- With `max_leaf_size = 0` the recursion itself never ends: even in an unlimited node array the abstract
recursion of `create_node` exhausts every fuel on every non-empty range. -/
theorem C06_leaf_size_zero_diverges {D : Type} [LinearOrder D] (o : Ops D) (b : Builder D) (hb : b.maxLeafSize = 0)
    (hnth : NthElementSpec b.nthElement) (hfind : FindAxisSpec (fun _ => True) b.findAxis) (points : List (Pt D)) :
    ∀ (fuel : Nat) (range : List Nat), range ≠ [] → (∀ i ∈ range, i < points.length) →
      buildT o b points fuel range = .error .stackOverflow
  | 0, _, _, _ => rfl
  | fuel + 1, range, hne, hv => by
    have hpos := List.length_pos_of_ne_nil hne
    obtain ⟨proj, th, seg, h1, _, h2, _⟩ := splitRange_ok o b points range _ hnth hfind hne hv
    unfold buildT
    have : isLeafSize range.length b.maxLeafSize = false := by
      simp only [isLeafSize, hb, toU64, decide_eq_false_iff_not]
      simp; exact hne
    rw [this]
    simp only [Bool.false_eq_true, if_false, bind, Except.bind, h1]
    have hseg : seg.length = range.length := h2.length_eq
    have hdrop : seg.drop (range.length / 2) ≠ [] := by
      intro h; have := congrArg List.length h; rw [List.length_drop] at this; simp at this; omega
    have hr := C06_leaf_size_zero_diverges o b hb hnth hfind points fuel (seg.drop (range.length / 2)) hdrop
      (fun i hi => hv i (h2.mem_iff.1 (List.mem_of_mem_drop hi)))
    by_cases hl : seg.take (range.length / 2) = []
    · rw [hl]
      cases fuel with
      | zero => simp [buildT]
      | succ f =>
        have : buildT o b points (f + 1) [] = .ok (.leaf []) := by simp [buildT, isLeafSize]
        rw [this]; simp only; rw [hr]
    · have := C06_leaf_size_zero_diverges o b hb hnth hfind points fuel (seg.take (range.length / 2)) hl
        (fun i hi => hv i (h2.mem_iff.1 (List.mem_of_mem_take hi)))
      rw [this]

/-- Sanity check (a test): ten points on a line, leaf size 3, 3-NN of x = 2. -/
example : (do
    let t ← KdTree.construct (exactOps Int) (xBuilder 3) 20 (linePts Int 10)
    let r ← knnSearch (exactOps Int) 1000 (linePts Int 10) t 20 (-1) 3 [0, 0, 0] [0, 0, 0] ⟨2, 0, 0, 1⟩ 0
    return r.found : Res _) = .ok [(2, 0), (3, 1), (1, 1)] := by rfl

/-- C05 needs `epsilon ≤ maxD`: with a larger threshold the search stops after the first leaf although the buffer is
not full, so fewer than `min k N` points are returned. -/
theorem C05_huge_epsilon_stops_early : (do
    let t ← KdTree.construct (exactOps Int) (xBuilder 3) 20 (linePts Int 10)
    let r ← knnSearch (exactOps Int) 1000 (linePts Int 10) t 20 (-1) 5 [0, 0, 0, 0, 0] [0, 0, 0, 0, 0] ⟨2, 0, 0, 1⟩ 1001
    return r.found.length : Res _) = .ok 3 := by rfl

/-- Both outcomes of C05 occur: a positive `epsilon` with an early exit that misses the nearest point. -/
example : (do
    let t ← KdTree.construct (exactOps Int) (xBuilder 3) 20 (linePts Int 10)
    let r ← knnSearch (exactOps Int) 1000 (linePts Int 10) t 20 (-1) 3 [0, 0, 0] [0, 0, 0] ⟨2, 0, 0, 1⟩ 5
    return r.found : Res _) = .ok [(2, 0), (3, 1), (4, 4)] := by rfl

end Verif.Props
