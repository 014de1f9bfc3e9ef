import Verif.Proofs.ReductionTbb

/-! C30: serial, OpenMP and TBB reductions agree for every assignment of the work and every interleaving. -/

namespace Verif.Props

open Verif Verif.Proofs Verif.Reduction Verif.Spec

variable {F S E : Type} [AddCommMonoid S] [AddCommMonoid E]

/-- The serial reduction linearises every factor once and sums the systems. -/
theorem C30_serial (lin : Nat → F → F × Option S) (fs : List F) : serialLinearize lin fs = .ok (reduceSpec lin fs) := serial_ok lin fs

/-- The OpenMP reduction gives the result of the serial one, factors included, for every number of threads, every distribution
of the iterations over them and every interleaving of their actions. -/
theorem C30_omp (lin : Nat → F → F × Option S) (n : Nat) (hn : 0 < n) (fs : List F) (assign : List (List Nat)) (hlen : assign.length ≤ n)
    (hassign : assign.flatten.Perm (List.range fs.length)) (sched : List Nat) {r} (hr : ompLinearize lin n assign sched fs = some r) :
    r = serialLinearize lin fs := by
  rw [serial_ok]; exact omp_ok lin n hn assign hlen fs hassign sched hr

/-- Such executions exist for every distribution. -/
theorem C30_omp_completes (lin : Nat → F → F × Option S) (n : Nat) (fs : List F) (assign : List (List Nat)) :
    ∃ sched r, ompLinearize lin n assign sched fs = some r := by
  obtain ⟨sched, hs⟩ := parOrder_seq (assign.mapIdx ompThread)
  refine ⟨sched, ?_⟩
  unfold ompLinearize
  rw [hs]
  exact ⟨_, rfl⟩

/-- With zero threads the final read of slot 0 is out of bounds, even when there is nothing to do. -/
theorem C30_omp_zero_threads (lin : Nat → F → F × Option S) : ompLinearize lin 0 [] [] [] = some (.error .oob) := rfl

/-- The TBB reduction gives the result of the serial one, factors included, for every way of splitting the range, reusing,
splitting off and joining bodies, and every interleaving of their actions. -/
theorem C30_tbb (lin : Nat → F → F × Option S) (fs : List F) (t : RTree) (ht : Covers t 0 fs.length) (order : List TbbAct)
    (ho : Trace t [] [] order) : tbbLinearize lin order fs = serialLinearize lin fs := by
  rw [serial_ok]; exact tbb_ok lin fs t ht order ho

/-- Such executions exist for every splitting. -/
theorem C30_tbb_completes (t : RTree) : ∃ order, Trace t [] [] order := trace_exists t [] []

/-- The evaluated error is the same for all three reductions. -/
theorem C30_error (err : F → E) (fs : List F) :
    serialError err fs = .ok (errorSpec err fs) ∧
    (∀ (assign : List (List Nat)) (comb : List Nat), assign.flatten.Perm (List.range fs.length) → comb.Perm (List.range assign.length) →
      ompError err assign comb fs = serialError err fs) ∧
    (∀ (t : RTree) (order : List TbbAct), Covers t 0 fs.length → Trace t [] [] order → tbbError err order fs = serialError err fs) := by
  refine ⟨serialError_ok err fs, ?_, ?_⟩
  · intro assign comb h1 h2
    rw [serialError_ok, ompError_ok err assign comb fs h1 h2]
  · intro t order h1 h2
    rw [serialError_ok, tbbError_ok err fs t h1 order h2]

/-! ### concrete cases -/

/-- A factor counts its linearisations; odd positions have no correspondence. -/
def linToy (i : Nat) (f : Nat) : Nat × Option Nat := (f + 1, if i % 2 = 0 then some (10 * f + i) else none)

/-- Two threads, iterations given out in chunks, actions interleaved. -/
example : ompLinearize linToy 3 [[0, 3], [1, 2]] [1, 0, 1, 0, 1, 1, 0, 0] [5, 6, 7, 8] = some (serialLinearize linToy [5, 6, 7, 8]) := by
  decide

example : [[0, 3], [1, 2]].flatten.Perm (List.range [5, 6, 7, 8].length) := by decide

example : serialLinearize linToy [5, 6, 7, 8] = .ok ([6, 7, 8, 9], 122) := by decide

/-- A tree with a body that is reused and one that is split off. -/
example : Covers (.fork (.seq (.range 0 1) (.range 1 2)) (.range 2 4)) 0 4 :=
  .fork (.seq (.range (by decide)) (.range (by decide))) (.range (by decide))

/-- An order in which the split-off body finishes first. -/
example : Trace (.fork (.range 0 1) (.range 1 2)) [] []
    ((.split [true] :: rangeActs [true] 1 2 ++ rangeActs [] 0 1) ++ [.join [] [true]]) := by
  refine .fork (pos := []) (b := []) .range .range ?_
  repeat first | exact .nil | apply Shuffle.right | apply Shuffle.left

end Verif.Props
