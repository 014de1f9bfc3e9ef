import Verif.Model.FastFloor

/-!
Model of `include/small_gicp/util/sort_omp.hpp`.

Interleaving semantics of the OpenMP tasks: the state is the shared array and the set of tasks that have been created
but not executed; one step executes the body of one of them. The body of a task up to the creation of its sub-tasks
reads and writes only the task's own range, and the ranges of simultaneously existing tasks are disjoint (proved as part
of C26/C27), so treating it as one step loses no behaviour under sequential consistency. `std::sort`, `std::partition`
and `std::inplace_merge` are parameters with contracts (`Spec/Sort.lean`).
-/

namespace Verif.SortOmp

open Verif

variable {α : Type}

/-- `median3` (sort_omp.hpp:69-71). -/
def median3 (comp : α → α → Bool) (a b c : α) : α :=
  if comp a b then (if comp b c then b else (if comp a c then c else a))
  else (if comp a c then a else (if comp b c then c else b))

/-- Library functions used. `partition p l` is the rearranged range; the returned iterator is `first` plus the number of
elements satisfying `p`. -/
structure Lib (α : Type) where
  sort : List α → List α
  partition : (α → Bool) → List α → List α
  inplaceMerge : List α → List α → List α

/-- Conversion of a `ptrdiff_t` to `int` (two's complement). -/
def toInt32 (n : Nat) : Int := (((n : Int) + 2 ^ 31) % 2 ^ 32) - 2 ^ 31

/-- `*(first + offset * k)` (sort_omp.hpp:74-76): the product is computed in `int`. -/
def sampleAt (seg : List α) (offset : Int) (k : Int) : Res α := do
  let i ← int32 (offset * k)
  if i < 0 then .error .oob else rd seg i.toNat

/-- Choice of the pivot (sort_omp.hpp:73-78). -/
def choosePivot (comp : α → α → Bool) (seg : List α) : Res α := do
  let offset := toInt32 (seg.length / 8)
  let a0 ← rd seg 0
  let a1 ← sampleAt seg offset 1
  let a2 ← sampleAt seg offset 2
  let a3 ← sampleAt seg offset 3
  let a4 ← sampleAt seg offset 4
  let a5 ← sampleAt seg offset 5
  let a6 ← sampleAt seg offset 6
  let a7 ← sampleAt seg offset 7
  let a8 ← rd seg (seg.length - 1)
  return median3 comp (median3 comp a0 a1 a2) (median3 comp a3 a4 a5) (median3 comp a6 a7 a8)

/-- Two partitions around the pivot (sort_omp.hpp:79-80): the rearranged range and the two middle positions relative to
its start. -/
def partition3 (lib : Lib α) (comp : α → α → Bool) (pivot : α) (seg : List α) : List α × Nat × Nat :=
  let m1 := seg.countP (fun v => comp v pivot)
  let s1 := lib.partition (fun v => comp v pivot) seg
  let hi := s1.drop m1
  let m2 := m1 + hi.countP (fun v => !comp pivot v)
  (s1.take m1 ++ lib.partition (fun v => !comp pivot v) hi, m1, m2)

/-- The array and the created but unexecuted tasks `[first, last)`. -/
structure QState (α : Type) where
  arr : List α
  tasks : List (Nat × Nat)
  deriving DecidableEq, Repr

/-- Body of `quick_sort_omp_impl` for the range of task `j` (sort_omp.hpp:62-87); `none` if there is no such task. -/
def qstep (lib : Lib α) (comp : α → α → Bool) (j : Nat) (s : QState α) : Option (Res (QState α)) :=
  match s.tasks[j]? with
  | none => none
  | some (first, last) =>
    let seg := slice s.arr first last
    let others := s.tasks.eraseIdx j
    if last - first < 1024 then
      some (.ok ⟨overwrite s.arr first last (lib.sort seg), others⟩)
    else
      some (do
        let pivot ← choosePivot comp seg
        let (seg', m1, m2) := partition3 lib comp pivot seg
        return ⟨overwrite s.arr first last seg', (first, first + m1) :: (first + m2, last) :: others⟩)

/-- Run a schedule. -/
def qrun (lib : Lib α) (comp : α → α → Bool) : List Nat → QState α → Option (Res (QState α))
  | [], s => some (.ok s)
  | j :: js, s =>
    match qstep lib comp j s with
    | none => none
    | some (.error e) => some (.error e)
    | some (.ok s) => qrun lib comp js s

/-- `quick_sort_omp` (sort_omp.hpp:95-106): one initial task; the parallel region ends when no task is left. `none` if the
schedule is not a complete execution. -/
def quickSortOmp (lib : Lib α) (comp : α → α → Bool) (sched : List Nat) (arr : List α) : Option (Res (List α)) :=
  match qrun lib comp sched ⟨arr, [(0, arr.length)]⟩ with
  | none => none
  | some (.error e) => some (.error e)
  | some (.ok s) => if s.tasks = [] then some (.ok s.arr) else none

/-! ### merge sort -/

/-- State of one activation of `merge_sort_omp_impl` (sort_omp.hpp:19-36). -/
inductive MProc where
  /-- created, not started -/
  | start (first last : Nat)
  /-- both sub-tasks created, waiting at `taskwait` -/
  | wait (first center last : Nat) (l r : MProc)
  /-- finished -/
  | done (first last : Nat)
  deriving DecidableEq, Repr

/-- One step of the activation addressed by the path (`false` = first, `true` = second sub-task). -/
def mstep (lib : Lib α) : List Bool → MProc → List α → Option (MProc × List α)
  | [], .start first last, arr =>
    if last - first < 1024 then some (.done first last, overwrite arr first last (lib.sort (slice arr first last)))
    else
      let center := first + (last - first) / 2
      some (.wait first center last (.start first center) (.start center last), arr)
  | [], .wait first center last (.done _ _) (.done _ _), arr =>
    some (.done first last,
      overwrite arr first last (lib.inplaceMerge (slice arr first center) (slice arr center last)))
  | false :: path, .wait first center last l r, arr =>
    (mstep lib path l arr).map (fun la => (.wait first center last la.1 r, la.2))
  | true :: path, .wait first center last l r, arr =>
    (mstep lib path r arr).map (fun ra => (.wait first center last l ra.1, ra.2))
  | _, _, _ => none

/-- Run a schedule. -/
def mrun (lib : Lib α) : List (List Bool) → MProc × List α → Option (MProc × List α)
  | [], s => some s
  | path :: sched, s =>
    match mstep lib path s.1 s.2 with
    | none => none
    | some s => mrun lib sched s

/-- `merge_sort_omp` (sort_omp.hpp:44-55). -/
def mergeSortOmp (lib : Lib α) (sched : List (List Bool)) (arr : List α) : Option (List α) :=
  match mrun lib sched (.start 0 arr.length, arr) with
  | some (.done _ _, arr) => some arr
  | _ => none

end Verif.SortOmp
