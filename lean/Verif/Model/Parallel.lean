import Verif.Model.Basic

/-!
Interleaving semantics of a parallel loop.

`#pragma omp parallel for` and `tbb::parallel_for` run a set of tasks (iterations, or chunks of consecutive iterations)
in an order that is not fixed. Each task is a list of actions that is executed in order; a schedule names, step by step,
the task whose next action runs. The loop is over when every task has run all its actions. Actions are atomic and memory
is sequentially consistent; data-race freedom, under which this covers all executions, is part of the property theorems.
-/

namespace Verif

/-- The order in which the actions of `tasks` run under a schedule; `none` if the schedule is not a complete execution. -/
def parOrder {α : Type} : List Nat → List (List α) → Option (List α)
  | [], tasks => if tasks.all List.isEmpty then some [] else none
  | j :: js, tasks =>
    match tasks[j]? with
    | some (a :: rest) => (parOrder js (tasks.set j rest)).map (fun o => a :: o)
    | _ => none

end Verif
