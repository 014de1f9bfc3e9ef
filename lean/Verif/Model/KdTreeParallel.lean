import Verif.Model.KdTree

/-!
Model of the parallel builders `include/small_gicp/ann/kdtree_omp.hpp` and `kdtree_tbb.hpp`.

Small-step interleaving semantics: every activation of `create_node` is a process; one step of one process is one
access (or one group of accesses) to the shared arrays and the atomic counter; a schedule picks, step by step, which
process moves. Simplification: `find_axis` + `nth_element` of one activation is one step (it reads and writes only the
activation's own index range, and the ranges of simultaneously running activations are disjoint, which is proved as
part of C07); the memory model is sequential consistency.
-/

namespace Verif.KdTree

open Verif

variable {D : Type} [LT D] [LE D] [DecidableLT D] [DecidableLE D]

/-- Control state of one activation of `create_node` (kdtree_omp.hpp:50-93, kdtree_tbb.hpp:32-73). -/
inductive Proc (D : Type) where
  /-- before `node_count++` -/
  | start (first last : Nat)
  /-- slot `id` taken, before the leaf test -/
  | alloc (id first last : Nat)
  /-- after `nth_element`, before the node payload is written -/
  | split (id first mid last : Nat) (proj : Proj D) (thresh : D)
  /-- payload written, children created; `par`: both children may run concurrently (`N > 512`) -/
  | node (id : Nat) (par : Bool) (l r : Proc D)
  /-- finished; the parent has not yet stored the returned index -/
  | ret (id : Nat)
  /-- finished; the returned index is stored in `node.left` / `node.right` -/
  | stored (id : Nat)
  deriving DecidableEq, Repr

/-- Is the child's result stored (task finished)? -/
def Proc.isStored : Proc D → Bool
  | .stored _ => true
  | _ => false

/-- Concurrency condition `N > 512` (kdtree_omp.hpp:82, 84 task `if` clause, kdtree_tbb.hpp:63). -/
def concurrent (n : Nat) : Bool := decide (512 < n)

/-- Step of an activation that holds slot `id` of the range `[first, last)`: leaf creation (kdtree_omp.hpp:62-68,
kdtree_tbb.hpp:44-50) or split (kdtree_omp.hpp:71-74, kdtree_tbb.hpp:53-56). -/
def allocStep (o : Ops D) (b : Builder D) (points : List (Pt D)) (id first last : Nat) (s : BuildState D) :
    Res (Proc D × BuildState D) := do
  let n := last - first
  if isLeafSize n b.maxLeafSize then
    let node ← rd s.nodes id
    let nodes ← wr s.nodes id { node with payload := .leaf (toU32 first) (toU32 last) }
    return (.ret id, { s with nodes := nodes })
  else
    let (proj, thresh, seg) ← splitRange o b points (slice s.indices first last)
    return (.split id first (first + n / 2) last proj thresh,
      { s with indices := overwrite s.indices first last seg })

/-- Write `node.node_type.sub` and create the two child activations (kdtree_omp.hpp:77-86, kdtree_tbb.hpp:59-70). -/
def splitStep (id first mid last : Nat) (proj : Proj D) (thresh : D) (s : BuildState D) :
    Res (Proc D × BuildState D) := do
  let node ← rd s.nodes id
  let nodes ← wr s.nodes id { node with payload := .sub proj thresh }
  return (.node id (concurrent (last - first)) (.start first mid) (.start mid last), { s with nodes := nodes })

/-- `node.left = <returned index>` (kdtree_omp.hpp:83, kdtree_tbb.hpp:65, 68). -/
def storeLeft (id c : Nat) (s : BuildState D) : Res (BuildState D) := do
  let node ← rd s.nodes id
  let nodes ← wr s.nodes id { node with left := c }
  return { s with nodes := nodes }

/-- `node.right = <returned index>` (kdtree_omp.hpp:85, kdtree_tbb.hpp:66, 69). -/
def storeRight (id c : Nat) (s : BuildState D) : Res (BuildState D) := do
  let node ← rd s.nodes id
  let nodes ← wr s.nodes id { node with right := c }
  return { s with nodes := nodes }

/-- One step of the activation addressed by the path (`false` = left child, `true` = right child); `none` if that
activation cannot move. -/
def step (o : Ops D) (b : Builder D) (points : List (Pt D)) :
    List Bool → Proc D → BuildState D → Option (Res (Proc D × BuildState D))
  | [], .start first last, s =>
    some (.ok (.alloc (toU32 s.nodeCount) first last, { s with nodeCount := s.nodeCount + 1 }))
  | [], .alloc id first last, s => some (allocStep o b points id first last s)
  | [], .split id first mid last proj thresh, s => some (splitStep id first mid last proj thresh s)
  | [], .node id _ l r, s => if l.isStored && r.isStored then some (.ok (.ret id, s)) else none
  | false :: path, .node id par l r, s =>
    match l with
    | .ret c => if path = [] then some ((storeLeft id c s).map (fun s => (.node id par (.stored c) r, s))) else none
    | l => (step o b points path l s).map (fun res => res.map (fun ls => (.node id par ls.1 r, ls.2)))
  | true :: path, .node id par l r, s =>
    if par || l.isStored then
      match r with
      | .ret c => if path = [] then some ((storeRight id c s).map (fun s => (.node id par l (.stored c), s))) else none
      | r => (step o b points path r s).map (fun res => res.map (fun rs => (.node id par l rs.1, rs.2)))
    else none
  | _, _, _ => none

/-- Run a schedule; `none` if it names an activation that cannot move. -/
def runSchedule (o : Ops D) (b : Builder D) (points : List (Pt D)) :
    List (List Bool) → Proc D × BuildState D → Option (Res (Proc D × BuildState D))
  | [], ps => some (.ok ps)
  | path :: sched, ps =>
    match step o b points path ps.1 ps.2 with
    | none => none
    | some (.error e) => some (.error e)
    | some (.ok ps) => runSchedule o b points sched ps

/-- Initial state of `build_tree` (kdtree_omp.hpp:24-29, kdtree_tbb.hpp:16-21). -/
def parInit (points : List (Pt D)) : Proc D × BuildState D :=
  (.start 0 points.length, ⟨List.range points.length, List.replicate points.length Node.fresh, 0⟩)

/-- `kdtree.root = create_node(...)`; `nodes.resize(node_count)` (kdtree_omp.hpp:35-41, kdtree_tbb.hpp:22-23). -/
def parFinish : Proc D × BuildState D → Option (Tree D)
  | (.ret root, s) => some ⟨s.indices, s.nodes.take s.nodeCount, some root⟩
  | _ => none

end Verif.KdTree
