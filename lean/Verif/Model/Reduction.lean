import Verif.Model.Parallel
import Mathlib.Algebra.Group.Defs

/-!
Model of `include/small_gicp/registration/reduction.hpp`, `reduction_omp.hpp` and `reduction_tbb.hpp`.

`F` is the type of a per-point factor, `S` the type of a linearised system `(H, b, e)`. Clouds, search tree, rejector and
pose do not change during a reduction; they are hidden in `lin i f`, the effect of `factors[i].linearize(..., i, ...)` on a
factor `f`: the factor afterwards and, when `true` is returned, the system. `err f` is `f.error(target, source, T)`.
-/

namespace Verif.Reduction

open Verif

variable {F S E : Type}

/-! ### `SerialReduction` -/

/-- Body of the loop of `SerialReduction::linearize` (reduction.hpp:32-44). -/
def serialStep [Add S] (lin : Nat → F → F × Option S) (st : List F × S) (i : Nat) : Res (List F × S) := do
  let f ← rd st.1 i
  let r := lin i f
  let fs ← wr st.1 i r.1
  match r.2 with
  | none => return (fs, st.2)
  | some s => return (fs, st.2 + s)

/-- `SerialReduction::linearize` (reduction.hpp:21-47). -/
def serialLinearize [Zero S] [Add S] (lin : Nat → F → F × Option S) (fs : List F) : Res (List F × S) :=
  (List.range fs.length).foldlM (serialStep lin) (fs, 0)

/-- `SerialReduction::error` (reduction.hpp:56-62). -/
def serialError [Zero E] [Add E] (err : F → E) (fs : List F) : Res E :=
  (List.range fs.length).foldlM (fun sum i => do
    let f ← rd fs i
    return sum + err f) 0

/-! ### `ParallelReductionOMP` -/

/-- One loop iteration (reduction_omp.hpp:33-46) is two actions of its thread: the linearisation of factor `i` into the local
variables `H`, `b`, `e`, and the accumulation into the slots of the thread. -/
inductive OmpAct where
  | lin (t i : Nat)
  | acc (t : Nat)
  deriving DecidableEq, Repr

/-- Shared factors, the local variables of each thread (`none` when `linearize` returned `false`), and `Hs`, `bs`, `es`. -/
structure OmpState (F S : Type) where
  factors : List F
  locals : List (Option S)
  sums : List S

/-- Effect of an action (reduction_omp.hpp:38-45). -/
def ompAct [Add S] (lin : Nat → F → F × Option S) (st : OmpState F S) : OmpAct → Res (OmpState F S)
  | .lin t i => do
    let f ← rd st.factors i
    let r := lin i f
    let fs ← wr st.factors i r.1
    let ls ← wr st.locals t r.2
    return { st with factors := fs, locals := ls }
  | .acc t => do
    match ← rd st.locals t with
    | none => return st
    | some s => do
      let old ← rd st.sums t
      let sums ← wr st.sums t (old + s)
      return { st with sums := sums }

/-- Actions of thread `t` when it is given the iterations `is`. -/
def ompThread (t : Nat) (is : List Nat) : List OmpAct := is.flatMap (fun i => [.lin t i, .acc t])

/-- Summation of the per-thread results into slot 0 (reduction_omp.hpp:48-54). -/
def ompGather [Add S] (numThreads : Nat) (sums : List S) : Res S := do
  let sums ← (List.range' 1 (numThreads - 1)).foldlM (fun sums i => do
    let a ← rd sums 0
    let b ← rd sums i
    wr sums 0 (a + b)) sums
  rd sums 0

/-- `ParallelReductionOMP::linearize` (reduction_omp.hpp:20-55). `assign` lists the iterations given to each thread (guided
scheduling is one way of choosing them), `sched` the interleaving of the threads. `none` if `sched` is not a complete
execution. A negative `num_threads` (`std::length_error`) is not modelled. -/
def ompLinearize [Zero S] [Add S] (lin : Nat → F → F × Option S) (numThreads : Nat) (assign : List (List Nat)) (sched : List Nat)
    (fs : List F) : Option (Res (List F × S)) :=
  match parOrder sched (assign.mapIdx ompThread) with
  | none => none
  | some order => some (do
      let st ← order.foldlM (ompAct lin) ⟨fs, List.replicate numThreads none, List.replicate numThreads 0⟩
      let s ← ompGather numThreads st.sums
      return (st.factors, s))

/-- `ParallelReductionOMP::error` (reduction_omp.hpp:58-66): each thread sums into a private copy initialised to zero; the
private copies are added to the original variable in the unspecified order `comb`. -/
def ompError [Zero E] [Add E] (err : F → E) (assign : List (List Nat)) (comb : List Nat) (fs : List F) : Res E := do
  let parts ← assign.mapM (fun is => is.foldlM (fun sum i => do
    let f ← rd fs i
    return sum + err f) (0 : E))
  comb.foldlM (fun sum t => do
    let p ← rd parts t
    return sum + p) 0

/-! ### `ParallelReductionTBB` -/

/-- How `tbb::parallel_reduce` may process a `blocked_range`: run the body on it; run the same body on the left and then on the
right part; or run a body split off from the first one on the right part, concurrently, and join it afterwards. -/
inductive RTree where
  | range (first last : Nat)
  | seq (l r : RTree)
  | fork (l r : RTree)
  deriving DecidableEq, Repr

/-- A body is named by the place in the tree where it was split off; the initial one is `[]`. -/
abbrev BodyId := List Bool

/-- Actions of a body. -/
inductive TbbAct where
  | split (c : BodyId)
  | enter (b : BodyId)
  | lin (b : BodyId) (i : Nat)
  | add (b : BodyId)
  | leave (b : BodyId)
  | join (b c : BodyId)
  deriving DecidableEq, Repr

/-- Members `H`, `b`, `e` of a body, the local sums `Ht`, `bt`, `et` and the local system `Hi`, `bi`, `ei`. -/
structure Body (S : Type) where
  acc : S
  tmp : S
  loc : Option S

structure TbbState (F S : Type) where
  factors : List F
  bodies : BodyId → Body S

def TbbState.setBody (st : TbbState F S) (b : BodyId) (x : Body S) : TbbState F S :=
  { st with bodies := fun c => if c = b then x else st.bodies c }

/-- Splitting constructor (reduction_tbb.hpp:30-39), `operator()` (41-63), `join` (65-69). -/
def tbbAct [Zero S] [Add S] (lin : Nat → F → F × Option S) (st : TbbState F S) : TbbAct → Res (TbbState F S)
  | .split c => return st.setBody c ⟨0, 0, none⟩
  | .enter b => return st.setBody b { st.bodies b with tmp := (st.bodies b).acc }
  | .lin b i => do
    let f ← rd st.factors i
    let r := lin i f
    let fs ← wr st.factors i r.1
    return { st with factors := fs }.setBody b { st.bodies b with loc := r.2 }
  | .add b =>
    match (st.bodies b).loc with
    | none => return st
    | some s => return st.setBody b { st.bodies b with tmp := (st.bodies b).tmp + s }
  | .leave b => return st.setBody b { st.bodies b with acc := (st.bodies b).tmp }
  | .join b c => return st.setBody b { st.bodies b with acc := (st.bodies b).acc + (st.bodies c).acc }

/-- `l` is an interleaving of `l1` and `l2`. -/
inductive Shuffle {α : Type} : List α → List α → List α → Prop where
  | nil : Shuffle [] [] []
  | left {a l1 l2 l} : Shuffle l1 l2 l → Shuffle (a :: l1) l2 (a :: l)
  | right {a l1 l2 l} : Shuffle l1 l2 l → Shuffle l1 (a :: l2) (a :: l)

/-- Body `b` working on a range (reduction_tbb.hpp:41-63). -/
def rangeActs (b : BodyId) (first last : Nat) : List TbbAct :=
  .enter b :: ((List.range' first (last - first)).flatMap (fun i => [.lin b i, .add b]) ++ [.leave b])

/-- The possible orders of the actions when body `b` processes tree `t` at position `pos`. -/
inductive Trace : RTree → BodyId → BodyId → List TbbAct → Prop where
  | range {pos b first last} : Trace (.range first last) pos b (rangeActs b first last)
  | seq {l r pos b tl tr} : Trace l (pos ++ [false]) b tl → Trace r (pos ++ [true]) b tr → Trace (.seq l r) pos b (tl ++ tr)
  | fork {l r pos b tl tr s} : Trace l (pos ++ [false]) b tl → Trace r (pos ++ [true]) (pos ++ [true]) tr →
      Shuffle tl (.split (pos ++ [true]) :: tr) s → Trace (.fork l r) pos b (s ++ [.join b (pos ++ [true])])

/-- `tree` splits `[first, last)` into consecutive parts, as `blocked_range` does. -/
inductive Covers : RTree → Nat → Nat → Prop where
  | range {first last} : first ≤ last → Covers (.range first last) first last
  | seq {l r a m b} : Covers l a m → Covers r m b → Covers (.seq l r) a b
  | fork {l r a m b} : Covers l a m → Covers r m b → Covers (.fork l r) a b

/-- `ParallelReductionTBB::linearize` (reduction_tbb.hpp:118-131) for one order of the actions. -/
def tbbLinearize [Zero S] [Add S] (lin : Nat → F → F × Option S) (order : List TbbAct) (fs : List F) : Res (List F × S) := do
  let st ← order.foldlM (tbbAct lin) ⟨fs, fun _ => ⟨0, 0, none⟩⟩
  return (st.factors, (st.bodies []).acc)

/-- `ParallelReductionTBB::error` (reduction_tbb.hpp:134-138) with `ErrorSum` (85-111), which has the structure of `LinearizeSum`
with an unconditional contribution and leaves the factors alone. -/
def tbbError [Zero E] [Add E] (err : F → E) (order : List TbbAct) (fs : List F) : Res E := do
  let r ← tbbLinearize (fun _ f => (f, some (err f))) order fs
  return r.2

end Verif.Reduction
