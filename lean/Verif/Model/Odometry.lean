import Verif.Model.Basic
import Verif.Model.Factors

/-!
Model of the odometry estimation of `include/small_gicp/benchmark/benchmark_odom.hpp` and `src/benchmark/odometry_benchmark_small_gicp*.cpp`.

Down-sampling, preprocessing and registration of a frame are parameters here; `OdometryPipeline.lean` supplies the models of the library
functions. Not modelled: stopwatches, statistics, printed reports and visualisation.
-/

namespace Verif.Odometry

open Verif Verif.Factors

variable {K : Type} [Field K] {C D P S : Type}

/-! ### one frame after the other -/

/-- `OnlineOdometryEstimation::estimate(std::vector<PointCloud::Ptr>&)` (benchmark_odom.hpp:49-80). `points` holds shared pointers; `none`
is a null pointer. `sample` is `voxelgrid_sampling(*points[i], params.downsampling_resolution)`, `step` the virtual function
`estimate(downsampled)`. Each pointer is reset after use. -/
def online (sample : C → Res D) (step : S → D → Res (S × Pose K)) (s : S) (points : List (Option C)) : Res (S × List (Option C) × List (Pose K)) :=
  (List.range points.length).foldlM (fun (st : S × List (Option C) × List (Pose K)) i => do
    let q ← rd st.2.1 i
    match q with
    | none => .error .nullDeref
    | some c => do
      let d ← sample c
      let r ← step st.1 d
      let ps ← wr st.2.1 i none
      return (r.1, ps, st.2.2 ++ [r.2])) (s, points, [])

/-- The state of `SmallGICPOnlineOdometryEstimation` (odometry_benchmark_small_gicp.cpp:49-52): `target_points` with `target_tree`, null
before the first frame, and `T`. -/
structure FrameToFrame (K P : Type) where
  target : Option P
  T : Pose K

/-- The state after construction (odometry_benchmark_small_gicp.cpp:14). -/
def FrameToFrame.init : FrameToFrame K P := ⟨none, Pose.one⟩

/-- `SmallGICPOnlineOdometryEstimation::estimate` (odometry_benchmark_small_gicp.cpp:16-43; the same in odometry_benchmark_small_gicp_omp.cpp:16-48
and odometry_benchmark_small_gicp_tbb.cpp:21-48): `prep` builds the tree and estimates covariances, `reg target source` is the pose of the
registration started from the identity. -/
def frameToFrame (prep : D → Res P) (reg : P → P → Res (Pose K)) (s : FrameToFrame K P) (d : D) : Res (FrameToFrame K P × Pose K) := do
  let p ← prep d
  match s.target with
  | none => return (⟨some p, s.T⟩, s.T)
  | some t => do
    let R ← reg t p
    return (⟨some p, s.T.mul R⟩, s.T.mul R)

/-! ### the flow graph -/

/-- `InputFrame` (odometry_benchmark_small_gicp_tbb_flow.cpp:17-24). `data` is `points` before preprocessing, and `points` with `kdtree` after
it; `T` is `T_last_current`, unset at first. -/
structure InputFrame (K C P : Type) where
  id : Nat
  data : C ⊕ P
  T : Option (Pose K)

/-- The state of one call of `SmallGICPFlowEstimationTBB::estimate` (odometry_benchmark_small_gicp_tbb_flow.cpp:50-170). Frames are on the
heap and passed by pointer, here an index into `heap`. `todo`: clouds not yet fed to `input_node`. `waitPre`, `runPre`: bodies of
`preprocess_node` spawned, and running. `buf1`, `next1`: `postpre_sequencer_node`, what it holds and the id it waits for. `pairQ`: input
queue of `pairing_node`, which runs one body at a time in the order of arrival. `last`: the static variable `last_frame` of its body.
`waitReg`, `runReg`: bodies of `registration_node`. `buf2`, `next2`: `postreg_sequencer_node`. `outQ`: input queue of `output_node`. -/
structure Flow (K C P : Type) where
  heap : List (InputFrame K C P)
  todo : List C
  nextId : Nat
  waitPre : List Nat
  runPre : List Nat
  buf1 : List Nat
  next1 : Nat
  pairQ : List Nat
  last : Option Nat
  waitReg : List (Option Nat × Nat)
  runReg : List (Option Nat × Nat)
  buf2 : List Nat
  next2 : Nat
  outQ : List Nat
  traj : List (Pose K)

/-- What can happen next. Bodies of the unlimited nodes start and end separately, so that any number of them can overlap; their accesses
are attributed to the end (`Flow.Race` says when overlapping bodies would conflict). A body of a serial node and the forwarding of a
message by a sequencer are single events. -/
inductive Event where
  | feed
  | startPre (p : Nat)
  | endPre (p : Nat)
  | seq1 (p : Nat)
  | pair
  | startReg (q : Option Nat × Nat)
  | endReg (q : Option Nat × Nat)
  | seq2 (p : Nat)
  | output
  deriving DecidableEq, Repr

/-- The body of `preprocess_node` (odometry_benchmark_small_gicp_tbb_flow.cpp:61-67). Simplified: sampling a frame that is already preprocessed
is marked `abort`; the theorems show that each frame is preprocessed once. -/
def preBody (prep : C → Res P) (heap : List (InputFrame K C P)) (p : Nat) : Res (List (InputFrame K C P)) := do
  let f ← rd heap p
  match f.data with
  | .inr _ => .error .abort
  | .inl c => do
    let d ← prep c
    wr heap p { f with data := .inr d }

/-- The preprocessed points and tree of a frame; reading a tree that was not built dereferences a null pointer. -/
def InputFrame.prepared (f : InputFrame K C P) : Res P :=
  match f.data with
  | .inl _ => .error .nullDeref
  | .inr d => .ok d

/-- The body of `registration_node` (odometry_benchmark_small_gicp_tbb_flow.cpp:81-96). -/
def regBody (reg : P → P → Res (Pose K)) (heap : List (InputFrame K C P)) (q : Option Nat × Nat) : Res (List (InputFrame K C P)) :=
  match q.1 with
  | none => do
    let f ← rd heap q.2
    wr heap q.2 { f with T := some Pose.one }
  | some t => do
    let ft ← rd heap t
    let dt ← ft.prepared
    let f ← rd heap q.2
    let d ← f.prepared
    let R ← reg dt d
    wr heap q.2 { f with T := some R }

/-- The body of `output_node` (odometry_benchmark_small_gicp_tbb_flow.cpp:102-107). -/
def outBody (heap : List (InputFrame K C P)) (traj : List (Pose K)) (p : Nat) : Res (List (Pose K)) := do
  let f ← rd heap p
  match f.T with
  | none => .error .uninit
  | some R =>
    match traj.getLast? with
    | none => return traj ++ [R]
    | some T => return traj ++ [T.mul R]

/-- One event; `none` if it is not possible now. Simplified: a `sequencer_node` rejects a message whose id it has already passed; here the
message stays in the buffer for good. The theorems show that this never happens. -/
def Flow.step (prep : C → Res P) (reg : P → P → Res (Pose K)) (s : Flow K C P) : Event → Option (Res (Flow K C P))
  | .feed =>
    match s.todo with
    | [] => none
    | c :: cs => some (.ok { s with heap := s.heap ++ [⟨s.nextId, .inl c, none⟩], todo := cs, nextId := s.nextId + 1, waitPre := s.heap.length :: s.waitPre })
  | .startPre p => if p ∈ s.waitPre then some (.ok { s with waitPre := s.waitPre.erase p, runPre := p :: s.runPre }) else none
  | .endPre p => if p ∈ s.runPre then some (do
      let h ← preBody prep s.heap p
      return { s with heap := h, runPre := s.runPre.erase p, buf1 := p :: s.buf1 }) else none
  | .seq1 p => if p ∈ s.buf1 ∧ (s.heap[p]?.map InputFrame.id) = some s.next1 then
      some (.ok { s with buf1 := s.buf1.erase p, next1 := s.next1 + 1, pairQ := s.pairQ ++ [p] }) else none
  | .pair =>
    match s.pairQ with
    | [] => none
    | p :: ps => some (.ok { s with pairQ := ps, last := some p, waitReg := (s.last, p) :: s.waitReg })
  | .startReg q => if q ∈ s.waitReg then some (.ok { s with waitReg := s.waitReg.erase q, runReg := q :: s.runReg }) else none
  | .endReg q => if q ∈ s.runReg then some (do
      let h ← regBody reg s.heap q
      return { s with heap := h, runReg := s.runReg.erase q, buf2 := q.2 :: s.buf2 }) else none
  | .seq2 p => if p ∈ s.buf2 ∧ (s.heap[p]?.map InputFrame.id) = some s.next2 then
      some (.ok { s with buf2 := s.buf2.erase p, next2 := s.next2 + 1, outQ := s.outQ ++ [p] }) else none
  | .output =>
    match s.outQ with
    | [] => none
    | p :: ps => some (do
      let tr ← outBody s.heap s.traj p
      return { s with outQ := ps, traj := tr })

/-- A sequence of events. A failing body ends the program. -/
def Flow.run (prep : C → Res P) (reg : P → P → Res (Pose K)) : Flow K C P → List Event → Option (Res (Flow K C P))
  | s, [] => some (.ok s)
  | s, e :: es =>
    match s.step prep reg e with
    | none => none
    | some (.error f) => if es = [] then some (.error f) else none
    | some (.ok s') => Flow.run prep reg s' es

/-- The call of `estimate` on `points` (odometry_benchmark_small_gicp_tbb_flow.cpp:50-148), before anything was fed. `heap` and `last` are what
earlier calls left behind: `last_frame` is a static variable, so it keeps the last frame of the previous call. -/
def Flow.start (heap : List (InputFrame K C P)) (last : Option Nat) (points : List C) : Flow K C P :=
  ⟨heap, points, 0, [], [], [], 0, [], last, [], [], [], 0, [], []⟩

/-- `graph.wait_for_all()` returns when nothing can happen any more (odometry_benchmark_small_gicp_tbb_flow.cpp:166). -/
def Flow.Finished (prep : C → Res P) (reg : P → P → Res (Pose K)) (s : Flow K C P) : Prop := ∀ e, s.step prep reg e = none

end Verif.Odometry
