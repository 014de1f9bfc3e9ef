import Verif.Model.Basic
import Mathlib.Algebra.Field.Defs
import Mathlib.Order.Defs.LinearOrder

/-!
Model of `RegistrationPCL` (include/small_gicp/pcl/pcl_registration_impl.hpp) as a state machine: which data every call to
`Registration::align` receives. Search trees, covariance estimation and voxel maps are parameters (`Env`); their own behaviour is
modelled elsewhere. Messages, the transformed output cloud and `final_transformation_` are left out.

The base class `pcl::Registration` is not part of the repository. Used of it: `setInputSource`/`setInputTarget` dereference the
pointer and store it unless the cloud is rejected (`Env.accepts`; PCL rejects empty clouds), `align` calls `computeTransformation`
only if both clouds are set, and the setters of its own parameters are assignments.
-/

namespace Verif.Pcl

open Verif

/-- Clouds are identified by their address; `heap` gives the points behind it. The points of a cloud do not change while it is in
use (the class only holds pointers to const). `estimate` is `estimate_covariances_omp` and `mkTree` the construction with
`KdTreeBuilderOMP`, neither of which depends on the number of threads (C07, C49). -/
structure Env (P Tree C Map K : Type) where
  heap : Nat → List P
  accepts : Nat → Bool
  mkTree : List P → Tree
  estimate : List P → Tree → Int → List C
  mkMap : K → List P → List C → Map

/-- Parameters (pcl_registration.hpp:95-100 and the base class). -/
structure Params (K : Type) where
  numThreads : Int
  kCorrespondences : Int
  rotationEps : K
  voxelResolution : K
  type : String
  verbose : Bool
  corrDist : K
  translationEps : K
  maxIterations : Int
  deriving DecidableEq, Repr

/-- Data members (pcl_registration.hpp:95-111, `input_` and `target_` of the base class). A null pointer is `none`. -/
structure State (Tree C Map K : Type) where
  params : Params K
  input : Option Nat
  target : Option Nat
  sourceTree : Option Tree
  targetTree : Option Tree
  sourceCovs : List C
  targetCovs : List C
  sourceMap : Option Map
  targetMap : Option Map

/-- The target of a registration. -/
inductive Ref (P Tree C Map : Type) where
  | cloud (points : List P) (covs : List C) (tree : Tree)
  | voxelmap (m : Map)
  deriving DecidableEq, Repr

/-- One run of `Registration<GICPFactor, ParallelReductionOMP>::align` with everything it depends on. -/
structure Call (P Tree C Map K G : Type) where
  rotationEps : K
  translationEps : K
  numThreads : Int
  maxDistSq : K
  verbose : Bool
  maxIterations : Int
  target : Ref P Tree C Map
  sourcePoints : List P
  sourceCovs : List C
  guess : G
  deriving DecidableEq, Repr

variable {P Tree C Map K G : Type} [Field K] [LinearOrder K]

/-- Constructor (pcl_registration_impl.hpp:23-35); `baseIterations` is the initial `max_iterations_` of the base class. -/
def State.init (baseIterations : Int) : State Tree C Map K :=
  ⟨⟨4, 20, 2 / 1000, 1, "GICP", false, 1000, 5 / 10000, baseIterations⟩, none, none, none, none, [], [], none, none⟩

/-- `setInputSource` of the base class. -/
def baseSetInput (E : Env P Tree C Map K) (old : Option Nat) : Option Nat → Res (Option Nat)
  | none => .error .nullDeref
  | some c => .ok (if E.accepts c then some c else old)

/-- `std::make_shared<KdTree>(cloud, ...)`. -/
def buildTree (E : Env P Tree C Map K) : Option Nat → Res Tree
  | none => .error .nullDeref
  | some c => .ok (E.mkTree (E.heap c))

/-- `setInputSource` (pcl_registration_impl.hpp:41-50). -/
def setInputSource (E : Env P Tree C Map K) (cloud : Option Nat) (st : State Tree C Map K) : Res (State Tree C Map K) :=
  if st.input = cloud then .ok st
  else do
    let input ← baseSetInput E st.input cloud
    let tree ← buildTree E input
    .ok { st with input := input, sourceTree := some tree, sourceCovs := [], sourceMap := none }

/-- `setInputTarget` (pcl_registration_impl.hpp:53-62). -/
def setInputTarget (E : Env P Tree C Map K) (cloud : Option Nat) (st : State Tree C Map K) : Res (State Tree C Map K) :=
  if st.target = cloud then .ok st
  else do
    let target ← baseSetInput E st.target cloud
    let tree ← buildTree E target
    .ok { st with target := target, targetTree := some tree, targetCovs := [], targetMap := none }

/-- `setSourceCovariances` (pcl_registration_impl.hpp:65-77). -/
def setSourceCovariances (E : Env P Tree C Map K) (covs : List C) (st : State Tree C Map K) : State Tree C Map K :=
  match st.input with
  | none => st
  | some c => if covs.length ≠ (E.heap c).length then st else { st with sourceCovs := covs }

/-- `setTargetCovariances` (pcl_registration_impl.hpp:80-92). -/
def setTargetCovariances (E : Env P Tree C Map K) (covs : List C) (st : State Tree C Map K) : State Tree C Map K :=
  match st.target with
  | none => st
  | some c => if covs.length ≠ (E.heap c).length then st else { st with targetCovs := covs }

/-- `swapSourceAndTarget` (pcl_registration_impl.hpp:113-118). -/
def swapSourceAndTarget (st : State Tree C Map K) : State Tree C Map K :=
  let st := { st with input := st.target, target := st.input }
  let st := { st with sourceTree := st.targetTree, targetTree := st.sourceTree }
  let st := { st with sourceCovs := st.targetCovs, targetCovs := st.sourceCovs }
  { st with sourceMap := st.targetMap, targetMap := st.sourceMap }

/-- `clearSource` (pcl_registration_impl.hpp:121-126). -/
def clearSource (st : State Tree C Map K) : State Tree C Map K := { st with input := none, sourceTree := none, sourceCovs := [], sourceMap := none }

/-- `clearTarget` (pcl_registration_impl.hpp:129-134). -/
def clearTarget (st : State Tree C Map K) : State Tree C Map K := { st with target := none, targetTree := none, targetCovs := [], targetMap := none }

/-- `setNumThreads` (pcl_registration_impl.hpp:137-144). -/
def setNumThreads (n : Int) (p : Params K) : Params K :=
  let n := if n ≤ 0 then 1 else n
  { p with numThreads := n }

/-- `setNumNeighborsForCovariance` (pcl_registration_impl.hpp:152-158); `setCorrespondenceRandomness` (147-149) calls it. -/
def setNumNeighborsForCovariance (k : Int) (p : Params K) : Params K :=
  let k := if k < 5 then 5 else k
  { p with kCorrespondences := k }

/-- `setVoxelResolution` (pcl_registration_impl.hpp:161-168): the test looks at the old value. -/
def setVoxelResolution (r : K) (p : Params K) : Params K :=
  let r := if p.voxelResolution ≤ 0 then 1 else r
  { p with voxelResolution := r }

/-- `setRotationEpsilon` (pcl_registration_impl.hpp:171-173). -/
def setRotationEpsilon (eps : K) (p : Params K) : Params K := { p with rotationEps := eps }

/-- `setRegistrationType` (pcl_registration_impl.hpp:176-184). -/
def setRegistrationType (type : String) (p : Params K) : Params K :=
  if type = "GICP" then { p with type := type }
  else if type = "VGICP" then { p with type := type }
  else p

/-- `setVerbosity` (pcl_registration_impl.hpp:187-189). -/
def setVerbosity (verbose : Bool) (p : Params K) : Params K := { p with verbose := verbose }

/-- A dereferenced shared pointer. -/
def deref {α : Type} : Option α → Res α
  | none => .error .nullDeref
  | some a => .ok a

/-- Estimation of missing source covariances (pcl_registration_impl.hpp:210-212). -/
def ensureSourceCovs (E : Env P Tree C Map K) (input : Nat) (st : State Tree C Map K) : Res (State Tree C Map K) :=
  if st.sourceCovs.length ≠ (E.heap input).length then do
    let tree ← deref st.sourceTree
    .ok { st with sourceCovs := E.estimate (E.heap input) tree st.params.kCorrespondences }
  else .ok st

/-- Estimation of missing target covariances (pcl_registration_impl.hpp:213-215). -/
def ensureTargetCovs (E : Env P Tree C Map K) (target : Nat) (st : State Tree C Map K) : Res (State Tree C Map K) :=
  if st.targetCovs.length ≠ (E.heap target).length then do
    let tree ← deref st.targetTree
    .ok { st with targetCovs := E.estimate (E.heap target) tree st.params.kCorrespondences }
  else .ok st

/-- The registration object and its run (pcl_registration_impl.hpp:217-241). -/
def register (E : Env P Tree C Map K) (input target : Nat) (guess : G) (st : State Tree C Map K) :
    Res (State Tree C Map K × Option (Call P Tree C Map K G)) :=
  let call : Ref P Tree C Map → Call P Tree C Map K G := fun ref =>
    ⟨st.params.rotationEps, st.params.translationEps, st.params.numThreads, st.params.corrDist * st.params.corrDist, st.params.verbose,
     st.params.maxIterations, ref, E.heap input, st.sourceCovs, guess⟩
  if st.params.type = "GICP" then do
    let tree ← deref st.targetTree
    .ok (st, some (call (.cloud (E.heap target) st.targetCovs tree)))
  else if st.params.type = "VGICP" then
    let tmap := st.targetMap.getD (E.mkMap st.params.voxelResolution (E.heap target) st.targetCovs)
    let st := { st with targetMap := some tmap }
    let smap := st.sourceMap.getD (E.mkMap st.params.voxelResolution (E.heap input) st.sourceCovs)
    let st := { st with sourceMap := some smap }
    .ok (st, some (call (.voxelmap tmap)))
  else .ok (st, none)

/-- `computeTransformation` (pcl_registration_impl.hpp:202-246). `aliased` is the test of lines 203-205. The result is the state
afterwards and the registration that was run, if any. -/
def computeTransformation (E : Env P Tree C Map K) (aliased : Bool) (guess : G) (st : State Tree C Map K) :
    Res (State Tree C Map K × Option (Call P Tree C Map K G)) := do
  let input ← deref st.input
  let target ← deref st.target
  if aliased then .error .exception
  else do
    let st ← ensureSourceCovs E input st
    let st ← ensureTargetCovs E target st
    register E input target guess st

/-- The public interface. The last three constructors are setters of the base class. -/
inductive Op (C K G : Type) where
  | setInputSource (cloud : Option Nat)
  | setInputTarget (cloud : Option Nat)
  | setSourceCovariances (covs : List C)
  | setTargetCovariances (covs : List C)
  | swapSourceAndTarget
  | clearSource
  | clearTarget
  | setNumThreads (n : Int)
  | setNumNeighborsForCovariance (k : Int)
  | setVoxelResolution (r : K)
  | setRotationEpsilon (eps : K)
  | setRegistrationType (type : String)
  | setVerbosity (verbose : Bool)
  | align (aliased : Bool) (guess : G)
  | setMaxCorrespondenceDistance (d : K)
  | setTransformationEpsilon (eps : K)
  | setMaximumIterations (n : Int)

/-- One call. An exception leaves the state as it was and the caller may go on; `align` of the base class does nothing without
clouds. -/
def step (E : Env P Tree C Map K) (st : State Tree C Map K) : Op C K G → Res (State Tree C Map K × Option (Call P Tree C Map K G))
  | .setInputSource c => (setInputSource E c st).map (·, none)
  | .setInputTarget c => (setInputTarget E c st).map (·, none)
  | .setSourceCovariances covs => .ok (setSourceCovariances E covs st, none)
  | .setTargetCovariances covs => .ok (setTargetCovariances E covs st, none)
  | .swapSourceAndTarget => .ok (swapSourceAndTarget st, none)
  | .clearSource => .ok (clearSource st, none)
  | .clearTarget => .ok (clearTarget st, none)
  | .setNumThreads n => .ok ({ st with params := setNumThreads n st.params }, none)
  | .setNumNeighborsForCovariance k => .ok ({ st with params := setNumNeighborsForCovariance k st.params }, none)
  | .setVoxelResolution r => .ok ({ st with params := setVoxelResolution r st.params }, none)
  | .setRotationEpsilon eps => .ok ({ st with params := setRotationEpsilon eps st.params }, none)
  | .setRegistrationType t => .ok ({ st with params := setRegistrationType t st.params }, none)
  | .setVerbosity v => .ok ({ st with params := setVerbosity v st.params }, none)
  | .align aliased guess =>
    if st.input = none ∨ st.target = none then .ok (st, none)
    else
      match computeTransformation E aliased guess st with
      | .error .exception => .ok (st, none)
      | r => r
  | .setMaxCorrespondenceDistance d => .ok ({ st with params := { st.params with corrDist := d } }, none)
  | .setTransformationEpsilon eps => .ok ({ st with params := { st.params with translationEps := eps } }, none)
  | .setMaximumIterations n => .ok ({ st with params := { st.params with maxIterations := n } }, none)

/-- A history of calls: the final state and what each call ran. -/
def run (E : Env P Tree C Map K) : State Tree C Map K → List (Op C K G) → Res (State Tree C Map K × List (Option (Call P Tree C Map K G)))
  | st, [] => .ok (st, [])
  | st, op :: ops => do
    let (st1, c) ← step E st op
    let (st2, cs) ← run E st1 ops
    .ok (st2, c :: cs)

end Verif.Pcl
