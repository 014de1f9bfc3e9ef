import Verif.Model.BasicExamples
import Verif.Model.OdometryPcl

/-!
Model of the example with PCL interfaces, `src/example/02_basic_registration_pcl.cpp`, and of the access to `pcl::PointCloud`
(`pcl_point_traits.hpp`, `pcl_point.hpp`), over the real numbers; conversion from double to float is a function `rnd`, and every float is
a real number. Not modelled: what is printed, and the point types of PCL themselves.
-/

namespace Verif.BasicExamplesPcl

open Matrix Verif Verif.PointCloud Verif.Features Verif.RegMem Verif.Factors Verif.Optimizer Verif.Lie Verif.Pipeline Verif.OdometryPipeline Verif.OdometryPcl Verif.BasicExamples

/-- `convert_to_pcl` (02_basic_registration_pcl.cpp:91-98), read with `Traits::point` (pcl_point_traits.hpp:31): all four components are
copied. -/
def convertToPcl (value : Files.F32 → ℝ) (pts : List Files.V4) : List (Pt ℝ) := pts.map fun v => ⟨value v.x, value v.y, value v.z, value v.w⟩

/-- `voxelgrid_sampling_omp(*raw, 0.25)` into a `pcl::PointCloud` (02_basic_registration_pcl.cpp:16-17, 49-50): four threads by default, and
`set_point` converts to float (pcl_point_traits.hpp:27). -/
noncomputable def sample (e : Env) (rnd : ℝ → ℝ) (blocks : List Nat) (pts : List (Pt ℝ)) : Option (Res (List (Pt ℝ))) :=
  (Downsample.voxelgridSamplingPar e.sortOmp Downsample.ompCut blocks pts (1 / 4)).map fun r => r.map (List.map (roundPt rnd))

/-! ### `example1` -/

/-- A Gaussian voxel map, or the fault during its construction. -/
abbrev MapSlot := Res (Voxel.VoxelMap ℝ (Voxel.GaussianVoxel ℝ))

/-- What `RegistrationPCL` uses: as in `OdometryPcl.pclEnv`, and voxel maps (pcl_registration_impl.hpp:229-235). -/
noncomputable def mapEnv (e : Env) (x : PclExec) (clouds : List (List (Pt ℝ))) : Pcl.Env (Pt ℝ) (KdTree.Tree ℝ) CovSlot MapSlot ℝ where
  heap := (pclEnv e x clouds).heap
  accepts := (pclEnv e x clouds).accepts
  mkTree := (pclEnv e x clouds).mkTree
  estimate := (pclEnv e x clouds).estimate
  mkMap resolution pts covs := createVoxelmap (proxyCloud pts covs) resolution

/-- `registration.align(*target_voxelmap_, source_proxy, *target_voxelmap_, guess)` (pcl_registration_impl.hpp:217-223, 237): `result_`. The
program never registers to a cloud in this way; that case is in `OdometryPcl.pclAlign`. -/
noncomputable def mapAlign (e : Env) (x : PclExec) (call : Pcl.Call (Pt ℝ) (KdTree.Tree ℝ) CovSlot MapSlot ℝ (Pose ℝ)) : Res (Result ℝ) :=
  match call.target with
  | .cloud _ _ _ => .error .abort
  | .voxelmap m => do
    let m ← m
    let source := proxyCloud call.sourcePoints call.sourceCovs
    let (res, _, _) ← RegMem.align (gicpMem e.inv) (voxelWorld e.maxD m source e.junk)
      ⟨distanceRejector call.maxDistSq, nullFactor, e.solve, se3Exp, converged call.rotationEps call.translationEps⟩ (x.lin call.sourcePoints) (x.err call.sourcePoints)
      (.lm { (Helper.Registration.default .gicp).lm with maxIterations := call.maxIterations }) call.guess source.size
    return res

/-- The calls of `example1` on the registration object (02_basic_registration_pcl.cpp:20-41). `aligned` is another cloud than the two inputs. -/
noncomputable def example1Calls : List (Pcl.Op CovSlot ℝ (Pose ℝ)) :=
  [.setNumThreads 4, .setNumNeighborsForCovariance 20, .setMaxCorrespondenceDistance 1, .setVoxelResolution 1, .setRegistrationType "VGICP",
   .setInputTarget (some 0), .setInputSource (some 1), .align false Pose.one, .swapSourceAndTarget, .align false Pose.one]

/-- A voxel map that the object holds has been built without fault. -/
def built : Option MapSlot → Res Unit
  | none => .ok ()
  | some m => m.map fun _ => ()

/-- `example1` (02_basic_registration_pcl.cpp:14-44) on the sampled clouds: `result_` after each call of `align`. `n0` is the initial
`max_iterations_` of `pcl::Registration`. A fault while a voxel map is built ends the run, also if the map is not used. -/
noncomputable def example1 (e : Env) (x : PclExec) (n0 : Int) (target source : List (Pt ℝ)) : Res (List (Result ℝ)) := do
  let (g, calls) ← Pcl.run (mapEnv e x [target, source]) (Pcl.State.init n0) example1Calls
  let _ ← built g.targetMap
  let _ ← built g.sourceMap
  (calls.filterMap id).mapM (mapAlign e x)

/-! ### `example2` -/

/-- Covariances converted to float by `set_cov` (pcl_point_traits.hpp:29). Simplified: all of them at the end; during the estimation none is
read, and each is written once. -/
def roundCovs (rnd : ℝ → ℝ) (c : RCloud) : RCloud := ⟨c.points, c.normals, c.covs.map (Option.map fun C => fun i j => rnd (C i j))⟩

/-- How the parallel parts run on one cloud: blocks of the sampler, the loop of `estimate_covariances_omp`, the tasks of `KdTreeBuilderOMP`. -/
structure CloudExec where
  blocks : List Nat
  chunks : List (List Nat)
  sched : List Nat
  tree : List (List Bool)

/-- `estimate_covariances_omp(cloud, 20, 4)` (02_basic_registration_pcl.cpp:55-56, normal_estimation_omp.hpp:9-17, 57-60); its own tree is built by
`KdTreeBuilder`. -/
noncomputable def estimateCovariances (e : Env) (rnd : ℝ → ℝ) (x : CloudExec) (pts : List (Pt ℝ)) : Option (Res RCloud) :=
  andThen (frameTree e .sequential pts) fun t =>
  (covariances e (.parallel x.chunks x.sched) t 20 (sampledCloud pts)).map fun r => r.map (roundCovs rnd)

/-- `registration.align(target, source, tree, Identity)` (02_basic_registration_pcl.cpp:62-67, 78). -/
noncomputable def gicp (e : Env) (y : RegExec) (target source : RCloud) (tree : KdTree.Tree ℝ) : Res (Result ℝ) := do
  let pts ← cloudPoints target
  runMethod e y (gicpMem e.inv) (cloudWorld target source (kdNearest e.maxD pts tree (pts.length + 1) e.junk))
    { Helper.Registration.default .gicp with numThreads := 4, maxDistSq := 1 } Pose.one source.size

/-- `example2` (02_basic_registration_pcl.cpp:47-81): `result` and `result2`. -/
noncomputable def example2 (e : Env) (rnd : ℝ → ℝ) (xt xs : CloudExec) (y y2 : RegExec) (rawTarget rawSource : List (Pt ℝ)) : Option (Res (Result ℝ × Result ℝ)) :=
  andThen (sample e rnd xt.blocks rawTarget) fun tpts =>
  andThen (sample e rnd xs.blocks rawSource) fun spts =>
  andThen (estimateCovariances e rnd xt tpts) fun target =>
  andThen (estimateCovariances e rnd xs spts) fun source =>
  andThen (frameTree e (.parallel xt.tree) tpts) fun targetTree =>
  andThen (frameTree e (.parallel xs.tree) spts) fun sourceTree =>
  some (do
    let result ← gicp e y target source targetTree
    let result2 ← gicp e y2 source target sourceTree
    return (result, result2))

/-! ### `main` -/

/-- How the parallel parts of the program run. -/
structure Runs where
  blocksT : List Nat
  blocksS : List Nat
  pcl : PclExec
  xt : CloudExec
  xs : CloudExec
  y : RegExec
  y2 : RegExec

/-- `main` (02_basic_registration_pcl.cpp:83-107); the arguments are the contents of the two files, `none` for a file that cannot be opened. -/
noncomputable def main (e : Env) (value : Files.F32 → ℝ) (rnd : ℝ → ℝ) (n0 : Int) (x : Runs) (target source : Option (List Files.Byte)) : Option (Res Ended) :=
  andThen (some (Files.readPly target)) fun t =>
  andThen (some (Files.readPly source)) fun s =>
  if t.isEmpty || s.isEmpty then some (.ok ⟨1, []⟩)
  else
    andThen (sample e rnd x.blocksT (convertToPcl value t)) fun tpts =>
    andThen (sample e rnd x.blocksS (convertToPcl value s)) fun spts =>
    andThen (some (example1 e x.pcl n0 tpts spts)) fun r1 =>
    andThen (example2 e rnd x.xt x.xs x.y x.y2 (convertToPcl value t) (convertToPcl value s)) fun r2 =>
    some (.ok ⟨0, r1 ++ [r2.1, r2.2]⟩)

end Verif.BasicExamplesPcl
