import Verif.Model.OdometryPipeline
import Verif.Model.PclRegistration

/-!
The odometry engine `small_gicp_pcl` of `src/benchmark/odometry_benchmark_small_gicp_pcl.cpp`: one object of `RegistrationPCL`
(`PclRegistration.lean`) whose source and target are swapped after every frame, with the library functions it calls.

Conversions from double to float are a function `rnd` on the real numbers.
-/

namespace Verif.OdometryPcl

open Matrix Verif Verif.PointCloud Verif.Features Verif.RegMem Verif.Factors Verif.Optimizer Verif.Lie Verif.Pipeline Verif.OdometryPipeline

/-- How the parallel functions run. The execution may depend on the data in any way. Simplified: if the same data are processed twice the
execution is the same. -/
structure PclExec where
  tree : List (Pt ℝ) → TreeExec
  loop : List (Pt ℝ) → LoopExec
  lin : List (Pt ℝ) → Pose ℝ → List (GICP ℝ) → Exec
  err : List (Pt ℝ) → Pose ℝ → List (GICP ℝ) → Exec

/-- An element of a vector of covariances; `none` is an element that has not been written. -/
abbrev CovSlot := Option (Matrix (Fin 4) (Fin 4) ℝ)

/-- Conversion of a point to float and back (odometry_benchmark_small_gicp_pcl.cpp:25, pcl_point_traits.hpp:34, pcl_proxy.hpp:33). -/
def roundPt (rnd : ℝ → ℝ) (p : Pt ℝ) : Pt ℝ := ⟨rnd p.x, rnd p.y, rnd p.z, rnd p.w⟩

/-- Conversion of a transformation to float and back (pcl_registration_impl.hpp:244, odometry_benchmark_small_gicp_pcl.cpp:43). The last row
`0 0 0 1` is exact in both formats. -/
def roundPose (rnd : ℝ → ℝ) (T : Pose ℝ) : Pose ℝ := ⟨fun i j => rnd (T.R i j), fun i => rnd (T.t i)⟩

/-- What `RegistrationPCL` uses, for clouds allocated so far; the address of a cloud is its position in `clouds`. PCL rejects empty clouds.
`mkTree` is `KdTree` with `KdTreeBuilderOMP` (pcl_registration_impl.hpp:47, 59), `estimate` is `estimate_covariances_omp` on a
`PointCloudProxy` (pcl_registration_impl.hpp:210-215, pcl_proxy.hpp:23-37; after its `resize` the vector has one unwritten element for
each point, as `sampledCloud` has from the start). Where one of them faults, its result is unusable here: an empty tree, unwritten
covariances. The voxel map is not used by this engine. -/
noncomputable def pclEnv (e : Env) (x : PclExec) (clouds : List (List (Pt ℝ))) : Pcl.Env (Pt ℝ) (KdTree.Tree ℝ) CovSlot Unit ℝ where
  heap n := clouds.getD n []
  accepts n := !(clouds.getD n []).isEmpty
  mkTree pts := match frameTree e (x.tree pts) pts with
    | some (.ok t) => t
    | _ => ⟨[], [], none⟩
  estimate pts t k := match covariances e (x.loop pts) t k (sampledCloud pts) with
    | some (.ok c) => c.covs
    | _ => List.replicate pts.length none
  mkMap _ _ _ := ()

/-- Points and covariances behind a `PointCloudProxy` (pcl_proxy.hpp:13-18). -/
def proxyCloud (pts : List (Pt ℝ)) (covs : List CovSlot) : RCloud := ⟨pts.map (fun p => some (ofPt p)), [], covs⟩

/-- `registration.align(target_proxy, source_proxy, *target_tree_, guess)` (pcl_registration_impl.hpp:217-226); the rest of the settings have
their default values. The engine never selects VGICP; that case is not modelled here. -/
noncomputable def pclAlign (e : Env) (x : PclExec) (call : Pcl.Call (Pt ℝ) (KdTree.Tree ℝ) CovSlot Unit ℝ (Pose ℝ)) : Res (Pose ℝ) :=
  match call.target with
  | .voxelmap _ => .error .abort
  | .cloud pts covs tree => do
    let source := proxyCloud call.sourcePoints call.sourceCovs
    let (res, _, _) ← RegMem.align (gicpMem e.inv) (cloudWorld (proxyCloud pts covs) source (kdNearest e.maxD pts tree (pts.length + 1) e.junk))
      ⟨distanceRejector call.maxDistSq, nullFactor, e.solve, se3Exp, converged call.rotationEps call.translationEps⟩ (x.lin call.sourcePoints) (x.err call.sourcePoints)
      (.lm { (Helper.Registration.default .gicp).lm with maxIterations := call.maxIterations }) call.guess source.size
    return res.T

/-- `SmallGICPPCLOdometryEstimation` (odometry_benchmark_small_gicp_pcl.cpp:56-59) with the clouds allocated so far. A cloud is never freed
here; a new one differs from every cloud in use. -/
structure PclOdometry where
  clouds : List (List (Pt ℝ))
  gicp : Pcl.State (KdTree.Tree ℝ) CovSlot Unit ℝ
  T : Pose ℝ

/-- Constructor (odometry_benchmark_small_gicp_pcl.cpp:15-19); `baseIterations` is the initial `max_iterations_` of `pcl::Registration`. -/
noncomputable def PclOdometry.init (o : Params) (numThreads baseIterations : Int) : PclOdometry :=
  let g : Pcl.State (KdTree.Tree ℝ) CovSlot Unit ℝ := Pcl.State.init baseIterations
  let p := Pcl.setNumNeighborsForCovariance o.numNeighbors g.params
  let p := { p with corrDist := o.maxCorrespondenceDistance }
  let p := Pcl.setNumThreads numThreads p
  ⟨[], { g with params := p }, Pose.one⟩

/-- `voxelgrid_sampling(*points[i], params.downsampling_resolution)` (benchmark_odom.hpp:59). -/
noncomputable def sampleCloud (e : Env) (o : Params) (c : RCloud) : Res RCloud := do
  let pts ← cloudPoints c
  let out ← Downsample.voxelgridSampling e.sort pts o.downsamplingResolution
  return sampledCloud out

/-- `SmallGICPPCLOdometryEstimation::estimate` (odometry_benchmark_small_gicp_pcl.cpp:21-50). The output cloud of `align` is a local variable,
so it is not one of the inputs. Without both clouds `align` does nothing and `final_transformation_` is still the identity. -/
noncomputable def pclEstimate (e : Env) (x : PclExec) (rnd : ℝ → ℝ) (s : PclOdometry) (c : RCloud) : Res (PclOdometry × Pose ℝ) := do
  let pts ← cloudPoints c
  let clouds := s.clouds ++ [pts.map (roundPt rnd)]
  let E := pclEnv e x clouds
  match s.gicp.target with
  | none => do
    let g ← Pcl.setInputTarget E (some s.clouds.length) s.gicp
    return (⟨clouds, g, s.T⟩, s.T)
  | some _ => do
    let g ← Pcl.setInputSource E (some s.clouds.length) s.gicp
    let (g, call) ← Pcl.step E g (.align false Pose.one)
    let R ← match call with
      | none => .ok Pose.one
      | some call => pclAlign e x call
    let T := s.T.mul (roundPose rnd R)
    return (⟨clouds, Pcl.swapSourceAndTarget g, T⟩, T)

/-- The engine `small_gicp_pcl` on a sequence of frames (benchmark_odom.hpp:49-80). -/
noncomputable def pclOnline (e : Env) (o : Params) (x : PclExec) (rnd : ℝ → ℝ) (s : PclOdometry) (points : List (Option RCloud)) :
    Res (PclOdometry × List (Option RCloud) × List (Pose ℝ)) :=
  Odometry.online (sampleCloud e o) (pclEstimate e x rnd) s points

end Verif.OdometryPcl
