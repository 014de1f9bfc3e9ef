import Verif.Model.Example
import Verif.Model.Pipeline
import Verif.Model.SortOmp

/-!
Model of `example2` of `src/example/03_registration_template.cpp`: down-sampling, normal estimation and registration run on the user-defined classes.
-/

namespace Verif.Example

open Matrix Verif Verif.Factors Verif.PointCloud Verif.RegMem Verif.Features Verif.Pipeline Verif.Optimizer Verif.Lie Verif.Helper

/-- `knn_search` as called by `estimate_local_features` (normal_estimation.hpp:67-69, 03_registration_template.cpp:164-166): the `size_t` argument of the traits is converted to `int`. The search holds
a pointer to `searched`, whatever cloud it is called for; it reads nothing but points, which the estimation does not change. -/
noncomputable def bruteKnn (top : QueueTop ℝ) (searched : MyCloud ℝ) : Search := fun _ q k => do
  let (n, indices, _) ← knnSearch top searched q (SortOmp.toInt32 k) (List.replicate k 0) (List.replicate k 0)
  return indices.take n

/-- The points of a cloud as the sampler reads them (03_registration_template.cpp:265-275, 89-92): three coordinates and 1. -/
def inputPoints (points : List (Fin 3 → ℝ)) : List (Pt ℝ) := points.map (fun p => ⟨p 0, p 1, p 2, 1⟩)

/-- The cloud returned by the sampler (downsampling_omp.hpp:58-94 with 03_registration_template.cpp:107-109): three coordinates of each emitted point are stored, everything else is zero. -/
def sampled (out : List (Pt ℝ)) : MyCloud ℝ := out.map (fun p => ⟨![p.x, p.y, p.z], 0, 0⟩)

/-- The loops that set the features (03_registration_template.cpp:291-296). -/
def fillFeatures (c : MyCloud ℝ) : MyCloud ℝ := c.map (fun p => { p with features := fun _ => 1 })

/-- How the parallel parts before the registration are executed. -/
structure PrepExec2 where
  targetBlocks : List Nat
  sourceBlocks : List Nat
  targetChunks : List (List Nat)
  targetSched : List Nat
  sourceChunks : List (List Nat)
  sourceSched : List Nat

/-- The configured registration object (03_registration_template.cpp:305-308). -/
noncomputable def registration2 (e : Env) (target source : MyCloud ℝ) : Config ℝ :=
  ⟨myRejector (1 * 1) (9 / 10) target source, myGeneral (10 ^ 8), e.solve, se3Exp, converged (Registration.default .planeIcp).rotationEps (Registration.default .planeIcp).translationEps⟩

/-- The registration of the two prepared clouds (03_registration_template.cpp:305-313); `target` and `source` are the sampled clouds with features, `ct` and `cs` show them with normals. -/
noncomputable def align2 (e : Env) (top : QueueTop ℝ) (y : RegExec) (target source : MyCloud ℝ) (ct cs : RCloud) : Res (Result ℝ × List PlaneICP × List (Iteration PlaneICP ℝ)) :=
  RegMem.align planeMem (cloudWorld ct cs (nearestSearch top target e.junk)) (registration2 e target source)
    (fun T fs => .omp 4 (y.lin T fs).assign (y.lin T fs).sched (y.lin T fs).comb)
    (fun T fs => .omp 4 (y.err T fs).assign (y.err T fs).sched (y.err T fs).comb) (.lm (Registration.default .planeIcp).lm) Pose.one cs.size

/-- `estimate_normals_omp(cloud, search, 10, 4)` (03_registration_template.cpp:287-288). -/
noncomputable def normals2 (e : Env) (top : QueueTop ℝ) (searched cloud : MyCloud ℝ) (chunks : List (List Nat)) (sched : List Nat) : Option (Res RCloud) :=
  if chunks.flatten.Perm (List.range cloud.length) then estimatePar normalSetter e.eig (fun _ => .ok (bruteKnn top searched)) 10 (view cloud) chunks sched
  else none

/-- `example2` (03_registration_template.cpp:258-322) up to the printed results: the registration result with the final factors and the ghost record of the iterations. `none` if `x` is not a
complete execution. The points are given after the conversion to `double`. Both clouds are searched with a search object of the target (lines 282-283). Normals are kept in the form the traits show them; the steps after
the estimation read no normal except through the traits. -/
noncomputable def example2 (e : Env) (top : QueueTop ℝ) (x : PrepExec2) (y : RegExec) (targetPoints sourcePoints : List (Fin 3 → ℝ)) :
    Option (Res (Result ℝ × List PlaneICP × List (Iteration PlaneICP ℝ))) :=
  match Downsample.voxelgridSamplingPar e.sortOmp Downsample.ompCut x.targetBlocks (inputPoints targetPoints) (1 / 4) with
  | none => none
  | some (.error f) => some (.error f)
  | some (.ok outT) =>
    match Downsample.voxelgridSamplingPar e.sortOmp Downsample.ompCut x.sourceBlocks (inputPoints sourcePoints) (1 / 4) with
    | none => none
    | some (.error f) => some (.error f)
    | some (.ok outS) =>
      let target := sampled outT
      let source := sampled outS
      match normals2 e top target target x.targetChunks x.targetSched with
      | none => none
      | some (.error f) => some (.error f)
      | some (.ok ct) =>
        match normals2 e top target source x.sourceChunks x.sourceSched with
        | none => none
        | some (.error f) => some (.error f)
        | some (.ok cs) => some (align2 e top y (fillFeatures target) (fillFeatures source) ct cs)

end Verif.Example
