import Verif.Props.RegistrationVoxel
import Verif.Props.KdTreeExamples
import Verif.Props.VoxelExamples

/-! C57, C58: the hypotheses are needed, and they are met by concrete clouds. -/

set_option linter.unusedSectionVars false
set_option linter.unusedSimpArgs false

namespace Verif.Props

open Matrix Verif Verif.Knn Verif.KdTree Verif.Proofs Verif.Proofs.RegMem Verif.Factors Verif.Reduction Verif.Optimizer Verif.PointCloud Verif.RegMem

section Negative

variable {K : Type} [Field K] [LinearOrder K] [IsStrictOrderedRing K]

/-- C57 needs a target point: on the tree of an empty cloud every registration of a non-empty source that makes at least one
iteration reads the uninitialised root. -/
theorem C57_empty_target {F : Type} {needs : Needs} {mf : MemFactor F K} {pf : PointFactor F K} (h : Ships needs mf pf) (b : Builder K) (source : PCloud K)
    (hsp : Spec.PointsSet source) (hne : 0 < source.size) (hcov : needs.covs = true → Spec.CovsSet source) (fuel fuel' : Nat) (maxD : K) (junk : Nat × K)
    (cfg : Config K) (execL execE : Pose K → List F → Exec) (hL : ∀ T fs, fs.length = source.size → (execL T fs).Complete source.size)
    (hE : ∀ T fs, fs.length = source.size → (execE T fs).Complete source.size) (meth : Method K) (hit : 0 < iterations meth) (T0 : Pose K) :
    ∃ t, cloudPoints (⟨[], [], []⟩ : PCloud K) = .ok [] ∧ KdTree.construct (exactOps K) b fuel' [] = .ok t ∧
      RegMem.align mf (cloudWorld ⟨[], [], []⟩ source (kdNearest maxD [] t fuel junk)) cfg execL execE meth T0 source.size = .error .uninit := by
  refine ⟨⟨[], [], none⟩, rfl, rfl, ?_⟩
  have hnn : ∀ q, kdNearest maxD [] ⟨[], [], none⟩ fuel junk q = .error .uninit := fun q => rfl
  have hw : Sound (· = .uninit) (cloudWorld (⟨[], [], []⟩ : PCloud K) source (kdNearest maxD [] ⟨[], [], none⟩ fuel junk)) needs source.size :=
    { srcPoint := fun i hi => by
        obtain ⟨p, hp⟩ := hsp i hi
        exact ⟨p, by simp only [cloudWorld, Cloud.point, getSlot, rd, hp]; rfl⟩
      srcCov := fun hc i hi => by
        obtain ⟨p, hp⟩ := hcov hc i hi
        exact ⟨p, by simp only [cloudWorld, Cloud.cov, getSlot, rd, hp]; rfl⟩
      nn := fun q => Or.inr ⟨_, rfl, hnn q⟩
      found := fun q k d h => by
        have h : kdNearest maxD [] ⟨[], [], none⟩ fuel junk q = _ := h
        rw [hnn] at h; cases h }
  obtain ⟨out, h1, h2⟩ := align_approx h hw cfg execL execE hL hE meth T0
  rcases h2 with h2 | ⟨e, rfl, h2⟩
  · obtain ⟨it, hm, _⟩ := run_first _ _ _ _ _ h1 hit
    obtain ⟨o, ho⟩ := (align_ok_iff h hw cfg execL execE hL hE meth T0 _ h1).1 h2 it hm 0 hne
    have ho : kdNearest maxD [] ⟨[], [], none⟩ fuel junk _ = _ := ho
    rw [hnn] at ho; cases ho
  · exact h2

/-- C58, overflow: an initial guess that puts a source point out of the range of cells makes every registration with at least one
iteration undefined. -/
theorem C58_far_guess [FloorRing K] {F : Type} {needs : Needs} {mf : MemFactor F K} {pf : PointFactor F K} (h : Ships needs mf pf) (hn : needs.normals = false)
    (leaf : K) (ops : List (MapOp K)) (m : Voxel.VoxelMap K (Voxel.GaussianVoxel K)) (hm : runOps Voxel.gaussianContents (Voxel.VoxelMap.new leaf) ops = .ok m)
    (hsize : m.flat.length ≤ 2 ^ 32) (source : PCloud K) (hsp : Spec.PointsSet source) (hcov : needs.covs = true → Spec.CovsSet source)
    (maxD : K) (junk : Nat × K) (cfg : Config K) (execL execE : Pose K → List F → Exec)
    (hL : ∀ T fs, fs.length = source.size → (execL T fs).Complete source.size) (hE : ∀ T fs, fs.length = source.size → (execE T fs).Complete source.size)
    (meth : Method K) (hit : 0 < iterations meth) (T0 : Pose K) (i : Nat) (p : Fin 4 → K) (hp : source.points[i]? = some (some p))
    (hfar : ¬ Spec.QueryInRange m (toPt (T0.apply p))) :
    RegMem.align mf (voxelWorld maxD m source junk) cfg execL execE meth T0 source.size = .error .intOverflow := by
  obtain ⟨r, fs', log, h1, h2, _⟩ := C58_voxel_registration h hn leaf ops m hm hsize source hsp hcov maxD junk cfg execL execE hL hE meth T0
  rw [h2, if_neg]
  intro hall
  obtain ⟨it, h3, h4⟩ := run_first _ _ _ _ _ h1 hit
  exact hfar (h4 ▸ hall it h3 i p hp)

end Negative

/-! ### examples -/

/-- A cloud of three points, with or without normals and covariances. -/
def exCloud (normals covs : Bool) : PCloud ℚ :=
  ⟨[some ![0, 0, 0, 1], some ![1, 0, 0, 1], some ![0, 2, 0, 1]],
   if normals then [some ![0, 0, 1, 0], some ![0, 0, 1, 0], some ![0, 0, 1, 0]] else [],
   if covs then [some (diagonal ![1, 1, 1, 0]), some (diagonal ![1, 1, 1, 0]), some (diagonal ![1, 1, 1, 0])] else []⟩

theorem exCloud_points (a b : Bool) : Spec.PointsSet (exCloud a b) := by
  intro i hi
  have : i < 3 := hi
  interval_cases i <;> exact ⟨_, rfl⟩

/-- `KdTreeBuilder` on rationals: axis projection, leaf size 20. -/
def exBuilder : Builder ℚ := ⟨20, KdTree.findAxis (exactOps ℚ) 128, fun l _ => isort l⟩

/-- The hypotheses of C57 for plane ICP and GICP. -/
example : NthElementSpec exBuilder.nthElement ∧ FindAxisSpec Proj.UnitBounded exBuilder.findAxis ∧ SafeLeafSize exBuilder.maxLeafSize ∧
    Spec.PointsSet (exCloud true true) ∧ 0 < (exCloud true true).size ∧ (exCloud true true).size < 2 ^ 32 ∧
    Spec.NormalsSet (exCloud true true) ∧ Spec.CovsSet (exCloud true true) := by
  refine ⟨isort_nthElementSpec, ?_, by unfold SafeLeafSize toU64; decide, exCloud_points _ _, by decide, by decide, ?_, ?_⟩
  · intro pts range h1 h2
    obtain ⟨p, h3, a, rfl⟩ := findAxis_spec (exactOps ℚ) 128 (by unfold toU64; decide) pts range h1 h2
    exact ⟨_, h3, trivial⟩
  · intro i hi
    have : i < 3 := hi
    interval_cases i <;> exact ⟨_, rfl⟩
  · intro i hi
    have : i < 3 := hi
    interval_cases i <;> exact ⟨_, rfl⟩

/-- Executions of every kind are complete for three factors: two OpenMP threads, and a TBB split. -/
example : Exec.Complete 3 .serial ∧ Exec.Complete 3 (.omp 2 [[0, 2], [1]] [0, 1, 0, 1, 0, 0] [1, 0]) ∧
    ∃ order, Exec.Complete 3 (.tbb (.fork (.range 0 1) (.range 1 3)) order) := by
  refine ⟨trivial, ⟨by omega, by decide, by decide, ?_, by decide⟩, ?_⟩
  · exact Option.isSome_iff_exists.1 (by decide)
  · obtain ⟨order, h⟩ := C30_tbb_completes (.fork (.range 0 1) (.range 1 3))
    exact ⟨order, .fork (.range (by omega)) (.range (by omega)), h⟩

theorem fault_of {α : Type} {x : Res α} {e : Fault} (h : (match x with | .ok _ => none | .error e => some e) = some e) : x = .error e := by
  rcases x with e' | a
  · simp only [Option.some.injEq] at h; rw [h]
  · cases h

/-- C57 needs the normals for the point-to-plane factor: the first correspondence reads `normals[0]` of an empty vector. -/
theorem C57_missing_normals : RegMem.align planeMem (cloudWorld (exCloud false false) (exCloud false false)
      (kdNearest 100 [toPt ![0, 0, 0, 1], toPt ![1, 0, 0, 1], toPt ![0, 2, 0, 1]] ⟨[0, 1, 2], [⟨.leaf 0 3, INVALID_NODE, INVALID_NODE⟩], some 0⟩ 10 (0, 0)))
    ⟨distanceRejector 1, ⟨fun _ s => s, fun _ e => e⟩, fun _ _ => 0, fun _ => ⟨1, 0⟩, fun _ => true⟩ (fun _ _ => .serial) (fun _ _ => .serial) (.gn 0 1) ⟨1, 0⟩ 3 =
      .error .oob := by
  apply fault_of
  decide +kernel

/-- The map and the source of C58: two voxels; the source is in range at the identity and not 10^10 m away. -/
example : ∃ m, runOps Voxel.gaussianContents (Voxel.VoxelMap.new 1) [.setOffsets 7, .insert [mkSrc 1 2 3, mkSrc 5 5 5] idMat] = .ok m ∧ m.flat.length = 2 ∧
    Spec.QueryInRange m (toPt ((⟨1, 0⟩ : Pose ℚ).apply ![1, 2, 3, 1])) ∧ ¬ Spec.QueryInRange m (toPt ((⟨1, ![10 ^ 10, 0, 0]⟩ : Pose ℚ).apply ![1, 2, 3, 1])) := by
  have h : (runOps Voxel.gaussianContents (Voxel.VoxelMap.new 1) [.setOffsets 7, .insert [mkSrc 1 2 3, mkSrc 5 5 5] idMat]).map
      (fun m => (m.flat.length, m.invLeaf, m.offsets)) = .ok (2, (1 : ℚ), Voxel.offsets7) := by decide +kernel
  rcases hm : runOps Voxel.gaussianContents (Voxel.VoxelMap.new (1 : ℚ)) [.setOffsets 7, .insert [mkSrc 1 2 3, mkSrc 5 5 5] idMat] with e | m
  · rw [hm] at h; cases h
  · rw [hm] at h
    simp only [Except.map, Except.ok.injEq, Prod.mk.injEq] at h
    obtain ⟨h1, h2, h3⟩ := h
    refine ⟨m, rfl, h1, ?_, ?_⟩
    · unfold Spec.QueryInRange Spec.CellDefined Spec.CoordFits
      rw [h2, h3]
      decide +kernel
    · unfold Spec.QueryInRange Spec.CellDefined Spec.CoordFits
      rw [h2, h3]
      decide +kernel

end Verif.Props
