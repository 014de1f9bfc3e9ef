import Verif.Model.PythonVoxel
import Verif.Props.PythonOdometry
import Verif.Props.OdometryMemory

/-! C72: the scan-to-model odometry of `kitti_odometry.py` is a sequence of descents on what the cells remember, each started from the pose that the motion before it predicts. -/

set_option linter.unusedSectionVars false
set_option linter.unusedSimpArgs false
set_option linter.unnecessarySeqFocus false

namespace Verif.Spec

open Matrix Verif Verif.Factors Verif.KdTree Verif.Optimizer

/-- No cell remembers anything. -/
def Forgotten (resolution : ℝ) (scans : List (List Site)) : Prop := ∀ cell, memory resolution cell scans = none

/-- The result of odometry against the remembered scans `placed`, at the pose `T` that was reached by the motion `last`. While nothing is remembered, scans are placed at the identity. Afterwards
the descent for a scan starts from the pose that is predicted by the last motion, and the scan is placed at the pose where it ends. It is an error if a point of a sample has no `int` cell where it is placed, or at
a pose within 20 steps of the predicted one; and if nothing is remembered after a scan other than those placed at the identity. -/
inductive MapOdometry (leaf resolution maxD : ℝ) (k : Nat) : List (List Site) → Pose ℝ → Pose ℝ → List (List (Pt ℝ)) → Res (List (Pose ℝ)) → Prop
  | done (placed : List (List Site)) (T last : Pose ℝ) : MapOdometry leaf resolution maxD k placed T last [] (.ok [])
  | start (placed : List (List Site)) (ps out : List (Pt ℝ)) (l : List Site) (pss : List (List (Pt ℝ))) (r : Res (List (Pose ℝ))) :
      Forgotten resolution placed → BlockSample leaf ps out → LocalSites out maxD k l → (∀ p ∈ out, HasCell resolution (xyz p)) →
      MapOdometry leaf resolution maxD k (placed ++ [l.map (movedSite Pose.one)]) Pose.one Pose.one pss r →
      MapOdometry leaf resolution maxD k placed Pose.one Pose.one (ps :: pss) (r.map (Pose.one :: ·))
  | startFar (placed : List (List Site)) (ps out : List (Pt ℝ)) (pss : List (List (Pt ℝ))) :
      Forgotten resolution placed → BlockSample leaf ps out → (∃ p ∈ out, ¬ HasCell resolution (xyz p)) →
      MapOdometry leaf resolution maxD k placed Pose.one Pose.one (ps :: pss) (.error .intOverflow)
  | next (placed : List (List Site)) (T last T' last' : Pose ℝ) (ps out : List (Pt ℝ)) (l : List Site) (pss : List (List (Pt ℝ))) (r : Res (List (Pose ℝ))) :
      ¬ Forgotten resolution placed → BlockSample leaf ps out → LocalSites out maxD k l →
      Descends (Where (HasCell resolution) (NearestOffered (Shown AverageOf resolution placed) 1)) l (T.mul last) T' → (∀ p ∈ out, HasCell resolution (move T' (xyz p))) →
      ¬ Forgotten resolution (placed ++ [l.map (movedSite T')]) → T.mul last' = T' → MapOdometry leaf resolution maxD k (placed ++ [l.map (movedSite T')]) T' last' pss r →
      MapOdometry leaf resolution maxD k placed T last (ps :: pss) (r.map (T' :: ·))
  | lost (placed : List (List Site)) (T last T' : Pose ℝ) (ps out : List (Pt ℝ)) (l : List Site) (pss : List (List (Pt ℝ))) :
      ¬ Forgotten resolution placed → BlockSample leaf ps out → LocalSites out maxD k l →
      Descends (Where (HasCell resolution) (NearestOffered (Shown AverageOf resolution placed) 1)) l (T.mul last) T' → (∀ p ∈ out, HasCell resolution (move T' (xyz p))) →
      Forgotten resolution (placed ++ [l.map (movedSite T')]) → MapOdometry leaf resolution maxD k placed T last (ps :: pss) (.error .oob)
  | far (placed : List (List Site)) (T last : Pose ℝ) (ps out : List (Pt ℝ)) (steps : List (Fin 6 → ℝ)) (pss : List (List (Pt ℝ))) :
      ¬ Forgotten resolution placed → BlockSample leaf ps out → steps.length ≤ 20 → (∃ p ∈ out, ¬ HasCell resolution (move (Props.posesAfter (T.mul last) steps) (xyz p))) →
      MapOdometry leaf resolution maxD k placed T last (ps :: pss) (.error .intOverflow)

/-- After a scan with points there are none until more than 100 scans later, at a multiple of ten. -/
def LongGap (ptss : List (List (Pt ℝ))) : Prop :=
  ∃ (i n : Nat) (ps : List (Pt ℝ)), ptss[i]? = some ps ∧ ps ≠ [] ∧ i + 100 < 10 * n ∧ 10 * n ≤ ptss.length ∧ ∀ j, i < j → j < 10 * n → ptss[j]? = some []

end Verif.Spec

namespace Verif.Props

open Matrix Verif Verif.Knn Verif.KdTree Verif.Proofs Verif.Proofs.RegMem Verif.Factors Verif.Reduction Verif.Optimizer Verif.PointCloud Verif.RegMem Verif.Spec Verif.Lie
open Verif.Pipeline Verif.Features Verif.Downsample Verif.Helper Verif.OdometryPipeline Verif.Odometry Verif.Voxel Verif.OdometryModel Verif.Python

/-! ### when everything is forgotten -/

theorem remember_last {resolution : ℝ} {cell : Int × Int × Int} {n : Nat} {old : Option (Nat × List Site)} {scan : List Site} {i : Nat} {L : List Site}
    (h : remember resolution cell n old scan = some (i, L)) : ((∃ L', old = some (i, L')) ∨ (i = n ∧ scan ≠ [])) ∧ (10 ∣ n + 1 → n + 1 ≤ i + 100) := by
  classical
  unfold remember at h
  simp only at h
  have key : ∀ (all : Option (Nat × List Site)), (if 10 ∣ n + 1 then all.filter (fun e => decide (n + 1 ≤ e.1 + 100)) else all) = some (i, L) → all = some (i, L) ∧ (10 ∣ n + 1 → n + 1 ≤ i + 100) := by
    intro all h
    split at h
    · rw [Option.filter_eq_some_iff] at h
      exact ⟨h.1, fun _ => by simpa using h.2⟩
    · exact ⟨h, fun h' => absurd h' (by assumption)⟩
  obtain ⟨h1, h2⟩ := key _ h
  refine ⟨?_, h2⟩
  split at h1
  · exact .inl ⟨_, h1⟩
  · rename_i hne
    simp only [Option.some.injEq, Prod.mk.injEq] at h1
    exact .inr ⟨h1.1.symm, fun h0 => hne (by rw [h0]; rfl)⟩

theorem memory_last (resolution : ℝ) (cell : Int × Int × Int) (scans : List (List Site)) {i : Nat} {L : List Site} (h : memory resolution cell scans = some (i, L)) :
    (∃ scan, scans[i]? = some scan ∧ scan ≠ []) ∧ 10 * (scans.length / 10) ≤ i + 100 := by
  induction scans using List.reverseRecOn generalizing L with
  | nil => cases h
  | append_singleton scans scan ih =>
    rw [memory_snoc] at h
    obtain ⟨h1, h2⟩ := remember_last h
    rw [List.length_append, List.length_singleton]
    rcases h1 with ⟨L', h1⟩ | ⟨h1, h3⟩
    · obtain ⟨⟨sc, a1, a2⟩, a3⟩ := ih h1
      refine ⟨⟨sc, snoc_get.2 (.inl a1), a2⟩, ?_⟩
      by_cases hd : 10 ∣ scans.length + 1
      · have := h2 hd
        omega
      · omega
    · exact ⟨⟨scan, snoc_get.2 (.inr ⟨h1, rfl⟩), h3⟩, by omega⟩

theorem memory_keeps (resolution : ℝ) (cell : Int × Int × Int) (scans : List (List Site)) {i : Nat} {scan : List Site} (hi : scans[i]? = some scan) (hs : ∃ s ∈ scan, spaceCell resolution s.pos = cell)
    (hn : 10 * (scans.length / 10) ≤ i + 100) : ∃ j L, memory resolution cell scans = some (j, L) ∧ i ≤ j := by
  classical
  induction scans using List.reverseRecOn with
  | nil => cases hi
  | append_singleton scans last ih =>
    rw [List.length_append, List.length_singleton] at hn
    rw [memory_snoc]
    have hfin : ∀ all : Option (Nat × List Site), (∃ j L, all = some (j, L) ∧ i ≤ j) →
        ∃ j L, (if 10 ∣ scans.length + 1 then all.filter (fun e => decide (scans.length + 1 ≤ e.1 + 100)) else all) = some (j, L) ∧ i ≤ j := by
      rintro all ⟨j, L, rfl, hj⟩
      refine ⟨j, L, ?_, hj⟩
      split
      · rename_i hd
        have : scans.length + 1 ≤ j + 100 := by omega
        rw [Option.filter_some, decide_eq_true this]
        rfl
      · rfl
    unfold remember
    apply hfin
    rcases snoc_get.1 hi with h | ⟨h, rfl⟩
    · obtain ⟨j, L, a1, a2⟩ := ih h (by omega)
      split
      · exact ⟨j, L, a1, a2⟩
      · exact ⟨_, _, rfl, (List.getElem?_eq_some_iff.1 h).1.le⟩
    · rw [if_neg]
      · exact ⟨_, _, rfl, h.le⟩
      · obtain ⟨s, hs, hc⟩ := hs
        intro h0
        have : s ∈ last.filter (fun s => decide (spaceCell resolution s.pos = cell)) := List.mem_filter.2 ⟨hs, by simpa using hc⟩
        rw [h0] at this
        cases this

/-- Everything is forgotten if and only if the last clearing was more than 100 scans after each scan with points. -/
theorem forgotten_iff (resolution : ℝ) (scans : List (List Site)) : Forgotten resolution scans ↔ ∀ (i : Nat) scan, scans[i]? = some scan → scan ≠ [] → i + 100 < 10 * (scans.length / 10) := by
  constructor
  · intro h i scan hi hne
    by_contra hn
    obtain ⟨s, hs⟩ := List.exists_mem_of_ne_nil scan hne
    obtain ⟨j, L, h1, _⟩ := memory_keeps resolution (spaceCell resolution s.pos) scans hi ⟨s, hs, rfl⟩ (by omega)
    rw [h] at h1
    cases h1
  · intro h cell
    cases hm : memory resolution cell scans with
    | none => rfl
    | some x =>
      obtain ⟨⟨scan, h1, h2⟩, h3⟩ := memory_last resolution cell scans (i := x.1) (L := x.2) hm
      have := h x.1 scan h1 h2
      omega

/-! ### the map of the placed scans -/

/-- The map holds the scans `placed`. -/
def MapHolds (placed : List (List Site)) (m : VoxelMap ℝ (GaussianVoxel ℝ)) : Prop :=
  ∃ calls : List (List (SrcPt ℝ) × Mat4 ℝ), insertCalls gaussianContents (VoxelMap.new 1) calls = .ok m ∧ calls.map callScan = placed ∧
    ∀ call ∈ calls, call.1.length ≤ 2 ^ 25 ∧ ∀ s ∈ call.1, CellDefined (1 / 1) (mulPt call.2 s.pt) ∧ (mulPt call.2 s.pt).w = 1 ∧ RegularCov (call.2 * s.cov * call.2.transpose)

theorem holds_nil : MapHolds [] (VoxelMap.new 1) := ⟨[], rfl, rfl, by simp⟩

/-- The map is empty if and only if everything is forgotten. -/
theorem holds_empty {placed : List (List Site)} {m : VoxelMap ℝ (GaussianVoxel ℝ)} (h : MapHolds placed m) (hn : placed.length < 2 ^ 63) : m.flat = [] ↔ Forgotten 1 placed := by
  obtain ⟨calls, h1, rfl, h3⟩ := h
  rw [List.length_map] at hn
  have hnew : (VoxelMap.new 1 : VoxelMap ℝ (GaussianVoxel ℝ)) = userMap 1 100 10 [(0, 0, 0)] := rfl
  obtain ⟨m', g1, _, _, _, _, _, _, g3⟩ := insertCalls_ok gaussianContents calls (userMap 1 100 10 [(0, 0, 0)]) (userMap_inv 1 100 10 (by norm_num) [(0, 0, 0)])
    (by simp [userMap, VoxelMap.new]; omega) (fun call hc s hs => ((h3 call hc).2 s hs).1)
  rw [← hnew, h1] at g1
  cases g1
  have hcell : ∀ cell, absFlat m.flat cell = none ↔ memory 1 cell (calls.map callScan) = none := by
    intro cell
    have hrel := relMap_run (gauss_relOK (1 / (1 : ℝ))) 100 10 calls 0 (fun _ => none) (fun _ => none) (fun _ => trivial) cell
    have h3 := g3 cell
    simp only [userMap, VoxelMap.new] at h3
    have hempty : absFlat ([] : List (Info × GaussianVoxel ℝ)) = fun _ => none := rfl
    rw [hempty] at h3
    rw [← h3] at hrel
    rw [← received_memory, Option.map_eq_none_iff]
    have hB : AMap.run sampleContents (1 / (1 : ℝ)) 100 10 0 (fun _ => none) calls cell = received (1 / 1) 100 10 calls cell := rfl
    rw [hB] at hrel
    cases hA : absFlat m.flat cell <;> cases hR : received (1 / (1 : ℝ)) 100 10 calls cell <;> rw [hA, hR] at hrel
    · simp
    · exact hrel.elim
    · exact hrel.elim
    · simp
  unfold Forgotten
  simp only [← hcell]
  constructor
  · intro h cell
    rw [h]
    rfl
  · intro h
    cases hf : m.flat with
    | nil => rfl
    | cons v rest =>
      have := h v.1.coord
      rw [hf] at this
      simp [absFlat] at this

theorem voxelPoints_gaussian (m : VoxelMap ℝ (GaussianVoxel ℝ)) : voxelPoints gaussianContents m = .ok (m.flat.map (fun v => v.2.mean)) := by
  unfold voxelPoints
  have h : ∀ l : List (Info × GaussianVoxel ℝ), l.mapM (fun v => (List.range (gaussianContents.size v.2)).mapM (gaussianContents.point v.2)) = (.ok (l.map (fun v => [v.2.mean])) : Res _) := by
    intro l
    induction l with
    | nil => rfl
    | cons v l ih =>
      rw [List.mapM_cons, ih]
      rfl
  rw [h]
  show Except.ok _ = _
  congr 1
  induction m.flat with
  | nil => rfl
  | cons v l ih =>
    simp only [List.map_cons, List.flatten_cons, ih]
    rfl

section Step

variable {e : Env} (he : EnvMeets e) {numThreads : Int}

/-- Nothing of the normals is read. -/
theorem alignVoxels_map (y : RegExec) (m : VoxelMap ℝ (GaussianVoxel ℝ)) (c : RCloud) (T0 : Pose ℝ) :
    (alignVoxels e y m c T0 (alignDefaults numThreads)).map Result.T = alignToMap gaussianKind e ⟨.sequential, .sequential,
      fun T fs => .omp numThreads.toNat (y.lin T fs).assign (y.lin T fs).sched (y.lin T fs).comb, fun T fs => .omp numThreads.toNat (y.err T fs).assign (y.err T fs).sched (y.err T fs).comb⟩ 1 m c T0 := by
  have h1 : alignVoxels e y m c T0 (alignDefaults numThreads) = (do
      let (res, _, _) ← RegMem.align (gicpMem e.inv) (mapWorld gaussianContents gaussianAttrs e.maxD m c e.junk)
        ⟨distanceRejector (1 * 1), nullFactor, e.solve, se3Exp, converged (1 / 10 * Real.pi / 180) (1 / 1000)⟩
        (fun T fs => .omp numThreads.toNat (y.lin T fs).assign (y.lin T fs).sched (y.lin T fs).comb)
        (fun T fs => .omp numThreads.toNat (y.err T fs).assign (y.err T fs).sched (y.err T fs).comb) (.lm ⟨20, 10, 1 / 1000, 10⟩) T0 c.size
      return res) := rfl
  rw [h1, one_mul]
  unfold alignToMap
  simp only [Registration.default, gaussianKind]
  generalize (RegMem.align (gicpMem e.inv) (mapWorld gaussianContents gaussianAttrs e.maxD m c e.junk) _ _ _ _ T0 c.size) = a
  cases a <;> rfl

theorem numpyInv_ok {T : Pose ℝ} (hT : T.R.det ≠ 0) : ∃ S, numpyInv T = .ok S ∧ (∀ A, T.mul (S.mul A) = A) ∧ ∀ A, S.mul (T.mul A) = A := by
  have hu : IsUnit (Matrix.det (T.R : Matrix (Fin 3) (Fin 3) ℝ)) := isUnit_iff_ne_zero.2 hT
  refine ⟨⟨(T.R : Matrix (Fin 3) (Fin 3) ℝ)⁻¹, -((T.R : Matrix (Fin 3) (Fin 3) ℝ)⁻¹ *ᵥ T.t)⟩, by unfold numpyInv; rw [if_neg hT], fun A => ?_, fun A => ?_⟩
  · obtain ⟨R, t⟩ := A
    unfold Pose.mul
    congr 1
    · show T.R * ((T.R : Matrix (Fin 3) (Fin 3) ℝ)⁻¹ * R) = R
      exact Matrix.mul_nonsing_inv_cancel_left _ _ hu
    · simp only [Matrix.mulVec_add, Matrix.mulVec_neg, Matrix.mulVec_mulVec]
      rw [Matrix.mul_nonsing_inv _ hu]
      simp
  · obtain ⟨R, t⟩ := A
    unfold Pose.mul
    congr 1
    · show (T.R : Matrix (Fin 3) (Fin 3) ℝ)⁻¹ * (T.R * R) = R
      exact Matrix.nonsing_inv_mul_cancel_left _ _ hu
    · simp only [Matrix.mulVec_add, Matrix.mulVec_neg, Matrix.mulVec_mulVec]
      rw [Matrix.nonsing_inv_mul _ hu]
      simp

/-- A pose that is reached by steps from the identity. -/
def Reached (T : Pose ℝ) : Prop := ∃ steps : List (Fin 6 → ℝ), T = posesAfter Pose.one steps

theorem reached_det {T : Pose ℝ} (h : Reached T) : T.R.det ≠ 0 := by
  obtain ⟨steps, rfl⟩ := h
  have := (C41_drift Pose.one ⟨by simp [Pose.one], by simp [Pose.one]⟩ steps).2.1
  intro h0
  rw [h0] at this
  norm_num at this

theorem reached_mul {T S : Pose ℝ} (h : Reached T) (h' : Reached S) : Reached (T.mul S) := by
  obtain ⟨a, rfl⟩ := h
  obtain ⟨b, rfl⟩ := h'
  exact ⟨a ++ b, by rw [posesAfter_append, ← posesAfter_mul, pose_mul_one]⟩

theorem reached_steps {T : Pose ℝ} (h : Reached T) (steps : List (Fin 6 → ℝ)) : Reached (posesAfter T steps) := by
  obtain ⟨a, rfl⟩ := h
  exact ⟨a ++ steps, (posesAfter_append _ _ _).symm⟩

theorem moved_xyz (T : Pose ℝ) {p : Pt ℝ} (hp : p.w = 1) : xyz (moved T p) = move T (xyz p) ∧ (moved T p).w = 1 := by
  constructor
  · funext a
    fin_cases a <;> simp [xyz, moved, toPt, ofPt, Pose.apply, Pose.matrix, move, head3, mulVec, dotProduct, Fin.sum_univ_four, Fin.sum_univ_three, hp]
  · simp [moved, toPt, ofPt, Pose.apply, Pose.matrix, mulVec, dotProduct, Fin.sum_univ_four, hp]

theorem cell_moved (T : Pose ℝ) {p : Pt ℝ} (hp : p.w = 1) : CellDefined (1 / 1) (moved T p) ↔ HasCell 1 (move T (xyz p)) := by
  rw [hasCell_iff 1 _ (moved_xyz T hp).2, (moved_xyz T hp).1]

theorem prepared_covs {out : List (Pt ℝ)} {c : RCloud} {t : KdTree.Tree ℝ} (h : PyPrepared e out c t) : LocalCovs out e.maxD 10 c := by
  exact ⟨h.feat.2.1.le, c, h.feat, rfl, rfl⟩

/-- Insertion of a preprocessed scan. -/
theorem insertCloud_ok {placed : List (List Site)} {m : VoxelMap ℝ (GaussianVoxel ℝ)} (hm : MapHolds placed m) (hn : placed.length + 1 < 2 ^ 63) {out : List (Pt ℝ)} {c : RCloud} {t : KdTree.Tree ℝ}
    (hc : PyPrepared e out c t) (hlen : out.length ≤ 2 ^ 25) {T : Pose ℝ} (hT : Reached T) :
    ((∀ p ∈ out, HasCell 1 (move T (xyz p))) → ∃ m', insertCloud m c T = .ok m' ∧ MapHolds (placed ++ [(cloudSites c).map (movedSite T)]) m') ∧
    ((∃ p ∈ out, ¬ HasCell 1 (move T (xyz p))) → insertCloud m c T = .error .intOverflow) := by
  have hcov := prepared_covs hc
  obtain ⟨calls, h1, rfl, h3⟩ := hm
  rw [List.length_map] at hn
  obtain ⟨src, d1, d2⟩ := source_ok hcov
  obtain ⟨m', g1, g2, g3, g4, g5, g6, _⟩ := map_after gaussianContents 1 calls (by omega) (fun call hc s hs => ((h3 call hc).2 s hs).1)
  rw [h1] at g1
  cases g1
  have hmem : ∀ x ∈ src, x.pt ∈ out := fun x hx => d2.1 ▸ List.mem_map_of_mem hx
  have hmem' : ∀ y ∈ out, ∃ x ∈ src, x.pt = y := fun y hy => List.mem_map.1 (d2.1 ▸ hy)
  unfold insertCloud
  rw [d1, ok_bind]
  constructor
  · intro hall
    have hcell : ∀ x ∈ src, CellDefined (1 / 1) (mulPt T.matrix x.pt) := by
      intro x hx
      rw [mulPt_matrix, cell_moved T (hc.unit _ (hmem x hx))]
      exact hall _ (hmem x hx)
    obtain ⟨m', k1, _⟩ := insert_ok gaussianContents m g2 src T.matrix (by rw [g5, g6]; omega) (fun x hx => by rw [g3]; exact hcell x hx)
    refine ⟨m', k1, calls ++ [(src, T.matrix)], by rw [insertCalls_snoc, h1]; exact k1, ?_, ?_⟩
    · rw [List.map_append, List.map_singleton, callScan_moved hcov hc.unit rfl rfl d1 T]
    · intro call hcall
      rcases List.mem_append.1 hcall with hcall | hcall
      · exact h3 call hcall
      · rw [List.mem_singleton] at hcall
        subst hcall
        refine ⟨by rw [← d2.1, List.length_map] at hlen; exact hlen, fun s hs => ⟨hcell s hs, ?_, ?_⟩⟩
        · rw [mulPt_matrix]
          exact (moved_xyz T (hc.unit _ (hmem s hs))).2
        · obtain ⟨q1, q2⟩ := localCovs_border hcov hc.unit
          obtain ⟨r1, r2, _, _⟩ := localCovs_regular hcov
          rw [voxelSource_get d1] at hs
          obtain ⟨j, hj, rfl⟩ := List.mem_map.1 hs
          have hj := List.mem_range.1 hj
          obtain ⟨C, hC, hC2, hC3⟩ := r2.2 j hj
          have hC' : c.cov j = .ok C := by simp only [Cloud.cov, getSlot, rd, hC]; rfl
          simp only [hC', okOr]
          exact regular_moved (reached_det hT) ⟨hC2, hC3⟩ (q2 j C hC)
  · rintro ⟨p, hp, hbad⟩
    obtain ⟨x, hx, rfl⟩ := hmem' p hp
    exact insert_undefined gaussianContents m g2.idx src T.matrix ⟨x, hx, by rw [g3, mulPt_matrix, cell_moved T (hc.unit _ hp)]; exact hbad⟩

include he in
/-- Registration of a preprocessed scan to the map. -/
theorem alignVoxels_ok (hgate : 1 < e.maxD) {placed : List (List Site)} {m : VoxelMap ℝ (GaussianVoxel ℝ)} (hm : MapHolds placed m) (hn : placed.length < 2 ^ 63) {out : List (Pt ℝ)} {c : RCloud}
    {t : KdTree.Tree ℝ} (hc : PyPrepared e out c t) {y : RegExec} (hy : RunsToEnd y numThreads.toNat) (T0 : Pose ℝ) :
    (∃ res, alignVoxels e y m c T0 (alignDefaults numThreads) = .ok res ∧ (∃ steps : List (Fin 6 → ℝ), steps.length ≤ 20 ∧ res.T = posesAfter T0 steps) ∧
      Descends (Where (HasCell 1) (NearestOffered (Shown AverageOf 1 placed) 1)) (cloudSites c) T0 res.T) ∨
    (alignVoxels e y m c T0 (alignDefaults numThreads) = .error .intOverflow ∧
      ∃ steps : List (Fin 6 → ℝ), steps.length ≤ 20 ∧ ∃ p ∈ out, ¬ HasCell 1 (move (posesAfter T0 steps) (xyz p))) := by
  have hcov := prepared_covs hc
  obtain ⟨calls, h1, rfl, h3⟩ := hm
  rw [List.length_map] at hn
  have hd : ∀ call ∈ calls, ∀ s ∈ call.1, CellDefined (1 / 1) (mulPt call.2 s.pt) := fun call hc s hs => ((h3 call hc).2 s hs).1
  obtain ⟨m', g1, g2, g3, g4, g5, g6, g7⟩ := map_after gaussianContents 1 calls hn hd
  rw [h1] at g1
  cases g1
  have hsize := g7.trans (window_sum calls (fun call hc => (h3 call hc).1))
  have hm : runOps gaussianKind.contents (VoxelMap.new 1) (calls.map (fun call => .insert call.1 call.2)) = .ok m := by
    rw [← insertCalls_ops]
    exact h1
  have hmap := alignVoxels_map (e := e) (numThreads := numThreads) y m c T0
  have hx : ∀ T (fs : List (GICP ℝ)), fs.length = out.length → (Exec.omp numThreads.toNat (y.lin T fs).assign (y.lin T fs).sched (y.lin T fs).comb).Complete out.length ∧
      (Exec.omp numThreads.toNat (y.err T fs).assign (y.err T fs).sched (y.err T fs).comb).Complete out.length := fun T fs hl => hl ▸ hy T fs
  rcases alignToMap_ok he gaussianKind_ok hm hsize g3 g4 hcov (x := ⟨.sequential, .sequential,
      fun T fs => .omp numThreads.toNat (y.lin T fs).assign (y.lin T fs).sched (y.lin T fs).comb, fun T fs => .omp numThreads.toNat (y.err T fs).assign (y.err T fs).sched (y.err T fs).comb⟩) hx 1 T0
      with ⟨T, a1, a2, _⟩ | ⟨a1, steps, a2, p, a3, a4⟩
  · left
    have hdesc := alignToMap_descends he gaussianKind_ok (fun v j => ⟨_, rfl⟩) hm hsize g3 g4 ?_ ?_ hcov hc.unit hx hgate a1 (fun i => head3 (okOr 0 (c.normal i)))
    · have hoff : MapOffers (fun v => [v.mean]) gaussianKind.attrs m = Shown AverageOf 1 (calls.map callScan) :=
        offers_shown (gauss_relOK _) (fun co v L h _ t => gauss_shown _ co v L h t) hn hd (fun call hc s hs => ((h3 call hc).2 s hs).2.1) h1
      rw [hoff] at hdesc
      rw [a1] at hmap
      cases hr : alignVoxels e y m c T0 (alignDefaults numThreads) with
      | error f => rw [hr] at hmap; cases hmap
      | ok res =>
        rw [hr] at hmap
        have : res.T = T := Except.ok.inj hmap
        subst this
        exact ⟨res, rfl, a2, hdesc⟩
    · intro v hv p hp
      rw [List.mem_singleton] at hp
      rw [hp]
      exact (gaussian_regular hn hd h1 (fun call hc s hs => ((h3 call hc).2 s hs).2.1) (fun call hc s hs => ((h3 call hc).2 s hs).2.2) v hv).1
    · intro v hv j C hC
      cases hC
      exact (gaussian_regular hn hd h1 (fun call hc s hs => ((h3 call hc).2 s hs).2.1) (fun call hc s hs => ((h3 call hc).2 s hs).2.2) v hv).2
  · right
    rw [a1] at hmap
    refine ⟨?_, steps, a2, p, a3, by rwa [← cell_moved _ (hc.unit p a3)]⟩
    cases hr : alignVoxels e y m c T0 (alignDefaults numThreads) with
    | error f => rw [hr] at hmap; cases hmap; rfl
    | ok res => rw [hr] at hmap; cases hmap

include he in
theorem scans_mapped (hgate : 1 < e.maxD) {scans : List Scan} {ptss : List (List (Pt ℝ))} (h : List.Forall₂ (ScanOf e (1 / 4) numThreads) scans ptss) (hlen : ∀ pts ∈ ptss, pts.length ≤ 2 ^ 25) :
    ∀ {placed : List (List Site)} {m : VoxelMap ℝ (GaussianVoxel ℝ)} {T last : Pose ℝ}, MapHolds placed m → placed.length + scans.length < 2 ^ 62 → Reached T → Reached last →
    (Forgotten 1 placed → T = Pose.one ∧ last = Pose.one) → MapOdometry (1 / 4) 1 e.maxD 10 placed T last ptss (scanToModel e numThreads ⟨last, T, m⟩ scans) := by
  have hone : Reached Pose.one := ⟨[], rfl⟩
  have hm1 : ∀ x, move Pose.one x = x := fun x => by simp [move, Pose.one]
  induction h with
  | nil =>
    intros
    exact .done _ _ _
  | @cons scan ps scans pss hs _ ih =>
    intro placed m T last hm hn hT hlast hstart
    have ih := @ih (fun pts hp => hlen pts (by simp [hp]))
    rw [List.length_cons] at hn
    obtain ⟨out, c, t, h1, h2, h3, h4⟩ := scan_prepared he hs
    have hout : out.length ≤ 2 ^ 25 := (block_length h2).1.trans (hlen ps (by simp))
    rw [scanToModel]
    unfold ScanToModelPy.estimate
    rw [h1]
    simp only [Option.getD_some, ok_bind]
    by_cases hf : Forgotten 1 placed
    · obtain ⟨rfl, rfl⟩ := hstart hf
      rw [if_pos (by rw [(holds_empty hm (by omega)).2 hf]; rfl)]
      obtain ⟨a1, a2⟩ := insertCloud_ok hm (by omega) h3 hout hone
      by_cases hall : ∀ p ∈ out, HasCell 1 (xyz p)
      · obtain ⟨m', b1, b2⟩ := a1 (fun p hp => by rw [hm1]; exact hall p hp)
        rw [b1, ok_bind]
        have := ih b2 (by simp; omega) hone hone (fun _ => ⟨rfl, rfl⟩)
        have := MapOdometry.start placed ps out (cloudSites c) pss _ hf h2 (cloud_sites h3.feat) hall this
        refine Eq.subst (motive := fun r => MapOdometry (1 / 4) 1 e.maxD 10 placed Pose.one Pose.one (ps :: pss) r) ?_ this
        show _ = (scanToModel e numThreads ⟨Pose.one, Pose.one, m'⟩ scans >>= fun Ts => pure (Pose.one :: Ts))
        cases scanToModel e numThreads ⟨Pose.one, Pose.one, m'⟩ scans <;> rfl
      · push Not at hall
        rw [a2 (by simpa only [hm1] using hall)]
        exact .startFar placed ps out pss hf h2 hall
    · rw [if_neg (fun h0 => hf ((holds_empty hm (by omega)).1 (List.length_eq_zero_iff.1 h0)))]
      rcases alignVoxels_ok he hgate hm (by omega) h3 hs.reg (T.mul last) with ⟨res, b1, ⟨steps, b2, b3⟩, b4⟩ | ⟨b1, steps, b2, b3⟩
      · obtain ⟨S, c1, c2, c3⟩ := numpyInv_ok (reached_det hT)
        rw [b1, ok_bind, c1]
        simp only [ok_bind]
        have hres : Reached res.T := by
          rw [b3]
          exact reached_steps (reached_mul hT hlast) steps
        obtain ⟨a1, a2⟩ := insertCloud_ok hm (by omega) h3 hout hres
        by_cases hall : ∀ p ∈ out, HasCell 1 (move res.T (xyz p))
        · obtain ⟨m', d1, d2⟩ := a1 hall
          rw [d1]
          simp only [ok_bind]
          have hempty := holds_empty d2 (by simp; omega)
          unfold voxelPointsArray
          rw [voxelPoints_gaussian, ok_bind]
          by_cases hf' : Forgotten 1 (placed ++ [(cloudSites c).map (movedSite res.T)])
          · rw [if_pos (by rw [hempty.2 hf']; rfl)]
            exact .lost placed T last res.T ps out (cloudSites c) pss hf h2 (cloud_sites h3.feat) b4 hall hf'
          · rw [if_neg (fun h0 => hf' (hempty.1 (List.map_eq_nil_iff.1 h0)))]
            have hlast' : Reached (S.mul res.T) := by
              rw [b3, posesAfter_mul, c3]
              exact reached_steps hlast steps
            have := ih d2 (by simp; omega) hres hlast' (fun h0 => absurd h0 hf')
            have := MapOdometry.next placed T last res.T (S.mul res.T) ps out (cloudSites c) pss _ hf h2 (cloud_sites h3.feat) b4 hall hf' (c2 _) this
            refine Eq.subst (motive := fun r => MapOdometry (1 / 4) 1 e.maxD 10 placed T last (ps :: pss) r) ?_ this
            show _ = (scanToModel e numThreads ⟨S.mul res.T, res.T, m'⟩ scans >>= fun Ts => pure (res.T :: Ts))
            cases scanToModel e numThreads ⟨S.mul res.T, res.T, m'⟩ scans <;> rfl
        · push Not at hall
          rw [a2 hall]
          refine .far placed T last ps out steps pss hf h2 b2 ?_
          rw [← b3]
          exact hall
      · rw [b1]
        exact .far placed T last ps out steps pss hf h2 b2 b3

end Step

/-! ### gaps -/

section Gaps

variable {leaf resolution maxD : ℝ} {k : Nat}

theorem sites_empty {ps out : List (Pt ℝ)} {l : List Site} (T : Pose ℝ) (h1 : BlockSample leaf ps out) (h2 : LocalSites out maxD k l) : l.map (movedSite T) = [] ↔ ps = [] := by
  have hl : l.length = out.length := by simpa using congrArg List.length h2.1
  rw [List.map_eq_nil_iff, ← List.length_eq_zero_iff, hl, List.length_eq_zero_iff]
  exact ⟨fun h => by_contra fun h' => (block_length h1).2 h' h, h1.1⟩

theorem map_error {α β : Type} {f : α → β} {r : Res α} {x : Fault} : r.map f = .error x ↔ r = .error x := by
  cases r with
  | error g => exact ⟨fun h => by cases h; rfl, fun h => by cases h; rfl⟩
  | ok a => exact ⟨fun h => by (cases h), fun h => by (cases h)⟩

theorem forall₂_snoc {α β : Type} {R : α → β → Prop} {l : List α} {m : List β} {a : α} {b : β} (h : List.Forall₂ R l m) (hab : R a b) : List.Forall₂ R (l ++ [a]) (m ++ [b]) :=
  List.rel_append h (.cons hab .nil)

theorem forall₂_get {α β : Type} {R : α → β → Prop} {l : List α} {m : List β} (h : List.Forall₂ R l m) {i : Nat} {a : α} {b : β} (ha : l[i]? = some a) (hb : m[i]? = some b) : R a b := by
  obtain ⟨h1, rfl⟩ := List.getElem?_eq_some_iff.1 ha
  obtain ⟨h2, rfl⟩ := List.getElem?_eq_some_iff.1 hb
  exact (List.forall₂_iff_get.1 h).2 i h1 h2

/-- Which scans are empty. -/
abbrev SameEmpty : List (List (Pt ℝ)) → List (List Site) → Prop := List.Forall₂ (fun ps scan => scan = [] ↔ ps = [])

theorem gap_of_lost {placed : List (List Site)} {T last : Pose ℝ} {ptss : List (List (Pt ℝ))} {r : Res (List (Pose ℝ))} (h : MapOdometry leaf resolution maxD k placed T last ptss r) (hr : r = .error .oob) :
    ∀ pre, SameEmpty pre placed → LongGap (pre ++ ptss) := by
  induction h with
  | done => cases hr
  | startFar => cases hr
  | far => cases hr
  | start placed ps out l pss r h1 h2 h3 h4 _ ih =>
    intro pre hp
    have := ih (map_error.1 hr) (pre ++ [ps]) (forall₂_snoc hp (sites_empty _ h2 h3))
    simpa using this
  | next placed T last T' last' ps out l pss r h1 h2 h3 h4 h5 h6 h7 _ ih =>
    intro pre hp
    have := ih (map_error.1 hr) (pre ++ [ps]) (forall₂_snoc hp (sites_empty _ h2 h3))
    simpa using this
  | lost placed T last T' ps out l pss h1 h2 h3 h4 h5 h6 =>
    intro pre hp
    have hp' := forall₂_snoc hp (sites_empty T' h2 h3)
    have hpl := hp.length_eq
    rw [forgotten_iff] at h1 h6
    push Not at h1
    obtain ⟨i, scan, g1, g2, g3⟩ := h1
    have hi := (List.getElem?_eq_some_iff.1 g1).1
    have g4 := h6 i scan (snoc_get.2 (.inl g1)) g2
    rw [List.length_append, List.length_singleton] at g4
    -- the last scan with points
    have hex : ∃ j, ∃ scan, (placed ++ [l.map (movedSite T')])[j]? = some scan ∧ scan ≠ [] := ⟨i, scan, snoc_get.2 (.inl g1), g2⟩
    classical
    obtain ⟨M, ⟨hMle, scM, hM1, hM2⟩, hMmax⟩ : ∃ M, (M ≤ placed.length ∧ ∃ scan, (placed ++ [l.map (movedSite T')])[M]? = some scan ∧ scan ≠ []) ∧
        ∀ j, M < j → j ≤ placed.length → ∀ scan, (placed ++ [l.map (movedSite T')])[j]? = some scan → scan = [] := by
      let P : Nat → Prop := fun j => ∃ scan, (placed ++ [l.map (movedSite T')])[j]? = some scan ∧ scan ≠ []
      refine ⟨Nat.findGreatest P placed.length, ⟨Nat.findGreatest_le _, ?_⟩, ?_⟩
      · exact Nat.findGreatest_spec (P := P) hi.le ⟨scan, snoc_get.2 (.inl g1), g2⟩
      · intro j h1 h2 scan h3
        by_contra h4
        exact Nat.findGreatest_is_greatest h1 h2 ⟨scan, h3, h4⟩
    have hM3 := h6 M scM hM1 hM2
    rw [List.length_append, List.length_singleton] at hM3
    have hall : pre ++ ps :: pss = (pre ++ [ps]) ++ pss := by simp
    have hget : ∀ j ≤ placed.length, ∃ qs scan, (pre ++ ps :: pss)[j]? = some qs ∧ (placed ++ [l.map (movedSite T')])[j]? = some scan ∧ (scan = [] ↔ qs = []) := by
      intro j hj
      have e1 : j < (pre ++ [ps]).length := by simp; omega
      have e2 : j < (placed ++ [l.map (movedSite T')]).length := by simp; omega
      refine ⟨(pre ++ [ps])[j], (placed ++ [l.map (movedSite T')])[j], ?_, List.getElem?_eq_getElem e2, forall₂_get hp' (List.getElem?_eq_getElem e1) (List.getElem?_eq_getElem e2)⟩
      rw [hall, List.getElem?_append_left e1, List.getElem?_eq_getElem e1]
    obtain ⟨qs, sc, q1, q2, q3⟩ := hget M hMle
    rw [hM1] at q2
    cases q2
    refine ⟨M, (placed.length + 1) / 10, qs, q1, fun h0 => hM2 (q3.2 h0), hM3, by simp; omega, fun j hj1 hj2 => ?_⟩
    obtain ⟨qs', sc', q1', q2', q3'⟩ := hget j (by omega)
    rw [q1', q3'.1 (hMmax j hj1 (by omega) sc' q2')]

theorem ok_no_gap {placed : List (List Site)} {T last : Pose ℝ} {ptss : List (List (Pt ℝ))} {r : Res (List (Pose ℝ))} (h : MapOdometry leaf resolution maxD k placed T last ptss r) :
    ∀ {tr}, r = .ok tr → (Forgotten resolution placed → ∀ scan ∈ placed, scan = []) → ∀ pre, SameEmpty pre placed →
    ∀ (i n : Nat) (ps : List (Pt ℝ)), (pre ++ ptss)[i]? = some ps → ps ≠ [] → i + 100 < 10 * n → 10 * n ≤ (pre ++ ptss).length → placed.length < 10 * n →
      ¬ ∀ j, i < j → j < 10 * n → (pre ++ ptss)[j]? = some [] := by
  induction h with
  | done placed T last =>
    intro tr _ _ pre hp i n ps _ _ _ h4 h5
    have := hp.length_eq
    simp at h4
    omega
  | startFar => intro tr hr; cases hr
  | far => intro tr hr; cases hr
  | lost => intro tr hr; cases hr
  | start placed ps out l pss r h1 h2 h3 h4 _ ih =>
    intro tr hr hempty pre hp i n qs g1 g2 g3 g4 g5 hgap
    have hp' := forall₂_snoc hp (sites_empty (leaf := leaf) (maxD := maxD) (k := k) Pose.one h2 h3)
    have hpl := hp.length_eq
    have hall : pre ++ ps :: pss = (pre ++ [ps]) ++ pss := by simp
    cases r with
    | error f => cases hr
    | ok tr' =>
      have hempty' : Forgotten resolution (placed ++ [l.map (movedSite Pose.one)]) → ∀ scan ∈ placed ++ [l.map (movedSite Pose.one)], scan = [] := by
        intro hf scan hscan
        rcases List.mem_append.1 hscan with hs | hs
        · exact hempty h1 scan hs
        · rw [List.mem_singleton] at hs
          subst hs
          by_contra h0
          have := (forgotten_iff _ _).1 hf placed.length _ (snoc_get.2 (.inr ⟨rfl, rfl⟩)) h0
          simp at this
          omega
      rw [hall] at g1 g4 hgap
      by_cases hlt : placed.length + 1 < 10 * n
      · exact ih rfl hempty' _ hp' i n qs g1 g2 g3 g4 (by simpa using hlt) hgap
      · -- all placed scans are empty
        have hi : i < pre.length := by omega
        rw [List.append_assoc, List.getElem?_append_left hi] at g1
        have e2 : i < placed.length := by omega
        have := forall₂_get hp g1 (List.getElem?_eq_getElem e2)
        exact g2 (this.1 (hempty h1 _ (List.getElem_mem e2)))
  | next placed T last T' last' ps out l pss r h1 h2 h3 h4 h5 h6 h7 _ ih =>
    intro tr hr hempty pre hp i n qs g1 g2 g3 g4 g5 hgap
    have hp' := forall₂_snoc hp (sites_empty (leaf := leaf) (maxD := maxD) (k := k) T' h2 h3)
    have hpl := hp.length_eq
    have hall : pre ++ ps :: pss = (pre ++ [ps]) ++ pss := by simp
    cases r with
    | error f => cases hr
    | ok tr' =>
      rw [hall] at g1 g4 hgap
      by_cases hlt : placed.length + 1 < 10 * n
      · exact ih rfl (fun h => absurd h h6) _ hp' i n qs g1 g2 g3 g4 (by simpa using hlt) hgap
      · have hn : 10 * n = placed.length + 1 := by omega
        refine h6 ((forgotten_iff _ _).2 (fun j scan hj hne => ?_))
        have hjl := (List.getElem?_eq_some_iff.1 hj).1
        rw [List.length_append, List.length_singleton] at hjl ⊢
        have hji : j ≤ i := by
          by_contra hij
          have e1 : j < (pre ++ [ps]).length := by simp; omega
          have := hgap j (by omega) (by omega)
          rw [List.getElem?_append_left e1] at this
          exact hne ((forall₂_get hp' this hj).2 rfl)
        omega

theorem odometry_faults {placed : List (List Site)} {T last : Pose ℝ} {ptss : List (List (Pt ℝ))} {r : Res (List (Pose ℝ))} (h : MapOdometry leaf resolution maxD k placed T last ptss r) :
    (∀ f, r = .error f → f = .oob ∨ f = .intOverflow) ∧ ∀ tr, r = .ok tr → tr.length = ptss.length := by
  induction h with
  | done => exact ⟨fun f hf => by (cases hf), fun tr h => by cases h; rfl⟩
  | startFar => exact ⟨fun f hf => by cases hf; exact .inr rfl, fun tr h => by (cases h)⟩
  | far => exact ⟨fun f hf => by cases hf; exact .inr rfl, fun tr h => by (cases h)⟩
  | lost => exact ⟨fun f hf => by cases hf; exact .inl rfl, fun tr h => by (cases h)⟩
  | start placed ps out l pss r _ _ _ _ _ ih =>
    refine ⟨fun f hf => ih.1 f (map_error.1 hf), fun tr h => ?_⟩
    cases r with
    | error f => cases h
    | ok tr' => cases h; simp [ih.2 tr' rfl]
  | next placed T last T' last' ps out l pss r _ _ _ _ _ _ _ _ ih =>
    refine ⟨fun f hf => ih.1 f (map_error.1 hf), fun tr h => ?_⟩
    cases r with
    | error f => cases h
    | ok tr' => cases h; simp [ih.2 tr' rfl]

/-- Without partners nothing moves. -/
theorem unpaired_run {metric : Metric} {M : (Fin 3 → ℝ) → Option Site → Prop} {src : List Site} {inner : Nat} {factor rotEps traEps : ℝ} (hf : 0 < factor) {T : Pose ℝ}
    (hM : ∀ s ∈ src, ∀ o, M (move T s.pos) o → o = none) {n i : Nat} {lam : ℝ} {r r' : Result ℝ} (h : LMRun metric M src inner factor rotEps traEps n i lam r r') (hl : 0 < lam) (hr : r.T = T) : r'.T = T := by
  induction h with
  | budget => exact hr
  | done => exact hr
  | stuck => exact hr
  | step n i lam r r' partner H b k d hc hlin hk hbefore hd hcost _ ih =>
    refine ih (by positivity) ?_
    show r.T.mul (se3Exp (d k)) = T
    rw [hr] at hlin
    have hnone : ∀ f : Site → Site → ℝ, pairSum src partner f = 0 := by
      intro f
      unfold pairSum
      apply List.sum_eq_zero
      intro x hx
      obtain ⟨j, hj, rfl⟩ := List.getElem_of_mem hx
      rw [List.getElem_zipWith]
      have hj1 : j < src.length := by simp at hj; omega
      have hj2 : j < partner.length := by simp at hj; omega
      have := hM _ (List.getElem_mem hj1) _ (forall₂_get hlin.matched (List.getElem?_eq_getElem hj1) (List.getElem?_eq_getElem hj2))
      rw [this]
    have hb : b = 0 := by
      have hb : ∀ x, b ⬝ᵥ x = 0 := by
        intro x
        have h1 := hlin.grad x
        have h0 : (fun u : ℝ => totalCost metric src partner T (T.mul (se3Exp (u • x)))) = fun _ => 0 := funext fun u => hnone _
        rw [h0] at h1
        exact (h1.unique (hasDerivAt_const 0 0))
      exact dotProduct_self_eq_zero.1 (hb b)
    have hd0 : d k = 0 := by
      unfold Damped at hd
      rw [hb, neg_zero, add_mulVec, smul_mulVec, one_mulVec] at hd
      have h1 := congrArg (fun v => d k ⬝ᵥ v) hd
      simp only [dotProduct_add, dotProduct_smul, dotProduct_zero, smul_eq_mul] at h1
      rw [hlin.hess, hnone, zero_add] at h1
      have : lam * factor ^ k ≠ 0 := by positivity
      exact dotProduct_self_eq_zero.1 ((mul_eq_zero.1 h1).resolve_left this)
    rw [hd0, C42_zero, hr]
    exact pose_mul_one T

/-- A scan without a partner at the predicted pose stays there. -/
theorem descends_unpaired {M : (Fin 3 → ℝ) → Option Site → Prop} {src : List Site} {T T' : Pose ℝ} (hM : ∀ s ∈ src, ∀ o, M (move T s.pos) o → o = none) (h : Descends M src T T') : T' = T := by
  obtain ⟨res, h1, rfl⟩ := h
  exact unpaired_run (by norm_num) hM h1 (by norm_num) rfl

theorem coast_first {placed : List (List Site)} {T last : Pose ℝ} {ptss : List (List (Pt ℝ))} {tr : List (Pose ℝ)} (h : MapOdometry leaf resolution maxD k placed T last ptss (.ok tr)) {c : Pose ℝ}
    (h0 : ptss[0]? = some []) (hc : tr[0]? = some c) : c = T.mul last := by
  generalize hr : (Except.ok tr : Res (List (Pose ℝ))) = r at h
  cases h with
  | done => cases h0
  | startFar => cases hr
  | far => cases hr
  | lost => cases hr
  | start _ ps out l pss r h1 h2 h3 h4 h5 =>
    cases r with
    | error f => cases hr
    | ok tr' =>
      cases hr
      cases hc
      exact (pose_mul_one _).symm
  | next _ _ _ T' last' ps out l pss r h1 h2 h3 h4 h5 h6 h7 h8 =>
    cases r with
    | error f => cases hr
    | ok tr' =>
      cases hr
      cases hc
      cases h0
      have hl := List.map_eq_nil_iff.1 ((sites_empty Pose.one h2 h3).2 rfl)
      subst hl
      exact descends_unpaired (by simp) h4

theorem coast {placed : List (List Site)} {T last : Pose ℝ} {ptss : List (List (Pt ℝ))} {r : Res (List (Pose ℝ))} (h : MapOdometry leaf resolution maxD k placed T last ptss r) :
    ∀ {tr : List (Pose ℝ)}, r = .ok tr → ∀ {i : Nat} {a b c : Pose ℝ}, ptss[i + 1]? = some [] → (T :: tr)[i]? = some a → tr[i]? = some b → tr[i + 1]? = some c → ∃ R, a.mul R = b ∧ b.mul R = c := by
  induction h with
  | done => intro tr _ i a b c h; cases h
  | startFar => intro tr hr; cases hr
  | far => intro tr hr; cases hr
  | lost => intro tr hr; cases hr
  | start placed ps out l pss r _ _ _ _ hnext ih =>
    intro tr hr i a b c h1 h2 h3 h4
    cases r with
    | error f => cases hr
    | ok tr' =>
      cases hr
      cases i with
      | zero =>
        cases h2
        cases h3
        exact ⟨Pose.one, pose_mul_one _, (coast_first hnext h1 h4).symm⟩
      | succ i => exact ih rfl h1 h2 h3 h4
  | next placed T last T' last' ps out l pss r _ _ _ _ _ _ h7 hnext ih =>
    intro tr hr i a b c h1 h2 h3 h4
    cases r with
    | error f => cases hr
    | ok tr' =>
      cases hr
      cases i with
      | zero =>
        cases h2
        cases h3
        exact ⟨last', h7, (coast_first hnext h1 h4).symm⟩
      | succ i => exact ih rfl h1 h2 h3 h4

end Gaps

section Trajectory

variable {e : Env} (he : EnvMeets e) {numThreads : Int} (hgate : 1 < e.maxD) {scans : List Scan} {ptss : List (List (Pt ℝ))} (h : List.Forall₂ (ScanOf e (1 / 4) numThreads) scans ptss)
  (hlen : ∀ pts ∈ ptss, pts.length ≤ 2 ^ 25) (hn : scans.length < 2 ^ 62)

include he hgate h hlen hn in
/-- **C72.** Scan-to-model odometry in Python, for any scans, number of threads and complete executions: what it returns, or the fault it ends with, is the result of odometry against the remembered scans,
with leaf size 0.25, cells of side 1 and ten neighbours. -/
theorem C72_odometry : MapOdometry (1 / 4) 1 e.maxD 10 [] Pose.one Pose.one ptss (scanToModel e numThreads .init scans) :=
  scans_mapped he hgate h hlen holds_nil (by simpa using hn) ⟨[], rfl⟩ ⟨[], rfl⟩ (fun _ => ⟨rfl, rfl⟩)

include he hgate h hlen hn in
/-- C72. It ends with poses, one for each scan, or with one of two faults: an overflow of cell coordinates, or an access to the first element of an empty vector. The latter happens only if there is a long gap in the points;
and if there is one, it does not end with poses. -/
theorem C72_gap :
    ((∃ tr, scanToModel e numThreads .init scans = .ok tr ∧ tr.length = ptss.length ∧ ¬ LongGap ptss) ∨ scanToModel e numThreads .init scans = .error .intOverflow ∨
      (scanToModel e numThreads .init scans = .error .oob ∧ LongGap ptss)) := by
  have hmo := C72_odometry he hgate h hlen hn
  cases hr : scanToModel e numThreads .init scans with
  | error f =>
    rw [hr] at hmo
    rcases (odometry_faults hmo).1 f rfl with rfl | rfl
    · exact .inr (.inr ⟨rfl, gap_of_lost hmo rfl [] .nil⟩)
    · exact .inr (.inl rfl)
  | ok tr =>
    rw [hr] at hmo
    refine .inl ⟨tr, rfl, (odometry_faults hmo).2 tr rfl, ?_⟩
    rintro ⟨i, n, ps, g1, g2, g3, g4, g5⟩
    exact ok_no_gap hmo rfl (by simp) [] .nil i n ps g1 g2 g3 g4 (by simp; omega) g5

include he hgate h hlen hn in
/-- C72. At a scan without points the last motion is repeated. -/
theorem C72_coasting {tr : List (Pose ℝ)} (hr : scanToModel e numThreads .init scans = .ok tr) {i : Nat} {a b c : Pose ℝ} (h0 : ptss[i + 2]? = some []) (ha : tr[i]? = some a) (hb : tr[i + 1]? = some b)
    (hc : tr[i + 2]? = some c) : ∃ R, a.mul R = b ∧ b.mul R = c :=
  coast (C72_odometry he hgate h hlen hn) hr (i := i + 1) h0 ha hb hc

end Trajectory

/-- C72. A scan that has not three or four columns raises an exception, in every state. -/
theorem C72_columns {e : Env} {numThreads : Int} {scan : Scan} (h : ¬ PointArray scan.array) (s : ScanToModelPy) : s.estimate e numThreads scan = .error .exception := by
  have hn : preprocessArray e scan.prep scan.array (1 / 4) 10 = some (.ok none) := by
    unfold preprocessArray
    rw [if_pos (by unfold PointArray at h; omega)]
  unfold ScanToModelPy.estimate
  rw [hn]
  rfl

/-! ### concrete cases -/

theorem single_block {leaf : ℝ} {p : Pt ℝ} {out : List (Pt ℝ)} (hw : p.w = 1) (hin : GridInRange leaf p) (h : BlockSample leaf [p] out) : out = [p] := by
  obtain ⟨G, E, h1, h2, h3, h4, h5⟩ := h.2 (by simp)
  have hf : [p].filter (fun p => decide (GridInRange leaf p)) = [p] := by simp [hin]
  rw [hf] at h2 h5
  have hE : E = [] := by
    simp at h5
    exact h5
  have hG := List.perm_singleton.1 h2
  have hc : G.map centroid = [p] := by
    match G, h3, hG with
    | g :: G, h3, hG =>
      have hg := (h3 g (by simp)).1
      match g, hg, hG with
      | q :: g, _, hG =>
        simp only [List.flatten_cons, List.cons_append, List.cons.injEq, List.append_eq_nil_iff] at hG
        obtain ⟨rfl, rfl, h0⟩ := hG
        have hnil : G = [] := by
          match G, h3, h0 with
          | [], _, _ => rfl
          | g' :: G, h3, h0 =>
            simp only [List.flatten_cons, List.append_eq_nil_iff] at h0
            exact absurd h0.1 (h3 g' (by simp)).1
        subst hnil
        simp [centroid]
  rw [hc, hE] at h1
  simpa using List.perm_singleton.1 h1

theorem empties_in_range {leaf resolution maxD : ℝ} {k : Nat} : ∀ {n : Nat} {placed : List (List Site)} {T last : Pose ℝ} {r : Res (List (Pose ℝ))},
    MapOdometry leaf resolution maxD k placed T last (List.replicate n []) r → r ≠ .error .intOverflow
  | 0, _, _, _, _, h => by
    cases h
    intro h; cases h
  | n + 1, _, _, _, _, h => by
    rw [List.replicate_succ] at h
    cases h with
    | start _ _ _ _ _ _ _ _ _ _ h => exact fun h' => empties_in_range h (map_error.1 h')
    | next _ _ _ _ _ _ _ _ _ _ _ _ _ _ _ _ _ h => exact fun h' => empties_in_range h (map_error.1 h')
    | startFar _ _ out _ _ h1 h2 =>
      obtain ⟨p, hp, _⟩ := h2
      rw [h1.1 rfl] at hp
      cases hp
    | far _ _ _ _ out _ _ _ h1 _ h2 =>
      obtain ⟨p, hp, _⟩ := h2
      rw [h1.1 rfl] at hp
      cases hp
    | lost => intro h; cases h

/-- C72, finding. One scan with a point, then 109 scans without: at the last of them the map is cleared, and `voxel_points` takes the first element of an empty vector. -/
theorem C72_lost {e : Env} (he : EnvMeets e) {numThreads : Int} (hgate : 1 < e.maxD) {p : Pt ℝ} (hw : p.w = 1) (hin : GridInRange (1 / 4) p) (hcell : HasCell 1 (xyz p)) {scans : List Scan}
    (h : List.Forall₂ (ScanOf e (1 / 4) numThreads) scans ([p] :: List.replicate 109 [])) : scanToModel e numThreads .init scans = .error .oob := by
  have hlen : ∀ pts ∈ [p] :: List.replicate 109 [], pts.length ≤ 2 ^ 25 := by
    intro pts hp
    rcases List.mem_cons.1 hp with rfl | hp
    · simp
    · rw [(List.mem_replicate.1 hp).2]
      simp
  have hn : scans.length < 2 ^ 62 := by
    rw [h.length_eq]
    simp
  have hmo := C72_odometry he hgate h hlen hn
  have hno : scanToModel e numThreads .init scans ≠ .error .intOverflow := by
    generalize scanToModel e numThreads .init scans = r at hmo
    cases hmo with
    | start _ _ _ _ _ _ _ _ _ _ h => exact fun h' => empties_in_range h (map_error.1 h')
    | startFar _ _ out _ _ h1 h2 =>
      obtain ⟨q, hq, h3⟩ := h2
      rw [single_block hw hin h1, List.mem_singleton] at hq
      exact absurd hcell (hq ▸ h3)
    | next _ _ _ _ _ _ _ _ _ _ h => exact absurd (fun _ => rfl) h
    | lost _ _ _ _ _ _ _ _ h => exact absurd (fun _ => rfl) h
    | far _ _ _ _ _ _ _ h => exact absurd (fun _ => rfl) h
  rcases C72_gap he hgate h hlen hn with ⟨tr, _, _, h3⟩ | h1 | ⟨h1, _⟩
  · refine absurd ⟨0, 11, [p], rfl, by simp, by norm_num, by simp, fun j h1 h2 => ?_⟩ h3
    match j with
    | j + 1 => rw [List.getElem?_cons_succ, List.getElem?_replicate, if_pos (by omega)]
  · exact absurd h1 hno
  · exact h1

/-- Such scans exist; and without the last of them there is a pose for each. -/
example : ∃ (e : Env) (s1 s2 : Scan), EnvMeets e ∧ 1 < e.maxD ∧ scanToModel e 4 .init (s1 :: List.replicate 109 s2) = .error .oob ∧
    ∃ tr, scanToModel e 4 .init (s1 :: List.replicate 108 s2) = .ok tr ∧ tr.length = 109 := by
  obtain ⟨e, he, hm, _⟩ := env_exists 1000 (by norm_num) (0, 0)
  have hg : 1 < e.maxD := by rw [hm]; norm_num
  let p : Pt ℝ := ⟨5, 6, 7, 1⟩
  have hin : GridInRange (1 / 4) p := by
    simp only [GridInRange, In21, p]
    norm_num
  have hcell : HasCell 1 (xyz p) := by
    simp only [HasCell, xyz, p]
    refine ⟨fun i => ?_, by norm_num⟩
    fin_cases i <;> norm_num
  obtain ⟨s1, e1, h1⟩ := scan_exists he (a := ⟨1, 3, fun _ j => match j with | 0 => 5 | 1 => 6 | _ => 7⟩) (pts := [p]) (.inl rfl) ⟨rfl, fun i q hq => by
      match i with
      | 0 => cases hq; simp [p, RowIs]⟩ (fun h => by cases h) (by norm_num) (by
      intro q hq
      rw [List.mem_singleton] at hq
      subst hq
      simp [KeyDefined, KeyFits, INT_MIN, INT_MAX, p]
      norm_num) (numThreads := 4) (by norm_num)
  obtain ⟨s2, e2, h2⟩ := scan_exists he (a := ⟨0, 3, fun _ _ => 0⟩) (pts := []) (.inl rfl) ⟨rfl, by simp⟩ (fun h => by cases h) (by norm_num) (by simp) (numThreads := 4) (by norm_num)
  have hrep : ∀ n, List.Forall₂ (ScanOf e (1 / 4) 4) (List.replicate n s2) (List.replicate n []) := by
    intro n
    induction n with
    | zero => exact .nil
    | succ n ih => exact .cons h2 ih
  refine ⟨e, s1, s2, he, hg, C72_lost he hg rfl hin hcell (.cons h1 (hrep 109)), ?_⟩
  have hlen : ∀ pts ∈ [p] :: List.replicate 108 [], pts.length ≤ 2 ^ 25 := by
    intro pts hp
    rcases List.mem_cons.1 hp with rfl | hp
    · simp
    · rw [(List.mem_replicate.1 hp).2]
      simp
  have hmo := C72_odometry he hg (.cons h1 (hrep 108)) hlen (by simp)
  rcases C72_gap he hg (.cons h1 (hrep 108)) hlen (by simp) with ⟨tr, g1, g2, _⟩ | g1 | ⟨_, i, n, ps, g1, g2, g3, g4, _⟩
  · exact ⟨tr, g1, by simpa using g2⟩
  · rw [g1] at hmo
    generalize hr : (Except.error Fault.intOverflow : Res (List (Pose ℝ))) = r at hmo
    cases hmo with
    | start _ _ _ _ _ _ _ _ _ _ h => exact absurd (map_error.1 hr.symm) (empties_in_range h)
    | startFar _ _ out _ _ h1 h2 =>
      obtain ⟨q, hq, h3⟩ := h2
      rw [single_block rfl hin h1, List.mem_singleton] at hq
      exact absurd hcell (hq ▸ h3)
    | next _ _ _ _ _ _ _ _ _ _ h => exact absurd (fun _ => rfl) h
    | lost _ _ _ _ _ _ _ _ h => exact absurd (fun _ => rfl) h
    | far _ _ _ _ _ _ _ h => exact absurd (fun _ => rfl) h
  · simp at g4
    match i with
    | 0 => omega
    | i + 1 =>
      rw [List.getElem?_cons_succ, List.getElem?_replicate] at g1
      split at g1
      · cases g1
        exact absurd rfl g2
      · cases g1

end Verif.Props
