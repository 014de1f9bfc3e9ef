import Verif.Model.Python
import Verif.Props.OdometryPcl

/-! C70: numpy arrays in the Python interface. -/

set_option linter.unusedSectionVars false
set_option linter.unusedSimpArgs false
set_option linter.unnecessarySeqFocus false

namespace Verif.Spec

open Verif Verif.Python

/-- An `N × 3` or `N × 4` array. -/
def PointArray (a : NumpyArray) : Prop := a.cols = 3 ∨ a.cols = 4

/-- Row `i` of an array as a homogeneous point: an `N × 3` array has the weight 1. -/
def RowIs (a : NumpyArray) (i : Nat) (p : Pt ℝ) : Prop :=
  p.x = a.entry i 0 ∧ p.y = a.entry i 1 ∧ p.z = a.entry i 2 ∧ p.w = if a.cols = 4 then a.entry i 3 else 1

/-- The points of an array. -/
def RowsAre (a : NumpyArray) (pts : List (Pt ℝ)) : Prop := pts.length = a.rows ∧ ∀ (i : Nat) p, pts[i]? = some p → RowIs a i p

/-- All points of an array have weight 1. -/
def UnitRows (a : NumpyArray) : Prop := a.cols = 4 → ∀ i < a.rows, a.entry i 3 = 1

end Verif.Spec

namespace Verif.Props

open Matrix Verif Verif.Knn Verif.KdTree Verif.Proofs Verif.Proofs.RegMem Verif.Factors Verif.Reduction Verif.Optimizer Verif.PointCloud Verif.RegMem Verif.Spec Verif.Lie
open Verif.Pipeline Verif.Features Verif.Downsample Verif.Helper Verif.OdometryPipeline Verif.Odometry Verif.Python

/-- The points of an array. -/
def rowPts (a : NumpyArray) : List (Pt ℝ) := (List.range a.rows).map (fun i => toPt (rowPoint a i))

theorem rowPts_length (a : NumpyArray) : (rowPts a).length = a.rows := by simp [rowPts]

theorem rowPts_get {a : NumpyArray} {i : Nat} {p : Pt ℝ} (h : (rowPts a)[i]? = some p) : i < a.rows ∧ p = toPt (rowPoint a i) := by
  have hi := (List.getElem?_eq_some_iff.1 h).1
  rw [rowPts_length] at hi
  refine ⟨hi, ?_⟩
  simp only [rowPts, List.getElem?_map, List.getElem?_range hi, Option.map_some, Option.some.injEq] at h
  exact h.symm

theorem rowPts_are {a : NumpyArray} (ha : PointArray a) : RowsAre a (rowPts a) := by
  refine ⟨rowPts_length a, fun i p h => ?_⟩
  obtain ⟨_, rfl⟩ := rowPts_get h
  rcases ha with ha | ha <;> simp [RowIs, toPt, rowPoint, ha]

theorem rows_unique {a : NumpyArray} {pts : List (Pt ℝ)} (ha : PointArray a) (h : RowsAre a pts) : pts = rowPts a := by
  obtain ⟨h1, h2⟩ := rowPts_are ha
  apply List.ext_getElem?
  intro i
  by_cases hi : i < a.rows
  · have e1 := List.getElem?_eq_getElem (h.1.symm ▸ hi : i < pts.length)
    have e2 := List.getElem?_eq_getElem (h1.symm ▸ hi : i < (rowPts a).length)
    obtain ⟨x1, x2, x3, x4⟩ := h.2 i _ e1
    obtain ⟨y1, y2, y3, y4⟩ := h2 i _ e2
    rw [e1, e2, Option.some.injEq]
    generalize pts[i]'(h.1.symm ▸ hi) = p at *
    generalize (rowPts a)[i]'(h1.symm ▸ hi) = q at *
    cases p
    cases q
    simp_all
  · rw [List.getElem?_eq_none (by rw [h.1]; omega), List.getElem?_eq_none (by rw [h1]; omega)]

theorem fill_eq (a : NumpyArray) : Python.fill a = .ok (sampledCloud (rowPts a)) := by
  have h := fill_points (V := V4) (M := M4) (fun i => .ok (rowPoint a i)) (rowPoint a) (List.range a.rows) (by
    intro i x hx
    have hi := (List.getElem?_eq_some_iff.1 hx).1
    rw [List.length_range] at hi
    rw [List.getElem?_range hi] at hx
    cases hx
    rfl)
  rw [List.length_range] at h
  unfold Python.fill
  refine Eq.trans ?_ (h.trans ?_)
  · rfl
  · simp [sampledCloud, rowPts, Function.comp_def, ofPt_toPt]

theorem pointCloud_eq {a : NumpyArray} (ha : PointArray a) : pointCloud a = .ok (sampledCloud (rowPts a)) := by
  have h : ¬ (a.cols ≠ 3 ∧ a.cols ≠ 4) := by unfold PointArray at ha; omega
  unfold pointCloud
  rw [if_neg h, fill_eq]

/-- C70, constructor. `PointCloud(a)` of an `N × 3` or `N × 4` array is a cloud of its rows, without normals and covariances; any other array gives an empty cloud. -/
theorem C70_constructor (a : NumpyArray) :
    (PointArray a → ∃ c, pointCloud a = .ok c ∧ c.size = a.rows ∧ ∀ i < a.rows, (∃ p, c.point i = .ok ![p.x, p.y, p.z, p.w] ∧ RowIs a i p) ∧ c.normal i = .error .uninit ∧ c.cov i = .error .uninit) ∧
    (¬ PointArray a → ∃ c, pointCloud a = .ok c ∧ c.size = 0) := by
  constructor
  · intro ha
    refine ⟨_, pointCloud_eq ha, by rw [sampled_size, rowPts_length], fun i hi => ⟨?_, ?_, ?_⟩⟩
    · have hl : i < (rowPts a).length := by rw [rowPts_length]; exact hi
      refine ⟨(rowPts a)[i], ?_, (rowPts_are ha).2 i _ (List.getElem?_eq_getElem hl)⟩
      unfold Cloud.point getSlot
      rw [rd_of_getElem? (by rw [sampled_get, List.getElem?_eq_getElem hl]; rfl), ok_bind]
      rfl
    · unfold Cloud.normal getSlot
      rw [rd_of_getElem? (x := none) (by simp [sampledCloud, rowPts_length, hi]), ok_bind]
    · unfold Cloud.cov getSlot
      rw [rd_of_getElem? (x := none) (by simp [sampledCloud, rowPts_length, hi]), ok_bind]
  · intro ha
    unfold pointCloud
    rw [if_pos (by unfold PointArray at ha; omega)]
    exact ⟨_, rfl, rfl⟩

/-- C70, `points()` and `normals()`. They return an array with one row per point if all values are set; on a cloud without points they access element 0 of an empty vector. -/
theorem C70_points (c : RCloud) :
    (c.size = 0 → points c = .error .oob) ∧ (c.normals = [] → normals c = .error .oob) ∧
    (0 < c.size → PointsSet c → ∃ b, points c = .ok b ∧ b.rows = c.size ∧ b.cols = 4 ∧ ∀ i < c.size, ∃ v, c.point i = .ok v ∧ ∀ j : Fin 4, b.entry i j = v j) ∧
    (0 < c.size → NormalsSet c → ∃ b, normals c = .ok b ∧ b.rows = c.size ∧ b.cols = 4 ∧ ∀ i < c.size, ∃ v, c.normal i = .ok v ∧ ∀ j : Fin 4, b.entry i j = v j) := by
  have key : ∀ (v : List (Option V4)) (n : Nat), 0 < n → (∀ i < n, ∃ x, v[i]? = some (some x)) →
      ∃ b, mapRows v n = .ok b ∧ b.rows = n ∧ b.cols = 4 ∧ ∀ i < n, ∃ x, getSlot v i = .ok x ∧ ∀ j : Fin 4, b.entry i j = x j := by
    intro v n hn h
    have hne : v ≠ [] := by
      rintro rfl
      obtain ⟨x, hx⟩ := h 0 hn
      simp at hx
    have hg : ∀ i < n, getSlot v i = .ok (((v[i]?).getD none).getD 0) := by
      intro i hi
      obtain ⟨x, hx⟩ := h i hi
      unfold getSlot
      rw [rd_of_getElem? hx, ok_bind, hx]
      rfl
    have hm := mapM_ok (getSlot v) (fun i => ((v[i]?).getD none).getD 0) (List.range n) (fun i hi => hg i (List.mem_range.1 hi))
    unfold mapRows
    rw [if_neg hne, hm, ok_bind]
    refine ⟨_, rfl, rfl, rfl, fun i hi => ⟨_, hg i hi, fun j => ?_⟩⟩
    simp [List.getD, hi]
  refine ⟨fun h => ?_, fun h => ?_, fun h1 h2 => key _ _ h1 h2, fun h1 h2 => key _ _ h1 h2⟩
  · unfold points mapRows
    rw [if_pos (List.length_eq_zero_iff.1 h)]
  · unfold normals mapRows
    rw [if_pos h]

/-- C70. The array that `points()` returns for `PointCloud(a)`: the rows of `a`, with weights; an array without rows has none. -/
theorem C70_round_trip {a : NumpyArray} (ha : PointArray a) :
    ∃ c, pointCloud a = .ok c ∧ (a.rows = 0 → points c = .error .oob) ∧
      (0 < a.rows → (∃ b, points c = .ok b ∧ b.rows = a.rows ∧ b.cols = 4 ∧ ∀ i < a.rows, RowIs a i ⟨b.entry i 0, b.entry i 1, b.entry i 2, b.entry i 3⟩) ∧ normals c = .error .uninit) := by
  obtain ⟨c, h1, h2, h3⟩ := (C70_constructor a).1 ha
  have hc : c = sampledCloud (rowPts a) := by
    rw [pointCloud_eq ha] at h1
    exact (Except.ok.inj h1).symm
  refine ⟨c, h1, fun h => (C70_points c).1 (by omega), fun h => ⟨?_, ?_⟩⟩
  · obtain ⟨b, b1, b2, b3, b4⟩ := (C70_points c).2.2.1 (by omega) (by
      intro i hi
      rw [hc] at hi ⊢
      simp only [sampledCloud, List.length_map] at hi
      exact ⟨_, by rw [sampled_get, List.getElem?_eq_getElem hi]; rfl⟩)
    refine ⟨b, b1, by omega, b3, fun i hi => ?_⟩
    obtain ⟨v, v1, v2⟩ := b4 i (by omega)
    obtain ⟨⟨p, p1, p2⟩, _⟩ := h3 i hi
    rw [p1] at v1
    cases v1
    have e0 := v2 0
    have e1 := v2 1
    have e2 := v2 2
    have e3 := v2 3
    simp at e0 e1 e2 e3
    rw [e0, e1, e2, e3]
    exact p2
  · unfold normals mapRows
    have hr : 0 < c.size := by omega
    obtain ⟨n, hn⟩ := Nat.exists_eq_succ_of_ne_zero hr.ne'
    have h0 := (h3 0 h).2.1
    have hne : c.normals ≠ [] := by
      rw [hc]
      simp [sampledCloud, rowPts_length]
      omega
    rw [if_neg hne, hn, List.range_succ_eq_map, List.mapM_cons]
    unfold Cloud.normal at h0
    rw [h0]
    rfl

/-- The points an array is sampled at, if all weights are 1. -/
theorem arrayPoint_eq {a : NumpyArray} (ha : PointArray a) (hu : UnitRows a) : (List.range a.rows).map (arrayPoint a) = rowPts a := by
  unfold rowPts
  apply List.map_congr_left
  intro i hi
  have hi := List.mem_range.1 hi
  rcases ha with ha | ha
  · simp [arrayPoint, rowPoint, toPt, ha]
  · simp [arrayPoint, rowPoint, toPt, ha, hu ha i hi]

/-- C70, sampling (partial: the weights must be 1, see `C70_fourth_column_violated`). `voxelgrid_sampling(a)` is `voxelgrid_sampling(PointCloud(a))`. -/
theorem C70_same_sample_partial (e : Env) (blocks : List Nat) {a : NumpyArray} (ha : PointArray a) (hu : UnitRows a) (resolution : ℝ) (threads : Int) :
    ∃ c, pointCloud a = .ok c ∧ sampleArray e blocks a resolution threads = (sampleCloud e blocks c resolution threads).map (fun r => r.map some) := by
  refine ⟨_, pointCloud_eq ha, ?_⟩
  unfold sampleArray sampleCloud
  rw [if_neg (by unfold PointArray at ha; omega), cloudPoints_of _ _ rfl, arrayPoint_eq ha hu]

/-- C70, preprocessing (partial: the array must have a row). `preprocess_points(a)` is `preprocess_points(PointCloud(a))`, whatever the weights. -/
theorem C70_same_preprocess_partial (e : Env) (x : PrepRun) {a : NumpyArray} (ha : PointArray a) (h : 0 < a.rows) (resolution : ℝ) (k : Int) :
    ∃ c, pointCloud a = .ok c ∧ preprocessArray e x a resolution k = preprocessCloud e x c resolution k := by
  refine ⟨_, pointCloud_eq ha, ?_⟩
  unfold preprocessArray preprocessCloud
  rw [if_neg (by unfold PointArray at ha; omega), fill_eq, if_neg (by rw [sampled_size, rowPts_length]; omega)]

/-- C70 violated for arrays without rows: `preprocess_points(a)` returns an empty cloud with an empty tree, but `preprocess_points(PointCloud(a))` returns `(None, None)`. -/
theorem C70_no_rows_violated (e : Env) {a : NumpyArray} (ha : PointArray a) (h : a.rows = 0) (resolution : ℝ) (k : Int) :
    ∃ c x, pointCloud a = .ok c ∧ preprocessCloud e x c resolution k = some (.ok none) ∧ preprocessArray e x a resolution k = some (.ok (some (Cloud.empty, ⟨[], [], none⟩))) := by
  refine ⟨_, ⟨[], [], [[]], []⟩, pointCloud_eq ha, ?_, ?_⟩
  · unfold preprocessCloud
    rw [if_pos (by rw [sampled_size, rowPts_length]; omega)]
  · have hr : rowPts a = [] := List.length_eq_zero_iff.1 (by rw [rowPts_length]; exact h)
    unfold preprocessArray
    rw [if_neg (by unfold PointArray at ha; omega), fill_eq]
    simp only [hr]
    unfold preprocessOmp
    rw [cloudPoints_of _ _ rfl]
    rfl


theorem singleton_sample {sort : List (Nat × Nat) → List (Nat × Nat)} (hs : SortSpec sort) {leaf : ℝ} (hl : leaf ≠ 0) {p : Pt ℝ} (hp : KeyDefined leaf p) :
    voxelgridSampling sort [p] leaf = .ok [Pt.sdiv (exactOps ℝ) p p.w] := by
  unfold voxelgridSampling
  rw [if_neg (by simp), if_neg hl, coordPt_eq (by intro q hq; rw [List.mem_singleton.1 hq]; exact hp), ok_bind]
  have h1 : sort [(keyOf leaf p, 0)] = [(keyOf leaf p, 0)] := List.perm_singleton.1 (hs _).1
  simp only [List.zipIdx_cons, List.zipIdx_nil, List.map_cons, List.map_nil]
  rw [h1]
  rfl

/-- C70 violated for `N × 4` arrays: with a fourth column other than 1 (as with the intensities of KITTI scans), `voxelgrid_sampling(PointCloud(a))` divides the point by it, `voxelgrid_sampling(a)` does not read it.
Here the array has the row (2, 0, 0, 2). -/
theorem C70_fourth_column_violated : ∃ a : NumpyArray, PointArray a ∧ a.rows = 1 ∧ ∀ (e : Env), EnvMeets e → ∀ blocks, ∃ c c1 c2, pointCloud a = .ok c ∧
    sampleArray e blocks a 1 1 = some (.ok (some c1)) ∧ sampleCloud e blocks c 1 1 = some (.ok c2) ∧ c1.points = [some ![2, 0, 0, 1]] ∧ c2.points = [some ![1, 0, 0, 1]] ∧ c1.points ≠ c2.points := by
  refine ⟨⟨1, 4, fun _ j => if j = 0 then 2 else if j = 3 then 2 else 0⟩, .inr rfl, rfl, fun e he blocks => ?_⟩
  have h1 := singleton_sample he.sort (leaf := 1) one_ne_zero (p := ⟨2, 0, 0, 1⟩) (by simp [KeyDefined, KeyFits, INT_MIN, INT_MAX])
  have h2 := singleton_sample he.sort (leaf := 1) one_ne_zero (p := ⟨2, 0, 0, 2⟩) (by simp [KeyDefined, KeyFits, INT_MIN, INT_MAX])
  have hr : rowPts ⟨1, 4, fun _ j => if j = 0 then 2 else if j = 3 then 2 else 0⟩ = [⟨2, 0, 0, 2⟩] := by
    simp [rowPts, rowPoint, toPt, List.range_succ]
  refine ⟨_, sampledCloud [Pt.sdiv (exactOps ℝ) ⟨2, 0, 0, 1⟩ 1], sampledCloud [Pt.sdiv (exactOps ℝ) ⟨2, 0, 0, 2⟩ 2], pointCloud_eq (.inr rfl), ?_, ?_⟩
  · unfold sampleArray Python.sample
    rw [if_neg (by simp), if_pos rfl]
    have : (List.range 1).map (arrayPoint ⟨1, 4, fun _ j => if j = 0 then 2 else if j = 3 then 2 else 0⟩) = [⟨2, 0, 0, 1⟩] := by
      simp [arrayPoint, List.range_succ]
    simp only [this, h1]
    rfl
  · unfold Python.sampleCloud Python.sample
    rw [cloudPoints_of _ _ rfl, hr]
    simp only [if_true, h2]
    refine ⟨rfl, ?_, ?_, ?_⟩
    · simp [sampledCloud, Pt.sdiv, exactOps, ofPt]
    · simp [sampledCloud, Pt.sdiv, exactOps, ofPt]
    · simp [sampledCloud, Pt.sdiv, exactOps, ofPt]

/-! ### preprocessing -/

section Prep

variable {e : Env} (he : EnvMeets e)

include he in
/-- `preprocess_points` on points with weight 1, for every complete execution. -/
theorem pyPrep_ok {pts : List (Pt ℝ)} {c : RCloud} (hc : c.points = pts.map (fun p => some (ofPt p))) (hw : ∀ p ∈ pts, p.w = 1) (hN : pts.length < 2 ^ 32) {leaf : ℝ} (hleaf : leaf ≠ 0)
    (hkey : ∀ p ∈ pts, KeyDefined leaf p) {k : Int} (hk : 1 ≤ k) {x : PrepRun} {r : Res (RCloud × KdTree.Tree ℝ)} (h : preprocessOmp e x c leaf k = some r) :
    ∃ out c' t, r = .ok (c', t) ∧ BlockSample leaf pts out ∧ LocalFeatures out e.maxD k.toNat c' ∧
      (out ≠ [] → TreeOf e.builder out t) ∧ (out = [] → t = ⟨[], [], none⟩) ∧ (out = [] ↔ pts = []) ∧ out.length ≤ pts.length ∧ (∀ p ∈ out, p.w = 1) ∧ voxelgridSamplingPar e.sortOmp ompCut x.blocks pts leaf = some (.ok out) := by
  unfold preprocessOmp at h
  rw [cloudPoints_of c pts hc] at h
  simp only at h
  cases hs : voxelgridSamplingPar e.sortOmp ompCut x.blocks pts leaf with
  | none => rw [hs] at h; cases h
  | some r1 =>
    obtain ⟨out, rfl, s2, s5⟩ := block_sample he hw hleaf hkey hs
    obtain ⟨s3, s4⟩ := block_length s2
    rw [hs] at h
    simp only at h
    have hne : frameTree e (.parallel x.tree) out ≠ none := by
      intro h0
      rw [h0] at h
      cases h
    obtain ⟨t, t1, t2, t3⟩ := frameTree_ok he (by omega) hne
    rw [t1] at h
    simp only at h
    split at h
    · rename_i hch
      obtain ⟨c1, c1'⟩ := features_defined he (by omega) t2 hk
      obtain ⟨r2, h2, rfl⟩ := Option.map_eq_some_iff.1 h
      have h3 := C49_parallel _ _ _ _ _ _ _ (by rw [sampled_size]; exact hch) _ h2
      rw [c1'] at h3
      cases r2 with
      | error f => cases h3
      | ok c2 =>
        cases h3
        refine ⟨out, c1, t, rfl, s2, features_values he (by omega) t2 hk c1', t2, t3, ⟨fun h => ?_, s2.1⟩, s3, s5, rfl⟩
        by_contra hne
        exact s4 hne h
    · cases h

include he in
/-- There is a complete execution. -/
theorem pyPrep_executes {pts : List (Pt ℝ)} {c : RCloud} (hc : c.points = pts.map (fun p => some (ofPt p))) (hw : ∀ p ∈ pts, p.w = 1) (hN : pts.length < 2 ^ 32) {leaf : ℝ} (hleaf : leaf ≠ 0)
    (hkey : ∀ p ∈ pts, KeyDefined leaf p) (k : Int) : ∃ x r, preprocessOmp e x c leaf k = some r := by
  have hs : ∃ sched r, voxelgridSamplingPar e.sortOmp ompCut sched pts leaf = some r := by
    by_cases hne : pts = []
    · subst hne
      exact ⟨[], _, rfl⟩
    · obtain ⟨hp, hs⟩ := he.sortOmp (cpOf leaf pts)
      obtain ⟨hf, hb⟩ := ompCut_isCut (e.sortOmp (cpOf leaf pts))
      obtain ⟨subs, h2, _⟩ := parStart_eq hf hb hp hs hw
      obtain ⟨js, out, h⟩ := C24_every_schedule_finishes he.sortOmp ompCut_isCut hleaf hkey hw hne [] (coordPt_eq hkey) h2 rfl
      exact ⟨_, _, h⟩
  obtain ⟨sched, r, hs⟩ := hs
  obtain ⟨out, rfl, s2, _⟩ := block_sample he hw hleaf hkey hs
  obtain ⟨s3, _⟩ := block_length s2
  obtain ⟨ts, _, _, _, _, ⟨ht, _⟩, _⟩ := frameRuns_exists he (out := out) (by omega)
  obtain ⟨t, t1, _⟩ := frameTree_ok he (by omega) ht
  obtain ⟨fs, hfs⟩ := parOrder_seq ([List.range out.length].map (fun c => c.flatMap normalCovarianceSetter.acts))
  refine ⟨⟨sched, ts, [List.range out.length], fs⟩, ?_⟩
  unfold preprocessOmp
  rw [cloudPoints_of c pts hc]
  simp only
  rw [hs]
  simp only at t1 ⊢
  rw [t1]
  simp only
  rw [if_pos (by simp)]
  simp only [estimatePar, hfs]
  exact ⟨_, rfl⟩

variable {a : NumpyArray} {pts : List (Pt ℝ)} (ha : PointArray a) (hpts : RowsAre a pts) (hu : UnitRows a) (hN : a.rows < 2 ^ 32) {leaf : ℝ} (hleaf : leaf ≠ 0)
  (hkey : ∀ p ∈ pts, KeyDefined leaf p) {k : Int} (hk : 1 ≤ k)

include ha hpts hu in
theorem unit_weights : ∀ p ∈ pts, p.w = 1 := by
  intro p hp
  obtain ⟨i, hi⟩ := List.getElem?_of_mem hp
  obtain ⟨_, _, _, h⟩ := hpts.2 i p hi
  rw [h]
  have hlt := (List.getElem?_eq_some_iff.1 hi).1
  rw [hpts.1] at hlt
  split
  · rename_i h4
    exact hu h4 i hlt
  · rfl

include he ha hpts hu hN hleaf hkey hk in
theorem pyPrep_array {x : PrepRun} {r : Res (Option (RCloud × KdTree.Tree ℝ))} (h : preprocessArray e x a leaf k = some r) :
    ∃ out c t, r = .ok (some (c, t)) ∧ BlockSample leaf pts out ∧ LocalFeatures out e.maxD k.toNat c ∧
      (out ≠ [] → TreeOf e.builder out t) ∧ (out = [] → t = ⟨[], [], none⟩) ∧ (out = [] ↔ pts = []) ∧ out.length ≤ pts.length ∧ (∀ p ∈ out, p.w = 1) ∧
      voxelgridSamplingPar e.sortOmp ompCut x.blocks pts leaf = some (.ok out) := by
  have hr := rows_unique ha hpts
  unfold preprocessArray at h
  rw [if_neg (by unfold PointArray at ha; omega), fill_eq, ← hr] at h
  obtain ⟨r1, h1, rfl⟩ := Option.map_eq_some_iff.1 h
  obtain ⟨out, c, t, rfl, h2⟩ := pyPrep_ok he rfl (unit_weights ha hpts hu) (by rw [hpts.1]; exact hN) hleaf hkey hk h1
  exact ⟨out, c, t, rfl, h2⟩

include he ha hpts hu hN hleaf hkey hk in
/-- C70. `preprocess_points(a)` on an array of points with weight 1, for every complete execution: the cloud holds a block-wise sample of the rows — also with one thread — each point with the normal and covariance
given by its nearest neighbours, and the tree is a kd-tree of these points. -/
theorem C70_preprocess {x : PrepRun} {r : Res (Option (RCloud × KdTree.Tree ℝ))} (h : preprocessArray e x a leaf k = some r) :
    ∃ out c t, r = .ok (some (c, t)) ∧ BlockSample leaf pts out ∧ LocalFeatures out e.maxD k.toNat c ∧
      (out ≠ [] → TreeOf e.builder out t) ∧ (out = [] → t = ⟨[], [], none⟩) ∧ (out = [] ↔ pts = []) ∧ out.length ≤ pts.length ∧ ∀ p ∈ out, p.w = 1 := by
  obtain ⟨out, c, t, h1, h2, h3, h4, h5, h6, h7, h8, _⟩ := pyPrep_array he ha hpts hu hN hleaf hkey hk h
  exact ⟨out, c, t, h1, h2, h3, h4, h5, h6, h7, h8⟩

include he ha hpts hu hN hleaf hkey hk in
/-- C70. Two executions of `preprocess_points` on the same points give the same points, up to order. -/
theorem C70_same_points {b : NumpyArray} (hb : PointArray b) (hptsb : RowsAre b pts) (hub : UnitRows b) {x x' : PrepRun} {r r' : Res (Option (RCloud × KdTree.Tree ℝ))}
    (h : preprocessArray e x a leaf k = some r) (h' : preprocessArray e x' b leaf k = some r') :
    ∃ c t c' t', r = .ok (some (c, t)) ∧ r' = .ok (some (c', t')) ∧ c.points.Perm c'.points := by
  obtain ⟨out, c, t, h1, _, h3, _, _, h6, _, _, h9⟩ := pyPrep_array he ha hpts hu hN hleaf hkey hk h
  obtain ⟨out', c', t', h1', _, h3', _, _, h6', _, _, h9'⟩ := pyPrep_array he hb hptsb hub (by rw [← hptsb.1, hpts.1]; exact hN) hleaf hkey hk h'
  refine ⟨c, t, c', t', h1, h1', ?_⟩
  rw [h3.1, h3'.1]
  refine List.Perm.map _ ?_
  by_cases hne : pts = []
  · rw [h6.2 hne, h6'.2 hne]
  · obtain ⟨G, E, _, _, _, hall⟩ := C25_out_of_range_points_partial he.sortOmp ompCut_isCut hleaf hkey (unit_weights ha hpts hu) hne
    obtain ⟨o, ho, hp⟩ := hall _ _ h9
    obtain ⟨o', ho', hp'⟩ := hall _ _ h9'
    cases ho
    cases ho'
    exact hp.trans hp'.symm

include he ha hpts hu hN hleaf hkey in
/-- C70 is not vacuous: there is a complete execution. -/
theorem C70_executes (k : Int) : ∃ x r, preprocessArray e x a leaf k = some r := by
  obtain ⟨x, r, h⟩ := pyPrep_executes he (c := sampledCloud pts) rfl (unit_weights ha hpts hu) (by rw [hpts.1]; exact hN) hleaf hkey k
  refine ⟨x, r.map some, ?_⟩
  unfold preprocessArray
  rw [if_neg (by unfold PointArray at ha; omega), fill_eq, ← rows_unique ha hpts]
  simp only [h]
  rfl

/-! ### features -/

include he in
theorem estimateRun_ok {pts : List (Pt ℝ)} (hN : pts.length < 2 ^ 32) {t : KdTree.Tree ℝ} (ht : pts ≠ [] → TreeOf e.builder pts t) {k : Int} (hk : 1 ≤ k) {x : EstExec} {threads : Int} {r : Res RCloud}
    (h : (if threads = 1 then some (estimate normalCovarianceSetter e.eig (fun _ => .ok (kdKnn e t)) k (sampledCloud pts))
      else if x.chunks.flatten.Perm (List.range (sampledCloud pts).size) then estimatePar normalCovarianceSetter e.eig (fun _ => .ok (kdKnn e t)) k (sampledCloud pts) x.chunks x.sched else none) = some r) :
    ∃ c, r = .ok c ∧ LocalFeatures pts e.maxD k.toNat c := by
  obtain ⟨c, hc⟩ := features_defined he hN ht hk
  have hv := features_values he hN ht hk hc
  split at h
  · rw [hc] at h
    cases h
    exact ⟨c, rfl, hv⟩
  · split at h
    · rename_i hch
      have h3 := C49_parallel _ _ _ _ _ _ _ hch _ h
      rw [hc] at h3
      cases r with
      | error f => cases h3
      | ok c2 => cases h3; exact ⟨c, rfl, hv⟩
    · cases h

include he in
/-- C70. `estimate_normals_covariances` on a cloud of points without attributes (as constructed from an array or returned by a sampler), without a tree, for any number of threads and every complete execution. -/
theorem C70_features {pts : List (Pt ℝ)} (hN : pts.length < 2 ^ 32) {k : Int} (hk : 1 ≤ k) {x : EstExec} {threads : Int} {r : Res RCloud}
    (h : estimateFeatures normalCovarianceSetter e x ⟨pts.map (fun p => some ![p.x, p.y, p.z, p.w]), List.replicate pts.length none, List.replicate pts.length none⟩ none k threads = some r) :
    ∃ c, r = .ok c ∧ LocalFeatures pts e.maxD k.toNat c := by
  have hsc : (⟨pts.map (fun p => some ![p.x, p.y, p.z, p.w]), List.replicate pts.length none, List.replicate pts.length none⟩ : RCloud) = sampledCloud pts := rfl
  rw [hsc] at h
  unfold estimateFeatures at h
  rw [cloudPoints_of _ pts rfl] at h
  simp only at h
  have hne : frameTree e (.parallel x.tree) pts ≠ none := by
    intro h0
    rw [h0] at h
    cases h
  obtain ⟨t, t1, t2, _⟩ := frameTree_ok he hN hne
  rw [t1] at h
  exact estimateRun_ok he hN t2 hk h

theorem write_points {S : Setter} {c c' : RCloud} {i : Nat} {f : Option M3} (h : S.write c i f = .ok c') : c'.points = c.points := by
  unfold Setter.write at h
  dsimp only at h
  have h2 : ∀ {c1 : RCloud}, (if S.covs = true then writeCov c1 i f else Except.ok c1) = .ok c' → c'.points = c1.points := by
    intro c1 h
    split at h
    · exact writeCov_points h
    · cases h; rfl
  split at h
  · obtain ⟨c1, g1, g2⟩ := call_of_ok h
    rw [h2 g2, writeNormal_points g1]
  · exact h2 h

/-- The estimation searches at the points of the cloud only. -/
theorem estimate_congr (S : Setter) (eig : M3 → M3) (k : Int) (c : RCloud) {knn knn' : Search} (h : ∀ q n, knn c.points q n = knn' c.points q n) :
    estimate S eig (fun _ => .ok knn) k c = estimate S eig (fun _ => .ok knn') k c := by
  have hone : ∀ (c1 : RCloud) i, c1.points = c.points → estimateOne S eig knn k c1 i = estimateOne S eig knn' k c1 i := by
    intro c1 i hc
    unfold estimateOne localFrame
    simp only [hc, h]
  have hfold : ∀ (l : List Nat) (c1 : RCloud), c1.points = c.points → l.foldlM (estimateOne S eig knn k) c1 = l.foldlM (estimateOne S eig knn' k) c1 := by
    intro l
    induction l with
    | nil => intros; rfl
    | cons i l ih =>
      intro c1 hc
      rw [List.foldlM_cons, List.foldlM_cons, hone c1 i hc]
      cases hr : estimateOne S eig knn' k c1 i with
      | error f => rfl
      | ok c2 =>
        rw [ok_bind, ok_bind]
        refine ih c2 ?_
        unfold estimateOne at hr
        obtain ⟨f, _, hr⟩ := call_of_ok hr
        rw [write_points hr, hc]
  unfold estimate
  exact hfold _ _ (resize_points c)

include he in
/-- C70. The same with a tree of the cloud. -/
theorem C70_features_tree {pts : List (Pt ℝ)} (hN : pts.length < 2 ^ 32) {k : Int} (hk : 1 ≤ k) {x : EstExec} {threads : Int} {t : TreeArg} (ht : pts ≠ [] → TreeOf e.builder pts t.tree)
    (htp : t.points = pts.map (fun p => some ![p.x, p.y, p.z, p.w])) {r : Res RCloud}
    (h : estimateFeatures normalCovarianceSetter e x ⟨pts.map (fun p => some ![p.x, p.y, p.z, p.w]), List.replicate pts.length none, List.replicate pts.length none⟩ (some t) k threads = some r) :
    ∃ c, r = .ok c ∧ LocalFeatures pts e.maxD k.toNat c := by
  have hsc : (⟨pts.map (fun p => some ![p.x, p.y, p.z, p.w]), List.replicate pts.length none, List.replicate pts.length none⟩ : RCloud) = sampledCloud pts := rfl
  rw [hsc] at h
  have hcong := estimate_congr normalCovarianceSetter e.eig k (sampledCloud pts) (knn := fun _ q k => kdKnn e t.tree t.points q k) (knn' := kdKnn e t.tree) (by intro q n; rw [htp]; rfl)
  obtain ⟨c, hc⟩ := features_defined he hN ht hk
  have hv := features_values he hN ht hk hc
  rw [hc] at hcong
  unfold estimateFeatures at h
  simp only at h
  split at h
  · rw [hcong] at h
    cases h
    exact ⟨c, rfl, hv⟩
  · split at h
    · rename_i hch
      have h3 := C49_parallel _ _ _ _ _ _ _ hch _ h
      rw [hcong] at h3
      cases r with
      | error f => cases h3
      | ok c2 => cases h3; exact ⟨c, rfl, hv⟩
    · cases h


/-- C70. A tree of another cloud is searched in that cloud: if it has at least five points, more than `points`, `num_neighbors` covers them all and none is too far away, a point outside `points` is read. -/
theorem C70_foreign_tree {e : Env} (he : EnvMeets e) {pts other : List (Pt ℝ)} (hne : pts ≠ []) (hlt : pts.length < other.length) (h5 : 5 ≤ other.length) (hN : other.length < 2 ^ 32) {k : Int} (hk : other.length ≤ k)
    (hnear : ∀ p ∈ pts, ∀ q ∈ other, sqd q p < e.maxD) {t : TreeArg} (ht : TreeOf e.builder other t.tree) (htp : t.points = other.map (fun p => some ![p.x, p.y, p.z, p.w])) (S : Setter) (x : EstExec) :
    estimateFeatures S e x ⟨pts.map (fun p => some ![p.x, p.y, p.z, p.w]), List.replicate pts.length none, List.replicate pts.length none⟩ (some t) k 1 = some (.error .oob) := by
  have hsc : (⟨pts.map (fun p => some ![p.x, p.y, p.z, p.w]), List.replicate pts.length none, List.replicate pts.length none⟩ : RCloud) = sampledCloud pts := rfl
  rw [hsc]
  unfold estimateFeatures
  simp only [if_true, Option.some.injEq]
  have hpos : 0 < pts.length := List.length_pos_of_ne_nil hne
  obtain ⟨nb, h1, h2, h3⟩ := kdKnn_ok he (List.ne_nil_of_length_pos (by omega)) hN ht (k := k.toNat) (by omega) (ofPt pts[0])
  have hall : ∀ j < other.length, j ∈ nb.map Prod.fst := by
    intro j hj
    by_cases hl : nb.length < k.toNat
    · exact h2.complete hl j _ ⟨⟨_, List.getElem?_eq_getElem hj, rfl⟩, by rw [toPt_ofPt]; exact hnear _ (List.getElem_mem _) _ (List.getElem_mem _)⟩
    · by_contra hn
      have hsub : nb.map Prod.fst ⊆ (List.range other.length).erase j := by
        intro i hi
        obtain ⟨c, hc, rfl⟩ := List.mem_map.1 hi
        obtain ⟨⟨q, hq, _⟩, _⟩ := h2.genuine c hc
        refine (List.mem_erase_of_ne ?_).2 (List.mem_range.2 (List.getElem?_eq_some_iff.1 hq).1)
        rintro rfl
        exact hn hi
      have := (h3.subperm hsub).length_le
      rw [List.length_erase_of_mem (List.mem_range.2 hj), List.length_map, List.length_range] at this
      omega
  have hlen : 5 ≤ nb.length := by
    have := (List.nodup_range (n := other.length)).subperm (l₂ := nb.map Prod.fst) (fun i hi => hall i (List.mem_range.1 hi))
    have := this.length_le
    rw [List.length_range, List.length_map] at this
    omega
  -- reading the neighbours
  have hp0 : ((sampledCloud pts).resize (sampledCloud pts).size).point 0 = .ok (ofPt pts[0]) := by
    unfold Cloud.point getSlot
    rw [resize_points, rd_of_getElem? (by rw [sampled_get, List.getElem?_eq_getElem hpos]; rfl), ok_bind]
    rfl
  have hfold : ∀ (l : List Nat) (acc : V4 × M4), (∃ j ∈ l, pts.length ≤ j) → l.foldlM (fun (acc : V4 × M4) j => (do
        let pt ← ((sampledCloud pts).resize (sampledCloud pts).size).point j
        .ok (acc.1 + pt, acc.2 + vecMulVec pt pt) : Res (V4 × M4))) acc = .error .oob := by
    intro l
    induction l with
    | nil => rintro _ ⟨j, hj, _⟩; cases hj
    | cons i l ih =>
      rintro acc ⟨j, hj, hjl⟩
      rw [List.foldlM_cons]
      by_cases hi : i < pts.length
      · have hpi : ((sampledCloud pts).resize (sampledCloud pts).size).point i = .ok (ofPt pts[i]) := by
          unfold Cloud.point getSlot
          rw [resize_points, rd_of_getElem? (by rw [sampled_get, List.getElem?_eq_getElem hi]; rfl), ok_bind]
          rfl
        rw [hpi, ok_bind, ok_bind]
        refine ih _ ⟨j, ?_, hjl⟩
        rcases List.mem_cons.1 hj with rfl | hj
        · omega
        · exact hj
      · have hpi : ((sampledCloud pts).resize (sampledCloud pts).size).point i = .error .oob := by
          unfold Cloud.point getSlot
          rw [resize_points]
          have : rd (sampledCloud pts).points i = .error .oob := by
            unfold rd
            rw [sampled_get, List.getElem?_eq_none (by omega)]
            rfl
          rw [this]
          rfl
        rw [hpi]
        rfl
  have hf : localFrame e.eig (fun _ q k => kdKnn e t.tree t.points q k) k ((sampledCloud pts).resize (sampledCloud pts).size) 0 = .error .oob := by
    unfold localFrame
    rw [if_neg (by omega), hp0, ok_bind, htp]
    have h1' : kdKnn e t.tree (other.map (fun p => some ![p.x, p.y, p.z, p.w])) (ofPt pts[0]) k.toNat = .ok (nb.map Prod.fst) := h1
    beta_reduce
    rw [h1', ok_bind, if_neg (by rw [List.length_map]; omega), hfold _ _ ⟨pts.length, hall _ hlt, le_refl _⟩]
    rfl
  unfold estimate
  dsimp only
  rw [ok_bind]
  have hsz : ((sampledCloud pts).resize (sampledCloud pts).size).size = pts.length := by
    unfold Cloud.size
    rw [show ((sampledCloud pts).resize (sampledCloud pts).points.length).points = (sampledCloud pts).points from resize_points _]
    simp [sampledCloud]
  obtain ⟨n, hn⟩ := Nat.exists_eq_succ_of_ne_zero hpos.ne'
  rw [hsz, hn, List.range_succ_eq_map, List.foldlM_cons]
  unfold estimateOne
  rw [hf]
  rfl

end Prep

/-! ### registration of arrays -/

/-- C70. `align` on two arrays does not read a fourth column, whatever it holds. -/
theorem C70_align_columns (e : Env) (xt xs : PrepExec) (y : RegExec) {a a' b b' : NumpyArray} (ha : PointArray a) (ha' : PointArray a') (hb : PointArray b) (hb' : PointArray b')
    (hA : a'.rows = a.rows ∧ ∀ i < a.rows, ∀ j < 3, a'.entry i j = a.entry i j) (hB : b'.rows = b.rows ∧ ∀ i < b.rows, ∀ j < 3, b'.entry i j = b.entry i j)
    (initT : Pose ℝ) (name : String) (s : Setting) : alignArrays e xt xs y a' b' initT name s = alignArrays e xt xs y a b initT name s := by
  have key : ∀ {a a' : NumpyArray}, (a'.rows = a.rows ∧ ∀ i < a.rows, ∀ j < 3, a'.entry i j = a.entry i j) →
      (Cloud.ofPoints (homogeneous id) (rowVectors a') : Res RCloud) = Cloud.ofPoints (homogeneous id) (rowVectors a) := by
    intro a a' ⟨h1, h2⟩
    rw [C50_constructor, C50_constructor]
    unfold rowVectors
    rw [h1]
    simp only [List.map_map, List.length_map, List.length_range, Except.ok.injEq, Cloud.mk.injEq, and_true]
    apply List.map_congr_left
    intro i hi
    have hi := List.mem_range.1 hi
    simp only [Function.comp, Option.some.injEq]
    funext j
    fin_cases j <;> simp [homogeneous, rowPoint] <;> split <;> split <;> simp [h2 i hi]
  have hp : ∀ {x : PrepExec} {a a' : NumpyArray} {leaf : ℝ} {k n : Int}, (a'.rows = a.rows ∧ ∀ i < a.rows, ∀ j < 3, a'.entry i j = a.entry i j) →
      preprocessVector e x id (rowVectors a') leaf k n = preprocessVector e x id (rowVectors a) leaf k n := by
    intro x a a' leaf k n h
    unfold preprocessVector
    rw [key h]
  unfold alignArrays Pipeline.align
  unfold PointArray at ha ha' hb hb'
  rw [if_neg (by omega), if_neg (by omega), if_neg (by omega), if_neg (by omega)]
  simp only [hp hA, hp hB]

/-- C70. Arrays of other shapes and unknown names give the identity, not converged, with nothing counted. -/
theorem C70_align_refused (e : Env) (xt xs : PrepExec) (y : RegExec) (a b : NumpyArray) (initT : Pose ℝ) (name : String) (s : Setting)
    (h : ¬ PointArray a ∨ ¬ PointArray b ∨ name ∉ ["ICP", "PLANE_ICP", "GICP", "VGICP"]) :
    ∃ r, alignArrays e xt xs y a b initT name s = some (.ok r) ∧ r.T = Pose.one ∧ r.converged = false ∧ r.iterations = 0 ∧ r.numInliers = 0 := by
  refine ⟨Result.init Pose.one, ?_, rfl, rfl, rfl, rfl⟩
  unfold alignArrays PointArray at *
  split
  · rfl
  · split
    · rfl
    · have hn : parseType true name = none := by
        rcases h with h | h | h
        · omega
        · omega
        · simp only [List.mem_cons, List.not_mem_nil, not_or, or_false] at h
          simp [parseType, h]
      rw [hn]

/-! ### concrete cases -/

/-- The six points of `parabola` as an `N × 3` array. -/
def parabolaArray : NumpyArray := ⟨6, 3, fun i j => if j = 0 then i else if j = 1 then i * i else 0⟩

theorem parabolaArray_rows : RowsAre parabolaArray parabola := by
  refine ⟨rfl, fun i p h => ?_⟩
  have hi := (List.getElem?_eq_some_iff.1 h).1
  simp only [parabola, List.length_cons, List.length_nil] at hi
  interval_cases i <;> simp [parabola] at h <;> subst h <;> simp [RowIs, parabolaArray] <;> norm_num

/-- The premises of C70 are met: six rows, and the same values in four columns. -/
example : PointArray parabolaArray ∧ UnitRows parabolaArray ∧ PointArray ⟨1, 4, fun _ _ => 1⟩ ∧ UnitRows ⟨1, 4, fun _ _ => 1⟩ ∧ ¬ PointArray ⟨1, 2, fun _ _ => 1⟩ :=
  ⟨.inl rfl, fun h => (by cases h), .inr rfl, fun _ _ _ => rfl, by simp [PointArray]⟩

example : ∃ (e : Env) (x : PrepRun) (c : RCloud) (t : KdTree.Tree ℝ), EnvMeets e ∧ preprocessArray e x parabolaArray 1 10 = some (.ok (some (c, t))) ∧ c.points ≠ [] := by
  obtain ⟨e, he, _⟩ := env_exists 1000 (by norm_num) (0, 0)
  obtain ⟨x, r, h⟩ := C70_executes he (.inl rfl) parabolaArray_rows (fun h => by cases h) (by simp [parabolaArray]) one_ne_zero parabola_ok.2.1 10
  obtain ⟨out, c, t, rfl, _, hl, _, _, hne, _⟩ := C70_preprocess he (.inl rfl) parabolaArray_rows (fun h => by cases h) (by simp [parabolaArray]) one_ne_zero parabola_ok.2.1 (k := 10) (by norm_num) h
  refine ⟨e, x, c, t, he, h, ?_⟩
  rw [hl.1]
  simp [hne, parabola]

/-- A cloud of one point with a tree of six. -/
example : ∃ (e : Env) (t : TreeArg), EnvMeets e ∧ estimateFeatures normalSetter e ⟨[], [], []⟩ ⟨[some ![0, 0, 0, 1]], [none], [none]⟩ (some t) 10 1 = some (.error .oob) := by
  obtain ⟨e, he, hm, _⟩ := env_exists 1000 (by norm_num) (0, 0)
  obtain ⟨t, _, ht, _⟩ := tree_defined he (out := parabola) (by simp [parabola])
  refine ⟨e, ⟨parabola.map (fun p => some ![p.x, p.y, p.z, p.w]), t⟩, he, ?_⟩
  exact C70_foreign_tree he (pts := [⟨0, 0, 0, 1⟩]) (by simp) (other := parabola) (by simp [parabola]) (by simp [parabola]) (by simp [parabola]) (by simp [parabola])
    (by rw [hm]; simp [parabola, sqd, exactOps]; norm_num) (ht (by simp [parabola])) rfl normalSetter _

end Verif.Props
