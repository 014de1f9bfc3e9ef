import Verif.Model.BasicExamples
import Verif.Props.Python
import Verif.Props.OdometryDescent
import Verif.Props.PointFiles

/-! C90: what the basic registration examples compute. -/

set_option linter.unusedSectionVars false
set_option linter.unusedSimpArgs false
set_option linter.unnecessarySeqFocus false

namespace Verif.Spec

open Matrix Verif Verif.Factors Verif.KdTree Verif.Optimizer

/-- The points of a file: the first three components of each, with weight 1. -/
def filePoints (value : Files.F32 → ℝ) (pts : List Files.V4) : List (Pt ℝ) := pts.map fun v => ⟨value v.x, value v.y, value v.z, 1⟩

/-- Fewer than `2 ^ 32` points, with cell coordinates that fit `int` for cells of 0.25. -/
def FileFits (value : Files.F32 → ℝ) (pts : List Files.V4) : Prop := pts.length < 2 ^ 32 ∧ ∀ p ∈ filePoints value pts, KeyDefined (1 / 4) p

/-- A GICP registration of `source` to `target` with the default settings, from the identity: both are sampled by `Sample` with cells of 0.25, each sampled point has the covariance of its `k` nearest neighbours, and
`res` is the outcome of Levenberg–Marquardt descent, a partner being a nearest point within distance 1. -/
def DefaultGicp (Sample : ℝ → List (Pt ℝ) → List (Pt ℝ) → Prop) (k : Nat) (maxD : ℝ) (target source : List (Pt ℝ)) (res : Result ℝ) : Prop :=
  ∃ outT outS tgt src, Sample (1 / 4) target outT ∧ Sample (1 / 4) source outS ∧ LocalSites outT maxD k tgt ∧ LocalSites outS maxD k src ∧
    LMRun .cov (NearestWithin tgt 1) src 10 10 (1 / 10 * Real.pi / 180) (1 / 1000) 20 0 (1 / 1000) (Result.init Pose.one) res

end Verif.Spec

namespace Verif.Props

open Matrix Verif Verif.Knn Verif.KdTree Verif.Proofs Verif.Proofs.RegMem Verif.Factors Verif.Reduction Verif.Optimizer Verif.PointCloud Verif.RegMem Verif.Spec Verif.Lie
open Verif.Pipeline Verif.Features Verif.Downsample Verif.Helper Verif.OdometryPipeline Verif.Odometry Verif.Python Verif.BasicExamples

theorem andThen_some {A B : Type} {x : Option (Res A)} {f : A → Option (Res B)} {r : Res B} (h : andThen x f = some r) :
    (∃ e, x = some (.error e) ∧ r = .error e) ∨ ∃ a, x = some (.ok a) ∧ f a = some r := by
  unfold andThen at h
  split at h
  · cases h
  · cases h
    exact .inl ⟨_, rfl, rfl⟩
  · exact .inr ⟨_, rfl, h⟩

theorem andThen_ok {A B : Type} (a : A) (f : A → Option (Res B)) : andThen (some (.ok a)) f = f a := rfl

theorem vector_points (value : Files.F32 → ℝ) (pts : List Files.V4) : (pts.map vector).map (vecPoint value) = filePoints value pts := by
  unfold filePoints
  rw [List.map_map]
  rfl

theorem vector_fits {value : Files.F32 → ℝ} {pts : List Files.V4} (h : FileFits value pts) : InputFits value (1 / 4) (pts.map vector) := by
  refine ⟨by rw [List.length_map]; exact h.1, fun p hp => h.2 _ ?_⟩
  rw [← vector_points]
  exact List.mem_map_of_mem hp

section Clouds

variable {e : Env} (he : EnvMeets e)

include he in
/-- A GICP registration of clouds of which points and covariances are set. -/
theorem gicp_align {y : RegExec} {s : Setting} (hs : s.type = .gicp) (hgate : s.maxCorrespondenceDistance * s.maxCorrespondenceDistance < e.maxD) (hy : RunsToEnd y s.numThreads.toNat)
    {outT outS : List (Pt ℝ)} {k : Nat} {ct cs ct' cs' : RCloud} {t : KdTree.Tree ℝ} (hN : outT.length < 2 ^ 32) (hT : LocalFeatures outT e.maxD k ct') (hS : LocalFeatures outS e.maxD k cs')
    (hTp : ct.points = ct'.points) (hTc : ct.covs = ct'.covs) (hSp : cs.points = cs'.points) (hSc : cs.covs = cs'.covs)
    (hTw : ∀ p ∈ outT, p.w = 1) (hSw : ∀ p ∈ outS, p.w = 1) (ht : outT ≠ [] → TreeOf e.builder outT t) (ht0 : outT = [] → t = ⟨[], [], none⟩) (initT : Pose ℝ) (hne : outT ≠ []) :
    ∃ res, Pipeline.alignClouds e y ct cs t initT s = .ok res ∧ LMRun .cov (NearestWithin (cloudSites ct') (s.maxCorrespondenceDistance * s.maxCorrespondenceDistance)) (cloudSites cs') 10 10
      s.rotationEps s.translationEps s.maxIterations.toNat 0 (1 / 1000) (Result.init initT) res := by
  have hsz : cs.size = cs'.size := by unfold Cloud.size; rw [hSp]
  have hpts : cloudPoints ct = .ok outT := cloudPoints_of ct outT (hTp.trans hT.1)
  obtain ⟨res, h1, h2⟩ := clouds_descent he (MetricFactor.cov (inv := e.inv)) y
    { Registration.default .gicp with maxDistSq := s.maxCorrespondenceDistance * s.maxCorrespondenceDistance, rotationEps := s.rotationEps, translationEps := s.translationEps,
                                      numThreads := s.numThreads, lm := ⟨s.maxIterations, 10, 1 / 1000, 10⟩ } hy hgate (by norm_num) (by norm_num) hN hT hS hTw hSw ht ht0 initT (fun h => hne h.1)
  refine ⟨res, ?_, h2⟩
  unfold Pipeline.alignClouds
  rw [hpts, ok_bind]
  simp only [alignCloud, hs, runRegistration, Registration.default]
  simp only [Registration.default] at h1
  rw [← h1]
  unfold runMethod
  rw [gicp_no_normals e.inv ct cs ct' cs' hTp hTc hSp hSc, hsz]

end Clouds

/-! ### `01_basic_registration.cpp` -/

/-- **C90, preprocessing separately.** On the same points and executions, the first registration of `example2` gives the result of `example1`. -/
theorem C90_examples_agree {e : Env} {value : Files.F32 → ℝ} {xt xs : PrepExec} {y y2 : RegExec} {target source : List Files.V4} {r : Result ℝ × Result ℝ}
    (h : example2 e value xt xs y y2 target source = some (.ok r)) : example1 e value xt xs y target source = some (.ok r.1) := by
  unfold example2 at h
  obtain ⟨_, _, h0⟩ | ⟨t, ht, h⟩ := andThen_some h
  · cases h0
  obtain ⟨_, _, h0⟩ | ⟨s, hs, h⟩ := andThen_some h
  · cases h0
  simp only [Option.some.injEq] at h
  obtain ⟨r1, h1, h⟩ := call_of_ok h
  obtain ⟨r2, h2, h⟩ := call_of_ok h
  cases h
  unfold example1 Pipeline.align
  simp only [ht, hs]
  rw [if_neg (by simp [Setting.default]), ← h1]
  rfl

section Cpp

variable {e : Env} (he : EnvMeets e) (hmax : 1 < e.maxD) {value : Files.F32 → ℝ} {target source : List Files.V4} (hT : FileFits value target) (hS : FileFits value source)
  (hTne : target ≠ []) (hSne : source ≠ [])

include he hmax hT hS hTne in
/-- **C90, `example1`.** For every complete execution the result is the outcome of the GICP registration of the block-wise samples, with ten neighbours. -/
theorem C90_example1 {xt xs : PrepExec} {y : RegExec} (hy : RunsToEnd y 4) {r : Res (Result ℝ)} (h : example1 e value xt xs y target source = some r) :
    ∃ res, r = .ok res ∧ DefaultGicp BlockSample 10 e.maxD (filePoints value target) (filePoints value source) res := by
  obtain ⟨res, outT, outS, tgt, src, h1, h2, h3, h4, h5, h6⟩ := C67_clouds he value (s := { Setting.default with numThreads := 4, downsamplingResolution := 1 / 4, maxCorrespondenceDistance := 1 })
    (by norm_num) (vector_fits hT) (vector_fits hS) (m := .cov) .gicp (by simpa using hmax) hy h (by simp [hTne])
  rw [vector_points] at h2 h3
  refine ⟨res, h1, outT, outS, tgt, src, h2, h3, h4, h5, ?_⟩
  simpa [Setting.default] using h6

include he hmax hT hS hTne hSne in
/-- **C90, `example2`.** Both results, of the registration of source to target and of target to source, for every complete execution; they use the same samples. -/
theorem C90_example2 {xt xs : PrepExec} {y y2 : RegExec} (hy : RunsToEnd y 4) (hy2 : RunsToEnd y2 4) {r : Res (Result ℝ × Result ℝ)} (h : example2 e value xt xs y y2 target source = some r) :
    ∃ r1 r2 outT outS tgt src, r = .ok (r1, r2) ∧ BlockSample (1 / 4) (filePoints value target) outT ∧ BlockSample (1 / 4) (filePoints value source) outS ∧
      LocalSites outT e.maxD 10 tgt ∧ LocalSites outS e.maxD 10 src ∧
      LMRun .cov (NearestWithin tgt 1) src 10 10 (1 / 10 * Real.pi / 180) (1 / 1000) 20 0 (1 / 1000) (Result.init Pose.one) r1 ∧
      LMRun .cov (NearestWithin src 1) tgt 10 10 (1 / 10 * Real.pi / 180) (1 / 1000) 20 0 (1 / 1000) (Result.init Pose.one) r2 := by
  unfold example2 at h
  have hp : ∀ {pts : List Files.V4} {x : PrepExec} {r : Res (RCloud × KdTree.Tree ℝ)}, FileFits value pts → pts ≠ [] → preprocessVector e x value (pts.map vector) (1 / 4) 10 4 = some r →
      ∃ out c t, r = .ok (c, t) ∧ BlockSample (1 / 4) (filePoints value pts) out ∧ LocalFeatures out e.maxD 10 c ∧ (out ≠ [] → TreeOf e.builder out t) ∧ (out = [] → t = ⟨[], [], none⟩) ∧
        out ≠ [] ∧ out.length < 2 ^ 32 ∧ ∀ p ∈ out, p.w = 1 := by
    intro pts x r hf hne h
    obtain ⟨out, c, t, g1, g2, g3, g4, g5, g6, g7, g8⟩ := vector_homogeneous he value (by norm_num) (vector_fits hf) (k := 10) (by norm_num) 4 h
    rw [vector_points] at g2
    exact ⟨out, c, t, g1, g2, g3, g4, g5, fun h0 => hne (by simpa using g6.1 h0), g7, g8⟩
  obtain ⟨f, ht, _⟩ | ⟨t, ht, h⟩ := andThen_some h
  · obtain ⟨_, _, _, h0, _⟩ := hp hT hTne ht
    cases h0
  obtain ⟨f, hs, _⟩ | ⟨s, hs, h⟩ := andThen_some h
  · obtain ⟨_, _, _, h0, _⟩ := hp hS hSne hs
    cases h0
  obtain ⟨outT, ct, tt, h0, a1, a2, a3, a4, a5, a6, a7⟩ := hp hT hTne ht
  cases h0
  obtain ⟨outS, cs, ts, h0, b1, b2, b3, b4, b5, b6, b7⟩ := hp hS hSne hs
  cases h0
  obtain ⟨r1, c1, c2⟩ := gicp_align he (s := { Setting.default with numThreads := 4, maxCorrespondenceDistance := 1 }) rfl (by simpa using hmax) hy a6 a2 b2 rfl rfl rfl rfl a7 b7 a3 a4 Pose.one a5
  obtain ⟨r2, d1, d2⟩ := gicp_align he (s := { Setting.default with numThreads := 4, maxCorrespondenceDistance := 1 }) rfl (by simpa using hmax) hy2 b6 b2 a2 rfl rfl rfl rfl b7 a7 b3 b4 Pose.one b5
  simp only [Option.some.injEq] at h
  rw [c1, ok_bind, d1, ok_bind] at h
  refine ⟨r1, r2, outT, outS, _, _, h.symm, a1, b1, cloud_sites a2, cloud_sites b2, ?_, ?_⟩
  · simpa [Setting.default] using c2
  · simpa [Setting.default] using d2

end Cpp

/-- **C90, the program, files without points.** If a file cannot be opened or gives no points, `main` returns 1 and nothing is registered. -/
theorem C90_no_points (e : Env) (value : Files.F32 → ℝ) (x : Runs) {target source : Option (List Files.Byte)} {t s : List Files.V4} (ht : Files.readPly target = .ok t)
    (hs : Files.readPly source = .ok s) (h : t = [] ∨ s = []) : BasicExamples.main e value x target source = some (.ok ⟨1, []⟩) := by
  unfold BasicExamples.main
  rw [ht, hs, andThen_ok, andThen_ok, if_pos (by rcases h with rfl | rfl <;> simp)]

/-- **C90, the program.** For every complete execution `main` returns 0; the results are three registrations: source to target twice, and target to source. -/
theorem C90_program {e : Env} (he : EnvMeets e) (hmax : 1 < e.maxD) {value : Files.F32 → ℝ} {x : Runs} (hy : RunsToEnd x.y1 4 ∧ RunsToEnd x.y2 4 ∧ RunsToEnd x.y3 4)
    {target source : Option (List Files.Byte)} {t s : List Files.V4} (ht : Files.readPly target = .ok t) (hs : Files.readPly source = .ok s) (htn : t ≠ []) (hsn : s ≠ [])
    (hT : FileFits value t) (hS : FileFits value s) {r : Res Ended} (h : BasicExamples.main e value x target source = some r) :
    ∃ r1 r2 r3, r = .ok ⟨0, [r1, r2, r3]⟩ ∧ DefaultGicp BlockSample 10 e.maxD (filePoints value t) (filePoints value s) r1 ∧
      DefaultGicp BlockSample 10 e.maxD (filePoints value t) (filePoints value s) r2 ∧ DefaultGicp BlockSample 10 e.maxD (filePoints value s) (filePoints value t) r3 := by
  unfold BasicExamples.main at h
  rw [ht, hs, andThen_ok, andThen_ok, if_neg (by simp [htn, hsn])] at h
  obtain ⟨f, h1, _⟩ | ⟨r1, h1, h⟩ := andThen_some h
  · obtain ⟨_, h0, _⟩ := C90_example1 he hmax hT hS htn hy.1 h1
    cases h0
  obtain ⟨f, h2, _⟩ | ⟨r2, h2, h⟩ := andThen_some h
  · obtain ⟨_, _, _, _, _, _, h0, _⟩ := C90_example2 he hmax hT hS htn hsn hy.2.1 hy.2.2 h2
    cases h0
  obtain ⟨_, h0, g1⟩ := C90_example1 he hmax hT hS htn hy.1 h1
  cases h0
  obtain ⟨a, b, outT, outS, tgt, src, h0, g2, g3, g4, g5, g6, g7⟩ := C90_example2 he hmax hT hS htn hsn hy.2.1 hy.2.2 h2
  cases h0
  exact ⟨r1, a, b, (Option.some.inj h).symm, g1, ⟨outT, outS, tgt, src, g2, g3, g4, g5, g6⟩, ⟨outS, outT, src, tgt, g3, g2, g5, g4, g7⟩⟩

/-! ### `basic_registration.py` -/

/-- An array whose rows are the points `pts`, of weight 1, not empty, fewer than `2 ^ 32`, with cell coordinates that fit `int` for cells of 0.25. -/
structure ArrayFits (a : NumpyArray) (pts : List (Pt ℝ)) : Prop where
  shape : PointArray a
  rows : RowsAre a pts
  unit : UnitRows a
  some : pts ≠ []
  size : a.rows < 2 ^ 32
  keys : ∀ p ∈ pts, KeyDefined (1 / 4) p

theorem readCloud_eq {value : Files.F32 → ℝ} {file : Option (List Files.Byte)} {pts : List Files.V4} (h : Files.readPly file = .ok pts) : readCloud value file = .ok (sampledCloud (filePoints value pts)) := by
  unfold readCloud
  rw [h, ok_bind, C50_constructor]
  simp [sampledCloud, filePoints, homogeneous_eq, vecPoint, vector, Function.comp_def]

/-- **C90, loading.** The array of the points of a file has a row for each point, with weight 1; for a file that cannot be opened, or without points, element 0 of an empty vector is accessed. -/
theorem C90_load {value : Files.F32 → ℝ} {file : Option (List Files.Byte)} {pts : List Files.V4} (h : Files.readPly file = .ok pts) :
    (pts = [] → loadPoints value file = .error .oob) ∧
    (pts ≠ [] → FileFits value pts → ∃ a, loadPoints value file = .ok a ∧ a.cols = 4 ∧ ArrayFits a (filePoints value pts)) := by
  unfold loadPoints
  rw [readCloud_eq h, ok_bind]
  refine ⟨?_, fun hne hf => ?_⟩
  · rintro rfl
    exact (C70_points _).1 rfl
  · have hlen : (filePoints value pts).length = pts.length := by simp [filePoints]
    have hsz : (sampledCloud (filePoints value pts)).size = pts.length := by rw [sampled_size, hlen]
    have hpos : 0 < pts.length := List.length_pos_of_ne_nil hne
    obtain ⟨b, b1, b2, b3, b4⟩ := (C70_points (sampledCloud (filePoints value pts))).2.2.1 (by omega) (by
      intro i hi
      simp only [sampledCloud, List.length_map] at hi
      exact ⟨_, by rw [sampled_get, List.getElem?_eq_getElem hi]; rfl⟩)
    have hval : ∀ (i : Nat) p, (filePoints value pts)[i]? = some p → b.entry i 0 = p.x ∧ b.entry i 1 = p.y ∧ b.entry i 2 = p.z ∧ b.entry i 3 = p.w := by
      intro i p hp
      have hi := (List.getElem?_eq_some_iff.1 hp).1
      obtain ⟨v, v1, v2⟩ := b4 i (by omega)
      have hv : (sampledCloud (filePoints value pts)).point i = .ok (ofPt p) := by
        unfold Cloud.point getSlot
        rw [rd_of_getElem? (by rw [sampled_get, hp]; rfl), ok_bind]
        rfl
      rw [hv] at v1
      cases v1
      have e0 := v2 0
      have e1 := v2 1
      have e2 := v2 2
      have e3 := v2 3
      simp [ofPt] at e0 e1 e2 e3
      exact ⟨e0, e1, e2, e3⟩
    refine ⟨b, b1, b3, .inr b3, ⟨by omega, fun i p hp => ?_⟩, fun _ i hi => ?_, ?_, by rw [b2, hsz]; exact hf.1, hf.2⟩
    · obtain ⟨e0, e1, e2, e3⟩ := hval i p hp
      exact ⟨e0.symm, e1.symm, e2.symm, by rw [if_pos b3, e3]⟩
    · have hlt : i < (filePoints value pts).length := by omega
      rw [(hval i _ (List.getElem?_eq_getElem hlt)).2.2.2]
      simp [filePoints]
    · intro h0
      rw [h0] at hlen
      simp at hlen
      omega

/-- **C90, arrays and clouds.** On arrays with rows, `example_small1` gives what `example_numpy2` gives, for the same executions. -/
theorem C90_python_agree (e : Env) (xt xs : PrepRun) (y : RegExec) {a b : NumpyArray} (ha : PointArray a) (hb : PointArray b) (har : 0 < a.rows) (hbr : 0 < b.rows) :
    exampleSmall1 e xt xs y a b = exampleNumpy2 e xt xs y a b := by
  obtain ⟨c, c1, c2⟩ := C70_same_preprocess_partial e xt ha har (1 / 4) 10
  obtain ⟨d, d1, d2⟩ := C70_same_preprocess_partial e xs hb hbr (1 / 4) 10
  unfold exampleSmall1 exampleNumpy2
  rw [c1, d1, andThen_ok, andThen_ok, c2, d2]

section Py

variable {e : Env} (he : EnvMeets e) (hmax : 1 < e.maxD) {a b : NumpyArray} {target source : List (Pt ℝ)} (hT : ArrayFits a target) (hS : ArrayFits b source)

theorem rowVectors_points {a : NumpyArray} {pts : List (Pt ℝ)} (h : ArrayFits a pts) : (rowVectors a).map (vecPoint id) = pts := by
  rw [rows_unique h.shape h.rows, ← arrayPoint_eq h.shape h.unit]
  unfold rowVectors
  rw [List.map_map]
  apply List.map_congr_left
  intro i _
  simp only [Function.comp, vecPoint, arrayPoint, rowPoint, id]
  split <;> rfl

theorem rowVectors_fits {a : NumpyArray} {pts : List (Pt ℝ)} (h : ArrayFits a pts) : InputFits id (1 / 4) (rowVectors a) := by
  refine ⟨by simpa [rowVectors] using h.size, fun p hp => h.keys _ ?_⟩
  rw [← rowVectors_points h]
  exact List.mem_map_of_mem hp

include he hmax hT hS in
/-- **C90, `example_numpy1`.** The samples are those of the sequential function, with ten neighbours. -/
theorem C90_numpy1 {xt xs : PrepExec} {y : RegExec} (hy : RunsToEnd y 1) {r : Res (Result ℝ)} (h : exampleNumpy1 e xt xs y a b = some r) :
    ∃ res, r = .ok res ∧ DefaultGicp SerialSample 10 e.maxD target source res := by
  unfold exampleNumpy1 Python.alignArrays at h
  have h1 := hT.shape
  have h2 := hS.shape
  unfold PointArray at h1 h2
  rw [if_neg (by omega), if_neg (by omega)] at h
  simp only [parseType] at h
  obtain ⟨res, outT, outS, tgt, src, h1, h2, h3, h4, h5, h6⟩ := C67_clouds he id (s := { alignDefaults 1 with downsamplingResolution := 1 / 4, type := .gicp })
    (by norm_num) (rowVectors_fits hT) (rowVectors_fits hS) (m := .cov) .gicp (by simpa [alignDefaults] using hmax) hy h (by
      rintro ⟨h0, _⟩
      have := rowVectors_points hT
      rw [h0] at this
      exact hT.some this.symm)
  rw [rowVectors_points hT] at h2
  rw [rowVectors_points hS] at h3
  refine ⟨res, h1, outT, outS, tgt, src, h2, h3, h4, h5, ?_⟩
  simpa [alignDefaults] using h6

theorem pyAlign_eq (e : Env) (y : RegExec) (ct cs : RCloud) (t : KdTree.Tree ℝ) : Python.alignClouds e y ct cs t Pose.one "GICP" (alignDefaults 1) = Pipeline.alignClouds e y ct cs t Pose.one (alignDefaults 1) := by
  unfold Python.alignClouds Pipeline.alignClouds
  simp only [pyAlignCloud, parseType]
  rfl

include he hmax hT hS in
/-- **C90, `example_numpy2` and `example_small1`.** The samples are block-wise, though the number of threads is 1, with ten neighbours. -/
theorem C90_numpy2 {xt xs : PrepRun} {y : RegExec} (hy : RunsToEnd y 1) {r : Res (Result ℝ)} (h : exampleNumpy2 e xt xs y a b = some r) :
    ∃ res, r = .ok res ∧ DefaultGicp BlockSample 10 e.maxD target source res := by
  unfold exampleNumpy2 at h
  obtain ⟨f, ht, _⟩ | ⟨t, ht, h⟩ := andThen_some h
  · obtain ⟨_, _, _, h0, _⟩ := C70_preprocess he hT.shape hT.rows hT.unit hT.size (by norm_num) hT.keys (by norm_num) ht
    cases h0
  obtain ⟨f, hs, _⟩ | ⟨s, hs, h⟩ := andThen_some h
  · obtain ⟨_, _, _, h0, _⟩ := C70_preprocess he hS.shape hS.rows hS.unit hS.size (by norm_num) hS.keys (by norm_num) hs
    cases h0
  obtain ⟨outT, ct, tt, h0, a1, a2, a3, a4, a5, a6, a7⟩ := C70_preprocess he hT.shape hT.rows hT.unit hT.size (by norm_num) hT.keys (by norm_num) ht
  cases h0
  obtain ⟨outS, cs, ts, h0, b1, b2, b3, b4, b5, b6, b7⟩ := C70_preprocess he hS.shape hS.rows hS.unit hS.size (by norm_num) hS.keys (by norm_num) hs
  cases h0
  have hl : outT.length < 2 ^ 32 := by
    have := hT.rows.1
    have := hT.size
    omega
  obtain ⟨res, c1, c2⟩ := gicp_align he (s := alignDefaults 1) rfl (by simpa [alignDefaults] using hmax) hy hl a2 b2 rfl rfl rfl rfl a7 b7 a3 a4 Pose.one (fun h0 => hT.some (a5.1 h0))
  simp only [Option.some.injEq, alignPrepared] at h
  rw [pyAlign_eq, c1] at h
  refine ⟨res, h.symm, outT, outS, _, _, a1, b1, cloud_sites a2, cloud_sites b2, ?_⟩
  simpa [alignDefaults] using c2

include he in
/-- Sampling, tree and covariances of one cloud of `example_small2`. -/
theorem small2_prep {a : NumpyArray} {pts : List (Pt ℝ)} (hf : ArrayFits a pts) :
    ∃ out, pointCloud a = .ok (sampledCloud pts) ∧ sampleCloud e [] (sampledCloud pts) (1 / 4) 1 = some (.ok (sampledCloud out)) ∧ SerialSample (1 / 4) pts out ∧ out ≠ [] ∧ out.length < 2 ^ 32 ∧
      (∀ p ∈ out, p.w = 1) ∧ ∀ (x : List (List Bool)) r, kdTree e x (sampledCloud out) = some r → ∃ t c c', r = .ok t ∧ (out ≠ [] → TreeOf e.builder out t) ∧ (out = [] → t = ⟨[], [], none⟩) ∧
        estimateFeatures covarianceSetter e ⟨[], [], []⟩ (sampledCloud out) (some ⟨(sampledCloud out).points, t⟩) 20 1 = some (.ok c) ∧
        LocalFeatures out e.maxD 20 c' ∧ c.points = c'.points ∧ c.covs = c'.covs := by
  obtain ⟨out, s1, s2, s3, s4, s5⟩ := serial_sample he (unit_weights hf.shape hf.rows hf.unit) (by norm_num) hf.keys
  have hl : out.length < 2 ^ 32 := by
    have := hf.rows.1
    have := hf.size
    omega
  refine ⟨out, ?_, ?_, s2, s4 hf.some, hl, s5, fun x r h => ?_⟩
  · rw [pointCloud_eq hf.shape, ← rows_unique hf.shape hf.rows]
  · unfold sampleCloud Python.sample
    rw [cloudPoints_of _ _ rfl]
    simp only [if_true, s1]
    rfl
  · unfold kdTree at h
    rw [cloudPoints_of _ _ rfl] at h
    simp only at h
    obtain ⟨t, t1, t2, t3⟩ := frameTree_ok he hl (x := .parallel x) (by rw [h]; simp)
    rw [h] at t1
    cases t1
    obtain ⟨c, c1, _, c', c2, c3, c4⟩ := covariances_ok he (x := .sequential) hl t2 (k := 20) (by norm_num) (fun _ _ h => by cases h)
    refine ⟨t, c, c', rfl, t2, t3, ?_, c2, c3, c4⟩
    have hcong := estimate_congr covarianceSetter e.eig 20 (sampledCloud out) (knn := fun _ q k => kdKnn e t (sampledCloud out).points q k) (knn' := kdKnn e t) (fun q n => rfl)
    unfold estimateFeatures
    simp only [if_true]
    rw [hcong]
    exact c1

include he hmax hT hS in
/-- **C90, `example_small2`.** The samples are those of the sequential function; the covariances are those of twenty neighbours, not of ten as in the other examples. -/
theorem C90_small2 {xt xs : List (List Bool)} {y : RegExec} (hy : RunsToEnd y 1) {r : Res (Result ℝ)} (h : exampleSmall2 e xt xs y a b = some r) :
    ∃ res, r = .ok res ∧ DefaultGicp SerialSample 20 e.maxD target source res := by
  obtain ⟨outT, a1, a2, a3, a4, a5, a6, a7⟩ := small2_prep he hT
  obtain ⟨outS, b1, b2, b3, b4, b5, b6, b7⟩ := small2_prep he hS
  unfold exampleSmall2 at h
  rw [a1, b1, andThen_ok, andThen_ok, a2, b2, andThen_ok, andThen_ok] at h
  obtain ⟨f, ht, _⟩ | ⟨t, ht, h⟩ := andThen_some h
  · obtain ⟨_, _, _, h0, _⟩ := a7 _ _ ht
    cases h0
  obtain ⟨f, hs, _⟩ | ⟨s, hs, h⟩ := andThen_some h
  · obtain ⟨_, _, _, h0, _⟩ := b7 _ _ hs
    cases h0
  obtain ⟨_, ct, ct', h0, c1, c2, c3, c4, c5, c6⟩ := a7 _ _ ht
  cases h0
  obtain ⟨_, cs, cs', h0, _, _, d3, d4, d5, d6⟩ := b7 _ _ hs
  cases h0
  rw [c3, d3, andThen_ok, andThen_ok] at h
  obtain ⟨res, g1, g2⟩ := gicp_align he (s := alignDefaults 1) rfl (by simpa [alignDefaults] using hmax) hy a5 c4 d4 c5 c6 d5 d6 a6 b6 c1 c2 Pose.one a4
  rw [pyAlign_eq, g1] at h
  refine ⟨res, (Option.some.inj h).symm, outT, outS, _, _, a3, b3, cloud_sites c4, cloud_sites d4, ?_⟩
  simpa [alignDefaults] using g2

end Py

/-- Every call of the reductions of the script runs to its end. -/
def ScriptRuns (x : PyRuns) : Prop := RunsToEnd x.y1 1 ∧ RunsToEnd x.y2 1 ∧ RunsToEnd x.y3 1 ∧ RunsToEnd x.y4 1

/-- **C90, the script.** For every complete execution on files with points, the four results are registrations of source to target: of the sequential samples (1 and 4) or of block-wise samples (2 and 3), with the
covariances of ten neighbours (1 to 3) or of twenty (4). -/
theorem C90_script {e : Env} (he : EnvMeets e) (hmax : 1 < e.maxD) {value : Files.F32 → ℝ} {x : PyRuns} (hy : ScriptRuns x) {target source : Option (List Files.Byte)} {t s : List Files.V4}
    (ht : Files.readPly target = .ok t) (hs : Files.readPly source = .ok s) (htn : t ≠ []) (hsn : s ≠ []) (hT : FileFits value t) (hS : FileFits value s) {r : Res (List (Result ℝ))}
    (h : script e value x target source = some r) :
    ∃ r1 r2 r3 r4, r = .ok [r1, r2, r3, r4] ∧ DefaultGicp SerialSample 10 e.maxD (filePoints value t) (filePoints value s) r1 ∧ DefaultGicp BlockSample 10 e.maxD (filePoints value t) (filePoints value s) r2 ∧
      DefaultGicp BlockSample 10 e.maxD (filePoints value t) (filePoints value s) r3 ∧ DefaultGicp SerialSample 20 e.maxD (filePoints value t) (filePoints value s) r4 := by
  obtain ⟨a, a1, _, a2⟩ := (C90_load (value := value) ht).2 htn hT
  obtain ⟨b, b1, _, b2⟩ := (C90_load (value := value) hs).2 hsn hS
  have har : 0 < a.rows := by rw [← a2.rows.1]; exact List.length_pos_of_ne_nil a2.some
  have hbr : 0 < b.rows := by rw [← b2.rows.1]; exact List.length_pos_of_ne_nil b2.some
  obtain ⟨y1, y2, y3, y4⟩ := hy
  unfold script at h
  rw [a1, b1, andThen_ok, andThen_ok] at h
  have step : ∀ {A B : Type} {q : Option (Res A)} {f : A → Option (Res B)} {r : Res B} {P : A → Prop}, (∀ r', q = some r' → ∃ v, r' = .ok v ∧ P v) → andThen q f = some r → ∃ v, P v ∧ f v = some r := by
    intro A B q f r P hq h
    obtain ⟨_, h1, _⟩ | ⟨v, h1, h2⟩ := andThen_some h
    · obtain ⟨_, h0, _⟩ := hq _ h1
      cases h0
    · obtain ⟨_, h0, hp⟩ := hq _ h1
      cases h0
      exact ⟨v, hp, h2⟩
  obtain ⟨r1, p1, h⟩ := step (fun _ h => C90_numpy1 he hmax a2 b2 y1 h) h
  obtain ⟨r2, p2, h⟩ := step (fun _ h => C90_numpy2 he hmax a2 b2 y2 h) h
  obtain ⟨r3, p3, h⟩ := step (fun _ h => C90_numpy2 he hmax a2 b2 y3 (by rw [C90_python_agree e _ _ _ a2.shape b2.shape har hbr] at h; exact h)) h
  obtain ⟨r4, p4, h⟩ := step (fun _ h => C90_small2 he hmax a2 b2 y4 h) h
  exact ⟨r1, r2, r3, r4, (Option.some.inj h).symm, p1, p2, p3, p4⟩

/-- **C90, the script, files without points.** A file that cannot be opened is not reported: element 0 of an empty vector is accessed. -/
theorem C90_script_no_points (e : Env) (value : Files.F32 → ℝ) (x : PyRuns) {target : Option (List Files.Byte)} (source : Option (List Files.Byte)) (ht : Files.readPly target = .ok []) :
    script e value x target source = some (.error .oob) := by
  unfold script
  rw [(C90_load (value := value) ht).1 rfl]
  rfl

/-! ### complete executions exist -/

theorem regExec_exists (n : Nat) (hn : 1 ≤ n) : ∃ y, RunsToEnd y n := by
  have hseq : ∀ k : Nat, ∃ sched, (Exec.omp n [List.range k] sched [0]).Complete k := by
    intro k
    obtain ⟨sched, h⟩ := parOrder_seq ([List.range k].mapIdx ompThread)
    exact ⟨sched, by omega, by simp; omega, by simp, ⟨_, h⟩, by simp⟩
  choose sched hsched using hseq
  exact ⟨⟨fun _ fs => ⟨[List.range fs.length], sched fs.length, [0]⟩, fun _ fs => ⟨[List.range fs.length], sched fs.length, [0]⟩⟩, fun _ fs => ⟨hsched _, hsched _⟩⟩

theorem vector_executes {e : Env} (he : EnvMeets e) {value : Files.F32 → ℝ} {pts : List Files.V4} (h : FileFits value pts) : ∃ x r, preprocessVector e x value (pts.map vector) (1 / 4) 10 4 = some r := by
  have hl := vector_fits h
  unfold preprocessVector
  rw [C50_constructor]
  exact C59_executes he (pts := (pts.map vector).map (vecPoint value)) (by simp [homogeneous_eq, Function.comp_def]) (by simp [vecPoint]) (by rw [List.length_map]; exact hl.1) (by norm_num)
    (by simpa using hl.2) (by norm_num) 4

theorem andThen_defined {A B : Type} {x : Option (Res A)} {f : A → Option (Res B)} {r : Res A} (hx : x = some r) (hf : ∀ a, r = .ok a → ∃ r', f a = some r') : ∃ r', andThen x f = some r' := by
  subst hx
  cases r with
  | error e => exact ⟨_, rfl⟩
  | ok a => exact hf a rfl

/-- **C90 is not vacuous**: program and script have complete executions on files with points. -/
theorem C90_executes {e : Env} (he : EnvMeets e) {value : Files.F32 → ℝ} {target source : Option (List Files.Byte)} {t s : List Files.V4} (ht : Files.readPly target = .ok t) (hs : Files.readPly source = .ok s)
    (htn : t ≠ []) (hsn : s ≠ []) (hT : FileFits value t) (hS : FileFits value s) :
    (∃ (x : Runs) (r : Res Ended), RunsToEnd x.y1 4 ∧ RunsToEnd x.y2 4 ∧ RunsToEnd x.y3 4 ∧ BasicExamples.main e value x target source = some r) ∧
    ∃ (x : PyRuns) (r : Res (List (Result ℝ))), ScriptRuns x ∧ script e value x target source = some r := by
  obtain ⟨y4, hy4⟩ := regExec_exists 4 (by norm_num)
  obtain ⟨y1, hy1⟩ := regExec_exists 1 (by norm_num)
  constructor
  · obtain ⟨xt, rt, h1⟩ := vector_executes he hT
    obtain ⟨xs, rs, h2⟩ := vector_executes he hS
    refine ⟨⟨xt, xs, y4, xt, xs, y4, y4⟩, ?_⟩
    suffices h : ∃ r, BasicExamples.main e value ⟨xt, xs, y4, xt, xs, y4, y4⟩ target source = some r by
      obtain ⟨r, h⟩ := h
      exact ⟨r, hy4, hy4, hy4, h⟩
    unfold BasicExamples.main
    rw [ht, hs, andThen_ok, andThen_ok, if_neg (by simp [htn, hsn])]
    have hex : ∃ r, example1 e value xt xs y4 t s = some r := by
      unfold example1 Pipeline.align
      simp only [h1, h2]
      cases rt with
      | error f => exact ⟨_, rfl⟩
      | ok v =>
        cases rs with
        | error f => exact ⟨_, rfl⟩
        | ok w => exact ⟨_, rfl⟩
    obtain ⟨r1, hr1⟩ := hex
    refine andThen_defined hr1 fun _ _ => ?_
    have hex2 : ∃ r, example2 e value xt xs y4 y4 t s = some r := by
      unfold example2
      exact andThen_defined h1 fun _ _ => andThen_defined h2 fun _ _ => ⟨_, rfl⟩
    obtain ⟨r2, hr2⟩ := hex2
    exact andThen_defined hr2 fun _ _ => ⟨_, rfl⟩
  · obtain ⟨a, a1, _, a2⟩ := (C90_load (value := value) ht).2 htn hT
    obtain ⟨b, b1, _, b2⟩ := (C90_load (value := value) hs).2 hsn hS
    have har : 0 < a.rows := by rw [← a2.rows.1]; exact List.length_pos_of_ne_nil a2.some
    have hbr : 0 < b.rows := by rw [← b2.rows.1]; exact List.length_pos_of_ne_nil b2.some
    obtain ⟨xt, rt, h1⟩ := C70_executes he a2.shape a2.rows a2.unit a2.size (leaf := 1 / 4) (by norm_num) a2.keys 10
    obtain ⟨xs, rs, h2⟩ := C70_executes he b2.shape b2.rows b2.unit b2.size (leaf := 1 / 4) (by norm_num) b2.keys 10
    obtain ⟨xt1, xs1, _, rn, _, h3⟩ := C61_executes he id (s := { alignDefaults 1 with downsamplingResolution := 1 / 4, type := .gicp }) (by norm_num) (rowVectors_fits a2) (rowVectors_fits b2)
      (by simp [alignDefaults]) Pose.one
    have tree : ∀ {a : NumpyArray} {pts : List (Pt ℝ)}, ArrayFits a pts → ∃ x, ∀ out, sampleCloud e [] (sampledCloud pts) (1 / 4) 1 = some (.ok (sampledCloud out)) → out.length < 2 ^ 32 →
        ∃ r, kdTree e x (sampledCloud out) = some r := by
      intro a pts hf
      obtain ⟨out, _, o2, _, _, o5, _⟩ := small2_prep he hf
      obtain ⟨sched, _, _, _, _, ⟨g1, _⟩, _⟩ := frameRuns_exists he o5
      refine ⟨sched, fun out' h' _ => ?_⟩
      rw [o2] at h'
      simp only [Option.some.injEq, Except.ok.injEq] at h'
      rw [← h']
      unfold kdTree
      rw [cloudPoints_of _ _ rfl]
      simp only at g1 ⊢
      exact Option.ne_none_iff_exists'.1 g1
    obtain ⟨xt4, htree⟩ := tree a2
    obtain ⟨xs4, hstree⟩ := tree b2
    refine ⟨⟨xt1, xs1, y1, xt, xs, y1, xt, xs, y1, xt4, xs4, y1⟩, ?_⟩
    suffices h : ∃ r, script e value ⟨xt1, xs1, y1, xt, xs, y1, xt, xs, y1, xt4, xs4, y1⟩ target source = some r by
      obtain ⟨r, h⟩ := h
      exact ⟨r, ⟨hy1, hy1, hy1, hy1⟩, h⟩
    unfold script
    rw [a1, b1, andThen_ok, andThen_ok]
    have e1 : ∃ r, exampleNumpy1 e xt1 xs1 y1 a b = some r := by
      unfold exampleNumpy1 Python.alignArrays
      have g1 := a2.shape
      have g2 := b2.shape
      unfold PointArray at g1 g2
      rw [if_neg (by omega), if_neg (by omega)]
      simp only [parseType]
      unfold Pipeline.align at h3 ⊢
      simp only at h3
      cases q1 : preprocessVector e xt1 id (rowVectors a) (1 / 4) 10 1 with
      | none =>
        have : preprocessVector e xt1 id (rowVectors a) (1 / 4) 10 (alignDefaults 1).numThreads = none := q1
        rw [this] at h3
        cases h3
      | some v =>
        have hv : preprocessVector e xt1 id (rowVectors a) (1 / 4) 10 (alignDefaults 1).numThreads = some v := q1
        rw [hv] at h3
        simp only [if_pos, hv]
        cases v with
        | error f => exact ⟨_, rfl⟩
        | ok v =>
          cases q2 : preprocessVector e xs1 id (rowVectors b) (1 / 4) 10 1 with
          | none =>
            have : preprocessVector e xs1 id (rowVectors b) (1 / 4) 10 (alignDefaults 1).numThreads = none := q2
            simp only [this] at h3
            cases h3
          | some w =>
            have hw : preprocessVector e xs1 id (rowVectors b) (1 / 4) 10 (alignDefaults 1).numThreads = some w := q2
            simp only [hw]
            cases w with
            | error f => exact ⟨_, rfl⟩
            | ok w => exact ⟨_, rfl⟩
    have e2 : ∃ r, exampleNumpy2 e xt xs y1 a b = some r := by
      unfold exampleNumpy2
      exact andThen_defined h1 fun _ _ => andThen_defined h2 fun _ _ => ⟨_, rfl⟩
    have e3 : ∃ r, exampleSmall1 e xt xs y1 a b = some r := by
      rw [C90_python_agree e _ _ _ a2.shape b2.shape har hbr]
      exact e2
    have e4 : ∃ r, exampleSmall2 e xt4 xs4 y1 a b = some r := by
      obtain ⟨outT, p1, p2, p3, p4, p5, p6, p7⟩ := small2_prep he a2
      obtain ⟨outS, q1, q2, q3, q4, q5, q6, q7⟩ := small2_prep he b2
      obtain ⟨r1, hr1⟩ := htree _ p2 p5
      obtain ⟨r2, hr2⟩ := hstree _ q2 q5
      obtain ⟨tt, ct, _, rfl, _, _, pf, _⟩ := p7 _ _ hr1
      obtain ⟨ts, cs, _, rfl, _, _, qf, _⟩ := q7 _ _ hr2
      unfold exampleSmall2
      rw [p1, q1, andThen_ok, andThen_ok, p2, q2, andThen_ok, andThen_ok, hr1, hr2, andThen_ok, andThen_ok, pf, qf]
      exact ⟨_, rfl⟩
    obtain ⟨_, e1⟩ := e1
    obtain ⟨_, e2⟩ := e2
    obtain ⟨_, e3⟩ := e3
    obtain ⟨_, e4⟩ := e4
    exact andThen_defined e1 fun _ _ => andThen_defined e2 fun _ _ => andThen_defined e3 fun _ _ => andThen_defined e4 fun _ _ => ⟨_, rfl⟩

/-- The premises are met: files with two vertices of four properties each, and any values within 1000. -/
example (value : Files.F32 → ℝ) (hv : ∀ f, value f = 0 ∨ value f = 1000) : ∃ (e : Env) (file : List Files.Byte) (x : Runs) (r1 r2 r3 : Result ℝ), EnvMeets e ∧
    BasicExamples.main e value x (some file) (some file) = some (.ok ⟨0, [r1, r2, r3]⟩) := by
  obtain ⟨e, he, hm, _⟩ := env_exists 1000 (by norm_num) (0, 0)
  have hr := C56_ply_partial (plyLines 2 ['x', 'y', 'z', 'i']) (List.replicate 2 (plyVertex 4)) [] (plyLines_fits 4 2 ['x', 'y', 'z', 'i'] rfl 2 (by decide) (by decide) (by decide) (by decide)) (.inl rfl)
  have hfit : FileFits value ((List.replicate 2 (plyVertex 4)).map plyPoint) := by
    refine ⟨by simp, fun p hp => ?_⟩
    simp only [filePoints, List.map_replicate, List.mem_replicate] at hp
    obtain ⟨_, rfl⟩ := hp
    generalize plyPoint (plyVertex 4) = v
    rcases hv v.x with h1 | h1 <;> rcases hv v.y with h2 | h2 <;> rcases hv v.z with h3 | h3 <;> simp [KeyDefined, KeyFits, h1, h2, h3, INT_MIN, INT_MAX] <;> norm_num
  obtain ⟨⟨x, r, g1, g2, g3, g4⟩, _⟩ := C90_executes he (value := value) hr hr (by simp) (by simp) hfit hfit
  obtain ⟨r1, r2, r3, rfl, _⟩ := C90_program he (by rw [hm]; norm_num) ⟨g1, g2, g3⟩ hr hr (by simp) (by simp) hfit hfit g4
  exact ⟨e, _, x, r1, r2, r3, he, g4⟩

end Verif.Props
