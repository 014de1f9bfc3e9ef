import Verif.Model.ExampleProgram
import Verif.Props.ExampleRun
import Verif.Props.BasicExamples

/-! C96: the program `03_registration_template.cpp`. -/

set_option linter.unusedSectionVars false
set_option linter.unusedSimpArgs false
set_option linter.unnecessarySeqFocus false

namespace Verif.Props

open Matrix Verif Verif.Knn Verif.KdTree Verif.Proofs Verif.Proofs.RegMem Verif.Factors Verif.Reduction Verif.Optimizer Verif.PointCloud Verif.RegMem Verif.Spec Verif.Lie
open Verif.Pipeline Verif.Features Verif.Downsample Verif.Helper Verif.OdometryPipeline Verif.BasicExamples Verif.Example

section Example1

variable {e : Env} (he : EnvMeets e)

theorem sample1_eq {value : Files.F32 → ℝ} (x : CloudRun) (f : List Files.V4) : ∃ c, (Cloud.ofPoints (homogeneous value) (f.map vector) : Res RCloud) = .ok c ∧
    sample1 e x c = voxelgridSamplingPar e.sortOmp ompCut x.blocks (filePoints value f) (1 / 4) := by
  refine ⟨_, C50_constructor _ _, ?_⟩
  unfold sample1
  rw [cloudPoints_of _ (filePoints value f) (by rw [← vector_points]; simp [homogeneous_eq, Function.comp_def])]

include he in
theorem sample1_ok {value : Files.F32 → ℝ} {f : List Files.V4} (hf : FileFits value f) (hne : f ≠ []) {x : CloudRun} {c : RCloud} (hc : Cloud.ofPoints (homogeneous value) (f.map vector) = .ok c)
    {r : Res (List (Pt ℝ))} (h : sample1 e x c = some r) :
    ∃ out, r = .ok out ∧ BlockSample (1 / 4) (filePoints value f) out ∧ out ≠ [] ∧ out.length < 2 ^ 32 ∧ ∀ p ∈ out, p.w = 1 := by
  obtain ⟨c', h1, h2⟩ := sample1_eq (e := e) (value := value) x f
  rw [h1] at hc
  cases hc
  rw [h2] at h
  obtain ⟨raw, rfl, s1, s2⟩ := block_sample he (by simp [filePoints]) (by norm_num) hf.2 h
  obtain ⟨l1, l2⟩ := block_length s1
  have hfl : (filePoints value f).length = f.length := by simp [filePoints]
  have := hf.1
  exact ⟨raw, rfl, s1, l2 (by simpa [filePoints] using hne), by omega, s2⟩

include he in
theorem covariances_par {out : List (Pt ℝ)} (hN : out.length < 2 ^ 32) {t : KdTree.Tree ℝ} (ht : out ≠ [] → TreeOf e.builder out t) {k : Int} (hk : 1 ≤ k) {chunks : List (List Nat)} {sched : List Nat}
    {r : Res RCloud} (h : covariances e (.parallel chunks sched) t k (sampledCloud out) = some r) :
    ∃ c c', r = .ok c ∧ LocalFeatures out e.maxD k.toNat c' ∧ c.points = c'.points ∧ c.covs = c'.covs := by
  obtain ⟨c, c1, _, c', c2, c3, c4⟩ := covariances_ok he (x := .sequential) hN ht hk (fun _ _ h => by cases h)
  simp only [covariances] at h c1
  split at h
  · rename_i hch
    have h3 := C49_parallel _ _ _ _ _ _ _ hch _ h
    rw [Option.some.inj c1] at h3
    cases r with
    | error f => cases h3
    | ok b =>
      cases h3
      exact ⟨_, c', rfl, c2, c3, c4⟩
  · cases h

theorem andThen_holds {A B : Type} {q : Option (Res A)} {f : A → Option (Res B)} {r : Res B} {P : A → Prop} (hq : ∀ r', q = some r' → ∃ v, r' = .ok v ∧ P v) (h : andThen q f = some r) :
    ∃ v, P v ∧ f v = some r := by
  obtain ⟨_, h1, _⟩ | ⟨v, h1, h2⟩ := andThen_some h
  · obtain ⟨_, h0, _⟩ := hq _ h1
    cases h0
  · obtain ⟨_, h0, hp⟩ := hq _ h1
    cases h0
    exact ⟨v, hp, h2⟩

include he in
/-- **C96, `example1`.** For every complete execution on clouds with points, the result is that of the GICP registration of the block-wise samples, with ten neighbours; the same as in `01_basic_registration.cpp` (`C90_example1`). -/
theorem C96_example1 (hmax : 1 < e.maxD) {value : Files.F32 → ℝ} {f g : List Files.V4} (hf : FileFits value f) (hg : FileFits value g) (hfn : f ≠ []) (hgn : g ≠ []) {xt xs : CloudRun} {y : RegExec} (hy : RunsToEnd y 4)
    {r : Res (Result ℝ)} (h : Example.example1 e value xt xs y f g = some r) :
    ∃ res, r = .ok res ∧ DefaultGicp BlockSample 10 e.maxD (filePoints value f) (filePoints value g) res := by
  unfold Example.example1 at h
  obtain ⟨ct0, h1, h⟩ := andThen_holds (P := fun c => Cloud.ofPoints (homogeneous value) (f.map vector) = .ok c) (fun r' hr => ⟨_, (Option.some.inj hr).symm.trans (C50_constructor _ _), C50_constructor _ _⟩) h
  obtain ⟨cs0, h2, h⟩ := andThen_holds (P := fun c => Cloud.ofPoints (homogeneous value) (g.map vector) = .ok c) (fun r' hr => ⟨_, (Option.some.inj hr).symm.trans (C50_constructor _ _), C50_constructor _ _⟩) h
  obtain ⟨outT, ⟨a1, a2, a3, a4⟩, h⟩ := andThen_holds (fun _ h => sample1_ok he hf hfn h1 h) h
  obtain ⟨outS, ⟨b1, b2, b3, b4⟩, h⟩ := andThen_holds (fun _ h => sample1_ok he hg hgn h2 h) h
  obtain ⟨tt, p1, h⟩ := andThen_holds (P := fun t => outT ≠ [] → TreeOf e.builder outT t) (fun r' h => by
    obtain ⟨t, t1, t2, _⟩ := frameTree_ok he a3 (x := .parallel xt.tree) (by rw [h]; simp)
    rw [h] at t1
    exact ⟨t, Option.some.inj t1, t2⟩) h
  obtain ⟨ts, p2, h⟩ := andThen_holds (P := fun t => outS ≠ [] → TreeOf e.builder outS t) (fun r' h => by
    obtain ⟨t, t1, t2, _⟩ := frameTree_ok he b3 (x := .parallel xs.tree) (by rw [h]; simp)
    rw [h] at t1
    exact ⟨t, Option.some.inj t1, t2⟩) h
  obtain ⟨ct, ⟨ct', c1, c2, c3⟩, h⟩ := andThen_holds (P := fun c => ∃ c', LocalFeatures outT e.maxD 10 c' ∧ c.points = c'.points ∧ c.covs = c'.covs)
    (fun _ h => by obtain ⟨c, c', h1, h2⟩ := covariances_par he a3 p1 (k := 10) (by norm_num) h; exact ⟨_, h1, c', h2⟩) h
  obtain ⟨cs, ⟨cs', d1, d2, d3⟩, h⟩ := andThen_holds (P := fun c => ∃ c', LocalFeatures outS e.maxD 10 c' ∧ c.points = c'.points ∧ c.covs = c'.covs)
    (fun _ h => by obtain ⟨c, c', h1, h2⟩ := covariances_par he b3 p2 (k := 10) (by norm_num) h; exact ⟨_, h1, c', h2⟩) h
  have hsz : cs.size = cs'.size := by unfold Cloud.size; rw [d2]
  have hpts : cloudPoints ct = .ok outT := cloudPoints_of ct outT (c2.trans c1.1)
  obtain ⟨res, g1, g2⟩ := clouds_descent he (MetricFactor.cov (inv := e.inv)) y { Registration.default .gicp with numThreads := 4, maxDistSq := 1 * 1 } hy (by simpa using hmax) (by norm_num [Registration.default])
    (by norm_num [Registration.default]) a3 c1 d1 a4 b4 p1 (fun h => absurd h a2) Pose.one (fun h => a2 h.1)
  refine ⟨res, ?_, outT, outS, _, _, a1, b1, cloud_sites c1, cloud_sites d1, ?_⟩
  · rw [← Option.some.inj h, ← g1]
    unfold align1
    rw [hpts, ok_bind]
    unfold runMethod
    rw [gicp_no_normals e.inv ct cs ct' cs' c2 c3 d2 d3, hsz]
  · simpa [Registration.default] using g2

end Example1

/-! ### the program -/

/-- **C96, files without points.** The program ends with status 1 if a file yields no point. -/
theorem C96_no_points (e : Env) (top : QueueTop ℝ) (value : Files.F32 → ℝ) (x : ProgramRun) {target source : Option (List Files.Byte)} {t s : List Files.V4} (ht : Files.readPly target = .ok t)
    (hs : Files.readPly source = .ok s) (h : t = [] ∨ s = []) : Example.main e top value x target source = some (.ok ⟨1, []⟩) := by
  unfold Example.main
  rw [ht, hs, andThen_ok, andThen_ok, if_pos (by rcases h with rfl | rfl <;> simp)]

theorem coordinates_points (value : Files.F32 → ℝ) (f : List Files.V4) : inputPoints (coordinates value f) = filePoints value f := by
  simp [inputPoints, coordinates, filePoints]

theorem coordinates_fits {value : Files.F32 → ℝ} {f : List Files.V4} (h : FileFits value f) : InputFits (d := 0) (fun x : ℝ => x) (1 / 4) (coordinates value f) := by
  refine ⟨by simpa [coordinates] using h.1, fun p hp => h.2 _ ?_⟩
  rw [← coordinates_points, input_points]
  exact List.mem_map_of_mem hp

/-- **C96, the program.** For every complete execution on files with points: if the indices of the target points nearest to the source points can be used in the source, the program ends with status 0 and two results, of the GICP
registration of the block-wise samples and of the point-to-plane registration of `example2`; if for some source point they cannot, the program has a fault, after the first result. -/
theorem C96_program {e : Env} (he : EnvMeets e) (hmax : 1 < e.maxD) {top : List (Nat × ℝ) → Nat} (htop : TopSpec top) {value : Files.F32 → ℝ} {x : ProgramRun} (hy1 : RunsToEnd x.y1 4) (hy2 : RunsToEnd x.y2 4)
    {target source : Option (List Files.Byte)} {t s : List Files.V4} (ht : Files.readPly target = .ok t) (hs : Files.readPly source = .ok s) (htn : t ≠ []) (hsn : s ≠ []) (hT : FileFits value t) (hS : FileFits value s)
    {r : Res Ended} (h : Example.main e top value x target source = some r) :
    ∃ r1 outT outS, DefaultGicp BlockSample 10 e.maxD (filePoints value t) (filePoints value s) r1 ∧ BlockSample (1 / 4) (filePoints value t) outT ∧ BlockSample (1 / 4) (filePoints value s) outS ∧
      (AllUsable (outT.map xyz) (outS.map xyz) → ∃ r2 tgt src, r = .ok ⟨0, [r1, r2]⟩ ∧ SurfaceSites (outT.map xyz) tgt ∧ src.map Site.pos = outS.map xyz ∧
        StiffRun (stiffness (10 ^ 8) ![0, 0, 1, 1, 1, 1]) .plane (NearestWithin tgt 1) src 10 10 (1 / 10 * Real.pi / 180) (1 / 1000) 20 0 (1 / 1000) (Result.init Pose.one) r2) ∧
      (SomeUnusable (outT.map xyz) (outS.map xyz) → ∃ f, r = .error f) ∧
      (5 ≤ outT.length → outS.length < 10 → outS.length < outT.length → r = .error .oob) := by
  unfold Example.main at h
  rw [ht, hs, andThen_ok, andThen_ok, if_neg (by simp [htn, hsn])] at h
  obtain ⟨r1, p1, h⟩ := andThen_holds (fun _ h => C96_example1 he hmax hT hS htn hsn hy1 h) h
  cases h2 : Example.example2 e top x.x2 x.y2 (coordinates value t) (coordinates value s) with
  | none => rw [h2] at h; cases h
  | some q =>
    obtain ⟨outT, outS, b1, b2, b3, b4, b5⟩ := C76_run_partial he htop (coordinates_fits hT) (coordinates_fits hS) hy2 h2
    rw [coordinates_points] at b1 b2
    have hne : outS ≠ [] := (block_length b2).2 (by simpa [filePoints] using hsn)
    rw [h2] at h
    refine ⟨r1, outT, outS, p1, b1, b2, fun hu => ?_, fun hu => ?_, fun h5 h10 hlt => ?_⟩
    · obtain ⟨res, fs, log, tgt, src, rfl, g1, g2, g3⟩ := b3 hu
      exact ⟨res, tgt, src, (Option.some.inj h).symm, g1, g2, g3⟩
    · obtain ⟨f, rfl⟩ := b4 hu
      exact ⟨f, (Option.some.inj h).symm⟩
    · rw [b5 h5 hne h10 hlt] at h
      exact (Option.some.inj h).symm

/-- **C96 is not vacuous**: the program has complete executions on files with points. -/
theorem C96_executes {e : Env} (he : EnvMeets e) {top : List (Nat × ℝ) → Nat} (htop : TopSpec top) {value : Files.F32 → ℝ} {target source : Option (List Files.Byte)} {t s : List Files.V4}
    (ht : Files.readPly target = .ok t) (hs : Files.readPly source = .ok s) (htn : t ≠ []) (hsn : s ≠ []) (hT : FileFits value t) (hS : FileFits value s) :
    ∃ x r, RunsToEnd x.y1 4 ∧ RunsToEnd x.y2 4 ∧ Example.main e top value x target source = some r := by
  obtain ⟨y, hy⟩ := regExec_exists 4 (by norm_num)
  obtain ⟨x2, r2, h2⟩ := C76_executes he htop (coordinates_fits hT) (coordinates_fits hS) y
  have key : ∀ {f : List Files.V4}, FileFits value f → f ≠ [] → ∃ (x : CloudRun) (c : RCloud) (out : List (Pt ℝ)) (tr : KdTree.Tree ℝ) (r : Res RCloud), Cloud.ofPoints (homogeneous value) (f.map vector) = .ok c ∧
      sample1 e x c = some (.ok out) ∧ frameTree e (.parallel x.tree) out = some (.ok tr) ∧ covariances e (.parallel x.chunks x.sched) tr 10 (sampledCloud out) = some r := by
    intro f hf hne
    have hw : ∀ p ∈ filePoints value f, p.w = 1 := by simp [filePoints]
    have hne' : filePoints value f ≠ [] := by simpa [filePoints] using hne
    have hs : ∃ sched r, voxelgridSamplingPar e.sortOmp ompCut sched (filePoints value f) (1 / 4) = some r := by
      obtain ⟨hp, hs⟩ := he.sortOmp (cpOf (1 / 4) (filePoints value f))
      obtain ⟨hf', hb⟩ := ompCut_isCut (e.sortOmp (cpOf (1 / 4) (filePoints value f)))
      obtain ⟨subs, h2, _⟩ := parStart_eq hf' hb hp hs hw
      obtain ⟨js, out, h⟩ := C24_every_schedule_finishes he.sortOmp ompCut_isCut (by norm_num) hf.2 hw hne' [] (coordPt_eq hf.2) h2 rfl
      exact ⟨_, _, h⟩
    obtain ⟨sched, r, hs⟩ := hs
    obtain ⟨c, c1, c2⟩ := sample1_eq (e := e) (value := value) ⟨sched, [], [], []⟩ f
    obtain ⟨out, rfl, _, _, o3, _⟩ := sample1_ok he hf hne c1 (c2.trans hs)
    obtain ⟨tr, ch, fs, _, _, ⟨g1, g2, _⟩, _⟩ := frameRuns_exists he o3
    obtain ⟨u, u1, u2, _⟩ := frameTree_ok he o3 g1
    obtain ⟨d, d1, _⟩ := covariances_ok he o3 u2 (k := 10) (by norm_num) g2
    exact ⟨⟨sched, tr, ch, fs⟩, c, out, u, _, c1, c2.trans hs, u1, d1⟩
  obtain ⟨xt, ct, outT, tt, rt, t1, t2, t3, t4⟩ := key hT htn
  obtain ⟨xs, cs, outS, ts, rs, s1, s2, s3, s4⟩ := key hS hsn
  refine ⟨⟨xt, xs, y, x2, y⟩, ?_⟩
  suffices h : ∃ r, Example.main e top value ⟨xt, xs, y, x2, y⟩ target source = some r by
    obtain ⟨r, h⟩ := h
    exact ⟨r, hy, hy, h⟩
  have hex : ∃ r, Example.example1 e value xt xs y t s = some r := by
    unfold Example.example1
    rw [t1, s1, andThen_ok, andThen_ok, t2, s2, andThen_ok, andThen_ok, t3, s3, andThen_ok, andThen_ok]
    exact andThen_defined t4 fun _ _ => andThen_defined s4 fun _ _ => ⟨_, rfl⟩
  obtain ⟨r1, hr1⟩ := hex
  unfold Example.main
  rw [ht, hs, andThen_ok, andThen_ok, if_neg (by simp [htn, hsn])]
  exact andThen_defined hr1 fun _ _ => andThen_defined h2 fun _ _ => ⟨_, rfl⟩

/-- A file with two points read as target and as source: the program ends with status 0 and two results. -/
example (value : Files.F32 → ℝ) (hv : ∀ f, value f = 0 ∨ value f = 1000) (top : List (Nat × ℝ) → Nat) (htop : TopSpec top) : ∃ (e : Env) (file : List Files.Byte) (x : ProgramRun) (r1 r2 : Result ℝ), EnvMeets e ∧
    Example.main e top value x (some file) (some file) = some (.ok ⟨0, [r1, r2]⟩) := by
  obtain ⟨e, he, hm, _⟩ := env_exists 1000 (by norm_num) (0, 0)
  have hr := C56_ply_partial (plyLines 2 ['x', 'y', 'z', 'i']) (List.replicate 2 (plyVertex 4)) [] (plyLines_fits 4 2 ['x', 'y', 'z', 'i'] rfl 2 (by decide) (by decide) (by decide) (by decide)) (.inl rfl)
  have hfit : FileFits value ((List.replicate 2 (plyVertex 4)).map plyPoint) := by
    refine ⟨by simp, fun p hp => ?_⟩
    simp only [filePoints, List.map_replicate, List.mem_replicate] at hp
    obtain ⟨_, rfl⟩ := hp
    generalize plyPoint (plyVertex 4) = v
    rcases hv v.x with h1 | h1 <;> rcases hv v.y with h2 | h2 <;> rcases hv v.z with h3 | h3 <;> simp [KeyDefined, KeyFits, h1, h2, h3, INT_MIN, INT_MAX] <;> norm_num
  obtain ⟨x, r, g1, g2, g4⟩ := C96_executes he htop (value := value) hr hr (by simp) (by simp) hfit hfit
  obtain ⟨r1, outT, outS, _, b1, _, c1, _⟩ := C96_program he (by rw [hm]; norm_num) htop g1 g2 hr hr (by simp) (by simp) hfit hfit g4
  have hl : outT.length ≤ 2 := by simpa [filePoints] using (block_length b1).1
  obtain ⟨r2, _, _, rfl, _⟩ := c1 (C76_usable (.inl (by rw [List.length_map]; omega)))
  exact ⟨e, _, x, r1, r2, he, g4⟩

end Verif.Props
