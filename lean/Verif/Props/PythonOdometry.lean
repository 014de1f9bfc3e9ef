import Verif.Props.Python
import Verif.Props.OdometryDescent

/-! C71: the scan-to-scan odometry of `kitti_odometry.py` is a chain of descents, each started from the motion before it. -/

set_option linter.unusedSectionVars false
set_option linter.unusedSimpArgs false
set_option linter.unnecessarySeqFocus false

namespace Verif.Spec

open Matrix Verif Verif.Factors Verif.KdTree Verif.Optimizer

/-- The poses after a frame at the pose `T` that was reached by the motion `last`, with the sites `tgt`: the motion of each frame is where the descent ends that starts from the motion of the frame before and
brings the points of a sample of it, with their local covariances, to those of the frame before. The sample may be one of those that a parallel sampler gives. -/
inductive GuidedFrom (leaf maxD gate : ℝ) (k : Nat) : List Site → Pose ℝ → Pose ℝ → List (List (Pt ℝ)) → List (Pose ℝ) → Prop
  | nil (tgt : List Site) (T last : Pose ℝ) : GuidedFrom leaf maxD gate k tgt T last [] []
  | cons (tgt src : List Site) (T last R : Pose ℝ) (ps out : List (Pt ℝ)) (pss : List (List (Pt ℝ))) (tr : List (Pose ℝ)) :
      BlockSample leaf ps out → LocalSites out maxD k src → Descends (NearestWithin tgt gate) src last R → GuidedFrom leaf maxD gate k src (T.mul R) R pss tr →
      GuidedFrom leaf maxD gate k tgt T last (ps :: pss) (T.mul R :: tr)

/-- A trajectory that starts at the identity, the first motion being guided by the identity. -/
inductive GuidedChain (leaf maxD gate : ℝ) (k : Nat) : List (List (Pt ℝ)) → List (Pose ℝ) → Prop
  | nil : GuidedChain leaf maxD gate k [] []
  | cons (tgt : List Site) (ps out : List (Pt ℝ)) (pss : List (List (Pt ℝ))) (tr : List (Pose ℝ)) :
      BlockSample leaf ps out → LocalSites out maxD k tgt → GuidedFrom leaf maxD gate k tgt Pose.one Pose.one pss tr → GuidedChain leaf maxD gate k (ps :: pss) (Pose.one :: tr)

end Verif.Spec

namespace Verif.Props

open Matrix Verif Verif.Knn Verif.KdTree Verif.Proofs Verif.Proofs.RegMem Verif.Factors Verif.Reduction Verif.Optimizer Verif.PointCloud Verif.RegMem Verif.Spec Verif.Lie
open Verif.Pipeline Verif.Features Verif.Downsample Verif.Helper Verif.OdometryPipeline Verif.Odometry Verif.Python

/-- What is assumed of a scan with the points `pts`: three columns, or a fourth column of ones; coordinates in the range of the sampler; executions that are complete. -/
structure ScanOf (e : Env) (leaf : ℝ) (numThreads : Int) (scan : Scan) (pts : List (Pt ℝ)) : Prop where
  shape : PointArray scan.array
  rows : RowsAre scan.array pts
  unit : UnitRows scan.array
  count : scan.array.rows < 2 ^ 32
  key : ∀ p ∈ pts, KeyDefined leaf p
  prep : preprocessArray e scan.prep scan.array leaf 10 ≠ none
  reg : RunsToEnd scan.reg numThreads.toNat

/-- A preprocessed scan. -/
structure PyPrepared (e : Env) (out : List (Pt ℝ)) (c : RCloud) (t : KdTree.Tree ℝ) : Prop where
  feat : LocalFeatures out e.maxD 10 c
  tree : out ≠ [] → TreeOf e.builder out t
  bare : out = [] → t = ⟨[], [], none⟩
  count : out.length < 2 ^ 32
  unit : ∀ p ∈ out, p.w = 1

section Step

variable {e : Env} (he : EnvMeets e) {numThreads : Int}

include he in
theorem scan_prepared {scan : Scan} {pts : List (Pt ℝ)} (h : ScanOf e (1 / 4) numThreads scan pts) :
    ∃ out c t, preprocessArray e scan.prep scan.array (1 / 4) 10 = some (.ok (some (c, t))) ∧ BlockSample (1 / 4) pts out ∧ PyPrepared e out c t ∧ (out = [] ↔ pts = []) := by
  cases hr : preprocessArray e scan.prep scan.array (1 / 4) 10 with
  | none => exact absurd hr h.prep
  | some r =>
    obtain ⟨out, c, t, rfl, h1, h2, h3, h4, h5, h6, h7⟩ := C70_preprocess he h.shape h.rows h.unit h.count (by norm_num) h.key (k := 10) (by norm_num) hr
    exact ⟨out, c, t, rfl, h1, ⟨h2, h3, h4, lt_of_le_of_lt h6 (by rw [h.rows.1]; exact h.count), h7⟩, h5⟩

include he in
/-- Registration of two preprocessed scans. -/
theorem pyAlign_ok (hgate : 1 < e.maxD) {outT outS : List (Pt ℝ)} {ct cs : RCloud} {tt ts : KdTree.Tree ℝ} (hT : PyPrepared e outT ct tt) (hS : PyPrepared e outS cs ts) {y : RegExec}
    (hy : RunsToEnd y numThreads.toNat) (T0 : Pose ℝ) :
    (outT = [] ∧ outS ≠ [] → Python.alignClouds e y ct cs tt T0 "GICP" (alignDefaults numThreads) = .error .uninit) ∧
    (¬ (outT = [] ∧ outS ≠ []) → ∃ res, Python.alignClouds e y ct cs tt T0 "GICP" (alignDefaults numThreads) = .ok res ∧ Descends (NearestWithin (cloudSites ct) 1) (cloudSites cs) T0 res.T) := by
  have hrun : ∃ reg : Registration, reg.numThreads = numThreads ∧ reg.lm = ⟨20, 10, 1 / 1000, 10⟩ ∧ reg.rotationEps = 1 / 10 * Real.pi / 180 ∧ reg.translationEps = 1 / 1000 ∧ reg.maxDistSq = 1 ∧
      Python.alignClouds e y ct cs tt T0 "GICP" (alignDefaults numThreads) =
        runMethod e y (gicpMem e.inv) (cloudWorld ct cs (kdNearest e.maxD outT tt (outT.length + 1) e.junk)) reg T0 cs.size := by
    unfold Python.alignClouds
    rw [(features_points hT.feat).1, ok_bind]
    simp only [pyAlignCloud, parseType, alignCloud, runRegistration, Registration.default, alignDefaults]
    refine ⟨_, ?_, ?_, ?_, ?_, ?_, rfl⟩ <;> first | rfl | norm_num
  obtain ⟨reg, k2, k3, k4, k5, k6, hrun⟩ := hrun
  rw [hrun]
  constructor
  · intro ⟨g1, g2⟩
    exact (clouds_run he (.gicp e.inv) y reg (by rw [k2]; exact hy) hT.count hT.feat hS.feat hT.tree hT.bare T0).1 ⟨g1, g2, by rw [k3]; norm_num⟩
  · intro hn
    obtain ⟨res, c1, c2⟩ := clouds_descent he (MetricFactor.cov (inv := e.inv)) y reg (by rw [k2]; exact hy) (by rw [k6]; exact hgate) (by rw [k3]; norm_num) (by rw [k3]; norm_num) hT.count hT.feat hS.feat
      hT.unit hS.unit hT.tree hT.bare T0 (fun h => hn ⟨h.1, h.2.1⟩)
    rw [k3, k4, k5, k6] at c2
    exact ⟨res, c1, res, c2, rfl⟩

include he in
theorem scans_after (hgate : 1 < e.maxD) {scans : List Scan} {ptss : List (List (Pt ℝ))} (h : List.Forall₂ (ScanOf e (1 / 4) numThreads) scans ptss) :
    ∀ {pts outT : List (Pt ℝ)} {ct : RCloud} {tt : KdTree.Tree ℝ} (T last : Pose ℝ), PyPrepared e outT ct tt → (outT = [] ↔ pts = []) →
    (EmptyBefore (pts :: ptss) → scanToScan e numThreads ⟨last, T, some (some (ct, tt))⟩ scans = .error .uninit) ∧
    (¬ EmptyBefore (pts :: ptss) → ∃ tr, scanToScan e numThreads ⟨last, T, some (some (ct, tt))⟩ scans = .ok tr ∧ GuidedFrom (1 / 4) e.maxD 1 10 (cloudSites ct) T last ptss tr) := by
  induction h with
  | nil =>
    intro pts outT ct tt T last hT hiff
    refine ⟨?_, fun _ => ⟨[], rfl, .nil _ _ _⟩⟩
    rintro ⟨i, ps, _, h2, _⟩
    simp at h2
  | @cons scan ps scans pss hs _ ih =>
    intro pts outT ct tt T last hT hiff
    obtain ⟨out, c, t, h1, h2, h3, h4⟩ := scan_prepared he hs
    obtain ⟨a1, a2⟩ := pyAlign_ok he hgate hT h3 hs.reg last
    have hsplit : EmptyBefore (pts :: ps :: pss) ↔ (outT = [] ∧ out ≠ []) ∨ EmptyBefore (ps :: pss) := by
      constructor
      · rintro ⟨i, qs, e1, e2, e3⟩
        cases i with
        | zero =>
          cases e1
          cases e2
          exact .inl ⟨hiff.2 rfl, fun h => e3 (h4.1 h)⟩
        | succ i => exact .inr ⟨i, qs, e1, e2, e3⟩
      · rintro (⟨g1, g2⟩ | ⟨i, qs, e1, e2, e3⟩)
        · exact ⟨0, ps, by rw [hiff.1 g1]; rfl, rfl, fun h => g2 (h4.2 h)⟩
        · exact ⟨i + 1, qs, e1, e2, e3⟩
    have hstep : scanToScan e numThreads ⟨last, T, some (some (ct, tt))⟩ (scan :: scans) = (do
        let result ← Python.alignClouds e scan.reg ct c tt last "GICP" (alignDefaults numThreads)
        let Ts ← scanToScan e numThreads ⟨result.T, T.mul result.T, some (some (c, t))⟩ scans
        return T.mul result.T :: Ts) := by
      rw [scanToScan]
      unfold ScanToScan.estimate
      rw [h1]
      simp only [Option.getD_some, ok_bind]
      cases Python.alignClouds e scan.reg ct c tt last "GICP" (alignDefaults numThreads) <;> rfl
    rw [hstep, hsplit]
    by_cases hbad : outT = [] ∧ out ≠ []
    · refine ⟨fun _ => ?_, fun h => absurd (.inl hbad) h⟩
      rw [a1 hbad]
      rfl
    · obtain ⟨res, b1, b2⟩ := a2 hbad
      rw [b1, ok_bind]
      obtain ⟨c1, c2⟩ := ih (T.mul res.T) res.T h3 h4
      refine ⟨fun h => ?_, fun h => ?_⟩
      · rw [c1 (h.resolve_left hbad)]
        rfl
      · obtain ⟨tr, d1, d2⟩ := c2 (fun h' => h (.inr h'))
        rw [d1]
        exact ⟨_, rfl, .cons _ _ _ _ _ _ _ _ _ h2 (cloud_sites h3.feat) b2 d2⟩

end Step

section Rest

variable {e : Env} (he : EnvMeets e) {numThreads : Int}

include he in
/-- Registration of two samples of the same points, guided by the identity. -/
theorem pyAlign_self (hgate : 1 < e.maxD) {outT outS : List (Pt ℝ)} {ct cs : RCloud} {tt ts : KdTree.Tree ℝ} (hT : PyPrepared e outT ct tt) (hS : PyPrepared e outS cs ts) (hperm : ct.points.Perm cs.points)
    (hne : outT ≠ []) {y : RegExec} (hy : RunsToEnd y numThreads.toNat) :
    ∃ res, Python.alignClouds e y ct cs tt Pose.one "GICP" (alignDefaults numThreads) = .ok res ∧ res.T = Pose.one := by
  obtain ⟨hTp, hTn, hTc⟩ := features_regular hT.feat
  obtain ⟨hSp, _, hSc⟩ := features_regular hS.feat
  have hTs := (features_points hT.feat).2
  have hSs := (features_points hS.feat).2
  have hrun : ∃ reg : Registration, reg.numThreads = numThreads ∧ reg.lm = ⟨20, 10, 1 / 1000, 10⟩ ∧ reg.rotationEps = 1 / 10 * Real.pi / 180 ∧ reg.translationEps = 1 / 1000 ∧ reg.maxDistSq = 1 ∧
      Python.alignClouds e y ct cs tt Pose.one "GICP" (alignDefaults numThreads) =
        runMethod e y (gicpMem e.inv) (cloudWorld ct cs (kdNearest e.maxD outT tt (outT.length + 1) e.junk)) reg Pose.one cs.size := by
    unfold Python.alignClouds
    rw [(features_points hT.feat).1, ok_bind]
    simp only [pyAlignCloud, parseType, alignCloud, runRegistration, Registration.default, alignDefaults]
    refine ⟨_, ?_, ?_, ?_, ?_, ?_, rfl⟩ <;> first | rfl | norm_num
  obtain ⟨reg, k2, k3, k4, k5, k6, hrun⟩ := hrun
  have hL : ∀ (T : Pose ℝ) (fs : List (GICP ℝ)), fs.length = cs.size → (Exec.omp reg.numThreads.toNat (y.lin T fs).assign (y.lin T fs).sched (y.lin T fs).comb).Complete cs.size :=
    fun T fs hl => hl ▸ k2 ▸ (hy T fs).1
  have hE : ∀ (T : Pose ℝ) (fs : List (GICP ℝ)), fs.length = cs.size → (Exec.omp reg.numThreads.toNat (y.err T fs).assign (y.err T fs).sched (y.err T fs).comb).Complete cs.size :=
    fun T fs hl => hl ▸ k2 ▸ (hy T fs).2
  obtain ⟨res, fs', log, g1, g2, _⟩ := C43_kdtree ct cs e.builder he.nth (builder_find he) builder_leaf hTp (by rw [hTs]; exact List.length_pos_of_ne_nil hne) (by rw [hTs]; exact hT.count) hSp
    (fun i p hp => List.getElem?_of_mem (hperm.mem_iff.2 (List.mem_of_getElem? hp))) (.gicp e.inv he.inv) (fun _ => hTn) (fun _ => ⟨hTc, hSc⟩) outT (features_points hT.feat).1 tt (hT.tree hne) e.maxD
    reg.maxDistSq (by rw [k6]; norm_num) (by rw [k6]; exact hgate) (outT.length + 1) (by rw [hTs]; omega) e.junk nullFactor .null e.solve he.solve reg.rotationEps reg.translationEps
    (by rw [k4]; positivity) (by rw [k5]; norm_num) _ _ hL hE (.lm reg.lm) (by rw [k3]; exact ⟨by norm_num, by norm_num, by norm_num, by norm_num⟩)
  refine ⟨res, ?_, g2⟩
  rw [hrun]
  unfold runMethod
  rw [g1]
  rfl

include he in
/-- C71. While the sensor is at rest — all scans have the same points, whatever the order in which each of them is sampled — all poses are the identity. -/
theorem C71_at_rest (hgate : 1 < e.maxD) {scans : List Scan} {pts : List (Pt ℝ)} (hne : pts ≠ []) (h : ∀ scan ∈ scans, ScanOf e (1 / 4) numThreads scan pts) :
    scanToScan e numThreads .init scans = .ok (scans.map (fun _ => Pose.one)) := by
  have hafter : ∀ (scan0 : Scan) (scans : List Scan) (ct : RCloud) (tt : KdTree.Tree ℝ), ScanOf e (1 / 4) numThreads scan0 pts →
      preprocessArray e scan0.prep scan0.array (1 / 4) 10 = some (.ok (some (ct, tt))) → (∀ scan ∈ scans, ScanOf e (1 / 4) numThreads scan pts) →
      scanToScan e numThreads ⟨Pose.one, Pose.one, some (some (ct, tt))⟩ scans = .ok (scans.map (fun _ => Pose.one)) := by
    intro scan0 scans
    induction scans generalizing scan0 with
    | nil => intro ct tt _ _ _; rfl
    | cons scan scans ih =>
      intro ct tt h0 hpre hall
      have hs := hall scan (by simp)
      obtain ⟨outT, ct', tt', a1, _, a3, a4⟩ := scan_prepared he h0
      rw [hpre] at a1
      simp only [Option.some.injEq, Except.ok.injEq, Prod.mk.injEq] at a1
      obtain ⟨rfl, rfl⟩ := a1
      obtain ⟨out, c, t, b1, _, b3, b4⟩ := scan_prepared he hs
      obtain ⟨c1, t1, c2, t2, q1, q2, hperm⟩ := C70_same_points he h0.shape h0.rows h0.unit h0.count (by norm_num) h0.key (k := 10) (by norm_num) hs.shape hs.rows hs.unit hpre b1
      simp only [Option.some.injEq, Except.ok.injEq, Prod.mk.injEq] at q1 q2
      obtain ⟨rfl, rfl⟩ := q1
      obtain ⟨rfl, rfl⟩ := q2
      obtain ⟨res, d1, d2⟩ := pyAlign_self he hgate a3 b3 hperm (fun h => hne (a4.1 h)) hs.reg
      rw [scanToScan]
      unfold ScanToScan.estimate
      rw [b1]
      simp only [Option.getD_some, ok_bind]
      rw [d1]
      simp only [ok_bind, d2]
      show (do
        let Ts ← scanToScan e numThreads ⟨Pose.one, Pose.one.mul Pose.one, some (some (c, t))⟩ scans
        return (Pose.one.mul Pose.one) :: Ts : Res (List (Pose ℝ))) = _
      have hone : (Pose.one : Pose ℝ).mul Pose.one = Pose.one := by simp [Pose.mul, Pose.one]
      rw [hone, ih scan c t hs b1 (fun s hs => hall s (by simp [hs]))]
      rfl
  cases scans with
  | nil => rfl
  | cons scan scans =>
    have hs := h scan (by simp)
    obtain ⟨out, c, t, b1, _⟩ := scan_prepared he hs
    rw [scanToScan]
    unfold ScanToScan.estimate
    rw [b1]
    show (do
      let Ts ← scanToScan e numThreads ⟨Pose.one, Pose.one, some (some (c, t))⟩ scans
      return Pose.one :: Ts : Res (List (Pose ℝ))) = _
    rw [hafter scan scans c t hs b1 (fun s hs => h s (by simp [hs]))]
    rfl

end Rest

section Trajectory

variable {e : Env} (he : EnvMeets e) {numThreads : Int} (hgate : 1 < e.maxD) {scans : List Scan} {ptss : List (List (Pt ℝ))} (h : List.Forall₂ (ScanOf e (1 / 4) numThreads) scans ptss)

include he hgate h in
/-- **C71.** Scan-to-scan odometry in Python, for any scans, number of threads and complete executions: unless a scan without points comes directly before one with points, it returns one pose per scan, which form a guided chain of
descents with leaf size 0.25, ten neighbours and gate 1. -/
theorem C71_trajectory (hne : ¬ EmptyBefore ptss) : ∃ tr, scanToScan e numThreads .init scans = .ok tr ∧ GuidedChain (1 / 4) e.maxD 1 10 ptss tr := by
  cases h with
  | nil => exact ⟨[], rfl, .nil⟩
  | @cons scan ps scans pss hs hr =>
    obtain ⟨out, c, t, h1, h2, h3, h4⟩ := scan_prepared he hs
    obtain ⟨tr, c1, c2⟩ := (scans_after he hgate hr Pose.one Pose.one h3 h4).2 hne
    refine ⟨Pose.one :: tr, ?_, .cons _ _ _ _ _ h2 (cloud_sites h3.feat) c2⟩
    unfold scanToScan ScanToScan.estimate
    rw [h1]
    show (do
      let Ts ← scanToScan e numThreads ⟨Pose.one, Pose.one, some (some (c, t))⟩ scans
      return Pose.one :: Ts : Res (List (Pose ℝ))) = _
    rw [c1]
    rfl

include he hgate h in
/-- C71. If a scan without points comes directly before one with points, an unset node of the empty kd-tree is read. -/
theorem C71_empty (hne : EmptyBefore ptss) : scanToScan e numThreads .init scans = .error .uninit := by
  cases h with
  | nil =>
    obtain ⟨i, ps, h1, _⟩ := hne
    simp at h1
  | @cons scan ps scans pss hs hr =>
    obtain ⟨out, c, t, h1, h2, h3, h4⟩ := scan_prepared he hs
    have c1 := (scans_after he hgate hr Pose.one Pose.one h3 h4).1 hne
    unfold scanToScan ScanToScan.estimate
    rw [h1]
    show (do
      let Ts ← scanToScan e numThreads ⟨Pose.one, Pose.one, some (some (c, t))⟩ scans
      return Pose.one :: Ts : Res (List (Pose ℝ))) = _
    rw [c1]
    rfl

end Trajectory

/-- C71. A scan that has not three or four columns: `preprocess_points` returns `None`. As the first scan it is stored, and the registration of the next scan dereferences a null pointer; as a later scan it is dereferenced at once. -/
theorem C71_columns {e : Env} {numThreads : Int} {scan : Scan} (h : ¬ PointArray scan.array) :
    scanToScan e numThreads .init [scan] = .ok [Pose.one] ∧
    (∀ scan' rest r, preprocessArray e scan'.prep scan'.array (1 / 4) 10 = some (.ok r) → scanToScan e numThreads .init (scan :: scan' :: rest) = .error .nullDeref) ∧
    ∀ (s : ScanToScan), s.target ≠ none → s.estimate e numThreads scan = .error .nullDeref := by
  have hn : preprocessArray e scan.prep scan.array (1 / 4) 10 = some (.ok none) := by
    unfold preprocessArray
    rw [if_pos (by unfold PointArray at h; omega)]
  refine ⟨?_, fun scan' rest r hr => ?_, fun s hs => ?_⟩
  · unfold scanToScan ScanToScan.estimate
    rw [hn]
    rfl
  · rw [scanToScan]
    unfold ScanToScan.estimate
    rw [hn]
    show (do
      let Ts ← scanToScan e numThreads ⟨Pose.one, Pose.one, some none⟩ (scan' :: rest)
      return Pose.one :: Ts : Res (List (Pose ℝ))) = _
    rw [scanToScan]
    unfold ScanToScan.estimate
    rw [hr]
    rfl
  · unfold ScanToScan.estimate
    rw [hn]
    obtain ⟨a, b, t⟩ := s
    match t, hs with
    | some none, _ => rfl
    | some (some _), _ => rfl

/-! ### examples -/

theorem parabola_quarter : ∀ p ∈ parabola, KeyDefined (1 / 4) p := by
  simp [parabola, KeyDefined, KeyFits, INT_MIN, INT_MAX]
  norm_num

/-- There are complete executions for every array and positive number of threads. -/
theorem scan_exists {e : Env} (he : EnvMeets e) {a : NumpyArray} {pts : List (Pt ℝ)} (ha : PointArray a) (hpts : RowsAre a pts) (hu : UnitRows a) (hN : a.rows < 2 ^ 32) (hkey : ∀ p ∈ pts, KeyDefined (1 / 4) p)
    {numThreads : Int} (hth : 1 ≤ numThreads) : ∃ scan, scan.array = a ∧ ScanOf e (1 / 4) numThreads scan pts := by
  obtain ⟨x, r, hx⟩ := C70_executes he ha hpts hu hN (by norm_num) hkey 10
  have hseq : ∀ n : Nat, ∃ sched, (Exec.omp numThreads.toNat [List.range n] sched [0]).Complete n := by
    intro n
    obtain ⟨sched, h⟩ := parOrder_seq ([List.range n].mapIdx ompThread)
    exact ⟨sched, by omega, by simp; omega, by simp, ⟨_, h⟩, by simp⟩
  choose sched hsched using hseq
  exact ⟨⟨a, x, ⟨fun _ fs => ⟨[List.range fs.length], sched fs.length, [0]⟩, fun _ fs => ⟨[List.range fs.length], sched fs.length, [0]⟩⟩⟩, rfl,
    ⟨ha, hpts, hu, hN, hkey, by rw [hx]; simp, fun _ _ => ⟨hsched _, hsched _⟩⟩⟩

/-- Scans that meet the premises of C71, and the case of a scan without points before one with points. -/
example : ∃ (e : Env) (s1 s2 s3 : Scan), EnvMeets e ∧ 1 < e.maxD ∧ scanToScan e 4 .init [s1, s2] = .ok [Pose.one, Pose.one] ∧ scanToScan e 4 .init [s3, s1] = .error .uninit ∧
    ∃ R, scanToScan e 4 .init [s1, s3] = .ok [Pose.one, R] := by
  obtain ⟨e, he, hm, _⟩ := env_exists 1000 (by norm_num) (0, 0)
  obtain ⟨s1, e1, h1⟩ := scan_exists he (.inl rfl) parabolaArray_rows (fun h => by cases h) (by simp [parabolaArray]) parabola_quarter (numThreads := 4) (by norm_num)
  obtain ⟨s3, e3, h3⟩ := scan_exists he (a := ⟨0, 3, fun _ _ => 0⟩) (pts := []) (.inl rfl) ⟨rfl, by simp⟩ (fun h => by cases h) (by norm_num) (by simp) (numThreads := 4) (by norm_num)
  have hg : 1 < e.maxD := by rw [hm]; norm_num
  refine ⟨e, s1, s1, s3, he, hg, C71_at_rest he hg (pts := parabola) (by simp [parabola]) (fun s hs => by rw [show s = s1 by simpa using hs]; exact h1), C71_empty he hg (.cons h3 (.cons h1 .nil)) ⟨0, parabola, rfl, rfl, by simp [parabola]⟩, ?_⟩
  obtain ⟨tr, t1, t2⟩ := C71_trajectory he hg (.cons h1 (.cons h3 .nil)) (by
    rintro ⟨i, ps, g1, g2, g3⟩
    match i with
    | 0 => simp [parabola] at g1
    | i + 1 => simp at g2)
  cases t2 with
  | cons _ _ _ _ _ _ _ h =>
    cases h with
    | cons _ _ _ _ _ _ _ _ _ _ _ _ h =>
      cases h
      exact ⟨_, t1⟩

end Verif.Props
