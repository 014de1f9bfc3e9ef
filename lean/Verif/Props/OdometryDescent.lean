import Verif.Props.DescentMap
import Verif.Props.OdometryVoxel

/-! C68: odometry trajectories are chains of descents. Frame to frame, on point clouds and on voxel maps. -/

set_option linter.unusedSectionVars false
set_option linter.unusedSimpArgs false
set_option linter.unnecessarySeqFocus false

namespace Verif.Spec

open Matrix Verif Verif.Factors Verif.KdTree Verif.Optimizer

/-- A descent on the GICP cost from the pose `T` ends at `T'`: at most 20 iterations with at most 10 trials each, damping from 1/1000 with factor 10, until a step turns by at
most 0.1 degrees and shifts by at most 1/1000. -/
def Descends (M : (Fin 3 → ℝ) → Option Site → Prop) (src : List Site) (T T' : Pose ℝ) : Prop :=
  ∃ res, LMRun .cov M src 10 10 (1 / 10 * Real.pi / 180) (1 / 1000) 20 0 (1 / 1000) (Result.init T) res ∧ res.T = T'

/-- A trajectory, starting at the identity, in which each motion is where the descent from the identity ends that brings the sampled points of a frame, with their local covariances, to
those of the frame before. `rule` says which partner a point may have, given the target. -/
structure DescentChain (rule : List Site → (Fin 3 → ℝ) → Option Site → Prop) (leaf maxD : ℝ) (k : Nat) (ptss : List (List (Pt ℝ))) (tr : List (Pose ℝ)) : Prop where
  poses : tr.length = ptss.length
  first : ∀ T, tr[0]? = some T → T = Pose.one
  next : ∀ (i : Nat) ps ps' T T', ptss[i]? = some ps → ptss[i + 1]? = some ps' → tr[i]? = some T → tr[i + 1]? = some T' →
    ∃ outT outS tgt src R, SerialSample leaf ps outT ∧ SerialSample leaf ps' outS ∧ LocalSites outT maxD k tgt ∧ LocalSites outS maxD k src ∧
      Descends (rule tgt) src Pose.one R ∧ T' = T.mul R

end Verif.Spec

namespace Verif.Props

open Matrix Verif Verif.Knn Verif.KdTree Verif.Proofs Verif.Proofs.RegMem Verif.Factors Verif.Reduction Verif.Optimizer Verif.PointCloud Verif.RegMem Verif.Spec Verif.Lie
open Verif.Pipeline Verif.Features Verif.Downsample Verif.Helper Verif.OdometryPipeline Verif.Odometry Verif.Voxel Verif.OdometryModel

/-! ### point clouds -/

/-- The GICP factor does not read normals. -/
theorem gicp_no_normals (inv : Matrix (Fin 3) (Fin 3) ℝ → Matrix (Fin 3) (Fin 3) ℝ) (a b a' b' : RCloud) (h1 : a.points = a'.points) (h2 : a.covs = a'.covs) (h3 : b.points = b'.points)
    (h4 : b.covs = b'.covs) (nn : (Fin 4 → ℝ) → Res (Option (Nat × ℝ))) (cfg : Config ℝ) (execL execE : Pose ℝ → List (GICP ℝ) → Exec) (meth : RegMem.Method ℝ) (T0 : Pose ℝ) (n : Nat) :
    RegMem.align (gicpMem inv) (cloudWorld a b nn) cfg execL execE meth T0 n = RegMem.align (gicpMem inv) (cloudWorld a' b' nn) cfg execL execE meth T0 n := by
  have hp : a.point = a'.point := by funext i; simp only [Cloud.point, h1]
  have hc : a.cov = a'.cov := by funext i; simp only [Cloud.cov, h2]
  have hq : b.point = b'.point := by funext i; simp only [Cloud.point, h3]
  have hd : b.cov = b'.cov := by funext i; simp only [Cloud.cov, h4]
  unfold cloudWorld
  rw [hp, hc, hq, hd]
  rfl

section Register

variable {e : Env} (he : EnvMeets e) (o : Params)

include he in
theorem register_descends (hgate : o.maxCorrespondenceDistance * o.maxCorrespondenceDistance < e.maxD) {outT outS : List (Pt ℝ)} {t s : Prepared}
    (ht : PreparedOf e o outT t) (hs : PreparedOf e o outS s) (hTw : ∀ p ∈ outT, p.w = 1) (hSw : ∀ p ∈ outS, p.w = 1) {R : Pose ℝ} (hR : registerFrames e o t s = .ok R) :
    ∃ tgt src, LocalSites outT e.maxD o.numNeighbors.toNat tgt ∧ LocalSites outS e.maxD o.numNeighbors.toNat src ∧
      Descends (NearestWithin tgt (o.maxCorrespondenceDistance * o.maxCorrespondenceDistance)) src Pose.one R := by
  have hn : ¬ (outT = [] ∧ outS ≠ []) := fun h => by
    rw [(register_ok he o ht hs).1 h] at hR
    cases hR
  obtain ⟨t1, t2, t3, t4, t5⟩ := ht
  obtain ⟨s1, s2, s3, s4, s5⟩ := hs
  obtain ⟨_, _, hTpts, hTs⟩ := localCovs_regular t1
  obtain ⟨_, _, hSpts, hSs⟩ := localCovs_regular s1
  obtain ⟨_, ct, c1, c2, c3⟩ := t1
  obtain ⟨_, cs, d1, d2, d3⟩ := s1
  have hsz : s.cloud.size = cs.size := by unfold Cloud.size; rw [d2]
  have hcs : cs.size = outS.length := by rw [← hsz, hSs]
  obtain ⟨out, h1, h2⟩ := clouds_align he (MetricFactor.cov (inv := e.inv)) (ct := ct) (cs := cs) (t := t.tree) s.exec.lin s.exec.err
    (fun T fs hl => by rw [hcs] at hl ⊢; exact (s5.2.2 T fs hl).1) (fun T fs hl => by rw [hcs] at hl ⊢; exact (s5.2.2 T fs hl).2) hgate (1 / 10 * Real.pi / 180) (1 / 1000)
    (st := ⟨20, 10, 1 / 1000, 10⟩) (by norm_num) (by norm_num) t4 c1 d1 hTw hSw t2 t3 Pose.one (fun h => hn ⟨h.1, h.2.1⟩)
  refine ⟨cloudSites ct, cloudSites cs, cloud_sites c1, cloud_sites d1, out.1, h2, ?_⟩
  unfold registerFrames at hR
  rw [hTpts, ok_bind] at hR
  simp only [Registration.default] at hR
  rw [gicp_no_normals e.inv t.cloud s.cloud ct cs c2 c3 d2 d3, hsz, h1] at hR
  exact Except.ok.inj hR

end Register

section Trajectory

variable {e : Env} (he : EnvMeets e) {o : Params} (hleaf : o.downsamplingResolution ≠ 0) (hk : 1 ≤ o.numNeighbors)
variable {frames : List Frame} {ptss : List (List (Pt ℝ))} (hlen : frames.length = ptss.length)
  (hcl : ∀ (i : Nat) f pts, frames[i]? = some f → ptss[i]? = some pts → CloudOf o.downsamplingResolution f.cloud pts ∧
    ∀ out, voxelgridSampling e.sort pts o.downsamplingResolution = .ok out → FrameRuns e f.exec out)

include he hleaf in
/-- Sampled points of points with weight one have weight one. -/
theorem sample_weights {f : Frame} {pts out : List (Pt ℝ)} (hf : CloudOf o.downsamplingResolution f.cloud pts) (h : voxelgridSampling e.sort pts o.downsamplingResolution = .ok out) : ∀ p ∈ out, p.w = 1 := by
  obtain ⟨out', s1, _, _, _, s5⟩ := serial_sample he hf.2.1 hleaf hf.2.2.2
  rw [h] at s1
  cases s1
  exact s5

include he hleaf hk hlen hcl in
theorem chain_descends (hgate : o.maxCorrespondenceDistance * o.maxCorrespondenceDistance < e.maxD) {prepared : List Prepared} {tr : List (Pose ℝ)}
    (h : FrameChain (sampleThenPrep (sampleFrame e o) (prepareFrame e o)) (registerFrames e o) Pose.one none frames prepared tr) :
    DescentChain (fun tgt => NearestWithin tgt (o.maxCorrespondenceDistance * o.maxCorrespondenceDistance)) o.downsamplingResolution e.maxD o.numNeighbors.toNat ptss tr := by
  obtain ⟨l1, l2, hprep, h0, _, hnext⟩ := h
  refine ⟨by omega, h0 rfl, fun i ps ps' T T' hps hps' hT hT' => ?_⟩
  have hget : ∀ (i : Nat) ps, ptss[i]? = some ps → ∃ p out, prepared[i]? = some p ∧ SerialSample o.downsamplingResolution ps out ∧ PreparedOf e o out p ∧ ∀ q ∈ out, q.w = 1 := by
    intro i ps hps
    have hi := (List.getElem?_eq_some_iff.1 hps).1
    have e1 : frames[i]? = some (frames[i]'(by omega)) := List.getElem?_eq_getElem _
    have e2 : prepared[i]? = some (prepared[i]'(by omega)) := List.getElem?_eq_getElem _
    obtain ⟨ps', out, a1, a2, a3, a4, a5⟩ := frame_outs he hleaf hk hlen hcl e1 (hprep i _ _ e1 e2)
    rw [hps] at a1
    cases a1
    exact ⟨_, out, e2, a3, a5, sample_weights he hleaf (hcl i _ _ e1 hps).1 a2⟩
  obtain ⟨t, outT, a1, a2, a3, a4⟩ := hget i ps hps
  obtain ⟨s, outS, b1, b2, b3, b4⟩ := hget (i + 1) ps' hps'
  obtain ⟨R, hR, hmul⟩ := hnext i t s T T' a1 b1 hT hT'
  obtain ⟨tgt, src, c1, c2, c3⟩ := register_descends he o hgate a3 b3 a4 b4 hR
  exact ⟨outT, outS, tgt, src, R, a2, b2, c1, c2, c3, hmul⟩

variable (hgate : o.maxCorrespondenceDistance * o.maxCorrespondenceDistance < e.maxD)

include he hleaf hk hlen hcl hgate in
/-- **C68, online engines** (`small_gicp`, `small_gicp_omp`, `small_gicp_tbb`). Unless a frame without points comes directly before a frame with points, the poses returned are a chain of descents: each motion is
where the Levenberg–Marquardt descent on the GICP cost from the identity ends, a partner being a nearest sampled point of the frame before within the maximum correspondence distance. -/
theorem C68_online (hne : ¬ EmptyBefore ptss) :
    ∃ s ps tr, gicpOnline e o .init (frames.map some) = .ok (s, ps, tr) ∧
      DescentChain (fun tgt => NearestWithin tgt (o.maxCorrespondenceDistance * o.maxCorrespondenceDistance)) o.downsamplingResolution e.maxD o.numNeighbors.toNat ptss tr := by
  obtain ⟨s, ps, tr, h1, _⟩ := (C63_online he hleaf hk hlen hcl hgate).2 hne
  obtain ⟨h2, _⟩ := C62_online (sample := sampleFrame e o) (prep := prepareFrame e o) (reg := registerFrames e o) .init frames
  obtain ⟨_, _, prepared, hch, _⟩ := h2 s ps tr h1
  exact ⟨s, ps, tr, h1, chain_descends he hleaf hk hlen hcl hgate hch⟩

include he hleaf hk hlen hcl hgate in
/-- **C68, flow graph** (`small_gicp_tbb_flow`, first call). For every order of events, a call that finishes returns a chain of descents. -/
theorem C68_flow {es : List Event} {s : Flow ℝ Frame Prepared} (h : gicpFlow e o (Flow.start [] none frames) es = some (.ok s)) (hf : s.Finished (flowPrepare e o) (registerFrames e o)) :
    DescentChain (fun tgt => NearestWithin tgt (o.maxCorrespondenceDistance * o.maxCorrespondenceDistance)) o.downsamplingResolution e.maxD o.numNeighbors.toNat ptss s.traj := by
  obtain ⟨prepared, hch⟩ := (C62_first_call_partial (prep := sampleThenPrep (sampleFrame e o) (prepareFrame e o)) (reg := registerFrames e o) h).1 s rfl hf
  exact chain_descends he hleaf hk hlen hcl hgate hch

end Trajectory

/-! ### voxel maps -/

/-- The cells that are searched around a point of a map with one offset. -/
theorem mapRange_cell {V : Type} {m : VoxelMap ℝ V} {resolution : ℝ} (hinv : m.invLeaf = 1 / resolution) (hoff : m.offsets = [(0, 0, 0)]) : MapRange m = HasCell resolution := by
  funext q
  have hx : xyz (⟨q 0, q 1, q 2, 1⟩ : Pt ℝ) = q := by funext x; fin_cases x <;> rfl
  rw [eq_iff_iff, ← hx, ← hasCell_iff _ _ rfl, hx]
  unfold MapRange QueryInRange
  rw [hinv, hoff]
  refine ⟨fun hq => hq.1, fun hq => ⟨hq, fun o ho => ?_⟩⟩
  rw [List.mem_singleton] at ho
  subst ho
  simp only [CoordFits, shiftCell, add_zero]
  exact ⟨hq.1, hq.2.1, hq.2.2.1⟩

/-- The source points of a preprocessed frame: weight one, covariances without last row and column. -/
theorem localCovs_border {out : List (Pt ℝ)} {maxD : ℝ} {nb : Nat} {c : RCloud} (hc : LocalCovs out maxD nb c) (hw : ∀ p ∈ out, p.w = 1) :
    (∀ (i : Nat) (p : Fin 4 → ℝ), c.points[i]? = some (some p) → p 3 = 1) ∧
    ∀ (i : Nat) (C : Matrix (Fin 4) (Fin 4) ℝ), c.covs[i]? = some (some C) → ∀ a b : Fin 4, a = 3 ∨ b = 3 → C a b = 0 := by
  obtain ⟨_, c', h1, h2, h3⟩ := hc
  obtain ⟨_, _, hC⟩ := features_regular h1
  have hs := (features_points h1).2
  constructor
  · intro i p hp
    rw [h2, h1.1, List.getElem?_map] at hp
    obtain ⟨q, hq, hqe⟩ := Option.map_eq_some_iff.1 hp
    cases hqe
    exact hw q (List.mem_of_getElem? hq)
  · intro i C hCi
    rw [h3] at hCi
    have hi : i < out.length := by
      have := (List.getElem?_eq_some_iff.1 hCi).1
      rw [hC.1] at this
      rw [← hs]
      exact this
    obtain ⟨n, C', _, _, b3, b4, _⟩ := features_at h1 (List.getElem?_eq_getElem hi)
    have : c'.cov i = .ok C := by simp only [Cloud.cov, getSlot, rd, hCi]; rfl
    rw [this] at b3
    cases b3
    exact b4

section Map

variable {V : Type} {e : Env} (he : EnvMeets e)

include he in
/-- A registration to a map that returns a pose is a descent on the points of the map. -/
theorem alignToMap_descends {k : MapKind V} {pts : V → List (Pt ℝ)} (hk : KindOK k pts) (hno : ∀ v j, ∃ f, k.attrs.normal v j = .error f) {resolution : ℝ} {ops : List (MapOp ℝ)}
    {m : VoxelMap ℝ V} (hm : runOps k.contents (VoxelMap.new resolution) ops = .ok m) (hsize : m.flat.length ≤ 2 ^ 32) (hinv : m.invLeaf = 1 / resolution) (hoff : m.offsets = [(0, 0, 0)])
    (hw : ∀ v ∈ m.flat, ∀ p ∈ pts v.2, p.w = 1) (hC : ∀ v ∈ m.flat, ∀ j C, k.attrs.cov v.2 j = .ok C → RegularCov C)
    {out : List (Pt ℝ)} {nb : Nat} {c : RCloud} (hc : LocalCovs out e.maxD nb c) (hSw : ∀ p ∈ out, p.w = 1) {x : FrameExec}
    (hx : ∀ T fs, fs.length = out.length → (x.lin T fs).Complete out.length ∧ (x.err T fs).Complete out.length) {gate : ℝ} (hgate : gate < e.maxD) {T0 T : Pose ℝ}
    (h : alignToMap k e x gate m c T0 = .ok T) (nrm : Nat → Fin 3 → ℝ) : Descends (Where (HasCell resolution) (NearestOffered (MapOffers pts k.attrs m) gate)) (sitesOf c nrm) T0 T := by
  classical
  obtain ⟨hP, hCS, _, hsz⟩ := localCovs_regular hc
  obtain ⟨hS1, hSb⟩ := localCovs_border hc hSw
  have hI := (C11_index_consistent k.contents resolution ops m hm).1
  have hr := hk.readable resolution ops m hm hsize
  obtain ⟨r, fs', log, hrun, hal, _⟩ := map_registration (Ships.gicp (K := ℝ) e.inv) hk.lawful k.attrs m hI hr c hP (fun _ => CovsRegular.set hCS) e.maxD e.junk
    ⟨distanceRejector gate, nullFactor, e.solve, se3Exp, converged (1 / 10 * Real.pi / 180) (1 / 1000)⟩ x.lin x.err
    (fun T fs hl => by rw [hsz] at hl ⊢; exact (hx T fs hl).1) (fun T fs hl => by rw [hsz] at hl ⊢; exact (hx T fs hl).2) (.lm ⟨20, 10, 1 / 1000, 10⟩) T0
  unfold alignToMap at h
  simp only [Registration.default] at h
  rw [hal] at h
  split at h
  · rename_i hall
    have hd := map_descent hk.lawful hno hI hr hw hC hP hCS hS1 hSb he.inv he.solve hgate e.junk (1 / 10 * Real.pi / 180) (1 / 1000) (st := ⟨20, 10, 1 / 1000, 10⟩) (by norm_num) (by norm_num) T0 r fs' log
      hrun hall nrm
    rw [mapRange_cell hinv hoff] at hd
    exact ⟨r, hd, Except.ok.inj h⟩
  · cases h

end Map

section VoxelTrajectory

variable {e : Env} (he : EnvMeets e) {o : Params} (hleaf : o.downsamplingResolution ≠ 0) (hnb : 1 ≤ o.numNeighbors) (hres : o.voxelResolution ≠ 0)

theorem prepared_map {f : Frame} {p : MapFrame} (h : sampleThenPrep (sampleFrame e o) (prepareMapFrame e o) f = .ok p) : newMap gaussianKind o.voxelResolution p.cloud = .ok p.map := by
  unfold sampleThenPrep at h
  obtain ⟨d, _, h⟩ := call_of_ok h
  unfold prepareMapFrame at h
  obtain ⟨q, _, h⟩ := call_of_ok h
  obtain ⟨m, hm, h⟩ := call_of_ok h
  cases h
  exact hm

include he hres in
theorem registerMap_descends (hgate : o.maxCorrespondenceDistance * o.maxCorrespondenceDistance < e.maxD) {outT outS : List (Pt ℝ)} {t s : MapFrame}
    (ht : MapFrameOf e o outT t) (htm : newMap gaussianKind o.voxelResolution t.cloud = .ok t.map) (hs : MapFrameOf e o outS s) (hTw : ∀ p ∈ outT, p.w = 1) (hSw : ∀ p ∈ outS, p.w = 1)
    {R : Pose ℝ} (hR : registerMapFrames e o t s = .ok R) :
    ∃ tgt src, LocalSites outT e.maxD o.numNeighbors.toNat tgt ∧ LocalSites outS e.maxD o.numNeighbors.toNat src ∧
      Descends (Where (HasCell o.voxelResolution) (NearestOffered (CellAverage tgt o.voxelResolution) (o.maxCorrespondenceDistance * o.maxCorrespondenceDistance))) src Pose.one R := by
  obtain ⟨t1, _, hall, ⟨ops, t4⟩, t5, t6, t7, _⟩ := ht
  obtain ⟨s1, s2, _⟩ := hs
  obtain ⟨_, ct, c1, c2, c3⟩ := t1
  obtain ⟨s0, cs, d1, d2, d3⟩ := s1
  -- the insertion
  have hsame : voxelSource t.cloud = voxelSource ct := by
    unfold voxelSource Cloud.size Cloud.point Cloud.cov
    rw [c2, c3]
  obtain ⟨src, hsrc, hpts⟩ := voxelSource_ok c1
  have hins : Voxel.insert gaussianContents (VoxelMap.new o.voxelResolution) src 1 = .ok t.map := by
    unfold newMap at htm
    rw [hsame, hsrc, ok_bind, if_neg (fun h => hres h.1)] at htm
    exact htm
  have hmem : ∀ x ∈ src, x.pt ∈ outT := fun x hx => hpts ▸ List.mem_map_of_mem hx
  have hcalls : insertCalls gaussianContents (VoxelMap.new o.voxelResolution) [(src, (1 : Mat4 ℝ))] = .ok t.map := by
    unfold insertCalls
    rw [hins]
    rfl
  obtain ⟨_, _, hTc⟩ := features_regular c1
  have hreg := gaussian_regular (resolution := o.voxelResolution) (calls := [(src, 1)]) (by norm_num) (by
      intro call hc x hx
      rw [List.mem_singleton] at hc
      subst hc
      rw [mulPt_one]
      exact hall _ (hmem x hx)) hcalls (by
      intro call hc x hx
      rw [List.mem_singleton] at hc
      subst hc
      rw [mulPt_one]
      exact hTw _ (hmem x hx)) (by
      intro call hc x hx
      rw [List.mem_singleton] at hc
      subst hc
      rw [one_mul, transpose_one, mul_one]
      rw [voxelSource_get hsrc] at hx
      obtain ⟨i, hi, rfl⟩ := List.mem_map.1 hx
      have hi := List.mem_range.1 hi
      obtain ⟨A, hA, hA2, hA3⟩ := hTc.2 i hi
      have : ct.cov i = .ok A := by simp only [Cloud.cov, getSlot, rd, hA]; rfl
      simp only [this, okOr]
      exact ⟨hA2, hA3⟩)
  have hd := alignToMap_descends he gaussianKind_ok (fun v j => ⟨_, rfl⟩) t4 t5 t6 t7 (fun v hv p hp => by rw [List.mem_singleton] at hp; rw [hp]; exact (hreg v hv).1)
    (fun v hv j C hC => by cases hC; exact (hreg v hv).2) ⟨s0, cs, d1, d2, d3⟩ hSw s2 hgate hR (fun i => head3 (okOr 0 (cs.normal i)))
  have hS : MapOffers (fun v : GaussianVoxel ℝ => [v.mean]) gaussianAttrs t.map = CellAverage (cloudSites ct) o.voxelResolution := by
    funext q t'
    rw [eq_iff_iff, insertion_offers (fun x hx => hall _ (hmem x hx)) hins q t', average_bare (cloudSites ct), srcSites_bare hsrc]
  have hsites : sitesOf s.cloud (fun i => head3 (okOr 0 (cs.normal i))) = cloudSites cs := by
    unfold sitesOf cloudSites Cloud.size Cloud.point Cloud.cov
    rw [d2, d3]
  have hS' : MapOffers (fun v : GaussianVoxel ℝ => [v.mean]) gaussianKind.attrs t.map = CellAverage (cloudSites ct) o.voxelResolution := hS
  rw [hS', hsites] at hd
  exact ⟨cloudSites ct, cloudSites cs, cloud_sites c1, cloud_sites d1, hd⟩

variable {frames : List Frame} {ptss : List (List (Pt ℝ))}

include he hleaf hnb hres in
/-- **C68, voxel maps** (`small_vgicp_omp`, `small_vgicp_tbb`). The poses are a chain of descents in which the partner of a point is the average of the sampled points of the frame before in its cell,
if within the maximum correspondence distance; all points that are looked up have cells. Otherwise a cell coordinate overflows. -/
theorem C68_vgicp (hlen : frames.length = ptss.length)
    (hcl : ∀ (i : Nat) f ps, frames[i]? = some f → ptss[i]? = some ps → CloudOf o.downsamplingResolution f.cloud ps ∧
      ∀ out, voxelgridSampling e.sort ps o.downsamplingResolution = .ok out → FrameRuns e f.exec out)
    (hgate : o.maxCorrespondenceDistance * o.maxCorrespondenceDistance < e.maxD) :
    (∃ s tr, vgicpOnline e o .init (frames.map some) = .ok (s, List.replicate frames.length none, tr) ∧
      DescentChain (fun tgt => Where (HasCell o.voxelResolution) (NearestOffered (CellAverage tgt o.voxelResolution) (o.maxCorrespondenceDistance * o.maxCorrespondenceDistance)))
        o.downsamplingResolution e.maxD o.numNeighbors.toNat ptss tr) ∨
    (vgicpOnline e o .init (frames.map some) = .error .intOverflow ∧ LeavesCells o.downsamplingResolution o.voxelResolution ptss) := by
  rcases C66_vgicp_odometry he hleaf hnb hres hlen hcl with ⟨s, tr, h1, _⟩ | h
  swap
  · exact Or.inr h
  left
  refine ⟨s, tr, h1, ?_⟩
  obtain ⟨g1, _⟩ := C62_online (sample := sampleFrame e o) (prep := prepareMapFrame e o) (reg := registerMapFrames e o) .init frames
  obtain ⟨_, _, prepared, ⟨l1, l2, hprep, h0, _, hnext⟩, _⟩ := g1 s _ tr h1
  refine ⟨by omega, h0 rfl, fun i ps ps' T T' hps hps' hT hT' => ?_⟩
  have hget : ∀ (i : Nat) ps, ptss[i]? = some ps → ∃ p out, prepared[i]? = some p ∧ SerialSample o.downsamplingResolution ps out ∧ MapFrameOf e o out p ∧
      newMap gaussianKind o.voxelResolution p.cloud = .ok p.map ∧ ∀ q ∈ out, q.w = 1 := by
    intro i ps hps
    have hi := (List.getElem?_eq_some_iff.1 hps).1
    have e1 : frames[i]? = some (frames[i]'(by omega)) := List.getElem?_eq_getElem _
    have e2 : prepared[i]? = some (prepared[i]'(by omega)) := List.getElem?_eq_getElem _
    obtain ⟨k1, k2⟩ := hcl i _ ps e1 hps
    have hpr := hprep i _ _ e1 e2
    obtain ⟨out, a1, a2, a3⟩ := prepareMap_ok he hleaf hnb hres k1 k2
    rcases a3 with ⟨p, hp, g⟩ | ⟨hp, _⟩
    · rw [hp] at hpr
      cases hpr
      exact ⟨_, out, e2, a2, g, prepared_map hp, sample_weights he hleaf k1 a1⟩
    · rw [hp] at hpr
      cases hpr
  obtain ⟨t, outT, a1, a2, a3, a4, a5⟩ := hget i ps hps
  obtain ⟨s', outS, b1, b2, b3, _, b5⟩ := hget (i + 1) ps' hps'
  obtain ⟨R, hR, hmul⟩ := hnext i t s' T T' a1 b1 hT hT'
  obtain ⟨tgt, src, c1, c2, c3⟩ := registerMap_descends he hres hgate a3 a4 b3 a5 b5 hR
  exact ⟨outT, outS, tgt, src, R, a2, b2, c1, c2, c3, hmul⟩

end VoxelTrajectory

end Verif.Props
