import Verif.Model.OdometryPcl
import Verif.Props.OdometryDescent
import Verif.Props.PclRegistration

/-! C69: the odometry engine on the PCL interface. -/

set_option linter.unusedSectionVars false
set_option linter.unusedSimpArgs false
set_option linter.unnecessarySeqFocus false

namespace Verif.Spec

open Matrix Verif Verif.Factors Verif.KdTree Verif.Optimizer

/-- The pairs (target, source) registered for the frames that come after the first two. `cur` is the last frame registered and `other` the one it was registered to. A frame with
points is registered to `cur`. For a frame without points the motion from `other` to `cur` is computed once more, the other way round, and `other` is the current frame again. -/
def framePairs (cur other : List (Pt ℝ)) : List (List (Pt ℝ)) → List (List (Pt ℝ) × List (Pt ℝ))
  | [] => []
  | [] :: fs => (cur, other) :: framePairs other cur fs
  | (p :: f) :: fs => (cur, p :: f) :: framePairs (p :: f) cur fs

/-- Without empty frames each frame is registered to the one before it. -/
theorem framePairs_consecutive (cur other : List (Pt ℝ)) (fs : List (List (Pt ℝ))) (h : [] ∉ fs) : framePairs cur other fs = List.zip (cur :: fs) fs := by
  induction fs generalizing cur other with
  | nil => rfl
  | cons f fs ih =>
    cases f with
    | nil => simp at h
    | cons p f =>
      rw [framePairs, ih _ _ (fun h' => h (List.mem_cons_of_mem _ h'))]
      rfl

/-- A trajectory starting at the identity whose motions are the results of descents from the identity, rounded by `rnd`: one for each pair (target, source), on the GICP cost with covariances from `k` neighbours,
with at most `iterations` iterations, until a step turns by at most 2/1000 and shifts by at most 5/10000. -/
structure RoundedChain (rnd : ℝ → ℝ) (gate maxD : ℝ) (k iterations : Nat) (pairs : List (List (Pt ℝ) × List (Pt ℝ))) (T0 : Pose ℝ) (tr : List (Pose ℝ)) : Prop where
  poses : tr.length = pairs.length
  next : ∀ (i : Nat) t s T T', pairs[i]? = some (t, s) → (T0 :: tr)[i]? = some T → tr[i]? = some T' →
    ∃ tgt src res, LocalSites t maxD k tgt ∧ LocalSites s maxD k src ∧
      LMRun .cov (NearestWithin tgt gate) src 10 10 (2 / 1000) (5 / 10000) iterations 0 (1 / 1000) (Result.init Pose.one) res ∧
      T' = T.mul ⟨fun a b => rnd (res.T.R a b), fun a => rnd (res.T.t a)⟩

/-- The functions run to their ends on the points `out`. -/
def PclRuns (e : Pipeline.Env) (x : OdometryPcl.PclExec) (out : List (Pt ℝ)) : Prop :=
  OdometryPipeline.frameTree e (x.tree out) out ≠ none ∧
  (∀ chunks sched, x.loop out = .parallel chunks sched → chunks.flatten.Perm (List.range out.length) ∧
    parOrder sched (chunks.map (fun c => c.flatMap Features.covarianceSetter.acts)) ≠ none) ∧
  ∀ T fs, fs.length = out.length → (x.lin out T fs).Complete out.length ∧ (x.err out T fs).Complete out.length

/-- Rounding all coordinates. -/
def roundedPoints (rnd : ℝ → ℝ) (pts : List (Pt ℝ)) : List (Pt ℝ) := pts.map fun p => ⟨rnd p.x, rnd p.y, rnd p.z, rnd p.w⟩

end Verif.Spec

namespace Verif.Props

open Matrix Verif Verif.Knn Verif.KdTree Verif.Proofs Verif.Proofs.RegMem Verif.Factors Verif.Reduction Verif.Optimizer Verif.PointCloud Verif.RegMem Verif.Spec Verif.Lie
open Verif.Pipeline Verif.Features Verif.Downsample Verif.Helper Verif.OdometryPipeline Verif.Odometry Verif.OdometryPcl

section Pcl

variable {e : Env} (he : EnvMeets e) {x : PclExec} {rnd : ℝ → ℝ} {k : Int} {corr : ℝ} {iters : Int}

/-- What the engine may be given: at least one point. -/
structure PclFrame (e : Env) (x : PclExec) (f : List (Pt ℝ)) : Prop where
  nonempty : f ≠ []
  small : f.length < 2 ^ 32
  weight : ∀ p ∈ f, p.w = 1
  runs : PclRuns e x f

/-- The tree of a cloud. -/
noncomputable def pclTree (e : Env) (x : PclExec) (f : List (Pt ℝ)) : KdTree.Tree ℝ := (pclEnv e x []).mkTree f

/-- The covariances of a cloud. -/
noncomputable def pclCovs (e : Env) (x : PclExec) (k : Int) (f : List (Pt ℝ)) : List CovSlot := (pclEnv e x []).estimate f (pclTree e x f) k

include he in
theorem pcl_features (hk : 1 ≤ k) {f : List (Pt ℝ)} (hf : PclFrame e x f) :
    TreeOf e.builder f (pclTree e x f) ∧ (pclCovs e x k f).length = f.length ∧ ∃ c, LocalFeatures f e.maxD k.toNat c ∧ c.covs = pclCovs e x k f := by
  obtain ⟨t, h1, h2, _⟩ := frameTree_ok he hf.small hf.runs.1
  have ht : pclTree e x f = t := by
    unfold pclTree pclEnv
    simp only [h1]
  obtain ⟨c, h3, _, c', h4, h5, h6⟩ := covariances_ok he (x := x.loop f) hf.small (t := t) h2 hk hf.runs.2.1
  have hc : pclCovs e x k f = c.covs := by
    unfold pclCovs pclEnv
    simp only [ht, h3]
  rw [ht, hc]
  exact ⟨h2 hf.nonempty, by rw [h6]; exact h4.2.2.1, c', h4, h6.symm⟩

include he in
/-- The registration of two clouds with their own covariances. -/
theorem pcl_align (hk : 1 ≤ k) (hgate : corr * corr < e.maxD) {t s : List (Pt ℝ)} (ht : PclFrame e x t) (hs : PclFrame e x s) (re te : ℝ) (threads : Int) (verbose : Bool) :
    ∃ tgt src res, LocalSites t e.maxD k.toNat tgt ∧ LocalSites s e.maxD k.toNat src ∧
      LMRun .cov (NearestWithin tgt (corr * corr)) src 10 10 re te iters.toNat 0 (1 / 1000) (Result.init Pose.one) res ∧
      pclAlign e x ⟨re, te, threads, corr * corr, verbose, iters, .cloud t (pclCovs e x k t) (pclTree e x t), s, pclCovs e x k s, Pose.one⟩ = .ok res.T := by
  obtain ⟨t1, _, ct, t2, t3⟩ := pcl_features he hk ht
  obtain ⟨_, _, cs, s2, s3⟩ := pcl_features he hk hs
  have hsz : cs.size = s.length := (features_points s2).2
  have hsz' : (proxyCloud s (pclCovs e x k s)).size = cs.size := by
    rw [hsz]
    simp [proxyCloud, Cloud.size]
  obtain ⟨out, h1, h2⟩ := clouds_align he (MetricFactor.cov (inv := e.inv)) (ct := ct) (cs := cs) (t := pclTree e x t) (x.lin s) (x.err s)
    (fun T fs hl => by rw [hsz] at hl ⊢; exact (hs.runs.2.2 T fs hl).1) (fun T fs hl => by rw [hsz] at hl ⊢; exact (hs.runs.2.2 T fs hl).2) hgate re te
    (st := ⟨iters, 10, 1 / 1000, 10⟩) (by norm_num) (by norm_num) ht.small t2 s2 ht.weight hs.weight (fun _ => t1) (fun h => absurd h ht.nonempty) Pose.one (fun h => ht.nonempty h.1)
  refine ⟨cloudSites ct, cloudSites cs, out.1, cloud_sites t2, cloud_sites s2, h2, ?_⟩
  unfold pclAlign
  simp only [Registration.default]
  rw [gicp_no_normals e.inv (proxyCloud t (pclCovs e x k t)) (proxyCloud s (pclCovs e x k s)) ct cs (by rw [t2.1]; rfl) t3.symm (by rw [s2.1]; rfl) s3.symm, hsz', h1]
  rfl

/-- The state between frames: the target is the current cloud, with its tree, and the source the other one. -/
structure PclHolds (e : Env) (x : PclExec) (p : Pcl.Params ℝ) (s : PclOdometry) (cur : List (Pt ℝ)) (other : Option (List (Pt ℝ))) : Prop where
  params : s.gicp.params = p
  target : ∃ i, s.gicp.target = some i ∧ s.clouds[i]? = some cur
  tree : s.gicp.targetTree = some (pclTree e x cur)
  covs : s.gicp.targetCovs = [] ∨ s.gicp.targetCovs = pclCovs e x p.kCorrespondences cur
  input : match other with
    | none => s.gicp.input = none
    | some f => ∃ j, s.gicp.input = some j ∧ s.clouds[j]? = some f

/-- The parameters the engine works with. -/
structure PclSettings (p : Pcl.Params ℝ) (k : Int) (corr : ℝ) (iters : Int) : Prop where
  k : p.kCorrespondences = k
  corr : p.corrDist = corr
  iters : p.maxIterations = iters
  rotation : p.rotationEps = 2 / 1000
  translation : p.translationEps = 5 / 10000
  type : p.type = "GICP"

theorem heap_get (e : Env) (x : PclExec) {clouds : List (List (Pt ℝ))} {i : Nat} {f : List (Pt ℝ)} (h : clouds[i]? = some f) : (pclEnv e x clouds).heap i = f := by
  simp [pclEnv, List.getD_eq_getElem?_getD, h]

theorem accepts_get (e : Env) (x : PclExec) {clouds : List (List (Pt ℝ))} {i : Nat} {f : List (Pt ℝ)} (h : clouds[i]? = some f) : (pclEnv e x clouds).accepts i = !f.isEmpty := by
  simp [pclEnv, List.getD_eq_getElem?_getD, h]

include he in
/-- An alignment of a source without covariances. -/
theorem pcl_step_align (hk : 1 ≤ k) {p : Pcl.Params ℝ} (hp : PclSettings p k corr iters) (clouds : List (List (Pt ℝ))) {a i : Nat} {cur src : List (Pt ℝ)} (ha : clouds[a]? = some src) (hi : clouds[i]? = some cur)
    (hs : PclFrame e x src) (hc : PclFrame e x cur) {g : Pcl.State (KdTree.Tree ℝ) CovSlot Unit ℝ} (g1 : g.params = p) (g2 : g.input = some a) (g3 : g.target = some i) (g4 : g.sourceTree = some (pclTree e x src))
    (g5 : g.targetTree = some (pclTree e x cur)) (g6 : g.sourceCovs = []) (g7 : g.targetCovs = [] ∨ g.targetCovs = pclCovs e x k cur) :
    Pcl.step (pclEnv e x clouds) g (.align false (Pose.one : Pose ℝ)) = .ok ({ g with sourceCovs := pclCovs e x k src, targetCovs := pclCovs e x k cur },
      some ⟨2 / 1000, 5 / 10000, p.numThreads, corr * corr, p.verbose, iters, .cloud cur (pclCovs e x k cur) (pclTree e x cur), src, pclCovs e x k src, Pose.one⟩) := by
  have hsl : ¬ (0 = src.length) := fun h => hs.nonempty (List.length_eq_zero_iff.1 h.symm)
  have hcl : ¬ (0 = cur.length) := fun h => hc.nonempty (List.length_eq_zero_iff.1 h.symm)
  have hlen := (pcl_features he hk hc).2.1
  have e1 : ∀ f, (pclEnv e x clouds).estimate f (pclTree e x f) k = pclCovs e x k f := fun f => rfl
  have hE1 : Pcl.ensureSourceCovs (pclEnv e x clouds) a g = .ok { g with sourceCovs := pclCovs e x k src } := by
    unfold Pcl.ensureSourceCovs
    rw [heap_get e x ha, g6, if_pos (by simpa using hsl), g4, g1, hp.k]
    rfl
  have hE2 : Pcl.ensureTargetCovs (pclEnv e x clouds) i { g with sourceCovs := pclCovs e x k src } = .ok { g with sourceCovs := pclCovs e x k src, targetCovs := pclCovs e x k cur } := by
    unfold Pcl.ensureTargetCovs
    rw [heap_get e x hi]
    rcases g7 with h | h
    · simp only [h, g5, g1, hp.k]
      rw [if_pos (by simpa using hcl)]
      rfl
    · simp only [h]
      rw [if_neg (by simpa using hlen), ← h]
  have hcomp : Pcl.computeTransformation (pclEnv e x clouds) false (Pose.one : Pose ℝ) g = Pcl.register (pclEnv e x clouds) a i Pose.one { g with sourceCovs := pclCovs e x k src, targetCovs := pclCovs e x k cur } := by
    unfold Pcl.computeTransformation
    rw [g2, g3, Pcl.deref, Pcl.deref, ok_bind, ok_bind, if_neg Bool.false_ne_true, hE1, ok_bind, hE2, ok_bind, g2, g3]
  have hreg : Pcl.register (pclEnv e x clouds) a i (Pose.one : Pose ℝ) { g with sourceCovs := pclCovs e x k src, targetCovs := pclCovs e x k cur } = .ok ({ g with sourceCovs := pclCovs e x k src, targetCovs := pclCovs e x k cur },
      some ⟨2 / 1000, 5 / 10000, p.numThreads, corr * corr, p.verbose, iters, .cloud cur (pclCovs e x k cur) (pclTree e x cur), src, pclCovs e x k src, Pose.one⟩) := by
    unfold Pcl.register
    simp only [g1, hp.type, if_true, g5, Pcl.deref, ok_bind, heap_get e x ha, heap_get e x hi, hp.rotation, hp.translation, hp.corr, hp.iters]
  rw [hreg] at hcomp
  simp only [Pcl.step]
  rw [if_neg (by rw [g2, g3]; simp), hcomp]

include he in
/-- One frame after the first. -/
theorem pcl_frame (hk : 1 ≤ k) (hgate : corr * corr < e.maxD) {p : Pcl.Params ℝ} (hp : PclSettings p k corr iters) {s : PclOdometry} {cur : List (Pt ℝ)} {other : Option (List (Pt ℝ))} (h : PclHolds e x p s cur other)
    (hcur : PclFrame e x cur) (hother : ∀ f, other = some f → PclFrame e x f) {c : RCloud} {out : List (Pt ℝ)} (hc : cloudPoints c = .ok out)
    (hf : roundedPoints rnd out ≠ [] → PclFrame e x (roundedPoints rnd out)) :
    (roundedPoints rnd out = [] → other = none → pclEstimate e x rnd s c = .error .nullDeref) ∧
    ∀ src, (if roundedPoints rnd out = [] then other else some (roundedPoints rnd out)) = some src →
      ∃ s' T', pclEstimate e x rnd s c = .ok (s', T') ∧ s'.T = T' ∧ PclHolds e x p s' src (some cur) ∧ PclFrame e x src ∧
        ∃ tg sr res, LocalSites cur e.maxD k.toNat tg ∧ LocalSites src e.maxD k.toNat sr ∧
          LMRun .cov (NearestWithin tg (corr * corr)) sr 10 10 (2 / 1000) (5 / 10000) iters.toNat 0 (1 / 1000) (Result.init Pose.one) res ∧
          T' = s.T.mul ⟨fun a b => rnd (res.T.R a b), fun a => rnd (res.T.t a)⟩ := by
  obtain ⟨h1, ⟨i, h2, h3⟩, h4, h5, h6⟩ := h
  have hnew : (s.clouds ++ [roundedPoints rnd out])[s.clouds.length]? = some (roundedPoints rnd out) := by simp
  have hkeep : ∀ {j : Nat} {f : List (Pt ℝ)}, s.clouds[j]? = some f → (s.clouds ++ [roundedPoints rnd out])[j]? = some f := by
    intro j f hj
    rw [List.getElem?_append_left (List.getElem?_eq_some_iff.1 hj).1]
    exact hj
  have hdiff : s.gicp.input ≠ some s.clouds.length := by
    cases other with
    | none => rw [h6]; simp
    | some f =>
      obtain ⟨j, h7, h8⟩ := h6
      have := (List.getElem?_eq_some_iff.1 h8).1
      rw [h7]
      intro h
      cases h
      omega
  have hunf : pclEstimate e x rnd s c = (do
      let g ← Pcl.setInputSource (pclEnv e x (s.clouds ++ [roundedPoints rnd out])) (some s.clouds.length) s.gicp
      let (g, call) ← Pcl.step (pclEnv e x (s.clouds ++ [roundedPoints rnd out])) g (.align false Pose.one)
      let R ← match call with
        | none => .ok Pose.one
        | some call => pclAlign e x call
      let T := s.T.mul (roundPose rnd R)
      return (⟨s.clouds ++ [roundedPoints rnd out], Pcl.swapSourceAndTarget g, T⟩, T)) := by
    unfold pclEstimate
    rw [hc, ok_bind, h2]
    rfl
  -- the general part
  have hgen : ∀ (a : Nat) (src : List (Pt ℝ)), (s.clouds ++ [roundedPoints rnd out])[a]? = some src → PclFrame e x src →
      Pcl.setInputSource (pclEnv e x (s.clouds ++ [roundedPoints rnd out])) (some s.clouds.length) s.gicp = .ok { s.gicp with input := some a, sourceTree := some (pclTree e x src), sourceCovs := [], sourceMap := none } →
      ∃ s' T', pclEstimate e x rnd s c = .ok (s', T') ∧ s'.T = T' ∧ PclHolds e x p s' src (some cur) ∧ PclFrame e x src ∧
        ∃ tg sr res, LocalSites cur e.maxD k.toNat tg ∧ LocalSites src e.maxD k.toNat sr ∧
          LMRun .cov (NearestWithin tg (corr * corr)) sr 10 10 (2 / 1000) (5 / 10000) iters.toNat 0 (1 / 1000) (Result.init Pose.one) res ∧
          T' = s.T.mul ⟨fun a b => rnd (res.T.R a b), fun a => rnd (res.T.t a)⟩ := by
    intro a src ha hsrc hset
    obtain ⟨tg, sr, res, r1, r2, r3, r4⟩ := pcl_align (iters := iters) he hk hgate hcur hsrc (2 / 1000) (5 / 10000) p.numThreads p.verbose
    have hst := pcl_step_align he hk hp (s.clouds ++ [roundedPoints rnd out]) ha (hkeep h3) hsrc hcur
      (g := { s.gicp with input := some a, sourceTree := some (pclTree e x src), sourceCovs := [], sourceMap := none }) h1 rfl h2 rfl h4 rfl (by rw [← hp.k]; exact h5)
    refine ⟨⟨s.clouds ++ [roundedPoints rnd out], Pcl.swapSourceAndTarget { s.gicp with input := some a, sourceTree := some (pclTree e x src), sourceCovs := pclCovs e x k src, sourceMap := none, targetCovs := pclCovs e x k cur },
        s.T.mul (roundPose rnd res.T)⟩, _, ?_, rfl, ?_, hsrc, tg, sr, res, r1, r2, r3, rfl⟩
    · rw [hunf, hset, ok_bind, hst, ok_bind]
      simp only [r4]
      rfl
    · exact ⟨h1, ⟨a, rfl, ha⟩, rfl, .inr (by rw [hp.k]; rfl), i, h2, hkeep h3⟩
  by_cases hempty : roundedPoints rnd out = []
  · have hacc : (pclEnv e x (s.clouds ++ [roundedPoints rnd out])).accepts s.clouds.length = false := by rw [accepts_get e x hnew, hempty]; rfl
    refine ⟨fun _ ho => ?_, fun src hsrc => ?_⟩
    · subst ho
      rw [hunf, Pcl.setInputSource, if_neg hdiff]
      simp only [Pcl.baseSetInput, hacc, ok_bind, Bool.false_eq_true, if_false, h6, Pcl.buildTree]
      rfl
    · rw [if_pos hempty] at hsrc
      subst hsrc
      obtain ⟨j, h7, h8⟩ := h6
      refine hgen j src (hkeep h8) (hother src rfl) ?_
      rw [Pcl.setInputSource, if_neg hdiff]
      simp only [Pcl.baseSetInput, hacc, ok_bind, Bool.false_eq_true, if_false, h7, Pcl.buildTree]
      rw [heap_get e x (hkeep h8)]
      rfl
  · refine ⟨fun h => absurd h hempty, fun src hsrc => ?_⟩
    rw [if_neg hempty] at hsrc
    cases hsrc
    have hacc : (pclEnv e x (s.clouds ++ [roundedPoints rnd out])).accepts s.clouds.length = true := by
      rw [accepts_get e x hnew]
      simpa using hempty
    refine hgen s.clouds.length _ hnew (hf hempty) ?_
    rw [Pcl.setInputSource, if_neg hdiff]
    simp only [Pcl.baseSetInput, hacc, ok_bind, if_true, Pcl.buildTree]
    rw [heap_get e x hnew]
    rfl

/-- A frame as the engine receives it: a cloud with its points; the functions run to their ends on the sampled points. -/
def PclInput (e : Env) (x : PclExec) (rnd : ℝ → ℝ) (leaf : ℝ) (c : RCloud) (pts : List (Pt ℝ)) : Prop :=
  CloudOf leaf c pts ∧ ∀ out, voxelgridSampling e.sort pts leaf = .ok out → out ≠ [] → PclRuns e x (roundedPoints rnd out)

include he in
theorem pcl_sample {o : Params} (hleaf : o.downsamplingResolution ≠ 0) (hone : rnd 1 = 1) {c : RCloud} {pts : List (Pt ℝ)} (h : PclInput e x rnd o.downsamplingResolution c pts) :
    ∃ out, sampleCloud e o c = .ok (sampledCloud out) ∧ cloudPoints (sampledCloud out) = .ok out ∧ SerialSample o.downsamplingResolution pts out ∧ (pts = [] ↔ roundedPoints rnd out = []) ∧
      (roundedPoints rnd out ≠ [] → PclFrame e x (roundedPoints rnd out)) := by
  obtain ⟨⟨c1, c2, c3, c4⟩, hrun⟩ := h
  obtain ⟨out, s1, s2, s3, s4, s5⟩ := serial_sample he c2 hleaf c4
  have hpts : cloudPoints c = .ok pts := cloudPoints_of c pts c1
  have hnil : roundedPoints rnd out = [] ↔ out = [] := by simp [roundedPoints]
  refine ⟨out, ?_, cloudPoints_of _ _ rfl, s2, ?_, fun hne => ?_⟩
  · unfold sampleCloud
    rw [hpts, ok_bind, s1, ok_bind]
    rfl
  · rw [hnil]
    refine ⟨s2.1, fun h => ?_⟩
    by_contra h'
    exact s4 h' h
  · refine ⟨hne, by simp only [roundedPoints, List.length_map]; omega, ?_, hrun out s1 (fun h => hne (hnil.2 h))⟩
    intro p hp
    obtain ⟨q, hq, rfl⟩ := List.mem_map.1 hp
    simp only [s5 q hq, hone]

variable {o : Params} (hleaf : o.downsamplingResolution ≠ 0) (hone : rnd 1 = 1)

include he hleaf hone in
/-- The frames after the second. -/
theorem pcl_walk (hk : 1 ≤ k) (hgate : corr * corr < e.maxD) {p : Pcl.Params ℝ} (hp : PclSettings p k corr iters) {cs : List RCloud} {ptss : List (List (Pt ℝ))}
    (h : List.Forall₂ (PclInput e x rnd o.downsamplingResolution) cs ptss) :
    ∀ {s : PclOdometry} {cur other : List (Pt ℝ)}, PclHolds e x p s cur (some other) → PclFrame e x cur → PclFrame e x other →
      ∃ s' tr outs, walk (sampleCloud e o) (pclEstimate e x rnd) s (cs.map some) = .ok (s', tr) ∧ List.Forall₂ (SerialSample o.downsamplingResolution) ptss outs ∧
        RoundedChain rnd (corr * corr) e.maxD k.toNat iters.toNat (framePairs cur other (outs.map (roundedPoints rnd))) s.T tr := by
  induction h with
  | nil =>
    intro s cur other _ _ _
    exact ⟨s, [], [], rfl, .nil, rfl, fun i t s T T' hi => by cases hi⟩
  | @cons c pts cs ptss hc _ ih =>
    intro s cur other hs hcur hother
    obtain ⟨out, o1, o2, o3, o4, o5⟩ := pcl_sample he hleaf hone hc
    obtain ⟨_, hframe⟩ := pcl_frame he hk hgate hp hs hcur (fun f hf => by cases hf; exact hother) o2 o5
    obtain ⟨src, hsrc, hpairs⟩ : ∃ src, (if roundedPoints rnd out = [] then some other else some (roundedPoints rnd out)) = some src ∧
        ∀ fs, framePairs cur other (roundedPoints rnd out :: fs) = (cur, src) :: framePairs src cur fs := by
      cases hr : roundedPoints rnd out with
      | nil => exact ⟨other, by simp, fun fs => rfl⟩
      | cons a l => exact ⟨a :: l, by simp, fun fs => rfl⟩
    obtain ⟨s1, T1, w1, w2, w3, w4, w5⟩ := hframe src hsrc
    obtain ⟨s2, tr, outs, v1, v2, v3, v4⟩ := ih w3 w4 hcur
    refine ⟨s2, T1 :: tr, out :: outs, ?_, .cons o3 v2, ?_, ?_⟩
    · simp only [List.map_cons, walk]
      rw [o1, ok_bind, w1, ok_bind, v1, ok_bind]
    · rw [List.map_cons, hpairs, List.length_cons, List.length_cons, v3]
    · intro i t' s' T T' hi hT hT'
      rw [List.map_cons, hpairs] at hi
      cases i with
      | zero =>
        cases hi
        cases hT
        cases hT'
        exact w5
      | succ i =>
        refine v4 i t' s' T T' hi ?_ hT'
        rw [w2]
        exact hT

/-- The settings of the engine. -/
theorem pcl_settings (o : Params) (threads n0 : Int) : PclSettings (PclOdometry.init o threads n0).gicp.params (max o.numNeighbors 5) o.maxCorrespondenceDistance n0 := by
  refine ⟨?_, rfl, rfl, rfl, rfl, rfl⟩
  simp only [PclOdometry.init, Pcl.setNumThreads, Pcl.setNumNeighborsForCovariance]
  split <;> omega

include he hleaf hone in
/-- The first frame. -/
theorem pcl_first (threads n0 : Int) {c : RCloud} {out : List (Pt ℝ)} (hc : cloudPoints c = .ok out) :
    (roundedPoints rnd out = [] → pclEstimate e x rnd (PclOdometry.init o threads n0) c = .error .nullDeref) ∧
    (roundedPoints rnd out ≠ [] → ∃ s, pclEstimate e x rnd (PclOdometry.init o threads n0) c = .ok (s, Pose.one) ∧ s.T = Pose.one ∧
      PclHolds e x (PclOdometry.init o threads n0).gicp.params s (roundedPoints rnd out) none) := by
  have hunf : pclEstimate e x rnd (PclOdometry.init o threads n0) c = (do
      let g ← Pcl.setInputTarget (pclEnv e x [roundedPoints rnd out]) (some 0) (PclOdometry.init o threads n0).gicp
      return (⟨[roundedPoints rnd out], g, Pose.one⟩, Pose.one)) := by
    unfold pclEstimate
    rw [hc, ok_bind]
    rfl
  have hne : (PclOdometry.init o threads n0).gicp.target ≠ some 0 := by
    show (none : Option Nat) ≠ some 0
    simp
  have hnew : ([roundedPoints rnd out] : List (List (Pt ℝ)))[0]? = some (roundedPoints rnd out) := rfl
  refine ⟨fun h => ?_, fun h => ?_⟩
  · have hacc : (pclEnv e x [roundedPoints rnd out]).accepts 0 = false := by rw [accepts_get e x hnew, h]; rfl
    rw [hunf, Pcl.setInputTarget, if_neg hne]
    simp only [Pcl.baseSetInput, hacc, ok_bind, Bool.false_eq_true, if_false]
    rfl
  · have hacc : (pclEnv e x [roundedPoints rnd out]).accepts 0 = true := by
      rw [accepts_get e x hnew]
      simpa using h
    refine ⟨⟨[roundedPoints rnd out], { (PclOdometry.init o threads n0).gicp with target := some 0, targetTree := some (pclTree e x (roundedPoints rnd out)), targetCovs := [], targetMap := none }, Pose.one⟩,
      ?_, rfl, ?_⟩
    · rw [hunf, Pcl.setInputTarget, if_neg hne]
      simp only [Pcl.baseSetInput, hacc, ok_bind, if_true, Pcl.buildTree]
      rw [heap_get e x hnew]
      rfl
    · exact ⟨rfl, ⟨0, rfl, rfl⟩, rfl, .inl rfl, rfl⟩

variable {cs : List RCloud} {ptss : List (List (Pt ℝ))} (hin : List.Forall₂ (PclInput e x rnd o.downsamplingResolution) cs ptss) (hgate : o.maxCorrespondenceDistance * o.maxCorrespondenceDistance < e.maxD) (threads n0 : Int)

include he hleaf hone hin hgate in
/-- **C69.** If the first two frames have points, the engine returns the identity for the first frame and then one pose per frame: the pose before, moved by the rounded result of the descent that registers the
rounded sampled points of the frame to those of the frame before it (`framePairs`; see there for frames without points later on). Covariances are those of `max numNeighbors 5` neighbours in the frame's own
points, although the object computes each only once and carries it over when source and target are swapped. -/
theorem C69_trajectory {p0 : List (Pt ℝ)} {ps : List (List (Pt ℝ))} (hp : ptss = p0 :: ps) (h0 : p0 ≠ []) (h1 : ps.head? ≠ some []) :
    ∃ s left tr f0 outs, pclOnline e o x rnd (PclOdometry.init o threads n0) (cs.map some) = .ok (s, left, Pose.one :: tr) ∧
      SerialSample o.downsamplingResolution p0 f0 ∧ List.Forall₂ (SerialSample o.downsamplingResolution) ps outs ∧
      RoundedChain rnd (o.maxCorrespondenceDistance * o.maxCorrespondenceDistance) e.maxD (max o.numNeighbors 5).toNat n0.toNat
        (framePairs (roundedPoints rnd f0) [] (outs.map (roundedPoints rnd))) Pose.one tr := by
  subst hp
  have hset := pcl_settings o threads n0
  have hk : 1 ≤ max o.numNeighbors 5 := by omega
  cases hin with
  | @cons c0 _ cs _ hc0 hcs =>
    obtain ⟨f0, a1, a2, a3, a4, a5⟩ := pcl_sample he hleaf hone hc0
    have hf0 : roundedPoints rnd f0 ≠ [] := fun h => h0 (a4.2 h)
    obtain ⟨s0, b1, b2, b3⟩ := (pcl_first (x := x) (rnd := rnd) he hleaf hone threads n0 a2).2 hf0
    unfold pclOnline
    rw [online_walk]
    simp only [List.map_cons, walk, a1, ok_bind, b1]
    cases hcs with
    | nil => exact ⟨_, _, [], f0, [], rfl, a3, .nil, rfl, fun i t s T T' hi => by cases hi⟩
    | @cons c1 p1 cs ps hc1 hcs =>
      obtain ⟨f1, d1, d2, d3, d4, d5⟩ := pcl_sample he hleaf hone hc1
      have hf1 : roundedPoints rnd f1 ≠ [] := fun h => h1 (by rw [d4.2 h]; rfl)
      obtain ⟨_, hframe⟩ := pcl_frame he hk hgate hset b3 (a5 hf0) (fun f hf => by cases hf) d2 d5
      obtain ⟨s1, T1, w1, w2, w3, w4, w5⟩ := hframe _ (if_neg hf1)
      obtain ⟨s2, tr, outs, v1, v2, v3, v4⟩ := pcl_walk he hleaf hone hk hgate hset hcs w3 w4 (a5 hf0)
      have hpairs : ∀ fs, framePairs (roundedPoints rnd f0) [] (roundedPoints rnd f1 :: fs) = (roundedPoints rnd f0, roundedPoints rnd f1) :: framePairs (roundedPoints rnd f1) (roundedPoints rnd f0) fs := by
        intro fs
        cases hr : roundedPoints rnd f1 with
        | nil => exact absurd hr hf1
        | cons a l => rfl
      refine ⟨s2, List.replicate (some c0 :: List.map some (c1 :: cs)).length none, T1 :: tr, f0, f1 :: outs, ?_, a3, .cons d3 v2, ?_, ?_⟩
      · simp only [List.map_cons, walk, d1, ok_bind, w1, v1]
      · rw [List.map_cons, hpairs, List.length_cons, List.length_cons, v3]
      · intro i t' s' T T' hi hT hT'
        rw [List.map_cons, hpairs] at hi
        cases i with
        | zero =>
          cases hi
          cases hT
          cases hT'
          rw [b2] at w5
          exact w5
        | succ i =>
          refine v4 i t' s' T T' hi ?_ hT'
          rw [w2]
          exact hT

include he hleaf hone hin hgate in
/-- **C69, empty frames at the start.** If the first or the second frame has no points a null pointer is dereferenced, whatever follows. -/
theorem C69_null (h : ptss.head? = some [] ∨ ptss[1]? = some []) : pclOnline e o x rnd (PclOdometry.init o threads n0) (cs.map some) = .error .nullDeref := by
  have hset := pcl_settings o threads n0
  have hk : 1 ≤ max o.numNeighbors 5 := by omega
  unfold pclOnline
  rw [online_walk]
  cases hin with
  | nil => rcases h with h | h <;> cases h
  | @cons c0 p0 cs ps hc0 hcs =>
    obtain ⟨f0, a1, a2, a3, a4, a5⟩ := pcl_sample he hleaf hone hc0
    simp only [List.map_cons, walk, a1, ok_bind]
    by_cases hf0 : roundedPoints rnd f0 = []
    · rw [(pcl_first (x := x) (rnd := rnd) he hleaf hone threads n0 a2).1 hf0]
      rfl
    · have h1 : ps[0]? = some [] := by
        rcases h with h | h
        · cases h
          exact absurd (a4.1 rfl) hf0
        · exact h
      obtain ⟨s0, b1, b2, b3⟩ := (pcl_first (x := x) (rnd := rnd) he hleaf hone threads n0 a2).2 hf0
      rw [b1, ok_bind]
      cases hcs with
      | nil => cases h1
      | @cons c1 p1 cs ps hc1 hcs =>
        cases h1
        obtain ⟨f1, d1, d2, d3, d4, d5⟩ := pcl_sample he hleaf hone hc1
        obtain ⟨hframe, _⟩ := pcl_frame he hk hgate hset b3 (a5 hf0) (fun f hf => by cases hf) d2 d5
        simp only [List.map_cons, walk, d1, ok_bind]
        rw [hframe (d4.1 rfl) rfl]
        rfl

end Pcl

/-! ### concrete cases -/

/-- Everything in one thread. -/
noncomputable def pclSerial : PclExec := ⟨fun _ => .sequential, fun _ => .sequential, fun _ _ _ => .serial, fun _ _ _ => .serial⟩

theorem pclSerial_input (e : Env) (rnd : ℝ → ℝ) {leaf : ℝ} {pts : List (Pt ℝ)} (h1 : ∀ p ∈ pts, p.w = 1) (h2 : pts.length < 2 ^ 32) (h3 : ∀ p ∈ pts, KeyDefined leaf p) :
    PclInput e pclSerial rnd leaf (plainFrame pts).cloud pts :=
  ⟨⟨rfl, h1, h2, h3⟩, fun _ _ _ => ⟨by simp [pclSerial, frameTree], fun _ _ h => (by cases h), fun _ _ _ => ⟨trivial, trivial⟩⟩⟩

/-- Three frames with points and one without: there are four poses. -/
example : ∃ e : Env, EnvMeets e ∧ ∃ s left tr, pclOnline e ⟨20, 1, 1, 1⟩ pclSerial (fun a => ⌊a * 8⌋ / 8) (PclOdometry.init ⟨20, 1, 1, 1⟩ 4 10)
    ([parabola, parabola, [], parabola].map (fun p => some (plainFrame p).cloud)) = .ok (s, left, Pose.one :: tr) ∧ tr.length = 3 := by
  obtain ⟨e, he, hm, _⟩ := env_exists 1000 (by norm_num) (0, 0)
  have hok := fun rnd => pclSerial_input e rnd (leaf := 1) parabola_ok.1 (by simp [parabola]) parabola_ok.2.1
  have hok' := fun rnd => pclSerial_input e rnd (leaf := 1) (pts := []) (by simp) (by simp) (by simp)
  obtain ⟨s, left, tr, f0, outs, h1, _, h2, h3, _⟩ := C69_trajectory he (o := ⟨20, 1, 1, 1⟩) one_ne_zero (x := pclSerial) (rnd := fun a => ⌊a * 8⌋ / 8) (by norm_num)
    (.cons (hok _) (.cons (hok _) (.cons (hok' _) (.cons (hok _) .nil)))) (by rw [hm]; norm_num) 4 10 rfl (by simp [parabola]) (by simp [parabola])
  refine ⟨e, he, s, left, tr, h1, ?_⟩
  rw [h3]
  match outs, h2 with
  | [a, b, c], _ =>
    have hlen : ∀ (fs : List (List (Pt ℝ))) u v, (framePairs u v fs).length = fs.length := by
      intro fs
      induction fs with
      | nil => intros; rfl
      | cons f fs ih =>
        intro u v
        cases f with
        | nil => simp [framePairs, ih]
        | cons p f => simp [framePairs, ih]
    rw [hlen]
    rfl

/-- The frame after an empty one is registered to the last but one frame before it. -/
example (a b c : Pt ℝ) : framePairs [b] [a] [[], [c]] = [([b], [a]), ([a], [c])] := rfl

/-- An empty second frame. -/
example : ∃ e : Env, EnvMeets e ∧ pclOnline e ⟨20, 1, 1, 1⟩ pclSerial id (PclOdometry.init ⟨20, 1, 1, 1⟩ 4 10) ([parabola, [], parabola].map (fun p => some (plainFrame p).cloud)) = .error .nullDeref := by
  obtain ⟨e, he, hm, _⟩ := env_exists 1000 (by norm_num) (0, 0)
  have hok := fun rnd => pclSerial_input e rnd (leaf := 1) parabola_ok.1 (by simp [parabola]) parabola_ok.2.1
  have hok' := fun rnd => pclSerial_input e rnd (leaf := 1) (pts := []) (by simp) (by simp) (by simp)
  exact ⟨e, he, C69_null he (o := ⟨20, 1, 1, 1⟩) one_ne_zero (x := pclSerial) (rnd := id) rfl (.cons (hok _) (.cons (hok' _) (.cons (hok _) .nil))) (by rw [hm]; norm_num) 4 10 (.inr rfl)⟩

end Verif.Props
