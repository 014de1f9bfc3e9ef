import Verif.Model.OdometryPipeline
import Verif.Props.Odometry
import Verif.Props.PipelineAlign
import Verif.Props.Lie

/-! C63: frame-to-frame odometry from points to trajectory. -/

set_option linter.unusedSectionVars false
set_option linter.unusedSimpArgs false
set_option linter.unnecessarySeqFocus false

namespace Verif.Spec

open Matrix Verif Verif.Factors Verif.KdTree

/-- The cloud holds the points `pts`, with weight one; they fit the grid of the sampler. -/
def CloudOf (leaf : ℝ) (c : Features.RCloud) (pts : List (Pt ℝ)) : Prop :=
  c.points = pts.map (fun p => some ![p.x, p.y, p.z, p.w]) ∧ (∀ p ∈ pts, p.w = 1) ∧ pts.length < 2 ^ 32 ∧ ∀ p ∈ pts, KeyDefined leaf p

/-- The execution of the functions on a frame with sampled points `out` runs to its end. -/
def FrameRuns (e : Pipeline.Env) (x : OdometryPipeline.FrameExec) (out : List (Pt ℝ)) : Prop :=
  OdometryPipeline.frameTree e x.tree out ≠ none ∧
  (∀ chunks sched, x.loop = .parallel chunks sched → chunks.flatten.Perm (List.range out.length) ∧
    parOrder sched (chunks.map (fun c => c.flatMap Features.covarianceSetter.acts)) ≠ none) ∧
  ∀ T fs, fs.length = out.length → (x.lin T fs).Complete out.length ∧ (x.err T fs).Complete out.length

/-- Points and covariances are those of a cloud with local features. The normals are not set. -/
def LocalCovs (out : List (Pt ℝ)) (maxD : ℝ) (k : Nat) (c : Features.RCloud) : Prop :=
  c.normals.length ≤ out.length ∧ ∃ c', LocalFeatures out maxD k c' ∧ c.points = c'.points ∧ c.covs = c'.covs

/-- A frame without points comes directly before a frame with points. -/
def EmptyBefore (ptss : List (List (Pt ℝ))) : Prop := ∃ (i : Nat) (ps : List (Pt ℝ)), ptss[i]? = some [] ∧ ptss[i + 1]? = some ps ∧ ps ≠ []

/-- A trajectory of relative motions: it starts at the identity, each pose is the one before it, moved by at most 20 optimiser steps; there is no
motion between frames with the same points, nor to a frame none of whose sampled points is within the distance with square `gate` of a sampled point of the frame before it. Nothing is stretched by more than rounding of small steps allows. -/
def OdometryTrajectory (leaf gate : ℝ) (ptss : List (List (Pt ℝ))) (tr : List (Pose ℝ)) : Prop :=
  tr.length = ptss.length ∧ (∀ T, tr[0]? = some T → T = Pose.one) ∧
  (∀ (i : Nat) T T', tr[i]? = some T → tr[i + 1]? = some T' → ∃ steps : List (Fin 6 → ℝ), steps.length ≤ 20 ∧ T' = Props.posesAfter T steps) ∧
  (∀ (i : Nat) ps T T', ptss[i]? = some ps → ptss[i + 1]? = some ps → tr[i]? = some T → tr[i + 1]? = some T' → T' = T) ∧
  (∀ (i : Nat) ps ps' T T', ptss[i]? = some ps → ptss[i + 1]? = some ps' → tr[i]? = some T → tr[i + 1]? = some T' →
    (∀ a b, SerialSample leaf ps a → SerialSample leaf ps' b → ∀ p ∈ b, ∀ q ∈ a, gate < sqd q p) → T' = T) ∧
  ∀ (i : Nat) T, tr[i]? = some T → 20 * i ≤ 2 ^ 31 → StretchAtMost T.R (1 + 1e-34)

end Verif.Spec

namespace Verif.Props

open Matrix Verif Verif.Knn Verif.KdTree Verif.Proofs Verif.Proofs.RegMem Verif.Factors Verif.Reduction Verif.Optimizer Verif.PointCloud Verif.RegMem Verif.Spec Verif.Lie
open Verif.Pipeline Verif.Features Verif.Downsample Verif.Helper Verif.OdometryPipeline Verif.Odometry

/-! ### trees and covariances of one frame -/

section Frame

variable {e : Env} (he : EnvMeets e)

include he in
theorem frameTree_ok {x : TreeExec} {out : List (Pt ℝ)} (hN : out.length < 2 ^ 32) (h : frameTree e x out ≠ none) :
    ∃ t, frameTree e x out = some (.ok t) ∧ (out ≠ [] → TreeOf e.builder out t) ∧ (out = [] → t = ⟨[], [], none⟩) := by
  cases x with
  | sequential =>
    obtain ⟨t, h1, h2⟩ := tree_defined he hN
    exact ⟨t, by rw [frameTree, h1], h2⟩
  | parallel sched =>
    unfold frameTree at h ⊢
    by_cases hne : out = []
    · subst hne
      exact ⟨_, rfl, fun h => absurd rfl h, fun _ => rfl⟩
    · have hl : ¬ out.length = 0 := fun h => hne (List.length_eq_zero_iff.1 h)
      simp only [if_neg hl] at h ⊢
      cases hr : runSchedule (exactOps ℝ) e.builder out sched (parInit out) with
      | none => rw [hr] at h; exact absurd rfl h
      | some r =>
        have hfind : FindAxisSpec (fun _ => True) e.builder.findAxis := by
          intro pts idx hidx hlen
          obtain ⟨ax, h1, _⟩ := builder_find he pts idx hidx hlen
          exact ⟨ax, h1, trivial⟩
        obtain ⟨ps, rfl, _, _⟩ := C07_every_schedule_finishes (exactOps ℝ) e.builder he.nth hfind builder_leaf out hne hN sched r hr
        rw [hr] at h
        simp only at h ⊢
        cases hf : parFinish ps with
        | none => rw [hf] at h; exact absurd rfl h
        | some t => exact ⟨t, rfl, fun _ => .parallel sched ps hr hf, fun h => absurd h hne⟩

/-- Covariances do not depend on whether normals are written too. -/
theorem estimate_covs {S S' : Setter} (hS : S.covs = true) (hS' : S'.covs = true) {eig : M3 → M3} {mk : RCloud → Res Search} {k : Int} {c a b : RCloud}
    (ha : estimate S eig mk k c = .ok a) (hb : estimate S' eig mk k c = .ok b) : a.points = b.points ∧ a.covs = b.covs := by
  obtain ⟨n1, a1, a2, a3⟩ := estimate_values _ _ _ _ _ _ ha
  obtain ⟨n2, b1, b2, b3⟩ := estimate_values _ _ _ _ _ _ hb
  rw [a1] at b1
  cases b1
  refine ⟨a2.trans b2.symm, List.ext_getElem? fun i => ?_⟩
  have ea := a3 i
  have eb := b3 i
  by_cases hi : i < c.size
  · rw [if_pos hi] at ea eb
    obtain ⟨p, f, _, hf, _, h1⟩ := ea
    obtain ⟨p', f', _, hf', _, h2⟩ := eb
    rw [hf] at hf'
    cases hf'
    rw [h1, h2, hS, hS']
  · rw [if_neg hi] at ea eb
    rw [ea.2, eb.2]

include he in
theorem covariances_ok {x : LoopExec} {out : List (Pt ℝ)} (hN : out.length < 2 ^ 32) {t : KdTree.Tree ℝ} (ht : out ≠ [] → TreeOf e.builder out t) {k : Int} (hk : 1 ≤ k)
    (h : ∀ chunks sched, x = .parallel chunks sched → chunks.flatten.Perm (List.range out.length) ∧
      parOrder sched (chunks.map (fun c => c.flatMap covarianceSetter.acts)) ≠ none) :
    ∃ c, covariances e x t k (sampledCloud out) = some (.ok c) ∧ LocalCovs out e.maxD k.toNat c := by
  obtain ⟨c', hc'⟩ := features_defined he hN ht hk
  have hl := features_values he hN ht hk hc'
  have hdef : ∃ c, estimate covarianceSetter e.eig (fun _ => .ok (kdKnn e t)) k (sampledCloud out) = .ok c := by
    apply estimate_defined (knn := kdKnn e t) rfl
    intro i hi
    obtain ⟨knn, h1, h2, h3⟩ := estimate_values _ _ _ _ _ _ hc'
    cases h1
    have := h3 i
    rw [if_pos hi] at this
    obtain ⟨p, f, _, hf, _⟩ := this
    exact ⟨f, hf⟩
  obtain ⟨c, hc⟩ := hdef
  have hnl : c.normals.length ≤ out.length := by
    obtain ⟨_, _, _, h3⟩ := estimate_values _ _ _ _ _ _ hc
    have := h3 out.length
    rw [sampled_size, if_neg (lt_irrefl _)] at this
    exact List.getElem?_eq_none_iff.1 this.1
  refine ⟨c, ?_, hnl, c', hl, estimate_covs rfl rfl hc hc'⟩
  cases x with
  | sequential => rw [covariances, hc]
  | parallel chunks sched =>
    obtain ⟨h1, h2⟩ := h chunks sched rfl
    simp only [covariances, sampled_size, if_pos h1]
    cases hr : estimatePar covarianceSetter e.eig (fun _ => .ok (kdKnn e t)) k (sampledCloud out) chunks sched with
    | none =>
      unfold estimatePar at hr
      rw [Option.map_eq_none_iff] at hr
      exact absurd hr h2
    | some r =>
      have h3 := C49_parallel _ _ _ _ _ _ _ (by rw [sampled_size]; exact h1) _ hr
      rw [hc] at h3
      cases r with
      | error f => cases h3
      | ok c' => cases h3; rfl

/-- Points and covariances of a preprocessed frame are set; the covariances are those a GICP factor needs. -/
theorem localCovs_regular {out : List (Pt ℝ)} {maxD : ℝ} {k : Nat} {c : RCloud} (h : LocalCovs out maxD k c) :
    PointsSet c ∧ CovsRegular c ∧ cloudPoints c = .ok out ∧ c.size = out.length := by
  obtain ⟨_, c', h1, h2, h3⟩ := h
  obtain ⟨p1, _, p3⟩ := features_regular h1
  refine ⟨?_, ?_, cloudPoints_of c out (h2.trans h1.1), ?_⟩
  · unfold PointsSet at p1 ⊢
    rw [h2]
    exact p1
  · unfold CovsRegular at p3 ⊢
    rw [h2, h3]
    exact p3
  · show c.points.length = _
    rw [h2, h1.1, List.length_map]

end Frame

/-! ### one registration -/

theorem posesAfter_append (T : Pose ℝ) (a b : List (Fin 6 → ℝ)) : posesAfter T (a ++ b) = posesAfter (posesAfter T a) b := List.foldl_append

theorem pose_mul_assoc (A B C : Pose ℝ) : (A.mul B).mul C = A.mul (B.mul C) := by
  unfold Pose.mul
  congr 1
  · exact Matrix.mul_assoc _ _ _
  · simp only [Matrix.mulVec_add, Matrix.mulVec_mulVec]
    abel

theorem posesAfter_mul (T S : Pose ℝ) (a : List (Fin 6 → ℝ)) : posesAfter (T.mul S) a = T.mul (posesAfter S a) := by
  induction a generalizing S with
  | nil => rfl
  | cons x a ih =>
    show posesAfter ((T.mul S).mul (se3Exp x)) a = T.mul (posesAfter (S.mul (se3Exp x)) a)
    rw [pose_mul_assoc, ih]

theorem pose_mul_one (T : Pose ℝ) : T.mul Pose.one = T := by
  unfold Pose.mul Pose.one
  simp

theorem endsAt_steps {T0 T L : Pose ℝ} {n : Int} (h : EndsAt T0 n T L) : ∃ steps : List (Fin 6 → ℝ), steps.length ≤ n.toNat ∧ T = posesAfter T0 steps := by
  obtain ⟨h1, h2⟩ := h
  by_cases hn : 0 < n
  · obtain ⟨⟨steps, hl, rfl⟩, rfl | ⟨d, rfl⟩⟩ := h2 hn
    · exact ⟨steps, hl.le, rfl⟩
    · refine ⟨steps ++ [d], by simp; omega, ?_⟩
      rw [posesAfter_append]
      rfl
  · exact ⟨[], by simp, (h1 (by omega)).1⟩

section Register

variable {e : Env} (he : EnvMeets e) (o : Params)

/-- A preprocessed frame with sampled points `out`. -/
def PreparedOf (e : Env) (o : Params) (out : List (Pt ℝ)) (p : Prepared) : Prop :=
  LocalCovs out e.maxD o.numNeighbors.toNat p.cloud ∧ (out ≠ [] → TreeOf e.builder out p.tree) ∧ (out = [] → p.tree = ⟨[], [], none⟩) ∧ out.length < 2 ^ 32 ∧ FrameRuns e p.exec out

include he in
theorem register_ok {outT outS : List (Pt ℝ)} {t s : Prepared} (ht : PreparedOf e o outT t) (hs : PreparedOf e o outS s) :
    (outT = [] ∧ outS ≠ [] → registerFrames e o t s = .error .uninit) ∧
    (¬ (outT = [] ∧ outS ≠ []) → ∃ R, registerFrames e o t s = .ok R ∧ (∃ steps : List (Fin 6 → ℝ), steps.length ≤ 20 ∧ R = posesAfter Pose.one steps) ∧
      (outT = outS → o.maxCorrespondenceDistance * o.maxCorrespondenceDistance < e.maxD → R = Pose.one) ∧
      ((∀ p ∈ outS, ∀ q ∈ outT, o.maxCorrespondenceDistance * o.maxCorrespondenceDistance < sqd q p) → R = Pose.one)) := by
  classical
  obtain ⟨t1, t2, t3, t4, t5⟩ := ht
  obtain ⟨s1, s2, s3, s4, s5⟩ := hs
  obtain ⟨hTp, hTc, hTpts, hTs⟩ := localCovs_regular t1
  obtain ⟨hSp, hSc, hSpts, hSs⟩ := localCovs_regular s1
  have hL : ∀ (T : Pose ℝ) (fs : List (GICP ℝ)), fs.length = s.cloud.size → (s.exec.lin T fs).Complete s.cloud.size := fun T fs hl => by
    rw [hSs] at hl ⊢
    exact (s5.2.2 T fs hl).1
  have hE : ∀ (T : Pose ℝ) (fs : List (GICP ℝ)), fs.length = s.cloud.size → (s.exec.err T fs).Complete s.cloud.size := fun T fs hl => by
    rw [hSs] at hl ⊢
    exact (s5.2.2 T fs hl).2
  have h := Ships.gicp (K := ℝ) e.inv
  unfold registerFrames
  rw [hTpts, ok_bind]
  simp only [Registration.default]
  have huse : ∀ out : Result ℝ × List (GICP ℝ) × List (Iteration (GICP ℝ) ℝ), (do
      let (res, _, _) ← (Except.ok out : Res (Result ℝ × List (GICP ℝ) × List (Iteration (GICP ℝ) ℝ)))
      return res.T : Res (Pose ℝ)) = .ok out.1.T := fun out => rfl
  by_cases hne : outT = []
  · subst hne
    have hc : t.cloud = ⟨[], [], []⟩ := by
      obtain ⟨c0, c', c1, c2, c3⟩ := t1
      rw [features_empty c1] at c2 c3
      revert c0 c2 c3
      rcases t.cloud with ⟨a, b, d⟩
      intro c0 c2 c3
      simp only [List.length_nil, Nat.le_zero, List.length_eq_zero_iff] at c0
      simp only at c2 c3
      rw [c0, c2, c3]
    rw [t3 rfl, hc]
    refine ⟨fun ⟨_, h2⟩ => ?_, fun hn => ?_⟩
    · obtain ⟨t', _, h4, h5⟩ := C57_empty_target h e.builder s.cloud hSp (by rw [hSs]; exact List.length_pos_of_ne_nil h2) (fun _ => CovsRegular.set hSc) (([] : List (Pt ℝ)).length + 1) 1 e.maxD e.junk
        ⟨distanceRejector (o.maxCorrespondenceDistance * o.maxCorrespondenceDistance), nullFactor, e.solve, se3Exp, converged _ _⟩ _ _ hL hE (.lm ⟨20, 10, 1 / 1000, 10⟩) (by show 0 < (20 : Int).toNat; decide) Pose.one
      cases h4
      rw [h5]
      rfl
    · have h0 : outS = [] := by
        by_contra h0
        exact hn ⟨rfl, h0⟩
      obtain ⟨out, ho, hrun⟩ := empty_idle h s.cloud hSp (fun _ => CovsRegular.set hSc) (([] : List (Pt ℝ)).length + 1) e.maxD e.junk
        ⟨distanceRejector (o.maxCorrespondenceDistance * o.maxCorrespondenceDistance), nullFactor, e.solve, se3Exp, converged _ _⟩ _ _ hL hE (.lm ⟨20, 10, 1 / 1000, 10⟩) Pose.one
        (by left; rw [hSs, h0]; rfl)
      obtain ⟨L, hends, _⟩ := run_ends _ _ _ _ _ _ _ _ _ _ hrun
      have hone : out.1.T = Pose.one := by
        obtain ⟨r, fs', log, h1, h2, _⟩ := (C46_no_correspondence h.shipped (scene (cloudWorld ⟨[], [], []⟩ s.cloud (kdNearest e.maxD [] ⟨[], [], none⟩ (([] : List (Pt ℝ)).length + 1) e.junk))) (fun q k d hq => by
          have : (none : Option (Nat × ℝ)) = some (k, d) := hq
          cases this) (distanceRejector (o.maxCorrespondenceDistance * o.maxCorrespondenceDistance))
          nullFactor .null e.solve he.solve (1 / 10 * Real.pi / 180) (1 / 1000) Pose.one s.cloud.size (by rw [hSs, h0]; simp)).1 ⟨20, 10, 1 / 1000, 10⟩ (by norm_num) (by norm_num) (by norm_num)
        have hrun : alignLM _ _ _ _ _ = _ := hrun
        rw [h1] at hrun
        cases hrun
        exact h2
      exact ⟨out.1.T, by rw [ho]; rfl, endsAt_steps hends, fun _ _ => hone, fun _ => hone⟩
  · refine ⟨fun h0 => absurd h0.1 hne, fun _ => ?_⟩
    have hpos : 0 < t.cloud.size := by rw [hTs]; exact List.length_pos_of_ne_nil hne
    have hsize : t.cloud.size < 2 ^ 32 := by rw [hTs]; exact t4
    have hw := kd_sound t.cloud s.cloud e.builder he.nth (builder_find he) builder_leaf hTp hpos hsize ⟨false, true⟩ hSp (fun h => by cases h)
      (fun _ => ⟨CovsRegular.set hTc, CovsRegular.set hSc⟩) outT hTpts t.tree (t2 hne) e.maxD he.maxD (outT.length + 1) (by rw [hTs]; omega) e.junk
    obtain ⟨out, hrun, hok⟩ := align_approx h hw ⟨distanceRejector (o.maxCorrespondenceDistance * o.maxCorrespondenceDistance), nullFactor, e.solve, se3Exp, converged _ _⟩ _ _ hL hE (.lm ⟨20, 10, 1 / 1000, 10⟩) Pose.one
    have hok := hok.resolve_right (by rintro ⟨_, hf, _⟩; exact hf)
    obtain ⟨L, hends, _⟩ := run_ends _ _ _ _ _ _ _ _ _ _ hrun
    refine ⟨out.1.T, by rw [hok]; rfl, endsAt_steps hends, fun heq hmax => ?_, fun hfar => ?_⟩
    swap
    · have hspec := kdNearest_spec t.cloud e.builder he.nth (builder_find he) builder_leaf hTp hpos hsize outT hTpts t.tree (t2 hne) e.maxD he.maxD (outT.length + 1) (by rw [hTs]; omega) e.junk
      obtain ⟨r, fs', log, h1, h2, _⟩ := (C46_no_correspondence h.shipped (scene (cloudWorld t.cloud s.cloud (kdNearest e.maxD outT t.tree (outT.length + 1) e.junk))) (fun q k d hq => by
          obtain ⟨o', ho', _, h3⟩ := hspec q
          have hq : okOr none (kdNearest e.maxD outT t.tree (outT.length + 1) e.junk q) = some (k, d) := hq
          rw [ho'] at hq
          obtain ⟨_, p, hp, _⟩ := h3 k d hq
          have := (List.getElem?_eq_some_iff.1 hp).1
          have hlt : k < t.cloud.size := this
          unfold npos
          omega) (distanceRejector (o.maxCorrespondenceDistance * o.maxCorrespondenceDistance))
        nullFactor .null e.solve he.solve (1 / 10 * Real.pi / 180) (1 / 1000) Pose.one s.cloud.size (fun i hi => by
          rw [hSs] at hi
          have hsp : (scene (cloudWorld t.cloud s.cloud (kdNearest e.maxD outT t.tree (outT.length + 1) e.junk))).srcPoint i = ofPt outS[i] := by
            have hg : s.cloud.points[i]? = some (some (ofPt outS[i])) := by
              obtain ⟨_, b, b1, b2, _⟩ := s1
              rw [b2, b1.1, List.getElem?_map, List.getElem?_eq_getElem hi]
              rfl
            simp only [scene, cloudWorld, Cloud.point, getSlot, rd, hg]
            rfl
          unfold correspondence
          rw [hsp, apply_one]
          obtain ⟨o', ho', _, h3⟩ := hspec (ofPt outS[i])
          have hnn : (scene (cloudWorld t.cloud s.cloud (kdNearest e.maxD outT t.tree (outT.length + 1) e.junk))).nn (ofPt outS[i]) = o' := by
            show okOr none (kdNearest e.maxD outT t.tree (outT.length + 1) e.junk (ofPt outS[i])) = o'
            rw [ho']
            rfl
          rw [hnn]
          match o', h3 with
          | none, _ => rfl
          | some (k, d), h3 =>
            obtain ⟨_, p, hp, hd, _⟩ := h3 k d rfl
            have hpm : ∃ q ∈ outT, p = ofPt q := by
              obtain ⟨_, a, a1, a2, _⟩ := t1
              rw [a2, a1.1, List.getElem?_map] at hp
              obtain ⟨q, hq, hqe⟩ := Option.map_eq_some_iff.1 hp
              cases hqe
              exact ⟨q, List.mem_of_getElem? hq, rfl⟩
            obtain ⟨q, hq, rfl⟩ := hpm
            have := hfar _ (List.getElem_mem hi) q hq
            have hdd : d = sqd q outS[i] := by
              rw [hd, ← sqd_toPt, toPt_ofPt, toPt_ofPt]
            simp only [distanceRejector]
            rw [hdd]
            simp [this])).1 ⟨20, 10, 1 / 1000, 10⟩ (by norm_num) (by norm_num) (by norm_num)
      have hrun : alignLM _ _ _ _ _ = _ := hrun
      rw [h1] at hrun
      cases hrun
      exact h2
    subst heq
    obtain ⟨res, fs', log, g1, g2, _⟩ := C43_kdtree t.cloud s.cloud e.builder he.nth (builder_find he) builder_leaf hTp hpos hsize hSp
        (fun i p hp => ⟨i, by
          have h1 : t.cloud.points = s.cloud.points := by
            obtain ⟨_, a, a1, a2, _⟩ := t1
            obtain ⟨_, b, b1, b2, _⟩ := s1
            rw [a2, b2, a1.1, b1.1]
          rw [h1]
          exact hp⟩) (Usual.gicp e.inv he.inv) (fun h => by cases h) (fun _ => ⟨hTc, hSc⟩) outT hTpts t.tree (t2 hne) e.maxD
        _ (mul_self_nonneg _) hmax (outT.length + 1) (by rw [hTs]; omega) e.junk nullFactor .null e.solve he.solve (1 / 10 * Real.pi / 180) (1 / 1000)
        (by have := Real.pi_pos; positivity) (by norm_num) _ _ hL hE (.lm ⟨20, 10, 1 / 1000, 10⟩) ⟨by norm_num, by norm_num, by norm_num, by norm_num⟩
    rw [hok] at g1
    cases g1
    exact g2

end Register

/-! ### trajectories -/

section Trajectory

variable {e : Env} (he : EnvMeets e) {o : Params} (hleaf : o.downsamplingResolution ≠ 0) (hk : 1 ≤ o.numNeighbors)

include he hleaf hk in
/-- Sampling and preprocessing of one frame. -/
theorem prepare_ok {f : Frame} {pts : List (Pt ℝ)} (hf : CloudOf o.downsamplingResolution f.cloud pts)
    (hx : ∀ out, voxelgridSampling e.sort pts o.downsamplingResolution = .ok out → FrameRuns e f.exec out) :
    ∃ out p, voxelgridSampling e.sort pts o.downsamplingResolution = .ok out ∧ SerialSample o.downsamplingResolution pts out ∧ (out = [] ↔ pts = []) ∧
      sampleThenPrep (sampleFrame e o) (prepareFrame e o) f = .ok p ∧ PreparedOf e o out p := by
  obtain ⟨h1, h2, h3, h4⟩ := hf
  obtain ⟨out, s1, s2, s3, s4, s5⟩ := serial_sample he h2 hleaf h4
  have hN : out.length < 2 ^ 32 := by omega
  have hr := hx out s1
  obtain ⟨t, t1, t2, t3⟩ := frameTree_ok he hN hr.1
  obtain ⟨c, c1, c2⟩ := covariances_ok he (x := f.exec.loop) hN t2 hk hr.2.1
  refine ⟨out, ⟨f.exec, c, t⟩, s1, s2, ⟨fun h => ?_, s2.1⟩, ?_, c2, t2, t3, hN, hr⟩
  · by_contra hne
    exact s4 hne h
  · unfold sampleThenPrep sampleFrame
    rw [cloudPoints_of f.cloud pts h1, ok_bind, s1, ok_bind]
    show prepareFrame e o ⟨f.exec, sampledCloud out⟩ = _
    unfold prepareFrame
    rw [cloudPoints_of (sampledCloud out) out rfl, ok_bind]
    rw [t1, Option.getD_some, ok_bind, c1, Option.getD_some, ok_bind]
    rfl

variable {frames : List Frame} {ptss : List (List (Pt ℝ))} (hlen : frames.length = ptss.length)
  (hcl : ∀ (i : Nat) f pts, frames[i]? = some f → ptss[i]? = some pts → CloudOf o.downsamplingResolution f.cloud pts ∧
    ∀ out, voxelgridSampling e.sort pts o.downsamplingResolution = .ok out → FrameRuns e f.exec out)

include he hleaf hk hlen hcl in
/-- The sampled points of each frame, and what the frame is turned into. -/
theorem frame_outs {i : Nat} {f : Frame} {p : Prepared} (hf : frames[i]? = some f) (hp : sampleThenPrep (sampleFrame e o) (prepareFrame e o) f = .ok p) :
    ∃ pts out, ptss[i]? = some pts ∧ voxelgridSampling e.sort pts o.downsamplingResolution = .ok out ∧ SerialSample o.downsamplingResolution pts out ∧ (out = [] ↔ pts = []) ∧ PreparedOf e o out p := by
  have hi : i < ptss.length := by rw [← hlen]; exact (List.getElem?_eq_some_iff.1 hf).1
  obtain ⟨h1, h2⟩ := hcl i f _ hf (List.getElem?_eq_getElem hi)
  obtain ⟨out, p', a1, a2, a3, a4, a5⟩ := prepare_ok he hleaf hk h1 h2
  rw [a4] at hp
  cases hp
  exact ⟨_, out, List.getElem?_eq_getElem hi, a1, a2, a3, a5⟩

include he hleaf hk hlen hcl in
/-- A chain of registered frames is an odometry trajectory. -/
theorem chain_trajectory (hgate : o.maxCorrespondenceDistance * o.maxCorrespondenceDistance < e.maxD) {prepared : List Prepared} {tr : List (Pose ℝ)}
    (h : FrameChain (sampleThenPrep (sampleFrame e o) (prepareFrame e o)) (registerFrames e o) Pose.one none frames prepared tr) :
    OdometryTrajectory o.downsamplingResolution (o.maxCorrespondenceDistance * o.maxCorrespondenceDistance) ptss tr ∧ ¬ EmptyBefore ptss := by
  obtain ⟨l1, l2, hprep, h0, _, hnext⟩ := h
  have hget : ∀ i < ptss.length, ∃ f p, frames[i]? = some f ∧ prepared[i]? = some p ∧ sampleThenPrep (sampleFrame e o) (prepareFrame e o) f = .ok p := by
    intro i hi
    have e1 : frames[i]? = some frames[i] := List.getElem?_eq_getElem (by omega)
    have e2 : prepared[i]? = some prepared[i] := List.getElem?_eq_getElem (by omega)
    exact ⟨_, _, e1, e2, hprep i _ _ e1 e2⟩
  -- one pair of frames
  have hpair : ∀ (i : Nat) T T', tr[i]? = some T → tr[i + 1]? = some T' → ∃ ps ps' outT outS t p, ptss[i]? = some ps ∧ ptss[i + 1]? = some ps' ∧
      voxelgridSampling e.sort ps o.downsamplingResolution = .ok outT ∧ voxelgridSampling e.sort ps' o.downsamplingResolution = .ok outS ∧
      SerialSample o.downsamplingResolution ps outT ∧ SerialSample o.downsamplingResolution ps' outS ∧
      PreparedOf e o outT t ∧ PreparedOf e o outS p ∧ (outT = [] ↔ ps = []) ∧ (outS = [] ↔ ps' = []) ∧ ∃ R, registerFrames e o t p = .ok R ∧ T' = T.mul R := by
    intro i T T' hT hT'
    have hi : i + 1 < tr.length := (List.getElem?_eq_some_iff.1 hT').1
    obtain ⟨f, p, f1, f2, f3⟩ := hget i (by omega)
    obtain ⟨f', p', g1, g2, g3⟩ := hget (i + 1) (by omega)
    obtain ⟨ps, outT, a1, a2, a3, a4, a5⟩ := frame_outs he hleaf hk hlen hcl f1 f3
    obtain ⟨ps', outS, b1, b2, b3, b4, b5⟩ := frame_outs he hleaf hk hlen hcl g1 g3
    obtain ⟨R, hR, hmul⟩ := hnext i p p' T T' f2 g2 hT hT'
    exact ⟨ps, ps', outT, outS, p, p', a1, b1, a2, b2, a3, b3, a5, b5, a4, b4, R, hR, hmul⟩
  -- the registration of this pair was defined
  have hdef : ∀ {outT outS : List (Pt ℝ)} {t p : Prepared} {R : Pose ℝ}, PreparedOf e o outT t → PreparedOf e o outS p → registerFrames e o t p = .ok R →
      ¬ (outT = [] ∧ outS ≠ []) ∧ (∃ steps : List (Fin 6 → ℝ), steps.length ≤ 20 ∧ R = posesAfter Pose.one steps) ∧ (outT = outS → R = Pose.one) ∧
      ((∀ p ∈ outS, ∀ q ∈ outT, o.maxCorrespondenceDistance * o.maxCorrespondenceDistance < sqd q p) → R = Pose.one) := by
    intro outT outS t p R ht hp hR
    obtain ⟨r1, r2⟩ := register_ok he o ht hp
    have hn : ¬ (outT = [] ∧ outS ≠ []) := by
      intro hh
      rw [r1 hh] at hR
      cases hR
    obtain ⟨R', q1, q2, q3, q4⟩ := r2 hn
    rw [q1] at hR
    cases hR
    exact ⟨hn, q2, fun h => q3 h hgate, q4⟩
  have hstep : ∀ (i : Nat) T T', tr[i]? = some T → tr[i + 1]? = some T' → ∃ steps : List (Fin 6 → ℝ), steps.length ≤ 20 ∧ T' = posesAfter T steps := by
    intro i T T' hT hT'
    obtain ⟨ps, ps', outT, outS, t, p, _, _, _, _, _, _, a1, a2, _, _, R, hR, rfl⟩ := hpair i T T' hT hT'
    obtain ⟨_, ⟨steps, hs, rfl⟩, _⟩ := hdef a1 a2 hR
    exact ⟨steps, hs, by rw [← posesAfter_mul, pose_mul_one]⟩
  refine ⟨⟨by omega, h0 rfl, hstep, ?_, ?_, ?_⟩, ?_⟩
  · intro i ps T T' hps hps' hT hT'
    obtain ⟨qs, qs', outT, outS, t, p, b1, b2, b3, b4, _, _, a1, a2, _, _, R, hR, rfl⟩ := hpair i T T' hT hT'
    rw [hps] at b1
    rw [hps'] at b2
    cases b1
    cases b2
    rw [b3] at b4
    rw [(hdef a1 a2 hR).2.2.1 (Except.ok.inj b4), pose_mul_one]
  · intro i ps ps' T T' hps hps' hT hT' hfar
    obtain ⟨qs, qs', outT, outS, t, p, b1, b2, _, _, b5, b6, a1, a2, _, _, R, hR, rfl⟩ := hpair i T T' hT hT'
    rw [hps] at b1
    rw [hps'] at b2
    cases b1
    cases b2
    rw [(hdef a1 a2 hR).2.2.2 (hfar _ _ b5 b6), pose_mul_one]
  · have hall : ∀ (i : Nat) T, tr[i]? = some T → ∃ steps : List (Fin 6 → ℝ), steps.length ≤ 20 * i ∧ T = posesAfter Pose.one steps := by
      intro i
      induction i with
      | zero => exact fun T hT => ⟨[], by simp, h0 rfl T hT⟩
      | succ i ih =>
        intro T hT
        have hi : i + 1 < tr.length := (List.getElem?_eq_some_iff.1 hT).1
        have e1 : tr[i]? = some tr[i] := List.getElem?_eq_getElem (by omega)
        obtain ⟨s1, hl1, hs1⟩ := ih _ e1
        obtain ⟨s2, hl2, hs2⟩ := hstep i _ T e1 hT
        refine ⟨s1 ++ s2, by simp; omega, ?_⟩
        rw [posesAfter_append, ← hs1, hs2]
    intro i T hT hi
    obtain ⟨steps, hl, rfl⟩ := hall i T hT
    exact C41_drift_bound Pose.one ⟨by simp [Pose.one], by simp [Pose.one]⟩ steps (by omega)
  · rintro ⟨i, ps, e1, e2, e3⟩
    have hi : i + 1 < ptss.length := (List.getElem?_eq_some_iff.1 e2).1
    obtain ⟨qs, qs', outT, outS, t, p, b1, b2, _, _, _, _, a1, a2, c1, c2, R, hR, _⟩ := hpair i tr[i] tr[i + 1] (List.getElem?_eq_getElem (by omega)) (List.getElem?_eq_getElem (by omega))
    rw [e1] at b1
    rw [e2] at b2
    cases b1
    cases b2
    exact (hdef a1 a2 hR).1 ⟨c1.2 rfl, fun h => e3 (c2.1 h)⟩

include he hleaf hk hlen hcl in
theorem fails_empty {f : Fault} (h : FrameFails (sampleThenPrep (sampleFrame e o) (prepareFrame e o)) (registerFrames e o) none frames f) : f = .uninit ∧ EmptyBefore ptss := by
  have hget : ∀ (i : Nat) fr, frames[i]? = some fr → ∃ pts out p, ptss[i]? = some pts ∧ (out = [] ↔ pts = []) ∧ sampleThenPrep (sampleFrame e o) (prepareFrame e o) fr = .ok p ∧ PreparedOf e o out p := by
    intro i fr hf
    have hi : i < ptss.length := by rw [← hlen]; exact (List.getElem?_eq_some_iff.1 hf).1
    obtain ⟨h1, h2⟩ := hcl i fr _ hf (List.getElem?_eq_getElem hi)
    obtain ⟨out, p, _, _, a3, a4, a5⟩ := prepare_ok he hleaf hk h1 h2
    exact ⟨_, out, p, List.getElem?_eq_getElem hi, a3, a4, a5⟩
  rcases h with ⟨c, hc, h⟩ | ⟨t, c, p, ht, _⟩ | ⟨i, c, d, t, p, hc, hd, ht, hp, hr⟩
  · obtain ⟨i, hi⟩ := List.getElem?_of_mem hc
    obtain ⟨_, _, p, _, _, hp, _⟩ := hget i c hi
    rw [h] at hp
    cases hp
  · cases ht
  · obtain ⟨ps, outT, t', a1, a2, a3, a4⟩ := hget i c hc
    obtain ⟨ps', outS, p', b1, b2, b3, b4⟩ := hget (i + 1) d hd
    rw [ht] at a3
    rw [hp] at b3
    cases a3
    cases b3
    obtain ⟨r1, r2⟩ := register_ok he o a4 b4
    by_cases hcase : outT = [] ∧ outS ≠ []
    · rw [r1 hcase] at hr
      cases hr
      refine ⟨rfl, i, ps', ?_, b1, fun h => hcase.2 (b2.2 h)⟩
      rw [a1, a2.1 hcase.1]
    · obtain ⟨R, q1, _⟩ := r2 hcase
      rw [q1] at hr
      cases hr

variable (hgate : o.maxCorrespondenceDistance * o.maxCorrespondenceDistance < e.maxD)

include he hleaf hk hlen hcl hgate in
/-- **C63, online engines** (`small_gicp`, `small_gicp_omp`, `small_gicp_tbb`). Frames given as points, any executions of the parallel parts: if a frame without points comes directly
before a frame with points, the estimation is undefined (it reads the unset root of the tree of the empty frame); otherwise it returns an odometry trajectory with one pose for each frame,
and all pointers of the input are null afterwards. -/
theorem C63_online :
    (EmptyBefore ptss → gicpOnline e o .init (frames.map some) = .error .uninit) ∧
    (¬ EmptyBefore ptss → ∃ s ps tr, gicpOnline e o .init (frames.map some) = .ok (s, ps, tr) ∧ (∀ q ∈ ps, q = none) ∧
      OdometryTrajectory o.downsamplingResolution (o.maxCorrespondenceDistance * o.maxCorrespondenceDistance) ptss tr) := by
  obtain ⟨h1, h2⟩ := C62_online (sample := sampleFrame e o) (prep := prepareFrame e o) (reg := registerFrames e o) .init frames
  cases hr : gicpOnline e o .init (frames.map some) with
  | error f =>
    obtain ⟨rfl, hb⟩ := fails_empty he hleaf hk hlen hcl (h2 f hr)
    exact ⟨fun _ => rfl, fun h => absurd hb h⟩
  | ok r =>
    obtain ⟨s, ps, tr⟩ := r
    obtain ⟨hn, _, prepared, hch, _⟩ := h1 s ps tr hr
    obtain ⟨a, b⟩ := chain_trajectory he hleaf hk hlen hcl hgate hch
    exact ⟨fun h => absurd h b, fun _ => ⟨s, ps, tr, rfl, hn, a⟩⟩

include he hleaf hk hlen hcl hgate in
/-- **C63, flow graph** (`small_gicp_tbb_flow`, first call). For every order of events: a call that finishes returns an odometry trajectory with one pose for each frame, and no frame without points
comes directly before one with points; a call that fails reads the unset root of the tree of a frame without points that comes directly before one with points. -/
theorem C63_flow {es : List Event} {r : Res (Flow ℝ Frame Prepared)} (h : gicpFlow e o (Flow.start [] none frames) es = some r) :
    (∀ s, r = .ok s → s.Finished (flowPrepare e o) (registerFrames e o) → ¬ EmptyBefore ptss ∧
      OdometryTrajectory o.downsamplingResolution (o.maxCorrespondenceDistance * o.maxCorrespondenceDistance) ptss s.traj) ∧
    ∀ f, r = .error f → f = .uninit ∧ EmptyBefore ptss := by
  obtain ⟨h1, h2⟩ := C62_first_call_partial (prep := sampleThenPrep (sampleFrame e o) (prepareFrame e o)) (reg := registerFrames e o) h
  refine ⟨fun s hs hf => ?_, fun f hf => fails_empty he hleaf hk hlen hcl (h2 f hf)⟩
  obtain ⟨prepared, hch⟩ := h1 s hs hf
  obtain ⟨a, b⟩ := chain_trajectory he hleaf hk hlen hcl hgate hch
  exact ⟨b, a⟩

end Trajectory

/-! ### the executions exist -/

theorem runSchedule_append {D : Type} [LinearOrder D] (o : Ops D) (b : Builder D) (points : List (Pt D)) (s1 s2 : List (List Bool)) {ps ps' : Proc D × BuildState D}
    (h : runSchedule o b points s1 ps = some (.ok ps')) : runSchedule o b points (s1 ++ s2) ps = runSchedule o b points s2 ps' := by
  induction s1 generalizing ps with
  | nil =>
    simp only [runSchedule, Option.some.injEq, Except.ok.injEq] at h
    rw [← h]
    rfl
  | cons path s1 ih =>
    unfold runSchedule at h
    show runSchedule o b points (path :: (s1 ++ s2)) ps = _
    rw [runSchedule]
    cases hs : step o b points path ps.1 ps.2 with
    | none => rw [hs] at h; cases h
    | some r =>
      cases r with
      | error f => rw [hs] at h; cases h
      | ok q =>
        rw [hs] at h
        exact ih h

/-- Every frame has an execution in which all parts run in parallel. -/
theorem frameRuns_exists {e : Env} (he : EnvMeets e) {out : List (Pt ℝ)} (hN : out.length < 2 ^ 32) :
    ∃ sched chunks fs lin err, FrameRuns e ⟨.parallel sched, .parallel chunks fs, lin, err⟩ out ∧ ∀ T l, ∃ n a s c, lin T l = .omp n a s c := by
  have htree : ∃ sched, frameTree e (.parallel sched) out ≠ none := by
    by_cases hne : out = []
    · subst hne
      exact ⟨[], by simp [frameTree]⟩
    · have hl : ¬ out.length = 0 := fun h => hne (List.length_eq_zero_iff.1 h)
      have hfind : FindAxisSpec (fun _ => True) e.builder.findAxis := by
        intro pts idx hidx hlen
        obtain ⟨ax, h1, _⟩ := builder_find he pts idx hidx hlen
        exact ⟨ax, h1, trivial⟩
      have main : ∀ (n : Nat) (sched : List (List Bool)) r, 5 * out.length - sched.length ≤ n → runSchedule (exactOps ℝ) e.builder out sched (parInit out) = some r →
          ∃ sched, frameTree e (.parallel sched) out ≠ none := by
        intro n
        induction n with
        | zero =>
          intro sched r hn hr
          obtain ⟨ps, rfl, hle, hgo⟩ := C07_every_schedule_finishes (exactOps ℝ) e.builder he.nth hfind builder_leaf out hne hN sched r hr
          cases hf : parFinish ps with
          | some t => exact ⟨sched, by simp [frameTree, hl, hr, hf]⟩
          | none =>
            obtain ⟨path, res', hst⟩ := hgo hf
            have hr' : runSchedule (exactOps ℝ) e.builder out (sched ++ [path]) (parInit out) = some res' := by
              rw [runSchedule_append _ _ _ _ _ hr, runSchedule, hst]
              cases res' <;> rfl
            obtain ⟨_, _, hle', _⟩ := C07_every_schedule_finishes (exactOps ℝ) e.builder he.nth hfind builder_leaf out hne hN _ _ hr'
            simp at hle'
            omega
        | succ n ih =>
          intro sched r hn hr
          obtain ⟨ps, rfl, hle, hgo⟩ := C07_every_schedule_finishes (exactOps ℝ) e.builder he.nth hfind builder_leaf out hne hN sched r hr
          cases hf : parFinish ps with
          | some t => exact ⟨sched, by simp [frameTree, hl, hr, hf]⟩
          | none =>
            obtain ⟨path, res', hst⟩ := hgo hf
            refine ih (sched ++ [path]) res' (by simp; omega) ?_
            rw [runSchedule_append _ _ _ _ _ hr, runSchedule, hst]
            cases res' <;> rfl
      exact main _ [] _ le_rfl rfl
  obtain ⟨sched, hs⟩ := htree
  obtain ⟨fs, hfs⟩ := parOrder_seq ([List.range out.length].map (fun c => c.flatMap covarianceSetter.acts))
  obtain ⟨rs, hrs⟩ := parOrder_seq ([List.range out.length].mapIdx ompThread)
  have hc : (Exec.omp 4 [List.range out.length] rs [0]).Complete out.length := ⟨by omega, by simp, by simp, ⟨_, hrs⟩, by simp⟩
  refine ⟨sched, [List.range out.length], fs, fun _ _ => .omp 4 [List.range out.length] rs [0], fun _ _ => .omp 4 [List.range out.length] rs [0], ⟨hs, ?_, fun _ _ _ => ⟨hc, hc⟩⟩,
    fun _ _ => ⟨_, _, _, _, rfl⟩⟩
  rintro chunks sched' h
  cases h
  exact ⟨by simp, by rw [hfs]; simp⟩

/-! ### concrete cases -/

/-- Points as a cloud, with an execution in one thread. -/
noncomputable def plainFrame (pts : List (Pt ℝ)) : Frame := ⟨⟨.sequential, .sequential, fun _ _ => .serial, fun _ _ => .serial⟩, ⟨pts.map (fun p => some ![p.x, p.y, p.z, p.w]), [], []⟩⟩

theorem plainFrame_ok (e : Env) {leaf : ℝ} {pts : List (Pt ℝ)} (h1 : ∀ p ∈ pts, p.w = 1) (h2 : pts.length < 2 ^ 32) (h3 : ∀ p ∈ pts, KeyDefined leaf p) :
    CloudOf leaf (plainFrame pts).cloud pts ∧ ∀ out, FrameRuns e (plainFrame pts).exec out :=
  ⟨⟨rfl, h1, h2, h3⟩, fun _ => ⟨by simp [plainFrame, frameTree], fun _ _ h => (by cases h), fun _ _ _ => ⟨trivial, trivial⟩⟩⟩

/-- Twice the same six points: the premises are met, and the trajectory is the identity twice. -/
example : ∃ e : Env, EnvMeets e ∧ ∃ s ps, gicpOnline e ⟨20, 1, 1, 1⟩ .init ([plainFrame parabola, plainFrame parabola].map some) = .ok (s, ps, [Pose.one, Pose.one]) := by
  obtain ⟨e, he, hm, _⟩ := env_exists 1000 (by norm_num) (0, 0)
  have hok := plainFrame_ok e (leaf := 1) parabola_ok.1 (by simp [parabola]) parabola_ok.2.1
  obtain ⟨_, h⟩ := C63_online he (o := ⟨20, 1, 1, 1⟩) one_ne_zero (by norm_num) (frames := [plainFrame parabola, plainFrame parabola]) (ptss := [parabola, parabola]) rfl (by
    intro i f pts hf hp
    match i with
    | 0 | 1 => cases hf; cases hp; exact ⟨hok.1, fun out _ => hok.2 out⟩
    | i + 2 => cases hf) (by rw [hm]; norm_num)
  obtain ⟨s, ps, tr, h1, _, h2⟩ := h (by
    rintro ⟨i, ps, e1, _⟩
    match i with
    | 0 | 1 => cases e1
    | i + 2 => cases e1)
  refine ⟨e, he, s, ps, ?_⟩
  obtain ⟨hl, h0, _, hsame, _⟩ := h2
  match tr, hl with
  | [a, b], _ =>
    have ha := h0 a rfl
    have hb := hsame 0 parabola a b rfl rfl rfl rfl
    rw [h1, hb, ha]

/-- A frame without points before one with points. -/
example : ∃ e : Env, EnvMeets e ∧ gicpOnline e ⟨20, 1, 1, 1⟩ .init ([plainFrame [], plainFrame parabola].map some) = .error .uninit := by
  obtain ⟨e, he, hm, _⟩ := env_exists 1000 (by norm_num) (0, 0)
  have hok := plainFrame_ok e (leaf := 1) parabola_ok.1 (by simp [parabola]) parabola_ok.2.1
  have hok' := plainFrame_ok e (leaf := 1) (pts := []) (by simp) (by simp) (by simp)
  refine ⟨e, he, (C63_online he (o := ⟨20, 1, 1, 1⟩) one_ne_zero (by norm_num) (frames := [plainFrame [], plainFrame parabola]) (ptss := [[], parabola]) rfl (by
    intro i f pts hf hp
    match i with
    | 0 => cases hf; cases hp; exact ⟨hok'.1, fun out _ => hok'.2 out⟩
    | 1 => cases hf; cases hp; exact ⟨hok.1, fun out _ => hok.2 out⟩
    | i + 2 => cases hf) (by rw [hm]; norm_num)).1 ⟨0, parabola, rfl, rfl, by simp [parabola]⟩⟩

end Verif.Props
