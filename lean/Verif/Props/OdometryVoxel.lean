import Verif.Props.OdometryModel

/-! C66: frame-to-frame odometry against Gaussian voxel maps. -/

set_option linter.unusedSectionVars false
set_option linter.unusedSimpArgs false
set_option linter.unnecessarySeqFocus false

namespace Verif.Spec

open Matrix Verif Verif.Factors Verif.KdTree Verif.Voxel

/-- A trajectory of motions relative to the voxel map of the frame before: it starts at the identity, each pose is the one before it moved by at most 20 optimiser steps; there is no motion to a
frame none of whose sampled points shares a cell with sampled points of the frame before whose mean is within the distance with square `gate`. Nothing is stretched by more than
rounding of small steps allows. -/
structure VoxelTrajectory (leaf resolution gate : ℝ) (ptss : List (List (Pt ℝ))) (tr : List (Pose ℝ)) : Prop where
  poses : tr.length = ptss.length
  first : ∀ T, tr[0]? = some T → T = Pose.one
  next : ∀ (i : Nat) T T', tr[i]? = some T → tr[i + 1]? = some T' → ∃ steps : List (Fin 6 → ℝ), steps.length ≤ 20 ∧ T' = Props.posesAfter T steps
  still : ∀ (i : Nat) ps ps' T T', ptss[i]? = some ps → ptss[i + 1]? = some ps' → tr[i]? = some T → tr[i + 1]? = some T' →
    (∀ a b, SerialSample leaf ps a → SerialSample leaf ps' b → ∀ p ∈ b, ¬ NearMean a resolution gate Pose.one p) → T' = T
  stretch : ∀ (i : Nat) T, tr[i]? = some T → 20 * i ≤ 2 ^ 31 → StretchAtMost T.R (1 + 1e-34)
  cells : ∀ ps ∈ ptss, ∃ out, SerialSample leaf ps out ∧ ∀ p ∈ out, CellDefined (1 / resolution) p

/-- A sampled point of some frame has no `int` cell, as it is or (for frames after the first) moved by at most 20 optimiser steps. -/
def LeavesCells (leaf resolution : ℝ) (ptss : List (List (Pt ℝ))) : Prop :=
  ∃ (i : Nat) (ps out : List (Pt ℝ)) (steps : List (Fin 6 → ℝ)), ptss[i]? = some ps ∧ SerialSample leaf ps out ∧ steps.length ≤ 20 ∧ (i = 0 → steps = []) ∧
    ∃ p ∈ out, ¬ CellDefined (1 / resolution) (moved (Props.posesAfter Pose.one steps) p)

end Verif.Spec

namespace Verif.Props

open Matrix Verif Verif.Knn Verif.KdTree Verif.Proofs Verif.Proofs.RegMem Verif.Factors Verif.Reduction Verif.Optimizer Verif.PointCloud Verif.RegMem Verif.Spec Verif.Lie
open Verif.Pipeline Verif.Features Verif.Downsample Verif.Helper Verif.OdometryPipeline Verif.Odometry Verif.Voxel Verif.OdometryModel

variable {e : Env} (he : EnvMeets e) {o : Params} (hleaf : o.downsamplingResolution ≠ 0) (hnb : 1 ≤ o.numNeighbors) (hres : o.voxelResolution ≠ 0)

/-- A preprocessed frame with sampled points `out`. -/
def MapFrameOf (e : Env) (o : Params) (out : List (Pt ℝ)) (p : MapFrame) : Prop :=
  LocalCovs out e.maxD o.numNeighbors.toNat p.cloud ∧ (∀ T fs, fs.length = out.length → (p.exec.lin T fs).Complete out.length ∧ (p.exec.err T fs).Complete out.length) ∧
  (∀ q ∈ out, CellDefined (1 / o.voxelResolution) q) ∧ (∃ ops, runOps gaussianKind.contents (VoxelMap.new o.voxelResolution) ops = .ok p.map) ∧ p.map.flat.length ≤ 2 ^ 32 ∧
  p.map.invLeaf = 1 / o.voxelResolution ∧ p.map.offsets = [(0, 0, 0)] ∧
  ∀ q y, (∃ i, Searched p.map q i y) ↔ cellMates out o.voxelResolution q ≠ [] ∧ y = centroid (cellMates out o.voxelResolution q)

include he hleaf hnb hres in
theorem prepareMap_ok {f : Frame} {ps : List (Pt ℝ)} (hf : CloudOf o.downsamplingResolution f.cloud ps)
    (hx : ∀ out, voxelgridSampling e.sort ps o.downsamplingResolution = .ok out → FrameRuns e f.exec out) :
    ∃ out, voxelgridSampling e.sort ps o.downsamplingResolution = .ok out ∧ SerialSample o.downsamplingResolution ps out ∧
      ((∃ p, sampleThenPrep (sampleFrame e o) (prepareMapFrame e o) f = .ok p ∧ MapFrameOf e o out p) ∨
        (sampleThenPrep (sampleFrame e o) (prepareMapFrame e o) f = .error .intOverflow ∧ ∃ q ∈ out, ¬ CellDefined (1 / o.voxelResolution) q)) := by
  obtain ⟨out, p, s1, s2, _, s4, s5⟩ := prepare_ok he hleaf hnb hf hx
  refine ⟨out, s1, s2, ?_⟩
  obtain ⟨c1, _, _, c4, c5⟩ := s5
  obtain ⟨_, c', h1, h2, h3⟩ := c1
  have hmap : newMap gaussianKind o.voxelResolution p.cloud = createVoxelmap c' o.voxelResolution := by
    unfold newMap createVoxelmap
    have : voxelSource p.cloud = voxelSource c' := by
      unfold voxelSource Cloud.size Cloud.point Cloud.cov
      rw [h2, h3]
    rw [this]
    rfl
  have hpre : sampleThenPrep (sampleFrame e o) (prepareMapFrame e o) f = (do
      let m ← createVoxelmap c' o.voxelResolution
      return ⟨f.exec, p.cloud, m⟩) := by
    unfold sampleThenPrep at s4 ⊢
    cases hs : sampleFrame e o f with
    | error x => rw [hs] at s4; cases s4
    | ok d =>
      have hd : d.exec = f.exec := by
        unfold sampleFrame at hs
        rw [cloudPoints_of f.cloud ps hf.1, ok_bind, s1, ok_bind] at hs
        cases hs
        rfl
      rw [hs, ok_bind] at s4
      simp only [ok_bind, prepareMapFrame, s4, hmap, hd]
  rw [hpre]
  obtain ⟨v1, v2⟩ := voxelmap_of h1 hres
  by_cases hall : ∀ q ∈ out, CellDefined (1 / o.voxelResolution) q
  · left
    obtain ⟨src, m, g1, g2, g3, g4, g5, g6⟩ := v2 hall
    refine ⟨⟨f.exec, p.cloud, m⟩, by rw [g1]; rfl, ⟨by assumption, c', h1, h2, h3⟩, (hx out s1).2.2, hall, ⟨_, g2⟩, by simp only; omega, g3, g4, g6⟩
  · right
    push Not at hall
    rw [v1 hall]
    exact ⟨rfl, hall⟩

include he in
theorem registerMap_ok {outT outS : List (Pt ℝ)} {t s : MapFrame} (ht : MapFrameOf e o outT t) (hs : MapFrameOf e o outS s) :
    (∃ R, registerMapFrames e o t s = .ok R ∧ (∃ steps : List (Fin 6 → ℝ), steps.length ≤ 20 ∧ R = posesAfter Pose.one steps) ∧
      ((∀ p ∈ outS, ¬ NearMean outT o.voxelResolution (o.maxCorrespondenceDistance * o.maxCorrespondenceDistance) Pose.one p) → R = Pose.one)) ∨
    (registerMapFrames e o t s = .error .intOverflow ∧ ∃ steps : List (Fin 6 → ℝ), steps.length ≤ 20 ∧ ∃ p ∈ outS, ¬ CellDefined (1 / o.voxelResolution) (moved (posesAfter Pose.one steps) p)) := by
  obtain ⟨_, _, _, ⟨ops, t4⟩, t5, t6, t7, t8⟩ := ht
  obtain ⟨s1, s2, _⟩ := hs
  rcases alignToMap_ok he gaussianKind_ok t4 t5 t6 t7 s1 s2 (o.maxCorrespondenceDistance * o.maxCorrespondenceDistance) Pose.one with ⟨R, a1, a2, a3⟩ | h
  · left
    refine ⟨R, a1, a2, fun hfar => a3 ?_⟩
    intro p hp i y hy
    by_contra hcon
    obtain ⟨j, v, l, h1, ⟨off, h2, h3⟩, h4, _⟩ := hy
    have hl : l = 0 := by
      have := (List.getElem?_eq_some_iff.1 h4).1
      simpa using this
    subst hl
    have hy : v.2.mean = y := by simpa using h4
    obtain ⟨g1, g2⟩ := (t8 (moved Pose.one p) y).1 ⟨j, v, h1, hy, off, h2, h3⟩
    exact hfar p hp ⟨g1, by rw [← g2]; exact not_lt.1 hcon⟩
  · exact Or.inr h

variable {frames : List Frame} {ptss : List (List (Pt ℝ))}

include he hleaf hnb hres in
/-- **C66.** The engines `small_vgicp_omp` and `small_vgicp_tbb`, which register each frame to the Gaussian voxel map of the frame before, on frames given as points, with any executions of the
parallel parts. The estimation returns a trajectory with one pose for each frame, and all pointers of the input are null afterwards; or it overflows a cell coordinate, and then some sampled point
has no cell as it is, or moved by at most 20 optimiser steps. Frames without points are no fault. -/
theorem C66_vgicp_odometry (hlen : frames.length = ptss.length)
    (hcl : ∀ (i : Nat) f ps, frames[i]? = some f → ptss[i]? = some ps → CloudOf o.downsamplingResolution f.cloud ps ∧
      ∀ out, voxelgridSampling e.sort ps o.downsamplingResolution = .ok out → FrameRuns e f.exec out) :
    (∃ s tr, vgicpOnline e o .init (frames.map some) = .ok (s, List.replicate frames.length none, tr) ∧ s.T = tr.getLast?.getD Pose.one ∧
      VoxelTrajectory o.downsamplingResolution o.voxelResolution (o.maxCorrespondenceDistance * o.maxCorrespondenceDistance) ptss tr) ∨
    (vgicpOnline e o .init (frames.map some) = .error .intOverflow ∧ LeavesCells o.downsamplingResolution o.voxelResolution ptss) := by
  have hframe : ∀ (i : Nat) f, frames[i]? = some f → ∃ ps out, ptss[i]? = some ps ∧ SerialSample o.downsamplingResolution ps out ∧
      ((∃ p, sampleThenPrep (sampleFrame e o) (prepareMapFrame e o) f = .ok p ∧ MapFrameOf e o out p) ∨
        (sampleThenPrep (sampleFrame e o) (prepareMapFrame e o) f = .error .intOverflow ∧ ∃ q ∈ out, ¬ CellDefined (1 / o.voxelResolution) q)) := by
    intro i f hf
    have hi : i < ptss.length := by rw [← hlen]; exact (List.getElem?_eq_some_iff.1 hf).1
    obtain ⟨h1, h2⟩ := hcl i f _ hf (List.getElem?_eq_getElem hi)
    obtain ⟨out, _, a2, a3⟩ := prepareMap_ok he hleaf hnb hres h1 h2
    exact ⟨_, out, List.getElem?_eq_getElem hi, a2, a3⟩
  have hone : ∀ p : Pt ℝ, moved Pose.one p = p := fun p => by rw [← mulPt_matrix, one_matrix, mulPt_one]
  obtain ⟨h1, h2⟩ := C62_online (sample := sampleFrame e o) (prep := prepareMapFrame e o) (reg := registerMapFrames e o) .init frames
  cases hr : vgicpOnline e o .init (frames.map some) with
  | error f =>
    right
    rcases h2 f hr with ⟨c, hc, h⟩ | ⟨t, c, p, ht, _⟩ | ⟨i, c, d, t, p, hc, hd, ht, hp, hreg⟩
    · obtain ⟨i, hi⟩ := List.getElem?_of_mem hc
      obtain ⟨ps, out, a1, a2, a3⟩ := hframe i c hi
      rcases a3 with ⟨p, hp, _⟩ | ⟨hp, q, hq, hbad⟩
      · rw [hp] at h
        cases h
      · rw [hp] at h
        cases h
        exact ⟨rfl, i, ps, out, [], a1, a2, by simp, fun _ => rfl, q, hq, by
          show ¬ CellDefined _ (moved Pose.one q)
          rw [hone]
          exact hbad⟩
    · cases ht
    · obtain ⟨ps, out, a1, a2, a3⟩ := hframe i c hc
      obtain ⟨ps', out', b1, b2, b3⟩ := hframe (i + 1) d hd
      rcases a3 with ⟨t', ht', g1⟩ | ⟨ht', _⟩
      swap
      · rw [ht'] at ht
        cases ht
      rcases b3 with ⟨p', hp', g2⟩ | ⟨hp', _⟩
      swap
      · rw [hp'] at hp
        cases hp
      rw [ht'] at ht
      cases ht
      rw [hp'] at hp
      cases hp
      rcases registerMap_ok he g1 g2 with ⟨R, q1, _⟩ | ⟨q1, steps, q2, q3⟩
      · rw [q1] at hreg
        cases hreg
      · rw [q1] at hreg
        cases hreg
        exact ⟨rfl, i + 1, ps', out', steps, b1, b2, q2, fun h => by omega, q3⟩
  | ok r =>
    left
    obtain ⟨s, pss, tr⟩ := r
    obtain ⟨hn, hpl, prepared, ⟨l1, l2, hprep, h0, _, hnext⟩, hT, _⟩ := h1 s pss tr hr
    have hps : pss = List.replicate frames.length none := List.eq_replicate_iff.2 ⟨hpl, hn⟩
    subst hps
    have hget : ∀ (i : Nat) p, prepared[i]? = some p → ∃ ps out, ptss[i]? = some ps ∧ SerialSample o.downsamplingResolution ps out ∧ MapFrameOf e o out p := by
      intro i p hp
      have hi : i < frames.length := by rw [← l1]; exact (List.getElem?_eq_some_iff.1 hp).1
      have e1 : frames[i]? = some frames[i] := List.getElem?_eq_getElem hi
      obtain ⟨ps, out, a1, a2, a3⟩ := hframe i _ e1
      have e2 := hprep i _ _ e1 hp
      rcases a3 with ⟨p', hp', g⟩ | ⟨hp', _⟩
      · rw [hp'] at e2
        cases e2
        exact ⟨ps, out, a1, a2, g⟩
      · rw [hp'] at e2
        cases e2
    have hpair : ∀ (i : Nat) T T', tr[i]? = some T → tr[i + 1]? = some T' → ∃ ps ps' outT outS R, ptss[i]? = some ps ∧ ptss[i + 1]? = some ps' ∧
        SerialSample o.downsamplingResolution ps outT ∧ SerialSample o.downsamplingResolution ps' outS ∧ T' = T.mul R ∧
        (∃ steps : List (Fin 6 → ℝ), steps.length ≤ 20 ∧ R = posesAfter Pose.one steps) ∧
        ((∀ p ∈ outS, ¬ NearMean outT o.voxelResolution (o.maxCorrespondenceDistance * o.maxCorrespondenceDistance) Pose.one p) → R = Pose.one) := by
      intro i T T' hT hT'
      have hi := (List.getElem?_eq_some_iff.1 hT').1
      have e1 : prepared[i]? = some (prepared[i]'(by omega)) := List.getElem?_eq_getElem _
      have e2 : prepared[i + 1]? = some (prepared[i + 1]'(by omega)) := List.getElem?_eq_getElem _
      obtain ⟨ps, outT, a1, a2, a3⟩ := hget i _ e1
      obtain ⟨ps', outS, b1, b2, b3⟩ := hget (i + 1) _ e2
      obtain ⟨R, hR, hmul⟩ := hnext i _ _ T T' e1 e2 hT hT'
      rcases registerMap_ok he a3 b3 with ⟨R', q1, q2, q3⟩ | ⟨q1, _⟩
      · rw [q1] at hR
        cases hR
        exact ⟨ps, ps', outT, outS, _, a1, b1, a2, b2, hmul, q2, q3⟩
      · rw [q1] at hR
        cases hR
    have hstep : ∀ (i : Nat) T T', tr[i]? = some T → tr[i + 1]? = some T' → ∃ steps : List (Fin 6 → ℝ), steps.length ≤ 20 ∧ T' = posesAfter T steps := by
      intro i T T' hT hT'
      obtain ⟨_, _, _, _, R, _, _, _, _, rfl, ⟨steps, hs, rfl⟩, _⟩ := hpair i T T' hT hT'
      exact ⟨steps, hs, by rw [← posesAfter_mul, pose_mul_one]⟩
    refine ⟨s, tr, rfl, hT, by omega, h0 rfl, hstep, ?_, ?_, ?_⟩
    · intro i ps ps' T T' hps hps' hT hT' hfar
      obtain ⟨qs, qs', outT, outS, R, b1, b2, b3, b4, rfl, _, hR⟩ := hpair i T T' hT hT'
      rw [hps] at b1
      rw [hps'] at b2
      cases b1
      cases b2
      rw [hR (hfar _ _ b3 b4), pose_mul_one]
    · have hall : ∀ (i : Nat) T, tr[i]? = some T → ∃ steps : List (Fin 6 → ℝ), steps.length ≤ 20 * i ∧ T = posesAfter Pose.one steps := by
        intro i
        induction i with
        | zero => exact fun T hT => ⟨[], by simp, h0 rfl T hT⟩
        | succ i ih =>
          intro T hT
          have hi : i + 1 < tr.length := (List.getElem?_eq_some_iff.1 hT).1
          have e1 : tr[i]? = some tr[i] := List.getElem?_eq_getElem (by omega)
          obtain ⟨s1, hl1, hs1⟩ := ih _ e1
          obtain ⟨s2, hl2, hs2⟩ := hstep i _ T e1 hT
          refine ⟨s1 ++ s2, by simp; omega, ?_⟩
          rw [posesAfter_append, ← hs1, hs2]
      intro i T hT hi
      obtain ⟨steps, hl, rfl⟩ := hall i T hT
      exact C41_drift_bound Pose.one ⟨by simp [Pose.one], by simp [Pose.one]⟩ steps (by omega)
    · intro ps hps
      obtain ⟨i, hi⟩ := List.getElem?_of_mem hps
      have hlt := (List.getElem?_eq_some_iff.1 hi).1
      obtain ⟨ps', out', a1, a2, a3⟩ := hget i _ (List.getElem?_eq_getElem (by omega))
      rw [hi] at a1
      cases a1
      exact ⟨out', a2, a3.2.2.1⟩

/-! ### concrete cases -/

theorem single_vgicp {e : Env} (he : EnvMeets e) {leaf : ℝ} (hleaf : leaf ≠ 0) {p : Pt ℝ} (hw : p.w = 1) (hkey : KeyDefined leaf p) :
    (CellDefined 1 p → ∃ s, vgicpOnline e ⟨20, leaf, 1, 1⟩ .init [some (plainFrame [p])] = .ok (s, [none], [Pose.one])) ∧
    (¬ CellDefined 1 p → vgicpOnline e ⟨20, leaf, 1, 1⟩ .init [some (plainFrame [p])] = .error .intOverflow) := by
  have hok := plainFrame_ok e (leaf := leaf) (pts := [p]) (by simpa using hw) (by simp) (by simpa using hkey)
  have hone : moved Pose.one p = p := by rw [← mulPt_matrix, one_matrix, mulPt_one]
  have h := C66_vgicp_odometry he (o := ⟨20, leaf, 1, 1⟩) hleaf (by norm_num) one_ne_zero (frames := [plainFrame [p]]) (ptss := [[p]]) rfl (by
    intro i f ps hf hp
    match i with
    | 0 => cases hf; cases hp; exact ⟨hok.1, fun out _ => hok.2 out⟩
    | i + 1 => cases hf)
  rcases h with ⟨s, tr, h1, _, h2⟩ | ⟨h1, i, ps, out, steps, h2, h3, _, h5, q, hq, hbad⟩
  · have hl1 := h2.poses
    obtain ⟨out, c1, c2⟩ := h2.cells [p] (by simp)
    have hout := single_sample hw c1
    subst hout
    have hin : CellDefined 1 p := by simpa using c2 p (by simp)
    match tr, hl1 with
    | [T], _ =>
      obtain rfl := h2.first T rfl
      exact ⟨fun _ => ⟨s, h1⟩, fun h => absurd hin h⟩
  · match i with
    | 0 =>
      cases h2
      have hout := single_sample hw h3
      subst hout
      rw [List.mem_singleton] at hq
      subst hq
      rw [h5 rfl] at hbad
      have hbad : ¬ CellDefined (1 / 1) (moved Pose.one q) := hbad
      rw [hone] at hbad
      exact ⟨fun h => absurd (by simpa using h) hbad, fun _ => h1⟩
    | i + 1 => cases h2

/-- The premises of C66 are met, and both outcomes occur. -/
example : ∃ e : Env, EnvMeets e ∧ (∃ s, vgicpOnline e ⟨20, 1, 1, 1⟩ .init [some (plainFrame [⟨5, 6, 7, 1⟩])] = .ok (s, [none], [Pose.one])) ∧
    vgicpOnline e ⟨20, 1000, 1, 1⟩ .init [some (plainFrame [⟨3000000000, 0, 0, 1⟩])] = .error .intOverflow := by
  obtain ⟨e, he, _⟩ := env_exists 1000 (by norm_num) (0, 0)
  refine ⟨e, he, (single_vgicp he one_ne_zero rfl (by simp [KeyDefined, KeyFits, INT_MIN, INT_MAX])).1 (by simp [CellDefined, INT_MIN, INT_MAX]), (single_vgicp he (by norm_num) rfl ?_).2 ?_⟩
  · simp only [KeyDefined, KeyFits, INT_MIN, INT_MAX]
    norm_num [Int.floor_le, Int.le_floor, Int.floor_lt]
  · simp [CellDefined, INT_MIN, INT_MAX]

end Verif.Props
