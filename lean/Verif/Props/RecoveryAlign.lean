import Verif.Props.Recovery
import Verif.Props.GaussNewton

/-!
C89 for `Registration::align` on clouds as they are in memory.
-/

set_option linter.unusedSectionVars false
set_option linter.unusedSimpArgs false
set_option linter.unnecessarySeqFocus false

namespace Verif.Props

open Matrix Verif Verif.Knn Verif.KdTree Verif.Proofs Verif.Proofs.RegMem Verif.Factors Verif.Reduction Verif.Optimizer Verif.PointCloud Verif.RegMem Verif.Spec Verif.Lie
open Verif.Pipeline Verif.Features Verif.Downsample Verif.Helper

/-- With the point-to-point and the distribution-to-distribution metric, points that are not on a line determine the pose. -/
theorem observable_points {m : Metric} (hm : m ≠ .plane) {tgt src : List Site} {T : Pose ℝ} (h : Overlaps tgt src T) (ht : ∀ t ∈ tgt, LocalSite t) (hs : ∀ s ∈ src, LocalSite s)
    (hline : ¬ OnLine (src.map Site.pos)) : Observable m tgt src T := by
  intro x hx
  by_contra hc
  push Not at hc
  refine hline ((line_twist _).2 ⟨x, hx, fun p hp => ?_⟩)
  obtain ⟨s, hsm, rfl⟩ := List.mem_map.1 hp
  obtain ⟨t, htm, hpos⟩ := h.image s hsm
  have h0 := hc s hsm t htm hpos
  rw [speed_formula] at h0
  have hdef := local_definite hm T (ht t htm) (hs s hsm)
  have hv : T.R *ᵥ (skew s.pos *ᵥ rot x - tra x) = 0 := by
    by_contra hne
    have := hdef _ hne
    rw [h0, dotProduct_zero] at this
    exact lt_irrefl _ this
  have h1 : T.Rᵀ *ᵥ (T.R *ᵥ (skew s.pos *ᵥ rot x - tra x)) = 0 := by rw [hv, mulVec_zero]
  rwa [mulVec_mulVec, h.rigid.1, one_mulVec] at h1

theorem overlaps_points {outT outS : List (Pt ℝ)} {maxD : ℝ} {k : Nat} {tgt src : List Site} {T : Pose ℝ} (hT : LocalSites outT maxD k tgt) (hS : LocalSites outS maxD k src)
    (hrot : IsRotation T.R) (himg : ∀ p ∈ outS, ∃ q ∈ outT, xyz q = move T (xyz p)) (hdist : (outT.map xyz).Nodup) : Overlaps tgt src T := by
  refine ⟨hrot, fun s hs => ?_, fun t ht t' ht' he => ?_⟩
  · have : s.pos ∈ outS.map xyz := hS.1 ▸ List.mem_map_of_mem hs
    obtain ⟨p, hp, hps⟩ := List.mem_map.1 this
    obtain ⟨q, hq, hqp⟩ := himg p hp
    have hq' : xyz q ∈ tgt.map Site.pos := hT.1 ▸ List.mem_map_of_mem hq
    obtain ⟨t, ht, htq⟩ := List.mem_map.1 hq'
    exact ⟨t, ht, by rw [htq, hqp, hps]⟩
  · rw [← hT.1] at hdist
    exact List.inj_on_of_nodup_map hdist ht ht' he

section Clouds

variable {e : Env} (he : EnvMeets e) {m : Metric} {needs : Needs} {F : Type} {mf : MemFactor F ℝ} {pf : PointFactor F ℝ} {Inv : F → Prop} (hmf : MetricFactor e.inv m needs mf pf Inv) (hm : m ≠ .plane)
  {outT outS : List (Pt ℝ)} {k : Nat} {ct cs : RCloud} {t : KdTree.Tree ℝ} {gate : ℝ} (hgate : gate < e.maxD) (hpos : 0 < gate)
  (hN : outT.length < 2 ^ 32) (hT : LocalFeatures outT e.maxD k ct) (hS : LocalFeatures outS e.maxD k cs) (hTw : ∀ p ∈ outT, p.w = 1) (hSw : ∀ p ∈ outS, p.w = 1)
  (ht : outT ≠ [] → TreeOf e.builder outT t) (ht0 : outT = [] → t = ⟨[], [], none⟩)
  {T : Pose ℝ} (hrot : IsRotation T.R) (himg : ∀ p ∈ outS, ∃ q ∈ outT, xyz q = move T (xyz p)) (hdist : (outT.map xyz).Nodup) (hline : ¬ OnLine (outS.map xyz))

theorem target_nonempty {outT outS : List (Pt ℝ)} {T : Pose ℝ} (himg : ∀ p ∈ outS, ∃ q ∈ outT, xyz q = move T (xyz p)) : outT = [] → outS = [] := by
  rintro rfl
  by_contra hne
  obtain ⟨p, hp⟩ := List.exists_mem_of_ne_nil _ hne
  obtain ⟨q, hq, _⟩ := himg p hp
  cases hq

include he hmf hm hgate hpos hN hT hS hTw hSw ht ht0 hrot himg hdist hline

/-- C89. `Registration::align` with the Gauss–Newton optimiser and the ICP or the GICP factor, for any reduction and every complete execution, on two clouds of which the source is brought point by point
onto the target by the rigid pose `T`: if the points of the target are distinct and those of the source are not on a line, all initial poses in a neighbourhood of `T` lead back to it. -/
theorem C89_align_gauss_newton {lam : ℝ} (hlam : 0 < lam) : ∃ radius ρ C : ℝ, 0 < radius ∧ 0 ≤ ρ ∧ ρ < 1 ∧ 0 ≤ C ∧ ∀ (initT : Pose ℝ), IsRotation initT.R → poseGap initT T ≤ radius →
    ∀ (execL execE : Pose ℝ → List F → Exec), (∀ T fs, fs.length = cs.size → (execL T fs).Complete cs.size) → (∀ T fs, fs.length = cs.size → (execE T fs).Complete cs.size) →
    ∀ (re te : ℝ) (maxIter : Int), maxIter < 2 ^ 31 →
      ∃ out, RegMem.align mf (cloudWorld ct cs (kdNearest e.maxD outT t (outT.length + 1) e.junk)) ⟨distanceRejector gate, nullFactor, e.solve, se3Exp, converged re te⟩ execL execE (.gn lam maxIter)
          initT cs.size = .ok out ∧ Recovered T ρ C (poseGap initT T) re te maxIter.toNat outS.length out.1 ∧
        (0 < maxIter → C * (ρ ^ (maxIter.toNat - 1) * poseGap initT T + poseGap initT T ^ 8) ≤ min re te → out.1.converged = true) := by
  have hsT := cloud_sites hT
  have hsS := cloud_sites hS
  have hov := overlaps_points hsT hsS hrot himg hdist
  have hline' : ¬ OnLine ((cloudSites cs).map Site.pos) := by rwa [hsS.1]
  have hlen : (cloudSites cs).length = outS.length := by simpa using congrArg List.length hsS.1
  obtain ⟨radius, ρ, C, h1, h2, h3, h4, h5⟩ := C89_gauss_newton (observable_points hm hov (local_sites hsT) (local_sites hsS) hline') hov (local_sites hsT) (local_sites hsS) hpos hlam.le
  refine ⟨radius, ρ, C, h1, h2, h3, h4, fun initT hi hgap execL execE hL hE re te maxIter hmax => ?_⟩
  obtain ⟨out, a1, _, _, a2⟩ := C87_run he hmf execL execE hL hE hgate re te hlam maxIter hN hT hS hTw hSw ht ht0 initT (fun hh => hh.2.1 (target_nonempty himg hh.1))
  obtain ⟨b1, b2⟩ := h5 initT hi hgap re te _ _ (by omega) a2
  exact ⟨out, a1, hlen ▸ b1, fun h0 => b2 (by omega)⟩

/-- C89. The same for the Levenberg–Marquardt optimiser. -/
theorem C89_align {lam : ℝ} (hlam : 0 < lam) : ∃ radius ρ C : ℝ, 0 < radius ∧ 0 ≤ ρ ∧ ρ < 1 ∧ 0 ≤ C ∧ ∀ (initT : Pose ℝ), IsRotation initT.R → poseGap initT T ≤ radius →
    ∀ (execL execE : Pose ℝ → List F → Exec), (∀ T fs, fs.length = cs.size → (execL T fs).Complete cs.size) → (∀ T fs, fs.length = cs.size → (execE T fs).Complete cs.size) →
    ∀ (re te : ℝ) (st : LMSetting ℝ), st.initLambda = lam → 1 ≤ st.lambdaFactor → 0 < st.maxInner → st.maxIterations < 2 ^ 31 →
      ∃ out, RegMem.align mf (cloudWorld ct cs (kdNearest e.maxD outT t (outT.length + 1) e.junk)) ⟨distanceRejector gate, nullFactor, e.solve, se3Exp, converged re te⟩ execL execE (.lm st)
          initT cs.size = .ok out ∧ Recovered T ρ C (poseGap initT T) re te st.maxIterations.toNat outS.length out.1 := by
  have hsT := cloud_sites hT
  have hsS := cloud_sites hS
  have hov := overlaps_points hsT hsS hrot himg hdist
  have hline' : ¬ OnLine ((cloudSites cs).map Site.pos) := by rwa [hsS.1]
  have hlen : (cloudSites cs).length = outS.length := by simpa using congrArg List.length hsS.1
  obtain ⟨radius, ρ, C, h1, h2, h3, h4, h5⟩ := C89_levenberg_marquardt (observable_points hm hov (local_sites hsT) (local_sites hsS) hline') hov (local_sites hsT) (local_sites hsS) hpos hlam.le
  refine ⟨radius, ρ, C, h1, h2, h3, h4, fun initT hi hgap execL execE hL hE re te st hst hfac hin hmax => ?_⟩
  subst hst
  obtain ⟨out, a1, a2⟩ := clouds_align he hmf execL execE hL hE hgate re te hlam (by linarith) hN hT hS hTw hSw ht ht0 initT (fun hh => hh.2.1 (target_nonempty himg hh.1))
  exact ⟨out, a1, hlen ▸ h5 initT hi hgap _ _ re te _ _ (by omega) hfac (by omega) a2⟩

end Clouds

/-- A triangle, and the same one turned by a quarter and moved. -/
def triangle : List (Pt ℝ) := [⟨0, 0, 0, 1⟩, ⟨1, 0, 0, 1⟩, ⟨0, 1, 0, 1⟩]

def turnedTriangle : List (Pt ℝ) := [⟨5, 0, 0, 1⟩, ⟨5, 1, 0, 1⟩, ⟨4, 0, 0, 1⟩]

def quarterTurn : Pose ℝ := ⟨!![0, -1, 0; 1, 0, 0; 0, 0, 1], ![5, 0, 0]⟩

/-- The hypotheses of `C89_align` hold for the two triangles with features from the library's estimation, with GICP: there are other initial poses than the true one, and from all of them the
triangle is brought back. -/
example : ∃ (e : Env) (t : KdTree.Tree ℝ) (ct cs : RCloud) (radius ρ C : ℝ), 0 < radius ∧ ρ < 1 ∧ LocalFeatures turnedTriangle e.maxD 10 ct ∧ LocalFeatures triangle e.maxD 10 cs ∧
    (∃ initT : Pose ℝ, initT ≠ quarterTurn ∧ IsRotation initT.R ∧ poseGap initT quarterTurn ≤ radius) ∧
    ∀ initT : Pose ℝ, IsRotation initT.R → poseGap initT quarterTurn ≤ radius →
      ∃ out, RegMem.align (gicpMem e.inv) (cloudWorld ct cs (kdNearest e.maxD turnedTriangle t 4 e.junk)) ⟨distanceRejector 1, nullFactor, e.solve, se3Exp, converged (1 / 10) (1 / 1000)⟩
          (fun _ _ => .serial) (fun _ _ => .serial) (.lm ⟨20, 10, 1 / 1000, 10⟩) initT cs.size = .ok out ∧
        Recovered quarterTurn ρ C (poseGap initT quarterTurn) (1 / 10) (1 / 1000) 20 3 out.1 := by
  obtain ⟨e, he, hmax, _⟩ := env_exists 1000 (by norm_num) (0, 0)
  have hrot : IsRotation quarterTurn.R := by
    constructor
    · ext i j
      fin_cases i <;> fin_cases j <;> simp [quarterTurn, Matrix.mul_apply, Fin.sum_univ_three]
    · simp [quarterTurn, Matrix.det_fin_three]
  have hfeat : ∀ out : List (Pt ℝ), out.length < 2 ^ 32 → ∃ t c, (out ≠ [] → TreeOf e.builder out t) ∧ LocalFeatures out e.maxD 10 c := by
    intro out hN
    obtain ⟨t, _, h2, _⟩ := tree_defined he hN
    obtain ⟨c, hc⟩ := features_defined he hN h2 (k := 10) (by norm_num)
    exact ⟨t, c, h2, features_values he hN h2 (by norm_num) hc⟩
  obtain ⟨t, ct, ht, hT⟩ := hfeat turnedTriangle (by simp [turnedTriangle])
  obtain ⟨_, cs, _, hS⟩ := hfeat triangle (by simp [triangle])
  have hmove : ∀ x y : ℝ, move quarterTurn ![x, y, 0] = ![5 - y, x, 0] := by
    intro x y
    funext i
    fin_cases i <;> simp [move, quarterTurn, mulVec, dotProduct, Fin.sum_univ_three] <;> ring
  obtain ⟨radius, ρ, C, h1, _, h3, _, h5⟩ := C89_align he (m := .cov) MetricFactor.cov (by simp) (outT := turnedTriangle) (outS := triangle) (k := 10) (ct := ct) (cs := cs) (t := t) (gate := 1)
    (by rw [hmax]; norm_num) one_pos (by simp [turnedTriangle]) hT hS (by simp [turnedTriangle]) (by simp [triangle]) ht (by simp [turnedTriangle]) (T := quarterTurn) hrot
    (by
      intro p hp
      simp only [triangle, List.mem_cons, List.not_mem_nil, or_false] at hp
      rcases hp with rfl | rfl | rfl
      · exact ⟨⟨5, 0, 0, 1⟩, by simp [turnedTriangle], by simp only [xyz]; rw [hmove]; norm_num⟩
      · exact ⟨⟨5, 1, 0, 1⟩, by simp [turnedTriangle], by simp only [xyz]; rw [hmove]; norm_num⟩
      · exact ⟨⟨4, 0, 0, 1⟩, by simp [turnedTriangle], by simp only [xyz]; rw [hmove]; norm_num⟩)
    (by simp [turnedTriangle, xyz])
    (by
      rintro ⟨c, d, hd, h⟩
      obtain ⟨s0, h0⟩ := h ![0, 0, 0] (by simp [triangle, xyz])
      obtain ⟨s1, h1⟩ := h ![1, 0, 0] (by simp [triangle, xyz])
      obtain ⟨s2, h2⟩ := h ![0, 1, 0] (by simp [triangle, xyz])
      have a0 := congrFun h0 0
      have a1 := congrFun h0 1
      have b0 := congrFun h1 0
      have b1 := congrFun h1 1
      have c0 := congrFun h2 0
      have c1 := congrFun h2 1
      simp at a0 a1 b0 b1 c0 c1
      have e1 : (s1 - s0) * d 0 = 1 := by linarith
      have e2 : (s1 - s0) * d 1 = 0 := by linarith
      have e3 : (s2 - s0) * d 1 = 1 := by linarith
      rcases mul_eq_zero.1 e2 with h | h
      · rw [h] at e1; norm_num at e1
      · rw [h] at e3; norm_num at e3)
    (lam := 1 / 1000) (by norm_num)
  refine ⟨e, t, ct, cs, radius, ρ, C, h1, h3, hT, hS, ⟨⟨quarterTurn.R, quarterTurn.t + ![radius, 0, 0]⟩, ?_, hrot, ?_⟩, fun initT hi hgap => ?_⟩
  · intro h
    have := congrFun (congrArg Pose.t h) 0
    simp at this
    linarith
  · unfold poseGap
    rw [show fro (quarterTurn.R - quarterTurn.R) = 0 by simp [fro, len, dotProduct]]
    have : len (quarterTurn.t + ![radius, 0, 0] - quarterTurn.t) ^ 2 = radius ^ 2 := by
      rw [len_sq, add_sub_cancel_left]
      simp [dotProduct, Fin.sum_univ_three]
      ring
    simp only
    rw [this, zero_pow (by norm_num), mul_zero, zero_add, Real.sqrt_sq h1.le]
  · exact h5 initT hi hgap (fun _ _ => .serial) (fun _ _ => .serial) (fun _ _ _ => trivial) (fun _ _ _ => trivial) _ _ ⟨20, 10, 1 / 1000, 10⟩ rfl (by norm_num) (by norm_num) (by norm_num)

/-- A site with a surface. -/
noncomputable def surfaceSite (p n : Fin 3 → ℝ) : Site := ⟨p, n, 1 - (999 / 1000 : ℝ) • vecMulVec n n⟩

/-- Two points on each of three surfaces across each other. -/
noncomputable def threeSurfaces : List Site :=
  [surfaceSite ![0, 1, 0] ![1, 0, 0], surfaceSite ![0, -1, 0] ![1, 0, 0], surfaceSite ![0, 0, 1] ![0, 1, 0], surfaceSite ![0, 0, -1] ![0, 1, 0], surfaceSite ![1, 0, 0] ![0, 0, 1],
    surfaceSite ![-1, 0, 0] ![0, 0, 1]]

theorem plane_sensed {p n : Fin 3 → ℝ} {x : Fin 6 → ℝ} (h : n ⬝ᵥ (skew p *ᵥ rot x - tra x) ≠ 0) (hn : n = ![1, 0, 0] ∨ n = ![0, 1, 0] ∨ n = ![0, 0, 1]) :
    pairWeight .plane Pose.one (surfaceSite p n) (surfaceSite p n) *ᵥ pairSpeed Pose.one x (surfaceSite p n) (surfaceSite p n) ≠ 0 := by
  intro h0
  apply h
  rw [speed_formula] at h0
  have e1 : (Pose.one : Pose ℝ).R = 1 := rfl
  rw [e1, one_mulVec] at h0
  have hp : (surfaceSite p n).pos = p := rfl
  rw [hp] at h0
  generalize skew p *ᵥ rot x - tra x = v at h0 ⊢
  have hw : pairWeight .plane Pose.one (surfaceSite p n) (surfaceSite p n) = Matrix.diagonal (fun i => n i ^ 2) := rfl
  rw [hw] at h0
  rcases hn with rfl | rfl | rfl
  · simpa [mulVec_diagonal, dotProduct, Fin.sum_univ_three] using congrFun h0 0
  · simpa [mulVec_diagonal, dotProduct, Fin.sum_univ_three] using congrFun h0 1
  · simpa [mulVec_diagonal, dotProduct, Fin.sum_univ_three] using congrFun h0 2

/-- The hypotheses of `C89_levenberg_marquardt` and `C89_gauss_newton` hold for point-to-plane registration of the surfaces with themselves. -/
example : Observable .plane threeSurfaces threeSurfaces Pose.one ∧ Overlaps threeSurfaces threeSurfaces Pose.one ∧ ∀ s ∈ threeSurfaces, LocalSite s := by
  refine ⟨fun x hx => ?_, ⟨⟨by simp [Pose.one], by simp [Pose.one]⟩, fun s hs => ⟨s, hs, by simp [move, Pose.one]⟩, ?_⟩, ?_⟩
  · by_contra hc
    push Not at hc
    have key : ∀ p n : Fin 3 → ℝ, (n = ![1, 0, 0] ∨ n = ![0, 1, 0] ∨ n = ![0, 0, 1]) → surfaceSite p n ∈ threeSurfaces → n ⬝ᵥ (skew p *ᵥ rot x - tra x) = 0 := by
      intro p n hn hmem
      by_contra hne
      exact plane_sensed hne hn (hc _ hmem _ hmem (by simp [move, Pose.one]))
    have k1 := key ![0, 1, 0] ![1, 0, 0] (by simp) (by simp [threeSurfaces])
    have k2 := key ![0, -1, 0] ![1, 0, 0] (by simp) (by simp [threeSurfaces])
    have k3 := key ![0, 0, 1] ![0, 1, 0] (by simp) (by simp [threeSurfaces])
    have k4 := key ![0, 0, -1] ![0, 1, 0] (by simp) (by simp [threeSurfaces])
    have k5 := key ![1, 0, 0] ![0, 0, 1] (by simp) (by simp [threeSurfaces])
    have k6 := key ![-1, 0, 0] ![0, 0, 1] (by simp) (by simp [threeSurfaces])
    simp [skew, mulVec, dotProduct, Fin.sum_univ_three, rot, tra] at k1 k2 k3 k4 k5 k6
    apply hx
    funext i
    fin_cases i <;> simp <;> linarith
  · intro t ht t' ht' h
    simp only [threeSurfaces, List.mem_cons, List.not_mem_nil, or_false] at ht ht'
    rcases ht with rfl | rfl | rfl | rfl | rfl | rfl <;> rcases ht' with rfl | rfl | rfl | rfl | rfl | rfl <;> first | rfl | (exfalso; have h0 := congrFun h 0; have h1 := congrFun h 1; have h2 := congrFun h 2; simp [surfaceSite] at h0 h1 h2; try linarith)
  · intro s hs
    simp only [threeSurfaces, List.mem_cons, List.not_mem_nil, or_false] at hs
    rcases hs with rfl | rfl | rfl | rfl | rfl | rfl <;> exact Or.inr ⟨by simp [surfaceSite, dotProduct, Fin.sum_univ_three], rfl⟩

end Verif.Props
