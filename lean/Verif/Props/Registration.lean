import Verif.Proofs.Stationary
import Verif.Props.Optimizer

/-! C43, C46: aligned pairs and problems without correspondences. -/

set_option linter.unusedSectionVars false
set_option linter.unusedSimpArgs false

namespace Verif.Props

open Matrix Verif Verif.Proofs Verif.Factors Verif.Spec Verif.Reduction Verif.Optimizer Verif.Lie

variable {F : Type}

/-- The general factors of the library: none, or restricted degrees of freedom with a non-negative weight. -/
inductive ShippedGeneral : General ℝ → Prop where
  | null : ShippedGeneral nullFactor
  | restrict (f : RestrictDoF ℝ) (h : 0 ≤ f.lambda) : ShippedGeneral f.general

theorem diagonal_psd {a : Fin 6 → ℝ} (ha : ∀ i, 0 ≤ a i) : SymPSD (diagonal a) := by
  refine ⟨diagonal_transpose a, fun x => ?_⟩
  simp only [dotProduct, mulVec_diagonal]
  apply Finset.sum_nonneg
  intro i _
  have := mul_nonneg (ha i) (mul_self_nonneg (x i))
  nlinarith

theorem shippedGeneral_update {g : General ℝ} (hg : ShippedGeneral g) (T : Pose ℝ) {H : Matrix (Fin 6) (Fin 6) ℝ} (hH : SymPSD H) (b : Fin 6 → ℝ) (e : ℝ) :
    ∃ H', g.updateLinearized T (H, b, e) = (H', b, e) ∧ SymPSD H' := by
  cases hg with
  | null => exact ⟨H, rfl, hH⟩
  | restrict f hf => exact ⟨_, rfl, hH.add ((diagonal_psd (fun i => abs_nonneg _)).smul hf)⟩

theorem shippedGeneral_error {g : General ℝ} (hg : ShippedGeneral g) (T : Pose ℝ) (e : ℝ) : g.updateError T e = e := by
  cases hg <;> rfl

theorem converged_zero {re te : ℝ} (hr : 0 ≤ re) (ht : 0 ≤ te) : converged re te 0 = true := by
  have h1 : rot 0 = 0 := by funext i; fin_cases i <;> rfl
  have h2 : tra 0 = 0 := by funext i; fin_cases i <;> rfl
  unfold converged
  rw [h1, h2]
  simp [hr, ht]

/-- A fresh factor is no inlier. -/
theorem shipped_init {pf : PointFactor F ℝ} (hpf : Shipped pf) : pf.inlier pf.init = false := by
  induction hpf with
  | icp => rfl
  | plane => rfl
  | gicp inv => simp [gicpFactor, GICP.inlier, GICP.init]
  | robust w sqrt _ ih => exact ih

/-! ### C46 -/

/-- No source point has a correspondence at the initial guess: the initial guess is returned with zero inliers and zero error, for
every factor type, search, rejector and budget (also without any source point). With at least one iteration and non-negative
thresholds the run claims convergence. -/
theorem C46_no_correspondence {pf : PointFactor F ℝ} (hpf : Shipped pf) (sc : Scene ℝ) (hn : SearchIndices sc) (rej : Rejector ℝ) (g : General ℝ) (hg : ShippedGeneral g)
    (solve : Matrix (Fin 6) (Fin 6) ℝ → (Fin 6 → ℝ) → (Fin 6 → ℝ)) (hs : SolveContract solve) (rotationEps translationEps : ℝ)
    (T0 : Pose ℝ) (n : Nat) (hnone : ∀ i < n, correspondence sc rej T0 i = none) :
    (∀ st : LMSetting ℝ, 0 < st.initLambda → 0 < st.lambdaFactor → 0 < st.maxInner →
      ∃ r fs' log, alignLM pf (registrationProblem pf sc rej g solve se3Exp (converged rotationEps translationEps)) st T0 n = .ok (r, fs', log) ∧
        r.T = T0 ∧ r.numInliers = 0 ∧ r.error = 0 ∧
        (0 < st.maxIterations → 0 ≤ rotationEps → 0 ≤ translationEps → r.converged = true ∧ log.length = 1)) ∧
    (∀ lambda m, 0 < lambda →
      ∃ r fs' log, alignGN pf (registrationProblem pf sc rej g solve se3Exp (converged rotationEps translationEps)) lambda m T0 n = .ok (r, fs', log) ∧
        r.T = T0 ∧ r.numInliers = 0 ∧ r.error = 0 ∧
        (0 < m → 0 ≤ rotationEps → 0 ≤ translationEps → r.converged = true ∧ log.length = 1)) := by
  have hlin : ∀ fs : List F, fs.length = n → ∃ fs1, serialLinearize (pf.linearize sc rej T0) fs = .ok (fs1, (0, 0, 0)) ∧ fs1.length = n ∧
      (∀ f ∈ fs1, pf.inlier f = false ∧ ∀ T', pf.error sc T' f = 0) := by
    intro fs hlen
    rw [serial_ok]
    refine ⟨fs.mapIdx (fun i f => (pf.linearize sc rej T0 i f).1), ?_, by simp [hlen], ?_⟩
    rotate_left
    · intro f hf
      rw [List.mem_mapIdx] at hf
      obtain ⟨i, hi, rfl⟩ := hf
      exact ((factor_cases hpf sc hn rej T0 i fs[i]).2 (hnone i (by omega))).2
    · unfold reduceSpec
      congr 2
      show _ = (0 : Sys ℝ)
      apply List.sum_eq_zero
      intro x hx
      rw [List.mem_mapIdx] at hx
      obtain ⟨i, hi, rfl⟩ := hx
      rw [((factor_cases hpf sc hn rej T0 i fs[i]).2 (hnone i (by omega))).1]
      rfl
  have hstill : Still (registrationProblem pf sc rej g solve se3Exp (converged rotationEps translationEps)) T0 (fun fs => fs.length = n) 0 := by
    refine ⟨fun fs hfs => ?_, shippedGeneral_error hg T0⟩
    obtain ⟨fs1, h1, h2, h3⟩ := hlin fs hfs
    obtain ⟨H', h4, h5⟩ := shippedGeneral_update hg T0 (H := 0) Verif.Spec.GoodSystem.zero.hess 0 0
    refine ⟨fs1, _, H', h1, h4, h5, h2, ?_⟩
    show serialError (pf.error sc T0) fs1 = _
    rw [serialError_ok]
    unfold errorSpec
    congr 1
    apply List.sum_eq_zero
    intro x hx
    obtain ⟨f, hf, rfl⟩ := List.mem_map.1 hx
    exact (h3 f hf).2 T0
  have hcount : ∀ fs0 fs' : List F, ∀ s, fs0.length = n → serialLinearize (pf.linearize sc rej T0) fs0 = .ok (fs', s) → fs'.countP pf.inlier = 0 := by
    intro fs0 fs' s h0 h1
    obtain ⟨fs1, h2, _, h3⟩ := hlin fs0 h0
    rw [h1] at h2
    simp only [Except.ok.injEq, Prod.mk.injEq] at h2
    rw [h2.1, List.countP_eq_zero]
    intro f hf
    simp [(h3 f hf).1]
  have hcount0 : (List.replicate n pf.init).countP pf.inlier = 0 := by
    rw [List.countP_eq_zero]
    intro f hf
    rw [(List.mem_replicate.1 hf).2, shipped_init hpf]
    simp
  refine ⟨fun st hl hf hm => ?_, fun lambda m hl => ?_⟩
  · obtain ⟨r, fs', log, h1, h2, _, h4, h5⟩ := lmLoop_still hstill hs C42_zero hf (maxInner := st.maxInner.toNat) (by omega) (fuel := st.maxIterations.toNat) (i := 0)
      (lambda := st.initLambda) (r := Result.init T0) (fs := List.replicate n pf.init) hl rfl (by simp) rfl
    refine ⟨countInliers (registrationProblem pf sc rej g solve se3Exp (converged rotationEps translationEps)) r fs', fs', log, ?_, h2, ?_, ?_, ?_⟩
    · unfold alignLM levenbergMarquardt
      rw [h1, ok_bind]
    · rcases Nat.eq_zero_or_pos st.maxIterations.toNat with h0 | h0
      · rw [(h4 h0).2]; exact hcount0
      · obtain ⟨_, _, ⟨fs0, s, h6, h7⟩, _⟩ := h5 h0
        exact hcount fs0 fs' s h6 h7
    · rcases Nat.eq_zero_or_pos st.maxIterations.toNat with h0 | h0
      · show r.error = 0
        rw [(h4 h0).1]; rfl
      · exact (h5 h0).1
    · intro hi hr ht
      obtain ⟨_, _, _, h6, h7⟩ := h5 (by omega)
      have hcv : (registrationProblem pf sc rej g solve se3Exp (converged rotationEps translationEps)).converged 0 = true := converged_zero hr ht
      rw [hcv] at h6 h7
      exact ⟨h6, by simpa using h7⟩
  · obtain ⟨r, fs', log, h1, h2, _, h4, h5⟩ := gnLoop_still hstill hs C42_zero hl (fuel := m.toNat) (i := 0)
      (r := Result.init T0) (fs := List.replicate n pf.init) rfl (by simp) rfl
    refine ⟨countInliers (registrationProblem pf sc rej g solve se3Exp (converged rotationEps translationEps)) r fs', fs', log, ?_, h2, ?_, ?_, ?_⟩
    · unfold alignGN gaussNewton
      rw [h1, ok_bind]
    · rcases Nat.eq_zero_or_pos m.toNat with h0 | h0
      · rw [(h4 h0).2]; exact hcount0
      · obtain ⟨_, _, ⟨fs0, s, h6, h7⟩, _⟩ := h5 h0
        exact hcount fs0 fs' s h6 h7
    · rcases Nat.eq_zero_or_pos m.toNat with h0 | h0
      · show r.error = 0
        rw [(h4 h0).1]; rfl
      · exact (h5 h0).1
    · intro hi hr ht
      obtain ⟨_, _, _, h6, h7⟩ := h5 (by omega)
      have hcv : (registrationProblem pf sc rej g solve se3Exp (converged rotationEps translationEps)).converged 0 = true := converged_zero hr ht
      rw [hcv] at h6 h7
      exact ⟨h6, by simpa using h7⟩

/-! ### C43 -/

/-- The search finds, among the first `n` target points, one at the least squared distance (so there is at least one point). -/
def ExactSearch (sc : Scene ℝ) (n : Nat) : Prop :=
  (∀ q k d, sc.nn q = some (k, d) → k < n) ∧
  ∀ i < n, ∃ k d, sc.nn (sc.tgtPoint i) = some (k, d) ∧ d = (sc.tgtPoint k - sc.tgtPoint i) ⬝ᵥ (sc.tgtPoint k - sc.tgtPoint i) ∧
    ∀ j < n, d ≤ (sc.tgtPoint j - sc.tgtPoint i) ⬝ᵥ (sc.tgtPoint j - sc.tgtPoint i)

theorem apply_one (p : Fin 4 → ℝ) : (Pose.one : Pose ℝ).apply p = p := by
  funext i
  fin_cases i <;> simp [Pose.apply, Pose.one, Pose.matrix, mulVec, dotProduct, Fin.sum_univ_four, Matrix.one_apply]

/-- A correspondence at zero distance contributes a zero gradient and a zero error. -/
theorem zero_residual {pf : PointFactor F ℝ} (hpf : Shipped pf) (sc : Scene ℝ) (rej : Rejector ℝ) (T : Pose ℝ) (i : Nat) (f : F) (k : Nat)
    (hc : correspondence sc rej T i = some k) (hr : sc.tgtPoint k = T.apply (sc.srcPoint i)) :
    (pf.linearize sc rej T i f).2.map Prod.snd = some (0, 0) := by
  induction hpf with
  | icp => simp [icpFactor, ICP.linearize, hc, hr]
  | plane => simp [planeFactor, PlaneICP.linearize, hc, hr]
  | gicp inv => simp [gicpFactor, GICP.linearize, hc, hr]
  | robust w sqrt _ ih =>
    rename_i F pf hp
    have h := ih f
    simp only [robustFactor, robustLinearize]
    rcases hl : pf.linearize sc rej T i f with ⟨f', _ | ⟨H', b', e'⟩⟩
    · rw [hl] at h; cases h
    · rw [hl] at h
      simp only [Option.map_some, Option.some.injEq, Prod.mk.injEq] at h
      obtain ⟨rfl, rfl⟩ := h
      simp

/-- Each of the first `n` source points coincides with the target point that the search finds for it, at distance 0. -/
def Matched (sc : Scene ℝ) (n : Nat) : Prop := ∀ i < n, ∃ k, sc.nn (sc.srcPoint i) = some (k, 0) ∧ sc.tgtPoint k = sc.srcPoint i

/-- Aligning from the identity a source all of whose points lie on target points: one iteration, the identity, converged, zero error, all
inliers. For every shipped factor whose systems are sound at the identity, non-negative gate and thresholds. -/
theorem C43_matched {pf : PointFactor F ℝ} (hpf : Shipped pf) (sc : Scene ℝ) (n : Nat) (hidx : SearchIndices sc) (hmatch : Matched sc n) (gate : ℝ) (hgate : 0 ≤ gate)
    (Inv : F → Prop) (hsound : SoundAt pf sc (distanceRejector gate) Pose.one Inv) (g : General ℝ) (hg : ShippedGeneral g)
    (solve : Matrix (Fin 6) (Fin 6) ℝ → (Fin 6 → ℝ) → (Fin 6 → ℝ)) (hs : SolveContract solve) (rotationEps translationEps : ℝ) (hre : 0 ≤ rotationEps) (hte : 0 ≤ translationEps) :
    (∀ st : LMSetting ℝ, 0 < st.initLambda → 0 < st.lambdaFactor → 0 < st.maxInner → 0 < st.maxIterations →
      ∃ r fs' log, alignLM pf (registrationProblem pf sc (distanceRejector gate) g solve se3Exp (converged rotationEps translationEps)) st Pose.one n = .ok (r, fs', log) ∧
        r.T = Pose.one ∧ r.converged = true ∧ r.error = 0 ∧ r.numInliers = n ∧ log.length = 1) ∧
    (∀ lambda m, 0 < lambda → 0 < m →
      ∃ r fs' log, alignGN pf (registrationProblem pf sc (distanceRejector gate) g solve se3Exp (converged rotationEps translationEps)) lambda m Pose.one n = .ok (r, fs', log) ∧
        r.T = Pose.one ∧ r.converged = true ∧ r.error = 0 ∧ r.numInliers = n ∧ log.length = 1) := by
  have hnn : ∀ i < n, ∃ k, sc.nn (Pose.one.apply (sc.srcPoint i)) = some (k, 0) ∧ sc.tgtPoint k = Pose.one.apply (sc.srcPoint i) := by
    intro i hi
    rw [apply_one]
    exact hmatch i hi
  have hgated : ∀ i < n, gated sc gate Pose.one i = true := by
    intro i hi
    obtain ⟨k, h1, _⟩ := hnn i hi
    unfold gated
    rw [h1]
    simpa using hgate
  have hlin : ∀ fs : List F, fs.length = n ∧ (∀ f ∈ fs, Inv f) → ∃ fs1 H, serialLinearize (pf.linearize sc (distanceRejector gate) Pose.one) fs = .ok (fs1, (H, 0, 0)) ∧
      SymPSD H ∧ (fs1.length = n ∧ ∀ f ∈ fs1, Inv f) := by
    rintro fs ⟨hlen, hinv⟩
    have hok := serial_ok (pf.linearize sc (distanceRejector gate) Pose.one) fs
    have hz : ∀ l : List (Sys ℝ), (∀ s ∈ l, s.2 = 0) → l.sum.2 = 0 := by
      intro l
      induction l with
      | nil => intro _; rfl
      | cons a l ih =>
        intro h
        rw [List.sum_cons, Prod.snd_add, h a (by simp), ih (fun s hs => h s (by simp [hs])), add_zero]
    have h2 : (reduceSpec (pf.linearize sc (distanceRejector gate) Pose.one) fs).2.2 = 0 := by
      unfold reduceSpec
      apply hz
      intro s hs
      rw [List.mem_mapIdx] at hs
      obtain ⟨i, hi, rfl⟩ := hs
      obtain ⟨k, h1, h2⟩ := hnn i (by omega)
      have h3 := zero_residual hpf sc (distanceRejector gate) Pose.one i fs[i] k (correspondence_some h1 hgate) h2
      rcases hl : (pf.linearize sc (distanceRejector gate) Pose.one i fs[i]).2 with _ | ⟨H', s'⟩
      · rfl
      · rw [hl] at h3
        simp only [Option.map_some, Option.some.injEq] at h3
        exact h3
    have hok2 : serialLinearize (pf.linearize sc (distanceRejector gate) Pose.one) fs =
        .ok ((reduceSpec (pf.linearize sc (distanceRejector gate) Pose.one) fs).1, ((reduceSpec (pf.linearize sc (distanceRejector gate) Pose.one) fs).2.1, 0, 0)) := by
      rw [hok]
      congr 1
      exact Prod.ext rfl (Prod.ext rfl h2)
    obtain ⟨hgood, hinv'⟩ := C33_accumulated hsound fs _ hinv _ _ _ hok2
    refine ⟨_, _, hok2, hgood.hess, ?_, hinv'⟩
    simp [reduceSpec, hlen]
  have hstill : Still (registrationProblem pf sc (distanceRejector gate) g solve se3Exp (converged rotationEps translationEps)) Pose.one
      (fun fs => fs.length = n ∧ ∀ f ∈ fs, Inv f) 0 := by
    refine ⟨fun fs hfs => ?_, shippedGeneral_error hg _⟩
    obtain ⟨fs1, H, h1, h2, h3⟩ := hlin fs hfs
    obtain ⟨H', h4, h5⟩ := shippedGeneral_update hg Pose.one h2 0 0
    exact ⟨fs1, _, H', h1, h4, h5, h3, C32_reduction hpf sc hidx _ _ fs fs1 H 0 0 h1⟩
  have hcount : ∀ fs0 fs' : List F, ∀ s, fs0.length = n → serialLinearize (pf.linearize sc (distanceRejector gate) Pose.one) fs0 = .ok (fs', s) → fs'.countP pf.inlier = n := by
    intro fs0 fs' s h0 h1
    rw [(C31_inliers hpf sc hidx gate Pose.one fs0 fs' s h1).1, h0]
    have : (List.range n).countP (gated sc gate Pose.one) = (List.range n).length := by
      rw [List.countP_eq_length]
      intro i hi
      exact hgated i (List.mem_range.1 hi)
    rw [this, List.length_range]
  have hcv : (registrationProblem pf sc (distanceRejector gate) g solve se3Exp (converged rotationEps translationEps)).converged 0 = true := converged_zero hre hte
  have hinit : (List.replicate n pf.init).length = n ∧ ∀ f ∈ List.replicate n pf.init, Inv f := by
    refine ⟨by simp, fun f hf => ?_⟩
    rw [(List.mem_replicate.1 hf).2]
    exact hsound.init
  refine ⟨fun st hl hf hm hi => ?_, fun lambda m hl hm => ?_⟩
  · obtain ⟨r, fs', log, h1, h2, _, h4, h5⟩ := lmLoop_still hstill hs C42_zero hf (maxInner := st.maxInner.toNat) (by omega) (fuel := st.maxIterations.toNat) (i := 0)
      (lambda := st.initLambda) (r := Result.init Pose.one) (fs := List.replicate n pf.init) hl rfl hinit rfl
    obtain ⟨h6, _, ⟨fs0, s, h8, h9⟩, h10, h11⟩ := h5 (by omega)
    rw [hcv] at h10 h11
    refine ⟨countInliers (registrationProblem pf sc (distanceRejector gate) g solve se3Exp (converged rotationEps translationEps)) r fs', fs', log, ?_, h2, h10, h6, hcount fs0 fs' s h8.1 h9, by simpa using h11⟩
    unfold alignLM levenbergMarquardt
    rw [h1, ok_bind]
  · obtain ⟨r, fs', log, h1, h2, _, h4, h5⟩ := gnLoop_still hstill hs C42_zero hl (fuel := m.toNat) (i := 0)
      (r := Result.init Pose.one) (fs := List.replicate n pf.init) rfl hinit rfl
    obtain ⟨h6, _, ⟨fs0, s, h8, h9⟩, h10, h11⟩ := h5 (by omega)
    rw [hcv] at h10 h11
    refine ⟨countInliers (registrationProblem pf sc (distanceRejector gate) g solve se3Exp (converged rotationEps translationEps)) r fs', fs', log, ?_, h2, h10, h6, hcount fs0 fs' s h8.1 h9, by simpa using h11⟩
    unfold alignGN gaussNewton
    rw [h1, ok_bind]

/-- Aligning a non-empty cloud with itself from the identity: one iteration, the identity, converged, zero error, all inliers. For
every shipped factor whose systems are sound at the identity, exact search, non-negative gate and thresholds. -/
theorem C43_fixed_point {pf : PointFactor F ℝ} (hpf : Shipped pf) (sc : Scene ℝ) (n : Nat) (hn : n ≤ npos)
    (hsame : ∀ i < n, sc.srcPoint i = sc.tgtPoint i) (hsearch : ExactSearch sc n) (gate : ℝ) (hgate : 0 ≤ gate)
    (Inv : F → Prop) (hsound : SoundAt pf sc (distanceRejector gate) Pose.one Inv) (g : General ℝ) (hg : ShippedGeneral g)
    (solve : Matrix (Fin 6) (Fin 6) ℝ → (Fin 6 → ℝ) → (Fin 6 → ℝ)) (hs : SolveContract solve) (rotationEps translationEps : ℝ) (hre : 0 ≤ rotationEps) (hte : 0 ≤ translationEps) :
    (∀ st : LMSetting ℝ, 0 < st.initLambda → 0 < st.lambdaFactor → 0 < st.maxInner → 0 < st.maxIterations →
      ∃ r fs' log, alignLM pf (registrationProblem pf sc (distanceRejector gate) g solve se3Exp (converged rotationEps translationEps)) st Pose.one n = .ok (r, fs', log) ∧
        r.T = Pose.one ∧ r.converged = true ∧ r.error = 0 ∧ r.numInliers = n ∧ log.length = 1) ∧
    (∀ lambda m, 0 < lambda → 0 < m →
      ∃ r fs' log, alignGN pf (registrationProblem pf sc (distanceRejector gate) g solve se3Exp (converged rotationEps translationEps)) lambda m Pose.one n = .ok (r, fs', log) ∧
        r.T = Pose.one ∧ r.converged = true ∧ r.error = 0 ∧ r.numInliers = n ∧ log.length = 1) := by
  refine C43_matched hpf sc n ?_ ?_ gate hgate Inv hsound g hg solve hs rotationEps translationEps hre hte
  · intro q k d h
    exact (lt_of_lt_of_le (hsearch.1 q k d h) hn).ne
  · intro i hi
    rw [hsame i hi]
    obtain ⟨k, d, h1, h3, h4⟩ := hsearch.2 i hi
    have h5 := h4 i hi
    rw [sub_self, dotProduct_zero] at h5
    have h6 : d = 0 := le_antisymm h5 (by rw [h3]; exact dot_self_nonneg _)
    subst h6
    exact ⟨k, h1, sub_eq_zero.1 (dot_self_eq_zero _ h3.symm)⟩

/-- ICP: no further assumption. -/
theorem C43_icp (sc : Scene ℝ) (gate : ℝ) : SoundAt icpFactor sc (distanceRejector gate) Pose.one (fun _ => True) := C33_icp sc _ _

/-- Point-to-plane ICP: no further assumption. -/
theorem C43_plane (sc : Scene ℝ) (gate : ℝ) : SoundAt planeFactor sc (distanceRejector gate) Pose.one (fun _ => True) := C33_plane sc _ _

theorem psd_matrix_one (A : Matrix (Fin 4) (Fin 4) ℝ) : (Pose.one : Pose ℝ).matrix * A * (Pose.one : Pose ℝ).matrixᵀ = A := by
  have : (Pose.one : Pose ℝ).matrix = 1 := by
    ext i j
    fin_cases i <;> fin_cases j <;> simp [Pose.one, Pose.matrix, Matrix.one_apply]
  rw [this, transpose_one, Matrix.one_mul, Matrix.mul_one]

/-- GICP: positive semi-definite covariances; those of target points that can be found have positive definite upper blocks. -/
theorem C43_gicp (inv : Matrix (Fin 3) (Fin 3) ℝ → Matrix (Fin 3) (Fin 3) ℝ) (hinv : InverseContract inv) (sc : Scene ℝ) (gate : ℝ)
    (ht : ∀ k, SymPSD (sc.tgtCov k)) (hpd : ∀ q k d, sc.nn q = some (k, d) → ∀ x, x ≠ 0 → 0 < x ⬝ᵥ block33 (sc.tgtCov k) *ᵥ x) (hs : ∀ i, SymPSD (sc.srcCov i)) :
    SoundAt (gicpFactor inv) sc (distanceRejector gate) Pose.one ZeroBorder := by
  apply C33_gicp inv hinv sc _ _ ht hs
  intro i k hcor
  have hk : ∀ x, x ≠ 0 → 0 < x ⬝ᵥ block33 (sc.tgtCov k) *ᵥ x := by
    unfold correspondence at hcor
    rcases hq : sc.nn (Pose.one.apply (sc.srcPoint i)) with _ | ⟨k', d⟩
    · rw [hq] at hcor; cases hcor
    · rw [hq] at hcor
      simp only at hcor
      split at hcor
      · cases hcor
      · simp only [Option.some.injEq] at hcor
        subst hcor
        exact hpd _ _ _ hq
  have hpos : ∀ x, x ≠ 0 → 0 < x ⬝ᵥ fusedCov sc Pose.one k i *ᵥ x := by
    intro x hx
    have h1 : fusedCov sc Pose.one k i = block33 (sc.tgtCov k) + block33 (sc.srcCov i) := by
      unfold fusedCov
      rw [psd_matrix_one]
      rfl
    rw [h1, add_mulVec, dotProduct_add]
    have h2 := hk x hx
    have h3 := (hs i).block.psd x
    linarith
  have hcol := fun j : Fin 3 => (posdef_exists_unique hpos (Pi.single j 1)).exists
  choose c hc using hcol
  refine ⟨(Matrix.of c)ᵀ, ?_⟩
  ext a b
  have := congrFun (hc b) a
  rw [Matrix.mul_apply]
  simp only [mulVec, dotProduct] at this
  simp only [transpose_apply, of_apply]
  rw [this]
  simp [Matrix.one_apply, Pi.single_apply]

/-- Two target points on the x axis with an exact search, and the source equal to the target. -/
noncomputable def sceneAligned : Scene ℝ where
  srcPoint := fun i => ![i, 0, 0, 1]
  tgtPoint := fun i => ![i, 0, 0, 1]
  tgtNormal := fun _ => ![1, 0, 0, 0]
  srcCov := fun _ => diagonal ![1, 1, 1, 0]
  tgtCov := fun _ => diagonal ![1, 1, 1, 0]
  nn := fun q => if q 0 ≤ 1 / 2 then some (0, (![0, 0, 0, 1] - q) ⬝ᵥ (![0, 0, 0, 1] - q)) else some (1, (![1, 0, 0, 1] - q) ⬝ᵥ (![1, 0, 0, 1] - q))

/-- The hypotheses of C43 are met by it. -/
example : (∀ i < 2, sceneAligned.srcPoint i = sceneAligned.tgtPoint i) ∧ ExactSearch sceneAligned 2 ∧ ∃ i < 2, ∃ j < 2, sceneAligned.tgtPoint i ≠ sceneAligned.tgtPoint j := by
  refine ⟨fun _ _ => rfl, ?_, 0, by omega, 1, by omega, ?_⟩
  · refine ⟨fun q k d h => ?_, fun i hi => ?_⟩
    · simp only [sceneAligned] at h
      split at h <;> (simp only [Option.some.injEq, Prod.mk.injEq] at h; omega)
    · have : i = 0 ∨ i = 1 := by omega
      rcases this with rfl | rfl
      · refine ⟨0, 0, by simp [sceneAligned], by simp, fun j hj => dot_self_nonneg _⟩
      · refine ⟨1, 0, by simp [sceneAligned]; norm_num, by simp, fun j hj => dot_self_nonneg _⟩
  · intro h
    have := congrFun h 0
    simp [sceneAligned] at this

/-- The hypothesis of C46 is met when everything is further than the gate: a guess ten units away, gate one. -/
example : ∀ i < 1, correspondence sceneAligned (distanceRejector 1) ⟨1, ![0, 10, 0]⟩ i = none := by
  intro i hi
  have : i = 0 := by omega
  subst this
  simp [correspondence, sceneAligned, distanceRejector, Pose.apply, Pose.matrix, mulVec, dotProduct, Fin.sum_univ_four]
  norm_num

end Verif.Props
