import Verif.Proofs.LieDeriv
import Verif.Props.Factors
import Mathlib.LinearAlgebra.Matrix.DotProduct

/-! C34, C41, C42: the exponential map, rigidity of poses, gradients of the registration errors. -/

set_option linter.unusedSimpArgs false

namespace Verif.Props

open Matrix Verif Verif.Proofs Verif.Factors Verif.Spec Verif.Reduction Verif.Lie NormedSpace

/-! ### C34 -/

theorem map_mapIdx' {A B C : Type} (g : B → C) (f : Nat → A → B) (l : List A) : (l.mapIdx f).map g = l.mapIdx (fun i a => g (f i a)) := by
  apply List.ext_getElem?
  intro j
  simp only [List.getElem?_map, List.getElem?_mapIdx, Option.map_map]
  rfl

/-- `b` is the gradient of the evaluated error along `T * se3_exp(s d)`, correspondences fixed. -/
def GradientAt {F : Type} (pf : PointFactor F ℝ) (sc : Scene ℝ) (rej : Rejector ℝ) (T : Pose ℝ) (i : Nat) (f : F) : Prop :=
  ∀ f' H b e, pf.linearize sc rej T i f = (f', some (H, b, e)) → ∀ d, HasDerivAt (fun s : ℝ => pf.error sc (T.mul (se3Exp (s • d))) f') (b ⬝ᵥ d) 0

theorem C34_icp (sc : Scene ℝ) (hn : SearchIndices sc) (rej : Rejector ℝ) (T : Pose ℝ) (i : Nat) (hp : sc.srcPoint i 3 = 1) (f : ICP) :
    GradientAt icpFactor sc rej T i f := by
  intro f' H b e h d
  have ht : f'.target ≠ npos := by
    have := (factor_cases .icp sc hn rej T i f)
    cases hc : correspondence sc rej T i with
    | none => have h1 := (this.2 hc).1; rw [h] at h1; cases h1
    | some k =>
      have h1 := (this.1 k hc).2.2
      rw [h] at h1
      simpa [icpFactor, ICP.inlier] using h1
  cases hc : correspondence sc rej T i with
  | none => simp [icpFactor, ICP.linearize, hc] at h
  | some k =>
    simp only [icpFactor, ICP.linearize, hc, Option.some.injEq, Prod.mk.injEq] at h
    obtain ⟨rfl, rfl, rfl, rfl⟩ := h
    have h1 := deriv_quad _ _ 1 (by simp) (deriv_residual T (sc.srcPoint i) (sc.tgtPoint k) hp d)
    simp only [one_mulVec, se3_at_zero] at h1
    have e0 : T.mul Pose.one = T := by simp [Pose.mul, Pose.one]
    rw [e0] at h1
    unfold icpFactor ICP.error
    dsimp only at ht ⊢
    simp only [if_neg ht]
    refine h1.congr_deriv ?_
    rw [dotProduct_comm, dotProduct_mulVec, ← mulVec_transpose]

theorem C34_plane (sc : Scene ℝ) (hn : SearchIndices sc) (rej : Rejector ℝ) (T : Pose ℝ) (i : Nat) (hp : sc.srcPoint i 3 = 1) (f : PlaneICP) :
    GradientAt planeFactor sc rej T i f := by
  intro f' H b e h d
  have ht : f'.target ≠ npos := by
    have := (factor_cases .plane sc hn rej T i f)
    cases hc : correspondence sc rej T i with
    | none => have h1 := (this.2 hc).1; rw [h] at h1; cases h1
    | some k =>
      have h1 := (this.1 k hc).2.2
      rw [h] at h1
      simpa [planeFactor, ICP.inlier] using h1
  cases hc : correspondence sc rej T i with
  | none => simp [planeFactor, PlaneICP.linearize, hc] at h
  | some k =>
    simp only [planeFactor, PlaneICP.linearize, hc, Option.some.injEq, Prod.mk.injEq] at h
    obtain ⟨rfl, rfl, rfl, rfl⟩ := h
    have hr := deriv_residual T (sc.srcPoint i) (sc.tgtPoint k) hp d
    have hr2 : HasDerivAt (fun s : ℝ => sc.tgtNormal k * (sc.tgtPoint k - (T.mul (se3Exp (s • d))).apply (sc.srcPoint i)))
        (sc.tgtNormal k * (blocks (T.R * skew (head3 (sc.srcPoint i))) (-T.R) *ᵥ d)) 0 := by
      rw [hasDerivAt_pi] at hr ⊢
      intro j
      exact (hr j).const_mul _
    have h1 := deriv_quad _ _ 1 (by simp) hr2
    simp only [one_mulVec, se3_at_zero] at h1
    have e0 : T.mul Pose.one = T := by simp [Pose.mul, Pose.one]
    rw [e0] at h1
    unfold planeFactor PlaneICP.error
    dsimp only at ht ⊢
    simp only [if_neg ht]
    refine h1.congr_deriv ?_
    have eJ : sc.tgtNormal k * (blocks (T.R * skew (head3 (sc.srcPoint i))) (-T.R) *ᵥ d) =
        blocks (diagonal (head3 (sc.tgtNormal k)) * T.R * skew (head3 (sc.srcPoint i))) (diagonal (head3 (sc.tgtNormal k)) * (-T.R)) *ᵥ d := by
      funext j
      rw [Matrix.mul_assoc]
      simp only [Pi.mul_apply, mulVec, dotProduct, Finset.mul_sum]
      apply Finset.sum_congr rfl
      intro l _
      unfold blocks
      by_cases hj : j.val < 3
      · simp only [dif_pos hj]
        have hh : head3 (sc.tgtNormal k) ⟨j.val, hj⟩ = sc.tgtNormal k j := by
          obtain ⟨j, hj'⟩ := j
          interval_cases j <;> rfl
        split
        · rw [diagonal_mul, hh]; ring
        · rw [diagonal_mul, hh]; ring
      · simp only [dif_neg hj]; ring
    rw [eJ, dotProduct_comm, dotProduct_mulVec, ← mulVec_transpose]

theorem setBlock_symm {M : Matrix (Fin 4) (Fin 4) ℝ} (hb : ∀ i j : Fin 4, i = 3 ∨ j = 3 → M i j = 0) {A : Matrix (Fin 3) (Fin 3) ℝ} (hA : Aᵀ = A) :
    (setBlock33 M A)ᵀ = setBlock33 M A := by
  ext i j
  rw [transpose_apply]
  unfold setBlock33
  by_cases hij : i.val < 3 ∧ j.val < 3
  · rw [dif_pos hij, dif_pos hij.symm]
    exact congrFun (congrFun hA _) _
  · have h' : ¬ (j.val < 3 ∧ i.val < 3) := fun h => hij h.symm
    rw [dif_neg hij, dif_neg h', hb i j (by omega), hb j i (by omega)]

/-- GICP, with the weight matrix held fixed as the code does. -/
theorem C34_gicp (inv : Matrix (Fin 3) (Fin 3) ℝ → Matrix (Fin 3) (Fin 3) ℝ) (hinv : InverseContract inv) (sc : Scene ℝ) (hn : SearchIndices sc)
    (rej : Rejector ℝ) (T : Pose ℝ) (i : Nat) (hp : sc.srcPoint i 3 = 1) (ht : ∀ k, SymPSD (sc.tgtCov k)) (hs : SymPSD (sc.srcCov i))
    (hreg : ∀ k, correspondence sc rej T i = some k → ∃ B, fusedCov sc T k i * B = 1) (f : GICP ℝ) (hf : ZeroBorder f) :
    GradientAt (gicpFactor inv) sc rej T i f := by
  intro f' H b e h d
  have ht' : f'.target ≠ npos := by
    have := (factor_cases (.gicp inv) sc hn rej T i f)
    cases hc : correspondence sc rej T i with
    | none => have h1 := (this.2 hc).1; rw [h] at h1; cases h1
    | some k =>
      have h1 := (this.1 k hc).2.2
      rw [h] at h1
      simpa [gicpFactor, GICP.inlier] using h1
  cases hc : correspondence sc rej T i with
  | none => simp [gicpFactor, GICP.linearize, hc] at h
  | some k =>
    simp only [gicpFactor, GICP.linearize, hc, Option.some.injEq, Prod.mk.injEq] at h
    obtain ⟨rfl, rfl, rfl, rfl⟩ := h
    have hsym : (setBlock33 f.mahalanobis (inv (fusedCov sc T k i)))ᵀ = setBlock33 f.mahalanobis (inv (fusedCov sc T k i)) :=
      setBlock_symm hf ((fusedCov_psd (ht k) hs).inverse (hinv _ (hreg k hc))).symm
    have h1 := deriv_quad _ _ _ hsym (deriv_residual T (sc.srcPoint i) (sc.tgtPoint k) hp d)
    simp only [se3_at_zero] at h1
    have e0 : T.mul Pose.one = T := by simp [Pose.mul, Pose.one]
    rw [e0] at h1
    unfold gicpFactor GICP.error
    dsimp only at ht' ⊢
    simp only [if_neg ht']
    refine h1.congr_deriv ?_
    rw [dotProduct_comm, dotProduct_mulVec, ← mulVec_transpose, mulVec_mulVec]

/-- The accumulated `b` is the gradient of the accumulated error. -/
theorem C34_reduction {F : Type} {pf : PointFactor F ℝ} (hpf : Shipped pf) (sc : Scene ℝ) (hn : SearchIndices sc) (rej : Rejector ℝ) (T : Pose ℝ) (fs fs' : List F)
    (hg : ∀ i f, fs[i]? = some f → GradientAt pf sc rej T i f) (H : Matrix (Fin 6) (Fin 6) ℝ) (b : Fin 6 → ℝ) (e : ℝ)
    (h : serialLinearize (pf.linearize sc rej T) fs = .ok (fs', (H, b, e))) (d : Fin 6 → ℝ) :
    ∃ err : Pose ℝ → ℝ, (∀ T', serialError (pf.error sc T') fs' = .ok (err T')) ∧ HasDerivAt (fun s : ℝ => err (T.mul (se3Exp (s • d)))) (b ⬝ᵥ d) 0 := by
  rw [serial_ok] at h
  simp only [Except.ok.injEq] at h
  unfold reduceSpec at h
  obtain ⟨rfl, h2⟩ := Prod.mk.inj h
  refine ⟨fun T' => errorSpec (pf.error sc T') (fs.mapIdx (fun i f => (pf.linearize sc rej T i f).1)), fun T' => serialError_ok _ _, ?_⟩
  have hb : b ⬝ᵥ d = (fs.mapIdx (fun i f => ((pf.linearize sc rej T i f).2.getD 0).2.1 ⬝ᵥ d)).sum := by
    have : ∀ l : List (Sys ℝ), l.sum.2.1 ⬝ᵥ d = (l.map (fun s => s.2.1 ⬝ᵥ d)).sum := by
      intro l
      induction l with
      | nil => simp
      | cons a l ih => simp only [List.sum_cons, List.map_cons, Prod.snd_add, Prod.fst_add, add_dotProduct, ih]
    have h3 := this (fs.mapIdx (fun i f => (pf.linearize sc rej T i f).2.getD 0))
    rw [h2, map_mapIdx'] at h3
    exact h3
  rw [hb]
  unfold errorSpec
  simp only [map_mapIdx']
  clear h h2 hb
  have gen : ∀ (l : List F) (n : Nat), (∀ i f, l[i]? = some f → GradientAt pf sc rej T (i + n) f) →
      HasDerivAt (fun s : ℝ => (l.mapIdx (fun i f => pf.error sc (T.mul (se3Exp (s • d))) (pf.linearize sc rej T (i + n) f).1)).sum)
        (l.mapIdx (fun i f => ((pf.linearize sc rej T (i + n) f).2.getD 0).2.1 ⬝ᵥ d)).sum 0 := by
    intro l
    induction l with
    | nil => intro n _; simpa using hasDerivAt_const (0 : ℝ) (0 : ℝ)
    | cons f l ih =>
      intro n hl
      simp only [List.mapIdx_cons, List.sum_cons]
      have h1 := ih (n + 1) (fun i f hi => by
        have := hl (i + 1) f (by simpa using hi)
        rwa [Nat.add_assoc, Nat.add_comm 1 n] at this)
      have e1 : ∀ i : Nat, i + 1 + n = i + (n + 1) := fun i => by omega
      simp only [e1]
      refine HasDerivAt.add ?_ h1
      have h0 := hl 0 f rfl
      rcases hc : pf.linearize sc rej T (0 + n) f with ⟨f', _ | ⟨H, b, e⟩⟩
      · have hz : ∀ T', pf.error sc T' f' = 0 := by
          cases hcc : correspondence sc rej T (0 + n) with
          | none =>
            have := ((factor_cases hpf sc hn rej T (0 + n) f).2 hcc).2.2
            rw [hc] at this; exact this
          | some k =>
            have := ((factor_cases hpf sc hn rej T (0 + n) f).1 k hcc).1
            rw [hc] at this; cases this
        simp only [hz]
        simpa using hasDerivAt_const (0 : ℝ) (0 : ℝ)
      · exact h0 f' H b e hc d
  simpa using gen fs 0 (by simpa using hg)

/-! ### C41 -/

/-- The pose after a sequence of updates `T = T * se3_exp(a)` (optimizer.hpp:53, 112, 124). -/
noncomputable def posesAfter (T : Pose ℝ) (as : List (Fin 6 → ℝ)) : Pose ℝ := as.foldl (fun T a => T.mul (se3Exp a)) T

/-- Rotation angle in the open interval where the polynomial approximation is used. -/
noncomputable def smallStep (a : Fin 6 → ℝ) : Bool := decide (0 < rot a ⬝ᵥ rot a ∧ rot a ⬝ᵥ rot a < 1e-10)

theorem rot_zero_of_not_pos {a : Fin 6 → ℝ} (h : ¬ 0 < rot a ⬝ᵥ rot a) : rot a = 0 := by
  have h1 := dot3_nonneg (rot a)
  have h2 : rot a ⬝ᵥ rot a = 0 := le_antisymm (not_lt.1 h) h1
  exact dotProduct_self_eq_zero.1 h2

/-- The product of any number of updates with rotation angles of at least 1e-5 (or zero) keeps a rigid transform rigid. -/
theorem C41_rigid (T : Pose ℝ) (hT : IsRotation T.R) (as : List (Fin 6 → ℝ)) (h : ∀ a ∈ as, 1e-10 ≤ rot a ⬝ᵥ rot a ∨ rot a = 0) :
    IsRotation (posesAfter T as).R ∧ (posesAfter T as).matrix 3 = ![0, 0, 0, 1] := by
  refine ⟨?_, rfl⟩
  unfold posesAfter
  induction as generalizing T with
  | nil => exact hT
  | cons a as ih =>
    apply ih
    · show IsRotation (T.R * (se3Exp a).R)
      rw [se3Exp_R]
      exact Verif.Proofs.IsRotation.mul hT (rotation_so3 _ (h a (by simp)))
    · intro b hb; exact h b (by simp [hb])

/-- With smaller steps, squared lengths and volumes grow by a factor of at most `(1 + 1e-44)` per small step and never shrink. -/
theorem C41_drift (T : Pose ℝ) (hT : IsRotation T.R) (as : List (Fin 6 → ℝ)) :
    StretchAtMost (posesAfter T as).R ((1 + 1e-44) ^ as.countP smallStep) := by
  have gen : ∀ (as : List (Fin 6 → ℝ)) (T : Pose ℝ) (c : ℝ), 1 ≤ c → StretchAtMost T.R c →
      StretchAtMost (posesAfter T as).R (c * (1 + 1e-44) ^ as.countP smallStep) := by
    intro as
    induction as with
    | nil => intro T c _ h; simpa [posesAfter] using h
    | cons a as ih =>
      intro T c hc h
      have hstep : (posesAfter T (a :: as)) = posesAfter (T.mul (se3Exp a)) as := rfl
      rw [hstep, List.countP_cons]
      by_cases hs : smallStep a = true
      · rw [if_pos hs, pow_succ']
        have h1 : StretchAtMost (T.mul (se3Exp a)).R (c * (1 + 1e-44)) := by
          unfold Pose.mul
          rw [se3Exp_R]
          exact Verif.Proofs.StretchAtMost.mul hc h (stretch_so3 _)
        have h2 := ih _ _ (by norm_num; linarith) h1
        rwa [mul_assoc] at h2
      · rw [if_neg hs, Nat.add_zero]
        have hr : IsRotation (so3Exp (rot a)).toRotationMatrix := by
          apply rotation_so3
          by_cases hp : 0 < rot a ⬝ᵥ rot a
          · left
            have hs' : ¬ (0 < rot a ⬝ᵥ rot a ∧ rot a ⬝ᵥ rot a < 1e-10) := by simpa [smallStep] using hs
            exact not_lt.1 (fun hlt => hs' ⟨hp, hlt⟩)
          · right; exact rot_zero_of_not_pos hp
        have h1 : StretchAtMost (T.mul (se3Exp a)).R (c * 1) := by
          unfold Pose.mul
          rw [se3Exp_R]
          exact Verif.Proofs.StretchAtMost.mul hc h (rotation_stretch hr)
        rw [mul_one] at h1
        exact ih _ _ hc h1
  simpa using gen as T 1 (le_refl _) (rotation_stretch hT)

/-- Over any run of at most `2^31` updates (the range of the `int` counter) the total growth is below `1 + 1e-34`. -/
theorem C41_drift_bound (T : Pose ℝ) (hT : IsRotation T.R) (as : List (Fin 6 → ℝ)) (hlen : as.length ≤ 2 ^ 31) :
    StretchAtMost (posesAfter T as).R (1 + 1e-34) := by
  have h := C41_drift T hT as
  have hb : ∀ n : Nat, n ≤ 2 ^ 31 → (1 + 1e-44 : ℝ) ^ n ≤ 1 + 2 * n * 1e-44 := by
    intro n
    induction n with
    | zero => intro _; norm_num
    | succ n ih =>
      intro hn
      have h1 := ih (by omega)
      have hn' : (n : ℝ) ≤ 2 ^ 31 := by exact_mod_cast (by omega : n ≤ 2 ^ 31)
      have hn0 : (0 : ℝ) ≤ n := Nat.cast_nonneg n
      rw [pow_succ]
      push_cast
      have h2 : (1 + 1e-44 : ℝ) ^ n * (1 + 1e-44) ≤ (1 + 2 * n * 1e-44) * (1 + 1e-44) := mul_le_mul_of_nonneg_right h1 (by norm_num)
      refine le_trans h2 ?_
      clear h1 h2 ih hn
      generalize (n : ℝ) = x at *
      norm_num at hn' ⊢
      linarith
  have hc : as.countP smallStep ≤ 2 ^ 31 := le_trans List.countP_le_length hlen
  have hle : (1 + 1e-44 : ℝ) ^ as.countP smallStep ≤ 1 + 1e-34 := by
    refine le_trans (hb _ hc) ?_
    have : ((as.countP smallStep : Nat) : ℝ) ≤ 2 ^ 31 := by exact_mod_cast hc
    generalize ((as.countP smallStep : Nat) : ℝ) = x at *
    norm_num at this ⊢
    linarith
  refine ⟨fun u => ⟨(h.1 u).1, le_trans (h.1 u).2 ?_⟩, h.2.1, le_trans h.2.2 hle⟩
  exact mul_le_mul_of_nonneg_right hle (dot3_nonneg u)

/-- The deviation is real: a step with a small rotation gives a matrix that is not orthogonal. -/
theorem C41_small_not_exact : ∃ a : Fin 6 → ℝ, ¬ IsRotation (se3Exp a).R := by
  refine ⟨![1e-6, 0, 0, 0, 0, 0], fun h => ?_⟩
  have h1 := h.2
  rw [se3Exp_R, rot_det, qs_so3, qn_so3] at h1
  have hx : rot ![1e-6, 0, 0, 0, 0, 0] ⬝ᵥ rot ![1e-6, 0, 0, 0, 0, 0] = (1e-12 : ℝ) := by
    simp [rot, dotProduct, Fin.sum_univ_three]; norm_num
  rw [hx] at h1
  unfold realFactor imagFactor at h1
  norm_num at h1

/-! ### C42 -/

theorem C42_zero : se3Exp 0 = Pose.one := by
  have := se3_at_zero 0
  rwa [zero_smul] at this

/-- At or above the threshold: Rodrigues rotation, left Jacobian applied to the translation. -/
theorem C42_closed_form (a : Fin 6 → ℝ) (theta : ℝ) (hth : 0 ≤ theta) (hsq : theta ^ 2 = rot a ⬝ᵥ rot a) (h : 1e-5 ≤ theta) :
    (se3Exp a).R = 1 + (Real.sin theta / theta) • skew (rot a) + ((1 - Real.cos theta) / theta ^ 2) • (skew (rot a) * skew (rot a)) ∧
    (se3Exp a).t = (1 + ((1 - Real.cos theta) / theta ^ 2) • skew (rot a) + ((theta - Real.sin theta) / theta ^ 3) • (skew (rot a) * skew (rot a))) *ᵥ tra a := by
  have hs : Real.sqrt (rot a ⬝ᵥ rot a) = theta := by rw [← hsq]; exact Real.sqrt_sq hth
  have hge : 1e-10 ≤ rot a ⬝ᵥ rot a := by
    rw [← hsq]
    have := pow_le_pow_left₀ (by norm_num : (0 : ℝ) ≤ 1e-5) h 2
    refine le_trans ?_ this
    norm_num
  rw [se3_large a hge]
  unfold closedPose
  rw [hs, ← hsq, ← pow_succ, smul_mul_assoc]
  exact ⟨rfl, rfl⟩

/-- `se3_exp` is the matrix exponential of the twist matrix: for rotation angles of at least 1e-5 and for pure translations. -/
theorem C42_exponential (a : Fin 6 → ℝ) (h : 1e-10 ≤ rot a ⬝ᵥ rot a ∨ rot a = 0) : (se3Exp a).matrix = exp (twistMatrix a) := by
  rcases h with h | h
  · rw [se3_large a h]
    exact closedPose_exp a (lt_of_lt_of_le (by norm_num) h)
  · rw [se3_translation a h]
    exact twist_translation a h

theorem twist_smul (s : ℝ) (a : Fin 6 → ℝ) : twistMatrix (s • a) = s • twistMatrix a := by
  ext i j; fin_cases i <;> fin_cases j <;> simp [twistMatrix]

set_option backward.isDefEq.respectTransparency false in
theorem exp_twist_deriv (A : Matrix (Fin 4) (Fin 4) ℝ) (s : ℝ) (i j : Fin 4) : HasDerivAt (fun s : ℝ => (exp (s • A)) i j) ((exp (s • A) * A) i j) s := by
  open scoped Matrix.Norms.Operator in
  have h := hasDerivAt_exp_smul_const (𝕂 := ℝ) A s
  let L : Matrix (Fin 4) (Fin 4) ℝ →ₗ[ℝ] ℝ := { toFun := fun M => M i j, map_add' := fun _ _ => rfl, map_smul' := fun _ _ => rfl }
  have hL : Continuous L := LinearMap.continuous_of_finiteDimensional L
  have := ((⟨L, hL⟩ : Matrix (Fin 4) (Fin 4) ℝ →L[ℝ] ℝ).hasFDerivAt.comp_hasDerivAt s h)
  exact this

/-- The defining differential equation, along every ray as long as the angle is above the threshold. -/
theorem C42_ode (a : Fin 6 → ℝ) (s : ℝ) (h : 1e-10 < rot (s • a) ⬝ᵥ rot (s • a)) (i j : Fin 4) :
    HasDerivAt (fun u : ℝ => (se3Exp (u • a)).matrix i j) (((se3Exp (s • a)).matrix * twistMatrix a) i j) s := by
  rw [C42_exponential _ (.inl (le_of_lt h)), twist_smul]
  refine (exp_twist_deriv (twistMatrix a) s i j).congr_of_eventuallyEq ?_
  have hc : Continuous (fun u : ℝ => rot (u • a) ⬝ᵥ rot (u • a)) := by
    simp only [rot_smul, smul_dotProduct, dotProduct_smul, smul_eq_mul]
    fun_prop
  filter_upwards [hc.continuousAt.eventually_const_lt h] with u hu
  rw [C42_exponential _ (.inl (le_of_lt hu)), twist_smul]

theorem pose_matrix_mul (A B : Pose ℝ) : (A.mul B).matrix = A.matrix * B.matrix := by
  ext i j
  fin_cases i <;> fin_cases j <;>
    simp [Pose.matrix, Pose.mul, Matrix.mul_apply, Fin.sum_univ_four, Fin.sum_univ_three, mulVec, dotProduct]

theorem pose_matrix_inj {A B : Pose ℝ} (h : A.matrix = B.matrix) : A = B := by
  have hc := fun i j => congrFun (congrFun h i) j
  have hR : A.R = B.R := by
    ext i j
    have := hc i.castSucc j.castSucc
    fin_cases i <;> fin_cases j <;> simpa [Pose.matrix] using this
  have ht : A.t = B.t := by
    funext i
    have := hc i.castSucc 3
    fin_cases i <;> simpa [Pose.matrix] using this
  cases A; cases B; simp_all

/-- `se3_exp(-a)` is the inverse of `se3_exp(a)`. -/
theorem C42_inverse (a : Fin 6 → ℝ) (h : 1e-10 ≤ rot a ⬝ᵥ rot a ∨ rot a = 0) :
    (se3Exp (-a)).mul (se3Exp a) = Pose.one ∧ (se3Exp a).mul (se3Exp (-a)) = Pose.one := by
  have hrot : rot (-a) = -rot a := by funext i; fin_cases i <;> simp [rot]
  have hneg : 1e-10 ≤ rot (-a) ⬝ᵥ rot (-a) ∨ rot (-a) = 0 := by
    rw [hrot, neg_dotProduct_neg]
    rcases h with h | h
    · exact .inl h
    · right; rw [h, neg_zero]
  have htw : twistMatrix (-a) = -twistMatrix a := by
    ext i j; fin_cases i <;> fin_cases j <;> simp [twistMatrix]
  have hone : (Pose.one : Pose ℝ).matrix = 1 := by
    ext i j; fin_cases i <;> fin_cases j <;> simp [Pose.one, Pose.matrix]
  constructor <;> apply pose_matrix_inj <;> rw [pose_matrix_mul, C42_exponential a h, C42_exponential (-a) hneg, htw, hone]
  · rw [← Matrix.exp_add_of_commute _ _ (Commute.neg_left (Commute.refl (twistMatrix a))), neg_add_cancel, exp_zero]
  · rw [← Matrix.exp_add_of_commute _ _ (Commute.neg_right (Commute.refl (twistMatrix a))), add_neg_cancel, exp_zero]

/-- Below the threshold the result deviates from the exponential: rotation entries by at most 1e-19, translation entries by at
most `3e-10` times the 1-norm of the translation part of the twist. -/
theorem C42_small_deviation (a : Fin 6 → ℝ) (h0 : 0 < rot a ⬝ᵥ rot a) (h : rot a ⬝ᵥ rot a < 1e-10) :
    (∀ i j : Fin 3, |(se3Exp a).matrix i.castSucc j.castSucc - exp (twistMatrix a) i.castSucc j.castSucc| ≤ 1e-19) ∧
    ∀ i : Fin 3, |(se3Exp a).matrix i.castSucc 3 - exp (twistMatrix a) i.castSucc 3| ≤ 3e-10 * (|a 3| + |a 4| + |a 5|) := by
  obtain ⟨h1, h2⟩ := se3_small a h0 h
  rw [← closedPose_exp a h0]
  refine ⟨fun i j => ?_, fun i => ?_⟩
  · have := h1 i j
    fin_cases i <;> fin_cases j <;> simpa [Pose.matrix] using this
  · have := h2 i
    fin_cases i <;> simpa [Pose.matrix] using this

/-! ### concrete cases -/

/-- One source point with one neighbour at distance one: the hypotheses of `C34_*` hold and a system is produced. -/
noncomputable def scenePair : Scene ℝ where
  srcPoint := fun _ => ![1, 2, 3, 1]
  tgtPoint := fun _ => ![1, 2, 4, 1]
  tgtNormal := fun _ => ![0, 0, 1, 0]
  srcCov := fun _ => diagonal ![1, 1, 1, 0]
  tgtCov := fun _ => diagonal ![1, 1, 1, 0]
  nn := fun _ => some (0, 1)

example : SearchIndices scenePair ∧ scenePair.srcPoint 0 3 = 1 ∧
    ∃ f' H b e, icpFactor.linearize scenePair (distanceRejector 1) Pose.one 0 ICP.init = (f', some (H, b, e)) ∧ b 5 = -1 := by
  refine ⟨?_, by simp [scenePair], ?_⟩
  · intro q k d h
    simp only [scenePair, Option.some.injEq, Prod.mk.injEq] at h
    rw [← h.1]; decide
  · have hc : correspondence scenePair (distanceRejector 1) Pose.one 0 = some 0 := correspondence_some (d := 1) rfl (le_refl _)
    simp only [icpFactor, ICP.linearize, hc]
    refine ⟨_, _, _, _, rfl, ?_⟩
    simp [scenePair, Pose.apply, Pose.one, Pose.matrix, mulVec, dotProduct, Fin.sum_univ_four, blocks, vecMul, transpose_apply]
    norm_num
    exact Matrix.one_apply_eq 2

/-- A half turn about z while moving along x: the threshold hypotheses hold and the pose is the expected one. -/
example : (1e-10 : ℝ) ≤ rot ![0, 0, Real.pi, 1, 0, 0] ⬝ᵥ rot ![0, 0, Real.pi, 1, 0, 0] := by
  have h := Real.two_le_pi
  simp [rot, dotProduct, Fin.sum_univ_three]
  nlinarith

example : (se3Exp ![0, 0, Real.pi, 1, 0, 0]).R 0 0 = -1 := by
  have hpi := Real.two_le_pi
  have h := (C42_closed_form ![0, 0, Real.pi, 1, 0, 0] Real.pi (le_of_lt Real.pi_pos) (by simp [rot, dotProduct, Fin.sum_univ_three]; ring) (by
    norm_num; linarith)).1
  rw [h]
  simp [skew, rot, Matrix.mul_apply, Fin.sum_univ_three]
  field_simp
  norm_num

/-- The identity is a rotation, so `C41_rigid` and `C41_drift` apply to runs from the identity guess. -/
example : IsRotation (Pose.one : Pose ℝ).R := by
  refine ⟨by simp [Pose.one], by simp [Pose.one]⟩

/-- A small step: 0 < angle^2 < 1e-10. -/
example : smallStep ![1e-6, 0, 0, 0, 0, 0] = true := by
  simp [smallStep, rot, dotProduct, Fin.sum_univ_three]; norm_num

end Verif.Props
