import Verif.Proofs.LieExp
import Verif.Proofs.Factors
import Mathlib.Analysis.Calculus.Deriv.Pi
import Mathlib.Analysis.Calculus.Deriv.Mul
import Mathlib.Analysis.Calculus.Deriv.Add
import Mathlib.Analysis.Calculus.Deriv.Prod
import Mathlib.Analysis.SpecialFunctions.Trigonometric.Bounds

/-! Deviation of `se3_exp` below the small-angle threshold, and its derivative at zero. -/

set_option linter.unusedSimpArgs false

namespace Verif.Proofs

open Matrix Verif.Factors Verif.Lie Verif.Spec

theorem se3_small (a : Fin 6 → ℝ) (h0 : 0 < rot a ⬝ᵥ rot a) (h : rot a ⬝ᵥ rot a < 1e-10) :
    (∀ i j, |(se3Exp a).R i j - (closedPose a).R i j| ≤ 1e-19) ∧
    ∀ i, |(se3Exp a).t i - (closedPose a).t i| ≤ 3e-10 * (|a 3| + |a 4| + |a 5|) := by
  obtain ⟨c1, c2, c3, c4⟩ := coef_small _ h0 h
  have hs := Real.sq_sqrt (le_of_lt h0)
  have hsp := Real.sqrt_pos.2 h0
  have hs5 : Real.sqrt (rot a ⬝ᵥ rot a) ≤ 1e-5 := by
    apply Real.sqrt_le_iff.2 ⟨by norm_num, ?_⟩
    refine le_trans (le_of_lt h) ?_
    norm_num
  refine ⟨fun i j => ?_, fun i => ?_⟩
  · rw [se3Exp_R, so3_factors]
    unfold closedPose
    simp only [Matrix.add_apply, Matrix.smul_apply, smul_eq_mul]
    obtain ⟨k1, k2⟩ := skew_entry_le (rot a) i j 1e-5 (by norm_num) (by norm_num at h ⊢; linarith)
    generalize skew (rot a) i j = O1 at *
    generalize (skew (rot a) * skew (rot a)) i j = O2 at *
    generalize 2 * realFactor (rot a ⬝ᵥ rot a) * imagFactor (rot a ⬝ᵥ rot a) = A at *
    generalize 2 * imagFactor (rot a ⬝ᵥ rot a) ^ 2 = B at *
    generalize Real.sin (Real.sqrt (rot a ⬝ᵥ rot a)) / Real.sqrt (rot a ⬝ᵥ rot a) = A' at *
    generalize (1 - Real.cos (Real.sqrt (rot a ⬝ᵥ rot a))) / (rot a ⬝ᵥ rot a) = B' at *
    have e : (1 : Matrix (Fin 3) (Fin 3) ℝ) i j + A * O1 + B * O2 - ((1 : Matrix (Fin 3) (Fin 3) ℝ) i j + A' * O1 + B' * O2) = (A - A') * O1 + (B - B') * O2 := by ring
    rw [e]
    refine le_trans (abs_add_le _ _) ?_
    rw [abs_mul, abs_mul]
    have m1 := mul_le_mul c1 k1 (abs_nonneg _) (by norm_num)
    have m2 := mul_le_mul c2 k2 (abs_nonneg _) (by norm_num)
    norm_num at m1 m2 ⊢
    linarith
  · by_cases hth : Real.sqrt (rot a ⬝ᵥ rot a) < 1e-10
    · have et : (se3Exp a).t = (so3Exp (rot a)).toRotationMatrix *ᵥ tra a := by
        unfold se3Exp
        simp only
        rw [if_pos hth]
      rw [et, so3_factors]
      unfold closedPose
      dsimp only
      rw [← Pi.sub_apply, ← sub_mulVec]
      have hsin : |Real.sin (Real.sqrt (rot a ⬝ᵥ rot a)) / Real.sqrt (rot a ⬝ᵥ rot a)| ≤ 1 := by
        rw [abs_div, abs_of_pos hsp, div_le_one hsp]
        have := Real.abs_sin_le_abs (x := Real.sqrt (rot a ⬝ᵥ rot a))
        rwa [abs_of_pos hsp] at this
      have hb : ∀ j : Fin 3, |(((1 + (2 * realFactor (rot a ⬝ᵥ rot a) * imagFactor (rot a ⬝ᵥ rot a)) • skew (rot a) +
            (2 * imagFactor (rot a ⬝ᵥ rot a) ^ 2) • (skew (rot a) * skew (rot a))) -
          (1 + ((1 - Real.cos (Real.sqrt (rot a ⬝ᵥ rot a))) / (rot a ⬝ᵥ rot a)) • skew (rot a) +
            ((Real.sqrt (rot a ⬝ᵥ rot a) - Real.sin (Real.sqrt (rot a ⬝ᵥ rot a))) / ((rot a ⬝ᵥ rot a) * Real.sqrt (rot a ⬝ᵥ rot a))) • skew (rot a) * skew (rot a)) : Matrix (Fin 3) (Fin 3) ℝ)) i j| ≤ (3e-10 : ℝ) := by
        intro j
        simp only [Matrix.sub_apply, Matrix.add_apply, Matrix.smul_apply, smul_eq_mul, smul_mul_assoc]
        obtain ⟨k1, k2⟩ := skew_entry_le (rot a) i j 1e-10 (by norm_num) (by
          rw [← hs]; exact pow_le_pow_left₀ (le_of_lt hsp) (le_of_lt hth) 2)
        generalize skew (rot a) i j = O1 at *
        generalize (skew (rot a) * skew (rot a)) i j = O2 at *
        generalize 2 * realFactor (rot a ⬝ᵥ rot a) * imagFactor (rot a ⬝ᵥ rot a) = A at *
        generalize 2 * imagFactor (rot a ⬝ᵥ rot a) ^ 2 = B at *
        generalize Real.sin (Real.sqrt (rot a ⬝ᵥ rot a)) / Real.sqrt (rot a ⬝ᵥ rot a) = A' at *
        generalize (1 - Real.cos (Real.sqrt (rot a ⬝ᵥ rot a))) / (rot a ⬝ᵥ rot a) = B' at *
        generalize (Real.sqrt (rot a ⬝ᵥ rot a) - Real.sin (Real.sqrt (rot a ⬝ᵥ rot a))) / ((rot a ⬝ᵥ rot a) * Real.sqrt (rot a ⬝ᵥ rot a)) = D at *
        have e : (1 : Matrix (Fin 3) (Fin 3) ℝ) i j + A * O1 + B * O2 - ((1 : Matrix (Fin 3) (Fin 3) ℝ) i j + B' * O1 + D * O2) = (A - B') * O1 + (B - D) * O2 := by ring
        rw [e]
        refine le_trans (abs_add_le _ _) ?_
        rw [abs_mul, abs_mul]
        have a1 : |A - B'| ≤ 2 := by
          rw [abs_le] at *; norm_num at *; constructor <;> linarith
        have a2 : |B - D| ≤ 2 := by
          rw [abs_le] at *; norm_num at *; constructor <;> linarith
        have m1 := mul_le_mul a1 k1 (abs_nonneg _) (by norm_num)
        have m2 := mul_le_mul a2 k2 (abs_nonneg _) (by norm_num)
        norm_num at m1 m2 ⊢
        linarith
      generalize (1 + (2 * realFactor (rot a ⬝ᵥ rot a) * imagFactor (rot a ⬝ᵥ rot a)) • skew (rot a) +
            (2 * imagFactor (rot a ⬝ᵥ rot a) ^ 2) • (skew (rot a) * skew (rot a))) -
          (1 + ((1 - Real.cos (Real.sqrt (rot a ⬝ᵥ rot a))) / (rot a ⬝ᵥ rot a)) • skew (rot a) +
            ((Real.sqrt (rot a ⬝ᵥ rot a) - Real.sin (Real.sqrt (rot a ⬝ᵥ rot a))) / ((rot a ⬝ᵥ rot a) * Real.sqrt (rot a ⬝ᵥ rot a))) • skew (rot a) * skew (rot a)) = M at hb ⊢
      simp only [mulVec, dotProduct, Fin.sum_univ_three, tra]
      simp only [cons_val_zero, cons_val_one, cons_val]
      refine le_trans (abs_add_le _ _) (le_trans (add_le_add_left (abs_add_le _ _) _) ?_)
      rw [abs_mul, abs_mul, abs_mul]
      have n1 := mul_le_mul_of_nonneg_right (hb 0) (abs_nonneg (a 3))
      have n2 := mul_le_mul_of_nonneg_right (hb 1) (abs_nonneg (a 4))
      have n3 := mul_le_mul_of_nonneg_right (hb 2) (abs_nonneg (a 5))
      linarith
    · have et : (se3Exp a).t = (closedPose a).t := by
        unfold se3Exp closedPose
        simp only
        rw [if_neg hth]
      rw [et, sub_self, abs_zero]
      positivity

/-! ### derivative at zero -/

theorem rot_smul (s : ℝ) (d : Fin 6 → ℝ) : rot (s • d) = s • rot d := by
  funext i; fin_cases i <;> simp [rot]

theorem tra_smul (s : ℝ) (d : Fin 6 → ℝ) : tra (s • d) = s • tra d := by
  funext i; fin_cases i <;> simp [tra]

theorem skew_smul (s : ℝ) (w : Fin 3 → ℝ) : skew (s • w) = s • skew w := by
  ext i j; fin_cases i <;> fin_cases j <;> simp [skew]

theorem near_small (w : Fin 3 → ℝ) : ∀ᶠ s : ℝ in nhds 0, (s • w) ⬝ᵥ (s • w) < 1e-10 ∧ Real.sqrt ((s • w) ⬝ᵥ (s • w)) < 1e-10 := by
  have h1 : Filter.Tendsto (fun s : ℝ => (s • w) ⬝ᵥ (s • w)) (nhds 0) (nhds 0) := by
    have : Continuous (fun s : ℝ => (s • w) ⬝ᵥ (s • w)) := by
      simp only [smul_dotProduct, dotProduct_smul, smul_eq_mul]
      fun_prop
    have h := this.tendsto 0
    simpa using h
  have h2 : Filter.Tendsto (fun s : ℝ => Real.sqrt ((s • w) ⬝ᵥ (s • w))) (nhds 0) (nhds 0) := by
    have := (Real.continuous_sqrt.tendsto 0).comp h1
    rw [Real.sqrt_zero] at this
    exact this
  exact (h1.eventually_lt_const (by norm_num)).and (h2.eventually_lt_const (by norm_num))

theorem deriv_R (d : Fin 6 → ℝ) (i j : Fin 3) : HasDerivAt (fun s : ℝ => (se3Exp (s • d)).R i j) (skew (rot d) i j) 0 := by
  let x := rot d ⬝ᵥ rot d
  let g : ℝ → ℝ := fun s => 2 * (1.0 - 1.0 / 8.0 * (s * s * x) + 1.0 / 384.0 * (s * s * x * (s * s * x))) *
    (0.5 - 1.0 / 48.0 * (s * s * x) + 1.0 / 3840.0 * (s * s * x * (s * s * x)))
  let k : ℝ → ℝ := fun s => 2 * (0.5 - 1.0 / 48.0 * (s * s * x) + 1.0 / 3840.0 * (s * s * x * (s * s * x))) ^ 2 * s
  have hg : DifferentiableAt ℝ g 0 := by dsimp only [g]; fun_prop
  have hk : DifferentiableAt ℝ k 0 := by dsimp only [k]; fun_prop
  have h1 := ((hg.hasDerivAt.mul (hasDerivAt_id (0 : ℝ))).mul_const (skew (rot d) i j)).add
    ((hk.hasDerivAt.mul (hasDerivAt_id (0 : ℝ))).mul_const ((skew (rot d) * skew (rot d)) i j))
  have h2 := (h1.const_add ((1 : Matrix (Fin 3) (Fin 3) ℝ) i j))
  have hval : deriv g 0 * id (0 : ℝ) + g 0 * 1 = 1 := by simp [g]; norm_num
  have hval2 : deriv k 0 * id (0 : ℝ) + k 0 * 1 = 0 := by simp [k]
  rw [hval, hval2, zero_mul, add_zero, one_mul] at h2
  refine h2.congr_of_eventuallyEq ?_
  filter_upwards [near_small (rot d)] with s hs
  rw [se3Exp_R, so3_factors, rot_smul, skew_smul]
  have hx : (s • rot d) ⬝ᵥ (s • rot d) = s * s * x := by
    simp only [smul_dotProduct, dotProduct_smul, smul_eq_mul, x]; ring
  rw [hx] at hs ⊢
  unfold realFactor imagFactor
  rw [if_pos hs.1, if_pos hs.1]
  simp only [Matrix.add_apply, Matrix.smul_apply, smul_eq_mul, Pi.add_apply, Pi.mul_apply, id, smul_mul_assoc, mul_smul_comm, g, k]
  norm_num only
  ring

theorem se3_at_zero (d : Fin 6 → ℝ) : se3Exp ((0 : ℝ) • d) = Pose.one := by
  rw [zero_smul]
  have : rot (0 : Fin 6 → ℝ) = 0 := by funext i; fin_cases i <;> rfl
  rw [se3_translation 0 this]
  have ht : tra (0 : Fin 6 → ℝ) = 0 := by funext i; fin_cases i <;> rfl
  rw [ht]
  rfl

theorem deriv_t (d : Fin 6 → ℝ) (i : Fin 3) : HasDerivAt (fun s : ℝ => (se3Exp (s • d)).t i) (tra d i) 0 := by
  have h1 : HasDerivAt (fun s : ℝ => ∑ j, (se3Exp (s • d)).R i j * (s * tra d j)) (∑ j, (skew (rot d) i j * (0 * tra d j) + (se3Exp ((0 : ℝ) • d)).R i j * tra d j)) 0 := by
    apply HasDerivAt.fun_sum
    intro j _
    have h2 : HasDerivAt (fun s : ℝ => s * tra d j) (tra d j) 0 := by simpa using (hasDerivAt_id (0 : ℝ)).mul_const (tra d j)
    exact (deriv_R d i j).mul h2
  have hv : ∑ j, (skew (rot d) i j * (0 * tra d j) + (se3Exp ((0 : ℝ) • d)).R i j * tra d j) = tra d i := by
    rw [se3_at_zero]
    simp only [zero_mul, mul_zero, zero_add, Pose.one]
    have := congrFun (one_mulVec (tra d)) i
    exact this
  rw [hv] at h1
  refine h1.congr_of_eventuallyEq ?_
  filter_upwards [near_small (rot d)] with s hs
  rw [se3Exp_R]
  unfold se3Exp
  simp only
  rw [rot_smul, tra_smul, if_pos hs.2]
  rfl

/-- Derivative of the residual along `T * se3_exp(s d)`. -/
theorem deriv_residual (T : Pose ℝ) (p q : Fin 4 → ℝ) (hp : p 3 = 1) (d : Fin 6 → ℝ) :
    HasDerivAt (fun s : ℝ => q - (T.mul (se3Exp (s • d))).apply p) (blocks (T.R * skew (head3 p)) (-T.R) *ᵥ d) 0 := by
  rw [hasDerivAt_pi]
  intro i
  by_cases hi : i = 3
  · subst hi
    have hc : (fun s : ℝ => (q - (T.mul (se3Exp (s • d))).apply p) 3) = fun _ => q 3 - p 3 := by
      funext s
      simp [Pose.apply, Pose.matrix, mulVec, dotProduct, Fin.sum_univ_four]
    have hv : (blocks (T.R * skew (head3 p)) (-T.R) *ᵥ d) 3 = 0 := by
      simp [mulVec, dotProduct, blocks]
    rw [hc, hv]
    exact hasDerivAt_const _ _
  · obtain ⟨i', rfl⟩ : ∃ i' : Fin 3, i = i'.castSucc := by
      refine ⟨⟨i.val, by omega⟩, ?_⟩
      ext; simp
    have hR := fun k l => deriv_R d k l
    have ht := fun k => deriv_t d k
    have h1 : HasDerivAt (fun s : ℝ => q i'.castSucc - ((∑ j, (∑ k, T.R i' k * (se3Exp (s • d)).R k j) * head3 p j) + ((∑ k, T.R i' k * (se3Exp (s • d)).t k) + T.t i')))
        (-((∑ j, (∑ k, T.R i' k * skew (rot d) k j) * head3 p j) + (∑ k, T.R i' k * tra d k))) 0 := by
      apply HasDerivAt.const_sub
      apply HasDerivAt.add
      · apply HasDerivAt.fun_sum
        intro j _
        apply HasDerivAt.mul_const
        apply HasDerivAt.fun_sum
        intro k _
        exact (hR k j).const_mul _
      · apply HasDerivAt.add_const
        apply HasDerivAt.fun_sum
        intro k _
        exact (ht k).const_mul _
    have hf : (fun s : ℝ => (q - (T.mul (se3Exp (s • d))).apply p) i'.castSucc) = (fun s : ℝ => q i'.castSucc - ((∑ j, (∑ k, T.R i' k * (se3Exp (s • d)).R k j) * head3 p j) + ((∑ k, T.R i' k * (se3Exp (s • d)).t k) + T.t i'))) := by
      funext s
      rw [Pi.sub_apply]
      congr 1
      fin_cases i' <;>
        simp [Pose.apply, Pose.matrix, Pose.mul, mulVec, dotProduct, Fin.sum_univ_four, Fin.sum_univ_three, Matrix.mul_apply, head3, hp]
    rw [hf]
    refine h1.congr_deriv ?_
    fin_cases i' <;>
      (simp [mulVec, dotProduct, Fin.sum_univ_six, Fin.sum_univ_three, Matrix.mul_apply, head3, blocks, skew, rot, tra]; ring)

/-- Derivative of half the weighted squared norm of a vector function. -/
theorem deriv_quad (r : ℝ → Fin 4 → ℝ) (r' : Fin 4 → ℝ) (M : Matrix (Fin 4) (Fin 4) ℝ) (hM : Mᵀ = M) (h : HasDerivAt r r' 0) :
    HasDerivAt (fun s => 1 / 2 * (r s ⬝ᵥ M *ᵥ r s)) (r' ⬝ᵥ M *ᵥ r 0) 0 := by
  have hc := fun i => hasDerivAt_pi.1 h i
  have h1 : HasDerivAt (fun s => 1 / 2 * ∑ i, r s i * ∑ j, M i j * r s j) (1 / 2 * ∑ i, (r' i * ∑ j, M i j * r 0 j + r 0 i * ∑ j, M i j * r' j)) 0 := by
    apply HasDerivAt.const_mul
    apply HasDerivAt.fun_sum
    intro i _
    apply (hc i).mul
    apply HasDerivAt.fun_sum
    intro j _
    exact (hc j).const_mul _
  refine h1.congr_deriv ?_
  rw [Finset.sum_add_distrib]
  have e1 : ∑ i, r' i * ∑ j, M i j * r 0 j = r' ⬝ᵥ M *ᵥ r 0 := rfl
  have e2 : ∑ i, r 0 i * ∑ j, M i j * r' j = r 0 ⬝ᵥ M *ᵥ r' := rfl
  have e3 : r 0 ⬝ᵥ M *ᵥ r' = r' ⬝ᵥ M *ᵥ r 0 := by
    rw [dotProduct_mulVec, dotProduct_comm, ← mulVec_transpose, hM]
  rw [e1, e2, e3]
  ring

end Verif.Proofs
