import Verif.Proofs.Lie
import Mathlib.Analysis.SpecialFunctions.Exponential
import Mathlib.Analysis.Normed.Algebra.MatrixExponential
import Mathlib.Analysis.Calculus.MeanValue
import Mathlib.Analysis.SpecialFunctions.Trigonometric.Deriv
import Mathlib.Tactic.NoncommRing

/-! The closed form of `se3_exp` is the matrix exponential. -/

set_option linter.unusedSimpArgs false
set_option linter.unusedSectionVars false

namespace Verif.Proofs

open Verif.Factors Verif.Lie Verif.Spec NormedSpace

section Abstract

variable {A : Type} [NormedRing A] [NormedAlgebra ℝ A] [CompleteSpace A]

/-- The closed form along the ray through `X`. -/
noncomputable def closedForm (th : ℝ) (X : A) (s : ℝ) : A :=
  1 + s • X + ((1 - Real.cos (s * th)) / th ^ 2) • (X * X) + ((s * th - Real.sin (s * th)) / th ^ 3) • (X * X * X)

theorem closedForm_deriv (th : ℝ) (h0 : th ≠ 0) (X : A) (hX : X * X * X * X = -(th ^ 2) • (X * X)) (s : ℝ) :
    HasDerivAt (closedForm th X) (closedForm th X s * X) s := by
  have hm : HasDerivAt (fun s : ℝ => s * th) th s := by simpa using (hasDerivAt_id s).mul_const th
  have h1 : HasDerivAt (fun s : ℝ => s • X) X s := by simpa using (hasDerivAt_id s).smul_const X
  have h2 : HasDerivAt (fun s : ℝ => (1 - Real.cos (s * th)) / th ^ 2) (Real.sin (s * th) / th) s := by
    have := ((hm.cos.const_sub 1).div_const (th ^ 2))
    refine this.congr_deriv ?_
    field_simp
  have h3 : HasDerivAt (fun s : ℝ => (s * th - Real.sin (s * th)) / th ^ 3) ((1 - Real.cos (s * th)) / th ^ 2) s := by
    have := ((hm.sub hm.sin).div_const (th ^ 3))
    refine this.congr_deriv ?_
    field_simp
  have h := (((hasDerivAt_const s (1 : A)).add h1).add (h2.smul_const (X * X))).add (h3.smul_const (X * X * X))
  refine h.congr_deriv ?_
  unfold closedForm
  rw [zero_add, add_mul, add_mul, add_mul, one_mul, smul_mul_assoc, smul_mul_assoc, smul_mul_assoc, hX, smul_smul]
  have e : Real.sin (s * th) / th = s + (s * th - Real.sin (s * th)) / th ^ 3 * -(th ^ 2) := by
    field_simp; ring
  rw [e, add_smul]
  abel

theorem closedForm_exp (th : ℝ) (h0 : th ≠ 0) (X : A) (hX : X * X * X * X = -(th ^ 2) • (X * X)) : closedForm th X 1 = exp X := by
  have hd : ∀ s : ℝ, HasDerivAt (fun s : ℝ => closedForm th X s * exp (s • (-X))) 0 s := by
    intro s
    have h := (closedForm_deriv th h0 X hX s).mul (hasDerivAt_exp_smul_const' (𝕂 := ℝ) (-X) s)
    refine h.congr_deriv ?_
    rw [mul_assoc, neg_mul, mul_neg, add_neg_cancel]
  have hc := is_const_of_deriv_eq_zero (fun s => (hd s).differentiableAt) (fun s => (hd s).deriv) 1 0
  simp only [one_smul, zero_smul, exp_zero, mul_one] at hc
  have h00 : closedForm th X 0 = 1 := by
    unfold closedForm; simp
  rw [h00] at hc
  have hinv : exp (-X) * exp X = 1 := by
    let _ : NormedAlgebra ℚ A := NormedAlgebra.restrictScalars ℚ ℝ A
    rw [← exp_add_of_commute (Commute.neg_left (Commute.refl X)), neg_add_cancel, exp_zero]
  calc closedForm th X 1 = closedForm th X 1 * (exp (-X) * exp X) := by rw [hinv, mul_one]
    _ = exp X := by rw [← mul_assoc, hc, one_mul]

end Abstract

open Matrix

theorem twist_pow4 (a : Fin 6 → ℝ) (th : ℝ) (h : th ^ 2 = rot a ⬝ᵥ rot a) :
    twistMatrix a * twistMatrix a * twistMatrix a * twistMatrix a = -(th ^ 2) • (twistMatrix a * twistMatrix a) := by
  rw [h]
  ext i j
  fin_cases i <;> fin_cases j <;>
    (simp [twistMatrix, Matrix.mul_apply, Fin.sum_univ_succ, dotProduct, rot]; try ring)

set_option backward.isDefEq.respectTransparency false in
theorem closedForm_matrix (th : ℝ) (h0 : th ≠ 0) (X : Matrix (Fin 4) (Fin 4) ℝ) (hX : X * X * X * X = -(th ^ 2) • (X * X)) :
    1 + X + ((1 - Real.cos th) / th ^ 2) • (X * X) + ((th - Real.sin th) / th ^ 3) • (X * X * X) = exp X := by
  open scoped Matrix.Norms.Operator in
  have h := closedForm_exp th h0 X hX
  unfold closedForm at h
  simpa only [one_smul, one_mul] using h

/-- Above the threshold the rotation is Rodrigues' formula. -/
theorem so3_large (w : Fin 3 → ℝ) (h : 1e-10 ≤ w ⬝ᵥ w) :
    (so3Exp w).toRotationMatrix = 1 + (Real.sin (Real.sqrt (w ⬝ᵥ w)) / Real.sqrt (w ⬝ᵥ w)) • skew w +
      ((1 - Real.cos (Real.sqrt (w ⬝ᵥ w))) / (w ⬝ᵥ w)) • (skew w * skew w) := by
  have hp : 0 < w ⬝ᵥ w := lt_of_lt_of_le (by norm_num) h
  have hs := Real.sq_sqrt (le_of_lt hp)
  have hsp := Real.sqrt_pos.2 hp
  simp only [so3Exp, realFactor, imagFactor, if_neg (not_lt.2 h)]
  generalize Real.sqrt (w ⬝ᵥ w) = th at *
  rw [← hs]
  have e1 : Real.sin th = 2 * Real.sin (0.5 * th) * Real.cos (0.5 * th) := by
    rw [← Real.sin_two_mul]; congr 1; norm_num; ring
  have e2 : 1 - Real.cos th = 2 * Real.sin (0.5 * th) ^ 2 := by
    have : Real.cos th = 1 - 2 * Real.sin (0.5 * th) ^ 2 := by
      rw [← Real.cos_two_mul_eq_one_sub]; congr 1; norm_num; ring
    linarith
  rw [e1, e2]
  generalize Real.sin (0.5 * th) = S
  generalize Real.cos (0.5 * th) = C
  ext i j
  fin_cases i <;> fin_cases j <;>
    simp [Quat.toRotationMatrix, skew, Matrix.mul_apply, Fin.sum_univ_three] <;> field_simp
  all_goals ring

theorem pose_entries (a : Fin 6 → ℝ) (T : Pose ℝ) (c d : ℝ)
    (hR : T.R = 1 + (1 - d * (rot a ⬝ᵥ rot a)) • skew (rot a) + c • (skew (rot a) * skew (rot a)))
    (ht : T.t = (1 + c • skew (rot a) + d • skew (rot a) * skew (rot a)) *ᵥ tra a) :
    T.matrix = 1 + twistMatrix a + c • (twistMatrix a * twistMatrix a) + d • (twistMatrix a * twistMatrix a * twistMatrix a) := by
  have hsq : skew (rot a) * skew (rot a) = !![-(a 2 ^ 2) - a 1 ^ 2, a 0 * a 1, a 0 * a 2; a 0 * a 1, -(a 2 ^ 2) - a 0 ^ 2, a 1 * a 2;
      a 0 * a 2, a 1 * a 2, -(a 1 ^ 2) - a 0 ^ 2] := by
    ext i j
    fin_cases i <;> fin_cases j <;> (simp [skew, Matrix.mul_apply, Fin.sum_univ_three, rot]; try ring)
  have hTsq : twistMatrix a * twistMatrix a = !![-(a 2 ^ 2) - a 1 ^ 2, a 0 * a 1, a 0 * a 2, a 1 * a 5 - a 2 * a 4;
      a 0 * a 1, -(a 2 ^ 2) - a 0 ^ 2, a 1 * a 2, a 2 * a 3 - a 0 * a 5;
      a 0 * a 2, a 1 * a 2, -(a 1 ^ 2) - a 0 ^ 2, a 0 * a 4 - a 1 * a 3; 0, 0, 0, 0] := by
    ext i j
    fin_cases i <;> fin_cases j <;> (simp [twistMatrix, Matrix.mul_apply, Fin.sum_univ_succ]; try ring)
  have hdot : rot a ⬝ᵥ rot a = a 0 ^ 2 + a 1 ^ 2 + a 2 ^ 2 := by
    simp [dotProduct, Fin.sum_univ_three, rot]; ring
  rw [smul_mul_assoc, hsq] at ht
  rw [hsq, hdot] at hR
  rw [hTsq]
  unfold Pose.matrix
  rw [hR, ht]
  ext i j
  fin_cases i <;> fin_cases j <;>
    (simp [twistMatrix, skew, Matrix.mul_apply, Fin.sum_univ_three, Fin.sum_univ_four, rot, tra, mulVec, dotProduct]
     try first | (right; ring1) | ring1)

/-- Rodrigues rotation and left Jacobian, without case distinction. -/
noncomputable def closedPose (a : Fin 6 → ℝ) : Pose ℝ :=
  ⟨1 + (Real.sin (Real.sqrt (rot a ⬝ᵥ rot a)) / Real.sqrt (rot a ⬝ᵥ rot a)) • skew (rot a) +
      ((1 - Real.cos (Real.sqrt (rot a ⬝ᵥ rot a))) / (rot a ⬝ᵥ rot a)) • (skew (rot a) * skew (rot a)),
   (1 + ((1 - Real.cos (Real.sqrt (rot a ⬝ᵥ rot a))) / (rot a ⬝ᵥ rot a)) • skew (rot a) +
      ((Real.sqrt (rot a ⬝ᵥ rot a) - Real.sin (Real.sqrt (rot a ⬝ᵥ rot a))) / ((rot a ⬝ᵥ rot a) * Real.sqrt (rot a ⬝ᵥ rot a))) • skew (rot a) * skew (rot a)) *ᵥ tra a⟩

/-- The closed form is the matrix exponential of the twist matrix. -/
theorem closedPose_exp (a : Fin 6 → ℝ) (hp : 0 < rot a ⬝ᵥ rot a) : (closedPose a).matrix = exp (twistMatrix a) := by
  have hs := Real.sq_sqrt (le_of_lt hp)
  have hsp := Real.sqrt_pos.2 hp
  rw [← closedForm_matrix (Real.sqrt (rot a ⬝ᵥ rot a)) (ne_of_gt hsp) (twistMatrix a) (twist_pow4 a _ hs)]
  unfold closedPose
  generalize hth' : Real.sqrt (rot a ⬝ᵥ rot a) = th at *
  clear hth'
  have hne := ne_of_gt hsp
  have e1 : Real.sin th / th = 1 - (th - Real.sin th) / th ^ 3 * (rot a ⬝ᵥ rot a) := by
    rw [← hs]; field_simp; ring
  have e2 : (th - Real.sin th) / ((rot a ⬝ᵥ rot a) * th) = (th - Real.sin th) / th ^ 3 := by
    rw [← hs, ← pow_succ]
  rw [e1, e2, hs]
  exact pose_entries a _ _ _ rfl rfl

/-- Above the threshold `se3_exp` is the closed form. -/
theorem se3_large (a : Fin 6 → ℝ) (h : 1e-10 ≤ rot a ⬝ᵥ rot a) : se3Exp a = closedPose a := by
  have hth : ¬ Real.sqrt (rot a ⬝ᵥ rot a) < 1e-10 := by
    rw [not_lt]
    apply Real.le_sqrt_of_sq_le
    refine le_trans ?_ h
    norm_num
  unfold se3Exp closedPose
  simp only
  rw [if_neg hth, so3_large (rot a) h]

/-- `se3_exp` of a pure translation. -/
theorem se3_translation (a : Fin 6 → ℝ) (h : rot a = 0) : se3Exp a = ⟨1, tra a⟩ := by
  have hR : (so3Exp (rot a)).toRotationMatrix = 1 := by
    rw [h]
    ext i j
    fin_cases i <;> fin_cases j <;> simp [so3Exp, Quat.toRotationMatrix]
  unfold se3Exp
  simp only
  rw [hR, h]
  simp

theorem twist_translation (a : Fin 6 → ℝ) (h : rot a = 0) : (Pose.matrix ⟨1, tra a⟩ : Matrix (Fin 4) (Fin 4) ℝ) = exp (twistMatrix a) := by
  have h0 : a 0 = 0 := congrFun h 0
  have h1 : a 1 = 0 := congrFun h 1
  have h2 : a 2 = 0 := congrFun h 2
  have hsq : twistMatrix a * twistMatrix a = 0 := by
    ext i j
    fin_cases i <;> fin_cases j <;> simp [twistMatrix, h0, h1, h2, Matrix.mul_apply, Fin.sum_univ_four]
  rw [← closedForm_matrix 1 one_ne_zero (twistMatrix a) (by simp [hsq]), hsq]
  ext i j
  fin_cases i <;> fin_cases j <;> simp [twistMatrix, h0, h1, h2, Pose.matrix, tra]

/-- The rotation matrix in terms of the two factors. -/
theorem so3_factors (w : Fin 3 → ℝ) : (so3Exp w).toRotationMatrix = 1 + (2 * realFactor (w ⬝ᵥ w) * imagFactor (w ⬝ᵥ w)) • skew w +
    (2 * imagFactor (w ⬝ᵥ w) ^ 2) • (skew w * skew w) := by
  unfold so3Exp
  dsimp only
  generalize imagFactor (w ⬝ᵥ w) = c
  generalize realFactor (w ⬝ᵥ w) = d
  ext i j
  fin_cases i <;> fin_cases j <;>
    (simp [Quat.toRotationMatrix, skew, Matrix.mul_apply, Fin.sum_univ_three]; try ring)

/-- Coefficients of the polynomial branch against the exact ones. -/
theorem coef_small (x : ℝ) (h0 : 0 < x) (h : x < 1e-10) :
    |2 * realFactor x * imagFactor x - Real.sin (Real.sqrt x) / Real.sqrt x| ≤ 1e-21 ∧
    |2 * imagFactor x ^ 2 - (1 - Real.cos (Real.sqrt x)) / x| ≤ 1e-10 ∧
    |(1 - Real.cos (Real.sqrt x)) / x - 1 / 2| ≤ 1e-10 ∧
    |(Real.sqrt x - Real.sin (Real.sqrt x)) / (x * Real.sqrt x) - 1 / 6| ≤ 1e-10 := by
  have hs := Real.sq_sqrt (le_of_lt h0)
  have hsp := Real.sqrt_pos.2 h0
  have hs5 : Real.sqrt x ≤ 1e-5 := by
    apply Real.sqrt_le_iff.2 ⟨by norm_num, ?_⟩
    refine le_trans (le_of_lt h) ?_
    norm_num
  unfold realFactor imagFactor
  rw [if_pos h, if_pos h]
  simp only
  generalize Real.sqrt x = th at *
  have hth1 : |th| ≤ 1 := by rw [abs_of_pos hsp]; exact le_trans hs5 (by norm_num)
  have hsin := Real.sin_bound hth1
  have hcos := Real.cos_bound hth1
  rw [abs_of_pos hsp] at hsin hcos
  have hx1 : x ≤ 1e-10 := le_of_lt h
  have hxx : x * x ≤ 1e-10 * x := mul_le_mul_of_nonneg_right hx1 (le_of_lt h0)
  have hsin' : |Real.sin th / th - (1 - x / 6)| ≤ 1e-22 := by
    have e : Real.sin th / th - (1 - x / 6) = (Real.sin th - (th - th ^ 3 / 6)) / th := by
      rw [← hs]; field_simp
    rw [e, abs_div, abs_of_pos hsp, div_le_iff₀ hsp]
    refine le_trans hsin ?_
    have h4 : th ^ 4 ≤ (1e-5 : ℝ) ^ 4 := pow_le_pow_left₀ (le_of_lt hsp) hs5 4
    have h5 : th ^ 5 / 100 = th ^ 4 / 100 * th := by ring
    rw [h5]
    apply mul_le_mul_of_nonneg_right _ (le_of_lt hsp)
    norm_num only at h4 ⊢
    linarith
  have hcos' : |(1 - Real.cos th) / x - 1 / 2| ≤ x * (5 / 96) := by
    have e : (1 - Real.cos th) / x - 1 / 2 = -(Real.cos th - (1 - th ^ 2 / 2)) / x := by
      rw [← hs]; field_simp; ring
    rw [e, abs_div, abs_of_pos h0, abs_neg, div_le_iff₀ h0]
    refine le_trans hcos ?_
    rw [← hs]
    apply le_of_eq; ring
  refine ⟨?_, ?_, ?_, ?_⟩
  · have hp : |2 * (1.0 - 1.0 / 8.0 * x + 1.0 / 384.0 * (x * x)) * (0.5 - 1.0 / 48.0 * x + 1.0 / 3840.0 * (x * x)) - (1 - x / 6)| ≤ 1e-22 := by
      have e : 2 * (1.0 - 1.0 / 8.0 * x + 1.0 / 384.0 * (x * x)) * (0.5 - 1.0 / 48.0 * x + 1.0 / 3840.0 * (x * x)) - (1 - x / 6) =
          x * x * (1 / 384 + 1 / 192 + 1 / 1920) - x * x * x * (1 / 9216 + 1 / 15360) + x * x * x * x * (1 / 737280) := by
        norm_num only
        ring
      have hxxx : 0 ≤ x * x * x := by positivity
      have hx4 : 0 ≤ x * x * x * x := by positivity
      have hx3b : x * x * x ≤ x * x := by nlinarith [mul_pos h0 h0]
      have hx4b : x * x * x * x ≤ x * x * x := by nlinarith
      have hx2b : x * x ≤ 1e-20 := by nlinarith
      rw [e, abs_le]
      constructor <;> norm_num only <;> norm_num only at hx2b <;> nlinarith
    have e2 : ∀ A B C : ℝ, |A - C| ≤ 1e-22 → |B - C| ≤ 1e-22 → |A - B| ≤ 1e-21 := by
      intro A B C h1 h2
      rw [abs_le] at *
      norm_num only at *
      constructor <;> linarith
    exact e2 _ _ _ hp hsin'
  · have hp : |2 * (0.5 - 1.0 / 48.0 * x + 1.0 / 3840.0 * (x * x)) ^ 2 - 1 / 2| ≤ x / 10 := by
      have e : 2 * (0.5 - 1.0 / 48.0 * x + 1.0 / 3840.0 * (x * x)) ^ 2 - 1 / 2 =
          -x / 24 + x * x * (1 / 1920 + 1 / 1152) - x * x * x * (1 / 46080) + x * x * x * x * (1 / 7372800) := by
        norm_num only
        ring
      have hxxx : 0 ≤ x * x * x := by positivity
      have hx4 : 0 ≤ x * x * x * x := by positivity
      have hx2 : 0 ≤ x * x := by positivity
      have hx2b : x * x ≤ x := by nlinarith
      have hx3b : x * x * x ≤ x * x := by nlinarith [mul_pos h0 h0]
      have hx4b : x * x * x * x ≤ x * x * x := by nlinarith
      rw [e, abs_le]
      constructor <;> nlinarith
    have e2 : ∀ A B : ℝ, |A - 1 / 2| ≤ x / 10 → |B - 1 / 2| ≤ x * (5 / 96) → |A - B| ≤ 1e-10 := by
      intro A B h1 h2
      rw [abs_le] at *
      norm_num only at *
      constructor <;> linarith
    exact e2 _ _ hp hcos'
  · refine le_trans hcos' ?_
    norm_num only at *
    linarith
  · have e : (th - Real.sin th) / (x * th) - 1 / 6 = -(Real.sin th - (th - th ^ 3 / 6)) / th ^ 3 := by
      rw [← hs]; field_simp; ring
    have h3 : 0 < th ^ 3 := by positivity
    rw [e, abs_div, abs_of_pos h3, abs_neg, div_le_iff₀ h3]
    refine le_trans hsin ?_
    have h4 : th ^ 5 / 100 = th ^ 2 / 100 * th ^ 3 := by ring
    rw [h4, hs]
    apply mul_le_mul_of_nonneg_right _ (le_of_lt h3)
    norm_num only at *
    linarith

theorem skew_entry_le (w : Fin 3 → ℝ) (i j : Fin 3) (s : ℝ) (hs : 0 ≤ s) (hw : w ⬝ᵥ w ≤ s ^ 2) : |skew w i j| ≤ s ∧ |(skew w * skew w) i j| ≤ s ^ 2 := by
  have e : w ⬝ᵥ w = w 0 ^ 2 + w 1 ^ 2 + w 2 ^ 2 := by simp only [dotProduct, Fin.sum_univ_three]; ring
  rw [e] at hw
  have hc : ∀ i, |w i| ≤ s := by
    intro i
    apply abs_le_of_sq_le_sq _ hs
    fin_cases i <;> simp <;> nlinarith [sq_nonneg (w 0), sq_nonneg (w 1), sq_nonneg (w 2)]
  constructor
  · fin_cases i <;> fin_cases j <;> simp [skew, hc, hs]
  · rw [abs_le]
    fin_cases i <;> fin_cases j <;> simp [skew, Matrix.mul_apply, Fin.sum_univ_three] <;> constructor <;>
      nlinarith [sq_nonneg (w 0), sq_nonneg (w 1), sq_nonneg (w 2), sq_nonneg (w 0 + w 1), sq_nonneg (w 0 - w 1), sq_nonneg (w 0 + w 2),
        sq_nonneg (w 0 - w 2), sq_nonneg (w 1 + w 2), sq_nonneg (w 1 - w 2)]

end Verif.Proofs
