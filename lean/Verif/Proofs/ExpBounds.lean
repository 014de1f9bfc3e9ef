import Verif.Proofs.Norms
import Verif.Proofs.LieExp
import Mathlib.Analysis.SpecialFunctions.Trigonometric.Bounds

/-! How far the coded exponential map of a small twist is from its linear part. -/

set_option linter.unusedSectionVars false
set_option linter.unusedSimpArgs false
set_option linter.unnecessarySeqFocus false

namespace Verif.Proofs

open Matrix Verif.Factors Verif.Spec Verif.Lie

theorem sin_coef {s : ℝ} (h0 : 0 < s) : |Real.sin s / s - 1| ≤ s ^ 2 := by
  have a := Real.sin_le h0.le
  have b := Real.sin_gt_sub_cube h0
  rw [abs_le]
  constructor
  · rw [le_sub_iff_add_le, le_div_iff₀ h0]
    nlinarith [pow_pos h0 3]
  · rw [sub_le_iff_le_add, div_le_iff₀ h0]
    nlinarith [pow_pos h0 3]

/-- The two coefficients of the rotation matrix. -/
theorem rot_coefs {x : ℝ} (h0 : 0 ≤ x) (h1 : x ≤ 1) : |2 * realFactor x * imagFactor x - 1| ≤ x ∧ |2 * imagFactor x ^ 2| ≤ 1 := by
  unfold realFactor imagFactor
  by_cases h : x < 1e-10
  · rw [if_pos h, if_pos h]
    dsimp only
    have h2 : x ≤ 1 / 100 := h.le.trans (by norm_num)
    have h3 : x * x ≤ x := by nlinarith
    have p0 : (0 : ℝ) ≤ x * x := mul_self_nonneg x
    constructor
    · rw [abs_le]
      constructor <;> norm_num only <;> nlinarith [mul_nonneg h0 p0, mul_nonneg p0 p0]
    · rw [abs_of_nonneg (by positivity)]
      norm_num only
      have : -(1 / 2 : ℝ) ≤ 1 / 2 - 1 / 48 * x + 1 / 3840 * (x * x) := by nlinarith
      have : 1 / 2 - 1 / 48 * x + 1 / 3840 * (x * x) ≤ (1 / 2 : ℝ) := by nlinarith
      nlinarith
  · rw [if_neg h, if_neg h]
    dsimp only
    have hx : 0 < x := lt_of_lt_of_le (by norm_num) (not_lt.1 h)
    have hs := Real.sqrt_pos.2 hx
    have hs1 : Real.sqrt x ≤ 1 := Real.sqrt_le_one.2 h1
    have hsq := Real.sq_sqrt h0
    generalize Real.sqrt x = s at *
    constructor
    · have e : 2 * Real.cos (0.5 * s) * (Real.sin (0.5 * s) / s) = Real.sin s / s := by
        have : Real.sin s = 2 * Real.sin (0.5 * s) * Real.cos (0.5 * s) := by
          rw [← Real.sin_two_mul]
          congr 1
          norm_num only
          ring
        rw [this]
        ring
      rw [e, ← hsq]
      exact sin_coef hs
    · rw [abs_of_nonneg (by positivity), div_pow, ← mul_div_assoc, div_le_one (by positivity)]
      have a : |Real.sin (0.5 * s)| ≤ |0.5 * s| := Real.abs_sin_le_abs
      have := sq_le_sq.2 a
      nlinarith [sq_nonneg s]

section bounds

variable {d : Fin 6 → ℝ}

theorem len_rot_le (d : Fin 6 → ℝ) : len (rot d) ≤ len d := by
  refine len_le_of_sq (len_nonneg d) ?_
  rw [len_sq]
  simp only [dotProduct, rot, Fin.sum_univ_three, Fin.sum_univ_six]
  simp
  nlinarith [mul_self_nonneg (d 3), mul_self_nonneg (d 4), mul_self_nonneg (d 5)]

theorem len_tra_le (d : Fin 6 → ℝ) : len (tra d) ≤ len d := by
  refine len_le_of_sq (len_nonneg d) ?_
  rw [len_sq]
  simp only [dotProduct, tra, Fin.sum_univ_three, Fin.sum_univ_six]
  simp
  nlinarith [mul_self_nonneg (d 0), mul_self_nonneg (d 1), mul_self_nonneg (d 2)]

theorem twist_sq (d : Fin 6 → ℝ) : len d ^ 2 = len (rot d) ^ 2 + len (tra d) ^ 2 := by
  rw [len_sq, len_sq, len_sq]
  simp only [dotProduct, rot, tra, Fin.sum_univ_three, Fin.sum_univ_six]
  simp
  ring

theorem twist_le (d : Fin 6 → ℝ) : len d ≤ len (rot d) + len (tra d) := by
  have := twist_sq d
  have h1 := len_nonneg (rot d)
  have h2 := len_nonneg (tra d)
  refine le_of_sq_le_sq ?_ (by positivity) |>.trans le_rfl
  rw [this]
  nlinarith [mul_nonneg h1 h2]

theorem fro_skew_sq_le (w : Fin 3 → ℝ) : fro (skew w * skew w) ≤ 9 / 4 * len w ^ 2 := by
  refine (fro_mul_le _ _).trans ?_
  have := fro_skew_le w
  have h0 := fro_nonneg (skew w)
  nlinarith [len_nonneg w]

/-- The rotation of a small step against its linear part. -/
theorem exp_R_second (h : len (rot d) ≤ 1) : fro ((se3Exp d).R - 1 - skew (rot d)) ≤ 4 * len (rot d) ^ 2 := by
  rw [se3Exp_R, so3_factors]
  have h0 := len_nonneg (rot d)
  have hx := len_sq (rot d)
  have hx1 : rot d ⬝ᵥ rot d ≤ 1 := by rw [← hx]; nlinarith
  obtain ⟨c1, c2⟩ := rot_coefs (dot_nonneg (rot d)) hx1
  rw [← hx] at c1 c2 ⊢
  have e : 1 + (2 * realFactor (len (rot d) ^ 2) * imagFactor (len (rot d) ^ 2)) • skew (rot d) + (2 * imagFactor (len (rot d) ^ 2) ^ 2) • (skew (rot d) * skew (rot d)) - 1 - skew (rot d) =
      (2 * realFactor (len (rot d) ^ 2) * imagFactor (len (rot d) ^ 2) - 1) • skew (rot d) + (2 * imagFactor (len (rot d) ^ 2) ^ 2) • (skew (rot d) * skew (rot d)) := by
    rw [sub_smul, one_smul]
    abel
  rw [e]
  refine (fro_add_le _ _).trans ?_
  rw [fro_smul, fro_smul]
  have a := fro_skew_le (rot d)
  have b := fro_skew_sq_le (rot d)
  have s0 := fro_nonneg (skew (rot d))
  have s1 := fro_nonneg (skew (rot d) * skew (rot d))
  generalize len (rot d) = w at *
  have t1 := mul_le_mul c1 a s0 (by positivity)
  have t2 := mul_le_mul c2 b s1 (by norm_num)
  nlinarith [mul_nonneg h0 h0, mul_nonneg (mul_nonneg h0 h0) (sub_nonneg.2 h)]

theorem exp_R_first (h : len (rot d) ≤ 1) : fro ((se3Exp d).R - 1) ≤ 6 * len (rot d) := by
  have e : (se3Exp d).R - 1 = ((se3Exp d).R - 1 - skew (rot d)) + skew (rot d) := by abel
  rw [e]
  refine (fro_add_le _ _).trans ?_
  have a := exp_R_second h
  have b := fro_skew_le (rot d)
  have h0 := len_nonneg (rot d)
  nlinarith

/-- The translation of a small step against its linear part. -/
theorem exp_t_second (h : len (rot d) ≤ 1) : len ((se3Exp d).t - tra d) ≤ 6 * len (rot d) * len (tra d) := by
  by_cases hs : Real.sqrt (rot d ⬝ᵥ rot d) < 1e-10
  · have e : (se3Exp d).t = (se3Exp d).R *ᵥ tra d := by
      unfold se3Exp
      simp only [hs, if_true]
    have e2 : (se3Exp d).R *ᵥ tra d - tra d = ((se3Exp d).R - 1) *ᵥ tra d := by rw [sub_mulVec, one_mulVec]
    rw [e, e2]
    exact (len_mulVec_le _ _).trans (mul_le_mul_of_nonneg_right (exp_R_first h) (len_nonneg _))
  · have e : (se3Exp d).t - tra d = (((1 - Real.cos (len (rot d))) / (rot d ⬝ᵥ rot d)) • skew (rot d) +
        ((len (rot d) - Real.sin (len (rot d))) / ((rot d ⬝ᵥ rot d) * len (rot d))) • (skew (rot d) * skew (rot d))) *ᵥ tra d := by
      unfold se3Exp
      simp only [hs, if_false]
      show _ *ᵥ tra d - tra d = _
      rw [add_assoc, add_mulVec, one_mulVec, add_sub_cancel_left, smul_mul_assoc]
      rfl
    rw [e]
    refine (len_mulVec_le _ _).trans (mul_le_mul_of_nonneg_right ?_ (len_nonneg _))
    refine (fro_add_le _ _).trans ?_
    rw [fro_smul, fro_smul, ← len_sq]
    have hw : 0 < len (rot d) := lt_of_lt_of_le (by norm_num) (not_lt.1 hs)
    have a := fro_skew_le (rot d)
    have b := fro_skew_sq_le (rot d)
    have s0 := fro_nonneg (skew (rot d))
    have s1 := fro_nonneg (skew (rot d) * skew (rot d))
    generalize len (rot d) = w at *
    have k1 : |(1 - Real.cos w) / w ^ 2| ≤ 1 := by
      have l := Real.one_sub_sq_div_two_le_cos (x := w)
      rw [abs_of_nonneg (div_nonneg (by linarith [Real.cos_le_one w]) (by positivity)), div_le_one (by positivity)]
      nlinarith [sq_nonneg w]
    have k2 : |(w - Real.sin w) / (w ^ 2 * w)| ≤ 1 := by
      have l1 := Real.sin_le hw.le
      have l2 := Real.sin_gt_sub_cube hw
      rw [abs_of_nonneg (div_nonneg (by linarith) (by positivity)), div_le_one (by positivity)]
      nlinarith [pow_pos hw 3]
    have t1 := mul_le_mul k1 a s0 (by norm_num)
    have t2 := mul_le_mul k2 b s1 (by norm_num)
    nlinarith

theorem exp_t_first (h : len (rot d) ≤ 1) : len (se3Exp d).t ≤ 7 * len (tra d) := by
  have e : (se3Exp d).t = ((se3Exp d).t - tra d) + tra d := by abel
  rw [e]
  refine (len_add_le _ _).trans ?_
  have a := exp_t_second h
  have h0 := len_nonneg (rot d)
  have h1 := len_nonneg (tra d)
  nlinarith

/-- The rotation of a step is stretched only a little. -/
theorem exp_stretch (d : Fin 6 → ℝ) : StretchAtMost (se3Exp d).R (1 + len (rot d) ^ 8) := by
  rw [se3Exp_R]
  have h8 : len (rot d) ^ 8 = (rot d ⬝ᵥ rot d) ^ 4 := by rw [← len_sq]; ring
  rw [h8]
  have key : 0 ≤ qn (so3Exp (rot d)) - 1 ∧ 4 * qs (so3Exp (rot d)) * (qn (so3Exp (rot d)) - 1) ≤ (rot d ⬝ᵥ rot d) ^ 4 := by
    by_cases h : rot d ⬝ᵥ rot d < 1e-10
    · refine ⟨(qn_small _ h).1, ?_⟩
      rw [qn_so3, qs_so3]
      have h0 := dot_nonneg (rot d)
      generalize rot d ⬝ᵥ rot d = x at *
      unfold realFactor imagFactor
      rw [if_pos h, if_pos h]
      simp only
      have e : (1.0 - 1.0 / 8.0 * x + 1.0 / 384.0 * (x * x)) ^ 2 + (0.5 - 1.0 / 48.0 * x + 1.0 / 3840.0 * (x * x)) ^ 2 * x - 1 =
          x ^ 3 * (1 / 23040 - x / 245760 + x ^ 2 / 14745600) := by
        norm_num only
        ring
      rw [e]
      have hx1 : x ≤ 1 := h.le.trans (by norm_num)
      have hb : 0 ≤ 1 / 23040 - x / 245760 + x ^ 2 / 14745600 := by nlinarith [sq_nonneg x]
      have hb2 : 1 / 23040 - x / 245760 + x ^ 2 / 14745600 ≤ 1 := by nlinarith
      have hi : (0.5 - 1.0 / 48.0 * x + 1.0 / 3840.0 * (x * x)) ^ 2 ≤ 1 / 4 := by
        have h1 : (0.5 : ℝ) - 1.0 / 48.0 * x + 1.0 / 3840.0 * (x * x) ≤ 1 / 2 := by norm_num; nlinarith
        have h2 : 0 ≤ (0.5 : ℝ) - 1.0 / 48.0 * x + 1.0 / 3840.0 * (x * x) := by norm_num; nlinarith
        nlinarith
      have hs : (0.5 - 1.0 / 48.0 * x + 1.0 / 3840.0 * (x * x)) ^ 2 * x ≤ 1 / 4 * x := mul_le_mul_of_nonneg_right hi h0
      have hn : x ^ 3 * (1 / 23040 - x / 245760 + x ^ 2 / 14745600) ≤ x ^ 3 * 1 := mul_le_mul_of_nonneg_left hb2 (pow_nonneg h0 3)
      calc 4 * ((0.5 - 1.0 / 48.0 * x + 1.0 / 3840.0 * (x * x)) ^ 2 * x) * (x ^ 3 * (1 / 23040 - x / 245760 + x ^ 2 / 14745600))
          ≤ 4 * (1 / 4 * x) * (x ^ 3 * 1) := by
            apply mul_le_mul _ hn (mul_nonneg (pow_nonneg h0 3) hb) (by linarith)
            linarith
        _ = x ^ 4 := by ring
    · rw [qn_large _ (not_lt.1 h)]
      simp
      have := dot_nonneg (rot d)
      positivity
  generalize (rot d ⬝ᵥ rot d) ^ 4 = η at *
  generalize so3Exp (rot d) = q at *
  obtain ⟨k1, k2⟩ := key
  have hqs : 0 ≤ qs q := by unfold qs; positivity
  refine ⟨fun u => ?_, ?_, ?_⟩
  · rw [rot_normsq]
    have hc := cross_le q u
    have hc0 : 0 ≤ (q.y * u 2 - q.z * u 1) ^ 2 + (q.z * u 0 - q.x * u 2) ^ 2 + (q.x * u 1 - q.y * u 0) ^ 2 := by positivity
    generalize (q.y * u 2 - q.z * u 1) ^ 2 + (q.z * u 0 - q.x * u 2) ^ 2 + (q.x * u 1 - q.y * u 0) ^ 2 = c at *
    have hu := dot3_nonneg u
    constructor
    · nlinarith [mul_nonneg k1 hc0]
    · have h1 : (qn q - 1) * c ≤ (qn q - 1) * (qs q * (u ⬝ᵥ u)) := mul_le_mul_of_nonneg_left hc k1
      have h2 : 4 * qs q * (qn q - 1) * (u ⬝ᵥ u) ≤ η * (u ⬝ᵥ u) := mul_le_mul_of_nonneg_right k2 hu
      nlinarith
  · rw [rot_det]; nlinarith [mul_nonneg hqs k1]
  · rw [rot_det]; linarith

end bounds

end Verif.Proofs
