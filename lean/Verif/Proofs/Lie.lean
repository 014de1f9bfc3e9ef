import Verif.Model.Lie
import Verif.Spec.Lie
import Mathlib.Tactic.FinCases
import Mathlib.Tactic.Linarith
import Mathlib.Tactic.NormNum
import Mathlib.Tactic.FieldSimp
import Mathlib.Tactic.LinearCombination
import Mathlib.LinearAlgebra.Matrix.Determinant.Basic

set_option linter.unusedSimpArgs false

/-! Lemmas on quaternion rotations. -/

namespace Verif.Proofs

open Matrix Verif.Factors Verif.Lie Verif.Spec

/-- Squared norm of a quaternion. -/
def qn (q : Quat) : ℝ := q.w ^ 2 + q.x ^ 2 + q.y ^ 2 + q.z ^ 2

/-- Squared norm of its imaginary part. -/
def qs (q : Quat) : ℝ := q.x ^ 2 + q.y ^ 2 + q.z ^ 2

theorem rot_normsq (q : Quat) (u : Fin 3 → ℝ) :
    (q.toRotationMatrix *ᵥ u) ⬝ᵥ (q.toRotationMatrix *ᵥ u) =
      u ⬝ᵥ u + 4 * (qn q - 1) * ((q.y * u 2 - q.z * u 1) ^ 2 + (q.z * u 0 - q.x * u 2) ^ 2 + (q.x * u 1 - q.y * u 0) ^ 2) := by
  simp only [Quat.toRotationMatrix, dotProduct, mulVec, Fin.sum_univ_three, of_apply, cons_val_zero, cons_val_one, cons_val, qn]
  ring

theorem cross_le (q : Quat) (u : Fin 3 → ℝ) :
    (q.y * u 2 - q.z * u 1) ^ 2 + (q.z * u 0 - q.x * u 2) ^ 2 + (q.x * u 1 - q.y * u 0) ^ 2 ≤ qs q * (u ⬝ᵥ u) := by
  simp only [dotProduct, Fin.sum_univ_three, qs]
  nlinarith [sq_nonneg (q.x * u 0 + q.y * u 1 + q.z * u 2)]

theorem rot_det (q : Quat) : q.toRotationMatrix.det = 1 + 4 * qs q * (qn q - 1) := by
  rw [det_fin_three]
  simp only [Quat.toRotationMatrix, of_apply, cons_val_zero, cons_val_one, cons_val, qn, qs]
  ring

theorem rot_orth (q : Quat) (h : qn q = 1) : q.toRotationMatrixᵀ * q.toRotationMatrix = 1 := by
  unfold qn at h
  ext i j
  fin_cases i <;> fin_cases j <;>
    simp [Quat.toRotationMatrix, Matrix.mul_apply, Fin.sum_univ_three, qn, transpose_apply]
  · linear_combination (4 * (q.y ^ 2 + q.z ^ 2)) * h
  · linear_combination (-4 * q.x * q.y) * h
  · linear_combination (-4 * q.x * q.z) * h
  · linear_combination (-4 * q.x * q.y) * h
  · linear_combination (4 * (q.x ^ 2 + q.z ^ 2)) * h
  · linear_combination (-4 * q.y * q.z) * h
  · linear_combination (-4 * q.x * q.z) * h
  · linear_combination (-4 * q.y * q.z) * h
  · linear_combination (4 * (q.x ^ 2 + q.y ^ 2)) * h

theorem qn_so3 (w : Fin 3 → ℝ) : qn (so3Exp w) = realFactor (w ⬝ᵥ w) ^ 2 + imagFactor (w ⬝ᵥ w) ^ 2 * (w ⬝ᵥ w) := by
  simp only [qn, so3Exp]
  generalize imagFactor (w ⬝ᵥ w) = c
  generalize realFactor (w ⬝ᵥ w) = d
  simp only [dotProduct, Fin.sum_univ_three]
  ring

theorem qs_so3 (w : Fin 3 → ℝ) : qs (so3Exp w) = imagFactor (w ⬝ᵥ w) ^ 2 * (w ⬝ᵥ w) := by
  simp only [qs, so3Exp]
  generalize imagFactor (w ⬝ᵥ w) = c
  simp only [dotProduct, Fin.sum_univ_three]
  ring

theorem dot3_nonneg (w : Fin 3 → ℝ) : 0 ≤ w ⬝ᵥ w := by
  simp only [dotProduct, Fin.sum_univ_three]
  nlinarith [mul_self_nonneg (w 0), mul_self_nonneg (w 1), mul_self_nonneg (w 2)]

/-- Above the threshold the quaternion has norm one. -/
theorem qn_large (w : Fin 3 → ℝ) (h : 1e-10 ≤ w ⬝ᵥ w) : qn (so3Exp w) = 1 := by
  rw [qn_so3]
  unfold realFactor imagFactor
  rw [if_neg (not_lt.2 h), if_neg (not_lt.2 h)]
  have hp : 0 < w ⬝ᵥ w := lt_of_lt_of_le (by norm_num) h
  have hs := Real.sq_sqrt (le_of_lt hp)
  simp only
  rw [div_pow, hs, div_mul_cancel₀ _ (ne_of_gt hp)]
  exact Real.cos_sq_add_sin_sq _

/-- Below the threshold the norm exceeds one by a tiny amount. -/
theorem qn_small (w : Fin 3 → ℝ) (h : w ⬝ᵥ w < 1e-10) : 0 ≤ qn (so3Exp w) - 1 ∧ 4 * qs (so3Exp w) * (qn (so3Exp w) - 1) ≤ 1e-44 := by
  rw [qn_so3, qs_so3]
  have h0 := dot3_nonneg w
  generalize w ⬝ᵥ w = x at *
  unfold realFactor imagFactor
  rw [if_pos h, if_pos h]
  simp only
  have e : (1.0 - 1.0 / 8.0 * x + 1.0 / 384.0 * (x * x)) ^ 2 + (0.5 - 1.0 / 48.0 * x + 1.0 / 3840.0 * (x * x)) ^ 2 * x - 1 =
      x ^ 3 * (1 / 23040 - x / 245760 + x ^ 2 / 14745600) := by
    norm_num only
    ring
  rw [e]
  have hx : x ≤ 1e-10 := le_of_lt h
  have hx1 : x ≤ 1 := le_trans hx (by norm_num)
  have hb : 0 ≤ 1 / 23040 - x / 245760 + x ^ 2 / 14745600 := by nlinarith [sq_nonneg x]
  have hb2 : 1 / 23040 - x / 245760 + x ^ 2 / 14745600 ≤ 1 / 23040 := by nlinarith
  refine ⟨mul_nonneg (pow_nonneg h0 3) hb, ?_⟩
  have hi : (0.5 - 1.0 / 48.0 * x + 1.0 / 3840.0 * (x * x)) ^ 2 ≤ 1 / 4 := by
    have h1 : (0.5 : ℝ) - 1.0 / 48.0 * x + 1.0 / 3840.0 * (x * x) ≤ 1 / 2 := by norm_num; nlinarith
    have h2 : 0 ≤ (0.5 : ℝ) - 1.0 / 48.0 * x + 1.0 / 3840.0 * (x * x) := by norm_num; nlinarith
    nlinarith
  have hs : (0.5 - 1.0 / 48.0 * x + 1.0 / 3840.0 * (x * x)) ^ 2 * x ≤ 1 / 4 * x := mul_le_mul_of_nonneg_right hi h0
  have hn : x ^ 3 * (1 / 23040 - x / 245760 + x ^ 2 / 14745600) ≤ x ^ 3 * (1 / 23040) := mul_le_mul_of_nonneg_left hb2 (pow_nonneg h0 3)
  have hx4 : x ^ 4 ≤ (1e-10 : ℝ) ^ 4 := pow_le_pow_left₀ h0 hx 4
  calc 4 * ((0.5 - 1.0 / 48.0 * x + 1.0 / 3840.0 * (x * x)) ^ 2 * x) * (x ^ 3 * (1 / 23040 - x / 245760 + x ^ 2 / 14745600))
      ≤ 4 * (1 / 4 * x) * (x ^ 3 * (1 / 23040)) := by
        apply mul_le_mul _ hn (mul_nonneg (pow_nonneg h0 3) hb) (by linarith)
        linarith
    _ = x ^ 4 / 23040 := by ring
    _ ≤ (1e-10 : ℝ) ^ 4 / 23040 := by linarith
    _ ≤ 1e-44 := by norm_num

theorem stretch_so3 (w : Fin 3 → ℝ) : StretchAtMost (so3Exp w).toRotationMatrix (1 + 1e-44) := by
  have key : 0 ≤ qn (so3Exp w) - 1 ∧ 4 * qs (so3Exp w) * (qn (so3Exp w) - 1) ≤ 1e-44 := by
    by_cases h : w ⬝ᵥ w < 1e-10
    · exact qn_small w h
    · rw [qn_large w (not_lt.1 h)]
      norm_num
  generalize so3Exp w = q at *
  obtain ⟨k1, k2⟩ := key
  have hqs : 0 ≤ qs q := by unfold qs; positivity
  refine ⟨fun u => ?_, ?_, ?_⟩
  · rw [rot_normsq]
    have hc := cross_le q u
    have hc0 : 0 ≤ (q.y * u 2 - q.z * u 1) ^ 2 + (q.z * u 0 - q.x * u 2) ^ 2 + (q.x * u 1 - q.y * u 0) ^ 2 := by positivity
    generalize (q.y * u 2 - q.z * u 1) ^ 2 + (q.z * u 0 - q.x * u 2) ^ 2 + (q.x * u 1 - q.y * u 0) ^ 2 = c at *
    have hu := dot3_nonneg u
    constructor
    · nlinarith [mul_nonneg k1 hc0]
    · have h1 : (qn q - 1) * c ≤ (qn q - 1) * (qs q * (u ⬝ᵥ u)) := mul_le_mul_of_nonneg_left hc k1
      have h2 : 4 * qs q * (qn q - 1) * (u ⬝ᵥ u) ≤ 1e-44 * (u ⬝ᵥ u) := mul_le_mul_of_nonneg_right k2 hu
      nlinarith
  · rw [rot_det]; nlinarith [mul_nonneg hqs k1]
  · rw [rot_det]; linarith

theorem rotation_so3 (w : Fin 3 → ℝ) (h : 1e-10 ≤ w ⬝ᵥ w ∨ w = 0) : IsRotation (so3Exp w).toRotationMatrix := by
  have hn : qn (so3Exp w) = 1 := by
    rcases h with h | h
    · exact qn_large w h
    · subst h
      rw [qn_so3]
      simp [realFactor, imagFactor]
      norm_num
  exact ⟨rot_orth _ hn, by rw [rot_det, hn]; ring⟩

theorem IsRotation.mul {A B : Matrix (Fin 3) (Fin 3) ℝ} (hA : IsRotation A) (hB : IsRotation B) : IsRotation (A * B) := by
  refine ⟨?_, ?_⟩
  · rw [transpose_mul, Matrix.mul_assoc, ← Matrix.mul_assoc Aᵀ, hA.1, Matrix.one_mul, hB.1]
  · rw [det_mul, hA.2, hB.2, one_mul]

theorem StretchAtMost.mul {A B : Matrix (Fin 3) (Fin 3) ℝ} {c d : ℝ} (hc : 1 ≤ c) (hA : StretchAtMost A c) (hB : StretchAtMost B d) :
    StretchAtMost (A * B) (c * d) := by
  refine ⟨fun u => ?_, ?_, ?_⟩
  · rw [← mulVec_mulVec]
    obtain ⟨a1, a2⟩ := hA.1 (B *ᵥ u)
    obtain ⟨b1, b2⟩ := hB.1 u
    refine ⟨le_trans b1 a1, le_trans a2 ?_⟩
    rw [mul_assoc]
    exact mul_le_mul_of_nonneg_left b2 (by linarith)
  · rw [det_mul]; nlinarith [hA.2.1, hB.2.1]
  · rw [det_mul]
    exact mul_le_mul hA.2.2 hB.2.2 (by linarith [hB.2.1]) (by linarith)

theorem rotation_stretch {R : Matrix (Fin 3) (Fin 3) ℝ} (h : IsRotation R) : StretchAtMost R 1 := by
  refine ⟨fun u => ?_, by rw [h.2], by rw [h.2]⟩
  have : (R *ᵥ u) ⬝ᵥ (R *ᵥ u) = u ⬝ᵥ u := by
    rw [dotProduct_mulVec, vecMul_mulVec, h.1, vecMul_one]
  rw [this]; exact ⟨le_refl _, by rw [one_mul]⟩

theorem se3Exp_R (a : Fin 6 → ℝ) : (se3Exp a).R = (so3Exp (rot a)).toRotationMatrix := by
  unfold se3Exp
  simp only
  split <;> rfl

end Verif.Proofs
