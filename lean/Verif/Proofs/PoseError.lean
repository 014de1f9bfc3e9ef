import Verif.Proofs.ExpBounds
import Verif.Spec.Descent

/-! The twist that leads from a pose to the true pose, up to terms of second order. -/

set_option linter.unusedSectionVars false
set_option linter.unusedSimpArgs false
set_option linter.unnecessarySeqFocus false

namespace Verif.Proofs

open Matrix Verif.Factors Verif.Spec Verif.Lie

/-- Deviation of the rotation of `L` from that of `T`. -/
def errZ (T L : Pose ℝ) : Matrix (Fin 3) (Fin 3) ℝ := 1 - T.Rᵀ * L.R

/-- The twist from `L` to `T`, to first order. -/
noncomputable def errTwist (T L : Pose ℝ) : Fin 6 → ℝ :=
  ![vee (errZ T L) 0, vee (errZ T L) 1, vee (errZ T L) 2, (T.Rᵀ *ᵥ (T.t - L.t)) 0, (T.Rᵀ *ᵥ (T.t - L.t)) 1, (T.Rᵀ *ᵥ (T.t - L.t)) 2]

theorem rot_err (T L : Pose ℝ) : rot (errTwist T L) = vee (errZ T L) := by
  funext i
  fin_cases i <;> rfl

theorem tra_err (T L : Pose ℝ) : tra (errTwist T L) = T.Rᵀ *ᵥ (T.t - L.t) := by
  funext i
  fin_cases i <;> rfl

/-- Velocity of the point `p` along the twist `x`. -/
noncomputable def arm (p : Fin 3 → ℝ) (x : Fin 6 → ℝ) : Fin 3 → ℝ := skew (rot x) *ᵥ p + tra x

theorem arm_le {p : Fin 3 → ℝ} {B : ℝ} (hB : 1 ≤ B) (hp : len p ≤ B) (x : Fin 6 → ℝ) : len (arm p x) ≤ 5 / 2 * B * len x := by
  refine (len_add_le _ _).trans ?_
  have h1 := len_mulVec_le (skew (rot x)) p
  have h2 := fro_skew_le (rot x)
  have h3 := len_rot_le x
  have h4 := len_tra_le x
  have h5 := len_nonneg p
  have h6 := len_nonneg x
  have h7 := mul_le_mul (h2.trans (mul_le_mul_of_nonneg_left h3 (by norm_num))) hp h5 (by positivity)
  nlinarith

theorem rotation_right {R : Matrix (Fin 3) (Fin 3) ℝ} (h : IsRotation R) : Rᵀᵀ * Rᵀ = 1 := by
  rw [transpose_transpose]
  exact mul_eq_one_comm.1 h.1

theorem gap_nonneg (L T : Pose ℝ) : 0 ≤ poseGap L T := Real.sqrt_nonneg _

theorem gap_sq (L T : Pose ℝ) : poseGap L T ^ 2 = 1 / 2 * fro (L.R - T.R) ^ 2 + len (L.t - T.t) ^ 2 := Real.sq_sqrt (by positivity)

section

variable {T L : Pose ℝ} (hT : IsRotation T.R)

include hT

theorem errZ_eq : errZ T L = T.Rᵀ * (T.R - L.R) := by
  rw [mul_sub, hT.1]
  rfl

theorem errZ_fro : fro (errZ T L) = fro (L.R - T.R) := by
  rw [errZ_eq hT, fro_orth (rotation_right hT), fro_sub_comm]

theorem errZ_sq_le : fro (errZ T L) ^ 2 ≤ 2 * poseGap L T ^ 2 := by
  rw [gap_sq, errZ_fro hT]
  nlinarith [sq_nonneg (len (L.t - T.t))]

theorem errZ_le : fro (errZ T L) ≤ 3 / 2 * poseGap L T := by
  have h := errZ_sq_le (L := L) hT
  have h0 := gap_nonneg L T
  refine le_of_sq_le_sq ?_ (by positivity)
  nlinarith [sq_nonneg (poseGap L T)]

theorem tra_len : len (tra (errTwist T L)) = len (L.t - T.t) := by
  rw [tra_err, len_orth (rotation_right hT), len_sub_comm]

theorem fro_split (Z : Matrix (Fin 3) (Fin 3) ℝ) : fro Z ^ 2 = 2 * len (vee Z) ^ 2 + fro ((1 / 2 : ℝ) • (Z + Zᵀ)) ^ 2 := by
  rw [fro_sq, fro_sq, len_sq]
  simp [vee, Fin.sum_univ_three, dotProduct]
  ring

theorem gap_split : poseGap L T ^ 2 = len (errTwist T L) ^ 2 + 1 / 2 * fro ((1 / 2 : ℝ) • (errZ T L + (errZ T L)ᵀ)) ^ 2 := by
  rw [gap_sq, twist_sq, tra_len hT, rot_err, ← errZ_fro hT, fro_split hT (errZ T L)]
  ring

theorem err_le_gap : len (errTwist T L) ≤ poseGap L T := by
  refine le_of_sq_le_sq ?_ (gap_nonneg L T)
  rw [gap_split hT]
  nlinarith [sq_nonneg (fro ((1 / 2 : ℝ) • (errZ T L + (errZ T L)ᵀ)))]

variable {η : ℝ} (hη : StretchAtMost L.R (1 + η))

include hη

/-- The symmetric part is of second order, up to the stretching. -/
theorem sym_le : fro ((1 / 2 : ℝ) • (errZ T L + (errZ T L)ᵀ)) ≤ poseGap L T ^ 2 + 3 / 2 * η := by
  have e : errZ T L + (errZ T L)ᵀ = (errZ T L)ᵀ * errZ T L - (L.Rᵀ * L.R - 1) := by
    have h1 : (T.Rᵀ * L.R)ᵀ * (T.Rᵀ * L.R) = L.Rᵀ * L.R := by
      rw [transpose_mul, transpose_transpose, Matrix.mul_assoc, ← Matrix.mul_assoc T.R, mul_eq_one_comm.1 hT.1, Matrix.one_mul]
    unfold errZ
    rw [transpose_sub, transpose_one, sub_mul, mul_sub, mul_sub, h1, Matrix.one_mul, Matrix.one_mul, Matrix.mul_one]
    abel
  rw [e, fro_smul, abs_of_pos (by norm_num)]
  have h2 := fro_sub_le ((errZ T L)ᵀ * errZ T L) (L.Rᵀ * L.R - 1)
  have h3 := fro_mul_le (errZ T L)ᵀ (errZ T L)
  rw [fro_transpose] at h3
  have h4 := fro_stretch hη
  have h5 := errZ_sq_le (L := L) hT
  nlinarith

theorem gap_le (he : poseGap L T ≤ 1 / 2) : poseGap L T ≤ 2 * len (errTwist T L) + 3 * η := by
  have h1 := gap_split (L := L) hT
  have h2 := sym_le hT hη
  have h0 := gap_nonneg L T
  have h3 := len_nonneg (errTwist T L)
  have h4 := fro_nonneg ((1 / 2 : ℝ) • (errZ T L + (errZ T L)ᵀ))
  have h5 : poseGap L T ≤ len (errTwist T L) + fro ((1 / 2 : ℝ) • (errZ T L + (errZ T L)ᵀ)) := by
    refine le_of_sq_le_sq ?_ (by positivity)
    rw [h1]
    nlinarith [mul_nonneg h3 h4, sq_nonneg (fro ((1 / 2 : ℝ) • (errZ T L + (errZ T L)ᵀ)))]
  nlinarith

/-- The residual of a true pair is the velocity along the error twist, up to second order. -/
theorem residual_err {p : Fin 3 → ℝ} {B : ℝ} (hB : 1 ≤ B) (hp : len p ≤ B) :
    len (move T p - move L p - L.R *ᵥ arm p (errTwist T L)) ≤ 5 * B * (poseGap L T ^ 2 + η) := by
  have hTT : T.R * T.Rᵀ = 1 := mul_eq_one_comm.1 hT.1
  have e1 : L.R = T.R * (1 - errZ T L) := by
    unfold errZ
    rw [sub_sub_cancel, ← Matrix.mul_assoc, hTT, Matrix.one_mul]
  have e2 : move T p - move L p = T.R *ᵥ (errZ T L *ᵥ p + tra (errTwist T L)) := by
    rw [tra_err, mulVec_add, mulVec_mulVec, mulVec_mulVec, hTT, one_mulVec, errZ_eq hT, ← Matrix.mul_assoc, hTT, Matrix.one_mul, sub_mulVec]
    unfold move
    abel
  have e3 : errZ T L *ᵥ p + tra (errTwist T L) = arm p (errTwist T L) + ((1 / 2 : ℝ) • (errZ T L + (errZ T L)ᵀ)) *ᵥ p := by
    conv_lhs => rw [skew_vee (errZ T L)]
    unfold arm
    rw [rot_err, add_mulVec]
    abel
  have e4 : move T p - move L p - L.R *ᵥ arm p (errTwist T L) =
      T.R *ᵥ (((1 / 2 : ℝ) • (errZ T L + (errZ T L)ᵀ)) *ᵥ p + errZ T L *ᵥ arm p (errTwist T L)) := by
    rw [e2, e3]
    conv_lhs => rw [e1]
    rw [← mulVec_mulVec, ← mulVec_sub, sub_mulVec, one_mulVec]
    congr 1
    abel
  rw [e4, len_orth hT.1]
  refine (len_add_le _ _).trans ?_
  have a1 := len_mulVec_le ((1 / 2 : ℝ) • (errZ T L + (errZ T L)ᵀ)) p
  have a2 := len_mulVec_le (errZ T L) (arm p (errTwist T L))
  have a3 := sym_le hT hη
  have a4 := arm_le hB hp (errTwist T L)
  have a5 := err_le_gap (L := L) hT
  have a6 := errZ_le (L := L) hT
  have h0 := gap_nonneg L T
  have h1 := len_nonneg (errTwist T L)
  have h2 := len_nonneg (arm p (errTwist T L))
  have h3 := len_nonneg p
  have h4 : 0 ≤ poseGap L T ^ 2 + 3 / 2 * η := (fro_nonneg _).trans a3
  have hη0 : 0 ≤ η := by have := hη.2; linarith [this.1, this.2]
  have b1 := mul_le_mul a3 hp h3 h4
  have b2 := mul_le_mul a6 (a4.trans (mul_le_mul_of_nonneg_left a5 (by positivity))) h2 (by positivity)
  nlinarith [mul_nonneg (by linarith : (0 : ℝ) ≤ B) hη0, mul_nonneg (by linarith : (0 : ℝ) ≤ B) (sq_nonneg (poseGap L T))]

end

theorem vee_add (A B : Matrix (Fin 3) (Fin 3) ℝ) : vee (A + B) = vee A + vee B := by
  funext i
  fin_cases i <;> simp [vee] <;> ring

theorem vee_sub (A B : Matrix (Fin 3) (Fin 3) ℝ) : vee (A - B) = vee A - vee B := by
  funext i
  fin_cases i <;> simp [vee] <;> ring

theorem vee_skew (a : Fin 3 → ℝ) : vee (skew a) = a := by
  funext i
  fin_cases i <;> simp [vee, skew]

theorem vee_le_fro (Z : Matrix (Fin 3) (Fin 3) ℝ) : len (vee Z) ≤ fro Z := by
  refine le_of_sq_le_sq ?_ (fro_nonneg Z)
  nlinarith [vee_le Z, sq_nonneg (fro Z)]

/-- The error twist after the step `d`. -/
theorem err_step {T L : Pose ℝ} (hT : IsRotation T.R) {d : Fin 6 → ℝ} (hd : len d ≤ 1) :
    len (errTwist T (L.mul (se3Exp d)) - (errTwist T L - d)) ≤ 30 * len d * (len d + poseGap L T) := by
  have hr := len_rot_le d
  have ht := len_tra_le d
  have hr1 := hr.trans hd
  have e1 : errZ T (L.mul (se3Exp d)) = errZ T L - skew (rot d) - ((se3Exp d).R - 1 - skew (rot d)) + errZ T L * ((se3Exp d).R - 1) := by
    unfold errZ Pose.mul
    simp only [Matrix.sub_mul, Matrix.mul_sub, Matrix.one_mul, Matrix.mul_one, Matrix.mul_assoc]
    abel
  have e2 : rot (errTwist T (L.mul (se3Exp d)) - (errTwist T L - d)) = vee (errZ T L * ((se3Exp d).R - 1)) - vee ((se3Exp d).R - 1 - skew (rot d)) := by
    have : rot (errTwist T (L.mul (se3Exp d)) - (errTwist T L - d)) = rot (errTwist T (L.mul (se3Exp d))) - (rot (errTwist T L) - rot d) := by
      funext i
      fin_cases i <;> rfl
    rw [this, rot_err, rot_err, e1, vee_add, vee_sub, vee_sub, vee_skew]
    abel
  have e3 : tra (errTwist T (L.mul (se3Exp d)) - (errTwist T L - d)) = errZ T L *ᵥ (se3Exp d).t - ((se3Exp d).t - tra d) := by
    have : tra (errTwist T (L.mul (se3Exp d)) - (errTwist T L - d)) = tra (errTwist T (L.mul (se3Exp d))) - (tra (errTwist T L) - tra d) := by
      funext i
      fin_cases i <;> rfl
    rw [this, tra_err, tra_err]
    have hm : (L.mul (se3Exp d)).t = L.R *ᵥ (se3Exp d).t + L.t := rfl
    rw [hm]
    unfold errZ
    simp only [mulVec_sub, mulVec_add, sub_mulVec, one_mulVec, mulVec_mulVec]
    abel
  refine (twist_le _).trans ?_
  rw [e2, e3]
  have a1 := (len_sub_le (vee (errZ T L * ((se3Exp d).R - 1))) (vee ((se3Exp d).R - 1 - skew (rot d)))).trans
    (add_le_add ((vee_le_fro _).trans (fro_mul_le _ _)) ((vee_le_fro _).trans (exp_R_second hr1)))
  have a2 := (len_sub_le (errZ T L *ᵥ (se3Exp d).t) ((se3Exp d).t - tra d)).trans (add_le_add (len_mulVec_le _ _) (exp_t_second hr1))
  have a3 := errZ_le (L := L) hT
  have a4 := exp_R_first hr1
  have a5 := exp_t_first hr1
  have z0 := fro_nonneg (errZ T L)
  have g0 := gap_nonneg L T
  have r0 := len_nonneg (rot d)
  have t0 := len_nonneg (tra d)
  have d0 := len_nonneg d
  have b1 := mul_le_mul a3 (a4.trans (mul_le_mul_of_nonneg_left hr (by norm_num))) (fro_nonneg _) (by positivity)
  have b2 := mul_le_mul a3 (a5.trans (mul_le_mul_of_nonneg_left ht (by norm_num))) (len_nonneg _) (by positivity)
  have b3 := mul_le_mul hr hr r0 d0
  have b4 := mul_le_mul hr ht t0 d0
  nlinarith [mul_nonneg d0 g0, mul_nonneg d0 d0]

/-- A moved point after the step `d`, up to second order. -/
theorem move_step {L : Pose ℝ} {η : ℝ} (hη : StretchAtMost L.R (1 + η)) (hη1 : η ≤ 3) {d : Fin 6 → ℝ} (hd : len d ≤ 1) {p : Fin 3 → ℝ} {B : ℝ} (hB : 1 ≤ B) (hp : len p ≤ B) :
    len (move (L.mul (se3Exp d)) p - move L p - L.R *ᵥ arm p d) ≤ 20 * B * len d ^ 2 := by
  have hr := len_rot_le d
  have ht := len_tra_le d
  have hr1 := hr.trans hd
  have e : move (L.mul (se3Exp d)) p - move L p - L.R *ᵥ arm p d = L.R *ᵥ (((se3Exp d).R - 1 - skew (rot d)) *ᵥ p + ((se3Exp d).t - tra d)) := by
    unfold move Pose.mul arm
    simp only [mulVec_sub, mulVec_add, sub_mulVec, one_mulVec, mulVec_mulVec]
    abel
  rw [e]
  refine (len_stretch_le (by linarith) hη _).2.trans ?_
  have a := (len_add_le (((se3Exp d).R - 1 - skew (rot d)) *ᵥ p) ((se3Exp d).t - tra d)).trans (add_le_add (len_mulVec_le _ _) (exp_t_second hr1))
  have r0 := len_nonneg (rot d)
  have t0 := len_nonneg (tra d)
  have d0 := len_nonneg d
  have b1 := mul_le_mul (exp_R_second hr1) hp (len_nonneg p) (by positivity)
  have b3 := mul_le_mul hr hr r0 d0
  have b4 := mul_le_mul hr ht t0 d0
  have b5 : len (rot d) ^ 2 * B ≤ len d ^ 2 * B := by nlinarith
  nlinarith [sq_nonneg (len d)]

end Verif.Proofs
