import Verif.Props.FrozenRobustDigits

/-!
C112, continued: Cauchy's kernel in numbers with `p + 1` binary digits.
-/

set_option linter.unusedSectionVars false
set_option linter.unusedSimpArgs false
set_option linter.unnecessarySeqFocus false

namespace Verif.Props

open Matrix Verif Verif.Knn Verif.KdTree Verif.Proofs Verif.Proofs.RegMem Verif.Factors Verif.Reduction Verif.PointCloud Verif.RegMem Verif.Spec

/-- The computed root `a`, its square `b`, the denominator `d`, the weight `q` and the product `v`. -/
theorem cauchy_rounded {u c x s a b d q v : ℝ} (hu : 0 ≤ u) (hu8 : u ≤ 1 / 8) (hc : 0 < c) (s0 : 0 ≤ s) (hx : 0 ≤ x) (s2 : s * s = x) (ha1 : (1 - u) * s ≤ a) (ha2 : a ≤ (1 + u) * s)
    (hb1 : (1 - u) * (a * a) ≤ b) (hb2 : b ≤ (1 + u) * (a * a)) (hd1 : (1 - u) * (c + b) ≤ d) (hd2 : d ≤ (1 + u) * (c + b)) (hq1 : (1 - u) * (c / d) ≤ q) (hq2 : q ≤ (1 + u) * (c / d))
    (hv1 : (1 - u) * (q * x) ≤ v) (hv2 : v ≤ (1 + u) * (q * x)) : |v - c * x / (c + x)| ≤ 12 * u * (c * x / (c + x)) := by
  have m0 : 0 < 1 - u := by linarith
  have p0 : 0 < 1 + u := by linarith
  have a0 : 0 ≤ a := (mul_nonneg m0.le s0).trans ha1
  have w0 : 0 < c + x := by linarith
  have b1 : (1 - u) ^ 3 * x ≤ b := by
    have h1 := mul_le_mul ha1 ha1 (mul_nonneg m0.le s0) a0
    have h2 := mul_le_mul_of_nonneg_left h1 m0.le
    calc (1 - u) ^ 3 * x = (1 - u) * ((1 - u) * s * ((1 - u) * s)) := by rw [← s2]; ring
      _ ≤ _ := h2.trans hb1
  have b2 : b ≤ (1 + u) ^ 3 * x := by
    have h1 := mul_le_mul ha2 ha2 a0 (mul_nonneg p0.le s0)
    have h2 := mul_le_mul_of_nonneg_left h1 p0.le
    calc b ≤ (1 + u) * ((1 + u) * s * ((1 + u) * s)) := hb2.trans h2
      _ = _ := by rw [← s2]; ring
  have c1 : (1 - u) ^ 3 * c ≤ c := by
    have := mul_le_mul_of_nonneg_right (pow_le_one₀ m0.le (show 1 - u ≤ 1 by linarith) : (1 - u) ^ 3 ≤ 1) hc.le
    linarith
  have c2 : c ≤ (1 + u) ^ 3 * c := by
    have := mul_le_mul_of_nonneg_right (one_le_pow₀ (show 1 ≤ 1 + u by linarith) : 1 ≤ (1 + u) ^ 3) hc.le
    linarith
  have d1 : (1 - u) ^ 4 * (c + x) ≤ d := by
    refine le_trans ?_ hd1
    calc (1 - u) ^ 4 * (c + x) = (1 - u) * ((1 - u) ^ 3 * c + (1 - u) ^ 3 * x) := by ring
      _ ≤ _ := mul_le_mul_of_nonneg_left (by linarith) m0.le
  have d2 : d ≤ (1 + u) ^ 4 * (c + x) := by
    refine hd2.trans ?_
    calc (1 + u) * (c + b) ≤ (1 + u) * ((1 + u) ^ 3 * c + (1 + u) ^ 3 * x) := mul_le_mul_of_nonneg_left (by linarith) p0.le
      _ = _ := by ring
  have d0 : 0 < d := lt_of_lt_of_le (mul_pos (pow_pos m0 4) w0) d1
  have k1 : (1 - u) ^ 4 * (c / d) ≤ c / (c + x) := by
    rw [← mul_div_assoc, div_le_div_iff₀ d0 w0]
    have := mul_le_mul_of_nonneg_left d1 hc.le
    linarith
  have k2 : c / (c + x) ≤ (1 + u) ^ 4 * (c / d) := by
    rw [← mul_div_assoc, div_le_div_iff₀ w0 d0]
    have := mul_le_mul_of_nonneg_left d2 hc.le
    linarith
  have e0 : c * x / (c + x) = c / (c + x) * x := by ring
  rw [e0]
  have r0 : 0 ≤ c / d := by positivity
  have R0 : 0 ≤ c / (c + x) := by positivity
  generalize c / d = r at *
  generalize c / (c + x) = R at *
  have v1 : (1 - u) ^ 2 * (r * x) ≤ v := by
    have := mul_le_mul_of_nonneg_left (mul_le_mul_of_nonneg_right hq1 hx) m0.le
    linarith
  have v2 : v ≤ (1 + u) ^ 2 * (r * x) := by
    have := mul_le_mul_of_nonneg_left (mul_le_mul_of_nonneg_right hq2 hx) p0.le
    linarith
  have t0 : 0 ≤ r * x := mul_nonneg r0 hx
  have T0 : 0 ≤ R * x := mul_nonneg R0 hx
  have j1 : (1 - u) ^ 4 * (r * x) ≤ R * x := by
    have := mul_le_mul_of_nonneg_right k1 hx
    linarith
  have j2 : R * x ≤ (1 + u) ^ 4 * (r * x) := by
    have := mul_le_mul_of_nonneg_right k2 hx
    linarith
  generalize r * x = t at *
  generalize R * x = T at *
  have hu2 : 0 ≤ u ^ 2 := sq_nonneg u
  have hu3 : 0 ≤ u ^ 3 := by positivity
  have hu4 : 0 ≤ u ^ 4 := by positivity
  have hu5 : 0 ≤ u ^ 5 := by positivity
  have up : (1 + u) ^ 2 ≤ (1 + 12 * u) * (1 - u) ^ 4 := by
    have i1 : 0 ≤ u * (6 - 43 * u) := mul_nonneg hu (by linarith)
    have i2 : 0 ≤ u ^ 3 * (68 - 47 * u) := mul_nonneg hu3 (by linarith)
    have e : (1 + 12 * u) * (1 - u) ^ 4 - (1 + u) ^ 2 = u * (6 - 43 * u) + u ^ 3 * (68 - 47 * u) + 12 * u ^ 5 := by ring
    linarith
  have low : (1 - 12 * u) * (1 + u) ^ 4 ≤ (1 - u) ^ 2 := by
    have e : (1 - u) ^ 2 - (1 - 12 * u) * (1 + u) ^ 4 = 6 * u + 43 * u ^ 2 + 68 * u ^ 3 + 47 * u ^ 4 + 12 * u ^ 5 := by ring
    linarith
  have w1 : v ≤ (1 + 12 * u) * T := by
    calc v ≤ (1 + u) ^ 2 * t := v2
      _ ≤ (1 + 12 * u) * (1 - u) ^ 4 * t := mul_le_mul_of_nonneg_right up t0
      _ = (1 + 12 * u) * ((1 - u) ^ 4 * t) := by ring
      _ ≤ _ := mul_le_mul_of_nonneg_left j1 (by linarith)
  have w2 : (1 - 12 * u) * T ≤ v := by
    rcases le_total 0 (1 - 12 * u) with h | h
    · calc (1 - 12 * u) * T ≤ (1 - 12 * u) * ((1 + u) ^ 4 * t) := mul_le_mul_of_nonneg_left j2 h
        _ = (1 - 12 * u) * (1 + u) ^ 4 * t := by ring
        _ ≤ (1 - u) ^ 2 * t := mul_le_mul_of_nonneg_right low t0
        _ ≤ v := v1
    · have : 0 ≤ (1 - u) ^ 2 * t := by positivity
      have := mul_nonneg (show 0 ≤ -(1 - 12 * u) by linarith) T0
      linarith
  rw [abs_le]
  constructor <;> linarith

section Digits

variable {p : ℕ}

/-- `Cauchy::weight` (robust_kernel.hpp:47). -/
noncomputable def digitsCauchy (c e : Digits p) : Digits p := c / (c + e * e)

theorem digits_cauchy (hp : 3 ≤ p) (c : Digits p) (hc : 0 < c.val) : KernelAccuracy (digitsCauchy c) digitsSqrt Digits.val (cauchyError c.val) (12 * (1 / 2 ^ p)) := by
  have hu : (0 : ℝ) ≤ 1 / 2 ^ p := by positivity
  have hu8 : (1 / 2 ^ p : ℝ) ≤ 1 / 8 := by
    have : (8 : ℝ) ≤ 2 ^ p := by
      calc (8 : ℝ) = 2 ^ 3 := by norm_num
        _ ≤ 2 ^ p := pow_le_pow_right₀ (by norm_num) hp
    exact one_div_le_one_div_of_le (by norm_num) this
  have hr : ∀ x, 0 ≤ x → (1 - 1 / 2 ^ p) * x ≤ cutOff p x ∧ cutOff p x ≤ (1 + 1 / 2 ^ p) * x ∧ 0 ≤ cutOff p x := by
    intro x hx
    have := abs_le.1 (cutOff_rel p x)
    rw [abs_of_nonneg hx] at this
    exact ⟨by linarith [this.1], by linarith [this.2], cutOff_nonneg p hx⟩
  have key : ∀ e : Digits p, 0 ≤ e.val → |(digitsCauchy c (digitsSqrt e) * e).val - cauchyError c.val e.val| ≤ 12 * (1 / 2 ^ p) * cauchyError c.val e.val := by
    intro e he
    obtain ⟨a1, a2, a3⟩ := hr (√e.val) (Real.sqrt_nonneg _)
    obtain ⟨b1, b2, b3⟩ := hr (cutOff p √e.val * cutOff p √e.val) (mul_nonneg a3 a3)
    obtain ⟨d1, d2, d3⟩ := hr (c.val + cutOff p (cutOff p √e.val * cutOff p √e.val)) (by linarith)
    obtain ⟨q1, q2, q3⟩ := hr (c.val / cutOff p (c.val + cutOff p (cutOff p √e.val * cutOff p √e.val))) (div_nonneg hc.le d3)
    obtain ⟨v1, v2, -⟩ := hr (cutOff p (c.val / cutOff p (c.val + cutOff p (cutOff p √e.val * cutOff p √e.val))) * e.val) (mul_nonneg q3 he)
    exact cauchy_rounded hu hu8 hc (Real.sqrt_nonneg _) he (Real.mul_self_sqrt he) a1 a2 b1 b2 d1 d2 q1 q2 v1 v2
  refine ⟨fun e he => ?_, key⟩
  have : (e * digitsCauchy c (digitsSqrt e)).val = (digitsCauchy c (digitsSqrt e) * e).val := by
    show cutOff p _ = cutOff p _
    rw [mul_comm]
  rw [this]
  exact key e he

end Digits

/-- Width one, double precision: usable with the errors conceded in the example of `C112_digits`. -/
example : KernelAccuracy (digitsCauchy (digitsOne 52)) digitsSqrt Digits.val (cauchyError 1) (12 * (1 / 2 ^ 52)) ∧ 12 * (1 / 2 ^ 52 : ℝ) ≤ 1 / 10 ^ 12 :=
  ⟨digits_cauchy (p := 52) (by norm_num) (digitsOne 52) one_pos, by norm_num⟩

end Verif.Props
