import Verif.Props.ExpRounding

/-!
C108, second part: the translation of `se3_exp` in floating-point arithmetic.
-/

set_option linter.unusedSectionVars false
set_option linter.unusedSimpArgs false
set_option linter.unnecessarySeqFocus false

namespace Verif.Props

open Matrix Verif Verif.Machine Verif.Spec Verif.Proofs Verif.Factors
open Verif.Lie (rot tra)
open NormedSpace (exp)

theorem abs_sin_le' (x : ℝ) : |Real.sin x| ≤ |x| := by
  have := Real.abs_sin_sub_sin_le x 0
  simpa using this

theorem abs_one_sub_cos (x : ℝ) : 0 ≤ 1 - Real.cos x ∧ 1 - Real.cos x ≤ x ^ 2 / 2 :=
  ⟨by linarith [Real.cos_le_one x], by linarith [Real.one_sub_sq_div_two_le_cos (x := x)]⟩

set_option maxHeartbeats 1000000 in
/-- The first factor: `(1 - cos theta) / theta_sq`. -/
theorem first_factor {ε η W T r C A1 S1 : ℝ} (hε : 0 ≤ ε) (hε' : ε ≤ 1 / 10 ^ 6) (hW : 0 < W) (hη' : η ≤ ε) (hT : |T - W ^ 2| ≤ 4 * ε * W ^ 2) (hr : |r - W| ≤ 6 * ε * W) (hC1 : |C - Real.cos r| ≤ ε)
    (hC2 : |C - Real.cos r| ≤ 2 * (1 - Real.cos r)) (hA : |A1 - (1 - C)| ≤ ε * |1 - C|) (hS : |S1 - A1 / T| ≤ ε * |A1 / T| + η) :
    ∃ ρ, 0 ≤ ρ ∧ ρ ≤ ε ∧ ρ ≤ 11 / 10 * W ^ 2 ∧ |S1 * W ^ 2 - (1 - Real.cos W)| ≤ ρ + 21 * ε * W ^ 2 ∧ |S1| ≤ 2 := by
  obtain ⟨r1, r2⟩ := abs_le.1 hr
  have hW2 : 0 < W ^ 2 := by positivity
  have hεW : ε * W ≤ W / 10 ^ 6 := by
    have := mul_le_mul_of_nonneg_right hε' hW.le
    linarith
  have hr0 : 0 ≤ r := by linarith
  have hrW : r ≤ 1001 / 1000 * W := by linarith
  have hr2 : r ^ 2 ≤ 21 / 20 * W ^ 2 := by
    have := pow_le_pow_left₀ hr0 hrW 2
    nlinarith
  obtain ⟨c1, c2⟩ := abs_one_sub_cos r
  have hcc : |Real.cos r - Real.cos W| ≤ 7 * ε * W ^ 2 := by
    rw [Real.cos_sub_cos, abs_mul, abs_mul]
    have h1 := abs_sin_le' ((r + W) / 2)
    have h2 := abs_sin_le' ((r - W) / 2)
    rw [abs_div, abs_two] at h1 h2
    have h3 : |r + W| ≤ 21 / 10 * W := by rw [abs_of_nonneg (by linarith)]; linarith
    have h4 : |(-2 : ℝ)| = 2 := by norm_num
    rw [h4]
    have h5 : |Real.sin ((r + W) / 2)| ≤ 21 / 20 * W := by linarith
    have h6 : |Real.sin ((r - W) / 2)| ≤ 3 * ε * W := by linarith
    have h7 : |Real.sin ((r + W) / 2)| * |Real.sin ((r - W) / 2)| ≤ 21 / 20 * W * (3 * ε * W) := mul_le_mul h5 h6 (abs_nonneg _) (by positivity)
    have h8 : 0 ≤ ε * W ^ 2 := by positivity
    nlinarith
  set ρ := |C - Real.cos r| with hρ
  have hρ0 : 0 ≤ ρ := abs_nonneg _
  have h1C : |1 - C| ≤ 8 / 5 * W ^ 2 := by
    have e : 1 - C = (1 - Real.cos r) - (C - Real.cos r) := by ring
    rw [e]
    refine (abs_sub _ _).trans ?_
    rw [abs_of_nonneg c1]
    linarith
  have hA1 : |A1 - (1 - Real.cos W)| ≤ ρ + 9 * ε * W ^ 2 := by
    have e : A1 - (1 - Real.cos W) = (A1 - (1 - C)) - (C - Real.cos r) - (Real.cos r - Real.cos W) := by ring
    rw [e]
    have g1 := mul_le_mul_of_nonneg_left h1C hε
    have g2 := abs_sub (A1 - (1 - C) - (C - Real.cos r)) (Real.cos r - Real.cos W)
    have g3 := abs_sub (A1 - (1 - C)) (C - Real.cos r)
    have g4 : 0 ≤ ε * W ^ 2 := by positivity
    linarith
  have hεW2 : ε * W ^ 2 ≤ W ^ 2 / 10 ^ 6 := by
    have := mul_le_mul_of_nonneg_right hε' hW2.le
    linarith
  have hA2 : |A1| ≤ 17 / 10 * W ^ 2 := by
    have e : A1 = (A1 - (1 - C)) + (1 - C) := by ring
    rw [e]
    have g1 := mul_le_mul_of_nonneg_left h1C hε
    refine (abs_add_le _ _).trans ?_
    linarith
  have hq := quot_close hε hW2 (by linarith) hT hA1 hA2 hS
  have hηW : η * W ^ 2 ≤ ε * W ^ 2 := mul_le_mul_of_nonneg_right hη' hW2.le
  have hq' : |S1 * W ^ 2 - (1 - Real.cos W)| ≤ ρ + 21 * ε * W ^ 2 := by
    have e : 6 / 5 * (4 * ε + ε) * (17 / 10 * W ^ 2) = 51 / 5 * (ε * W ^ 2) := by ring
    rw [e] at hq
    have g4 : 0 ≤ ε * W ^ 2 := by positivity
    linarith
  have hρ2 : ρ ≤ 11 / 10 * W ^ 2 := by linarith
  refine ⟨ρ, hρ0, hC1, hρ2, hq', ?_⟩
  obtain ⟨d1, d2⟩ := abs_one_sub_cos W
  have h9 : |S1 * W ^ 2| ≤ 2 * W ^ 2 := by
    have e : S1 * W ^ 2 = (S1 * W ^ 2 - (1 - Real.cos W)) + (1 - Real.cos W) := by ring
    rw [e]
    refine (abs_add_le _ _).trans ?_
    rw [abs_of_nonneg d1]
    linarith
  rw [abs_mul, abs_of_pos hW2] at h9
  exact le_of_mul_le_mul_right h9 hW2

set_option maxHeartbeats 1000000 in
/-- The second factor: `(theta - sin theta) / (theta_sq * theta)`. -/
theorem second_factor {ε η W T r S B1 D1 S2 : ℝ} (hε : 0 ≤ ε) (hε' : ε ≤ 1 / 10 ^ 6) (hW : 0 < W) (hW4 : W ≤ 4) (hη : 0 ≤ η) (hη1 : η ≤ 7 * ε * W ^ 3) (hη2 : 16 * η ≤ ε) (hT : |T - W ^ 2| ≤ 4 * ε * W ^ 2)
    (hr : |r - W| ≤ 6 * ε * W) (hS : |S - Real.sin r| ≤ ε * |Real.sin r|) (hB : |B1 - (r - S)| ≤ ε * |r - S|) (hD : |D1 - T * r| ≤ ε * |T * r| + η) (hq : |S2 - B1 / D1| ≤ ε * |B1 / D1| + η) :
    |S2 * W ^ 3 - (W - Real.sin W)| ≤ 71 * ε * W ∧ |S2| * W ^ 2 ≤ 21 / 10 := by
  obtain ⟨r1, r2⟩ := abs_le.1 hr
  obtain ⟨t1, t2⟩ := abs_le.1 hT
  have hW2 : 0 < W ^ 2 := by positivity
  have hW3 : 0 < W ^ 3 := by positivity
  have hεW : ε * W ≤ W / 10 ^ 6 := by
    have := mul_le_mul_of_nonneg_right hε' hW.le
    linarith
  have hεW0 : 0 ≤ ε * W := by positivity
  have hεW2 : ε * W ^ 2 ≤ W ^ 2 / 10 ^ 6 := by
    have := mul_le_mul_of_nonneg_right hε' hW2.le
    linarith
  have hr0 : 0 ≤ r := by linarith
  have hrW : r ≤ 11 / 10 * W := by linarith
  have hsr : |Real.sin r| ≤ 11 / 10 * W := (abs_sin_le' r).trans (by rw [abs_of_nonneg hr0]; exact hrW)
  have hS1 : |S - Real.sin W| ≤ 8 * ε * W := by
    have e : S - Real.sin W = (S - Real.sin r) + (Real.sin r - Real.sin W) := by ring
    rw [e]
    have g1 := mul_le_mul_of_nonneg_left hsr hε
    refine (abs_add_le _ _).trans ?_
    linarith [Real.abs_sin_sub_sin_le r W]
  have hsW : |Real.sin W| ≤ W := (abs_sin_le' W).trans (by rw [abs_of_pos hW])
  have hrS : |r - S| ≤ 11 / 5 * W := by
    have e : r - S = (r - W) - (S - Real.sin W) + (W - Real.sin W) := by ring
    rw [e]
    have g1 := abs_add_le ((r - W) - (S - Real.sin W)) (W - Real.sin W)
    have g2 := abs_sub (r - W) (S - Real.sin W)
    have g3 := abs_sub W (Real.sin W)
    rw [abs_of_pos hW] at g3
    linarith
  have hB1 : |B1 - (W - Real.sin W)| ≤ 17 * ε * W := by
    have e : B1 - (W - Real.sin W) = (B1 - (r - S)) + ((r - W) - (S - Real.sin W)) := by ring
    rw [e]
    have g1 := mul_le_mul_of_nonneg_left hrS hε
    have g2 := abs_sub (r - W) (S - Real.sin W)
    refine (abs_add_le _ _).trans ?_
    linarith
  have hB0 : |W - Real.sin W| ≤ 2 * W := by
    have g3 := abs_sub W (Real.sin W)
    rw [abs_of_pos hW] at g3
    linarith
  have hB2 : |B1| ≤ 21 / 10 * W := by
    have e : B1 = (B1 - (W - Real.sin W)) + (W - Real.sin W) := by ring
    rw [e]
    refine (abs_add_le _ _).trans ?_
    linarith
  have hTr : |T * r - W ^ 3| ≤ 21 / 2 * ε * W ^ 3 := by
    have e : T * r - W ^ 3 = (T - W ^ 2) * r + W ^ 2 * (r - W) := by ring
    rw [e]
    have g1 : |(T - W ^ 2) * r| ≤ 4 * ε * W ^ 2 * (11 / 10 * W) := by
      rw [abs_mul, abs_of_nonneg hr0]
      exact mul_le_mul hT hrW hr0 (by positivity)
    have g2 : |W ^ 2 * (r - W)| ≤ W ^ 2 * (6 * ε * W) := by
      rw [abs_mul, abs_of_pos hW2]
      exact mul_le_mul_of_nonneg_left hr hW2.le
    refine (abs_add_le _ _).trans ?_
    have g3 : 0 ≤ ε * W ^ 3 := by positivity
    linarith [show 4 * ε * W ^ 2 * (11 / 10 * W) = 22 / 5 * (ε * W ^ 3) by ring, show W ^ 2 * (6 * ε * W) = 6 * (ε * W ^ 3) by ring]
  have hεW3 : ε * W ^ 3 ≤ W ^ 3 / 10 ^ 6 := by
    have := mul_le_mul_of_nonneg_right hε' hW3.le
    linarith
  have hTr2 : |T * r| ≤ 11 / 10 * W ^ 3 := by
    have e : T * r = (T * r - W ^ 3) + W ^ 3 := by ring
    rw [e]
    refine (abs_add_le _ _).trans ?_
    rw [abs_of_pos hW3]
    linarith
  have hD1 : |D1 - W ^ 3| ≤ 20 * ε * W ^ 3 := by
    have e : D1 - W ^ 3 = (D1 - T * r) + (T * r - W ^ 3) := by ring
    rw [e]
    have g1 := mul_le_mul_of_nonneg_left hTr2 hε
    refine (abs_add_le _ _).trans ?_
    have g3 : 0 ≤ ε * W ^ 3 := by positivity
    linarith
  have hq2 := quot_close hε hW3 (by linarith) hD1 hB1 hB2 hq
  have hηW : η * W ^ 3 ≤ ε * W := by
    have g1 : W ^ 2 ≤ 16 := by nlinarith
    have g2 : η * W ^ 2 ≤ η * 16 := mul_le_mul_of_nonneg_left g1 hη
    have g3 : η * W ^ 2 * W ≤ ε * W := mul_le_mul_of_nonneg_right (by linarith) hW.le
    calc η * W ^ 3 = η * W ^ 2 * W := by ring
      _ ≤ _ := g3
  have hq3 : |S2 * W ^ 3 - (W - Real.sin W)| ≤ 71 * ε * W := by
    have e : 6 / 5 * (20 * ε + ε) * (21 / 10 * W) = 1323 / 25 * (ε * W) := by ring
    rw [e] at hq2
    linarith
  refine ⟨hq3, ?_⟩
  have h9 : |S2 * W ^ 3| ≤ 21 / 10 * W := by
    have e : S2 * W ^ 3 = (S2 * W ^ 3 - (W - Real.sin W)) + (W - Real.sin W) := by ring
    rw [e]
    refine (abs_add_le _ _).trans ?_
    linarith
  rw [abs_mul, abs_of_pos hW3, show |S2| * W ^ 3 = |S2| * W ^ 2 * W by ring] at h9
  exact le_of_mul_le_mul_right h9 hW

set_option maxHeartbeats 1000000 in
/-- An entry of the matrix `V`. `w` and `z` are the entries of the skew matrix that are multiplied, `d` is the entry of the identity. -/
theorem entry_close {ε η W X S1 S2 a b d w M1 N P R : ℝ} {z y M2 : Fin 3 → ℝ} (hε : 0 ≤ ε) (hε' : ε ≤ 1 / 10 ^ 6) (hη : 0 ≤ η) (hη2 : 16 * η ≤ ε) (hW : 0 < W) (hW4 : W ≤ 4)
    (hS1 : |S1 - a| * W ≤ X + 84 * ε) (hS1' : |S1| ≤ 2) (hS2 : |S2 - b| * W ^ 2 ≤ 71 * ε) (hS2' : |S2| * W ^ 2 ≤ 21 / 10) (hd : |d| ≤ 1) (hw : |w| ≤ W) (hz : ∀ k, |z k| ≤ W) (hy : ∀ k, |y k| ≤ W)
    (h1 : |M1 - S1 * w| ≤ ε * |S1 * w| + η) (hN : |N - (d + M1)| ≤ ε * |d + M1|) (h2 : ∀ k, |M2 k - S2 * z k| ≤ ε * |S2 * z k| + η)
    (hP : |P - (M2 0 * y 0 + M2 1 * y 1 + M2 2 * y 2)| ≤ 3 * ε * (|M2 0 * y 0| + |M2 1 * y 1| + |M2 2 * y 2|) + η) (hR : |R - (N + P)| ≤ ε * |N + P|) :
    |R - (d + a * w + b * (z 0 * y 0 + z 1 * y 1 + z 2 * y 2))| ≤ X + 400 * ε ∧ |R| ≤ 20 := by
  have a1 : |S1 * w| ≤ 8 := by
    rw [abs_mul]
    calc |S1| * |w| ≤ 2 * 4 := mul_le_mul hS1' (hw.trans hW4) (abs_nonneg _) (by norm_num)
      _ = 8 := by norm_num
  have a2 : |M1 - S1 * w| ≤ 9 * ε := by
    have := mul_le_mul_of_nonneg_left a1 hε
    linarith
  have zy : ∀ k, |z k * y k| ≤ W ^ 2 := by
    intro k
    rw [abs_mul, sq]
    exact mul_le_mul (hz k) (hy k) (abs_nonneg _) hW.le
  have a3 : ∀ k, |S2 * z k * y k| ≤ 21 / 10 := by
    intro k
    rw [mul_assoc, abs_mul]
    exact (mul_le_mul_of_nonneg_left (zy k) (abs_nonneg _)).trans hS2'
  have a4 : ∀ k, |M2 k * y k - S2 * z k * y k| ≤ 5 / 2 * ε := by
    intro k
    rw [← sub_mul, abs_mul]
    have g1 := mul_le_mul_of_nonneg_right (h2 k) (abs_nonneg (y k))
    have g2 : (ε * |S2 * z k| + η) * |y k| = ε * |S2 * z k * y k| + η * |y k| := by rw [abs_mul (S2 * z k)]; ring
    have g3 := mul_le_mul_of_nonneg_left (a3 k) hε
    have g4 : η * |y k| ≤ η * 4 := mul_le_mul_of_nonneg_left ((hy k).trans hW4) hη
    linarith
  have a5 : ∀ k, |M2 k * y k| ≤ 11 / 5 := by
    intro k
    have e : M2 k * y k = (M2 k * y k - S2 * z k * y k) + S2 * z k * y k := by ring
    rw [e]
    exact (abs_add_le _ _).trans (by linarith [a3 k, a4 k])
  obtain ⟨m1, m2⟩ := abs_le.1 a2
  obtain ⟨s1, s2⟩ := abs_le.1 a1
  obtain ⟨d1, d2⟩ := abs_le.1 hd
  have b1 : |d + M1| ≤ 10 := by rw [abs_le]; constructor <;> linarith
  obtain ⟨n1, n2⟩ := abs_le.1 (hN.trans (mul_le_mul_of_nonneg_left b1 hε))
  have b2 : |P - (M2 0 * y 0 + M2 1 * y 1 + M2 2 * y 2)| ≤ 21 * ε := by
    have g1 : 3 * ε * (|M2 0 * y 0| + |M2 1 * y 1| + |M2 2 * y 2|) ≤ 3 * ε * (33 / 5) := mul_le_mul_of_nonneg_left (by linarith [a5 0, a5 1, a5 2]) (by positivity)
    linarith
  obtain ⟨p1, p2⟩ := abs_le.1 b2
  obtain ⟨x1, x2⟩ := abs_le.1 (a4 0)
  obtain ⟨x3, x4⟩ := abs_le.1 (a4 1)
  obtain ⟨x5, x6⟩ := abs_le.1 (a4 2)
  obtain ⟨y1, y2⟩ := abs_le.1 (a3 0)
  obtain ⟨y3, y4⟩ := abs_le.1 (a3 1)
  obtain ⟨y5, y6⟩ := abs_le.1 (a3 2)
  have b3 : |N + P| ≤ 18 := by rw [abs_le]; constructor <;> linarith
  obtain ⟨q1, q2⟩ := abs_le.1 (hR.trans (mul_le_mul_of_nonneg_left b3 hε))
  have c1 : |S1 * w - a * w| ≤ X + 84 * ε := by
    rw [← sub_mul, abs_mul]
    exact (mul_le_mul_of_nonneg_left hw (abs_nonneg _)).trans hS1
  have c2 : ∀ k, |S2 * z k * y k - b * (z k * y k)| ≤ 71 * ε := by
    intro k
    rw [mul_assoc, ← sub_mul, abs_mul]
    exact (mul_le_mul_of_nonneg_left (zy k) (abs_nonneg _)).trans hS2
  obtain ⟨u1, u2⟩ := abs_le.1 c1
  obtain ⟨u3, u4⟩ := abs_le.1 (c2 0)
  obtain ⟨u5, u6⟩ := abs_le.1 (c2 1)
  obtain ⟨u7, u8⟩ := abs_le.1 (c2 2)
  constructor
  · rw [abs_le]
    constructor <;> linarith
  · rw [abs_le]
    constructor <;> linarith

/-- A component of the translation. -/
theorem row_close {ε η K β t : ℝ} {v M J : Fin 3 → ℝ} (hε : 0 ≤ ε) (hM : ∀ k, |M k| ≤ β) (hJ : ∀ k, |M k - J k| ≤ K)
    (h : |t - (M 0 * v 0 + M 1 * v 1 + M 2 * v 2)| ≤ 3 * ε * (|M 0 * v 0| + |M 1 * v 1| + |M 2 * v 2|) + η) :
    |t - (J 0 * v 0 + J 1 * v 1 + J 2 * v 2)| ≤ (K + 3 * ε * β) * (|v 0| + |v 1| + |v 2|) + η := by
  have a1 : ∀ k, |M k * v k| ≤ β * |v k| := fun k => by rw [abs_mul]; exact mul_le_mul_of_nonneg_right (hM k) (abs_nonneg _)
  have a2 : ∀ k, |M k * v k - J k * v k| ≤ K * |v k| := fun k => by rw [← sub_mul, abs_mul]; exact mul_le_mul_of_nonneg_right (hJ k) (abs_nonneg _)
  have a3 : 3 * ε * (|M 0 * v 0| + |M 1 * v 1| + |M 2 * v 2|) ≤ 3 * ε * (β * |v 0| + β * |v 1| + β * |v 2|) := mul_le_mul_of_nonneg_left (by linarith [a1 0, a1 1, a1 2]) (by positivity)
  obtain ⟨x1, x2⟩ := abs_le.1 (h.trans (add_le_add_left a3 η))
  obtain ⟨x3, x4⟩ := abs_le.1 (a2 0)
  obtain ⟨x5, x6⟩ := abs_le.1 (a2 1)
  obtain ⟨x7, x8⟩ := abs_le.1 (a2 2)
  rw [abs_le]
  constructor <;> linarith

section Motion

variable {V : Type} [LT V] [DecidableLT V] {o : Ops V} {c : TrigOps V} {finite : V → Prop} {val : V → ℝ} {u γ η ζ ε : ℝ}

theorem so3_dot_finite (hc : TrigAccuracy o c finite val u γ η ζ) (omega : Fin 3 → V) (fx : finite (so3Exp o c omega).x) : finite (o.dot3 (omega 0) (omega 1) (omega 2) (omega 0) (omega 1) (omega 2)) := by
  simp only [so3Exp] at fx
  obtain ⟨fm, _, _⟩ := hc.mul _ _ fx
  split at fm
  · obtain ⟨fa, _, _⟩ := hc.add _ _ fm
    obtain ⟨_, fp1, _⟩ := hc.sub _ _ fa
    exact (hc.mul _ _ fp1).2.1
  · obtain ⟨fs, _⟩ := hc.div _ _ fm
    obtain ⟨fh, _⟩ := hc.sin _ fs
    obtain ⟨_, fr, _⟩ := hc.mul _ _ fh
    exact (hc.sqrt _ fr).1

theorem skewM_val (he : ExpMapAccuracy o c finite val u) (omega : Fin 3 → V) (i j : Fin 3) (hf : finite (skewM o c omega i j)) : val (skewM o c omega i j) = skew (fun i => val (omega i)) i j := by
  fin_cases i <;> fin_cases j <;> simp [skewM, skew, he.zero] at hf ⊢
  · exact (he.neg _ hf).2
  · exact (he.neg _ hf).2
  · exact (he.neg _ hf).2

theorem rotation_finite_parts (hc : TrigAccuracy o c finite val u γ η ζ) (q : MQuat V) (hf : ∀ i j, finite (toRotation o c q i j)) : finite q.w ∧ finite q.x ∧ finite q.y ∧ finite q.z := by
  have h01 : finite _ := hf 0 1
  have h11 : finite _ := hf 1 1
  simp only [toRotation] at h01 h11
  obtain ⟨g1, g2, _⟩ := hc.sub _ _ h01
  obtain ⟨g3, fx, _⟩ := hc.mul _ _ g1
  obtain ⟨_, fy, _⟩ := hc.mul _ _ g3
  obtain ⟨g4, fw, _⟩ := hc.mul _ _ g2
  obtain ⟨_, fz, _⟩ := hc.mul _ _ g4
  exact ⟨fw, fx, fy, fz⟩

/-- The exact matrices are close to the identity for small angles. -/
theorem small_jacobian (w : Fin 3 → ℝ) (h : len w ≤ 1) (i j : Fin 3) :
    |((1 : Matrix (Fin 3) (Fin 3) ℝ) + ((1 - Real.cos (len w)) / len w ^ 2) • skew w + ((len w - Real.sin (len w)) / len w ^ 3) • (skew w * skew w)) i j - (1 : Matrix (Fin 3) (Fin 3) ℝ) i j| ≤ len w := by
  have hW0 : 0 ≤ len w := len_nonneg _
  obtain ⟨e1, e2⟩ := skew_entry_le w i j (len w) hW0 (by rw [len_sq])
  simp only [Matrix.add_apply, Matrix.smul_apply, smul_eq_mul]
  set W := len w
  rcases hW0.eq_or_lt with h0 | hpos
  · rw [← h0]; simp
  · have a1 : |(1 - Real.cos W) / W ^ 2| ≤ 1 / 2 := by
      obtain ⟨d1, d2⟩ := abs_one_sub_cos W
      rw [abs_of_nonneg (by positivity), div_le_iff₀ (by positivity)]
      linarith
    have a2 : |(W - Real.sin W) / W ^ 3| ≤ 1 / 4 := by
      have h1 := Real.sin_gt_sub_cube hpos
      have h2 := Real.sin_le hW0
      rw [abs_of_nonneg (div_nonneg (by linarith) (by positivity)), div_le_iff₀ (by positivity)]
      linarith
    have a3 : |(1 - Real.cos W) / W ^ 2 * skew w i j| ≤ 1 / 2 * W := by
      rw [abs_mul]; exact mul_le_mul a1 e1 (abs_nonneg _) (by norm_num)
    have a4 : |(W - Real.sin W) / W ^ 3 * (skew w * skew w) i j| ≤ 1 / 4 * W ^ 2 := by
      rw [abs_mul]; exact mul_le_mul a2 e2 (abs_nonneg _) (by norm_num)
    obtain ⟨x1, x2⟩ := abs_le.1 a3
    obtain ⟨x3, x4⟩ := abs_le.1 a4
    have a5 : W ^ 2 ≤ W := by nlinarith
    rw [abs_le]
    constructor <;> linarith

theorem small_rotation (a : Fin 6 → ℝ) (h : len (rot a) ≤ 1 / 10) (i j : Fin 3) : |exp (twistMatrix a) i.castSucc j.castSucc - (1 : Matrix (Fin 3) (Fin 3) ℝ) i j| ≤ 10 * len (rot a) := by
  obtain ⟨k, hk⟩ : ∃ k : ℝ, k * len (rot a) = Real.sin (len (rot a) / 2) := by
    by_cases h0 : len (rot a) = 0
    · exact ⟨0, by rw [h0]; simp⟩
    · exact ⟨Real.sin (len (rot a) / 2) / len (rot a), by field_simp⟩
  rw [(exp_entries a hk i j).1]
  have hW0 : 0 ≤ len (rot a) := len_nonneg _
  have hWsq : len (rot a) ^ 2 = a 0 * a 0 + a 1 * a 1 + a 2 * a 2 := by
    rw [len_sq]
    simp [dotProduct, Fin.sum_univ_three, rot]
  set W := len (rot a)
  have hkw : ∀ x : ℝ, x ^ 2 ≤ W ^ 2 → |k * x - 0| ≤ W := by
    intro x hx
    have h1 : |x| ≤ W := abs_le_of_sq_le_sq hx hW0
    have h2 : |k * W| ≤ W := by
      rw [hk]
      refine (abs_sin_le' _).trans ?_
      rw [abs_of_nonneg (by linarith)]
      linarith
    rw [sub_zero, abs_mul]
    rw [abs_mul, abs_of_nonneg hW0] at h2
    exact (mul_le_mul_of_nonneg_left h1 (abs_nonneg _)).trans h2
  have hw : |Real.cos (W / 2) - 1| ≤ W := by
    obtain ⟨d1, d2⟩ := abs_one_sub_cos (W / 2)
    rw [abs_sub_comm, abs_of_nonneg d1]
    nlinarith
  have hone : (Lie.Quat.mk 1 0 0 0).toRotationMatrix = 1 := by
    ext i j
    fin_cases i <;> fin_cases j <;> simp [Lie.Quat.toRotationMatrix]
  have := quat_lipschitz (q := ⟨Real.cos (W / 2), k * a 0, k * a 1, k * a 2⟩) (p := ⟨1, 0, 0, 0⟩) h hw (hkw _ (by nlinarith [mul_self_nonneg (a 1), mul_self_nonneg (a 2)]))
    (hkw _ (by nlinarith [mul_self_nonneg (a 0), mul_self_nonneg (a 2)])) (hkw _ (by nlinarith [mul_self_nonneg (a 1), mul_self_nonneg (a 0)])) (by simp) (by simp) (by simp) (by simp) i j
  rwa [hone] at this

theorem translationM_small (o : Ops V) (c : TrigOps V) (a : Fin 6 → V) {T : V} (hT : T = o.dot3 (a 0) (a 1) (a 2) (a 0) (a 1) (a 2)) (h : c.sqrt T < c.small) (i : Fin 3) :
    translationM o c a i = o.dot3 (toRotation o c (so3Exp o c ![a 0, a 1, a 2]) i 0) (toRotation o c (so3Exp o c ![a 0, a 1, a 2]) i 1) (toRotation o c (so3Exp o c ![a 0, a 1, a 2]) i 2) (a 3) (a 4) (a 5) := by
  subst hT
  have e : (if c.sqrt (o.dot3 (a 0) (a 1) (a 2) (a 0) (a 1) (a 2)) < c.small then toRotation o c (so3Exp o c ![a 0, a 1, a 2])
      else jacobianM o c (o.dot3 (a 0) (a 1) (a 2) (a 0) (a 1) (a 2)) (c.sqrt (o.dot3 (a 0) (a 1) (a 2) (a 0) (a 1) (a 2))) (skewM o c ![a 0, a 1, a 2])) = _ := if_pos h
  exact congrArg (fun M : Matrix (Fin 3) (Fin 3) V => o.dot3 (M i 0) (M i 1) (M i 2) (a 3) (a 4) (a 5)) e

theorem translationM_large (o : Ops V) (c : TrigOps V) (a : Fin 6 → V) {T : V} (hT : T = o.dot3 (a 0) (a 1) (a 2) (a 0) (a 1) (a 2)) (h : ¬ c.sqrt T < c.small) (i : Fin 3) :
    translationM o c a i = o.dot3 (jacobianM o c T (c.sqrt T) (skewM o c ![a 0, a 1, a 2]) i 0) (jacobianM o c T (c.sqrt T) (skewM o c ![a 0, a 1, a 2]) i 1)
      (jacobianM o c T (c.sqrt T) (skewM o c ![a 0, a 1, a 2]) i 2) (a 3) (a 4) (a 5) := by
  subst hT
  have e : (if c.sqrt (o.dot3 (a 0) (a 1) (a 2) (a 0) (a 1) (a 2)) < c.small then toRotation o c (so3Exp o c ![a 0, a 1, a 2])
      else jacobianM o c (o.dot3 (a 0) (a 1) (a 2) (a 0) (a 1) (a 2)) (c.sqrt (o.dot3 (a 0) (a 1) (a 2) (a 0) (a 1) (a 2))) (skewM o c ![a 0, a 1, a 2])) = _ := if_neg h
  exact congrArg (fun M : Matrix (Fin 3) (Fin 3) V => o.dot3 (M i 0) (M i 1) (M i 2) (a 3) (a 4) (a 5)) e

set_option maxHeartbeats 2000000 in
/-- The translation that `se3_exp` computes is that of the exponential of the twist up to `√(2ε)` times its size; above an angle of `1e-9` up to `ε / θ`. -/
theorem C108_translation (hc : TrigAccuracy o c finite val u γ η ζ) (he : ExpMapAccuracy o c finite val u) (hu : u ≤ ε) (hγ : γ ≤ 3 * ε) (hη : η ≤ ε / 10 ^ 30) (hε' : ε ≤ 1 / 10 ^ 6) (a : Fin 6 → V)
    (hf : RotationFinite finite (se3Motion o c a)) (hft : ∀ i, finite ((se3Motion o c a).t i)) (hW4 : len (rot fun i => val (a i)) ≤ 4) (i : Fin 3) :
    |val ((se3Motion o c a).t i) - exp (twistMatrix fun i => val (a i)) i.castSucc 3| ≤ (Real.sqrt (2 * ε) + 470 * ε + 2 / 10 ^ 9) * (|val (a 3)| + |val (a 4)| + |val (a 5)|) + η ∧
    (1 / 10 ^ 9 ≤ len (rot fun i => val (a i)) →
      |val ((se3Motion o c a).t i) - exp (twistMatrix fun i => val (a i)) i.castSucc 3| ≤ (ε / len (rot fun i => val (a i)) + 470 * ε) * (|val (a 3)| + |val (a 4)| + |val (a 5)|) + η) := by
  have hu0 := hc.u_nonneg
  have hu' := hc.u_le
  have hη0 := hc.η_nonneg
  have hε : 0 ≤ ε := hu0.trans hu
  obtain ⟨k, hk⟩ : ∃ k : ℝ, k * len (rot fun i => val (a i)) = Real.sin (len (rot fun i => val (a i)) / 2) := by
    by_cases h0 : len (rot fun i => val (a i)) = 0
    · exact ⟨0, by rw [h0]; simp⟩
    · exact ⟨Real.sin (len (rot fun i => val (a i)) / 2) / len (rot fun i => val (a i)), by field_simp⟩
  have hex := (exp_entries _ hk i 0).2
  have hrot : (fun i => val ((![a 0, a 1, a 2] : Fin 3 → V) i)) = rot fun i => val (a i) := by
    funext i
    fin_cases i <;> rfl
  have hsmallJ := small_jacobian (rot fun i => val (a i))
  have hsmallR := small_rotation (fun i => val (a i))
  have hrotR := C108_rotation hc hu hγ hη hε' (translationM o c) a hf hW4
  have hsk := skew_entry_le (rot fun i => val (a i))
  set w := rot fun i => val (a i) with hwd
  set W := len w with hWd
  set J := 1 + ((1 - Real.cos W) / W ^ 2) • skew w + ((W - Real.sin W) / W ^ 3) • (skew w * skew w) with hJ
  have hexv : exp (twistMatrix fun i => val (a i)) i.castSucc 3 = J i 0 * val (a 3) + J i 1 * val (a 4) + J i 2 * val (a 5) := by
    rw [hex]
    simp [mulVec, dotProduct, Fin.sum_univ_three, tra]
  rw [hexv]
  have hW0 : 0 ≤ W := len_nonneg _
  have hWsq : W ^ 2 = val (a 0) * val (a 0) + val (a 1) * val (a 1) + val (a 2) * val (a 2) := by
    rw [hWd, len_sq]
    simp [dotProduct, Fin.sum_univ_three, hwd, rot]
  obtain ⟨fw, fx, fy, fz⟩ := rotation_finite_parts hc _ hf
  have fT := so3_dot_finite hc _ fx
  have hti := hft i
  simp only [cons_val_zero, cons_val_one, cons_val] at fT
  simp only [se3Motion, se3Exp] at hti ⊢
  set T := o.dot3 (a 0) (a 1) (a 2) (a 0) (a 1) (a 2) with hTd
  have hdot : |val T - W ^ 2| ≤ 3 * ε * W ^ 2 + η := by
    have := (hc.dot _ _ _ _ _ _ fT).2
    simp only [abs_mul_self] at this
    rw [← hWsq] at this
    have h2 := mul_le_mul_of_nonneg_right hγ (sq_nonneg W)
    linarith
  have hT0 : 0 ≤ val T := he.dot_nonneg _ _ _ fT
  have fr := he.sqrt_finite _ fT hT0
  have er := (hc.sqrt _ fr).2.2
  have er' : |val (c.sqrt T) - Real.sqrt (val T)| ≤ ε * Real.sqrt (val T) := er.trans (mul_le_mul_of_nonneg_right hu (Real.sqrt_nonneg _))
  set v : Fin 3 → ℝ := ![val (a 3), val (a 4), val (a 5)] with hv
  have hs0 := Real.sqrt_nonneg (val T)
  have hsq := Real.sq_sqrt hT0
  have hSv : 0 ≤ |val (a 3)| + |val (a 4)| + |val (a 5)| := by positivity
  by_cases hlt : c.sqrt T < c.small
  · rw [translationM_small o c a hTd hlt] at hti ⊢
    have hr1 : val (c.sqrt T) ≤ 101 / 10 ^ 12 := by
      have h1 := (hc.lt _ _ fr hc.small.1).1 hlt
      have h2 := (abs_le.1 hc.small.2).2
      linarith
    have hq1 : Real.sqrt (val T) ≤ 102 / 10 ^ 12 := by
      have h1 := (abs_le.1 er').1
      have h2 := mul_le_mul_of_nonneg_right hε' hs0
      linarith
    have hT1 : val T ≤ 102 / 10 ^ 12 * (102 / 10 ^ 12) := by
      rw [← hsq, sq]
      exact mul_le_mul hq1 hq1 hs0 (by norm_num)
    have hW2 : W ^ 2 ≤ (11 / 10 ^ 11) ^ 2 := by
      have h1 := (abs_le.1 hdot).1
      have h2 : 3 * ε * W ^ 2 ≤ 3 * (1 / 10 ^ 6) * W ^ 2 := mul_le_mul_of_nonneg_right (by linarith) (sq_nonneg W)
      linarith
    have hW1 : W ≤ 11 / 10 ^ 11 := (abs_le_of_sq_le_sq' hW2 (by norm_num)).2
    have hd := (hc.dot _ _ _ _ _ _ hti).2
    have hd' := hd.trans (add_le_add_left (mul_le_mul_of_nonneg_right hγ (by positivity)) η)
    have hJ1 : ∀ m : Fin 3, |val (toRotation o c (so3Exp o c ![a 0, a 1, a 2]) i m) - J i m| ≤ 440 * ε + 19 / 10 ^ 10 := by
      intro m
      have h1 := hsmallJ (by linarith) i m
      have h2 := hsmallR (by linarith) i m
      have h3 := hrotR i m
      simp only [se3Exp] at h3
      obtain ⟨x1, x2⟩ := abs_le.1 h1
      obtain ⟨x3, x4⟩ := abs_le.1 h2
      obtain ⟨x5, x6⟩ := abs_le.1 h3
      rw [abs_le]
      constructor <;> linarith
    have hM1 : ∀ m : Fin 3, |val (toRotation o c (so3Exp o c ![a 0, a 1, a 2]) i m)| ≤ 2 := by
      intro m
      have h2 := hsmallR (by linarith) i m
      have h3 := hrotR i m
      simp only [se3Exp] at h3
      obtain ⟨x3, x4⟩ := abs_le.1 h2
      obtain ⟨x5, x6⟩ := abs_le.1 h3
      have h4 : |(1 : Matrix (Fin 3) (Fin 3) ℝ) i m| ≤ 1 := by
        rw [one_apply]; split <;> simp
      obtain ⟨x7, x8⟩ := abs_le.1 h4
      rw [abs_le]
      constructor <;> linarith
    have key := row_close (v := v) hε hM1 hJ1 hd'
    simp only [hv, cons_val_zero, cons_val_one, cons_val] at key
    constructor
    · refine key.trans ?_
      have : (440 * ε + 19 / 10 ^ 10 + 3 * ε * 2) * (|val (a 3)| + |val (a 4)| + |val (a 5)|) ≤ (Real.sqrt (2 * ε) + 470 * ε + 2 / 10 ^ 9) * (|val (a 3)| + |val (a 4)| + |val (a 5)|) :=
        mul_le_mul_of_nonneg_right (by linarith [Real.sqrt_nonneg (2 * ε)]) hSv
      linarith
    · intro h
      exfalso
      linarith
  · rw [translationM_large o c a hTd hlt] at hti ⊢
    have hr1 : 99 / 10 ^ 12 ≤ val (c.sqrt T) := by
      have h1 : ¬ val (c.sqrt T) < val c.small := fun h => hlt ((hc.lt _ _ fr hc.small.1).2 h)
      have h2 := (abs_le.1 hc.small.2).1
      linarith
    have hq1 : 98 / 10 ^ 12 ≤ Real.sqrt (val T) := by
      have h1 := (abs_le.1 er').2
      have h2 := mul_le_mul_of_nonneg_right hε' hs0
      linarith
    have hT1 : 98 / 10 ^ 12 * (98 / 10 ^ 12) ≤ val T := by
      rw [← hsq, sq]
      exact mul_le_mul hq1 hq1 (by norm_num) hs0
    obtain ⟨hWp, hW2, hTW, hrW⟩ := angle_close hε hε' hW0 (by norm_num) hT1 (by linarith) hdot er'
    set r := val (c.sqrt T) with hr
    obtain ⟨⟨ft0, ft1, ft2, _, _, _⟩, hd⟩ := hc.dot _ _ _ _ _ _ hti
    have hd' := hd.trans (add_le_add_left (mul_le_mul_of_nonneg_right hγ (by positivity)) η)
    have ftm : ∀ m : Fin 3, finite (jacobianM o c T (c.sqrt T) (skewM o c ![a 0, a 1, a 2]) i m) := by
      intro m
      fin_cases m
      · exact ft0
      · exact ft1
      · exact ft2
    -- finite parts
    have h00 := ft0
    simp only [jacobianM] at h00
    obtain ⟨fN, fP, _⟩ := hc.add _ _ h00
    obtain ⟨_, fM1, _⟩ := hc.add _ _ fN
    obtain ⟨fs1, _, _⟩ := hc.mul _ _ fM1
    obtain ⟨fA1, es1⟩ := hc.div _ _ fs1
    obtain ⟨_, es1⟩ := es1 fT
    obtain ⟨_, fC, eA1⟩ := hc.sub _ _ fA1
    rw [hc.one] at eA1
    have eC := (hc.cos _ fC).2
    have eC2 := he.cos _ fC
    obtain ⟨⟨fM2, _, _, _, _, _⟩, _⟩ := hc.dot _ _ _ _ _ _ fP
    obtain ⟨fs2, _, _⟩ := hc.mul _ _ fM2
    obtain ⟨fB1, es2⟩ := hc.div _ _ fs2
    obtain ⟨_, fS, eB1⟩ := hc.sub _ _ fB1
    have eS := he.sin _ fS
    have up : ∀ x : ℝ, u * |x| ≤ ε * |x| := fun x => mul_le_mul_of_nonneg_right hu (abs_nonneg _)
    obtain ⟨t1, t2⟩ := abs_le.1 hTW
    obtain ⟨r1, r2⟩ := abs_le.1 hrW
    have hW16 : W ^ 2 ≤ 16 := by nlinarith
    have hεW : ε * W ≤ 1 / 10 ^ 6 * W := mul_le_mul_of_nonneg_right hε' hW0
    have hεW2 : ε * W ^ 2 ≤ 1 / 10 ^ 6 * W ^ 2 := mul_le_mul_of_nonneg_right hε' (sq_nonneg W)
    have hrle : |r| ≤ 5 := by rw [abs_le]; constructor <;> linarith
    have hTle : |val T| ≤ 17 := by rw [abs_le]; constructor <;> linarith
    have fD : finite (o.mul T (c.sqrt T)) := by
      refine he.mul_small _ _ fT fr ?_
      rw [abs_mul]
      calc |val T| * |r| ≤ 17 * 5 := mul_le_mul hTle hrle (abs_nonneg _) (by norm_num)
        _ ≤ 1000 := by norm_num
    obtain ⟨_, es2⟩ := es2 fD
    have eD := (hc.mul _ _ fD).2.2
    have hWlow : 6 / 10 ^ 11 ≤ W := by
      have h1 : (6 / 10 ^ 11 : ℝ) ^ 2 ≤ W ^ 2 := by linarith
      exact (abs_le_of_sq_le_sq' h1 hW0).2
    have hη1 : η ≤ 7 * ε * W ^ 3 := by
      have h1 : (6 / 10 ^ 11) ^ 3 ≤ W ^ 3 := pow_le_pow_left₀ (by norm_num) hWlow 3
      have h2 := mul_le_mul_of_nonneg_left h1 hε
      linarith
    obtain ⟨ρ, ρ0, ρ1, ρ2, hF1, hF1'⟩ := first_factor hε hε' hWp (by linarith) hTW hrW (eC.trans hu) eC2 (eA1.trans (up _)) (es1.trans (add_le_add_left (up _) η))
    obtain ⟨hF2, hF2'⟩ := second_factor hε hε' hWp hW4 hη0 hη1 (by linarith) hTW hrW (eS.trans (up _)) (eB1.trans (up _)) (eD.trans (add_le_add_left (up _) η)) (es2.trans (add_le_add_left (up _) η))
    set S1 := val (o.div (o.sub c.one (c.cos (c.sqrt T))) T) with hS1d
    set S2 := val (o.div (o.sub (c.sqrt T) (c.sin (c.sqrt T))) (o.mul T (c.sqrt T))) with hS2d
    have hG1 : |S1 - (1 - Real.cos W) / W ^ 2| * W ≤ ρ / W + 84 * ε := by
      have e1 : S1 * W ^ 2 - (1 - Real.cos W) = (S1 - (1 - Real.cos W) / W ^ 2) * W * W := by field_simp
      rw [e1, abs_mul, abs_mul, abs_of_pos hWp] at hF1
      have e2 : ρ + 21 * ε * W ^ 2 ≤ (ρ / W + 84 * ε) * W := by
        have e3 : (ρ / W + 84 * ε) * W = ρ + 84 * (ε * W) := by field_simp
        rw [e3]
        have e4 : ε * W * W ≤ ε * W * 4 := mul_le_mul_of_nonneg_left hW4 (by positivity)
        nlinarith
      exact le_of_mul_le_mul_right (hF1.trans e2) hWp
    have hG2 : |S2 - (W - Real.sin W) / W ^ 3| * W ^ 2 ≤ 71 * ε := by
      have e1 : S2 * W ^ 3 - (W - Real.sin W) = (S2 - (W - Real.sin W) / W ^ 3) * W ^ 2 * W := by field_simp
      rw [e1, abs_mul, abs_mul, abs_of_pos hWp, abs_of_nonneg (sq_nonneg W)] at hF2
      exact le_of_mul_le_mul_right hF2 hWp
    have hent : ∀ m : Fin 3, |val (jacobianM o c T (c.sqrt T) (skewM o c ![a 0, a 1, a 2]) i m) - J i m| ≤ ρ / W + 400 * ε ∧ |val (jacobianM o c T (c.sqrt T) (skewM o c ![a 0, a 1, a 2]) i m)| ≤ 20 := by
      intro m
      have hm := ftm m
      simp only [jacobianM] at hm ⊢
      obtain ⟨gN, gP, gR⟩ := hc.add _ _ hm
      obtain ⟨_, gM1, gN'⟩ := hc.add _ _ gN
      obtain ⟨_, gw, gM1'⟩ := hc.mul _ _ gM1
      obtain ⟨⟨z0, z1, z2, y0, y1, y2⟩, gP'⟩ := hc.dot _ _ _ _ _ _ gP
      obtain ⟨_, q0, z0'⟩ := hc.mul _ _ z0
      obtain ⟨_, q1, z1'⟩ := hc.mul _ _ z1
      obtain ⟨_, q2, z2'⟩ := hc.mul _ _ z2
      have sv := skewM_val he ![a 0, a 1, a 2]
      rw [hrot] at sv
      rw [sv _ _ gw] at gM1'
      rw [sv _ _ y0, sv _ _ y1, sv _ _ y2] at gP'
      rw [sv _ _ q0] at z0'
      rw [sv _ _ q1] at z1'
      rw [sv _ _ q2] at z2'
      have hid : val (if i = m then c.one else o.zero) = (1 : Matrix (Fin 3) (Fin 3) ℝ) i m := by
        rw [one_apply]
        split
        · exact hc.one
        · exact he.zero
      rw [hid] at gN'
      have hle : ∀ p q : Fin 3, |skew w p q| ≤ W := fun p q => (hsk p q W hW0 (by rw [hWd, len_sq])).1
      have hone : |(1 : Matrix (Fin 3) (Fin 3) ℝ) i m| ≤ 1 := by
        rw [one_apply]; split <;> simp
      have := entry_close (d := (1 : Matrix (Fin 3) (Fin 3) ℝ) i m) (z := fun p => skew w i p) (y := fun p => skew w p m)
        (M2 := ![val (o.mul (o.div (o.sub (c.sqrt T) (c.sin (c.sqrt T))) (o.mul T (c.sqrt T))) (skewM o c ![a 0, a 1, a 2] i 0)),
          val (o.mul (o.div (o.sub (c.sqrt T) (c.sin (c.sqrt T))) (o.mul T (c.sqrt T))) (skewM o c ![a 0, a 1, a 2] i 1)),
          val (o.mul (o.div (o.sub (c.sqrt T) (c.sin (c.sqrt T))) (o.mul T (c.sqrt T))) (skewM o c ![a 0, a 1, a 2] i 2))])
        hε hε' hη0 (by linarith) hWp hW4 hG1 hF1' hG2 hF2' hone (hle i m) (hle i) (fun p => hle p m) (gM1'.trans (add_le_add_left (up _) η)) (gN'.trans (up _))
        (fun p => by
          fin_cases p
          · exact z0'.trans (add_le_add_left (up _) η)
          · exact z1'.trans (add_le_add_left (up _) η)
          · exact z2'.trans (add_le_add_left (up _) η))
        (gP'.trans (add_le_add_left (mul_le_mul_of_nonneg_right hγ (by positivity)) η)) (gR.trans (up _))
      refine ⟨?_, this.2⟩
      have e : J i m = (1 : Matrix (Fin 3) (Fin 3) ℝ) i m + (1 - Real.cos W) / W ^ 2 * skew w i m +
          (W - Real.sin W) / W ^ 3 * (skew w i 0 * skew w 0 m + skew w i 1 * skew w 1 m + skew w i 2 * skew w 2 m) := by
        simp only [hJ, Matrix.add_apply, Matrix.smul_apply, smul_eq_mul, Matrix.mul_apply, Fin.sum_univ_three]
      rw [e]
      exact this.1
    have key := row_close (v := v) hε (fun m => (hent m).2) (fun m => (hent m).1) hd'
    simp only [hv, cons_val_zero, cons_val_one, cons_val] at key
    have hX1 : ρ / W ≤ Real.sqrt (2 * ε) := by
      refine Real.le_sqrt_of_sq_le ?_
      rw [div_pow, div_le_iff₀ (by positivity), sq]
      have h1 : ρ * ρ ≤ ε * (11 / 10 * W ^ 2) := mul_le_mul ρ1 ρ2 ρ0 hε
      have h2 : 0 ≤ ε * W ^ 2 := by positivity
      linarith
    constructor
    · refine key.trans ?_
      have : (ρ / W + 400 * ε + 3 * ε * 20) * (|val (a 3)| + |val (a 4)| + |val (a 5)|) ≤ (Real.sqrt (2 * ε) + 470 * ε + 2 / 10 ^ 9) * (|val (a 3)| + |val (a 4)| + |val (a 5)|) :=
        mul_le_mul_of_nonneg_right (by linarith) hSv
      linarith
    · intro _
      refine key.trans ?_
      have : (ρ / W + 400 * ε + 3 * ε * 20) * (|val (a 3)| + |val (a 4)| + |val (a 5)|) ≤ (ε / W + 470 * ε) * (|val (a 3)| + |val (a 4)| + |val (a 5)|) :=
        mul_le_mul_of_nonneg_right (by linarith [div_le_div_of_nonneg_right ρ1 hW0]) hSv
      linarith

end Motion

end Verif.Props
