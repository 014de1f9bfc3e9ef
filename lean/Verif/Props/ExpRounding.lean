import Verif.Props.PoseExp
import Verif.Props.Lie

/-!
C108: `se3_exp` in floating-point arithmetic is the exponential map up to rounding.
-/

set_option linter.unusedSectionVars false
set_option linter.unusedSimpArgs false
set_option linter.unnecessarySeqFocus false

namespace Verif.Spec

open Matrix Verif Verif.Machine Verif.Factors

/-- What `TrigAccuracy` leaves open: negation is exact, sums of squares are not negative, their roots and products of moderate size are finite, the sine has relative error `u`, and the error of the cosine is at most twice the distance to one, which is a machine number. -/
structure ExpMapAccuracy {V : Type} (o : Ops V) (c : TrigOps V) (finite : V → Prop) (val : V → ℝ) (u : ℝ) : Prop where
  zero : val o.zero = 0
  dot_nonneg : ∀ a b d, finite (o.dot3 a b d a b d) → 0 ≤ val (o.dot3 a b d a b d)
  sqrt_finite : ∀ a, finite a → 0 ≤ val a → finite (c.sqrt a)
  neg : ∀ a, finite (c.neg a) → finite a ∧ val (c.neg a) = -val a
  mul_small : ∀ a b, finite a → finite b → |val a * val b| ≤ 1000 → finite (o.mul a b)
  sin : ∀ a, finite (c.sin a) → |val (c.sin a) - Real.sin (val a)| ≤ u * |Real.sin (val a)|
  cos : ∀ a, finite (c.cos a) → |val (c.cos a) - Real.cos (val a)| ≤ 2 * (1 - Real.cos (val a))

end Verif.Spec

namespace Verif.Props

open Matrix Verif Verif.Machine Verif.Spec Verif.Proofs Verif.Factors

/-! ### quotients, square roots -/

theorem quot_close {ε η κ e n q N N1 D D1 : ℝ} (hε : 0 ≤ ε) (hD : 0 < D) (hκ : κ ≤ 1 / 10) (hd : |D1 - D| ≤ κ * D) (hN : |N1 - N| ≤ e) (hn : |N1| ≤ n) (hq : |q - N1 / D1| ≤ ε * |N1 / D1| + η) :
    |q * D - N| ≤ e + 6 / 5 * (κ + ε) * n + η * D := by
  have hκ0 : 0 ≤ κ := by
    by_contra h
    have := abs_nonneg (D1 - D)
    nlinarith
  have h1 : 9 / 10 * D ≤ D1 := by nlinarith [(abs_le.1 hd).1]
  have hD1 : 0 < D1 := by linarith
  have h2 : D / D1 ≤ 10 / 9 := by rw [div_le_iff₀ hD1]; linarith
  have h2' : 0 ≤ D / D1 := by positivity
  have h3 : |D / D1 - 1| ≤ 10 / 9 * κ := by
    have e1 : D / D1 - 1 = -(D1 - D) / D1 := by field_simp; ring
    rw [e1, abs_div, abs_neg, abs_of_pos hD1, div_le_iff₀ hD1]
    nlinarith
  have hn0 : 0 ≤ n := (abs_nonneg _).trans hn
  have h4 : |(q - N1 / D1) * D| ≤ ε * (n * (10 / 9)) + η * D := by
    rw [abs_mul, abs_of_pos hD]
    have e1 := mul_le_mul_of_nonneg_right hq hD.le
    have e2 : |N1 / D1| * D = |N1| * (D / D1) := by rw [abs_div, abs_of_pos hD1]; ring
    have e3 : |N1| * (D / D1) ≤ n * (10 / 9) := mul_le_mul hn h2 h2' hn0
    have e4 : (ε * |N1 / D1| + η) * D = ε * (|N1| * (D / D1)) + η * D := by rw [← e2]; ring
    rw [e4] at e1
    have e5 := mul_le_mul_of_nonneg_left e3 hε
    linarith
  have h5 : |N1 * (D / D1 - 1)| ≤ n * (10 / 9 * κ) := by
    rw [abs_mul]
    exact mul_le_mul hn h3 (abs_nonneg _) hn0
  have e : q * D - N = (q - N1 / D1) * D + N1 * (D / D1 - 1) + (N1 - N) := by field_simp; ring
  rw [e]
  refine (abs_add_le _ _).trans ?_
  have := abs_add_le ((q - N1 / D1) * D) (N1 * (D / D1 - 1))
  have h6 : 0 ≤ κ * n := mul_nonneg hκ0 hn0
  have h7 : 0 ≤ ε * n := mul_nonneg hε hn0
  linarith

/-- The computed angle. -/
theorem angle_close {ε η L W T r : ℝ} (hε : 0 ≤ ε) (hε' : ε ≤ 1 / 10 ^ 6) (hW : 0 ≤ W) (hL : 0 < L) (hLT : L ≤ T) (hη : η ≤ ε * L / 2) (hT : |T - W ^ 2| ≤ 3 * ε * W ^ 2 + η) (hr : |r - Real.sqrt T| ≤ ε * Real.sqrt T) :
    0 < W ∧ L / 2 ≤ W ^ 2 ∧ |T - W ^ 2| ≤ 4 * ε * W ^ 2 ∧ |r - W| ≤ 6 * ε * W := by
  obtain ⟨t1, t2⟩ := abs_le.1 hT
  have hW2 : L / 2 ≤ W ^ 2 := by nlinarith [sq_nonneg W]
  have hWpos : 0 < W := by
    rcases hW.lt_or_eq with e | e
    · exact e
    · rw [← e] at hW2; norm_num at hW2; linarith
  have hη2 : η ≤ ε * W ^ 2 := by nlinarith
  have hTd : |T - W ^ 2| ≤ 4 * ε * W ^ 2 := by linarith
  have hTpos : 0 < T := by linarith
  set q := Real.sqrt T with hq
  have hq0 : 0 < q := Real.sqrt_pos.2 hTpos
  have hqq : q ^ 2 = T := Real.sq_sqrt hTpos.le
  have hqW : |q - W| ≤ 4 * ε * W := by
    have e1 : (q - W) * (q + W) = T - W ^ 2 := by rw [← hqq]; ring
    have e2 : |q - W| * (q + W) ≤ 4 * ε * W ^ 2 := by
      rw [← abs_of_pos (show 0 < q + W by linarith), ← abs_mul, e1]
      exact hTd
    have e3 : |q - W| * W ≤ 4 * ε * W * W := by nlinarith [abs_nonneg (q - W)]
    exact le_of_mul_le_mul_right e3 hWpos
  refine ⟨hWpos, hW2, hTd, ?_⟩
  have e1 : q ≤ 2 * W := by nlinarith [(abs_le.1 hqW).2]
  have e2 : r - W = (r - q) + (q - W) := by ring
  rw [e2]
  refine (abs_add_le _ _).trans ?_
  nlinarith

/-- The polynomials of the branch for small angles. -/
theorem poly_close {u η T B k k0 p1 a p2 m : ℝ} (hu : 0 ≤ u) (hu' : u ≤ 1 / 1000) (hη' : η ≤ 1 / 10 ^ 14) (hB : |B| ≤ 1) (hk0 : 0 ≤ k0) (hk0' : k0 ≤ 1 / 8) (hT : |T| ≤ 2 / 10 ^ 10) (hk : |k - k0| ≤ u)
    (h1 : |p1 - k * T| ≤ u * |k * T| + η) (ha : |a - (B - p1)| ≤ u * |B - p1|) (h2 : |p2| ≤ 1 / 10 ^ 20 + 2 * η) (hm : |m - (a + p2)| ≤ u * |a + p2|) : |m - (B - k0 * T)| ≤ 5 * u + 3 * η + 1 / 10 ^ 20 := by
  have k1 : |k| ≤ 1 := literal_le hk hk0 (by linarith)
  have k2 : |k * T| ≤ 2 / 10 ^ 10 := by
    rw [abs_mul]
    calc |k| * |T| ≤ 1 * (2 / 10 ^ 10) := mul_le_mul k1 hT (abs_nonneg _) (by norm_num)
      _ = 2 / 10 ^ 10 := one_mul _
  have k3 := mul_le_mul_of_nonneg_left k2 hu
  have k4 : |k * T - k0 * T| ≤ u * (2 / 10 ^ 10) := by
    rw [← sub_mul, abs_mul]
    exact mul_le_mul hk hT (abs_nonneg _) hu
  obtain ⟨x1, x2⟩ := abs_le.1 (h1.trans (add_le_add_left k3 η))
  obtain ⟨w1, w2⟩ := abs_le.1 k4
  obtain ⟨y1, y2⟩ := abs_le.1 h2
  obtain ⟨q1, q2⟩ := abs_le.1 k2
  obtain ⟨b1, b2⟩ := abs_le.1 hB
  have hη : 0 ≤ 1 / 10 ^ 20 + 2 * η := (abs_nonneg _).trans h2
  have g1 : |B - p1| ≤ 2 := by rw [abs_le]; constructor <;> linarith
  have g2 := mul_le_mul_of_nonneg_left g1 hu
  obtain ⟨z1, z2⟩ := abs_le.1 (ha.trans g2)
  have g3 : |a + p2| ≤ 2 := by rw [abs_le]; constructor <;> linarith
  have g4 := mul_le_mul_of_nonneg_left g3 hu
  obtain ⟨v1, v2⟩ := abs_le.1 (hm.trans g4)
  rw [abs_le]
  constructor <;> linarith

section Value

variable {V : Type} [LT V] [DecidableLT V] {o : Ops V} {c : TrigOps V} {finite : V → Prop} {val : V → ℝ} {u γ η ζ ε : ℝ}

set_option maxHeartbeats 1000000 in
/-- The quaternion that `so3_exp` computes is that of half the angle. -/
theorem so3_value (hc : TrigAccuracy o c finite val u γ η ζ) (hu : u ≤ ε) (hγ : γ ≤ 3 * ε) (hη : η ≤ ε / 10 ^ 30) (hε' : ε ≤ 1 / 10 ^ 6) (omega : Fin 3 → V) (fw : finite (so3Exp o c omega).w)
    (fx : finite (so3Exp o c omega).x) (fy : finite (so3Exp o c omega).y) (fz : finite (so3Exp o c omega).z) (hW4 : len (fun i => val (omega i)) ≤ 4) {k : ℝ}
    (hk : k * len (fun i => val (omega i)) = Real.sin (len (fun i => val (omega i)) / 2)) :
    |val (so3Exp o c omega).w - Real.cos (len (fun i => val (omega i)) / 2)| ≤ 40 * ε + 1 / 10 ^ 19 ∧ |val (so3Exp o c omega).x - k * val (omega 0)| ≤ 40 * ε + 1 / 10 ^ 19 ∧
    |val (so3Exp o c omega).y - k * val (omega 1)| ≤ 40 * ε + 1 / 10 ^ 19 ∧ |val (so3Exp o c omega).z - k * val (omega 2)| ≤ 40 * ε + 1 / 10 ^ 19 := by
  have hu0 := hc.u_nonneg
  have hu' := hc.u_le
  have hη0 := hc.η_nonneg
  have hη' := hc.η_le
  have hε : 0 ≤ ε := hu0.trans hu
  set T := o.dot3 (omega 0) (omega 1) (omega 2) (omega 0) (omega 1) (omega 2) with hT
  set wv : Fin 3 → ℝ := fun i => val (omega i) with hwv
  set W := len wv with hWd
  have hW : 0 ≤ W := len_nonneg _
  have hWsq : W ^ 2 = val (omega 0) * val (omega 0) + val (omega 1) * val (omega 1) + val (omega 2) * val (omega 2) := by
    rw [hWd, len_sq]
    simp only [dotProduct, Fin.sum_univ_three, hwv]
  have hcomp : ∀ i, |val (omega i)| ≤ W := by
    intro i
    refine abs_le_of_sq_le_sq ?_ hW
    rw [hWsq]
    fin_cases i <;> simp <;> nlinarith [mul_self_nonneg (val (omega 0)), mul_self_nonneg (val (omega 1)), mul_self_nonneg (val (omega 2))]
  have hdot : finite T → |val T - W ^ 2| ≤ 3 * ε * W ^ 2 + η := by
    intro hf
    have := (hc.dot _ _ _ _ _ _ hf).2
    simp only [abs_mul_self] at this
    rw [← hWsq] at this
    have h2 := mul_le_mul_of_nonneg_right hγ (sq_nonneg W)
    linarith
  -- a component, once the factor is known up to `d / W`
  have comp : ∀ (f : V) (i : Fin 3), finite (o.mul f (omega i)) → |val f * W - k * W| ≤ 30 * ε + 2 / 10 ^ 20 → |val f * W| ≤ 2 → |val (o.mul f (omega i)) - k * val (omega i)| ≤ 40 * ε + 1 / 10 ^ 19 := by
    intro f i hf h1 h2
    have e1 := (hc.mul _ _ hf).2.2
    have h3 : |val f * val (omega i)| ≤ 2 := by
      rw [abs_mul]
      rw [abs_mul, abs_of_nonneg hW] at h2
      exact (mul_le_mul_of_nonneg_left (hcomp i) (abs_nonneg _)).trans h2
    have h4 : |val f * val (omega i) - k * val (omega i)| ≤ 30 * ε + 2 / 10 ^ 20 := by
      rw [← sub_mul, abs_mul]
      rw [← sub_mul, abs_mul, abs_of_nonneg hW] at h1
      exact (mul_le_mul_of_nonneg_left (hcomp i) (abs_nonneg _)).trans h1
    have h5 := mul_le_mul hu h3 (abs_nonneg _) hε
    have e : val (o.mul f (omega i)) - k * val (omega i) = (val (o.mul f (omega i)) - val f * val (omega i)) + (val f * val (omega i) - k * val (omega i)) := by ring
    rw [e]
    refine (abs_add_le _ _).trans ?_
    linarith
  by_cases hlt : T < c.small
  · have hq : so3Exp o c omega = ⟨o.add (o.sub c.one (o.mul c.c8 T)) (o.mul c.c384 (o.mul T T)),
        o.mul (o.add (o.sub c.half (o.mul c.c48 T)) (o.mul c.c3840 (o.mul T T))) (omega 0), o.mul (o.add (o.sub c.half (o.mul c.c48 T)) (o.mul c.c3840 (o.mul T T))) (omega 1),
        o.mul (o.add (o.sub c.half (o.mul c.c48 T)) (o.mul c.c3840 (o.mul T T))) (omega 2)⟩ := by
      simp only [so3Exp, ← hT, if_pos hlt]
    rw [hq] at fw fx fy fz ⊢
    simp only at fw fx fy fz ⊢
    obtain ⟨fm, _, _⟩ := hc.mul _ _ fx
    obtain ⟨fa, fp2, em⟩ := hc.add _ _ fm
    obtain ⟨_, fp1, ea⟩ := hc.sub _ _ fa
    obtain ⟨_, fT, ep1⟩ := hc.mul _ _ fp1
    obtain ⟨_, ftq, ep2⟩ := hc.mul _ _ fp2
    obtain ⟨_, _, etq⟩ := hc.mul _ _ ftq
    obtain ⟨fb, fp3, ew⟩ := hc.add _ _ fw
    obtain ⟨_, fp8, eb⟩ := hc.sub _ _ fb
    obtain ⟨_, _, ep8⟩ := hc.mul _ _ fp8
    obtain ⟨_, _, ep3⟩ := hc.mul _ _ fp3
    have ht := hdot fT
    have hts : val T ≤ 11 / 10 ^ 11 := by
      have h1 := (hc.lt _ _ fT hc.small.1).1 hlt
      have h2 := (abs_le.1 hc.small.2).2
      linarith
    have hη3 : η ≤ 1 / 10 ^ 36 := by linarith
    have hW2 : W ^ 2 ≤ 12 / 10 ^ 11 := by
      have h1 := (abs_le.1 ht).1
      have h2 : 3 * ε * W ^ 2 ≤ 3 * (1 / 10 ^ 6) * W ^ 2 := mul_le_mul_of_nonneg_right (by linarith) (sq_nonneg W)
      linarith
    have hW1 : W ≤ 11 / 10 ^ 6 := (abs_le_of_sq_le_sq' (by linarith) (by norm_num)).2
    have htW : |val T - W ^ 2| ≤ ε / 10 ^ 9 := by
      have h2 : 3 * ε * W ^ 2 ≤ 3 * ε * (12 / 10 ^ 11) := mul_le_mul_of_nonneg_left hW2 (by linarith)
      linarith
    obtain ⟨tw1, tw2⟩ := abs_le.1 htW
    have htabs : |val T| ≤ 2 / 10 ^ 10 := by
      rw [abs_le]
      constructor <;> linarith [sq_nonneg W]
    have l3840 : |val c.c3840| ≤ 1 / 40 := literal_le hc.c3840 (by norm_num) (by linarith)
    have l384 : |val c.c384| ≤ 1 / 100 := literal_le hc.c384 (by norm_num) (by linarith)
    have btq := product_le hu0 htabs htabs etq
    have btq' : |val (o.mul T T)| ≤ 5 / 10 ^ 20 + η := by linarith
    have b2 := product_le hu0 l3840 btq' ep2
    have b3 := product_le hu0 l384 btq' ep3
    have uη : u * η ≤ η / 1000 := by linarith [mul_le_mul_of_nonneg_right hu' hη0]
    have b2' : |val (o.mul c.c3840 (o.mul T T))| ≤ 1 / 10 ^ 20 + 2 * η := by linarith
    have b3' : |val (o.mul c.c384 (o.mul T T))| ≤ 1 / 10 ^ 20 + 2 * η := by linarith
    rw [hc.half] at ea
    rw [hc.one] at eb
    have hm := poly_close hu0 hu' hη' (by rw [abs_of_pos] <;> norm_num) (by norm_num) (by norm_num) htabs hc.c48 ep1 ea b2' em
    have hw := poly_close hu0 hu' hη' (by rw [abs_of_pos] <;> norm_num) (by norm_num) (by norm_num) htabs hc.c8 ep8 eb b3' ew
    generalize val (o.add (o.sub c.one (o.mul c.c8 T)) (o.mul c.c384 (o.mul T T))) = w at hw ⊢
    have hx1 : |W / 2| ≤ 1 := by rw [abs_of_nonneg (by linarith)]; linarith
    have hx4 : |W / 2| ^ 4 * (5 / 96) ≤ 1 / 10 ^ 22 := by
      have e : |W / 2| ^ 4 = (W ^ 2) ^ 2 / 16 := by rw [abs_of_nonneg (by linarith)]; ring
      rw [e]
      have := pow_le_pow_left₀ (sq_nonneg W) hW2 2
      linarith
    have hx5 : |W / 2| ^ 5 / 100 ≤ |W / 2| ^ 4 * (5 / 96) := by
      have h1 : |W / 2| ^ 4 * |W / 2| ≤ |W / 2| ^ 4 * 1 := mul_le_mul_of_nonneg_left hx1 (by positivity)
      have h2 : 0 ≤ |W / 2| ^ 4 := by positivity
      rw [pow_succ]
      linarith
    have hsin := ((Real.sin_bound hx1).trans hx5).trans hx4
    have hcos := (Real.cos_bound hx1).trans hx4
    rw [← hk] at hsin
    have hm2 : |val (o.add (o.sub c.half (o.mul c.c48 T)) (o.mul c.c3840 (o.mul T T))) * W - (1 / 2 - 1 / 48 * val T) * W| ≤ 5 * ε + 3 * η + 1 / 10 ^ 20 := by
      rw [← sub_mul, abs_mul, abs_of_nonneg hW]
      calc _ ≤ (5 * u + 3 * η + 1 / 10 ^ 20) * 1 := mul_le_mul hm (by linarith) hW (by positivity)
        _ ≤ _ := by linarith
    have hT3 : |(1 / 2 - 1 / 48 * val T) * W - (W / 2 - (W / 2) ^ 3 / 6)| ≤ ε := by
      have e : (1 / 2 - 1 / 48 * val T) * W - (W / 2 - (W / 2) ^ 3 / 6) = -(1 / 48 * (val T - W ^ 2) * W) := by ring
      rw [e, abs_neg, abs_mul, abs_of_nonneg hW]
      have h1 : |1 / 48 * (val T - W ^ 2)| ≤ ε := by
        rw [abs_le]
        constructor <;> linarith
      calc _ ≤ ε * 1 := mul_le_mul h1 (by linarith) hW hε
        _ = ε := mul_one _
    obtain ⟨a1, a2⟩ := abs_le.1 hm2
    obtain ⟨a3, a4⟩ := abs_le.1 hT3
    obtain ⟨a5, a6⟩ := abs_le.1 hsin
    obtain ⟨a7, a8⟩ := abs_le.1 hcos
    obtain ⟨a9, a10⟩ := abs_le.1 hw
    have hq3 : |val (o.add (o.sub c.half (o.mul c.c48 T)) (o.mul c.c3840 (o.mul T T))) * W - k * W| ≤ 30 * ε + 2 / 10 ^ 20 := by
      rw [abs_le]
      constructor <;> linarith
    have hq4 : |val (o.add (o.sub c.half (o.mul c.c48 T)) (o.mul c.c3840 (o.mul T T))) * W| ≤ 2 := by
      have h5 : |k * W| ≤ 1 := by rw [hk]; exact Real.abs_sin_le_one _
      obtain ⟨b1, b2⟩ := abs_le.1 h5
      obtain ⟨b3, b4⟩ := abs_le.1 hq3
      rw [abs_le]
      constructor <;> linarith
    refine ⟨?_, comp _ _ fx hq3 hq4, comp _ _ fy hq3 hq4, comp _ _ fz hq3 hq4⟩
    rw [abs_le]
    constructor <;> linarith [show (W / 2) ^ 2 / 2 = W ^ 2 / 8 by ring]
  · have hq : so3Exp o c omega = ⟨c.cos (o.mul c.half (c.sqrt T)), o.mul (o.div (c.sin (o.mul c.half (c.sqrt T))) (c.sqrt T)) (omega 0),
        o.mul (o.div (c.sin (o.mul c.half (c.sqrt T))) (c.sqrt T)) (omega 1), o.mul (o.div (c.sin (o.mul c.half (c.sqrt T))) (c.sqrt T)) (omega 2)⟩ := by
      simp only [so3Exp, ← hT, if_neg hlt]
    rw [hq] at fw fx fy fz ⊢
    simp only at fw fx fy fz ⊢
    obtain ⟨fm, _, _⟩ := hc.mul _ _ fx
    obtain ⟨fs, hdiv⟩ := hc.div _ _ fm
    obtain ⟨fh, es⟩ := hc.sin _ fs
    obtain ⟨_, fr, eh⟩ := hc.mul _ _ fh
    obtain ⟨_, em⟩ := hdiv fr
    obtain ⟨fT, hT0, er⟩ := hc.sqrt _ fr
    obtain ⟨_, ew⟩ := hc.cos _ fw
    have ht := hdot fT
    have hts : 9 / 10 ^ 11 ≤ val T := by
      have h1 : ¬ val T < val c.small := fun h => hlt ((hc.lt _ _ fT hc.small.1).2 h)
      have h2 := (abs_le.1 hc.small.2).1
      linarith
    have er' : |val (c.sqrt T) - Real.sqrt (val T)| ≤ ε * Real.sqrt (val T) := er.trans (mul_le_mul_of_nonneg_right hu (Real.sqrt_nonneg _))
    obtain ⟨hWp, hW2, _, hrW⟩ := angle_close hε hε' hW (by norm_num) hts (by linarith) ht er'
    rw [hc.half] at eh
    set r := val (c.sqrt T) with hr
    set h := val (o.mul c.half (c.sqrt T)) with hh
    set s := val (c.sin (o.mul c.half (c.sqrt T))) with hs
    set m := val (o.div (c.sin (o.mul c.half (c.sqrt T))) (c.sqrt T)) with hm
    have hεW : ε * W ≤ ε * 4 := mul_le_mul_of_nonneg_left hW4 hε
    obtain ⟨r1, r2⟩ := abs_le.1 hrW
    have hr0 : |1 / 2 * r| ≤ 3 := by rw [abs_le]; constructor <;> linarith
    have hh1 : |h - W / 2| ≤ 16 * ε := by
      have h1 := mul_le_mul hu hr0 (abs_nonneg _) hε
      obtain ⟨x1, x2⟩ := abs_le.1 (eh.trans (add_le_add_left h1 η))
      rw [abs_le]
      constructor <;> linarith
    have hs1 : |s - Real.sin (W / 2)| ≤ 17 * ε := by
      have e : s - Real.sin (W / 2) = (s - Real.sin h) + (Real.sin h - Real.sin (W / 2)) := by ring
      rw [e]
      refine (abs_add_le _ _).trans ?_
      linarith [Real.abs_sin_sub_sin_le h (W / 2)]
    have hw1 : |val (c.cos (o.mul c.half (c.sqrt T))) - Real.cos (W / 2)| ≤ 17 * ε := by
      have e : val (c.cos (o.mul c.half (c.sqrt T))) - Real.cos (W / 2) = (val (c.cos (o.mul c.half (c.sqrt T))) - Real.cos h) + (Real.cos h - Real.cos (W / 2)) := by ring
      rw [e]
      refine (abs_add_le _ _).trans ?_
      linarith [Real.abs_cos_sub_cos_le h (W / 2)]
    have hs2 : |s| ≤ 11 / 10 := by
      have e : s = (s - Real.sin (W / 2)) + Real.sin (W / 2) := by ring
      rw [e]
      refine (abs_add_le _ _).trans ?_
      linarith [Real.abs_sin_le_one (W / 2)]
    have em' : |m - s / r| ≤ ε * |s / r| + η := em.trans (add_le_add_left (mul_le_mul_of_nonneg_right hu (abs_nonneg _)) η)
    have hq2 := quot_close hε hWp (by linarith) hrW hs1 hs2 em'
    have hηW : η * W ≤ ε := by
      have := mul_le_mul_of_nonneg_left hW4 hη0
      linarith
    rw [← hk] at hq2
    have hq3 : |m * W - k * W| ≤ 30 * ε + 2 / 10 ^ 20 := by
      refine hq2.trans ?_
      linarith
    have hq4 : |m * W| ≤ 2 := by
      have e : m * W = (m * W - k * W) + k * W := by ring
      rw [e]
      refine (abs_add_le _ _).trans ?_
      have h5 : |k * W| ≤ 1 := by rw [hk]; exact Real.abs_sin_le_one _
      linarith
    exact ⟨hw1.trans (by linarith), comp _ _ fx hq3 hq4, comp _ _ fy hq3 hq4, comp _ _ fz hq3 hq4⟩

/-- Matrices of quaternions that are close to each other. -/
theorem quat_lipschitz {q p : Lie.Quat} {d : ℝ} (hd : d ≤ 1 / 10) (hw : |q.w - p.w| ≤ d) (hx : |q.x - p.x| ≤ d) (hy : |q.y - p.y| ≤ d) (hz : |q.z - p.z| ≤ d) (pw : |p.w| ≤ 1) (px : |p.x| ≤ 1) (py : |p.y| ≤ 1)
    (pz : |p.z| ≤ 1) (i j : Fin 3) : |q.toRotationMatrix i j - p.toRotationMatrix i j| ≤ 10 * d := by
  have prod : ∀ {a b a' b' : ℝ}, |a - a'| ≤ d → |b - b'| ≤ d → |a'| ≤ 1 → |b'| ≤ 1 → |2 * a * b - 2 * a' * b'| ≤ 5 * d := by
    intro a b a' b' h1 h2 h3 h4
    have hd0 : 0 ≤ d := (abs_nonneg _).trans h1
    have e : 2 * a * b - 2 * a' * b' = 2 * ((a - a') * (b - b') + (a - a') * b' + a' * (b - b')) := by ring
    rw [e, abs_mul, abs_two]
    have g1 : |(a - a') * (b - b')| ≤ d * d := by rw [abs_mul]; exact mul_le_mul h1 h2 (abs_nonneg _) hd0
    have g2 : |(a - a') * b'| ≤ d * 1 := by rw [abs_mul]; exact mul_le_mul h1 h4 (abs_nonneg _) hd0
    have g3 : |a' * (b - b')| ≤ 1 * d := by rw [abs_mul]; exact mul_le_mul h3 h2 (abs_nonneg _) (by norm_num)
    have g4 := abs_add_le ((a - a') * (b - b') + (a - a') * b') (a' * (b - b'))
    have g5 := abs_add_le ((a - a') * (b - b')) ((a - a') * b')
    nlinarith
  have sum : ∀ {a b a' b' : ℝ}, |a - a'| ≤ 5 * d → |b - b'| ≤ 5 * d → |(a + b) - (a' + b')| ≤ 10 * d := by
    intro a b a' b' h1 h2
    have e : (a + b) - (a' + b') = (a - a') + (b - b') := by ring
    rw [e]
    exact (abs_add_le _ _).trans (by linarith)
  have dif : ∀ {a b a' b' : ℝ}, |a - a'| ≤ 5 * d → |b - b'| ≤ 5 * d → |(a - b) - (a' - b')| ≤ 10 * d := by
    intro a b a' b' h1 h2
    have e : (a - b) - (a' - b') = (a - a') - (b - b') := by ring
    rw [e]
    exact (abs_sub _ _).trans (by linarith)
  have dia : ∀ {a b a' b' : ℝ}, |a - a'| ≤ 5 * d → |b - b'| ≤ 5 * d → |(1 - (a + b)) - (1 - (a' + b'))| ≤ 10 * d := by
    intro a b a' b' h1 h2
    have e : (1 - (a + b)) - (1 - (a' + b')) = -((a + b) - (a' + b')) := by ring
    rw [e, abs_neg]
    exact sum h1 h2
  fin_cases i <;> fin_cases j <;> simp only [Lie.Quat.toRotationMatrix, of_apply, cons_val_zero, cons_val_one, cons_val, cons_val', Fin.zero_eta, Fin.mk_one, Fin.isValue, Fin.reduceFinMk]
  · exact dia (prod hy hy py py) (prod hz hz pz pz)
  · exact dif (prod hy hx py px) (prod hz hw pz pw)
  · exact sum (prod hz hx pz px) (prod hy hw py pw)
  · exact sum (prod hy hx py px) (prod hz hw pz pw)
  · exact dia (prod hx hx px px) (prod hz hz pz pz)
  · exact dif (prod hz hy pz py) (prod hx hw px pw)
  · exact dif (prod hz hx pz px) (prod hy hw py pw)
  · exact sum (prod hz hy pz py) (prod hx hw px pw)
  · exact dia (prod hx hx px px) (prod hy hy py py)

open Verif.Lie (rot tra)
open NormedSpace (exp)

/-- The exact rotation and translation of a twist. -/
theorem exp_entries (a : Fin 6 → ℝ) {k : ℝ} (hk : k * len (rot a) = Real.sin (len (rot a) / 2)) (i j : Fin 3) :
    exp (twistMatrix a) i.castSucc j.castSucc = (Lie.Quat.mk (Real.cos (len (rot a) / 2)) (k * a 0) (k * a 1) (k * a 2)).toRotationMatrix i j ∧
    exp (twistMatrix a) i.castSucc 3 = ((1 + ((1 - Real.cos (len (rot a))) / len (rot a) ^ 2) • skew (rot a) + ((len (rot a) - Real.sin (len (rot a))) / len (rot a) ^ 3) • (skew (rot a) * skew (rot a))) *ᵥ tra a) i := by
  set W := len (rot a) with hWd
  have hsq : W ^ 2 = rot a ⬝ᵥ rot a := len_sq _
  have hW0 : 0 ≤ W := len_nonneg _
  rcases hW0.eq_or_lt with h0 | hpos
  · have hr : rot a = 0 := by
      rw [← h0] at hsq
      exact rot_zero_of_not_pos (by rw [← hsq]; norm_num)
    have e0 : a 0 = 0 := congrFun hr 0
    have e1 : a 1 = 0 := congrFun hr 1
    have e2 : a 2 = 0 := congrFun hr 2
    rw [← twist_translation a hr, ← h0, hr, e0, e1, e2]
    have hz : skew (0 : Fin 3 → ℝ) = 0 := by
      ext i j
      fin_cases i <;> fin_cases j <;> simp [skew]
    rw [hz]
    constructor
    · fin_cases i <;> fin_cases j <;> simp [Pose.matrix, Lie.Quat.toRotationMatrix]
    · fin_cases i <;> simp [Pose.matrix, tra]
  · have hp : 0 < rot a ⬝ᵥ rot a := by rw [← hsq]; positivity
    rw [← closedPose_exp a hp]
    have hsqrt : Real.sqrt (rot a ⬝ᵥ rot a) = W := rfl
    have hk' : k = Real.sin (W / 2) / W := by field_simp; exact hk
    have e1 : Real.sin W = 2 * Real.sin (W / 2) * Real.cos (W / 2) := by
      rw [← Real.sin_two_mul]; congr 1; ring
    have e2 : 1 - Real.cos W = 2 * Real.sin (W / 2) ^ 2 := by
      have : Real.cos W = 1 - 2 * Real.sin (W / 2) ^ 2 := by
        rw [← Real.cos_two_mul_eq_one_sub]; congr 1; ring
      linarith
    constructor
    · have hR : (closedPose a).R = (Lie.Quat.mk (Real.cos (W / 2)) (k * a 0) (k * a 1) (k * a 2)).toRotationMatrix := by
        unfold closedPose
        simp only [hsqrt]
        simp only [← hsq]
        rw [e1, e2, hk']
        generalize Real.sin (W / 2) = S
        generalize Real.cos (W / 2) = C
        ext i j
        fin_cases i <;> fin_cases j <;>
          simp [Lie.Quat.toRotationMatrix, skew, rot, Matrix.mul_apply, Fin.sum_univ_three] <;> field_simp
        all_goals ring
      rw [← hR]
      fin_cases i <;> fin_cases j <;> rfl
    · have ht : (closedPose a).t = (1 + ((1 - Real.cos W) / W ^ 2) • skew (rot a) + ((W - Real.sin W) / W ^ 3) • (skew (rot a) * skew (rot a))) *ᵥ tra a := by
        unfold closedPose
        simp only [hsqrt]
        simp only [← hsq]
        rw [smul_mul_assoc, ← pow_succ]
      rw [← ht]
      fin_cases i <;> rfl

/-- The rotation that `se3_exp` computes is the exponential of the twist up to rounding. -/
theorem C108_rotation (hc : TrigAccuracy o c finite val u γ η ζ) (hu : u ≤ ε) (hγ : γ ≤ 3 * ε) (hη : η ≤ ε / 10 ^ 30) (hε' : ε ≤ 1 / 10 ^ 6) (t : (Fin 6 → V) → Fin 3 → V) (a : Fin 6 → V)
    (hf : RotationFinite finite (se3Exp o c t a)) (hW : len (rot fun i => val (a i)) ≤ 4) (i j : Fin 3) :
    |val ((se3Exp o c t a).R i j) - exp (twistMatrix fun i => val (a i)) i.castSucc j.castSucc| ≤ 440 * ε + 1 / 10 ^ 17 := by
  have h01 : finite _ := hf 0 1
  have h11 : finite _ := hf 1 1
  simp only [se3Exp, toRotation] at h01 h11
  obtain ⟨g1, g2, _⟩ := hc.sub _ _ h01
  obtain ⟨g3, fx, _⟩ := hc.mul _ _ g1
  obtain ⟨_, fy, _⟩ := hc.mul _ _ g3
  obtain ⟨g4, fw, _⟩ := hc.mul _ _ g2
  obtain ⟨_, fz, _⟩ := hc.mul _ _ g4
  have hε : 0 ≤ ε := hc.u_nonneg.trans hu
  have hrot : (fun i => val ((![a 0, a 1, a 2] : Fin 3 → V) i)) = rot fun i => val (a i) := by
    funext i
    fin_cases i <;> rfl
  obtain ⟨k, hk⟩ : ∃ k : ℝ, k * len (rot fun i => val (a i)) = Real.sin (len (rot fun i => val (a i)) / 2) := by
    by_cases h0 : len (rot fun i => val (a i)) = 0
    · exact ⟨0, by rw [h0]; simp⟩
    · exact ⟨Real.sin (len (rot fun i => val (a i)) / 2) / len (rot fun i => val (a i)), by field_simp⟩
  obtain ⟨v1, v2, v3, v4⟩ := so3_value hc hu hγ hη hε' _ fw fx fy fz (by rw [hrot]; exact hW) (k := k) (by rw [hrot]; exact hk)
  rw [hrot] at v1
  rw [(exp_entries _ hk i j).1]
  simp only [cons_val_zero, cons_val_one, cons_val] at v2 v3 v4
  set W := len (rot fun i => val (a i)) with hWd
  have hW0 : 0 ≤ W := len_nonneg _
  have hWsq : W ^ 2 = val (a 0) * val (a 0) + val (a 1) * val (a 1) + val (a 2) * val (a 2) := by
    rw [hWd, len_sq]
    simp [dotProduct, Fin.sum_univ_three, rot]
  have hkw : ∀ x : ℝ, x ^ 2 ≤ W ^ 2 → |k * x| ≤ 1 := by
    intro x hx
    have h1 : |x| ≤ W := abs_le_of_sq_le_sq hx hW0
    have h2 : |k * W| ≤ 1 := by rw [hk]; exact Real.abs_sin_le_one _
    rw [abs_mul]
    rw [abs_mul, abs_of_nonneg hW0] at h2
    exact (mul_le_mul_of_nonneg_left h1 (abs_nonneg _)).trans h2
  have b0 := hkw (val (a 0)) (by nlinarith [mul_self_nonneg (val (a 1)), mul_self_nonneg (val (a 2))])
  have b1 := hkw (val (a 1)) (by nlinarith [mul_self_nonneg (val (a 0)), mul_self_nonneg (val (a 2))])
  have b2 := hkw (val (a 2)) (by nlinarith [mul_self_nonneg (val (a 1)), mul_self_nonneg (val (a 0))])
  have bw := Real.abs_cos_le_one (W / 2)
  have big : ∀ {x y : ℝ}, |x - y| ≤ 40 * ε + 1 / 10 ^ 19 → |y| ≤ 1 → |x| ≤ 5 / 4 := by
    intro x y h1 h2
    have e : x = (x - y) + y := by ring
    rw [e]
    exact (abs_add_le _ _).trans (by linarith)
  have hcl := toRotation_close hc (q := so3Exp o c ![a 0, a 1, a 2]) (big v1 bw) (big v2 b0) (big v3 b1) (big v4 b2) hf i j
  have hlip := quat_lipschitz (q := ⟨val (so3Exp o c ![a 0, a 1, a 2]).w, val (so3Exp o c ![a 0, a 1, a 2]).x, val (so3Exp o c ![a 0, a 1, a 2]).y, val (so3Exp o c ![a 0, a 1, a 2]).z⟩)
    (p := ⟨Real.cos (W / 2), k * val (a 0), k * val (a 1), k * val (a 2)⟩) (d := 40 * ε + 1 / 10 ^ 19) (by linarith) v1 v2 v3 v4 bw b0 b1 b2 i j
  have e : val ((se3Exp o c t a).R i j) - (Lie.Quat.mk (Real.cos (W / 2)) (k * val (a 0)) (k * val (a 1)) (k * val (a 2))).toRotationMatrix i j =
      (val (toRotation o c (so3Exp o c ![a 0, a 1, a 2]) i j) - (Lie.Quat.mk (val (so3Exp o c ![a 0, a 1, a 2]).w) (val (so3Exp o c ![a 0, a 1, a 2]).x) (val (so3Exp o c ![a 0, a 1, a 2]).y)
        (val (so3Exp o c ![a 0, a 1, a 2]).z)).toRotationMatrix i j) + ((Lie.Quat.mk (val (so3Exp o c ![a 0, a 1, a 2]).w) (val (so3Exp o c ![a 0, a 1, a 2]).x) (val (so3Exp o c ![a 0, a 1, a 2]).y)
        (val (so3Exp o c ![a 0, a 1, a 2]).z)).toRotationMatrix i j - (Lie.Quat.mk (Real.cos (W / 2)) (k * val (a 0)) (k * val (a 1)) (k * val (a 2))).toRotationMatrix i j) := by
    simp only [se3Exp]
    ring
  rw [e]
  refine (abs_add_le _ _).trans ?_
  linarith

end Value

end Verif.Props
