import Verif.Props.OptimizerMachine
import Verif.Props.NanSource
import Verif.Props.ReductionRounding
import Verif.Props.Rounding
import Verif.Proofs.RegistrationMemory
import Verif.Spec.RegistrationMemory

/-!
C99: Levenberg-Marquardt with point-to-point ICP does not increase the truncated cost, in machine arithmetic, up to explicit rounding errors.
-/

set_option linter.unusedSectionVars false
set_option linter.unusedSimpArgs false
set_option linter.unnecessarySeqFocus false

namespace Verif.Spec

open Matrix Verif Verif.Knn Verif.Factors Verif.Machine

/-- What point-to-point ICP with a distance gate minimises: half the squared distance of every transformed source point to the target, where no point counts more than the gate. -/
noncomputable def truncatedCost (tgt src : List (Fin 4 → ℝ)) (gate : ℝ) (T : Pose ℝ) : ℝ :=
  (src.map fun p => ((tgt.map fun q => dist2 q (T.apply p)).foldr min gate) / 2).sum

variable {V P H B M : Type} [LinearOrder V] [Zero V] [Add V] [Sub V]

/-- Values of a point. -/
def vals (val : V → ℝ) (p : Fin 4 → V) : Fin 4 → ℝ := fun j => val (p j)

/-- A transformed point and all sums on the way to it stay within `Z`. -/
def Reach (val : V → ℝ) (T : Pose ℝ) (Z : ℝ) (p : Fin 4 → V) : Prop := ∀ j, ∑ k, |T.matrix j k| * |val (p k)| ≤ Z

/-- Finite machine numbers with values `val`: comparisons are those of the values; sums, differences and products are the rounded exact ones (`Rounding`: monotone, odd, idempotent); sums and differences
up to `big` have the relative error `u` at most. The squared distance of the kd-tree is at least each rounded square (see `sqNorm_sequential`, `sqNorm_pairwise`, `sqNorm_fma`). -/
structure FiniteArith (E : Eval V P H B M) (val : V → ℝ) (rnd : ℝ → ℝ) (u big : ℝ) : Prop where
  u_nonneg : 0 ≤ u
  rounding : Verif.Props.Rounding rnd
  le : ∀ a b, a ≤ b ↔ val a ≤ val b
  zero : val 0 = 0
  exact : ∀ a, rnd (val a) = val a
  add : ∀ a b, val (a + b) = rnd (val a + val b)
  sub : ∀ a b, val (a - b) = rnd (val a - val b)
  opsZero : E.ops.zero = 0
  opsSub : ∀ a b, E.ops.sub a b = a - b
  opsMul : ∀ a b, val (E.ops.mul a b) = rnd (val a * val b)
  relAdd : ∀ a b, |val a + val b| ≤ big → |rnd (val a + val b) - (val a + val b)| ≤ u * |val a + val b|
  relSub : ∀ a b, |val a - val b| ≤ big → |rnd (val a - val b) - (val a - val b)| ≤ u * |val a - val b|
  sqX : ∀ a b c d, rnd (val a * val a) ≤ val (E.ops.sqNorm4 a b c d)
  sqY : ∀ a b c d, rnd (val b * val b) ≤ val (E.ops.sqNorm4 a b c d)
  sqZ : ∀ a b c d, rnd (val c * val c) ≤ val (E.ops.sqNorm4 a b c d)

/-- Accuracy of the expressions of the ICP factor within reach `Z`: transformed points have an error of at most `γ Z`, squared norms a relative error of at most `γ` and an absolute one of at most `lam`
(from underflow), and so has halving the latter. These are the usual bounds of a sum of four products, whatever the order and with or without fused operations. `pose` is the value of a pose. -/
structure IcpAccuracy (E : Eval V P H B M) (val : V → ℝ) (pose : P → Pose ℝ) (γ lam Z : ℝ) : Prop where
  gamma_nonneg : 0 ≤ γ
  lam_nonneg : 0 ≤ lam
  apply : ∀ T p, Reach val (pose T) Z p → ∀ j, |val (E.apply T p j) - (pose T).apply (vals val p) j| ≤ γ * Z
  sqNorm : ∀ r, (∀ j, |val (r j)| ≤ 3 * Z) → |val (E.sqNorm r) - ∑ j, val (r j) ^ 2| ≤ γ * ∑ j, val (r j) ^ 2 + lam
  sqNorm4 : ∀ r : Fin 4 → V, (∀ j, |val (r j)| ≤ 3 * Z) → |val (E.ops.sqNorm4 (r 0) (r 1) (r 2) (r 3)) - ∑ j, val (r j) ^ 2| ≤ γ * ∑ j, val (r j) ^ 2 + lam
  half : ∀ x, |val (E.half x) - val x / 2| ≤ lam

/-- Absolute error of a term, if a relative error of `ε` is conceded: it goes with the square of the error of a coordinate. -/
noncomputable def icpSlack (γ u lam Z ε : ℝ) : ℝ := 24 * ((γ + 3 * u) * Z) ^ 2 / ε + 2 * lam

/-- Clouds and numbers of a registration: the points of the clouds are `tp` and `sp`, those of the target lie within reach, a relative error of `ε` is conceded, and neither a term nor the sum of all of
them gets out of range. -/
structure IcpInputs (E : Eval V P H B M) (val : V → ℝ) (pose : P → Pose ℝ) (rnd : ℝ → ℝ) (u big γ lam Z ε : ℝ) (tp sp : List (Fin 4 → V)) (target source : PointCloud.Cloud (Fin 4 → V) M) (gate : V) :
    Prop where
  arith : FiniteArith E val rnd u big
  accuracy : IcpAccuracy E val pose γ lam Z
  Z_nonneg : 0 ≤ Z
  inRange : 3 * Z ≤ big
  eps : 0 < ε
  eps' : ε ≤ 1 / 16
  gamma : γ ≤ ε / 3
  sums : (1 + u) ^ (sp.length + 1) - 1 ≤ ε
  range : (1 + u) ^ sp.length * (sp.length * (9 * Z ^ 2 + icpSlack γ u lam Z ε)) ≤ big
  targetPoints : target.points = tp.map some
  sourcePoints : source.points = sp.map some
  size : tp.length < 2 ^ 32
  near : ∀ q ∈ tp, ∀ j, |val (q j)| ≤ Z
  gate_nonneg : 0 ≤ val gate

end Verif.Spec

namespace Verif.Props

open Matrix Verif Verif.Knn Verif.KdTree Verif.Proofs Verif.Proofs.RegMem Verif.Factors Verif.Reduction Verif.PointCloud Verif.RegMem Verif.Spec

/-! ### One iteration, as an inequality between real numbers -/

/-- What is known of one source point in one iteration: exact squared distances `s0`, `s1` to its partner and computed terms `t0`, `t1` before and after the step, truncated distances `c0`, `c1`. -/
structure PointStep (ε τ G t0 t1 c0 c1 : ℝ) : Prop where
  cases : (∃ s0 s1, 0 ≤ s0 ∧ 0 ≤ s1 ∧ |t0 - s0 / 2| ≤ τ + ε * (s0 / 2) ∧ |t1 - s1 / 2| ≤ τ + ε * (s1 / 2) ∧ (1 - ε) * s0 ≤ (1 + ε) * c0 + 4 * τ ∧ c1 ≤ s1) ∨
    (t0 = 0 ∧ t1 = 0 ∧ G ≤ (1 + ε) * c0 + 2 * τ ∧ c1 ≤ G)

theorem point_step {ε τ G t0 t1 c0 c1 : ℝ} (he : 0 ≤ ε) (he' : ε ≤ 1 / 16) (ht : 0 ≤ τ) (hG : 0 ≤ G) (hc : 0 ≤ c0) (h : PointStep ε τ G t0 t1 c0 c1) :
    (1 - 2 * ε - ε ^ 2) * (c1 / 2) ≤ (t1 - ε * |t1|) - (t0 + ε * |t0|) + (1 - 2 * ε - ε ^ 2) * ((1 + 10 * ε) * (c0 / 2) + 8 * τ) := by
  have ha : 0 < 1 - 2 * ε - ε ^ 2 := by nlinarith
  have ha1 : 1 - 2 * ε - ε ^ 2 ≤ 1 := by nlinarith
  rcases h.cases with ⟨s0, s1, h0, h1, g0, g1, hs, hc1⟩ | ⟨rfl, rfl, hs, hc1⟩
  · have b0 := abs_le.1 g0
    have b1 := abs_le.1 g1
    have m0 : |t0| ≤ (1 + ε) * (s0 / 2) + τ := by rw [abs_le]; constructor <;> nlinarith [mul_nonneg he h0]
    have m1 : |t1| ≤ (1 + ε) * (s1 / 2) + τ := by rw [abs_le]; constructor <;> nlinarith [mul_nonneg he h1]
    have e1 : (1 - 2 * ε - ε ^ 2) * (s1 / 2) - (1 + ε) * τ ≤ t1 - ε * |t1| := by
      have := mul_le_mul_of_nonneg_left m1 he
      nlinarith
    have e0 : t0 + ε * |t0| ≤ (1 + ε) * ((1 + ε) * (s0 / 2) + τ) := by
      have := mul_le_mul_of_nonneg_left m0 he
      nlinarith
    have e2 : (1 - 2 * ε - ε ^ 2) * (c1 / 2) ≤ (1 - 2 * ε - ε ^ 2) * (s1 / 2) := mul_le_mul_of_nonneg_left (by linarith) ha.le
    -- it remains to bound the cost before the step
    have e3 : (1 + ε) * ((1 + ε) * (s0 / 2) + τ) + (1 + ε) * τ ≤ (1 - 2 * ε - ε ^ 2) * ((1 + 10 * ε) * (c0 / 2) + 8 * τ) := by
      have k1 : (1 - ε) * ((1 + ε) * ((1 + ε) * (s0 / 2) + τ) + (1 + ε) * τ) ≤ (1 + ε) ^ 2 * (((1 + ε) * c0 + 4 * τ) / 2) + 2 * (1 - ε) * (1 + ε) * τ := by
        have := mul_le_mul_of_nonneg_left hs (sq_nonneg (1 + ε))
        nlinarith
      have k2 : (1 + ε) ^ 3 ≤ (1 - ε) * ((1 - 2 * ε - ε ^ 2) * (1 + 10 * ε)) := by
        nlinarith [mul_nonneg he he, mul_nonneg (mul_nonneg he he) he, mul_nonneg he (sub_nonneg.2 he'), mul_nonneg (mul_nonneg he he) (sub_nonneg.2 he'), mul_nonneg (mul_nonneg he he) (mul_nonneg he (sub_nonneg.2 he'))]
      have k3 : 2 * (1 + ε) ^ 2 + 2 * (1 - ε) * (1 + ε) ≤ (1 - ε) * ((1 - 2 * ε - ε ^ 2) * 8) := by nlinarith [mul_nonneg he he, mul_nonneg (mul_nonneg he he) he]
      have k4 := mul_le_mul_of_nonneg_right k2 (show 0 ≤ c0 / 2 by linarith)
      have k5 := mul_le_mul_of_nonneg_right k3 ht
      have : (1 - ε) * ((1 + ε) * ((1 + ε) * (s0 / 2) + τ) + (1 + ε) * τ) ≤ (1 - ε) * ((1 - 2 * ε - ε ^ 2) * ((1 + 10 * ε) * (c0 / 2) + 8 * τ)) := by nlinarith
      exact le_of_mul_le_mul_left this (by linarith)
    linarith
  · have e2 : (1 - 2 * ε - ε ^ 2) * (c1 / 2) ≤ G / 2 := by
      have := mul_le_mul_of_nonneg_left (show c1 / 2 ≤ G / 2 by linarith) ha.le
      nlinarith
    have k2 : 1 + ε ≤ (1 - 2 * ε - ε ^ 2) * (1 + 10 * ε) := by nlinarith [mul_nonneg he he, mul_nonneg he (sub_nonneg.2 he'), mul_nonneg (mul_nonneg he he) (sub_nonneg.2 he')]
    have k4 := mul_le_mul_of_nonneg_right k2 (show 0 ≤ c0 / 2 by linarith)
    have k3 : 1 ≤ (1 - 2 * ε - ε ^ 2) * 8 := by nlinarith
    have k5 := mul_le_mul_of_nonneg_right k3 ht
    simp only [abs_zero, mul_zero, add_zero, sub_zero, zero_add]
    nlinarith

/-- The step of the whole cloud. -/
theorem cloud_step {ε τ G : ℝ} (he : 0 ≤ ε) (he' : ε ≤ 1 / 16) (ht : 0 ≤ τ) (hG : 0 ≤ G) (N : ℕ) (t0 t1 c0 c1 : ℕ → ℝ) (hc : ∀ i < N, 0 ≤ c0 i) (h : ∀ i < N, PointStep ε τ G (t0 i) (t1 i) (c0 i) (c1 i))
    {e0 e1 : ℝ} (h0 : |e0 - ∑ i ∈ Finset.range N, t0 i| ≤ ε * ∑ i ∈ Finset.range N, |t0 i|) (h1 : |e1 - ∑ i ∈ Finset.range N, t1 i| ≤ ε * ∑ i ∈ Finset.range N, |t1 i|) (hle : e1 ≤ e0) :
    ∑ i ∈ Finset.range N, c1 i / 2 ≤ (1 + 10 * ε) * ∑ i ∈ Finset.range N, c0 i / 2 + 8 * N * τ := by
  have ha : 0 < 1 - 2 * ε - ε ^ 2 := by nlinarith
  have hs := Finset.sum_le_sum fun i (hi : i ∈ Finset.range N) => point_step he he' ht hG (hc i (Finset.mem_range.1 hi)) (h i (Finset.mem_range.1 hi))
  rw [← Finset.mul_sum, Finset.sum_add_distrib, Finset.sum_sub_distrib, Finset.sum_sub_distrib, Finset.sum_add_distrib, ← Finset.mul_sum, ← Finset.mul_sum, ← Finset.mul_sum, Finset.sum_add_distrib,
    ← Finset.mul_sum, Finset.sum_const, Finset.card_range, nsmul_eq_mul] at hs
  have g0 := abs_le.1 h0
  have g1 := abs_le.1 h1
  have : (1 - 2 * ε - ε ^ 2) * ∑ i ∈ Finset.range N, c1 i / 2 ≤ (1 - 2 * ε - ε ^ 2) * ((1 + 10 * ε) * ∑ i ∈ Finset.range N, c0 i / 2 + 8 * N * τ) := by
    nlinarith
  exact le_of_mul_le_mul_left this ha

/-! ### Terms and distances -/

section Terms

variable {V P H B M : Type} [LinearOrder V] [Zero V] [Add V] [Sub V] {E : Machine.Eval V P H B M} {val : V → ℝ} {rnd : ℝ → ℝ} {u big : ℝ} {pose : P → Pose ℝ} {γ lam Z : ℝ}

theorem apply_le {T : Pose ℝ} {p : Fin 4 → V} (h : Reach val T Z p) (j : Fin 4) : |T.apply (vals val p) j| ≤ Z := by
  refine le_trans ?_ (h j)
  unfold Pose.apply Matrix.mulVec dotProduct
  refine (Finset.abs_sum_le_sum_abs _ _).trans (le_of_eq (Finset.sum_congr rfl fun k _ => abs_mul _ _))

/-- Absolute error of the coordinates of a residual, as a multiple of the reach. -/
theorem residual_error (hA : FiniteArith E val rnd u big) (hI : IcpAccuracy E val pose γ lam Z) (hZ : 0 ≤ Z) (hbig : 3 * Z ≤ big) (hg : γ ≤ 1 / 16) (hu : u ≤ 1 / 16) {T : P} {p q : Fin 4 → V}
    (hp : Reach val (pose T) Z p) (hq : ∀ j, |val (q j)| ≤ Z) (j : Fin 4) :
    |val (q j - E.apply T p j) - (vals val q - (pose T).apply (vals val p)) j| ≤ (γ + 3 * u) * Z ∧ |val (q j - E.apply T p j)| ≤ 3 * Z := by
  have h1 := hI.apply T p hp j
  have h2 := apply_le hp j
  have h3 := hq j
  have hg0 := hI.gamma_nonneg
  have hu0 := hA.u_nonneg
  simp only [abs_le] at h1 h2 h3
  have hgz : γ * Z ≤ 1 / 16 * Z := mul_le_mul_of_nonneg_right hg hZ
  have hd : |val (q j) - val (E.apply T p j)| ≤ 33 / 16 * Z := by rw [abs_le]; constructor <;> linarith
  have hr := hA.relSub (q j) (E.apply T p j) (by linarith)
  rw [hA.sub]
  have hr' : |rnd (val (q j) - val (E.apply T p j)) - (val (q j) - val (E.apply T p j))| ≤ 3 * u * Z := by
    have := mul_le_mul_of_nonneg_left hd hu0
    nlinarith [mul_nonneg hu0 hZ]
  have huz : u * Z ≤ 1 / 16 * Z := mul_le_mul_of_nonneg_right hu hZ
  simp only [abs_le] at hd hr' ⊢
  simp only [Pi.sub_apply, vals] at h1 ⊢
  refine ⟨⟨?_, ?_⟩, ⟨?_, ?_⟩⟩ <;> nlinarith

/-- Error of a squared norm computed from inexact coordinates: a small relative error may be traded for a smaller absolute one. -/
theorem sq_error {κ α g l : ℝ} (hκ : 0 < κ) (hκ1 : κ ≤ 1) (hgκ : g ≤ κ) (hg0 : 0 ≤ g) (x y : Fin 4 → ℝ) (h : ∀ j, |x j - y j| ≤ α) {s : ℝ} (hs : |s - ∑ j, x j ^ 2| ≤ g * ∑ j, x j ^ 2 + l) :
    |s - y ⬝ᵥ y| ≤ 3 * κ * (y ⬝ᵥ y) + (16 * α ^ 2 / κ + l) := by
  have hα : 0 ≤ α := (abs_nonneg _).trans (h 0)
  have hy : y ⬝ᵥ y = ∑ j, y j ^ 2 := by simp [dotProduct, sq]
  have hj : ∀ j, |x j ^ 2 - y j ^ 2| ≤ κ * y j ^ 2 + 2 * α ^ 2 / κ := by
    intro j
    have e : x j ^ 2 - y j ^ 2 = (x j - y j) * (x j - y j + 2 * y j) := by ring
    rw [e, abs_mul]
    have h1 : |x j - y j + 2 * y j| ≤ α + 2 * |y j| := (abs_add_le _ _).trans (by rw [abs_mul, abs_two]; linarith [h j])
    have h2 : |x j - y j| * |x j - y j + 2 * y j| ≤ α * (α + 2 * |y j|) := mul_le_mul (h j) h1 (abs_nonneg _) hα
    refine h2.trans ?_
    rw [← sub_nonneg]
    have e2 : κ * y j ^ 2 + 2 * α ^ 2 / κ - α * (α + 2 * |y j|) = ((κ * |y j| - α) ^ 2 + (1 - κ) * α ^ 2) / κ := by
      field_simp
      rw [← sq_abs (y j)]
      ring
    rw [e2]
    exact div_nonneg (add_nonneg (sq_nonneg _) (mul_nonneg (by linarith) (sq_nonneg _))) hκ.le
  have hsum : |∑ j, x j ^ 2 - ∑ j, y j ^ 2| ≤ κ * ∑ j, y j ^ 2 + 8 * α ^ 2 / κ := by
    rw [← Finset.sum_sub_distrib]
    refine (Finset.abs_sum_le_sum_abs _ _).trans ((Finset.sum_le_sum fun j _ => hj j).trans (le_of_eq ?_))
    rw [Finset.sum_add_distrib, ← Finset.mul_sum]
    simp only [Finset.sum_const, Finset.card_univ, Fintype.card_fin, nsmul_eq_mul]
    push_cast
    ring
  rw [hy]
  have hS : 0 ≤ ∑ j, y j ^ 2 := Finset.sum_nonneg fun j _ => sq_nonneg _
  have hq : 0 ≤ α ^ 2 / κ := div_nonneg (sq_nonneg _) hκ.le
  rw [abs_le] at hs hsum ⊢
  have e8 : 8 * α ^ 2 / κ = 8 * (α ^ 2 / κ) := by ring
  have e16 : 16 * α ^ 2 / κ = 16 * (α ^ 2 / κ) := by ring
  rw [e8] at hsum
  rw [e16]
  have hX : ∑ j, x j ^ 2 ≤ (1 + κ) * ∑ j, y j ^ 2 + 8 * (α ^ 2 / κ) := by linarith [hsum.2]
  have hgX : g * ∑ j, x j ^ 2 ≤ κ * ((1 + κ) * ∑ j, y j ^ 2 + 8 * (α ^ 2 / κ)) :=
    (mul_le_mul_of_nonneg_left hX hg0).trans (mul_le_mul_of_nonneg_right hgκ (by positivity))
  have k1 : κ * κ * ∑ j, y j ^ 2 ≤ κ * ∑ j, y j ^ 2 := by
    have := mul_le_mul_of_nonneg_right (mul_le_mul_of_nonneg_left hκ1 hκ.le) hS
    linarith
  have k2 : κ * (8 * (α ^ 2 / κ)) ≤ 8 * (α ^ 2 / κ) := by nlinarith
  constructor <;> nlinarith [hs.1, hs.2, hsum.1, hsum.2]

theorem slack_nonneg (hI : IcpAccuracy E val pose γ lam Z) {ε : ℝ} (he : 0 < ε) : 0 ≤ icpSlack γ u lam Z ε := by
  have := hI.lam_nonneg
  unfold icpSlack
  positivity

theorem dist2_le {x y : Fin 4 → ℝ} (hx : ∀ j, |x j| ≤ Z) (hy : ∀ j, |y j| ≤ Z) : dist2 x y ≤ 16 * Z ^ 2 := by
  have h : ∀ j, (x j - y j) * (x j - y j) ≤ 4 * Z ^ 2 := fun j => by
    have h1 := abs_le.1 (hx j)
    have h2 := abs_le.1 (hy j)
    have : |x j - y j| ≤ 2 * Z := by rw [abs_le]; constructor <;> linarith
    have := mul_self_le_mul_self (abs_nonneg _) this
    rw [abs_mul_abs_self] at this
    linarith
  have := Finset.sum_le_sum fun j (_ : j ∈ Finset.univ) => h j
  simp only [Finset.sum_const, Finset.card_univ, Fintype.card_fin, nsmul_eq_mul] at this
  unfold dist2 dotProduct
  simp only [Pi.sub_apply]
  push_cast at this
  linarith

theorem dist2_nonneg' (x y : Fin 4 → ℝ) : 0 ≤ dist2 x y := by
  unfold dist2 dotProduct
  exact Finset.sum_nonneg fun _ _ => mul_self_nonneg _

section Errors

variable (hA : FiniteArith E val rnd u big) (hI : IcpAccuracy E val pose γ lam Z) (hZ : 0 ≤ Z) (hbig : 3 * Z ≤ big) {ε : ℝ} (he : 0 < ε) (he' : ε ≤ 1 / 16) (hg : γ ≤ ε / 3) (hu : u ≤ ε)
  {T : P} {p q : Fin 4 → V} (hp : Reach val (pose T) Z p) (hq : ∀ j, |val (q j)| ≤ Z)

include hA hI hZ hbig he he' hg hu hp hq

/-- The distance the kd-tree computes. -/
theorem dist_error : |val (Pt.sqDist E.ops (Machine.toPt q) (Machine.toPt (E.apply T p))) - dist2 (vals val q) ((pose T).apply (vals val p))| ≤
    ε * dist2 (vals val q) ((pose T).apply (vals val p)) + 2 * icpSlack γ u lam Z ε := by
  have hr := residual_error hA hI hZ hbig (by linarith) (by linarith) hp hq
  have h := sq_error (κ := ε / 3) (α := (γ + 3 * u) * Z) (g := γ) (l := lam) (by linarith) (by linarith) hg hI.gamma_nonneg (fun j => val (q j - E.apply T p j))
    (vals val q - (pose T).apply (vals val p)) (fun j => (hr j).1) (hI.sqNorm4 (fun j => q j - E.apply T p j) fun j => (hr j).2)
  have e : Pt.sqDist E.ops (Machine.toPt q) (Machine.toPt (E.apply T p)) = E.ops.sqNorm4 (q 0 - E.apply T p 0) (q 1 - E.apply T p 1) (q 2 - E.apply T p 2) (q 3 - E.apply T p 3) := by
    simp only [Pt.sqDist, Machine.toPt, hA.opsSub]
  rw [e]
  refine h.trans ?_
  have hl := hI.lam_nonneg
  have e3 : 16 * ((γ + 3 * u) * Z) ^ 2 / (ε / 3) = 2 * (24 * ((γ + 3 * u) * Z) ^ 2 / ε) := by field_simp; ring
  rw [e3]
  unfold icpSlack dist2
  linarith

/-- The term the factor computes. -/
theorem term_error : |val (E.half (E.sqNorm (q - E.apply T p))) - dist2 (vals val q) ((pose T).apply (vals val p)) / 2| ≤
    icpSlack γ u lam Z ε + ε * (dist2 (vals val q) ((pose T).apply (vals val p)) / 2) := by
  have hr := residual_error hA hI hZ hbig (by linarith) (by linarith) hp hq
  have h := sq_error (κ := ε / 3) (α := (γ + 3 * u) * Z) (g := γ) (l := lam) (by linarith) (by linarith) hg hI.gamma_nonneg (fun j => val (q j - E.apply T p j))
    (vals val q - (pose T).apply (vals val p)) (fun j => (hr j).1) (hI.sqNorm (q - E.apply T p) fun j => (hr j).2)
  have hh := hI.half (E.sqNorm (q - E.apply T p))
  have hl := hI.lam_nonneg
  have e3 : 16 * ((γ + 3 * u) * Z) ^ 2 / (ε / 3) = 2 * (24 * ((γ + 3 * u) * Z) ^ 2 / ε) := by field_simp; ring
  rw [e3] at h
  unfold icpSlack
  change |val (E.sqNorm (q - E.apply T p)) - dist2 (vals val q) ((pose T).apply (vals val p))| ≤ 3 * (ε / 3) * dist2 (vals val q) ((pose T).apply (vals val p)) + _ at h
  rw [abs_le] at h hh ⊢
  constructor <;> linarith

end Errors

/-! ### The search -/

theorem machine_lt (hA : FiniteArith E val rnd u big) {a b : V} : a < b ↔ val a < val b := by rw [← not_le, ← not_le, hA.le]

/-- Pruning with computed distances never loses a point (C08, for numbers that are not a field). -/
theorem pruneOK_machine (hA : FiniteArith E val rnd u big) (points : List (Pt V)) (q : Pt V) :
    ∀ t : KT V, t.Separated E.ops points → t.AllProj (fun p => ∃ a, p = .axis a) → (∀ j ∈ t.items, j < points.length) → PruneOK E.ops points q t
  | .leaf _, _, _, _ => trivial
  | .node p th l r, hsep, hp, hv => by
    have hvl : ∀ j ∈ l.items, j < points.length := fun j hj => hv j (by simp [KT.items, hj])
    have hvr : ∀ j ∈ r.items, j < points.length := fun j hj => hv j (by simp [KT.items, hj])
    obtain ⟨ax, rfl⟩ := hp.1
    have h := hA.rounding
    have cut : val (E.ops.mul (E.ops.sub (Proj.eval E.ops (.axis ax) q) th) (E.ops.sub (Proj.eval E.ops (.axis ax) q) th)) =
        rnd (rnd (val (Proj.eval E.ops (.axis ax) q) - val th) * rnd (val (Proj.eval E.ops (.axis ax) q) - val th)) := by
      rw [hA.opsMul, hA.opsSub, hA.sub]
    have key : ∀ i (hi : i < points.length), |val (Proj.eval E.ops (.axis ax) q) - val th| ≤ |val (Proj.eval E.ops (.axis ax) points[i]) - val (Proj.eval E.ops (.axis ax) q)| →
        E.ops.mul (E.ops.sub (Proj.eval E.ops (.axis ax) q) th) (E.ops.sub (Proj.eval E.ops (.axis ax) q) th) ≤ distTo E.ops points q i := by
      intro i hi hle
      rw [hA.le, cut]
      refine le_trans (rounded_cut_le h hle) ?_
      unfold distTo
      rw [List.getElem?_eq_getElem hi]
      simp only [Pt.sqDist, ← hA.sub]
      cases ax
      · have := hA.sqX (E.ops.sub points[i].x q.x) (E.ops.sub points[i].y q.y) (E.ops.sub points[i].z q.z) (E.ops.sub points[i].w q.w)
        simp only [hA.opsSub] at this ⊢
        exact this
      · have := hA.sqY (E.ops.sub points[i].x q.x) (E.ops.sub points[i].y q.y) (E.ops.sub points[i].z q.z) (E.ops.sub points[i].w q.w)
        simp only [hA.opsSub] at this ⊢
        exact this
      · have := hA.sqZ (E.ops.sub points[i].x q.x) (E.ops.sub points[i].y q.y) (E.ops.sub points[i].z q.z) (E.ops.sub points[i].w q.w)
        simp only [hA.opsSub] at this ⊢
        exact this
    have hzero : ∀ i, i < points.length → 0 ≤ val (distTo E.ops points q i) := by
      intro i hi
      unfold distTo
      rw [List.getElem?_eq_getElem hi]
      exact le_trans (h.nonneg (mul_self_nonneg _)) (hA.sqX _ _ _ _)
    have hlt0 : E.ops.sub (Proj.eval E.ops (.axis ax) q) th < E.ops.zero ↔ rnd (val (Proj.eval E.ops (.axis ax) q) - val th) < 0 := by
      rw [machine_lt hA, hA.opsZero, hA.zero, hA.opsSub, hA.sub]
    refine ⟨?_, ?_, pruneOK_machine hA points q l hsep.2.2.1 hp.2.1 hvl, pruneOK_machine hA points q r hsep.2.2.2 hp.2.2 hvr⟩
    · intro hd i hi
      have hlt := hvr i hi
      have h1 := (hA.le _ _).1 (hsep.2.1 i hi _ (List.getElem?_eq_getElem hlt))
      apply key i hlt
      rw [hlt0] at hd
      have hneg : val (Proj.eval E.ops (.axis ax) q) - val th < 0 := by
        by_contra hcon
        exact absurd hd (not_lt.2 (h.nonneg (not_lt.1 hcon)))
      rw [abs_of_neg hneg, abs_of_nonneg (by linarith)]
      linarith
    · intro hd i hi
      have hlt := hvl i hi
      have h1 := (hA.le _ _).1 (hsep.1 i hi _ (List.getElem?_eq_getElem hlt))
      rw [hlt0] at hd
      by_cases hneg : val (Proj.eval E.ops (.axis ax) q) - val th < 0
      · have hz : rnd (val (Proj.eval E.ops (.axis ax) q) - val th) = 0 := by
          apply le_antisymm
          · have := h.mono _ _ hneg.le; rwa [h.zero] at this
          · exact not_lt.1 hd
        rw [hA.le, cut, hz, mul_zero, h.zero]
        exact hzero i hlt
      · apply key i hlt
        rw [abs_of_nonneg (not_lt.1 hneg), abs_of_nonpos (by linarith [not_lt.1 hneg])]
        linarith

/-- The search of a factor returns a target point whose computed distance is smallest. -/
theorem nearest_rounded (hA : FiniteArith E val rnd u big) (b : KdTree.Builder V) (hnth : NthElementSpec b.nthElement) (hfind : FindAxisSpec (fun p => ∃ a, p = .axis a) b.findAxis)
    (hm : SafeLeafSize b.maxLeafSize) {points : List (Pt V)} (hne : points ≠ []) (hN : points.length < 2 ^ 32) {fuelB fuel : Nat} (hfB : points.length < fuelB) (hfuel : points.length < fuel)
    {t : KdTree.Tree V} (ht : KdTree.construct E.ops b fuelB points = .ok t) {maxD : V} (junk : Nat × V) (q : Fin 4 → V)
    (hmax : ∀ p ∈ points, Pt.sqDist E.ops p (Machine.toPt q) < maxD) :
    ∃ k p, points[k]? = some p ∧ Machine.kdNearest E maxD points t fuel junk q = .ok (some (k, Pt.sqDist E.ops p (Machine.toPt q))) ∧
      ∀ p' ∈ points, Pt.sqDist E.ops p (Machine.toPt q) ≤ Pt.sqDist E.ops p' (Machine.toPt q) := by
  obtain ⟨t', kt, h1, hb, _⟩ := construct_built E.ops b (fun p => ∃ a, p = .axis a) points hne hN hnth hfind hm fuelB hfB
  obtain rfl : t' = t := by rw [h1] at ht; exact Except.ok.inj ht
  have hv : ∀ j ∈ kt.items, j < points.length := fun j hj => List.mem_range.1 (hb.items.mem_iff.1 hj)
  have hpr := pruneOK_machine hA points (Machine.toPt q) kt hb.sep hb.proj hv
  have hget : ∀ i (hi : i < points.length), distTo E.ops points (Machine.toPt q) i = Pt.sqDist E.ops points[i] (Machine.toPt q) := fun i hi => by
    unfold distTo
    rw [List.getElem?_eq_getElem hi]
  have hlt : ∀ i, i < points.length → distTo E.ops points (Machine.toPt q) i < maxD := fun i hi => by rw [hget i hi]; exact hmax _ (List.getElem_mem hi)
  have hnn : ∀ i, i < points.length → 0 ≤ distTo E.ops points (Machine.toPt q) i := by
    intro i hi
    rw [hget i hi, hA.le, hA.zero]
    exact le_trans (hA.rounding.nonneg (mul_self_nonneg _)) (hA.sqX _ _ _ _)
  have h0 : 0 < points.length := List.length_pos_of_ne_nil hne
  obtain ⟨r, L, h2, h3, _, h4⟩ := knnSearch_contract E.ops maxD 0 _ points t' kt 0 hb (Machine.toPt q) hpr hlt ((hnn 0 h0).trans (hlt 0 h0).le) 1 (-1) 1 (by simp) (by omega) (by omega)
    [junk.1] [junk.2] (by simp) (by simp) fuel hfuel
  have hk : IsKnn (distTo E.ops points (Machine.toPt q)) points.length 1 L := by
    rcases h4 with h4 | h4
    · exact h4
    · exfalso
      have hne' : L ≠ [] := by
        intro h; have := h4.length_eq; rw [h] at this; simp at this
      have hmem := List.head_mem hne'
      have e1 := h4.below _ hmem
      rw [h4.dist_eq _ hmem] at e1
      exact absurd e1 (not_lt.2 (hnn _ (h4.valid _ hmem)))
  have hlen : L.length = 1 := by rw [hk.length_eq]; omega
  obtain ⟨⟨k, d⟩, rfl⟩ := List.length_eq_one_iff.1 hlen
  have hkv := hk.valid (k, d) (by simp)
  have hd := hk.dist_eq (k, d) (by simp)
  simp only at hkv hd
  rw [hget k hkv] at hd
  refine ⟨k, points[k], List.getElem?_eq_getElem hkv, ?_, ?_⟩
  · unfold Machine.kdNearest KdTree.nearestNeighborSearch
    rw [h2]
    simp only [bind, Except.bind, pure, Except.pure, h3, List.head?_cons, hd]
  · intro p' hp'
    obtain ⟨j, hj, rfl⟩ := List.mem_iff_getElem.1 hp'
    by_cases hjk : j = k
    · subst hjk; exact le_refl _
    · have := hk.best (k, d) (by simp) j hj (by simpa using hjk)
      simp only [hget j hj, hd] at this
      exact this

/-! ### One call of a factor -/

theorem le_foldr_min {x g : ℝ} {l : List ℝ} : x ≤ l.foldr min g ↔ x ≤ g ∧ ∀ y ∈ l, x ≤ y := by
  induction l with
  | nil => simp
  | cons a l ih =>
    simp only [List.foldr_cons, le_min_iff, ih, List.forall_mem_cons]
    tauto

/-- Truncated squared distance of a transformed point. -/
noncomputable def truncated (val : V → ℝ) (tp : List (Fin 4 → V)) (G : ℝ) (T : Pose ℝ) (p : Fin 4 → V) : ℝ := (tp.map fun q => dist2 (vals val q) (T.apply (vals val p))).foldr min G

theorem truncated_nonneg {tp : List (Fin 4 → V)} {G : ℝ} (hG : 0 ≤ G) (T : Pose ℝ) (p : Fin 4 → V) : 0 ≤ truncated val tp G T p := by
  unfold truncated
  rw [le_foldr_min]
  refine ⟨hG, ?_⟩
  intro y hy
  obtain ⟨q, -, rfl⟩ := List.mem_map.1 hy
  exact dist2_nonneg' _ _

theorem truncated_le {tp : List (Fin 4 → V)} {G : ℝ} (T : Pose ℝ) (p : Fin 4 → V) : truncated val tp G T p ≤ G ∧ ∀ q ∈ tp, truncated val tp G T p ≤ dist2 (vals val q) (T.apply (vals val p)) := by
  have := (le_foldr_min (x := truncated val tp G T p) (g := G) (l := tp.map fun q => dist2 (vals val q) (T.apply (vals val p)))).1 (le_refl _)
  exact ⟨this.1, fun q hq => this.2 _ (List.mem_map_of_mem hq)⟩

/-- The search returns a target point whose computed distance is smallest. -/
structure IcpSetting (E : Machine.Eval V P H B M) (val : V → ℝ) (pose : P → Pose ℝ) (rnd : ℝ → ℝ) (u big γ lam Z ε : ℝ) (tp sp : List (Fin 4 → V)) (target source : Cloud (Fin 4 → V) M) (gate : V)
    (nn : (Fin 4 → V) → Res (Option (Nat × V))) : Prop extends IcpInputs E val pose rnd u big γ lam Z ε tp sp target source gate where
  search : ∀ T : P, ∀ p, Reach val (pose T) Z p → ∃ k q, tp[k]? = some q ∧ nn (E.apply T p) = .ok (some (k, Pt.sqDist E.ops (Machine.toPt q) (Machine.toPt (E.apply T p)))) ∧
    ∀ q' ∈ tp, Pt.sqDist E.ops (Machine.toPt q) (Machine.toPt (E.apply T p)) ≤ Pt.sqDist E.ops (Machine.toPt q') (Machine.toPt (E.apply T p))

section Call

variable {ε : ℝ} {tp sp : List (Fin 4 → V)} {target source : Cloud (Fin 4 → V) M} {gate : V} {nn : (Fin 4 → V) → Res (Option (Nat × V))}

theorem icp_u_le (h : IcpInputs E val pose rnd u big γ lam Z ε tp sp target source gate) : u ≤ ε := by
  have h1 := h.sums
  have hu := h.arith.u_nonneg
  have : (1 : ℝ) + u ≤ (1 + u) ^ (sp.length + 1) := by
    have := pow_le_pow_right₀ (show (1 : ℝ) ≤ 1 + u by linarith) (show 1 ≤ sp.length + 1 by omega)
    simpa using this
  linarith

theorem cloud_point {c : Cloud (Fin 4 → V) M} {l : List (Fin 4 → V)} (h : c.points = l.map some) {i : Nat} {p : Fin 4 → V} (hp : l[i]? = some p) : c.point i = .ok p := by
  simp only [Cloud.point, getSlot, rd, h, List.getElem?_map, hp]
  rfl

/-- What a factor does at a pose within reach: the partner is almost closest among the accepted ones, and a source point without partner is almost at the gate. -/
theorem icp_call (h : IcpSetting E val pose rnd u big γ lam Z ε tp sp target source gate nn) {T : P} {i : Nat} {p : Fin 4 → V} (hi : sp[i]? = some p) (hp : Reach val (pose T) Z p) (f : ICP) :
    ∃ r : ICP × Option (H × B × V), Machine.icpLinearize E (Machine.cloudWorld target source nn) (Machine.distanceRejector gate) T i f = .ok r ∧
      ((∃ k q A b, tp[k]? = some q ∧ r = (⟨k, i⟩, some (A, b, E.half (E.sqNorm (q - E.apply T p)))) ∧
          (1 - ε) * dist2 (vals val q) ((pose T).apply (vals val p)) ≤ (1 + ε) * truncated val tp (val gate) (pose T) p + 4 * icpSlack γ u lam Z ε) ∨
        (r = (⟨npos, i⟩, none) ∧ val gate ≤ (1 + ε) * truncated val tp (val gate) (pose T) p + 2 * icpSlack γ u lam Z ε)) := by
  have he := h.eps
  have hτ := slack_nonneg (u := u) h.accuracy he
  have hG := h.gate_nonneg
  obtain ⟨k, q, hk, hnn, hmin⟩ := h.search T p hp
  have hd : ∀ q ∈ tp, _ := fun q hq => abs_le.1 (dist_error h.arith h.accuracy h.Z_nonneg h.inRange he h.eps' h.gamma (icp_u_le h.toIcpInputs) hp (h.near q hq))
  have hqm : q ∈ tp := List.mem_of_getElem? hk
  -- the computed distance is at most the truncated one, up to errors
  have low : ∀ x : ℝ, x ≤ val gate → (∀ q' ∈ tp, x ≤ val (Pt.sqDist E.ops (Machine.toPt q') (Machine.toPt (E.apply T p)))) →
      x ≤ (1 + ε) * truncated val tp (val gate) (pose T) p + 2 * icpSlack γ u lam Z ε := by
    intro x hx hx'
    have h1 : (0 : ℝ) < 1 + ε := by linarith
    have : (x - 2 * icpSlack γ u lam Z ε) / (1 + ε) ≤ truncated val tp (val gate) (pose T) p := by
      unfold truncated
      rw [le_foldr_min]
      constructor
      · rw [div_le_iff₀ h1]; nlinarith
      · intro y hy
        obtain ⟨q', hq', rfl⟩ := List.mem_map.1 hy
        rw [div_le_iff₀ h1]
        have := (hd q' hq').2
        have := hx' q' hq'
        linarith
    rw [div_le_iff₀ h1] at this
    linarith
  have hsrc : source.point i = .ok p := cloud_point h.sourcePoints hi
  have htgt : target.point k = .ok q := cloud_point h.targetPoints hk
  by_cases hg : gate < Pt.sqDist E.ops (Machine.toPt q) (Machine.toPt (E.apply T p))
  · refine ⟨(⟨npos, i⟩, none), ?_, .inr ⟨rfl, ?_⟩⟩
    · simp only [Machine.icpLinearize, Machine.search, Machine.cloudWorld, Machine.distanceRejector, hsrc, hnn, hg, bind, Except.bind, decide_true, if_true]
    · refine low _ (le_refl _) fun q' hq' => ((machine_lt h.arith).1 hg).le.trans ((h.arith.le _ _).1 (hmin q' hq'))
  · refine ⟨(⟨k, i⟩, some ((E.icpSystem T p (q - E.apply T p)).1, (E.icpSystem T p (q - E.apply T p)).2, E.half (E.sqNorm (q - E.apply T p)))), ?_, .inl ⟨k, q, _, _, hk, rfl, ?_⟩⟩
    · simp only [Machine.icpLinearize, Machine.search, Machine.cloudWorld, Machine.distanceRejector, hsrc, hnn, hg, htgt, bind, Except.bind, decide_false, if_false, Bool.false_eq_true]
    · have h1 := low _ ((h.arith.le _ _).1 (not_lt.1 hg)) fun q' hq' => (h.arith.le _ _).1 (hmin q' hq')
      have h2 := (hd q hqm).1
      linarith

/-- What a factor computes as error at another pose. -/
theorem icp_error (h : IcpSetting E val pose rnd u big γ lam Z ε tp sp target source gate nn) {T : P} {i k : Nat} {p q : Fin 4 → V} (hi : sp[i]? = some p) (hk : tp[k]? = some q) :
    Machine.icpError E (Machine.cloudWorld target source nn) T ⟨k, i⟩ = .ok (E.half (E.sqNorm (q - E.apply T p))) := by
  have hk' : k ≠ npos := by
    have h1 := (List.getElem?_eq_some_iff.1 hk).1
    have h2 := h.size
    intro e
    rw [e] at h1
    unfold npos at h1
    omega
  simp only [Machine.icpError, if_neg hk', Machine.cloudWorld, cloud_point h.sourcePoints hi, cloud_point h.targetPoints hk, bind, Except.bind]

/-! ### Sums -/

theorem sum_range_list (f : ℕ → ℝ) : ∀ N : ℕ, ((List.range N).map f).sum = ∑ i ∈ Finset.range N, f i
  | 0 => by simp
  | N + 1 => by rw [List.range_succ, List.map_append, List.sum_append, sum_range_list f N, Finset.sum_range_succ]; simp

theorem sum_range_some {S : Type} (o : ℕ → Option S) (c : S → ℝ) : ∀ N : ℕ, ((((List.range N).map o).filterMap id).map c).sum = ∑ i ∈ Finset.range N, (o i).elim 0 c
  | 0 => by simp
  | N + 1 => by
    rw [List.range_succ, List.map_append, List.filterMap_append, List.map_append, List.sum_append, sum_range_some o c N, Finset.sum_range_succ]
    cases h : o N <;> simp [h]

theorem sum_list_range {A : Type} (f : A → ℝ) : ∀ l : List A, (l.map f).sum = ∑ i ∈ Finset.range l.length, l[i]?.elim 0 f
  | [] => by simp
  | a :: l => by
    rw [List.map_cons, List.sum_cons, sum_list_range f l, List.length_cons, Finset.sum_range_succ']
    simp [add_comm]

theorem mapIdx_const {A C : Type} (g : ℕ → C) (l : List A) : (l.mapIdx fun i _ => g i) = (List.range l.length).map g := by
  apply List.ext_getElem <;> simp

/-- Every reduction gives the sum of the contributions up to rounding. -/
theorem reduce_sum {F S : Type} [Zero S] [Add S] {linM : Nat → F → Res (F × Option S)} {lin : Nat → F → F × Option S} (fs : List F) (hM : ∀ i f, i < fs.length → linM i f = .ok (lin i f)) (ex : Exec)
    (hex : ex.Complete fs.length) : ∃ s, reduceLinearize linM ex fs = .ok (fs.mapIdx fun i f => (lin i f).1, s) ∧ SumUpToRounding (contributions lin fs) s := by
  have hpure : reduceLinearize linM ex fs = pureLinearize lin ex fs := by
    rcases reduceLinearize_pure (E := fun _ => False) fs (fun i f hi => .inl (hM i f hi)) ex hex with h | ⟨_, h, _⟩
    · exact h
    · exact h.elim
  rw [hpure]
  cases ex with
  | serial => exact (C85_linearize lin fs).1
  | omp n assign sched comb =>
    obtain ⟨h1, h2, h3, ⟨order, h4⟩, h5⟩ := hex
    have hr : ∃ r, ompLinearize lin n assign sched fs = some r := by unfold ompLinearize; rw [h4]; exact ⟨_, rfl⟩
    obtain ⟨r, hr⟩ := hr
    simp only [pureLinearize, hr, Option.getD_some]
    exact (C85_linearize lin fs).2.1 n assign sched r h1 h2 h3 hr
  | tbb tree order => exact (C85_linearize lin fs).2.2 tree order hex.1 hex.2

theorem reduceError_sum {F S : Type} [Zero S] [Add S] {errM : F → Res S} {err : F → S} (fs : List F) (hM : ∀ f ∈ fs, errM f = .ok (err f)) (ex : Exec) (hex : ex.Complete fs.length) :
    ∃ e, reduceError errM ex fs = .ok e ∧ SumUpToRounding (fs.map err) e := by
  rw [reduceError_pure (err := err) fs hM ex]
  cases ex with
  | serial => exact (C85_error err fs).1
  | omp n assign sched comb =>
    obtain ⟨h1, h2, h3, _, h5⟩ := hex
    exact (C85_error err fs).2.1 assign comb h3 h5
  | tbb tree order => exact (C85_error err fs).2.2 tree order hex.1 hex.2

variable [Zero H] [Add H] [Zero B] [Add B]

/-- One iteration that applies its step. -/
theorem icp_iteration (h : IcpSetting E val pose rnd u big γ lam Z ε tp sp target source gate nn) {T0 T1 : P} (h0 : ∀ p ∈ sp, Reach val (pose T0) Z p) (h1 : ∀ p ∈ sp, Reach val (pose T1) Z p)
    {fs fs' : List ICP} (hlen : fs.length = sp.length) {s : H × B × V} {e1 : V} {exL exE : Exec} (hexL : exL.Complete fs.length) (hexE : exE.Complete fs'.length)
    (hl : reduceLinearize (Machine.icpLinearize E (Machine.cloudWorld target source nn) (Machine.distanceRejector gate) T0) exL fs = .ok (fs', s))
    (hr : reduceError (Machine.icpError E (Machine.cloudWorld target source nn) T1) exE fs' = .ok e1) (hle : e1 ≤ s.2.2) :
    ∑ i ∈ Finset.range sp.length, sp[i]?.elim 0 (truncated val tp (val gate) (pose T1)) / 2 ≤
      (1 + 10 * ε) * ∑ i ∈ Finset.range sp.length, sp[i]?.elim 0 (truncated val tp (val gate) (pose T0)) / 2 + 8 * sp.length * icpSlack γ u lam Z ε := by
  have he := h.eps
  have hτ := slack_nonneg (u := u) h.accuracy he
  have hu := h.arith.u_nonneg
  let w := Machine.cloudWorld target source nn
  let g : ℕ → ICP × Option (H × B × V) := fun i => okOr (ICP.init, none) (Machine.icpLinearize E w (Machine.distanceRejector gate) T0 i ICP.init)
  have hget : ∀ i < sp.length, ∃ p, sp[i]? = some p ∧ p ∈ sp := fun i hi => ⟨_, List.getElem?_eq_getElem hi, List.getElem_mem hi⟩
  have hgi : ∀ i f, i < sp.length → Machine.icpLinearize E w (Machine.distanceRejector gate) T0 i f = .ok (g i) := by
    intro i f hi
    obtain ⟨p, hp, hpm⟩ := hget i hi
    obtain ⟨r, hr, -⟩ := icp_call h hp (h0 p hpm) f
    have hr' : Machine.icpLinearize E w (Machine.distanceRejector gate) T0 i ICP.init = .ok r := hr
    simp only [g, hr', okOr]
    exact hr
  obtain ⟨s', hs1, hs2⟩ := reduce_sum fs (lin := fun i _ => g i) (fun i f hi => hgi i f (by omega)) exL hexL
  rw [hl] at hs1
  obtain ⟨rfl, rfl⟩ := Prod.mk.inj (Except.ok.inj hs1)
  have hfs : (fs.mapIdx fun i _ => (g i).1) = (List.range sp.length).map fun i => (g i).1 := by rw [mapIdx_const, hlen]
  rw [hfs] at hr hexE
  have hcon : contributions (fun i (_ : ICP) => g i) fs = ((List.range sp.length).map fun i => (g i).2).filterMap id := by
    unfold contributions
    rw [mapIdx_const (fun i => (g i).2), hlen]
  rw [hcon] at hs2
  let err : ICP → V := fun f => okOr 0 (Machine.icpError E w T1 f)
  -- what is known of each factor
  have hcall : ∀ i < sp.length, ∃ p, sp[i]? = some p ∧ p ∈ sp ∧
      ((∃ k q A b, tp[k]? = some q ∧ g i = (⟨k, i⟩, some (A, b, E.half (E.sqNorm (q - E.apply T0 p)))) ∧ Machine.icpError E w T1 (g i).1 = .ok (E.half (E.sqNorm (q - E.apply T1 p))) ∧
          (1 - ε) * dist2 (vals val q) ((pose T0).apply (vals val p)) ≤ (1 + ε) * truncated val tp (val gate) (pose T0) p + 4 * icpSlack γ u lam Z ε) ∨
        (g i = (⟨npos, i⟩, none) ∧ Machine.icpError E w T1 (g i).1 = .ok 0 ∧ val gate ≤ (1 + ε) * truncated val tp (val gate) (pose T0) p + 2 * icpSlack γ u lam Z ε)) := by
    intro i hi
    obtain ⟨p, hp, hpm⟩ := hget i hi
    refine ⟨p, hp, hpm, ?_⟩
    obtain ⟨r, hr, hc⟩ := icp_call h hp (h0 p hpm) ICP.init
    have e : r = g i := Except.ok.inj (hr.symm.trans (hgi i _ hi))
    subst e
    rcases hc with ⟨k, q, A, b, c1, c2, c3⟩ | ⟨c1, c2⟩
    · refine .inl ⟨k, q, A, b, c1, c2, ?_, c3⟩
      rw [c2]
      exact icp_error h hp c1
    · refine .inr ⟨c1, ?_, c2⟩
      rw [c1]
      simp [Machine.icpError]
  have herr : ∀ f ∈ (List.range sp.length).map fun i => (g i).1, Machine.icpError E w T1 f = .ok (err f) := by
    intro f hf
    obtain ⟨i, hi, rfl⟩ := List.mem_map.1 hf
    obtain ⟨p, -, -, hc⟩ := hcall i (List.mem_range.1 hi)
    rcases hc with ⟨k, q, A, b, -, -, c, -⟩ | ⟨-, c, -⟩
    · simp only [err, c, okOr]
    · simp only [err, c, okOr]
  obtain ⟨e', he1, he2⟩ := reduceError_sum _ herr exE hexE
  rw [hr] at he1
  obtain rfl := Except.ok.inj he1
  -- sizes of the computed terms
  have hbound : ∀ T : P, (∀ p ∈ sp, Reach val (pose T) Z p) → ∀ p ∈ sp, ∀ q ∈ tp, |val (E.half (E.sqNorm (q - E.apply T p)))| ≤ 9 * Z ^ 2 + icpSlack γ u lam Z ε := by
    intro T hT p hp q hq
    have h2 := abs_le.1 (term_error h.arith h.accuracy h.Z_nonneg h.inRange he h.eps' h.gamma (icp_u_le h.toIcpInputs) (hT p hp) (h.near q hq))
    have h3 : dist2 (vals val q) ((pose T).apply (vals val p)) ≤ 16 * Z ^ 2 := dist2_le (h.near q hq) (apply_le (hT p hp))
    have h4 := dist2_nonneg' (vals val q) ((pose T).apply (vals val p))
    have h5 := h.eps'
    have h6 : ε * dist2 (vals val q) ((pose T).apply (vals val p)) ≤ 1 / 16 * (16 * Z ^ 2) := mul_le_mul h5 h3 h4 (by norm_num)
    rw [abs_le]
    constructor <;> nlinarith
  let t0 : ℕ → ℝ := fun i => (g i).2.elim 0 fun s => val s.2.2
  let t1 : ℕ → ℝ := fun i => val (err (g i).1)
  have hB : 0 ≤ 9 * Z ^ 2 + icpSlack γ u lam Z ε := by positivity
  have hb0 : ∀ i ∈ Finset.range sp.length, |t0 i| ≤ 9 * Z ^ 2 + icpSlack γ u lam Z ε := by
    intro i hi
    obtain ⟨p, -, hpm, hc⟩ := hcall i (Finset.mem_range.1 hi)
    rcases hc with ⟨k, q, A, b, c1, c2, -, -⟩ | ⟨c1, -, -⟩
    · simp only [t0, c2, Option.elim]
      exact hbound T0 h0 p hpm q (List.mem_of_getElem? c1)
    · simp only [t0, c1, Option.elim, abs_zero]
      exact hB
  have hb1 : ∀ i ∈ Finset.range sp.length, |t1 i| ≤ 9 * Z ^ 2 + icpSlack γ u lam Z ε := by
    intro i hi
    obtain ⟨p, -, hpm, hc⟩ := hcall i (Finset.mem_range.1 hi)
    rcases hc with ⟨k, q, A, b, c1, -, c2, -⟩ | ⟨-, c2, -⟩
    · simp only [t1, err, c2, okOr]
      exact hbound T1 h1 p hpm q (List.mem_of_getElem? c1)
    · simp only [t1, err, c2, okOr, h.arith.zero, abs_zero]
      exact hB
  have sumle : ∀ t : ℕ → ℝ, (∀ i ∈ Finset.range sp.length, |t i| ≤ 9 * Z ^ 2 + icpSlack γ u lam Z ε) → ∑ i ∈ Finset.range sp.length, |t i| ≤ sp.length * (9 * Z ^ 2 + icpSlack γ u lam Z ε) := by
    intro t ht
    have := Finset.sum_le_sum ht
    rw [Finset.sum_const, Finset.card_range, nsmul_eq_mul] at this
    exact this
  have one : (1 : ℝ) ≤ 1 + u := by linarith
  have small : ∀ n ≤ sp.length, (1 + u) ^ (n - 1) - 1 ≤ ε := fun n hn => by
    have := pow_le_pow_right₀ one (show n - 1 ≤ sp.length + 1 by omega)
    linarith [h.sums]
  have fits : ∀ (n : ℕ) (t : ℕ → ℝ), n ≤ sp.length → (∀ i ∈ Finset.range sp.length, |t i| ≤ 9 * Z ^ 2 + icpSlack γ u lam Z ε) → (1 + u) ^ n * ∑ i ∈ Finset.range sp.length, |t i| ≤ big := by
    intro n t hn ht
    refine le_trans (mul_le_mul (pow_le_pow_right₀ one hn) (sumle t ht) (Finset.sum_nonneg fun _ _ => abs_nonneg _) (by positivity)) h.range
  have mV : MachineSum (S := V) val rnd u big := ⟨hu, h.arith.zero, h.arith.add, h.arith.exact, h.arith.relAdd⟩
  have mS : MachineSum (S := H × B × V) (fun s => val s.2.2) rnd u big :=
    ⟨hu, h.arith.zero, fun a b => h.arith.add a.2.2 b.2.2, fun a => h.arith.exact a.2.2, fun a b => h.arith.relAdd a.2.2 b.2.2⟩
  have e0 : |val s.2.2 - ∑ i ∈ Finset.range sp.length, t0 i| ≤ ε * ∑ i ∈ Finset.range sp.length, |t0 i| := by
    have hlenc : (((List.range sp.length).map fun i => (g i).2).filterMap id).length ≤ sp.length := (List.length_filterMap_le _ _).trans (by simp)
    have hv := sum_range_some (fun i => (g i).2) (fun s => val s.2.2) sp.length
    have hav := sum_range_some (fun i => (g i).2) (fun s => |val s.2.2|) sp.length
    have hav' : ∑ i ∈ Finset.range sp.length, ((g i).2.elim 0 fun s => |val s.2.2|) = ∑ i ∈ Finset.range sp.length, |t0 i| :=
      Finset.sum_congr rfl fun i _ => by simp only [t0]; cases (g i).2 <;> simp
    have := hs2 (fun s => val s.2.2) rnd u big mS (by rw [hav, hav']; exact fits _ t0 hlenc hb0)
    rw [hv, hav, hav'] at this
    exact this.trans (mul_le_mul_of_nonneg_right (small _ hlenc) (Finset.sum_nonneg fun _ _ => abs_nonneg _))
  have e1' : |val e1 - ∑ i ∈ Finset.range sp.length, t1 i| ≤ ε * ∑ i ∈ Finset.range sp.length, |t1 i| := by
    rw [List.map_map] at he2
    have hlenc : ((List.range sp.length).map (err ∘ fun i => (g i).1)).length ≤ sp.length := by simp
    have hv : (((List.range sp.length).map (err ∘ fun i => (g i).1)).map val).sum = ∑ i ∈ Finset.range sp.length, t1 i := by rw [List.map_map]; exact sum_range_list _ _
    have hav : (((List.range sp.length).map (err ∘ fun i => (g i).1)).map fun t => |val t|).sum = ∑ i ∈ Finset.range sp.length, |t1 i| := by rw [List.map_map]; exact sum_range_list _ _
    have := he2 val rnd u big mV (by rw [hav]; exact fits _ t1 hlenc hb1)
    rw [hv, hav] at this
    exact this.trans (mul_le_mul_of_nonneg_right (small _ hlenc) (Finset.sum_nonneg fun _ _ => abs_nonneg _))
  refine cloud_step he.le h.eps' hτ h.gate_nonneg sp.length t0 t1 _ _ ?_ ?_ e0 e1' ((h.arith.le _ _).1 hle)
  · intro i hi
    obtain ⟨p, hp, -⟩ := hget i hi
    rw [hp]
    exact truncated_nonneg h.gate_nonneg _ _
  · intro i hi
    obtain ⟨p, hp, hpm, hc⟩ := hcall i hi
    rw [hp]
    simp only [Option.elim]
    rcases hc with ⟨k, q, A, b, c1, c2, c3, c4⟩ | ⟨c1, c2, c3⟩
    · have hq := List.mem_of_getElem? c1
      refine ⟨.inl ⟨_, _, dist2_nonneg' _ _, dist2_nonneg' _ _, ?_, ?_, c4, (truncated_le (pose T1) p).2 q hq⟩⟩
      · simp only [t0, c2, Option.elim]
        exact term_error h.arith h.accuracy h.Z_nonneg h.inRange he h.eps' h.gamma (icp_u_le h.toIcpInputs) (h0 p hpm) (h.near q hq)
      · simp only [t1, err, c3, okOr]
        exact term_error h.arith h.accuracy h.Z_nonneg h.inRange he h.eps' h.gamma (icp_u_le h.toIcpInputs) (h1 p hpm) (h.near q hq)
    · refine ⟨.inr ⟨?_, ?_, c3, (truncated_le (pose T1) p).1⟩⟩
      · simp only [t0, c1, Option.elim]
      · simp only [t1, err, c2, okOr, h.arith.zero]

end Call

/-! ### The whole run -/

section Run

variable {F D : Type} [Mul V] [Div V] [Zero H] [Add H] [Zero B] [Add B]

/-- What the linearisations keep of the factors holds in all iterations. -/
theorem machine_lm_inv (p : Machine.Problem F V P H B D) (Good : P → Prop) (I : List F → Prop) (hI : ∀ T fs fs' s, Good T → I fs → p.linearize T fs = .ok (fs', s) → I fs') (factor : V) (maxInner : Nat) :
    ∀ (fuel i : Nat) (lambda : V) (r0 : Machine.Result V P H B) (fs0 : List F) {r fs log}, I fs0 → Machine.lmLoop p factor maxInner fuel i lambda r0 fs0 = .ok (r, fs, log) → (∀ it ∈ log, Good it.T0) →
      ∀ it ∈ log, ∃ fs1 s, I fs1 ∧ p.linearize it.T0 fs1 = .ok (it.factors, s) ∧ p.updateLinearized it.T0 s = (it.H, it.b, it.e0)
  | 0, i, lambda, r0, fs0, r, fs, log, h0, h, hg => by
    simp only [Machine.lmLoop, Except.ok.injEq, Prod.mk.injEq] at h
    obtain ⟨rfl, rfl, rfl⟩ := h
    simp
  | fuel + 1, i, lambda, r0, fs0, r, fs, log, h0, h, hg => by
    simp only [Machine.lmLoop] at h
    split at h
    · simp only [Except.ok.injEq, Prod.mk.injEq] at h
      obtain ⟨rfl, rfl, rfl⟩ := h
      simp
    · rcases hl : p.linearize r0.T fs0 with x | ⟨fs1, s⟩
      · simp [bind, Except.bind, hl] at h
      rcases hs : p.updateLinearized r0.T s with ⟨A, b, e⟩
      simp only [bind, Except.bind, hl, hs] at h
      rcases hi : Machine.lmInner p factor r0.T fs1 A b maxInner lambda e with x | inner
      · rw [hi] at h; simp at h
      rw [hi] at h
      simp only at h
      rcases ha : inner.accepted with _ | ⟨d, newT⟩
      · rw [ha] at h
        simp only [Except.ok.injEq, Prod.mk.injEq] at h
        obtain ⟨rfl, rfl, rfl⟩ := h
        intro it hit
        simp only [List.mem_singleton] at hit
        subst hit
        exact ⟨fs0, s, h0, hl, hs⟩
      · rw [ha] at h
        simp only at h
        rcases hn : Machine.lmLoop p factor maxInner fuel (i + 1) inner.lambda
            { r0 with converged := p.converged d, T := newT, iterations := i, H := A, b := b, error := inner.e } fs1 with x | ⟨r2, fs2, log2⟩
        · rw [hn] at h; simp at h
        rw [hn] at h
        simp only [Except.ok.injEq, Prod.mk.injEq] at h
        obtain ⟨rfl, rfl, rfl⟩ := h
        have hg0 : Good r0.T := hg _ (List.mem_cons_self)
        intro it hit
        rcases List.mem_cons.1 hit with e | e
        · subst e
          exact ⟨fs0, s, h0, hl, hs⟩
        · exact machine_lm_inv p Good I hI factor maxInner fuel (i + 1) _ _ _ (hI _ _ _ _ hg0 h0 hl) hn (fun it hit => hg it (List.mem_cons_of_mem _ hit)) it e

/-- A cost that each iteration increases at most so much. -/
theorem linked_bound {J : P → ℝ} {A C : ℝ} (hA : 1 ≤ A) (hC : 0 ≤ C) : ∀ {T0 T : P} {log : List (Machine.Iteration F V P H B D)}, Linked T0 log T →
    (∀ it ∈ log, J it.T1 ≤ A * J it.T0 + C) → J T ≤ A ^ log.length * (J T0 + log.length * C)
  | T0, T, [], h, _ => by
    rw [show T = T0 from h]
    simp
  | T0, T, it :: rest, h, hs => by
    have ih := linked_bound hA hC h.2 fun it' hit' => hs it' (List.mem_cons_of_mem _ hit')
    have h1 := hs it (List.mem_cons_self)
    rw [h.1] at h1
    have hp : (1 : ℝ) ≤ A ^ rest.length := one_le_pow₀ hA
    rw [List.length_cons, pow_succ]
    push_cast
    have h2 : A ^ rest.length * (J it.T1 + rest.length * C) ≤ A ^ rest.length * (A * (J T0 + (rest.length + 1) * C)) := by
      refine mul_le_mul_of_nonneg_left ?_ (by linarith)
      have : (0 : ℝ) ≤ (rest.length : ℝ) := Nat.cast_nonneg _
      nlinarith [mul_nonneg (sub_nonneg.2 hA) (mul_nonneg (add_nonneg this zero_le_one) hC)]
    calc J T ≤ _ := ih
      _ ≤ _ := h2
      _ = _ := by ring

variable {ε : ℝ} {tp sp : List (Fin 4 → V)} {target source : Cloud (Fin 4 → V) M} {gate : V} {nn : (Fin 4 → V) → Res (Option (Nat × V))}

theorem truncatedCost_eq (T : Pose ℝ) (G : ℝ) :
    truncatedCost (tp.map (vals val)) (sp.map (vals val)) G T = ∑ i ∈ Finset.range sp.length, sp[i]?.elim 0 (truncated val tp G T) / 2 := by
  unfold truncatedCost
  rw [List.map_map, sum_list_range]
  refine Finset.sum_congr rfl fun i _ => ?_
  cases sp[i]? with
  | none => simp
  | some p => simp only [Option.elim, Function.comp, truncated, List.map_map]; rfl

theorem icp_run (h : IcpSetting E val pose rnd u big γ lam Z ε tp sp target source gate nn) (cfg : Machine.Config V P H B D) (hrej : cfg.rejector = Machine.distanceRejector gate)
    (hU : ∀ T s, (cfg.updateLinearized T s).2.2 = s.2.2) (hU' : ∀ T e, cfg.updateError T e = e)
    (execL execE : P → List ICP → Exec) (hexL : ∀ T fs, (execL T fs).Complete fs.length) (hexE : ∀ T fs, (execE T fs).Complete fs.length)
    (st : Machine.LMSetting V) (T0 : P) {r fs log} (hrun : Machine.align (Machine.icpFactor E) (Machine.cloudWorld target source nn) cfg execL execE (.lm st) T0 source.size = .ok (r, fs, log))
    (hreach : ∀ it ∈ log, ∀ p ∈ sp, Reach val (pose it.T0) Z p ∧ Reach val (pose it.T1) Z p) :
    (∀ it ∈ log, truncatedCost (tp.map (vals val)) (sp.map (vals val)) (val gate) (pose it.T1) ≤
        (1 + 10 * ε) * truncatedCost (tp.map (vals val)) (sp.map (vals val)) (val gate) (pose it.T0) + 8 * sp.length * icpSlack γ u lam Z ε) ∧
      truncatedCost (tp.map (vals val)) (sp.map (vals val)) (val gate) (pose r.T) ≤
        (1 + 10 * ε) ^ log.length * (truncatedCost (tp.map (vals val)) (sp.map (vals val)) (val gate) (pose T0) + log.length * (8 * sp.length * icpSlack γ u lam Z ε)) := by
  have he := h.eps
  have hτ := slack_nonneg (u := u) h.accuracy he
  have hC : 0 ≤ 8 * (sp.length : ℝ) * icpSlack γ u lam Z ε := by positivity
  let pr := Machine.problem (Machine.icpFactor E) (Machine.cloudWorld target source nn) cfg execL execE
  have hsz : source.size = sp.length := by simp [Cloud.size, h.sourcePoints]
  have hrun' : Machine.levenbergMarquardt pr st T0 (List.replicate source.size (Machine.icpFactor E).init) = .ok (r, fs, log) := hrun
  obtain ⟨hd, hit⟩ := C97_levenberg_marquardt pr hU' st T0 _ hrun'
  have hlin : ∀ T, (∀ p ∈ sp, Reach val (pose T) Z p) → ∀ fs fs' s, fs.length = sp.length → pr.linearize T fs = .ok (fs', s) → fs'.length = sp.length := by
    intro T hT fs fs' s hl hlin
    have hM : ∀ i f, i < fs.length → ∃ r, Machine.icpLinearize E (Machine.cloudWorld target source nn) cfg.rejector T i f = .ok r := by
      intro i f hi
      rw [hl] at hi
      obtain ⟨r, hr, -⟩ := icp_call h (List.getElem?_eq_getElem hi) (hT _ (List.getElem_mem hi)) f
      rw [hrej]
      exact ⟨r, hr⟩
    obtain ⟨fs'', s'', g1, g2, -⟩ := reduce_inherits _ fs hM (execL T fs) (hexL T fs) (fun _ => False) (by simp)
    have g1' : pr.linearize T fs = .ok (fs'', s'') := g1
    rw [hlin] at g1'
    obtain ⟨rfl, rfl⟩ := Prod.mk.inj (Except.ok.inj g1')
    rw [g2, hl]
  have hinv : ∀ it ∈ log, ∃ fs1 s, fs1.length = sp.length ∧ pr.linearize it.T0 fs1 = .ok (it.factors, s) ∧ pr.updateLinearized it.T0 s = (it.H, it.b, it.e0) := by
    simp only [Machine.levenbergMarquardt, bind, Except.bind] at hrun'
    rcases hn : Machine.lmLoop pr st.lambdaFactor st.maxInner.toNat st.maxIterations.toNat 0 st.initLambda (Machine.Result.init T0) (List.replicate source.size (Machine.icpFactor E).init) with x | ⟨r1, fs1, log1⟩
    · rw [hn] at hrun'; simp at hrun'
    rw [hn] at hrun'
    simp only [Except.ok.injEq, Prod.mk.injEq] at hrun'
    obtain ⟨-, -, rfl⟩ := hrun'
    exact machine_lm_inv pr (fun T => ∀ p ∈ sp, Reach val (pose T) Z p) (fun fs => fs.length = sp.length) (fun T fs fs' s hT hl hlin' => hlin T hT fs fs' s hl hlin') _ _ _ _ _ _ _ (by simp [hsz]) hn
      (fun it hit p hp => (hreach it hit p hp).1)
  have hstep : ∀ it ∈ log, truncatedCost (tp.map (vals val)) (sp.map (vals val)) (val gate) (pose it.T1) ≤
      (1 + 10 * ε) * truncatedCost (tp.map (vals val)) (sp.map (vals val)) (val gate) (pose it.T0) + 8 * sp.length * icpSlack γ u lam Z ε := by
    intro it hmem
    rcases hs : it.step with _ | d
    · rw [((hit it hmem).kept hs).1]
      have : 0 ≤ truncatedCost (tp.map (vals val)) (sp.map (vals val)) (val gate) (pose it.T0) := by
        rw [truncatedCost_eq]
        refine Finset.sum_nonneg fun i _ => ?_
        cases sp[i]? with
        | none => simp
        | some p => exact div_nonneg (truncated_nonneg h.gate_nonneg _ _) (by norm_num)
      nlinarith [mul_nonneg he.le this]
    · obtain ⟨-, -, a3, a4, -⟩ := (hit it hmem).applied d hs
      obtain ⟨fs1, s, b1, b2, b3⟩ := hinv it hmem
      have hlen' := hlin it.T0 (fun p hp => (hreach it hmem p hp).1) fs1 _ s b1 b2
      have hsum : it.e0 = s.2.2 := by
        have := hU it.T0 s
        have e : cfg.updateLinearized it.T0 s = (it.H, it.b, it.e0) := b3
        rw [e] at this
        exact this
      rw [hsum] at a4
      rw [truncatedCost_eq, truncatedCost_eq]
      have b2' : reduceLinearize (Machine.icpLinearize E (Machine.cloudWorld target source nn) cfg.rejector it.T0) (execL it.T0 fs1) fs1 = .ok (it.factors, s) := b2
      rw [hrej] at b2'
      exact icp_iteration h (fun p hp => (hreach it hmem p hp).1) (fun p hp => (hreach it hmem p hp).2) b1 (hexL _ _) (hexE it.T1 it.factors) b2' a3 a4
  exact ⟨hstep, linked_bound (J := fun T => truncatedCost (tp.map (vals val)) (sp.map (vals val)) (val gate) (pose T)) (by linarith) hC hd.linked hstep⟩

/-- C99. Levenberg-Marquardt with point-to-point ICP, a distance gate, a kd-tree and any reduction, in machine arithmetic: no iteration increases the truncated cost (of the exact values) by more than a
small factor and a small summand, hence neither does the whole run. -/
theorem C99_icp_descent (h : IcpInputs E val pose rnd u big γ lam Z ε tp sp target source gate) (hne : tp ≠ [])
    (b : KdTree.Builder V) (hnth : NthElementSpec b.nthElement) (hfind : FindAxisSpec (fun p => ∃ a, p = .axis a) b.findAxis) (hm : SafeLeafSize b.maxLeafSize)
    {points : List (Pt V)} (hpts : Machine.cloudPoints target = .ok points) {fuelB fuel : Nat} (hfB : points.length < fuelB) (hfuel : points.length < fuel)
    {t : KdTree.Tree V} (ht : KdTree.construct E.ops b fuelB points = .ok t) {maxD : V} (hmax : 17 * Z ^ 2 + 2 * icpSlack γ u lam Z ε < val maxD) (junk : Nat × V)
    (cfg : Machine.Config V P H B D) (hrej : cfg.rejector = Machine.distanceRejector gate) (hU : ∀ T s, (cfg.updateLinearized T s).2.2 = s.2.2) (hU' : ∀ T e, cfg.updateError T e = e)
    (execL execE : P → List ICP → Exec) (hexL : ∀ T fs, (execL T fs).Complete fs.length) (hexE : ∀ T fs, (execE T fs).Complete fs.length)
    (st : Machine.LMSetting V) (T0 : P) {r fs log}
    (hrun : Machine.align (Machine.icpFactor E) (Machine.cloudWorld target source (Machine.kdNearest E maxD points t fuel junk)) cfg execL execE (.lm st) T0 source.size = .ok (r, fs, log))
    (hreach : ∀ it ∈ log, ∀ p ∈ sp, Reach val (pose it.T0) Z p ∧ Reach val (pose it.T1) Z p) :
    (∀ it ∈ log, truncatedCost (tp.map (vals val)) (sp.map (vals val)) (val gate) (pose it.T1) ≤
        (1 + 10 * ε) * truncatedCost (tp.map (vals val)) (sp.map (vals val)) (val gate) (pose it.T0) + 8 * sp.length * icpSlack γ u lam Z ε) ∧
      truncatedCost (tp.map (vals val)) (sp.map (vals val)) (val gate) (pose r.T) ≤
        (1 + 10 * ε) ^ log.length * (truncatedCost (tp.map (vals val)) (sp.map (vals val)) (val gate) (pose T0) + log.length * (8 * sp.length * icpSlack γ u lam Z ε)) := by
  have hp : points = tp.map Machine.toPt := by
    have hv : ∀ i ∈ List.range target.size, (do let p ← target.point i; return Machine.toPt p : Res (Pt V)) = .ok ((tp.map Machine.toPt)[i]?.getD (Machine.toPt 0)) := by
      intro i hi
      have hi' : i < tp.length := by simpa [Cloud.size, h.targetPoints] using hi
      rw [cloud_point h.targetPoints (List.getElem?_eq_getElem hi')]
      simp [hi', bind, Except.bind, pure, Except.pure]
    have e := mapM_ok _ _ _ hv
    have hpts' : (List.range target.size).mapM (fun i => (do let p ← target.point i; return Machine.toPt p : Res (Pt V))) = .ok points := hpts
    rw [e] at hpts'
    rw [← Except.ok.inj hpts']
    apply List.ext_getElem <;> simp [Cloud.size, h.targetPoints]
    intro i h1
    simp [h1]
  subst hp
  refine icp_run ⟨h, ?_⟩ cfg hrej hU hU' execL execE hexL hexE st T0 hrun hreach
  intro T p hpr
  obtain ⟨k, q', hk, hs, hmin⟩ := nearest_rounded h.arith b hnth hfind hm (by simpa using hne) (by simpa using h.size) hfB hfuel ht junk (E.apply T p) (maxD := maxD) (by
    intro p' hp'
    obtain ⟨q, hq, rfl⟩ := List.mem_map.1 hp'
    rw [machine_lt h.arith]
    have h1 := abs_le.1 (dist_error h.arith h.accuracy h.Z_nonneg h.inRange h.eps h.eps' h.gamma (icp_u_le h) hpr (h.near q hq))
    have h3 : dist2 (vals val q) ((pose T).apply (vals val p)) ≤ 16 * Z ^ 2 := dist2_le (h.near q hq) (apply_le hpr)
    have h4 := dist2_nonneg' (vals val q) ((pose T).apply (vals val p))
    have h6 : ε * dist2 (vals val q) ((pose T).apply (vals val p)) ≤ 1 / 16 * (16 * Z ^ 2) := mul_le_mul h.eps' h3 h4 (by norm_num)
    linarith [h1.2])
  rw [List.getElem?_map, Option.map_eq_some_iff] at hk
  obtain ⟨q, hq, rfl⟩ := hk
  exact ⟨k, q, hq, hs, fun q'' hq'' => hmin _ (List.mem_map_of_mem hq'')⟩

end Run

end Terms

end Verif.Props
