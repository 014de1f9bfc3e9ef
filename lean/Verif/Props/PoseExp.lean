import Verif.Props.PoseRounding
import Mathlib.Analysis.SpecialFunctions.Trigonometric.Bounds
import Mathlib.Analysis.Complex.ExponentialBounds

/-!
C107, second part: the rotation computed by `so3_exp` and `toRotationMatrix` in floating-point arithmetic.
-/

set_option linter.unusedSectionVars false
set_option linter.unusedSimpArgs false
set_option linter.unnecessarySeqFocus false

namespace Verif.Spec

open Matrix Verif Verif.Machine Verif.Factors

/-- Floating-point arithmetic: operations on finite numbers have relative error `u` and error `η` from underflow, sums of three products relative error `γ` in each product; a finite result needs finite operands (a
quotient: a finite numerator). Sine and cosine have absolute error `u`. No number is so large that its product with `η²` exceeds `ζ² / 2`; for IEEE doubles `η = 2^-1074` and `ζ = 1e-160`. -/
structure TrigAccuracy {V : Type} [LT V] (o : Ops V) (c : TrigOps V) (finite : V → Prop) (val : V → ℝ) (u γ η ζ : ℝ) : Prop where
  u_nonneg : 0 ≤ u
  u_le : u ≤ 1 / 1000
  γ_nonneg : 0 ≤ γ
  γ_le : γ ≤ 1 / 100
  η_nonneg : 0 ≤ η
  η_le : η ≤ 1 / 10 ^ 14
  range : ∀ a, finite a → η ^ 2 * |val a| ≤ ζ ^ 2 / 2
  ζ_nonneg : 0 ≤ ζ
  ζ_le : ζ ≤ 1 / 100
  mul : ∀ a b, finite (o.mul a b) → finite a ∧ finite b ∧ |val (o.mul a b) - val a * val b| ≤ u * |val a * val b| + η
  add : ∀ a b, finite (o.add a b) → finite a ∧ finite b ∧ |val (o.add a b) - (val a + val b)| ≤ u * |val a + val b|
  sub : ∀ a b, finite (o.sub a b) → finite a ∧ finite b ∧ |val (o.sub a b) - (val a - val b)| ≤ u * |val a - val b|
  div : ∀ a b, finite (o.div a b) → finite a ∧ (finite b → val b ≠ 0 ∧ |val (o.div a b) - val a / val b| ≤ u * |val a / val b| + η)
  dot : ∀ a b d x y z, finite (o.dot3 a b d x y z) → (finite a ∧ finite b ∧ finite d ∧ finite x ∧ finite y ∧ finite z) ∧
    |val (o.dot3 a b d x y z) - (val a * val x + val b * val y + val d * val z)| ≤ γ * (|val a * val x| + |val b * val y| + |val d * val z|) + η
  sqrt : ∀ a, finite (c.sqrt a) → finite a ∧ 0 ≤ val a ∧ |val (c.sqrt a) - Real.sqrt (val a)| ≤ u * Real.sqrt (val a)
  sin : ∀ a, finite (c.sin a) → finite a ∧ |val (c.sin a) - Real.sin (val a)| ≤ u
  cos : ∀ a, finite (c.cos a) → finite a ∧ |val (c.cos a) - Real.cos (val a)| ≤ u
  lt : ∀ a b, finite a → finite b → (a < b ↔ val a < val b)
  one : val c.one = 1
  two : val c.two = 2
  half : val c.half = 1 / 2
  small : finite c.small ∧ |val c.small - 1 / 10 ^ 10| ≤ u / 10 ^ 10
  c48 : |val c.c48 - 1 / 48| ≤ u
  c3840 : |val c.c3840 - 1 / 3840| ≤ u
  c8 : |val c.c8 - 1 / 8| ≤ u
  c384 : |val c.c384 - 1 / 384| ≤ u

/-- The squared norm of a computed quaternion. -/
def quatNorm {V : Type} (val : V → ℝ) (q : MQuat V) : ℝ := val q.w ^ 2 + val q.x ^ 2 + val q.y ^ 2 + val q.z ^ 2

end Verif.Spec

namespace Verif.Props

open Matrix Verif Verif.Machine Verif.Spec Verif.Proofs Verif.Factors

/-! ### quaternions that are not quite unit -/

/-- The matrix of a quaternion whose squared norm is within `ν` of one. -/
theorem C107_quaternion (q : Lie.Quat) {ν : ℝ} (hν : ν ≤ 1 / 2) (h : |qn q - 1| ≤ ν) : NearRotation (4 * ν) q.toRotationMatrix := by
  obtain ⟨h1, h2⟩ := abs_le.1 h
  have hn : 0 < qn q := by linarith
  set n := qn q with hnd
  set s := Real.sqrt n with hs
  have hs0 : 0 < s := Real.sqrt_pos.2 hn
  have hss : s * s = n := Real.mul_self_sqrt hn.le
  set p : Lie.Quat := ⟨q.w / s, q.x / s, q.y / s, q.z / s⟩ with hp
  have hp1 : qn p = 1 := by
    have h3 : qn p = qn q / (s * s) := by simp only [qn, hp]; field_simp
    rw [h3, hss, ← hnd, div_self hn.ne']
  have hQ : IsRotation p.toRotationMatrix := ⟨rot_orth p hp1, by rw [rot_det, hp1]; ring⟩
  refine ⟨p.toRotationMatrix, hQ, ?_⟩
  have hdiff : q.toRotationMatrix - p.toRotationMatrix = (n - 1) • (p.toRotationMatrix - 1) := by
    have e1 : q.w = s * p.w := by simp only [hp]; field_simp
    have e2 : q.x = s * p.x := by simp only [hp]; field_simp
    have e3 : q.y = s * p.y := by simp only [hp]; field_simp
    have e4 : q.z = s * p.z := by simp only [hp]; field_simp
    rw [← hss]
    ext i j
    fin_cases i <;> fin_cases j <;> simp [Lie.Quat.toRotationMatrix, e1, e2, e3, e4] <;> ring
  rw [hdiff, fro_smul]
  have h5 : fro (p.toRotationMatrix - 1) ≤ 4 := by
    have g1 := fro_sub_le p.toRotationMatrix 1
    have g2 := fro_rotation hQ
    have g3 : fro (1 : Matrix (Fin 3) (Fin 3) ℝ) ≤ 2 := fro_rotation ⟨by simp, by simp⟩
    linarith
  have h6 : |n - 1| * fro (p.toRotationMatrix - 1) ≤ ν * 4 := mul_le_mul h h5 (fro_nonneg _) ((abs_nonneg _).trans h)
  linarith

section Exp

variable {V : Type} [LT V] [DecidableLT V] {o : Ops V} {c : TrigOps V} {finite : V → Prop} {val : V → ℝ} {u γ η ζ : ℝ}

/-- Products of the components. -/
theorem twice_product (hc : TrigAccuracy o c finite val u γ η ζ) {x y : V} (hx : |val x| ≤ 5 / 4) (hy : |val y| ≤ 5 / 4) (hf : finite (o.mul (o.mul c.two x) y)) :
    finite x ∧ finite y ∧ |val (o.mul (o.mul c.two x) y) - 2 * val x * val y| ≤ 7 * u + 3 * η ∧ |val (o.mul (o.mul c.two x) y)| ≤ 15 / 4 := by
  obtain ⟨f1, f2, e1⟩ := hc.mul _ _ hf
  obtain ⟨_, f3, e2⟩ := hc.mul _ _ f1
  rw [hc.two] at e2
  have hu := hc.u_nonneg
  have hu' := hc.u_le
  have hη := hc.η_nonneg
  have hη' := hc.η_le
  set t := val (o.mul c.two x)
  set X := val x
  set Y := val y
  have a1 : |2 * X| ≤ 5 / 2 := by rw [abs_mul]; norm_num; linarith
  have a2 : |t - 2 * X| ≤ 5 / 2 * u + η := by nlinarith
  have a3 : |t| ≤ 5 / 2 + (5 / 2 * u + η) := by
    have : t = (t - 2 * X) + 2 * X := by ring
    rw [this]
    exact (abs_add_le _ _).trans (by linarith)
  have a3' : |t| ≤ 51 / 20 := by linarith
  have a4 : |t * Y| ≤ 51 / 20 * (5 / 4) := by
    rw [abs_mul]
    exact mul_le_mul a3' hy (abs_nonneg _) (by norm_num)
  have a5 : |t * Y - 2 * X * Y| ≤ (5 / 2 * u + η) * (5 / 4) := by
    have : t * Y - 2 * X * Y = (t - 2 * X) * Y := by ring
    rw [this, abs_mul]
    exact mul_le_mul a2 hy (abs_nonneg _) (by positivity)
  have a6 : u * |t * Y| ≤ u * (51 / 20 * (5 / 4)) := mul_le_mul_of_nonneg_left a4 hu
  refine ⟨f3, f2, ?_, ?_⟩
  · have : val (o.mul (o.mul c.two x) y) - 2 * X * Y = (val (o.mul (o.mul c.two x) y) - t * Y) + (t * Y - 2 * X * Y) := by ring
    rw [this]
    refine (abs_add_le _ _).trans ?_
    linarith
  · have : val (o.mul (o.mul c.two x) y) = (val (o.mul (o.mul c.two x) y) - t * Y) + t * Y := by ring
    rw [this]
    refine (abs_add_le _ _).trans ?_
    linarith

theorem sum_close (hu : 0 ≤ u) {r a b A B d : ℝ} (h : |r - (a + b)| ≤ u * |a + b|) (ha : |a - A| ≤ d) (hb : |b - B| ≤ d) (ha' : |a| ≤ 15 / 4) (hb' : |b| ≤ 15 / 4) :
    |r - (A + B)| ≤ 2 * d + 15 / 2 * u ∧ |a + b| ≤ 15 / 2 := by
  have h1 : |a + b| ≤ 15 / 2 := (abs_add_le _ _).trans (by linarith)
  have h2 : u * |a + b| ≤ u * (15 / 2) := mul_le_mul_of_nonneg_left h1 hu
  refine ⟨?_, h1⟩
  have : r - (A + B) = (r - (a + b)) + (a - A) + (b - B) := by ring
  rw [this]
  exact (abs_add_le _ _).trans (by linarith [abs_add_le (r - (a + b)) (a - A)])

/-- The entries of the matrix. -/
theorem toRotation_close (hc : TrigAccuracy o c finite val u γ η ζ) {q : MQuat V} (hw : |val q.w| ≤ 5 / 4) (hx : |val q.x| ≤ 5 / 4) (hy : |val q.y| ≤ 5 / 4) (hz : |val q.z| ≤ 5 / 4)
    (hf : ∀ i j, finite (toRotation o c q i j)) (i j : Fin 3) :
    |val (toRotation o c q i j) - (Lie.Quat.mk (val q.w) (val q.x) (val q.y) (val q.z)).toRotationMatrix i j| ≤ 31 * u + 8 * η := by
  have hu := hc.u_nonneg
  have hu' := hc.u_le
  have hη := hc.η_nonneg
  have hη' := hc.η_le
  have add2 : ∀ {a b : V} {A B : ℝ}, finite (o.add a b) → (finite a → |val a - A| ≤ 7 * u + 3 * η ∧ |val a| ≤ 15 / 4) → (finite b → |val b - B| ≤ 7 * u + 3 * η ∧ |val b| ≤ 15 / 4) →
      |val (o.add a b) - (A + B)| ≤ 43 / 2 * u + 6 * η := by
    intro a b A B hab ha hb
    obtain ⟨f1, f2, e⟩ := hc.add _ _ hab
    have := (sum_close hu e (ha f1).1 (hb f2).1 (ha f1).2 (hb f2).2).1
    linarith
  have sub2 : ∀ {a b : V} {A B : ℝ}, finite (o.sub a b) → (finite a → |val a - A| ≤ 7 * u + 3 * η ∧ |val a| ≤ 15 / 4) → (finite b → |val b - B| ≤ 7 * u + 3 * η ∧ |val b| ≤ 15 / 4) →
      |val (o.sub a b) - (A - B)| ≤ 43 / 2 * u + 6 * η := by
    intro a b A B hab ha hb
    obtain ⟨f1, f2, e⟩ := hc.sub _ _ hab
    have hb1 : |-val b - -B| ≤ 7 * u + 3 * η := by
      have : -val b - -B = -(val b - B) := by ring
      rw [this, abs_neg]; exact (hb f2).1
    have := (sum_close hu (b := -val b) (B := -B) (by simpa [sub_eq_add_neg] using e) (ha f1).1 hb1 (ha f1).2 (by rw [abs_neg]; exact (hb f2).2)).1
    rw [← sub_eq_add_neg] at this
    linarith
  have dia : ∀ {a b : V} {A B : ℝ}, finite (o.sub c.one (o.add a b)) → (finite a → |val a - A| ≤ 7 * u + 3 * η ∧ |val a| ≤ 15 / 4) → (finite b → |val b - B| ≤ 7 * u + 3 * η ∧ |val b| ≤ 15 / 4) →
      |val (o.sub c.one (o.add a b)) - (1 - (A + B))| ≤ 31 * u + 8 * η := by
    intro a b A B hab ha hb
    obtain ⟨_, f0, e⟩ := hc.sub _ _ hab
    have h1 := add2 f0 ha hb
    obtain ⟨f1, f2, e2⟩ := hc.add _ _ f0
    have h2 := (sum_close hu e2 (ha f1).1 (hb f2).1 (ha f1).2 (hb f2).2).2
    rw [hc.one] at e
    have h3 : |val (o.add a b)| ≤ 15 / 2 * (1 + u) := by
      have : val (o.add a b) = (val (o.add a b) - (val a + val b)) + (val a + val b) := by ring
      rw [this]
      have := mul_le_mul_of_nonneg_left h2 hu
      exact (abs_add_le _ _).trans (by linarith)
    have h4 : |1 - val (o.add a b)| ≤ 9 := by
      refine (abs_sub _ _).trans ?_
      rw [abs_one]
      linarith
    have h5 := mul_le_mul_of_nonneg_left h4 hu
    have : val (o.sub c.one (o.add a b)) - (1 - (A + B)) = (val (o.sub c.one (o.add a b)) - (1 - val (o.add a b))) + -(val (o.add a b) - (A + B)) := by ring
    rw [this]
    refine (abs_add_le _ _).trans ?_
    rw [abs_neg]
    linarith
  have tp : ∀ {x y : V}, |val x| ≤ 5 / 4 → |val y| ≤ 5 / 4 → finite (o.mul (o.mul c.two x) y) →
      |val (o.mul (o.mul c.two x) y) - 2 * val x * val y| ≤ 7 * u + 3 * η ∧ |val (o.mul (o.mul c.two x) y)| ≤ 15 / 4 := fun h1 h2 h3 => (twice_product hc h1 h2 h3).2.2
  have hij := hf i j
  have hw1 : 43 / 2 * u + 6 * η ≤ 31 * u + 8 * η := by linarith
  fin_cases i <;> fin_cases j <;> simp only [toRotation, Lie.Quat.toRotationMatrix, of_apply, cons_val_zero, cons_val_one, cons_val, cons_val', Fin.zero_eta, Fin.mk_one, Fin.isValue, Fin.reduceFinMk] at hij ⊢
  · exact dia hij (tp hy hy) (tp hz hz)
  · exact (sub2 hij (tp hy hx) (tp hz hw)).trans hw1
  · exact (add2 hij (tp hz hx) (tp hy hw)).trans hw1
  · exact (add2 hij (tp hy hx) (tp hz hw)).trans hw1
  · exact dia hij (tp hx hx) (tp hz hz)
  · exact (sub2 hij (tp hz hy) (tp hx hw)).trans hw1
  · exact (sub2 hij (tp hz hx) (tp hy hw)).trans hw1
  · exact (add2 hij (tp hz hy) (tp hx hw)).trans hw1
  · exact dia hij (tp hx hx) (tp hy hy)

/-- From the squared norm of the computed quaternion to the computed matrix. -/
theorem toRotation_near (hc : TrigAccuracy o c finite val u γ η ζ) {q : MQuat V} {ν : ℝ} (hν : ν ≤ 1 / 2) (hq : |quatNorm val q - 1| ≤ ν) (hf : ∀ i j, finite (toRotation o c q i j)) :
    NearRotation (4 * ν + 3 * (31 * u + 8 * η)) (fun i j => val (toRotation o c q i j)) := by
  have hu := hc.u_nonneg
  have hη := hc.η_nonneg
  obtain ⟨h1, h2⟩ := abs_le.1 hq
  have bound : ∀ a : ℝ, a ^ 2 ≤ 3 / 2 → |a| ≤ 5 / 4 := by
    intro a ha
    exact abs_le_of_sq_le_sq (by nlinarith) (by norm_num)
  unfold quatNorm at h1 h2 hq
  obtain ⟨Q, hQ, hd⟩ := C107_quaternion ⟨val q.w, val q.x, val q.y, val q.z⟩ hν (by simpa [qn] using hq)
  refine ⟨Q, hQ, ?_⟩
  have hE : fro ((of fun i j => val (toRotation o c q i j)) - (Lie.Quat.mk (val q.w) (val q.x) (val q.y) (val q.z)).toRotationMatrix) ≤ 3 * (31 * u + 8 * η) := by
    rw [← fro_const (by positivity)]
    refine fro_mono fun i j => ?_
    exact toRotation_close hc (bound _ (by nlinarith [sq_nonneg (val q.x), sq_nonneg (val q.y), sq_nonneg (val q.z)])) (bound _ (by nlinarith [sq_nonneg (val q.w), sq_nonneg (val q.y), sq_nonneg (val q.z)]))
      (bound _ (by nlinarith [sq_nonneg (val q.x), sq_nonneg (val q.w), sq_nonneg (val q.z)])) (bound _ (by nlinarith [sq_nonneg (val q.x), sq_nonneg (val q.y), sq_nonneg (val q.w)])) hf i j
  have h3 : (of fun i j => val (toRotation o c q i j)) - Q = ((of fun i j => val (toRotation o c q i j)) - (Lie.Quat.mk (val q.w) (val q.x) (val q.y) (val q.z)).toRotationMatrix) +
      ((Lie.Quat.mk (val q.w) (val q.x) (val q.y) (val q.z)).toRotationMatrix - Q) := by abel
  have h4 := fro_add_le ((of fun i j => val (toRotation o c q i j)) - (Lie.Quat.mk (val q.w) (val q.x) (val q.y) (val q.z)).toRotationMatrix) ((Lie.Quat.mk (val q.w) (val q.x) (val q.y) (val q.z)).toRotationMatrix - Q)
  rw [← h3] at h4
  refine le_trans (le_of_eq ?_) (h4.trans (by linarith))
  rfl

/-! ### the norm of the quaternion -/

theorem len_mono {ι : Type} [Fintype ι] {a b : ι → ℝ} (h : ∀ i, |a i| ≤ b i) : len a ≤ len b := by
  refine len_le_of_sq (len_nonneg b) ?_
  rw [len_sq]
  refine Finset.sum_le_sum fun i _ => ?_
  rw [← abs_mul_abs_self (a i)]
  exact mul_self_le_mul_self (abs_nonneg _) (h i)

/-- The imaginary part, computed componentwise. -/
theorem imag_len {q w : Fin 3 → ℝ} {m u η : ℝ} (hu : 0 ≤ u) (hη : 0 ≤ η) (h : ∀ i, |q i - m * w i| ≤ u * |m * w i| + η) : |len q - |m| * len w| ≤ u * (|m| * len w) + 2 * η := by
  have h1 : len (q - m • w) ≤ u * (|m| * len w) + 2 * η := by
    have g1 : len (q - m • w) ≤ len (fun i => u * |m * w i| + η) := len_mono fun i => by simpa using h i
    have g2 : len (fun i => u * |m * w i| + η) ≤ len (fun i => u * |m * w i|) + len (fun _ : Fin 3 => η) := len_add_le (fun i => u * |m * w i|) (fun _ => η)
    have g3 : len (fun i => u * |m * w i|) = u * (|m| * len w) := by
      have e1 : (fun i => u * |m * w i|) = u • (fun i => |m * w i|) := rfl
      have e2 : len (fun i => |m * w i|) = len (m • w) := by
        simp only [len, dotProduct, abs_mul_abs_self]
        rfl
      rw [e1, len_smul, abs_of_nonneg hu, e2, len_smul]
    have g4 : len (fun _ : Fin 3 => η) ≤ 2 * η := by
      refine len_le_of_sq (by positivity) ?_
      simp only [dotProduct, Fin.sum_univ_three]
      nlinarith
    linarith
  have h2 := len_add_le (q - m • w) (m • w)
  have h3 := len_sub_le q (q - m • w)
  have e1 : q - m • w + m • w = q := by simp
  have e2 : q - (q - m • w) = m • w := by simp
  rw [e1, len_smul] at h2
  rw [e2, len_smul] at h3
  rw [abs_le]
  constructor <;> linarith

theorem sq_close {a b d : ℝ} (h : |a - b| ≤ d) (hb : |b| ≤ 1) (hd : d ≤ 1) : |a ^ 2 - b ^ 2| ≤ 3 * d := by
  have h1 : a ^ 2 - b ^ 2 = (a - b) * ((a - b) + 2 * b) := by ring
  rw [h1, abs_mul]
  have h2 : |(a - b) + 2 * b| ≤ 3 := by
    refine (abs_add_le _ _).trans ?_
    rw [abs_mul, abs_two]
    linarith
  have h0 : 0 ≤ d := (abs_nonneg _).trans h
  calc |a - b| * |(a - b) + 2 * b| ≤ d * 3 := mul_le_mul h h2 (abs_nonneg _) h0
    _ = 3 * d := by ring

set_option maxHeartbeats 1000000 in
/-- The branch with sine and cosine. -/
theorem trig_branch {u γ η Z W t r s h m L w : ℝ} (hu : 0 ≤ u) (hu' : u ≤ 1 / 1000) (hγ : 0 ≤ γ) (hγ' : γ ≤ 1 / 100) (hη : 0 ≤ η) (hη' : η ≤ 1 / 10 ^ 14) (hZ' : Z ≤ 1 / 50) (hW : 0 ≤ W)
    (ht : |t - W ^ 2| ≤ γ * W ^ 2 + η) (hts : 9 / 10 ^ 11 ≤ t) (hr : |r - Real.sqrt t| ≤ u * Real.sqrt t) (hs : |s - Real.sin h| ≤ u) (hm : |m - s / r| ≤ u * |s / r| + η) (hηW : η * W ≤ Z)
    (hL : |L - |m| * W| ≤ u * (|m| * W) + 2 * η) (hw : |w - Real.cos h| ≤ u) : |w ^ 2 + L ^ 2 - 1| ≤ 30 * u + 9 * γ + 3 * Z + 3 * 10 ^ 11 * η := by
  have hZ : 0 ≤ Z := (mul_nonneg hη hW).trans hηW
  obtain ⟨t1, t2⟩ := abs_le.1 ht
  have hW2 : 5 / 10 ^ 11 ≤ W ^ 2 := by nlinarith [sq_nonneg W]
  have hWpos : 0 < W := by
    rcases hW.lt_or_eq with e | e
    · exact e
    · rw [← e] at hW2; norm_num at hW2
  have htpos : 0 < t := by linarith [show (0 : ℝ) < 9 / 10 ^ 11 by norm_num]
  set δ := γ + 2 * 10 ^ 10 * η with hδ
  have hδ0 : 0 ≤ δ := by positivity
  have hδ1 : δ ≤ 1 / 50 := by rw [hδ]; linarith
  have ht' : |t - W ^ 2| ≤ δ * W ^ 2 := by
    refine ht.trans ?_
    rw [hδ]
    nlinarith
  set q := Real.sqrt t with hq
  have hq0 : 0 < q := Real.sqrt_pos.2 htpos
  have hqq : q ^ 2 = t := Real.sq_sqrt htpos.le
  have hqW : |q - W| ≤ δ * W := by
    have e1 : (q - W) * (q + W) = t - W ^ 2 := by rw [← hqq]; ring
    have e2 : |q - W| * (q + W) ≤ δ * W ^ 2 := by
      rw [← abs_of_pos (show 0 < q + W by linarith), ← abs_mul, e1]
      exact ht'
    have e3 : |q - W| * W ≤ δ * W * W := by nlinarith [abs_nonneg (q - W)]
    exact le_of_mul_le_mul_right e3 hWpos
  have hrW : |r - W| ≤ (δ + 2 * u) * W := by
    have e1 : q ≤ 2 * W := by nlinarith [(abs_le.1 hqW).2]
    have e2 : r - W = (r - q) + (q - W) := by ring
    rw [e2]
    refine (abs_add_le _ _).trans ?_
    nlinarith
  set κ := δ + 2 * u with hκ
  have hκ1 : κ ≤ 1 / 40 := by rw [hκ]; linarith
  have hκ0 : 0 ≤ κ := by positivity
  have hr1 : 39 / 40 * W ≤ r := by nlinarith [(abs_le.1 hrW).1]
  have hrpos : 0 < r := by nlinarith
  have hk : |W / r - 1| ≤ 5 / 4 * κ := by
    have e1 : W / r - 1 = -(r - W) / r := by field_simp; ring
    rw [e1, abs_div, abs_neg, abs_of_pos hrpos, div_le_iff₀ hrpos]
    have e2 : κ * (39 / 40 * W) ≤ κ * r := mul_le_mul_of_nonneg_left hr1 hκ0
    have e3 : 0 ≤ κ * W := by positivity
    linarith
  have hk1 : W / r ≤ 5 / 4 := by linarith [(abs_le.1 hk).2]
  have hk0 : 0 ≤ W / r := by positivity
  have hs1 : |s| ≤ 1 + u := by
    have e : s = (s - Real.sin h) + Real.sin h := by ring
    rw [e]
    exact (abs_add_le _ _).trans (by linarith [Real.abs_sin_le_one h])
  have hsk : |s / r| * W = |s| * (W / r) := by rw [abs_div, abs_of_pos hrpos]; ring
  have hsk1 : |s| * (W / r) ≤ 13 / 10 := by
    calc |s| * (W / r) ≤ (1 + u) * (5 / 4) := mul_le_mul hs1 hk1 hk0 (by linarith)
      _ ≤ 13 / 10 := by linarith
  have hmW : abs (|m| * W - |s| * (W / r)) ≤ u * (13 / 10) + Z := by
    have e1 : |m| * W - |s| * (W / r) = (|m| - |s / r|) * W := by rw [sub_mul, hsk]
    rw [e1, abs_mul, abs_of_pos hWpos]
    have e2 : abs (|m| - |s / r|) ≤ u * |s / r| + η := (abs_abs_sub_abs_le _ _).trans hm
    have e3 : abs (|m| - |s / r|) * W ≤ (u * |s / r| + η) * W := mul_le_mul_of_nonneg_right e2 hW
    have e4 : (u * |s / r| + η) * W = u * (|s| * (W / r)) + η * W := by rw [← hsk]; ring
    have e5 := mul_le_mul_of_nonneg_left hsk1 hu
    linarith
  have hmW1 : |m| * W ≤ 3 / 2 := by linarith [(abs_le.1 hmW).2]
  have hL1 : |L - |m| * W| ≤ 3 / 2 * u + 2 * η := by
    have := mul_le_mul_of_nonneg_left hmW1 hu
    linarith
  have hs2 : abs (|s| * (W / r) - |s|) ≤ 13 / 10 * κ := by
    have e1 : |s| * (W / r) - |s| = |s| * (W / r - 1) := by ring
    rw [e1, abs_mul, abs_abs]
    calc |s| * |W / r - 1| ≤ (1 + u) * (5 / 4 * κ) := mul_le_mul hs1 hk (abs_nonneg _) (by linarith)
      _ ≤ 13 / 10 * κ := by linarith [mul_le_mul_of_nonneg_right hu' hκ0]
  have hs3 : abs (|s| - |Real.sin h|) ≤ u := (abs_abs_sub_abs_le _ _).trans hs
  have hA : abs (L - |Real.sin h|) ≤ 9 * u + 3 * γ + Z + 10 ^ 11 * η := by
    have e : L - |Real.sin h| = (L - |m| * W) + (|m| * W - |s| * (W / r)) + (|s| * (W / r) - |s|) + (|s| - |Real.sin h|) := by ring
    rw [e]
    have b1 := abs_add_le ((L - |m| * W) + (|m| * W - |s| * (W / r)) + (|s| * (W / r) - |s|)) (|s| - |Real.sin h|)
    have b2 := abs_add_le ((L - |m| * W) + (|m| * W - |s| * (W / r))) (|s| * (W / r) - |s|)
    have b3 := abs_add_le (L - |m| * W) (|m| * W - |s| * (W / r))
    rw [hκ, hδ] at hs2
    linarith
  have h1 := sq_close hA (by rw [abs_abs]; exact Real.abs_sin_le_one h) (by linarith)
  have h2 := sq_close hw (Real.abs_cos_le_one h) (by linarith)
  rw [sq_abs] at h1
  have e : w ^ 2 + L ^ 2 - 1 = (w ^ 2 - Real.cos h ^ 2) + (L ^ 2 - Real.sin h ^ 2) := by
    have := Real.sin_sq_add_cos_sq h
    linarith
  rw [e]
  exact (abs_add_le _ _).trans (by linarith)

set_option maxHeartbeats 1000000 in
/-- The branch for small angles: what the polynomials are multiplied with. -/
theorem taylor_branch {u γ η W t m L w : ℝ} (hu : 0 ≤ u) (hu' : u ≤ 1 / 1000) (hγ : 0 ≤ γ) (hγ' : γ ≤ 1 / 100) (hη : 0 ≤ η) (hη' : η ≤ 1 / 10 ^ 14) (hW : 0 ≤ W)
    (ht : |t - W ^ 2| ≤ γ * W ^ 2 + η) (hts : t ≤ 11 / 10 ^ 11) (hm : |m - 1 / 2| ≤ 1 / 10 ^ 10 + 4 * u + 4 * η) (hw : |w - (1 - t / 8)| ≤ 5 * u + 3 * η + 1 / 10 ^ 21)
    (hL : |L - |m| * W| ≤ u * (|m| * W) + 2 * η) : |w ^ 2 + L ^ 2 - 1| ≤ 19 * u + γ + 17 * η + 1 / 10 ^ 19 := by
  obtain ⟨t1, t2⟩ := abs_le.1 ht
  have hW2 : W ^ 2 ≤ 2 / 10 ^ 10 := by nlinarith [sq_nonneg W]
  have htabs : |t| ≤ 2 / 10 ^ 10 := by
    rw [abs_le]
    constructor
    · nlinarith [sq_nonneg W]
    · linarith
  have hW1 : W ≤ 1 / 10 ^ 4 := by
    by_contra hc
    push Not at hc
    nlinarith
  have hm1 : |m| ≤ 1 := by
    have e : m = (m - 1 / 2) + 1 / 2 := by ring
    rw [e]
    refine (abs_add_le _ _).trans ?_
    rw [abs_of_pos (show (0 : ℝ) < 1 / 2 by norm_num)]
    linarith
  have hmW : |m| * W ≤ 1 := by
    calc |m| * W ≤ 1 * (1 / 10 ^ 4) := mul_le_mul hm1 hW1 hW (by norm_num)
      _ ≤ 1 := by norm_num
  have hmW0 : 0 ≤ |m| * W := by positivity
  have hL1 : |L - |m| * W| ≤ u + 2 * η := by
    have := mul_le_mul_of_nonneg_left hmW hu
    linarith
  have hL2 := sq_close hL1 (by rw [abs_of_nonneg hmW0]; exact hmW) (by linarith)
  have hm2 : |(|m| * W) ^ 2 - W ^ 2 / 4| ≤ 6 / 10 ^ 20 + u + η := by
    have e : (|m| * W) ^ 2 - W ^ 2 / 4 = W ^ 2 * ((m - 1 / 2) * (m + 1 / 2)) := by rw [mul_pow, sq_abs]; ring
    rw [e, abs_mul, abs_mul, abs_of_nonneg (sq_nonneg W)]
    have h1 : |m + 1 / 2| ≤ 3 / 2 := by
      refine (abs_add_le _ _).trans ?_
      rw [abs_of_pos (show (0 : ℝ) < 1 / 2 by norm_num)]
      linarith
    have h2 : |m - 1 / 2| * |m + 1 / 2| ≤ (1 / 10 ^ 10 + 4 * u + 4 * η) * (3 / 2) := mul_le_mul hm h1 (abs_nonneg _) (by positivity)
    calc W ^ 2 * (|m - 1 / 2| * |m + 1 / 2|) ≤ 2 / 10 ^ 10 * ((1 / 10 ^ 10 + 4 * u + 4 * η) * (3 / 2)) := mul_le_mul hW2 h2 (by positivity) (by positivity)
      _ ≤ 6 / 10 ^ 20 + u + η := by linarith
  have hw2 : |w ^ 2 - (1 - t / 8) ^ 2| ≤ 3 * (5 * u + 3 * η + 1 / 10 ^ 21) + 1 / 10 ^ 21 := by
    have e : w ^ 2 - (1 - t / 8) ^ 2 = (w - (1 - t / 8)) * ((w - (1 - t / 8)) + 2 * (1 - t / 8)) := by ring
    rw [e, abs_mul]
    have h1 : |(w - (1 - t / 8)) + 2 * (1 - t / 8)| ≤ 3 := by
      refine (abs_add_le _ _).trans ?_
      have h2 : |2 * (1 - t / 8)| ≤ 2 + 1 / 10 ^ 10 := by
        obtain ⟨a1, a2⟩ := abs_le.1 htabs
        rw [abs_le]
        constructor <;> linarith
      linarith
    calc |w - (1 - t / 8)| * |(w - (1 - t / 8)) + 2 * (1 - t / 8)| ≤ (5 * u + 3 * η + 1 / 10 ^ 21) * 3 := mul_le_mul hw h1 (abs_nonneg _) (by positivity)
      _ ≤ _ := by linarith [show (0 : ℝ) ≤ 1 / 10 ^ 21 by positivity]
  have ht2 : |t ^ 2 / 64| ≤ 1 / 10 ^ 21 := by
    rw [abs_of_nonneg (by positivity), ← sq_abs]
    have : |t| ^ 2 ≤ (2 / 10 ^ 10) ^ 2 := pow_le_pow_left₀ (abs_nonneg _) htabs 2
    linarith [show ((2 : ℝ) / 10 ^ 10) ^ 2 / 64 ≤ 1 / 10 ^ 21 by norm_num]
  have htW : |(W ^ 2 - t) / 4| ≤ γ + η := by
    rw [abs_div, abs_sub_comm, abs_of_pos (show (0 : ℝ) < 4 by norm_num)]
    have : γ * W ^ 2 ≤ γ * 1 := mul_le_mul_of_nonneg_left (by linarith) hγ
    linarith [abs_nonneg (t - W ^ 2)]
  have e : w ^ 2 + L ^ 2 - 1 = (w ^ 2 - (1 - t / 8) ^ 2) + t ^ 2 / 64 + (L ^ 2 - (|m| * W) ^ 2) + ((|m| * W) ^ 2 - W ^ 2 / 4) + (W ^ 2 - t) / 4 := by ring
  rw [e]
  have b1 := abs_add_le ((w ^ 2 - (1 - t / 8) ^ 2) + t ^ 2 / 64 + (L ^ 2 - (|m| * W) ^ 2) + ((|m| * W) ^ 2 - W ^ 2 / 4)) ((W ^ 2 - t) / 4)
  have b2 := abs_add_le ((w ^ 2 - (1 - t / 8) ^ 2) + t ^ 2 / 64 + (L ^ 2 - (|m| * W) ^ 2)) ((|m| * W) ^ 2 - W ^ 2 / 4)
  have b3 := abs_add_le ((w ^ 2 - (1 - t / 8) ^ 2) + t ^ 2 / 64) (L ^ 2 - (|m| * W) ^ 2)
  have b4 := abs_add_le (w ^ 2 - (1 - t / 8) ^ 2) (t ^ 2 / 64)
  have : (4 : ℝ) / 10 ^ 21 + 1 / 10 ^ 21 + 6 / 10 ^ 20 ≤ 1 / 10 ^ 19 := by norm_num
  linarith

theorem product_le {u η A B a b v : ℝ} (hu : 0 ≤ u) (hA : |A| ≤ a) (hB : |B| ≤ b) (h : |v - A * B| ≤ u * |A * B| + η) : |v| ≤ (1 + u) * (a * b) + η := by
  have h1 : |A * B| ≤ a * b := by
    rw [abs_mul]
    exact mul_le_mul hA hB (abs_nonneg _) ((abs_nonneg _).trans hA)
  have e : v = (v - A * B) + A * B := by ring
  rw [e]
  have := mul_le_mul_of_nonneg_left h1 hu
  exact (abs_add_le _ _).trans (by linarith)

theorem literal_le {x a u b : ℝ} (h : |x - a| ≤ u) (ha : 0 ≤ a) (hb : a + u ≤ b) : |x| ≤ b := by
  have e : x = (x - a) + a := by ring
  rw [e]
  refine (abs_add_le _ _).trans ?_
  rw [abs_of_nonneg ha]
  linarith

/-- The norm of the quaternion that `so3_exp` computes. -/
theorem so3_norm (hc : TrigAccuracy o c finite val u γ η ζ) (omega : Fin 3 → V) (fw : finite (so3Exp o c omega).w) (fx : finite (so3Exp o c omega).x) (fy : finite (so3Exp o c omega).y)
    (fz : finite (so3Exp o c omega).z) : |quatNorm val (so3Exp o c omega) - 1| ≤ 30 * u + 9 * γ + 3 * ζ + 4 * 10 ^ 11 * η + 1 / 10 ^ 19 := by
  have hu := hc.u_nonneg
  have hu' := hc.u_le
  have hγ := hc.γ_nonneg
  have hγ' := hc.γ_le
  have hη := hc.η_nonneg
  have hη' := hc.η_le
  have hζ := hc.ζ_nonneg
  have hζ' := hc.ζ_le
  set T := o.dot3 (omega 0) (omega 1) (omega 2) (omega 0) (omega 1) (omega 2) with hT
  set wv : Fin 3 → ℝ := fun i => val (omega i) with hwv
  set W := len wv with hWd
  have hW : 0 ≤ W := len_nonneg _
  have hWsq : W ^ 2 = val (omega 0) * val (omega 0) + val (omega 1) * val (omega 1) + val (omega 2) * val (omega 2) := by
    rw [hWd, len_sq]
    simp only [dotProduct, Fin.sum_univ_three, hwv]
  have hdot : finite T → |val T - W ^ 2| ≤ γ * W ^ 2 + η := by
    intro hf
    have := (hc.dot _ _ _ _ _ _ hf).2
    simp only [abs_mul_self] at this
    rw [hWsq]
    exact this
  have him : ∀ (f w : V), finite (o.mul f (omega 0)) → finite (o.mul f (omega 1)) → finite (o.mul f (omega 2)) → ∃ L, |L - |val f| * W| ≤ u * (|val f| * W) + 2 * η ∧
      quatNorm val ⟨w, o.mul f (omega 0), o.mul f (omega 1), o.mul f (omega 2)⟩ = val w ^ 2 + L ^ 2 := by
    intro f w g0 g1 g2
    refine ⟨len ![val (o.mul f (omega 0)), val (o.mul f (omega 1)), val (o.mul f (omega 2))], imag_len hu hη ?_, ?_⟩
    · intro i
      fin_cases i
      · exact (hc.mul _ _ g0).2.2
      · exact (hc.mul _ _ g1).2.2
      · exact (hc.mul _ _ g2).2.2
    · rw [len_sq]
      simp [quatNorm, dotProduct, Fin.sum_univ_three]
      ring
  by_cases hlt : T < c.small
  · have hq : so3Exp o c omega = ⟨o.add (o.sub c.one (o.mul c.c8 T)) (o.mul c.c384 (o.mul T T)),
        o.mul (o.add (o.sub c.half (o.mul c.c48 T)) (o.mul c.c3840 (o.mul T T))) (omega 0), o.mul (o.add (o.sub c.half (o.mul c.c48 T)) (o.mul c.c3840 (o.mul T T))) (omega 1),
        o.mul (o.add (o.sub c.half (o.mul c.c48 T)) (o.mul c.c3840 (o.mul T T))) (omega 2)⟩ := by
      simp only [so3Exp, ← hT, if_pos hlt]
    rw [hq] at fw fx fy fz ⊢
    simp only at fw fx fy fz
    obtain ⟨L, hL, hn⟩ := him _ (o.add (o.sub c.one (o.mul c.c8 T)) (o.mul c.c384 (o.mul T T))) fx fy fz
    rw [hn]
    obtain ⟨fm, _, _⟩ := hc.mul _ _ fx
    obtain ⟨fa, fp2, em⟩ := hc.add _ _ fm
    obtain ⟨_, fp1, ea⟩ := hc.sub _ _ fa
    obtain ⟨_, fT, ep1⟩ := hc.mul _ _ fp1
    obtain ⟨_, ftq, ep2⟩ := hc.mul _ _ fp2
    obtain ⟨_, _, etq⟩ := hc.mul _ _ ftq
    obtain ⟨fb, fp3, ew⟩ := hc.add _ _ fw
    obtain ⟨_, fp8, eb⟩ := hc.sub _ _ fb
    obtain ⟨_, _, ep8⟩ := hc.mul _ _ fp8
    obtain ⟨_, _, ep3⟩ := hc.mul _ _ fp3
    have ht := hdot fT
    have hts : val T ≤ 11 / 10 ^ 11 := by
      have h1 := (hc.lt _ _ fT hc.small.1).1 hlt
      have h2 := (abs_le.1 hc.small.2).2
      linarith
    have htabs : |val T| ≤ 2 / 10 ^ 10 := by
      obtain ⟨t1, t2⟩ := abs_le.1 ht
      rw [abs_le]
      constructor
      · have : 0 ≤ (1 - γ) * W ^ 2 := mul_nonneg (by linarith) (sq_nonneg W)
        linarith
      · linarith
    have l48 : |val c.c48| ≤ 1 / 40 := literal_le hc.c48 (by norm_num) (by linarith)
    have l3840 : |val c.c3840| ≤ 1 / 40 := literal_le hc.c3840 (by norm_num) (by linarith)
    have l384 : |val c.c384| ≤ 1 / 100 := literal_le hc.c384 (by norm_num) (by linarith)
    have b1 := product_le hu l48 htabs ep1
    have btq := product_le hu htabs htabs etq
    have btq' : |val (o.mul T T)| ≤ 5 / 10 ^ 20 + η := by linarith
    have b2 := product_le hu l3840 btq' ep2
    have b3 := product_le hu l384 btq' ep3
    have uη : u * η ≤ η / 1000 := by linarith [mul_le_mul_of_nonneg_right hu' hη]
    have b1' : |val (o.mul c.c48 T)| ≤ 1 / 10 ^ 11 + η := by linarith
    have b2' : |val (o.mul c.c3840 (o.mul T T))| ≤ 1 / 10 ^ 20 + 2 * η := by linarith
    have b3' : |val (o.mul c.c384 (o.mul T T))| ≤ 1 / 10 ^ 21 + 2 * η := by linarith
    have hm : |val (o.add (o.sub c.half (o.mul c.c48 T)) (o.mul c.c3840 (o.mul T T))) - 1 / 2| ≤ 1 / 10 ^ 10 + 4 * u + 4 * η := by
      rw [hc.half] at ea
      generalize val (o.add (o.sub c.half (o.mul c.c48 T)) (o.mul c.c3840 (o.mul T T))) = m at *
      generalize val (o.sub c.half (o.mul c.c48 T)) = a at *
      generalize val (o.mul c.c48 T) = p1 at *
      generalize val (o.mul c.c3840 (o.mul T T)) = p2 at *
      obtain ⟨x1, x2⟩ := abs_le.1 b1'
      obtain ⟨y1, y2⟩ := abs_le.1 b2'
      have g1 : |1 / 2 - p1| ≤ 1 := by rw [abs_le]; constructor <;> linarith
      have g2 := mul_le_mul_of_nonneg_left g1 hu
      obtain ⟨z1, z2⟩ := abs_le.1 (ea.trans g2)
      have g3 : |a + p2| ≤ 1 := by rw [abs_le]; constructor <;> linarith
      have g4 := mul_le_mul_of_nonneg_left g3 hu
      obtain ⟨v1, v2⟩ := abs_le.1 (em.trans g4)
      rw [abs_le]
      constructor <;> linarith
    have hw : |val (o.add (o.sub c.one (o.mul c.c8 T)) (o.mul c.c384 (o.mul T T))) - (1 - val T / 8)| ≤ 5 * u + 3 * η + 1 / 10 ^ 21 := by
      rw [hc.one] at eb
      have hc8 := hc.c8
      generalize val (o.add (o.sub c.one (o.mul c.c8 T)) (o.mul c.c384 (o.mul T T))) = m at *
      generalize val (o.sub c.one (o.mul c.c8 T)) = a at *
      generalize val (o.mul c.c8 T) = p1 at *
      generalize val (o.mul c.c384 (o.mul T T)) = p2 at *
      generalize val c.c8 = k at *
      have k1 : |k| ≤ 1 := literal_le hc8 (by norm_num) (by linarith)
      have k2 : |k * val T| ≤ 2 / 10 ^ 10 := by
        rw [abs_mul]
        calc |k| * |val T| ≤ 1 * (2 / 10 ^ 10) := mul_le_mul k1 htabs (abs_nonneg _) (by norm_num)
          _ = 2 / 10 ^ 10 := one_mul _
      have k3 := mul_le_mul_of_nonneg_left k2 hu
      have k4 : |k * val T - val T / 8| ≤ u * (2 / 10 ^ 10) := by
        have e : k * val T - val T / 8 = (k - 1 / 8) * val T := by ring
        rw [e, abs_mul]
        exact mul_le_mul hc8 htabs (abs_nonneg _) hu
      obtain ⟨x1, x2⟩ := abs_le.1 (ep8.trans (add_le_add_left k3 η))
      obtain ⟨w1, w2⟩ := abs_le.1 k4
      obtain ⟨y1, y2⟩ := abs_le.1 b3'
      obtain ⟨t1, t2⟩ := abs_le.1 htabs
      have g1 : |1 - p1| ≤ 2 := by rw [abs_le]; constructor <;> linarith
      have g2 := mul_le_mul_of_nonneg_left g1 hu
      obtain ⟨z1, z2⟩ := abs_le.1 (eb.trans g2)
      have g3 : |a + p2| ≤ 2 := by rw [abs_le]; constructor <;> linarith
      have g4 := mul_le_mul_of_nonneg_left g3 hu
      obtain ⟨v1, v2⟩ := abs_le.1 (ew.trans g4)
      rw [abs_le]
      constructor <;> linarith
    have := taylor_branch hu hu' hγ hγ' hη hη' hW ht hts hm hw hL
    linarith
  · have hq : so3Exp o c omega = ⟨c.cos (o.mul c.half (c.sqrt T)), o.mul (o.div (c.sin (o.mul c.half (c.sqrt T))) (c.sqrt T)) (omega 0),
        o.mul (o.div (c.sin (o.mul c.half (c.sqrt T))) (c.sqrt T)) (omega 1), o.mul (o.div (c.sin (o.mul c.half (c.sqrt T))) (c.sqrt T)) (omega 2)⟩ := by
      simp only [so3Exp, ← hT, if_neg hlt]
    rw [hq] at fw fx fy fz ⊢
    simp only at fw fx fy fz
    obtain ⟨L, hL, hn⟩ := him _ (c.cos (o.mul c.half (c.sqrt T))) fx fy fz
    rw [hn]
    obtain ⟨fm, _, _⟩ := hc.mul _ _ fx
    obtain ⟨fs, hdiv⟩ := hc.div _ _ fm
    obtain ⟨fh, es⟩ := hc.sin _ fs
    obtain ⟨_, fr, _⟩ := hc.mul _ _ fh
    obtain ⟨_, em⟩ := hdiv fr
    obtain ⟨fT, hT0, er⟩ := hc.sqrt _ fr
    obtain ⟨_, ew⟩ := hc.cos _ fw
    have ht := hdot fT
    have hts : 9 / 10 ^ 11 ≤ val T := by
      have h1 : ¬ val T < val c.small := fun h => hlt ((hc.lt _ _ fT hc.small.1).2 h)
      have h2 := (abs_le.1 hc.small.2).1
      linarith
    have hηW : η * W ≤ ζ + η := by
      have h1 := hc.range _ fT
      rw [abs_of_nonneg hT0] at h1
      have h2 : (1 - γ) * W ^ 2 ≤ val T + η := by
        obtain ⟨t1, t2⟩ := abs_le.1 ht
        linarith
      have h3 : W ^ 2 ≤ 2 * (val T + η) := by nlinarith [sq_nonneg W]
      have h4 : (η * W) ^ 2 ≤ η ^ 2 * (2 * (val T + η)) := by
        rw [mul_pow]
        exact mul_le_mul_of_nonneg_left h3 (sq_nonneg η)
      have h5 : η ^ 2 * (2 * (val T + η)) ≤ ζ ^ 2 + 2 * (η ^ 2 * η) := by linarith [show η ^ 2 * (2 * (val T + η)) = 2 * (η ^ 2 * val T) + 2 * (η ^ 2 * η) by ring]
      have h6 : η ^ 2 * η ≤ η ^ 2 * (1 / 2) := mul_le_mul_of_nonneg_left (by linarith) (sq_nonneg η)
      exact (abs_le_of_sq_le_sq' (by nlinarith [mul_nonneg hζ hη]) (by linarith)).2
    have := trig_branch hu hu' hγ hγ' hη hη' (by linarith) hW ht hts er es em hηW hL ew
    linarith

/-- The rotation part of `se3_exp` is within a small multiple of the rounding errors of a rotation: for IEEE doubles (`u = 2^-53`, `γ = 3 u`, `η` and `ζ` negligible) about `4e-14`. -/
theorem C107_exp (hc : TrigAccuracy o c finite val u γ η ζ) (t : (Fin 6 → V) → Fin 3 → V) :
    ExpAccuracy finite val (se3Exp o c t) (213 * u + 36 * γ + 12 * ζ + 2 * 10 ^ 12 * η + 4 / 10 ^ 19) := by
  intro a hf
  have hu' := hc.u_le
  have hγ' := hc.γ_le
  have hη' := hc.η_le
  have hη := hc.η_nonneg
  have hζ' := hc.ζ_le
  have h01 : finite _ := hf 0 1
  have h11 : finite _ := hf 1 1
  simp only [se3Exp, toRotation] at h01 h11
  obtain ⟨g1, g2, _⟩ := hc.sub _ _ h01
  obtain ⟨g3, fx, _⟩ := hc.mul _ _ g1
  obtain ⟨_, fy, _⟩ := hc.mul _ _ g3
  obtain ⟨g4, fw, _⟩ := hc.mul _ _ g2
  obtain ⟨_, fz, _⟩ := hc.mul _ _ g4
  have hn := so3_norm hc _ fw fx fy fz
  exact near_mono (toRotation_near hc (by linarith) hn hf) (by linarith)

/-- The contract on sums of products is part of that on floating-point arithmetic. -/
theorem trig_dot (hc : TrigAccuracy o c finite val u γ η ζ) : DotAccuracy o finite val γ η :=
  ⟨hc.γ_nonneg, hc.η_nonneg, fun a b d x y z h => (hc.dot a b d x y z h).1, fun a b d x y z h _ _ _ _ _ _ => (hc.dot a b d x y z h).2⟩

end Exp

/-! ### numbers -/

theorem drift_le {γ η ε e : ℝ} (hγ : 0 ≤ γ) (hη : 0 ≤ η) (hε : 0 ≤ ε) (he : 0 ≤ e) {n : ℕ} (hn : n * (ε + γ * (2 + ε)) ≤ 1) : rotationDrift γ η ε e n ≤ 3 * (e + n * (ε + 2 * γ * (2 + ε) + 3 * η)) := by
  unfold rotationDrift
  refine mul_le_mul_of_nonneg_right ?_ (by positivity)
  have h1 : (1 + (ε + γ * (2 + ε))) ^ n ≤ Real.exp (ε + γ * (2 + ε)) ^ n := pow_le_pow_left₀ (by positivity) (by rw [add_comm]; exact Real.add_one_le_exp _) n
  rw [← Real.exp_nat_mul] at h1
  exact h1.trans ((Real.exp_le_exp.2 hn).trans (by linarith [Real.exp_one_lt_d9]))

/-- With the errors of IEEE doubles, the rotation part of `se3_exp` is within `4e-14` of a rotation, a registration of at most 20 iterations (the default) from the identity within `3e-12`, and the poses of the first
10000 frames of an engine that multiplies the results within `1e-7`. -/
theorem C107_doubles {u γ η ζ : ℝ} (hγ0 : 0 ≤ γ) (hη0 : 0 ≤ η) (hu : u ≤ 1 / 2 ^ 53) (hγ : γ ≤ 3 / 2 ^ 53) (hη' : η ≤ 1 / 10 ^ 40) (hζ' : ζ ≤ 1 / 10 ^ 40) :
    213 * u + 36 * γ + 12 * ζ + 2 * 10 ^ 12 * η + 4 / 10 ^ 19 ≤ 4 / 10 ^ 14 ∧
    (∀ ε, 0 ≤ ε → ε ≤ 4 / 10 ^ 14 → ∀ n ≤ 20, rotationDrift γ η ε 0 n ≤ 3 / 10 ^ 12) ∧
    (∀ ρ, 0 ≤ ρ → ρ ≤ 3 / 10 ^ 12 → ∀ k ≤ 10000, rotationDrift γ η ρ 0 k ≤ 1 / 10 ^ 7) := by
  have hγ' : γ ≤ 4 / 10 ^ 16 := hγ.trans (by norm_num)
  have hu' : u ≤ 12 / 10 ^ 17 := hu.trans (by norm_num)
  clear hγ hu
  refine ⟨by linarith, ?_, ?_⟩
  · intro ε h0 h1 n hn
    have hnr : (n : ℝ) ≤ 20 := by exact_mod_cast hn
    have hn0 : (0 : ℝ) ≤ n := Nat.cast_nonneg n
    have g1 : γ * (2 + ε) ≤ 4 / 10 ^ 16 * 3 := mul_le_mul hγ' (by linarith) (by linarith) (by norm_num)
    have g0 : 0 ≤ γ * (2 + ε) := by positivity
    have g2 : (n : ℝ) * (ε + 2 * γ * (2 + ε) + 3 * η) ≤ 20 * (5 / 10 ^ 14) := mul_le_mul hnr (by linarith) (by positivity) (by norm_num)
    have g3 : (n : ℝ) * (ε + γ * (2 + ε)) ≤ 20 * (5 / 10 ^ 14) := mul_le_mul hnr (by linarith) (by positivity) (by norm_num)
    have := drift_le hγ0 hη0 h0 le_rfl (n := n) (g3.trans (by norm_num))
    linarith
  · intro ε h0 h1 n hn
    have hnr : (n : ℝ) ≤ 10000 := by exact_mod_cast hn
    have hn0 : (0 : ℝ) ≤ n := Nat.cast_nonneg n
    have g1 : γ * (2 + ε) ≤ 4 / 10 ^ 16 * 3 := mul_le_mul hγ' (by linarith) (by linarith) (by norm_num)
    have g0 : 0 ≤ γ * (2 + ε) := by positivity
    have g2 : (n : ℝ) * (ε + 2 * γ * (2 + ε) + 3 * η) ≤ 10000 * (33 / 10 ^ 13) := mul_le_mul hnr (by linarith) (by positivity) (by norm_num)
    have g3 : (n : ℝ) * (ε + γ * (2 + ε)) ≤ 10000 * (33 / 10 ^ 13) := mul_le_mul hnr (by linarith) (by positivity) (by norm_num)
    have := drift_le hγ0 hη0 h0 le_rfl (n := n) (g3.trans (by norm_num))
    linarith

/-- The claims together: in floating-point arithmetic with the errors of IEEE doubles, a registration from a pose with rotation part one (the default), with at most 20 iterations (the default), has a result whose
rotation part is within `3e-12` of a rotation, unless it holds a NaN or an infinity. -/
theorem C107_registration {F V H B M : Type} [LT V] [DecidableLT V] [LE V] [DecidableLE V] [Zero V] [Add V] [Mul V] [Div V] [Zero H] [Add H] [Zero B] [Add B] {o : Ops V} {c : TrigOps V} {finite : V → Prop}
    {val : V → ℝ} {u γ η ζ : ℝ} (hc : TrigAccuracy o c finite val u γ η ζ) (hu : u ≤ 1 / 2 ^ 53) (hγ : γ ≤ 3 / 2 ^ 53) (hη : η ≤ 1 / 10 ^ 40) (hζ : ζ ≤ 1 / 10 ^ 40) (t : (Fin 6 → V) → Fin 3 → V)
    (mf : Factor F V (Pose V) H B M) (w : World V M) (cfg : Config V (Pose V) H B (Fin 6 → V)) (hstep : ∀ T d, cfg.step T d = poseMul o T (se3Exp o c t d)) (execL execE : Pose V → List F → RegMem.Exec)
    (meth : Method V) (hmax : iterationLimit meth ≤ 20) (T0 : Pose V) (h0 : rotationPart val T0 = 1) (n : ℕ) {r fs log} (h : align mf w cfg execL execE meth T0 n = .ok (r, fs, log))
    (hf : RotationFinite finite r.T) : NearRotation (3 / 10 ^ 12) (rotationPart val r.T) := by
  have hε0 : 0 ≤ 213 * u + 36 * γ + 12 * ζ + 2 * 10 ^ 12 * η + 4 / 10 ^ 19 := by
    have := hc.u_nonneg
    have := hc.γ_nonneg
    have := hc.ζ_nonneg
    have := hc.η_nonneg
    positivity
  obtain ⟨d1, d2, _⟩ := C107_doubles hc.γ_nonneg hc.η_nonneg hu hγ hη hζ
  have hI : NearRotation 0 (rotationPart val T0) := ⟨1, ⟨by simp, by simp⟩, by rw [h0, sub_self]; simp [fro, len]⟩
  have hlim := (method_poses (problem mf w cfg execL execE) (fun _ _ => True) (fun _ _ _ => trivial) (fun _ _ _ _ _ _ => trivial) meth T0 _ trivial h).1
  have hd := d2 _ hε0 d1 (r.iterations + 1) (by have := limit_le hlim; omega)
  obtain ⟨_, g, _⟩ := C107_optimizers (trig_dot hc) hε0 (d1.trans (by norm_num)) (C107_exp hc t) (problem mf w cfg execL execE) (fun T d => hstep T d) meth T0 _ hI h (hd.trans (by norm_num))
  exact near_mono (g hf) hd

/-! ### the growth is real -/

/-- A problem whose every step is a rotation by no angle, computed with relative error `δ`. -/
noncomputable def stretching (δ : ℝ) : Machine.Problem Unit ℝ (Pose ℝ) ℝ ℝ Unit where
  linearize := fun _ fs => .ok (fs, (1, 1, 1))
  error := fun _ _ => .ok 0
  updateLinearized := fun _ s => s
  updateError := fun _ e => e
  delta := fun _ _ _ => ()
  step := fun T _ => poseMul (exactOps ℝ) T ⟨(1 + δ) • (1 : Matrix (Fin 3) (Fin 3) ℝ), 0⟩
  converged := fun _ => false
  inlier := fun _ => true

theorem stretching_step (δ : ℝ) (a : ℝ) (T : Pose ℝ) (hT : T.R = a • (1 : Matrix (Fin 3) (Fin 3) ℝ)) : ((stretching δ).step T ()).R = (a * (1 + δ)) • (1 : Matrix (Fin 3) (Fin 3) ℝ) := by
  ext i j
  simp only [stretching, poseMul, exactOps, hT]
  fin_cases i <;> fin_cases j <;> simp

/-- Without rounding in the products and with steps within `2 δ` of a rotation, the result of Gauss-Newton after `n` iterations can be `n δ` away from every rotation: nothing in the code brings a pose back. -/
theorem C107_grows {δ : ℝ} (hδ : 0 ≤ δ) (n : ℕ) :
    DotAccuracy (exactOps ℝ) (fun _ => True) id 0 0 ∧ ExpAccuracy (fun _ => True) id (fun _ : Unit => (⟨(1 + δ) • (1 : Matrix (Fin 3) (Fin 3) ℝ), 0⟩ : Pose ℝ)) (2 * δ) ∧
    ∃ r fs log, (Method.gn (1 : ℝ) n).run (stretching δ) ⟨1, 0⟩ [()] = .ok (r, fs, log) ∧ ∀ e, NearRotation e (rotationPart id r.T) → n * δ ≤ e := by
  refine ⟨⟨le_rfl, le_rfl, fun _ _ _ _ _ _ _ => ⟨trivial, trivial, trivial, trivial, trivial, trivial⟩, ?_⟩, ?_, ?_⟩
  · intro a b c x y z _ _ _ _ _ _ _
    simp [exactOps]
  · intro _ _
    refine ⟨1, ⟨by simp, by simp⟩, ?_⟩
    have e1 : rotationPart id (⟨(1 + δ) • (1 : Matrix (Fin 3) (Fin 3) ℝ), 0⟩ : Pose ℝ) - 1 = δ • (1 : Matrix (Fin 3) (Fin 3) ℝ) := by
      have : rotationPart id (⟨(1 + δ) • (1 : Matrix (Fin 3) (Fin 3) ℝ), 0⟩ : Pose ℝ) = (1 + δ) • (1 : Matrix (Fin 3) (Fin 3) ℝ) := rfl
      rw [this, add_smul, one_smul]
      abel
    rw [e1, fro_smul, abs_of_nonneg hδ]
    have : fro (1 : Matrix (Fin 3) (Fin 3) ℝ) ≤ 2 := fro_rotation ⟨by simp, by simp⟩
    nlinarith
  · have loop : ∀ (fuel i : ℕ) (a : ℝ) (r0 : Machine.Result ℝ (Pose ℝ) ℝ ℝ), r0.converged = false → r0.T.R = a • (1 : Matrix (Fin 3) (Fin 3) ℝ) →
        ∃ r fs log, Machine.gnLoop (stretching δ) 1 fuel i r0 [()] = .ok (r, fs, log) ∧ r.T.R = (a * (1 + δ) ^ fuel) • (1 : Matrix (Fin 3) (Fin 3) ℝ) := by
      intro fuel
      induction fuel with
      | zero => intro i a r0 _ hT; exact ⟨_, _, _, rfl, by simpa using hT⟩
      | succ fuel ih =>
        intro i a r0 h0 hT
        obtain ⟨r, fs, log, h1, h2⟩ := ih (i + 1) (a * (1 + δ)) { r0 with converged := false, T := (stretching δ).step r0.T (), iterations := i, H := 1, b := 1, error := 1 } rfl
          (stretching_step δ a r0.T hT)
        refine ⟨r, fs, ⟨r0.T, [()], 1, 1, 1, 0, some (), (stretching δ).step r0.T (), 1⟩ :: log, ?_, ?_⟩
        · rw [Machine.gnLoop]
          rw [if_neg (by rw [h0]; simp)]
          show (do let x ← Machine.gnLoop (stretching δ) 1 fuel (i + 1) _ [()]; _) = _
          erw [h1]
          rfl
        · rw [h2, pow_succ']
          congr 1
          ring
    obtain ⟨r, fs, log, h1, h2⟩ := loop n 0 1 (Machine.Result.init ⟨1, 0⟩) rfl (by simp [Machine.Result.init])
    refine ⟨Machine.countInliers (stretching δ) r fs, fs, log, ?_, ?_⟩
    · simp only [Method.run, Machine.gaussNewton, Int.toNat_natCast, h1]
      rfl
    · intro e he
      have h3 := (C107_rigid he).1 ![1, 0, 0]
      have h4 : rotationPart id (Machine.countInliers (stretching δ) r fs).T = (1 + δ) ^ n • (1 : Matrix (Fin 3) (Fin 3) ℝ) := by
        have : rotationPart id (Machine.countInliers (stretching δ) r fs).T = r.T.R := rfl
        rw [this, h2, one_mul]
      have h5 : len ![(1 : ℝ), 0, 0] = 1 := by simp [len]
      rw [h4, smul_mulVec, one_mulVec, len_smul, h5, mul_one, mul_one, abs_of_nonneg (show 0 ≤ (1 + δ) ^ n by positivity)] at h3
      have h6 := one_add_mul_le_pow (show (-2 : ℝ) ≤ δ by linarith) n
      linarith [(abs_le.1 h3).2]

/-! ### examples -/

/-- Real numbers and NaN. -/
abbrev NReal : Type := Option ℝ

def NReal.val (a : NReal) : ℝ := Option.getD a 0

def NReal.finite (a : NReal) : Prop := ∃ x, a = some x

instance : LT NReal := ⟨fun a b => ∃ x y, a = some x ∧ b = some y ∧ x < y⟩

noncomputable instance : DecidableLT NReal := fun _ _ => Classical.dec _

/-- Arithmetic in which every operation errs by the factor `1 + u`, and NaN is handed on. -/
noncomputable def biasedOps (u : ℝ) : Ops NReal where
  zero := some 0
  add a b := Option.bind a fun x => Option.bind b fun y => some ((x + y) * (1 + u))
  sub a b := Option.bind a fun x => Option.bind b fun y => some ((x - y) * (1 + u))
  mul a b := Option.bind a fun x => Option.bind b fun y => some (x * y * (1 + u))
  div a b := Option.bind a fun x => Option.bind b fun y => open Classical in if y = 0 then none else some (x / y * (1 + u))
  sqNorm4 a b c d := Option.bind a fun a => Option.bind b fun b => Option.bind c fun c => Option.bind d fun d => some ((a * a + b * b + c * c + d * d) * (1 + u))
  dot3 a b c x y z := Option.bind a fun a => Option.bind b fun b => Option.bind c fun c => Option.bind x fun x => Option.bind y fun y => Option.bind z fun z => some ((a * x + b * y + c * z) * (1 + u))

noncomputable def realTrig : TrigOps NReal :=
  ⟨some 1, some 2, some (1 / 2), some (1 / 10 ^ 10), some (1 / 48), some (1 / 3840), some (1 / 8), some (1 / 384), fun a => Option.bind a fun x => open Classical in if x < 0 then none else some (Real.sqrt x),
   fun a => Option.map Real.sin a, fun a => Option.map Real.cos a, fun a => Option.map (fun x => -x) a⟩

/-- The contract can be met with errors in every operation. -/
theorem biased_accuracy {u : ℝ} (h0 : 0 ≤ u) (h1 : u ≤ 1 / 1000) : TrigAccuracy (biasedOps u) realTrig NReal.finite NReal.val u u 0 0 where
  u_nonneg := h0
  u_le := h1
  γ_nonneg := h0
  γ_le := by linarith
  η_nonneg := le_rfl
  η_le := by norm_num
  range := by intro a _; simp
  ζ_nonneg := le_rfl
  ζ_le := by norm_num
  mul := by
    rintro (_ | a) (_ | b) ⟨x, h⟩ <;> try cases h
    refine ⟨⟨a, rfl⟩, ⟨b, rfl⟩, le_of_eq ?_⟩
    simp only [NReal.val, biasedOps, Option.bind_some, Option.getD_some]
    rw [show a * b * (1 + u) - a * b = u * (a * b) by ring, abs_mul, abs_of_nonneg h0, add_zero]
  add := by
    rintro (_ | a) (_ | b) ⟨x, h⟩ <;> try cases h
    refine ⟨⟨a, rfl⟩, ⟨b, rfl⟩, le_of_eq ?_⟩
    simp only [NReal.val, biasedOps, Option.bind_some, Option.getD_some]
    rw [show (a + b) * (1 + u) - (a + b) = u * (a + b) by ring, abs_mul, abs_of_nonneg h0]
  sub := by
    rintro (_ | a) (_ | b) ⟨x, h⟩ <;> try cases h
    refine ⟨⟨a, rfl⟩, ⟨b, rfl⟩, le_of_eq ?_⟩
    simp only [NReal.val, biasedOps, Option.bind_some, Option.getD_some]
    rw [show (a - b) * (1 + u) - (a - b) = u * (a - b) by ring, abs_mul, abs_of_nonneg h0]
  div := by
    rintro (_ | a) (_ | b) ⟨x, h⟩
    · cases h
    · cases h
    · cases h
    · refine ⟨⟨a, rfl⟩, fun _ => ?_⟩
      simp only [biasedOps, Option.bind_some] at h
      by_cases hb : b = 0
      · rw [if_pos hb] at h; cases h
      refine ⟨hb, le_of_eq ?_⟩
      simp only [NReal.val, biasedOps, Option.bind_some, Option.getD_some, if_neg hb]
      rw [show a / b * (1 + u) - a / b = u * (a / b) by ring, abs_mul, abs_of_nonneg h0, add_zero]
  dot := by
    rintro (_ | a) (_ | b) (_ | c) (_ | x) (_ | y) (_ | z) ⟨v, h⟩ <;> try cases h
    refine ⟨⟨⟨a, rfl⟩, ⟨b, rfl⟩, ⟨c, rfl⟩, ⟨x, rfl⟩, ⟨y, rfl⟩, ⟨z, rfl⟩⟩, ?_⟩
    simp only [NReal.val, biasedOps, Option.bind_some, Option.getD_some]
    rw [show (a * x + b * y + c * z) * (1 + u) - (a * x + b * y + c * z) = u * (a * x + b * y + c * z) by ring, abs_mul, abs_of_nonneg h0, add_zero]
    refine mul_le_mul_of_nonneg_left ?_ h0
    exact (abs_add_le _ _).trans (by linarith [abs_add_le (a * x) (b * y)])
  sqrt := by
    rintro (_ | a) ⟨x, h⟩
    · cases h
    · simp only [realTrig, Option.bind_some] at h
      by_cases ha : a < 0
      · rw [if_pos ha] at h; cases h
      refine ⟨⟨a, rfl⟩, not_lt.1 ha, ?_⟩
      simp only [NReal.val, realTrig, Option.bind_some, Option.getD_some, if_neg ha, sub_self, abs_zero]
      exact mul_nonneg h0 (Real.sqrt_nonneg _)
  sin := by
    rintro (_ | a) ⟨x, h⟩
    · cases h
    · exact ⟨⟨a, rfl⟩, by simpa [NReal.val, realTrig] using h0⟩
  cos := by
    rintro (_ | a) ⟨x, h⟩
    · cases h
    · exact ⟨⟨a, rfl⟩, by simpa [NReal.val, realTrig] using h0⟩
  lt := by
    rintro a b ⟨x, rfl⟩ ⟨y, rfl⟩
    constructor
    · rintro ⟨x', y', hx, hy, h⟩
      cases hx; cases hy
      exact h
    · intro h
      exact ⟨x, y, rfl, rfl, h⟩
  one := rfl
  two := rfl
  half := rfl
  small := ⟨⟨_, rfl⟩, by simp [NReal.val, realTrig]; positivity⟩
  c48 := by simpa [NReal.val, realTrig] using h0
  c3840 := by simpa [NReal.val, realTrig] using h0
  c8 := by simpa [NReal.val, realTrig] using h0
  c384 := by simpa [NReal.val, realTrig] using h0

theorem so3_trig {V : Type} [LT V] [DecidableLT V] (o : Ops V) (c : TrigOps V) (omega : Fin 3 → V) {T : V} (hT : o.dot3 (omega 0) (omega 1) (omega 2) (omega 0) (omega 1) (omega 2) = T) (h : ¬ T < c.small) :
    so3Exp o c omega = ⟨c.cos (o.mul c.half (c.sqrt T)), o.mul (o.div (c.sin (o.mul c.half (c.sqrt T))) (c.sqrt T)) (omega 0), o.mul (o.div (c.sin (o.mul c.half (c.sqrt T))) (c.sqrt T)) (omega 1),
      o.mul (o.div (c.sin (o.mul c.half (c.sqrt T))) (c.sqrt T)) (omega 2)⟩ := by
  simp only [so3Exp, hT, if_neg h]

/-- A computed rotation (by one radian) holds numbers only, so that `C107_exp` says something about it. -/
example : RotationFinite NReal.finite (se3Exp (biasedOps (1 / 2 ^ 53)) realTrig (fun _ _ => some 0) ![some 1, some 0, some 0, some 0, some 0, some 0]) := by
  have hS : ∃ w x y z : ℝ, so3Exp (biasedOps (1 / 2 ^ 53)) realTrig ![some 1, some 0, some 0] = ⟨some w, some x, some y, some z⟩ := by
    have hd : (biasedOps (1 / 2 ^ 53)).dot3 (some 1) (some 0) (some 0) (some 1) (some 0) (some 0) = (some (1 + 1 / 2 ^ 53) : Option ℝ) := by
      simp only [biasedOps, Option.bind_some]
      exact congrArg some (by norm_num)
    have hlt : ¬ @LT.lt NReal _ (some (1 + 1 / 2 ^ 53)) realTrig.small := by
      rintro ⟨x, y, hx, hy, h⟩
      have hx' : (1 : ℝ) + 1 / 2 ^ 53 = x := Option.some.inj hx
      have hy' : (1 : ℝ) / 10 ^ 10 = y := Option.some.inj hy
      rw [← hx', ← hy'] at h
      norm_num at h
    have hs : realTrig.sqrt (some (1 + 1 / 2 ^ 53)) = (some (Real.sqrt (1 + 1 / 2 ^ 53)) : Option ℝ) := by
      simp only [realTrig, Option.bind_some]
      rw [if_neg (by norm_num)]
    have hne : Real.sqrt (1 + 1 / 2 ^ 53) ≠ 0 := by
      rw [Real.sqrt_ne_zero']
      norm_num
    set s := Real.sqrt (1 + 1 / 2 ^ 53)
    set f := Real.sin (1 / 2 * s * (1 + 1 / 2 ^ 53)) / s * (1 + 1 / 2 ^ 53)
    refine ⟨Real.cos (1 / 2 * s * (1 + 1 / 2 ^ 53)), f * 1 * (1 + 1 / 2 ^ 53), f * 0 * (1 + 1 / 2 ^ 53), f * 0 * (1 + 1 / 2 ^ 53), ?_⟩
    · rw [so3_trig (biasedOps (1 / 2 ^ 53)) realTrig ![some 1, some 0, some 0] hd hlt, hs]
      simp only [biasedOps, realTrig, Option.bind_some, Option.map_some, if_neg hne]
      rfl
  obtain ⟨w, x, y, z, h⟩ := hS
  intro i j
  show NReal.finite (toRotation (biasedOps (1 / 2 ^ 53)) realTrig (so3Exp (biasedOps (1 / 2 ^ 53)) realTrig ![some 1, some 0, some 0]) i j)
  rw [h]
  fin_cases i <;> fin_cases j <;> exact ⟨_, rfl⟩

end Verif.Props
