import Verif.Spec.Distance
import Verif.Spec.Lie
import Mathlib.Analysis.InnerProductSpace.PiL2
import Mathlib.Algebra.Order.Chebyshev
import Mathlib.Tactic.Linarith
import Mathlib.Tactic.Ring
import Mathlib.Tactic.FinCases
import Mathlib.Tactic.Positivity

/-! Euclidean length and Frobenius norm: the inequalities needed for C89. -/

set_option linter.unusedSectionVars false
set_option linter.unusedSimpArgs false
set_option linter.unnecessarySeqFocus false

namespace Verif.Proofs

open Matrix Verif.Factors Verif.Spec

section vectors

variable {ι : Type} [Fintype ι]

theorem dot_nonneg (v : ι → ℝ) : 0 ≤ v ⬝ᵥ v := Finset.sum_nonneg fun i _ => mul_self_nonneg (v i)

theorem len_nonneg (v : ι → ℝ) : 0 ≤ len v := Real.sqrt_nonneg _

theorem len_sq (v : ι → ℝ) : len v ^ 2 = v ⬝ᵥ v := Real.sq_sqrt (dot_nonneg v)

theorem len_eq_norm (v : ι → ℝ) : len v = ‖(WithLp.toLp 2 v : EuclideanSpace ℝ ι)‖ := by
  rw [EuclideanSpace.norm_eq]
  unfold len dotProduct
  congr 1
  refine Finset.sum_congr rfl fun i _ => ?_
  rw [Real.norm_eq_abs, sq_abs, sq]

theorem len_add_le (u v : ι → ℝ) : len (u + v) ≤ len u + len v := by
  rw [len_eq_norm, len_eq_norm, len_eq_norm, WithLp.toLp_add]
  exact norm_add_le _ _

theorem len_neg (v : ι → ℝ) : len (-v) = len v := by
  unfold len
  rw [neg_dotProduct_neg]

theorem len_sub_le (u v : ι → ℝ) : len (u - v) ≤ len u + len v := by
  rw [sub_eq_add_neg, ← len_neg v]
  exact len_add_le _ _

theorem len_sub_comm (u v : ι → ℝ) : len (u - v) = len (v - u) := by
  rw [← len_neg, neg_sub]

theorem len_smul (c : ℝ) (v : ι → ℝ) : len (c • v) = |c| * len v := by
  unfold len
  rw [smul_dotProduct, dotProduct_smul, smul_eq_mul, smul_eq_mul, ← mul_assoc, Real.sqrt_mul (mul_self_nonneg c), Real.sqrt_mul_self_eq_abs]

theorem len_zero : len (0 : ι → ℝ) = 0 := by simp [len]

theorem len_eq_zero {v : ι → ℝ} : len v = 0 ↔ v = 0 := by
  unfold len
  rw [Real.sqrt_eq_zero (dot_nonneg v)]
  constructor
  · intro h
    funext i
    have := (Finset.sum_eq_zero_iff_of_nonneg fun j _ => mul_self_nonneg (v j)).1 h i (Finset.mem_univ i)
    exact mul_self_eq_zero.1 this
  · rintro rfl
    simp

/-- Cauchy–Schwarz. -/
theorem abs_dot_le (u v : ι → ℝ) : |u ⬝ᵥ v| ≤ len u * len v := by
  rw [← sq_le_sq₀ (abs_nonneg _) (mul_nonneg (len_nonneg u) (len_nonneg v)), sq_abs, mul_pow, len_sq, len_sq]
  have := Finset.sum_mul_sq_le_sq_mul_sq Finset.univ u v
  simpa only [dotProduct, sq] using this

theorem dot_le (u v : ι → ℝ) : u ⬝ᵥ v ≤ len u * len v := (le_abs_self _).trans (abs_dot_le u v)

theorem len_le_of_sq {v : ι → ℝ} {c : ℝ} (hc : 0 ≤ c) (h : v ⬝ᵥ v ≤ c ^ 2) : len v ≤ c := by
  unfold len
  rw [Real.sqrt_le_left hc]
  exact h

theorem abs_coord_le (v : ι → ℝ) (i : ι) : |v i| ≤ len v := by
  rw [← sq_le_sq₀ (abs_nonneg _) (len_nonneg v), sq_abs, len_sq, sq]
  exact Finset.single_le_sum (f := fun i => v i * v i) (fun j _ => mul_self_nonneg (v j)) (Finset.mem_univ i)

end vectors

/-! ### matrices -/

theorem fro_nonneg (A : Matrix (Fin 3) (Fin 3) ℝ) : 0 ≤ fro A := len_nonneg _

theorem fro_sq (A : Matrix (Fin 3) (Fin 3) ℝ) : fro A ^ 2 = ∑ i, ∑ j, A i j ^ 2 := by
  unfold fro
  rw [len_sq]
  simp only [dotProduct, Fintype.sum_prod_type, sq]

theorem fro_add_le (A B : Matrix (Fin 3) (Fin 3) ℝ) : fro (A + B) ≤ fro A + fro B := len_add_le _ _

theorem fro_neg (A : Matrix (Fin 3) (Fin 3) ℝ) : fro (-A) = fro A := len_neg _

theorem fro_sub_le (A B : Matrix (Fin 3) (Fin 3) ℝ) : fro (A - B) ≤ fro A + fro B := len_sub_le _ _

theorem fro_sub_comm (A B : Matrix (Fin 3) (Fin 3) ℝ) : fro (A - B) = fro (B - A) := len_sub_comm _ _

theorem fro_smul (c : ℝ) (A : Matrix (Fin 3) (Fin 3) ℝ) : fro (c • A) = |c| * fro A := len_smul c _

theorem fro_transpose (A : Matrix (Fin 3) (Fin 3) ℝ) : fro Aᵀ = fro A := by
  have h : fro Aᵀ ^ 2 = fro A ^ 2 := by rw [fro_sq, fro_sq, Finset.sum_comm]; rfl
  exact (sq_eq_sq₀ (fro_nonneg _) (fro_nonneg _)).1 h

theorem fro_rows (A : Matrix (Fin 3) (Fin 3) ℝ) : fro A ^ 2 = ∑ i, len (A i) ^ 2 := by
  rw [fro_sq]
  refine Finset.sum_congr rfl fun i _ => ?_
  rw [len_sq]
  simp only [dotProduct, sq]

theorem fro_cols (A : Matrix (Fin 3) (Fin 3) ℝ) : fro A ^ 2 = ∑ j, len (fun i => A i j) ^ 2 := by
  rw [← fro_transpose, fro_rows]
  rfl

theorem len_mulVec_le (A : Matrix (Fin 3) (Fin 3) ℝ) (v : Fin 3 → ℝ) : len (A *ᵥ v) ≤ fro A * len v := by
  refine len_le_of_sq (mul_nonneg (fro_nonneg A) (len_nonneg v)) ?_
  rw [mul_pow, fro_rows, Finset.sum_mul]
  unfold dotProduct
  refine Finset.sum_le_sum fun i _ => ?_
  rw [← sq, ← mul_pow, ← sq_abs]
  exact pow_le_pow_left₀ (abs_nonneg _) (abs_dot_le (A i) v) 2

theorem fro_mul_le (A B : Matrix (Fin 3) (Fin 3) ℝ) : fro (A * B) ≤ fro A * fro B := by
  rw [← sq_le_sq₀ (fro_nonneg _) (mul_nonneg (fro_nonneg A) (fro_nonneg B)), mul_pow, fro_cols (A * B), fro_cols B, Finset.mul_sum]
  refine Finset.sum_le_sum fun j _ => ?_
  rw [← mul_pow]
  refine pow_le_pow_left₀ (len_nonneg _) ?_ 2
  exact len_mulVec_le A (fun i => B i j)

theorem len_orth {R : Matrix (Fin 3) (Fin 3) ℝ} (h : Rᵀ * R = 1) (v : Fin 3 → ℝ) : len (R *ᵥ v) = len v := by
  unfold len
  rw [dotProduct_mulVec, vecMul_mulVec, h, vecMul_one]

theorem fro_orth {R : Matrix (Fin 3) (Fin 3) ℝ} (h : Rᵀ * R = 1) (A : Matrix (Fin 3) (Fin 3) ℝ) : fro (R * A) = fro A := by
  refine (sq_eq_sq₀ (fro_nonneg _) (fro_nonneg _)).1 ?_
  rw [fro_cols, fro_cols]
  refine Finset.sum_congr rfl fun j _ => ?_
  rw [← len_orth h (fun i => A i j)]
  rfl

theorem fro_skew (a : Fin 3 → ℝ) : fro (skew a) ^ 2 = 2 * len a ^ 2 := by
  rw [fro_sq, len_sq]
  simp [skew, Fin.sum_univ_three, dotProduct]
  ring

theorem fro_skew_le (a : Fin 3 → ℝ) : fro (skew a) ≤ 3 / 2 * len a := by
  rw [← sq_le_sq₀ (fro_nonneg _) (by have := len_nonneg a; positivity), fro_skew]
  nlinarith [sq_nonneg (len a)]

/-- The vector of the skew part of a matrix. -/
noncomputable def vee (Z : Matrix (Fin 3) (Fin 3) ℝ) : Fin 3 → ℝ := ![(Z 2 1 - Z 1 2) / 2, (Z 0 2 - Z 2 0) / 2, (Z 1 0 - Z 0 1) / 2]

theorem skew_vee (Z : Matrix (Fin 3) (Fin 3) ℝ) : Z = skew (vee Z) + (1 / 2 : ℝ) • (Z + Zᵀ) := by
  ext i j
  fin_cases i <;> fin_cases j <;> simp [skew, vee] <;> ring

theorem vee_le (Z : Matrix (Fin 3) (Fin 3) ℝ) : len (vee Z) ^ 2 ≤ 1 / 2 * fro Z ^ 2 := by
  rw [fro_sq, len_sq]
  simp [vee, Fin.sum_univ_three, dotProduct]
  nlinarith [sq_nonneg (Z 2 1 + Z 1 2), sq_nonneg (Z 0 2 + Z 2 0), sq_nonneg (Z 1 0 + Z 0 1), sq_nonneg (Z 0 0), sq_nonneg (Z 1 1), sq_nonneg (Z 2 2)]

/-- A matrix that stretches by at most `1 + η` is orthogonal up to `3 η`. -/
theorem fro_stretch {Q : Matrix (Fin 3) (Fin 3) ℝ} {η : ℝ} (h : StretchAtMost Q (1 + η)) : fro (Qᵀ * Q - 1) ≤ 3 * η := by
  have hq : ∀ u : Fin 3 → ℝ, 0 ≤ u ⬝ᵥ (Qᵀ * Q - 1) *ᵥ u ∧ u ⬝ᵥ (Qᵀ * Q - 1) *ᵥ u ≤ η * (u ⬝ᵥ u) := by
    intro u
    have e : u ⬝ᵥ (Qᵀ * Q - 1) *ᵥ u = (Q *ᵥ u) ⬝ᵥ (Q *ᵥ u) - u ⬝ᵥ u := by
      rw [sub_mulVec, one_mulVec, dotProduct_sub, ← mulVec_mulVec, dotProduct_mulVec u, vecMul_transpose]
    rw [e]
    obtain ⟨h1, h2⟩ := h.1 u
    exact ⟨by linarith, by linarith⟩
  have hs : ∀ i j, (Qᵀ * Q - 1) i j = (Qᵀ * Q - 1) j i := by
    intro i j
    have : (Qᵀ * Q - 1)ᵀ = Qᵀ * Q - 1 := by rw [transpose_sub, transpose_mul, transpose_transpose, transpose_one]
    exact congrFun (congrFun this j) i
  generalize Qᵀ * Q - 1 = N at *
  have d0 := hq ![1, 0, 0]
  have d1 := hq ![0, 1, 0]
  have d2 := hq ![0, 0, 1]
  have d01 := hq ![1, 1, 0]
  have d02 := hq ![1, 0, 1]
  have d12 := hq ![0, 1, 1]
  simp [dotProduct, mulVec, Fin.sum_univ_three] at d0 d1 d2 d01 d02 d12
  have s01 := hs 0 1
  have s02 := hs 0 2
  have s12 := hs 1 2
  have hη : 0 ≤ η := by linarith
  have b : ∀ x : ℝ, -η ≤ x → x ≤ η → x ^ 2 ≤ η ^ 2 := fun x h1 h2 => by nlinarith
  rw [← sq_le_sq₀ (fro_nonneg _) (by linarith), fro_sq]
  simp only [Fin.sum_univ_three]
  have := b (N 0 0) (by linarith) (by linarith)
  have := b (N 1 1) (by linarith) (by linarith)
  have := b (N 2 2) (by linarith) (by linarith)
  have := b (N 0 1) (by linarith) (by linarith)
  have := b (N 1 0) (by linarith) (by linarith)
  have := b (N 0 2) (by linarith) (by linarith)
  have := b (N 2 0) (by linarith) (by linarith)
  have := b (N 1 2) (by linarith) (by linarith)
  have := b (N 2 1) (by linarith) (by linarith)
  nlinarith

theorem len_stretch_le {Q : Matrix (Fin 3) (Fin 3) ℝ} {c : ℝ} (hc : c ≤ 4) (h : StretchAtMost Q c) (u : Fin 3 → ℝ) : len u ≤ len (Q *ᵥ u) ∧ len (Q *ᵥ u) ≤ 2 * len u := by
  obtain ⟨h1, h2⟩ := h.1 u
  constructor
  · exact Real.sqrt_le_sqrt h1
  · refine len_le_of_sq (by have := len_nonneg u; positivity) ?_
    rw [mul_pow, len_sq]
    nlinarith [dot_nonneg u]

end Verif.Proofs
