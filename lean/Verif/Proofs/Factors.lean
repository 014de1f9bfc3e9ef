import Verif.Model.Factors
import Verif.Spec.Registration
import Mathlib.LinearAlgebra.Matrix.NonsingularInverse
import Mathlib.LinearAlgebra.Matrix.ToLin
import Mathlib.LinearAlgebra.FiniteDimensional.Basic
import Mathlib.Tactic.Ring
import Mathlib.Tactic.Linarith
import Mathlib.Tactic.FieldSimp
import Mathlib.Tactic.FinCases
import Mathlib.Tactic.Positivity
import Mathlib.Tactic.NormNum

/-! Linear algebra behind the factors. -/

set_option linter.unusedSectionVars false

namespace Verif.Proofs

open Matrix Verif.Factors Verif.Spec

variable {K : Type} [Field K] [LinearOrder K] [IsStrictOrderedRing K]
variable {m n : Type} [Fintype m] [Fintype n]

theorem dot_self_nonneg (v : n → K) : 0 ≤ v ⬝ᵥ v := by
  unfold dotProduct
  exact Finset.sum_nonneg (fun i _ => mul_self_nonneg _)

theorem dot_self_eq_zero (v : n → K) (h : v ⬝ᵥ v = 0) : v = 0 := by
  unfold dotProduct at h
  rw [Finset.sum_eq_zero_iff_of_nonneg (fun i _ => mul_self_nonneg _)] at h
  funext i
  exact mul_self_eq_zero.1 (h i (Finset.mem_univ i))

theorem _root_.Verif.Spec.SymPSD.one [DecidableEq n] : SymPSD (1 : Matrix n n K) := ⟨transpose_one, fun x => by rw [one_mulVec]; exact dot_self_nonneg x⟩

theorem _root_.Verif.Spec.SymPSD.add {A B : Matrix n n K} (hA : SymPSD A) (hB : SymPSD B) : SymPSD (A + B) := by
  refine ⟨by rw [transpose_add, hA.symm, hB.symm], fun x => ?_⟩
  rw [add_mulVec, dotProduct_add]
  exact add_nonneg (hA.psd x) (hB.psd x)

theorem _root_.Verif.Spec.SymPSD.smul {A : Matrix n n K} (hA : SymPSD A) {c : K} (hc : 0 ≤ c) : SymPSD (c • A) := by
  refine ⟨by rw [transpose_smul, hA.symm], fun x => ?_⟩
  rw [smul_mulVec, dotProduct_smul, smul_eq_mul]
  exact mul_nonneg hc (hA.psd x)

theorem quad_conj (J : Matrix m n K) (M : Matrix m m K) (x : n → K) : x ⬝ᵥ (Jᵀ * M * J) *ᵥ x = (J *ᵥ x) ⬝ᵥ M *ᵥ (J *ᵥ x) := by
  rw [← mulVec_mulVec, ← mulVec_mulVec, dotProduct_mulVec, vecMul_transpose]

theorem _root_.Verif.Spec.SymPSD.conj {M : Matrix m m K} (hM : SymPSD M) (J : Matrix m n K) : SymPSD (Jᵀ * M * J) := by
  refine ⟨by rw [transpose_mul, transpose_mul, transpose_transpose, hM.symm, Matrix.mul_assoc], fun x => ?_⟩
  rw [quad_conj]
  exact hM.psd _

/-- The system of one residual with weight matrix `M`. -/
theorem good_of_residual (J : Matrix m n K) (M : Matrix m m K) (hM : SymPSD M) (r : m → K) :
    GoodSystem (Jᵀ * M * J) ((Jᵀ * M) *ᵥ r) (1 / 2 * (r ⬝ᵥ M *ᵥ r)) := by
  refine ⟨hM.conj J, mul_nonneg (by norm_num) (hM.psd r), fun x => ?_⟩
  have h := hM.psd (J *ᵥ x + r)
  rw [quad_conj]
  have hb : ((Jᵀ * M) *ᵥ r) ⬝ᵥ x = (J *ᵥ x) ⬝ᵥ M *ᵥ r := by
    rw [← mulVec_mulVec, dotProduct_comm, dotProduct_mulVec, vecMul_transpose]
  have hs : r ⬝ᵥ M *ᵥ (J *ᵥ x) = (J *ᵥ x) ⬝ᵥ M *ᵥ r := by
    rw [dotProduct_mulVec, ← mulVec_transpose, hM.symm, dotProduct_comm]
  rw [mulVec_add, dotProduct_add, add_dotProduct, add_dotProduct, hs] at h
  rw [hb]
  linarith

theorem good_of_residual_one [DecidableEq m] (J : Matrix m n K) (r : m → K) :
    GoodSystem (Jᵀ * J) (Jᵀ *ᵥ r) (1 / 2 * (r ⬝ᵥ r)) := by
  have := good_of_residual J 1 SymPSD.one r
  rwa [Matrix.mul_one, one_mulVec] at this

theorem _root_.Verif.Spec.GoodSystem.zero : GoodSystem (0 : Matrix n n K) 0 0 := by
  refine ⟨⟨transpose_zero, fun x => by simp⟩, le_refl _, fun x => by simp⟩

theorem _root_.Verif.Spec.GoodSystem.add {H H' : Matrix n n K} {b b' : n → K} {e e' : K} (h : GoodSystem H b e) (h' : GoodSystem H' b' e') :
    GoodSystem (H + H') (b + b') (e + e') := by
  refine ⟨h.hess.add h'.hess, add_nonneg h.nonneg h'.nonneg, fun x => ?_⟩
  have h1 := h.model x
  have h2 := h'.model x
  rw [add_mulVec, dotProduct_add, add_dotProduct]
  linarith

theorem _root_.Verif.Spec.GoodSystem.smul {H : Matrix n n K} {b : n → K} {e : K} (h : GoodSystem H b e) {w : K} (hw : 0 ≤ w) :
    GoodSystem (w • H) (w • b) (e * w) := by
  refine ⟨h.hess.smul hw, mul_nonneg h.nonneg hw, fun x => ?_⟩
  have h1 := mul_nonneg hw (h.model x)
  rw [smul_mulVec, dotProduct_smul, smul_dotProduct, smul_eq_mul, smul_eq_mul]
  linarith

/-! ### damped normal equations -/

theorem damped_pos {H : Matrix n n K} (hH : SymPSD H) [DecidableEq n] {lam : K} (hl : 0 < lam) (x : n → K) (hx : x ≠ 0) :
    0 < x ⬝ᵥ (H + lam • (1 : Matrix n n K)) *ᵥ x := by
  rw [add_mulVec, dotProduct_add, smul_mulVec, one_mulVec, dotProduct_smul, smul_eq_mul]
  have h1 := hH.psd x
  have h2 : 0 < x ⬝ᵥ x := lt_of_le_of_ne (dot_self_nonneg x) (fun h => hx (dot_self_eq_zero x h.symm))
  have := mul_pos hl h2
  linarith

theorem damped_symm {H : Matrix n n K} (hH : SymPSD H) [DecidableEq n] (lam : K) : (H + lam • (1 : Matrix n n K))ᵀ = H + lam • (1 : Matrix n n K) := by
  rw [transpose_add, hH.symm, transpose_smul, transpose_one]

theorem posdef_exists_unique [DecidableEq n] {A : Matrix n n K} (hA : ∀ x, x ≠ 0 → 0 < x ⬝ᵥ A *ᵥ x) (r : n → K) : ∃! x, A *ᵥ x = r := by
  have hinj : Function.Injective A.mulVec := by
    intro x y hxy
    by_contra hne
    have h1 := hA (x - y) (sub_ne_zero.2 hne)
    have : A *ᵥ (x - y) = 0 := by rw [mulVec_sub]; exact sub_eq_zero.2 hxy
    rw [this, dotProduct_zero] at h1
    exact lt_irrefl _ h1
  have hu : IsUnit A := Matrix.mulVec_injective_iff_isUnit.1 hinj
  have hdet : IsUnit A.det := (Matrix.isUnit_iff_isUnit_det A).1 hu
  refine ⟨A⁻¹ *ᵥ r, ?_, fun y hy => ?_⟩
  · show A *ᵥ A⁻¹ *ᵥ r = r
    rw [mulVec_mulVec, Matrix.mul_nonsing_inv A hdet, one_mulVec]
  · show y = A⁻¹ *ᵥ r
    rw [← (show A *ᵥ y = r from hy), mulVec_mulVec, Matrix.nonsing_inv_mul A hdet, one_mulVec]

/-- A damped step is a descent direction. -/
theorem damped_descent [DecidableEq n] {H : Matrix n n K} (hH : SymPSD H) {lam : K} (hl : 0 < lam) (b d : n → K)
    (hd : (H + lam • (1 : Matrix n n K)) *ᵥ d = -b) : b ⬝ᵥ d ≤ 0 ∧ (b ≠ 0 → b ⬝ᵥ d < 0) := by
  have key : b ⬝ᵥ d = -(d ⬝ᵥ (H + lam • (1 : Matrix n n K)) *ᵥ d) := by
    rw [hd, dotProduct_neg, neg_neg, dotProduct_comm]
  by_cases h0 : d = 0
  · subst h0
    rw [mulVec_zero] at hd
    refine ⟨by simp, fun hb => absurd (neg_eq_zero.1 hd.symm) hb⟩
  · have := damped_pos hH hl d h0
    exact ⟨by linarith, fun _ => by linarith⟩

/-! ### the weight matrix of GICP -/

theorem _root_.Verif.Spec.SymPSD.block {A : Matrix (Fin 4) (Fin 4) K} (hA : SymPSD A) : SymPSD (block33 A) := by
  refine ⟨?_, fun x => ?_⟩
  · ext i j
    have := congrFun (congrFun hA.symm i.castSucc) j.castSucc
    simpa [block33, transpose_apply] using this
  · have h := hA.psd ![x 0, x 1, x 2, 0]
    unfold dotProduct mulVec dotProduct at h ⊢
    simpa [Fin.sum_univ_succ, block33] using h

theorem _root_.Verif.Spec.SymPSD.inverse {A B : Matrix n n K} [DecidableEq n] (hA : SymPSD A) (hB : A * B = 1) : SymPSD B := by
  have hB' : B * A = 1 := _root_.mul_eq_one_comm.1 hB
  have hs : Bᵀ = B := by
    have h1 : Bᵀ * A = 1 := by
      have := congrArg transpose hB
      rwa [transpose_mul, hA.symm, transpose_one] at this
    calc Bᵀ = Bᵀ * (A * B) := by rw [hB, Matrix.mul_one]
      _ = B := by rw [← Matrix.mul_assoc, h1, Matrix.one_mul]
  refine ⟨hs, fun x => ?_⟩
  have h := hA.psd (B *ᵥ x)
  rw [mulVec_mulVec, hB, one_mulVec] at h
  rwa [dotProduct_comm] at h

theorem setBlock_psd {M : Matrix (Fin 4) (Fin 4) K} (hM : ∀ i j : Fin 4, i = 3 ∨ j = 3 → M i j = 0) {A : Matrix (Fin 3) (Fin 3) K}
    (hA : SymPSD A) : SymPSD (setBlock33 M A) := by
  refine ⟨?_, fun x => ?_⟩
  · ext i j
    rw [transpose_apply]
    unfold setBlock33
    by_cases h : i.val < 3 ∧ j.val < 3
    · rw [dif_pos h, dif_pos h.symm]
      exact congrFun (congrFun hA.symm _) _
    · rw [dif_neg h, dif_neg (fun h' => h h'.symm), hM, hM]
      · rcases not_and_or.1 h with h | h
        · exact .inl (by omega)
        · exact .inr (by omega)
      · rcases not_and_or.1 h with h | h
        · exact .inr (by omega)
        · exact .inl (by omega)
  · have h := hA.psd (fun i => x i.castSucc)
    have e : x ⬝ᵥ setBlock33 M A *ᵥ x = (fun i : Fin 3 => x i.castSucc) ⬝ᵥ A *ᵥ (fun i : Fin 3 => x i.castSucc) := by
      unfold dotProduct mulVec dotProduct
      rw [Fin.sum_univ_castSucc]
      have hlast : ∑ j, setBlock33 M A (Fin.last 3) j * x j = 0 := by
        apply Finset.sum_eq_zero
        intro j _
        unfold setBlock33
        rw [dif_neg (by simp), hM (Fin.last 3) j (.inl rfl), zero_mul]
      rw [hlast, mul_zero, add_zero]
      apply Finset.sum_congr rfl
      intro i _
      rw [Fin.sum_univ_castSucc]
      have hl : setBlock33 M A i.castSucc (Fin.last 3) = 0 := by
        unfold setBlock33
        rw [dif_neg (by simp), hM i.castSucc (Fin.last 3) (.inr rfl)]
      dsimp only
      rw [hl, zero_mul, add_zero]
      congr 1
      apply Finset.sum_congr rfl
      intro j _
      unfold setBlock33
      rw [dif_pos ⟨by simp, by simp⟩]
      rfl
    rw [e]; exact h

end Verif.Proofs
