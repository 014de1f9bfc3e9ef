import Verif.Proofs.Norms
import Verif.Spec.Registration
import Verif.Spec.Descent

/-! Damped least squares near a solution: the step against the error twist, and the decrease of the cost. -/

set_option linter.unusedSectionVars false
set_option linter.unusedSimpArgs false
set_option linter.unnecessarySeqFocus false

namespace Verif.Proofs

open Matrix Verif.Factors Verif.Spec

theorem lsum_add {A : Type} (l : List A) (f g : A → ℝ) : (l.map fun a => f a + g a).sum = (l.map f).sum + (l.map g).sum := by
  induction l with
  | nil => simp
  | cons a l ih => simp only [List.map_cons, List.sum_cons, ih]; ring

theorem lsum_mul {A : Type} (l : List A) (c : ℝ) (f : A → ℝ) : (l.map fun a => c * f a).sum = c * (l.map f).sum := by
  induction l with
  | nil => simp
  | cons a l ih => simp only [List.map_cons, List.sum_cons, ih]; ring

theorem lsum_le {A : Type} (l : List A) (f : A → ℝ) {M : ℝ} (h : ∀ a ∈ l, f a ≤ M) : (l.map f).sum ≤ l.length * M := by
  induction l with
  | nil => simp
  | cons a l ih =>
    have h1 := h a (by simp)
    have h2 := ih fun b hb => h b (by simp [hb])
    simp only [List.map_cons, List.sum_cons, List.length_cons, Nat.cast_add, Nat.cast_one]
    linarith

theorem lsum_abs {A : Type} (l : List A) (f : A → ℝ) {M : ℝ} (h : ∀ a ∈ l, |f a| ≤ M) : |(l.map f).sum| ≤ l.length * M := by
  rw [abs_le]
  constructor
  · have := lsum_le l (fun a => -1 * f a) (M := M) fun a ha => by have := (abs_le.1 (h a ha)).1; linarith
    rw [lsum_mul] at this
    linarith
  · exact lsum_le l f fun a ha => (abs_le.1 (h a ha)).2

theorem lsum_nonneg {A : Type} (l : List A) (f : A → ℝ) (h : ∀ a ∈ l, 0 ≤ f a) : 0 ≤ (l.map f).sum :=
  List.sum_nonneg fun x hx => by
    obtain ⟨a, ha, rfl⟩ := List.mem_map.1 hx
    exact h a ha

theorem sym_dot {n : Type} [Fintype n] {W : Matrix n n ℝ} (hW : Wᵀ = W) (x y : n → ℝ) : x ⬝ᵥ W *ᵥ y = y ⬝ᵥ W *ᵥ x := by
  rw [dotProduct_mulVec, ← mulVec_transpose, hW, dotProduct_comm]

/-- A symmetric matrix with `0 ≤ x·Wx ≤ w |x|²` makes no vector longer than `w` times its length. -/
theorem psd_len_le {n : Type} [Fintype n] {W : Matrix n n ℝ} (hW : SymPSD W) {w : ℝ} (hw : 0 ≤ w) (h : ∀ x : n → ℝ, x ⬝ᵥ W *ᵥ x ≤ w * (x ⬝ᵥ x)) (x : n → ℝ) :
    (W *ᵥ x) ⬝ᵥ (W *ᵥ x) ≤ w * (x ⬝ᵥ W *ᵥ x) := by
  -- Cauchy–Schwarz for the form of `W`
  have q : ∀ c : ℝ, 0 ≤ x ⬝ᵥ W *ᵥ x - 2 * c * ((W *ᵥ x) ⬝ᵥ (W *ᵥ x)) + c ^ 2 * ((W *ᵥ x) ⬝ᵥ W *ᵥ (W *ᵥ x)) := by
    intro c
    have := hW.psd (x - c • (W *ᵥ x))
    have e : x ⬝ᵥ W *ᵥ (W *ᵥ x) = (W *ᵥ x) ⬝ᵥ (W *ᵥ x) := sym_dot hW.symm _ _
    simp only [mulVec_sub, mulVec_smul, sub_dotProduct, dotProduct_sub, smul_dotProduct, dotProduct_smul, smul_eq_mul, e] at this
    linarith
  have hy := h (W *ᵥ x)
  have h0 := dot_nonneg (W *ᵥ x)
  have hx := hW.psd x
  generalize (W *ᵥ x) ⬝ᵥ W *ᵥ (W *ᵥ x) = A at *
  generalize (W *ᵥ x) ⬝ᵥ (W *ᵥ x) = Y at *
  generalize x ⬝ᵥ W *ᵥ x = X at *
  rcases eq_or_lt_of_le hw with h1 | h1
  · have q1 : ∀ c : ℝ, 0 ≤ c → 2 * c * Y ≤ X := fun c _ => by
      have := q c
      have : c ^ 2 * A ≤ 0 := mul_nonpos_of_nonneg_of_nonpos (sq_nonneg c) (by nlinarith)
      linarith
    by_contra hc
    have hY : 0 < Y := by rw [← h1] at hc; linarith
    have := q1 (X / Y) (div_nonneg hx h0)
    rw [mul_assoc, div_mul_cancel₀ _ hY.ne'] at this
    have hX : X = 0 := by linarith
    have := q1 1 zero_le_one
    linarith
  · have := q (1 / w)
    have e2 : (1 / w) ^ 2 * A ≤ (1 / w) * Y := by
      have : (1 / w) ^ 2 * A ≤ (1 / w) ^ 2 * (w * Y) := mul_le_mul_of_nonneg_left hy (by positivity)
      refine this.trans_eq ?_
      field_simp
    have e3 : (1 / w) * Y ≤ X := by linarith
    rw [one_div, inv_mul_le_iff₀ h1] at e3
    exact e3

theorem psd_len {n : Type} [Fintype n] {W : Matrix n n ℝ} (hW : SymPSD W) {w : ℝ} (hw : 0 ≤ w) (h : ∀ x : n → ℝ, x ⬝ᵥ W *ᵥ x ≤ w * (x ⬝ᵥ x)) (x : n → ℝ) : len (W *ᵥ x) ≤ w * len x := by
  refine len_le_of_sq (mul_nonneg hw (len_nonneg x)) ?_
  rw [mul_pow, len_sq]
  nlinarith [psd_len_le hW hw h x, h x]

section

variable {A : Type} {l : List A} {S : A → (Fin 6 → ℝ) → Fin 3 → ℝ} {W : A → Matrix (Fin 3) (Fin 3) ℝ} {D g : A → Fin 3 → ℝ} {H : Matrix (Fin 6) (Fin 6) ℝ} {b ξ : Fin 6 → ℝ} {c w γ μ : ℝ}

/-- A least-squares system whose residuals are the speeds `S` along `-ξ`, up to `g`. -/
structure NearSolution (l : List A) (S : A → (Fin 6 → ℝ) → Fin 3 → ℝ) (W : A → Matrix (Fin 3) (Fin 3) ℝ) (D : A → Fin 3 → ℝ) (H : Matrix (Fin 6) (Fin 6) ℝ) (b ξ : Fin 6 → ℝ)
    (c w γ μ : ℝ) : Prop where
  add : ∀ a x y, S a (x + y) = S a x + S a y
  smul : ∀ a (k : ℝ) x, S a (k • x) = k • S a x
  psd : ∀ a ∈ l, SymPSD (W a)
  weight : ∀ a ∈ l, ∀ y, len (W a *ᵥ y) ≤ w * len y
  speed : ∀ a ∈ l, ∀ x, len (S a x) ≤ c * len x
  sym : Hᵀ = H
  hess : ∀ x, x ⬝ᵥ H *ᵥ x = (l.map fun a => S a x ⬝ᵥ W a *ᵥ S a x).sum
  grad : ∀ x, b ⬝ᵥ x = (l.map fun a => D a ⬝ᵥ W a *ᵥ S a x).sum
  near : ∀ a ∈ l, len (D a + S a ξ) ≤ γ
  lower : ∀ x, μ * len x ^ 2 ≤ x ⬝ᵥ H *ᵥ x
  c0 : 0 ≤ c
  w0 : 0 ≤ w
  γ0 : 0 ≤ γ

variable (h : NearSolution l S W D H b ξ c w γ μ)

include h

theorem NearSolution.bilin (x y : Fin 6 → ℝ) : x ⬝ᵥ H *ᵥ y = (l.map fun a => S a x ⬝ᵥ W a *ᵥ S a y).sum := by
  have h1 := h.hess (x + y)
  have e1 : (x + y) ⬝ᵥ H *ᵥ (x + y) = x ⬝ᵥ H *ᵥ x + 2 * (x ⬝ᵥ H *ᵥ y) + y ⬝ᵥ H *ᵥ y := by
    rw [mulVec_add, add_dotProduct, dotProduct_add, dotProduct_add, sym_dot h.sym y x]
    ring
  have e2 : (l.map fun a => S a (x + y) ⬝ᵥ W a *ᵥ S a (x + y)).sum =
      (l.map fun a => S a x ⬝ᵥ W a *ᵥ S a x).sum + 2 * (l.map fun a => S a x ⬝ᵥ W a *ᵥ S a y).sum + (l.map fun a => S a y ⬝ᵥ W a *ᵥ S a y).sum := by
    rw [← lsum_mul, ← lsum_add, ← lsum_add]
    congr 1
    refine List.map_congr_left fun a ha => ?_
    rw [h.add, mulVec_add, add_dotProduct, dotProduct_add, dotProduct_add, sym_dot (h.psd a ha).symm (S a y) (S a x)]
    ring
  rw [e1, e2, h.hess x, h.hess y] at h1
  linarith

/-- The part of the gradient that is not due to `ξ`. -/
def rest (l : List A) (S : A → (Fin 6 → ℝ) → Fin 3 → ℝ) (W : A → Matrix (Fin 3) (Fin 3) ℝ) (D : A → Fin 3 → ℝ) (ξ x : Fin 6 → ℝ) : ℝ :=
  (l.map fun a => (D a + S a ξ) ⬝ᵥ W a *ᵥ S a x).sum

theorem NearSolution.pair_le {a : A} (ha : a ∈ l) {v : Fin 3 → ℝ} {κ : ℝ} (hv : len v ≤ κ) (x : Fin 6 → ℝ) : |v ⬝ᵥ W a *ᵥ S a x| ≤ κ * (w * (c * len x)) := by
  refine (abs_dot_le _ _).trans ?_
  refine mul_le_mul hv ((h.weight a ha _).trans (mul_le_mul_of_nonneg_left (h.speed a ha x) h.w0)) (len_nonneg _) ((len_nonneg v).trans hv)

theorem NearSolution.rest_le (x : Fin 6 → ℝ) : |rest l S W D ξ x| ≤ l.length * w * c * γ * len x := by
  refine (lsum_abs l _ (M := γ * (w * (c * len x))) fun a ha => h.pair_le ha (h.near a ha) x).trans_eq ?_
  ring

theorem NearSolution.grad_eq (x : Fin 6 → ℝ) : b ⬝ᵥ x = rest l S W D ξ x - ξ ⬝ᵥ H *ᵥ x := by
  rw [h.grad, h.bilin, rest, eq_sub_iff_add_eq, ← lsum_add]
  congr 1
  refine List.map_congr_left fun a _ => ?_
  rw [add_dotProduct]

theorem NearSolution.upper (x y : Fin 6 → ℝ) : |x ⬝ᵥ H *ᵥ y| ≤ l.length * w * c ^ 2 * len x * len y := by
  rw [h.bilin]
  refine (lsum_abs l _ (M := c * len x * (w * (c * len y))) fun a ha => h.pair_le ha (h.speed a ha x) y).trans_eq ?_
  ring

variable {lam : ℝ} {d : Fin 6 → ℝ} (hd : Damped H b lam d)

include hd

theorem NearSolution.damped_eq (x : Fin 6 → ℝ) : d ⬝ᵥ H *ᵥ x + lam * (d ⬝ᵥ x) = ξ ⬝ᵥ H *ᵥ x - rest l S W D ξ x := by
  have h1 := congrArg (fun v => v ⬝ᵥ x) hd
  simp only [add_mulVec, smul_mulVec, one_mulVec, add_dotProduct, smul_dotProduct, neg_dotProduct, smul_eq_mul] at h1
  rw [h.grad_eq x, dotProduct_comm (H *ᵥ d), sym_dot h.sym] at h1
  linarith

theorem le_of_sq_mul {a y r : ℝ} (hy : 0 ≤ y) (hr : 0 ≤ r) (h : a * y ^ 2 ≤ r * y) : a * y ≤ r := by
  rcases eq_or_lt_of_le hy with h0 | h0
  · rw [← h0]; simpa using hr
  · by_contra hc
    have := mul_lt_mul_of_pos_right (not_le.1 hc) h0
    nlinarith

/-- The step against the error twist. -/
theorem NearSolution.step_err (hlam : 0 ≤ lam) : (μ + lam) * len (d - ξ) ≤ lam * len ξ + l.length * w * c * γ := by
  have h1 := h.damped_eq hd (d - ξ)
  have h2 := h.lower (d - ξ)
  have h3 := (abs_le.1 (h.rest_le (d - ξ))).1
  have h4 : (d - ξ) ⬝ᵥ H *ᵥ (d - ξ) = d ⬝ᵥ H *ᵥ (d - ξ) - ξ ⬝ᵥ H *ᵥ (d - ξ) := by rw [sub_dotProduct]
  have h5 : d ⬝ᵥ (d - ξ) = len (d - ξ) ^ 2 + ξ ⬝ᵥ (d - ξ) := by
    rw [len_sq, sub_dotProduct]
    ring
  have h6 := (abs_le.1 (abs_dot_le ξ (d - ξ))).1
  have hK : 0 ≤ l.length * w * c * γ := mul_nonneg (mul_nonneg (mul_nonneg (Nat.cast_nonneg _) h.w0) h.c0) h.γ0
  refine le_of_sq_mul h hd (len_nonneg _) (add_nonneg (mul_nonneg hlam (len_nonneg ξ)) hK) ?_
  rw [h5] at h1
  nlinarith [mul_le_mul_of_nonneg_left h6 hlam]

theorem NearSolution.step_le : (μ + lam) * len d ≤ l.length * w * c ^ 2 * len ξ + l.length * w * c * γ := by
  have h1 := h.damped_eq hd d
  have h2 := h.lower d
  have h3 := (abs_le.1 (h.rest_le d)).1
  have h4 := (abs_le.1 (h.upper ξ d)).2
  have hK : 0 ≤ l.length * w * c * γ := mul_nonneg (mul_nonneg (mul_nonneg (Nat.cast_nonneg _) h.w0) h.c0) h.γ0
  have hh : 0 ≤ l.length * w * c ^ 2 * len ξ := mul_nonneg (mul_nonneg (mul_nonneg (Nat.cast_nonneg _) h.w0) (sq_nonneg c)) (len_nonneg ξ)
  refine le_of_sq_mul h hd (len_nonneg _) (add_nonneg hh hK) ?_
  rw [← len_sq] at h1
  nlinarith

theorem NearSolution.err_le (hlam : 0 ≤ lam) : μ * len ξ ≤ (l.length * w * c ^ 2 + lam) * len d + l.length * w * c * γ := by
  have h1 := h.damped_eq hd ξ
  have h2 := h.lower ξ
  have h3 := (abs_le.1 (h.rest_le ξ)).2
  have h4 := (abs_le.1 (h.upper d ξ)).2
  have h5 := mul_le_mul_of_nonneg_left (dot_le d ξ) hlam
  have hK : 0 ≤ l.length * w * c * γ := mul_nonneg (mul_nonneg (mul_nonneg (Nat.cast_nonneg _) h.w0) h.c0) h.γ0
  have hh : 0 ≤ (l.length * w * c ^ 2 + lam) * len d :=
    mul_nonneg (add_nonneg (mul_nonneg (mul_nonneg (Nat.cast_nonneg _) h.w0) (sq_nonneg c)) hlam) (len_nonneg d)
  refine le_of_sq_mul h hd (len_nonneg _) (add_nonneg hh hK) ?_
  nlinarith

/-- The decrease of the cost over the step, if the residuals move by `S d` up to `κ`. -/
theorem NearSolution.decrease {D' : A → Fin 3 → ℝ} {κ : ℝ} (hD : ∀ a ∈ l, len (D' a - D a - S a d) ≤ κ) :
    (μ + 2 * lam) * len d ^ 2 - 2 * (l.length * w * c * γ) * (len d + len ξ) - 2 * (l.length * w * c * (γ + κ)) * len (d - ξ) - l.length * w * (γ + κ) ^ 2 ≤
      (l.map fun a => D a ⬝ᵥ W a *ᵥ D a).sum - (l.map fun a => D' a ⬝ᵥ W a *ᵥ D' a).sum := by
  have h1 := h.damped_eq hd d
  rw [← len_sq] at h1
  have h2 := h.lower d
  have h3 := (abs_le.1 (h.rest_le d)).1
  have h4 := (abs_le.1 (h.rest_le ξ)).2
  -- before
  have e1 : (l.map fun a => D a ⬝ᵥ W a *ᵥ D a).sum = (l.map fun a => (D a + S a ξ) ⬝ᵥ W a *ᵥ (D a + S a ξ)).sum + -2 * rest l S W D ξ ξ + ξ ⬝ᵥ H *ᵥ ξ := by
    rw [rest, h.bilin, ← lsum_mul, ← lsum_add, ← lsum_add]
    congr 1
    refine List.map_congr_left fun a ha => ?_
    rw [mulVec_add, add_dotProduct, dotProduct_add, dotProduct_add, add_dotProduct, sym_dot (h.psd a ha).symm (S a ξ) (D a)]
    ring
  have p1 : 0 ≤ (l.map fun a => (D a + S a ξ) ⬝ᵥ W a *ᵥ (D a + S a ξ)).sum := lsum_nonneg _ _ fun a ha => (h.psd a ha).psd _
  -- after
  have hu : ∀ a, S a d = S a (d - ξ) + S a ξ := fun a => by rw [← h.add, sub_add_cancel]
  have e2 : (l.map fun a => D' a ⬝ᵥ W a *ᵥ D' a).sum = (l.map fun a => (D' a - S a (d - ξ)) ⬝ᵥ W a *ᵥ (D' a - S a (d - ξ))).sum +
      2 * (l.map fun a => (D' a - S a (d - ξ)) ⬝ᵥ W a *ᵥ S a (d - ξ)).sum + (d - ξ) ⬝ᵥ H *ᵥ (d - ξ) := by
    rw [h.bilin, ← lsum_mul, ← lsum_add, ← lsum_add]
    congr 1
    refine List.map_congr_left fun a ha => ?_
    rw [mulVec_sub, sub_dotProduct, dotProduct_sub, dotProduct_sub, sub_dotProduct, sym_dot (h.psd a ha).symm (S a (d - ξ)) (D' a)]
    ring
  have hr : ∀ a ∈ l, len (D' a - S a (d - ξ)) ≤ γ + κ := by
    intro a ha
    have e : D' a - S a (d - ξ) = (D a + S a ξ) + (D' a - D a - S a d) := by rw [hu a]; abel
    rw [e]
    exact (len_add_le _ _).trans (add_le_add (h.near a ha) (hD a ha))
  have p2 : (l.map fun a => (D' a - S a (d - ξ)) ⬝ᵥ W a *ᵥ (D' a - S a (d - ξ))).sum ≤ l.length * ((γ + κ) * (w * (γ + κ))) := by
    refine lsum_le _ _ fun a ha => (dot_le _ _).trans ?_
    have := hr a ha
    exact mul_le_mul this ((h.weight a ha _).trans (mul_le_mul_of_nonneg_left this h.w0)) (len_nonneg _) ((len_nonneg _).trans this)
  have p3 := (abs_le.1 (lsum_abs l (fun a => (D' a - S a (d - ξ)) ⬝ᵥ W a *ᵥ S a (d - ξ)) (M := (γ + κ) * (w * (c * len (d - ξ)))) fun a ha => h.pair_le ha (hr a ha) _)).2
  have e3 : (d - ξ) ⬝ᵥ H *ᵥ (d - ξ) = d ⬝ᵥ H *ᵥ d - 2 * (ξ ⬝ᵥ H *ᵥ d) + ξ ⬝ᵥ H *ᵥ ξ := by
    rw [mulVec_sub, sub_dotProduct, dotProduct_sub, dotProduct_sub, sym_dot h.sym d ξ]
    ring
  rw [e1, e2, e3]
  nlinarith

end

end Verif.Proofs
