import Verif.Props.Stiff
import Verif.Props.Factors
import Verif.Props.PipelineVoxel

/-!
C77: how far a registration with a `RestrictDoFFactor` moves along the masked directions, and what its steps tend to.
-/

set_option linter.unusedSectionVars false
set_option linter.unusedSimpArgs false
set_option linter.unnecessarySeqFocus false

namespace Verif.Props

open Matrix Verif Verif.Knn Verif.KdTree Verif.Proofs Verif.Proofs.RegMem Verif.Factors Verif.Reduction Verif.Optimizer Verif.PointCloud Verif.RegMem Verif.Spec Verif.Lie
open Verif.Pipeline Verif.Features Verif.Downsample Verif.Helper

/-! ### the linearised cost -/

theorem weight_psd (m : Metric) (L : Pose ℝ) {t s : Site} (ht : m = .cov → SymPSD t.cov) (hs : m = .cov → SymPSD s.cov) : SymPSD (pairWeight m L t s) := by
  cases m with
  | point => exact SymPSD.one
  | plane =>
    refine ⟨diagonal_transpose _, fun x => ?_⟩
    simp only [pairWeight, dotProduct, mulVec_diagonal]
    exact Finset.sum_nonneg fun i _ => by nlinarith [sq_nonneg (t.normal i * x i)]
  | cov =>
    have hA : SymPSD (t.cov + L.R * s.cov * L.Rᵀ) := by
      have := (hs rfl).conj L.Rᵀ
      rw [transpose_transpose] at this
      exact (ht rfl).add this
    show SymPSD (t.cov + L.R * s.cov * L.Rᵀ)⁻¹
    by_cases h : IsUnit (t.cov + L.R * s.cov * L.Rᵀ).det
    · exact hA.inverse (Matrix.mul_nonsing_inv _ h)
    · rw [Matrix.nonsing_inv_apply_not_isUnit _ h]
      exact ⟨by simp, fun x => by simp⟩

theorem pair_moves (L : Pose ℝ) (x : Fin 6 → ℝ) (t s : Site) : HasDerivAt (fun u : ℝ => pairDiff (L.mul (se3Exp (u • x))) t s) (pairSpeed L x t s) 0 := by
  have h := deriv_residual L ![s.pos 0, s.pos 1, s.pos 2, 1] ![t.pos 0, t.pos 1, t.pos 2, 1] rfl x
  have h3 : ∀ u : ℝ, pairDiff (L.mul (se3Exp (u • x))) t s = head3 (![t.pos 0, t.pos 1, t.pos 2, 1] - (L.mul (se3Exp (u • x))).apply ![s.pos 0, s.pos 1, s.pos 2, 1]) := by
    intro u
    have e1 := head3_apply (L.mul (se3Exp (u • x))) ![s.pos 0, s.pos 1, s.pos 2, 1] rfl
    have e2 : head3 ![s.pos 0, s.pos 1, s.pos 2, 1] = s.pos := by funext j; fin_cases j <;> rfl
    rw [e2] at e1
    have e3 : head3 (![t.pos 0, t.pos 1, t.pos 2, 1] - (L.mul (se3Exp (u • x))).apply ![s.pos 0, s.pos 1, s.pos 2, 1]) =
        t.pos - head3 ((L.mul (se3Exp (u • x))).apply ![s.pos 0, s.pos 1, s.pos 2, 1]) := by
      funext j; fin_cases j <;> rfl
    rw [e3, e1]
    rfl
  have hd : HasDerivAt (fun u : ℝ => pairDiff (L.mul (se3Exp (u • x))) t s) (head3 (blocks (L.R * skew (head3 ![s.pos 0, s.pos 1, s.pos 2, 1])) (-L.R) *ᵥ x)) 0 := by
    simp only [h3]
    rw [hasDerivAt_pi] at h ⊢
    intro j
    fin_cases j
    · exact h 0
    · exact h 1
    · exact h 2
  exact hd.differentiableAt.hasDerivAt

theorem mul_exp_zero (L : Pose ℝ) (x : Fin 6 → ℝ) (t s : Site) : pairDiff (L.mul (se3Exp ((0 : ℝ) • x))) t s = pairDiff L t s := by
  rw [se3_at_zero]
  congr 1
  unfold Pose.mul Pose.one
  simp

theorem cost_moves {m : Metric} (L : Pose ℝ) (x : Fin 6 → ℝ) {t s : Site} (hW : SymPSD (pairWeight m L t s)) :
    HasDerivAt (fun u : ℝ => pairCost m L t s (L.mul (se3Exp (u • x)))) (pairDiff L t s ⬝ᵥ pairWeight m L t s *ᵥ pairSpeed L x t s) 0 := by
  have h := pair_moves L x t s
  unfold pairCost
  generalize pairWeight m L t s = W at hW ⊢
  rw [hasDerivAt_pi] at h
  have hsum : ∀ v : Fin 3 → ℝ, v ⬝ᵥ W *ᵥ v = ∑ i, ∑ j, v i * (W i j * v j) := by
    intro v
    simp only [dotProduct, mulVec, Finset.mul_sum]
  simp only [hsum]
  have h1 : HasDerivAt (fun u : ℝ => 1 / 2 * ∑ i, ∑ j, pairDiff (L.mul (se3Exp (u • x))) t s i * (W i j * pairDiff (L.mul (se3Exp (u • x))) t s j))
      (1 / 2 * ∑ i, ∑ j, (pairSpeed L x t s i * (W i j * pairDiff (L.mul (se3Exp ((0 : ℝ) • x))) t s j) + pairDiff (L.mul (se3Exp ((0 : ℝ) • x))) t s i * (W i j * pairSpeed L x t s j))) 0 := by
    refine HasDerivAt.const_mul _ (HasDerivAt.fun_sum fun i _ => HasDerivAt.fun_sum fun j _ => ?_)
    exact (h i).mul ((h j).const_mul (W i j))
  convert h1 using 1
  rw [mul_exp_zero]
  have hs : ∀ i j, W j i = W i j := fun i j => congrFun (congrFun hW.symm i) j
  simp only [dotProduct, mulVec, Fin.sum_univ_three]
  rw [hs 0 1, hs 0 2, hs 1 2]
  ring

theorem pairSum_le {src : List Site} {p : List (Option Site)} {M : Site → Option Site → Prop} (hp : List.Forall₂ M src p) {f g : Site → Site → ℝ} (h : ∀ s t, s ∈ src → M s (some t) → f t s ≤ g t s) :
    pairSum src p f ≤ pairSum src p g := by
  unfold pairSum
  induction hp with
  | nil => simp
  | @cons s o src p h1 h2 ih =>
    rw [List.zipWith_cons_cons, List.zipWith_cons_cons, List.sum_cons, List.sum_cons]
    refine add_le_add ?_ (ih fun s t hs => h s t (List.mem_cons_of_mem _ hs))
    cases o with
    | none => simp
    | some t => exact h s t (List.mem_cons_self ..) h1

theorem pairSum_add (src : List Site) (p : List (Option Site)) (f g : Site → Site → ℝ) : pairSum src p (fun t s => f t s + g t s) = pairSum src p f + pairSum src p g := by
  unfold pairSum
  induction src generalizing p with
  | nil => simp
  | cons s src ih =>
    cases p with
    | nil => simp
    | cons o p =>
      rw [List.zipWith_cons_cons, List.zipWith_cons_cons, List.zipWith_cons_cons, List.sum_cons, List.sum_cons, List.sum_cons, ih]
      cases o <;> simp <;> ring

theorem pairSum_mul (src : List Site) (p : List (Option Site)) (c : ℝ) (f : Site → Site → ℝ) : pairSum src p (fun t s => c * f t s) = c * pairSum src p f := by
  unfold pairSum
  induction src generalizing p with
  | nil => simp
  | cons s src ih =>
    cases p with
    | nil => simp
    | cons o p =>
      rw [List.zipWith_cons_cons, List.zipWith_cons_cons, List.sum_cons, List.sum_cons, ih]
      cases o <;> simp <;> ring

theorem pairSum_const (src : List Site) (p : List (Option Site)) (hl : src.length = p.length) (c : ℝ) : pairSum src p (fun _ _ => c) = paired p * c := by
  unfold pairSum paired
  induction src generalizing p with
  | nil => cases p with
    | nil => simp
    | cons _ _ => simp at hl
  | cons s src ih =>
    cases p with
    | nil => simp at hl
    | cons o p =>
      rw [List.zipWith_cons_cons, List.sum_cons, ih p (by simpa using hl), List.countP_cons]
      cases o <;> simp <;> ring

/-- Covariances that occur are symmetric and positive semi-definite. -/
def CovsPSD (M : (Fin 3 → ℝ) → Option Site → Prop) (src : List Site) : Prop := (∀ s ∈ src, SymPSD s.cov) ∧ ∀ q t, M q (some t) → SymPSD t.cov

theorem linearised_good {m : Metric} {M : (Fin 3 → ℝ) → Option Site → Prop} {src : List Site} {L : Pose ℝ} {p : List (Option Site)} {H : Matrix (Fin 6) (Fin 6) ℝ} {b : Fin 6 → ℝ}
    (hM : m = .cov → CovsPSD M src) (h : Linearised m M src L p H b) : GoodSystem H b (totalCost m src p L L) := by
  have hW : ∀ s t, s ∈ src → M (move L s.pos) (some t) → SymPSD (pairWeight m L t s) := fun s t hs ht => weight_psd m L (fun hm => (hM hm).2 _ _ ht) (fun hm => (hM hm).1 s hs)
  have hzero : ∀ f : Site → Site → ℝ, (∀ s t, s ∈ src → M (move L s.pos) (some t) → 0 ≤ f t s) → 0 ≤ pairSum src p f := by
    intro f hf
    have := pairSum_le h.matched (f := fun _ _ => 0) (g := f) (fun s t hs ht => hf s t hs ht)
    rwa [pairSum_const _ _ h.matched.length_eq, mul_zero] at this
  have hb : ∀ x, b ⬝ᵥ x = pairSum src p (fun t s => pairDiff L t s ⬝ᵥ pairWeight m L t s *ᵥ pairSpeed L x t s) := by
    intro x
    refine (h.grad x).unique ?_
    unfold totalCost pairSum
    have hm := h.matched
    clear h hzero
    induction hm with
    | nil => simpa using hasDerivAt_const (0 : ℝ) (0 : ℝ)
    | @cons s o src p h1 h2 ih =>
      simp only [List.zipWith_cons_cons, List.sum_cons]
      refine HasDerivAt.add ?_ (ih (fun hm => ⟨fun s hs => (hM hm).1 s (List.mem_cons_of_mem _ hs), (hM hm).2⟩) fun s t hs => hW s t (List.mem_cons_of_mem _ hs))
      cases o with
      | none => exact hasDerivAt_const _ _
      | some t => exact cost_moves L x (hW s t (List.mem_cons_self ..) h1)
  refine ⟨h.psd, ?_, fun x => ?_⟩
  · exact hzero _ fun s t hs ht => by unfold pairCost; linarith [(hW s t hs ht).psd (pairDiff L t s)]
  · have : totalCost m src p L L + b ⬝ᵥ x + 1 / 2 * (x ⬝ᵥ H *ᵥ x) = pairSum src p (fun t s => pairCost m L t s L + pairDiff L t s ⬝ᵥ pairWeight m L t s *ᵥ pairSpeed L x t s +
        1 / 2 * (pairSpeed L x t s ⬝ᵥ pairWeight m L t s *ᵥ pairSpeed L x t s)) := by
      rw [pairSum_add, pairSum_add, pairSum_mul, ← hb, ← h.hess]
      rfl
    rw [this]
    refine hzero _ fun s t hs ht => ?_
    have h1 := (hW s t hs ht).psd (pairDiff L t s + pairSpeed L x t s)
    have hsym : pairSpeed L x t s ⬝ᵥ pairWeight m L t s *ᵥ pairDiff L t s = pairDiff L t s ⬝ᵥ pairWeight m L t s *ᵥ pairSpeed L x t s := by
      rw [dotProduct_comm, ← (hW s t hs ht).symm, mulVec_transpose, ← dotProduct_mulVec, (hW s t hs ht).symm]
    rw [mulVec_add, add_dotProduct, dotProduct_add, dotProduct_add, hsym] at h1
    unfold pairCost
    linarith

/-! ### masked directions -/

section Held

variable {m : Metric} {M : (Fin 3 → ℝ) → Option Site → Prop} {src : List Site} {inner : Nat} {factor re te : ℝ} {lambda : ℝ} {mask : Fin 6 → ℝ}

theorem damped_held (hlambda : 0 < lambda) (hmask : ∀ i, mask i = 0 ∨ mask i = 1) {H : Matrix (Fin 6) (Fin 6) ℝ} {b : Fin 6 → ℝ} {e : ℝ} (hg : GoodSystem H b e) {lam : ℝ} (hl : 0 ≤ lam)
    {d : Fin 6 → ℝ} (hd : Damped (H + stiffness lambda mask) b lam d) : maskedPart mask d ≤ e / lambda := by
  refine (C37_bound ⟨lambda, mask⟩ hmask hlambda Pose.one H b e hg lam hl d ?_).1
  have := (restrict_adds ⟨lambda, mask⟩).1 Pose.one (H, b, e)
  rw [this]
  exact hd

/-- C77. The pose moves little along masked directions: the result is reached by at most as many steps as there are iterations, and in each of them the squared masked components sum to at most
`C / lambda`, where `C` bounds the cost of matched pairs. -/
theorem C77_held (hlambda : 0 < lambda) (hmask : ∀ i, mask i = 0 ∨ mask i = 1) (hf : 0 < factor) (hM : m = .cov → CovsPSD M src) {C : ℝ}
    (hC : ∀ L p, List.Forall₂ (fun s o => M (move L s.pos) o) src p → totalCost m src p L L ≤ C) {n i : Nat} {lam : ℝ} {r r' : Result ℝ} (hl : 0 < lam)
    (h : StiffRun (stiffness lambda mask) m M src inner factor re te n i lam r r') :
    ∃ steps, r'.T = follow r.T steps ∧ steps.length ≤ n ∧ ∀ d ∈ steps, maskedPart mask d ≤ C / lambda := by
  induction h with
  | budget i lam r => exact ⟨[], rfl, Nat.zero_le _, by simp⟩
  | done n i lam r hc => exact ⟨[], rfl, Nat.zero_le _, by simp⟩
  | stuck n i lam r p H b d hc hlin hd => exact ⟨[], rfl, Nat.zero_le _, by simp⟩
  | step n i lam r r' p H b k d hc hlin hk hd hdk hle _ ih =>
    obtain ⟨steps, h1, h2, h3⟩ := ih (div_pos (mul_pos hl (pow_pos hf k)) hf)
    refine ⟨d k :: steps, h1, by simpa using h2, fun x hx => ?_⟩
    rcases List.mem_cons.1 hx with rfl | hx
    · refine le_trans (damped_held hlambda hmask (linearised_good hM hlin) (mul_pos hl (pow_pos hf k)).le hdk) ?_
      exact div_le_div_of_nonneg_right (hC _ _ hlin.matched) hlambda.le
    · exact h3 x hx

/-- The inverse of a matrix with `c |x|² ≤ x·Ax` is at most `1/c`. -/
theorem inverse_bound {A : Matrix (Fin 3) (Fin 3) ℝ} {c : ℝ} (hc : 0 < c) (hA : ∀ x : Fin 3 → ℝ, c * (x ⬝ᵥ x) ≤ x ⬝ᵥ A *ᵥ x) (x : Fin 3 → ℝ) : x ⬝ᵥ A⁻¹ *ᵥ x ≤ x ⬝ᵥ x / c := by
  by_cases h : IsUnit A.det
  · have hx : A *ᵥ (A⁻¹ *ᵥ x) = x := by rw [mulVec_mulVec, Matrix.mul_nonsing_inv _ h, one_mulVec]
    generalize A⁻¹ *ᵥ x = y at hx
    have h1 := hA y
    rw [hx] at h1
    have h2 : (0 : ℝ) ≤ (x - c • y) ⬝ᵥ (x - c • y) := by
      simp only [dotProduct, Fin.sum_univ_three]
      nlinarith [mul_self_nonneg ((x - c • y) 0), mul_self_nonneg ((x - c • y) 1), mul_self_nonneg ((x - c • y) 2)]
    have hxy : y ⬝ᵥ x = x ⬝ᵥ y := dotProduct_comm _ _
    simp only [sub_dotProduct, dotProduct_sub, smul_dotProduct, dotProduct_smul, smul_eq_mul, hxy] at h1 h2
    rw [le_div_iff₀ hc]
    nlinarith
  · rw [Matrix.nonsing_inv_apply_not_isUnit _ h]
    simp only [zero_mulVec, dotProduct_zero]
    refine div_nonneg ?_ hc.le
    simp only [dotProduct, Fin.sum_univ_three]
    nlinarith [mul_self_nonneg (x 0), mul_self_nonneg (x 1), mul_self_nonneg (x 2)]

/-- How much of the squared distance of a pair counts at most: 1 for ICP and point-to-plane ICP, 1000 for GICP. -/
def weightBound : Metric → ℝ
  | .point => 1
  | .plane => 1
  | .cov => 1000

/-- A site as the estimation of local features leaves it. -/
def LocalSite (s : Site) : Prop := (s.normal = 0 ∧ s.cov = 1) ∨ (s.normal ⬝ᵥ s.normal = 1 ∧ s.cov = 1 - (999 / 1000 : ℝ) • vecMulVec s.normal s.normal)

theorem local_sites {pts : List (Pt ℝ)} {maxD : ℝ} {k : Nat} {l : List Site} (h : LocalSites pts maxD k l) : ∀ s ∈ l, LocalSite s := by
  intro s hs
  obtain ⟨i, hi, rfl⟩ := List.mem_iff_getElem.1 hs
  have hl : l.length = pts.length := by simpa using congrArg List.length h.1
  obtain ⟨nb, _, h1, h2⟩ := h.2 i _ _ (List.getElem?_eq_getElem (hl ▸ hi)) (List.getElem?_eq_getElem hi)
  rcases Nat.lt_or_ge nb.length 5 with h5 | h5
  · exact Or.inl (h1 h5)
  · obtain ⟨ps, _, h3, h4⟩ := h2 h5
    exact Or.inr ⟨h3.1, h4⟩

theorem LocalSite.normal_le {s : Site} (h : LocalSite s) : s.normal ⬝ᵥ s.normal ≤ 1 := by
  rcases h with ⟨h, _⟩ | ⟨h, _⟩
  · rw [h]; simp
  · exact h.le

theorem LocalSite.quad {s : Site} (h : LocalSite s) (x : Fin 3 → ℝ) : 1 / 1000 * (x ⬝ᵥ x) ≤ x ⬝ᵥ s.cov *ᵥ x := by
  rcases h with ⟨_, h⟩ | ⟨hn, h⟩
  · rw [h, one_mulVec]
    have : 0 ≤ x ⬝ᵥ x := by simp only [dotProduct, Fin.sum_univ_three]; nlinarith [mul_self_nonneg (x 0), mul_self_nonneg (x 1), mul_self_nonneg (x 2)]
    linarith
  · have hv : x ⬝ᵥ (vecMulVec s.normal s.normal) *ᵥ x = (s.normal ⬝ᵥ x) * (s.normal ⬝ᵥ x) := by
      simp only [dotProduct, mulVec, vecMulVec_apply, Fin.sum_univ_three]
      ring
    rw [h, sub_mulVec, dotProduct_sub, one_mulVec, smul_mulVec, dotProduct_smul, hv, smul_eq_mul]
    have hcs : (s.normal ⬝ᵥ x) * (s.normal ⬝ᵥ x) ≤ x ⬝ᵥ x := by
      simp only [dotProduct, Fin.sum_univ_three] at hn ⊢
      nlinarith [mul_self_nonneg (s.normal 0 * x 1 - s.normal 1 * x 0), mul_self_nonneg (s.normal 0 * x 2 - s.normal 2 * x 0), mul_self_nonneg (s.normal 1 * x 2 - s.normal 2 * x 1)]
    linarith

theorem LocalSite.psd {s : Site} (h : LocalSite s) : SymPSD s.cov := by
  refine ⟨?_, fun x => ?_⟩
  · rcases h with ⟨_, h⟩ | ⟨_, h⟩
    · rw [h, transpose_one]
    · rw [h, transpose_sub, transpose_one, transpose_smul, transpose_vecMulVec]
  · have : 0 ≤ x ⬝ᵥ x := by simp only [dotProduct, Fin.sum_univ_three]; nlinarith [mul_self_nonneg (x 0), mul_self_nonneg (x 1), mul_self_nonneg (x 2)]
    linarith [h.quad x]

theorem weight_le (m : Metric) (L : Pose ℝ) {t s : Site} (ht : LocalSite t) (hs : SymPSD s.cov) (x : Fin 3 → ℝ) : x ⬝ᵥ pairWeight m L t s *ᵥ x ≤ weightBound m * (x ⬝ᵥ x) := by
  cases m with
  | point => simp [pairWeight, weightBound]
  | plane =>
    have hn := ht.normal_le
    simp only [pairWeight, weightBound, dotProduct, mulVec_diagonal, Fin.sum_univ_three] at hn ⊢
    nlinarith [mul_self_nonneg (t.normal 0), mul_self_nonneg (t.normal 1), mul_self_nonneg (t.normal 2), mul_nonneg (mul_self_nonneg (t.normal 0)) (mul_self_nonneg (x 1)),
      mul_nonneg (mul_self_nonneg (t.normal 0)) (mul_self_nonneg (x 2)), mul_nonneg (mul_self_nonneg (t.normal 1)) (mul_self_nonneg (x 0)),
      mul_nonneg (mul_self_nonneg (t.normal 1)) (mul_self_nonneg (x 2)), mul_nonneg (mul_self_nonneg (t.normal 2)) (mul_self_nonneg (x 0)),
      mul_nonneg (mul_self_nonneg (t.normal 2)) (mul_self_nonneg (x 1)), mul_nonneg (sub_nonneg.2 hn) (add_nonneg (add_nonneg (mul_self_nonneg (x 0)) (mul_self_nonneg (x 1))) (mul_self_nonneg (x 2)))]
  | cov =>
    have hR : SymPSD (L.R * s.cov * L.Rᵀ) := by
      have := hs.conj L.Rᵀ
      rwa [transpose_transpose] at this
    have := inverse_bound (A := t.cov + L.R * s.cov * L.Rᵀ) (c := 1 / 1000) (by norm_num) (fun y => by
      rw [add_mulVec, dotProduct_add]
      linarith [ht.quad y, hR.psd y]) x
    show x ⬝ᵥ (t.cov + L.R * s.cov * L.Rᵀ)⁻¹ *ᵥ x ≤ 1000 * (x ⬝ᵥ x)
    rw [div_div_eq_mul_div, div_one] at this
    linarith

/-- The cost of nearest pairs within the gate. -/
theorem cost_gate {m : Metric} {tgt src : List Site} (ht : ∀ t ∈ tgt, LocalSite t) (hs : ∀ s ∈ src, SymPSD s.cov) {gate : ℝ} (L : Pose ℝ) (p : List (Option Site))
    (hp : List.Forall₂ (fun s o => NearestWithin tgt gate (move L s.pos) o) src p) : totalCost m src p L L ≤ paired p * (weightBound m * gate / 2) := by
  rw [← pairSum_const src p hp.length_eq]
  refine pairSum_le hp fun s t hss hm => ?_
  have h1 := weight_le m L (ht t hm.1) (hs s hss) (pairDiff L t s)
  have h2 : pairDiff L t s ⬝ᵥ pairDiff L t s ≤ gate := hm.2.1
  have h3 : (0 : ℝ) ≤ weightBound m := by cases m <;> norm_num [weightBound]
  unfold pairCost
  nlinarith [mul_le_mul_of_nonneg_left h2 h3]

/-- C77. Clouds with local features, nearest pairs within the gate: in each step the squared masked components sum to at most `n * w * gate / (2 * lambda)`, with `n` source points and `w` = 1 (GICP: 1000). -/
theorem C77_held_clouds (hlambda : 0 < lambda) (hmask : ∀ i, mask i = 0 ∨ mask i = 1) (hf : 0 < factor) {tgt src : List Site} (ht : ∀ t ∈ tgt, LocalSite t) (hs : ∀ s ∈ src, LocalSite s)
    {gate : ℝ} (hgate : 0 ≤ gate) {n i : Nat} {lam : ℝ} {r r' : Result ℝ} (hl : 0 < lam)
    (h : StiffRun (stiffness lambda mask) m (NearestWithin tgt gate) src inner factor re te n i lam r r') :
    ∃ steps, r'.T = follow r.T steps ∧ steps.length ≤ n ∧ ∀ d ∈ steps, maskedPart mask d ≤ src.length * (weightBound m * gate / 2) / lambda := by
  refine C77_held hlambda hmask hf (fun _ => ⟨fun s hss => (hs s hss).psd, fun q t hm => (ht t hm.1).psd⟩) (fun L p hp => ?_) hl h
  refine le_trans (cost_gate ht (fun s hss => (hs s hss).psd) L p hp) (mul_le_mul_of_nonneg_right ?_ ?_)
  · have : paired p ≤ src.length := by rw [hp.length_eq]; exact List.countP_le_length
    exact_mod_cast this
  · have h3 : (0 : ℝ) ≤ weightBound m := by cases m <;> norm_num [weightBound]
    positivity

end Held

/-! ### the limit -/

/-- C77. As `lambda` grows, the step tends to the step of the problem without the masked directions: their squared distance is at most `|g|² / (4 * lam * lambda)`, where `g` is the masked part of
the residual of the restricted step, which does not depend on `lambda`. -/
theorem C77_limit {lambda lam : ℝ} (hlambda : 0 < lambda) (hl : 0 < lam) {mask : Fin 6 → ℝ} (hmask : ∀ i, mask i = 0 ∨ mask i = 1) {H : Matrix (Fin 6) (Fin 6) ℝ} (hH : SymPSD H)
    {b d d' : Fin 6 → ℝ} (hd : Damped (H + stiffness lambda mask) b lam d) (hd' : RestrictedStep mask H b lam d') :
    (d - d') ⬝ᵥ (d - d') ≤ maskedPart mask (b + (H + lam • (1 : Matrix (Fin 6) (Fin 6) ℝ)) *ᵥ d') / (4 * (lam * lambda)) := by
  set A := H + lam • (1 : Matrix (Fin 6) (Fin 6) ℝ) with hA
  set g := b + A *ᵥ d' with hg
  set x := d - d' with hx
  have hd1 : A *ᵥ d + stiffness lambda mask *ᵥ d = -b := by
    have h1 : (H + stiffness lambda mask + lam • (1 : Matrix (Fin 6) (Fin 6) ℝ)) *ᵥ d = -b := hd
    rw [hA, ← add_mulVec, add_right_comm]
    exact h1
  have hSv : ∀ v i, (stiffness lambda mask *ᵥ v) i = if mask i = 0 then lambda * v i else 0 := by
    intro v i
    simp only [mulVec, dotProduct, stiffness, ite_mul, zero_mul, Finset.sum_ite_eq, Finset.mem_univ, if_true]
    rcases hmask i with h | h
    · rw [if_pos h, h]; norm_num
    · rw [if_neg (by rw [h]; norm_num), h]; norm_num
  have hSd' : stiffness lambda mask *ᵥ d' = 0 := by
    funext i
    rw [hSv]
    by_cases h : mask i = 0
    · rw [if_pos h, (hd' i).1 h]; simp
    · rw [if_neg h]; rfl
  have hgi : ∀ i, mask i ≠ 0 → g i = 0 := by
    intro i h
    have := (hd' i).2 h
    rw [hg, Pi.add_apply, this]
    ring
  have heq : A *ᵥ x + stiffness lambda mask *ᵥ x = -g := by
    rw [hx, mulVec_sub, mulVec_sub, hSd', hg]
    have : A *ᵥ d = -b - stiffness lambda mask *ᵥ d := by rw [← hd1]; abel
    rw [this]
    abel
  have h1 := congrArg (fun v => x ⬝ᵥ v) heq
  simp only [dotProduct_add, dotProduct_neg] at h1
  have h2 : lam * (x ⬝ᵥ x) ≤ x ⬝ᵥ A *ᵥ x := by
    rw [hA, add_mulVec, dotProduct_add, smul_mulVec, one_mulVec, dotProduct_smul, smul_eq_mul]
    linarith [hH.psd x]
  have h3 : x ⬝ᵥ stiffness lambda mask *ᵥ x = lambda * maskedPart mask x := by
    unfold maskedPart dotProduct
    rw [Finset.mul_sum]
    refine Finset.sum_congr rfl fun i _ => ?_
    rw [hSv]
    split <;> ring
  have h4 : -(x ⬝ᵥ g) ≤ lambda * maskedPart mask x + maskedPart mask g / (4 * lambda) := by
    unfold maskedPart dotProduct
    rw [Finset.mul_sum, Finset.sum_div, ← Finset.sum_add_distrib, ← Finset.sum_neg_distrib]
    refine Finset.sum_le_sum fun i _ => ?_
    by_cases h : mask i = 0
    · rw [if_pos h, if_pos h, ← sub_nonneg]
      have : lambda * x i ^ 2 + g i ^ 2 / (4 * lambda) - -(x i * g i) = (2 * lambda * x i + g i) ^ 2 / (4 * lambda) := by
        field_simp
        ring
      rw [this]
      positivity
    · rw [hgi i h, if_neg h, if_neg h]
      simp
  have h5 : lam * (x ⬝ᵥ x) ≤ maskedPart mask g / (4 * lambda) := by linarith
  have h6 : 0 ≤ maskedPart mask g := Finset.sum_nonneg fun i _ => by split <;> positivity
  rw [le_div_iff₀ (by positivity)]
  rw [le_div_iff₀ (by positivity)] at h5
  nlinarith

/-! ### cases -/

/-- The parabola registered to itself by GICP from a guess off by a quarter, roll and pitch masked with weight 10⁹: the premises of C77 are met, and no step turns by roll and pitch more than the
square root of 0.003 in all. -/
example : ∃ (e : Env) (ct cs : RCloud) (t : KdTree.Tree ℝ) (outT : List (Pt ℝ)) (out : Result ℝ × List (GICP ℝ) × List (Iteration (GICP ℝ) ℝ)) (steps : List (Fin 6 → ℝ)),
    RegMem.align (gicpMem e.inv) (cloudWorld ct cs (kdNearest e.maxD outT t (outT.length + 1) e.junk))
      ⟨distanceRejector 1, (RestrictDoF.general ⟨10 ^ 9, ![0, 0, 1, 1, 1, 1]⟩), e.solve, se3Exp, converged (1 / 1000) (1 / 1000)⟩ (fun _ _ => .serial) (fun _ _ => .serial) (.lm ⟨20, 10, 1 / 1000, 10⟩)
      ⟨1, ![1 / 4, 0, 0]⟩ cs.size = .ok out ∧ out.1.T = follow ⟨1, ![1 / 4, 0, 0]⟩ steps ∧ steps.length ≤ 20 ∧ ∀ d ∈ steps, d 0 ^ 2 + d 1 ^ 2 ≤ 3 / 1000 := by
  obtain ⟨e, he, hmax, _⟩ := env_exists 1000 (by norm_num) (0, 0)
  have hex : ∃ x r, preprocessVector e x (fun x : ℝ => x) parabola3 1 10 1 = some r := by
    unfold preprocessVector
    rw [C50_constructor]
    exact C59_executes he (pts := parabola3.map (vecPoint (fun x : ℝ => x))) (by simp [homogeneous_eq, Function.comp_def]) (by simp [vecPoint]) (by simp [parabola3])
      (by norm_num) (by simpa using parabola3_fits.2) (by norm_num) 1
  obtain ⟨x, r, hr⟩ := hex
  have hr' := hr
  unfold preprocessVector at hr'
  rw [C50_constructor] at hr'
  obtain ⟨outT, c, t, rfl, h1, h2, h3, h4, h5, h6, h7⟩ := C59_preprocess he (pts := parabola3.map (vecPoint (fun x : ℝ => x))) (by simp [homogeneous_eq, Function.comp_def])
    (by simp [vecPoint]) (by simp [parabola3]) (by norm_num) (by simpa using parabola3_fits.2) (by norm_num) 1 hr'
  have hlen : outT.length ≤ 6 := by simpa [parabola3] using h6
  obtain ⟨out, a1, a2⟩ := C77_align he (MetricFactor.cov (inv := e.inv)) (fun _ _ => .serial) (fun _ _ => .serial) (fun _ _ _ => trivial) (fun _ _ _ => trivial) (gate := 1) (by rw [hmax]; norm_num) (1 / 1000) (1 / 1000)
    ⟨10 ^ 9, ![0, 0, 1, 1, 1, 1]⟩ (by norm_num) (st := ⟨20, 10, 1 / 1000, 10⟩) (by norm_num) (by norm_num) (by omega) h2 h2 h7 h7 h3 h4 ⟨1, ![1 / 4, 0, 0]⟩ (by tauto)
  have hloc := local_sites (cloud_sites h2)
  obtain ⟨steps, b1, b2, b3⟩ := C77_held_clouds (by norm_num) (by intro i; fin_cases i <;> simp) (by norm_num) hloc hloc (by norm_num) (by norm_num) a2
  refine ⟨e, c, c, t, outT, out, steps, a1, b1, b2, fun d hd => ?_⟩
  have h8 := b3 d hd
  have h9 : ((cloudSites c).length : ℝ) ≤ 6 := by
    have : (cloudSites c).length = outT.length := by simp [cloudSites, (features_points h2).2]
    rw [this]
    exact_mod_cast hlen
  simp [maskedPart, Fin.sum_univ_six, weightBound] at h8
  linarith

/-- A system with one masked direction, weight 3 and damping 1: the step and the restricted step differ by 1/4 in that direction, below the bound of `C77_limit`. -/
example : Damped ((0 : Matrix (Fin 6) (Fin 6) ℝ) + stiffness 3 ![0, 1, 1, 1, 1, 1]) ![1, 1, 0, 0, 0, 0] 1 ![-1 / 4, -1, 0, 0, 0, 0] ∧
    RestrictedStep ![0, 1, 1, 1, 1, 1] 0 ![1, 1, 0, 0, 0, 0] 1 ![0, -1, 0, 0, 0, 0] := by
  constructor
  · unfold Damped
    funext i
    fin_cases i <;> simp [mulVec, dotProduct, Fin.sum_univ_six, stiffness, Matrix.one_apply] <;> norm_num
  · intro i
    fin_cases i <;> simp [mulVec, dotProduct, Fin.sum_univ_six, Matrix.one_apply]

end Verif.Props
