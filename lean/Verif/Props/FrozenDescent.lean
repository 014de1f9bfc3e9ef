import Verif.Props.PairRounding

/-!
C111: an accepted step of Levenberg-Marquardt in machine arithmetic does not increase the exact sum of the errors of its pairs by more than rounding, for the three factors of the library.
-/

set_option linter.unusedSectionVars false
set_option linter.unusedSimpArgs false
set_option linter.unnecessarySeqFocus false

namespace Verif.Spec

open Matrix Verif Verif.Knn Verif.Factors Verif.Machine Verif.Proofs.RegMem

/-- Half the weighted squared residual of a pair. -/
noncomputable def weightedCost (A : Matrix (Fin 4) (Fin 4) ℝ) (q p : Fin 4 → ℝ) (T : Pose ℝ) : ℝ := ((q - T.apply p) ⬝ᵥ A *ᵥ (q - T.apply p)) / 2

/-- Cost of given pairs with given weights (target index, source index, weight) at a pose. -/
noncomputable def frozenCost (tgt src : List (Fin 4 → ℝ)) (pairs : List (Option (Nat × Nat × Matrix (Fin 4) (Fin 4) ℝ))) (T : Pose ℝ) : ℝ :=
  (pairs.map fun x => x.elim 0 fun y => weightedCost y.2.2 (tgt[y.1]?.getD 0) (src[y.2.1]?.getD 0) T).sum

/-- Weights: no residual has a negative cost, and the entries add up to `L` at most. -/
structure Moderate (L : ℝ) (A : Matrix (Fin 4) (Fin 4) ℝ) : Prop where
  nonneg : ∀ v, 0 ≤ v ⬝ᵥ A *ᵥ v
  entries : ∑ i, ∑ j, |A i j| ≤ L

variable {V P H B M : Type} [Zero V] [Add V] [Sub V] [Mul V]

/-- Accuracy of the errors of the three factors as functions of the residual: relative error `γ`, absolute error `lam` (from underflow). For GICP this includes the condition of the Mahalanobis matrix and
is asked of the matrices in `fine` only; `mval` is the value of a matrix. -/
structure TermAccuracy (E : Eval V P H B M) (val : V → ℝ) (mval : M → Matrix (Fin 4) (Fin 4) ℝ) (fine : M → Prop) (γ lam Z : ℝ) : Prop where
  icp : ∀ r, (∀ j, |val (r j)| ≤ 3 * Z) → |val (E.half (E.sqNorm r)) - (∑ j, val (r j) ^ 2) / 2| ≤ γ * ((∑ j, val (r j) ^ 2) / 2) + lam
  plane : ∀ n r, (∀ j, |val (r j)| ≤ 3 * Z) → |val (E.half (E.sqNorm (n * r))) - (∑ j, (val (n j) * val (r j)) ^ 2) / 2| ≤ γ * ((∑ j, (val (n j) * val (r j)) ^ 2) / 2) + lam
  gicp : ∀ r m, fine m → (∀ j, |val (r j)| ≤ 3 * Z) →
    |val (E.quad r m) - ((fun j => val (r j)) ⬝ᵥ mval m *ᵥ fun j => val (r j)) / 2| ≤ γ * (((fun j => val (r j)) ⬝ᵥ mval m *ᵥ fun j => val (r j)) / 2) + lam

/-- The three factors and the weights they give their pairs: none, the squares of the normal (the product of normal and residual is componentwise), the stored Mahalanobis matrix. -/
inductive WeightedFactor (E : Eval V P H B M) (val : V → ℝ) (normals : List (Fin 4 → V)) (mval : M → Matrix (Fin 4) (Fin 4) ℝ) (fine : M → Prop) :
    (F : Type) → Needs → Factor F V P H B M → (F → Matrix (Fin 4) (Fin 4) ℝ) → (F → Prop) → Prop
  | icp : WeightedFactor E val normals mval fine ICP ⟨false, false⟩ (icpFactor E) (fun _ => 1) (fun _ => True)
  | plane : WeightedFactor E val normals mval fine PlaneICP ⟨true, false⟩ (planeFactor E) (fun f => Matrix.diagonal fun j => val ((normals[f.target]?.getD 0) j) ^ 2) (fun _ => True)
  | gicp : WeightedFactor E val normals mval fine (Machine.GICP M) ⟨false, true⟩ (gicpFactor E) (fun f => mval f.mahalanobis) (fun f => fine f.mahalanobis)

/-- The pairs and weights recorded in the factors. -/
def weightedPairs {F : Type} (mf : Factor F V P H B M) (weight : F → Matrix (Fin 4) (Fin 4) ℝ) (fs : List F) : List (Option (Nat × Nat × Matrix (Fin 4) (Fin 4) ℝ)) :=
  fs.map fun f => if mf.inlier f then some (mf.target f, mf.source f, weight f) else none

/-- Absolute error of a term, if a relative error of `ε` is conceded. -/
noncomputable def frozenSlack (γ u lam Z ε L : ℝ) : ℝ := 6 * L * ((γ + 3 * u) * Z) ^ 2 / ε + lam

end Verif.Spec

namespace Verif.Props

open Matrix Verif Verif.Knn Verif.KdTree Verif.Proofs Verif.Proofs.RegMem Verif.Factors Verif.Reduction Verif.PointCloud Verif.RegMem Verif.Spec

/-! ### Quadratic forms of inexact residuals -/

theorem quad_bound {L α : ℝ} {A : Matrix (Fin 4) (Fin 4) ℝ} (hA : Moderate L A) {v : Fin 4 → ℝ} (hv : ∀ j, |v j| ≤ α) : v ⬝ᵥ A *ᵥ v ≤ L * α ^ 2 := by
  have hα : 0 ≤ α := (abs_nonneg _).trans (hv 0)
  calc v ⬝ᵥ A *ᵥ v = ∑ i, ∑ j, v i * (A i j * v j) := by simp only [dotProduct, Matrix.mulVec, Finset.mul_sum]
    _ ≤ ∑ i, ∑ j, |A i j| * α ^ 2 := by
      refine Finset.sum_le_sum fun i _ => Finset.sum_le_sum fun j _ => (le_abs_self _).trans ?_
      rw [abs_mul, abs_mul]
      have := mul_le_mul (hv i) (hv j) (abs_nonneg _) hα
      nlinarith [abs_nonneg (A i j), mul_le_mul_of_nonneg_left this (abs_nonneg (A i j))]
    _ = (∑ i, ∑ j, |A i j|) * α ^ 2 := by simp only [Finset.sum_mul]
    _ ≤ L * α ^ 2 := mul_le_mul_of_nonneg_right hA.entries (sq_nonneg _)

/-- As `sq_error`, for a weighted square. -/
theorem quad_error {κ α g l L : ℝ} (hκ : 0 < κ) (hκ1 : κ ≤ 1) (hgκ : g ≤ κ) {A : Matrix (Fin 4) (Fin 4) ℝ} (hA : Moderate L A) (x y : Fin 4 → ℝ) (h : ∀ j, |x j - y j| ≤ α) {s : ℝ}
    (hs : |s - x ⬝ᵥ A *ᵥ x| ≤ g * (x ⬝ᵥ A *ᵥ x) + l) : |s - y ⬝ᵥ A *ᵥ y| ≤ 3 * κ * (y ⬝ᵥ A *ᵥ y) + (4 * L * α ^ 2 / κ + l) := by
  set Q := y ⬝ᵥ A *ᵥ y with hQ
  set Qx := x ⬝ᵥ A *ᵥ x with hQx
  set d := x - y with hd
  set D := d ⬝ᵥ A *ᵥ d with hD
  set C := y ⬝ᵥ A *ᵥ d + d ⬝ᵥ A *ᵥ y with hC
  have e1 : Qx = Q + C + D := by
    have : x = y + d := by rw [hd]; abel
    rw [hQx, hC, hQ, hD, this]
    simp only [Matrix.mulVec_add, dotProduct_add, add_dotProduct]
    ring
  have q0 : 0 ≤ Q := hA.nonneg y
  have d0 : 0 ≤ D := hA.nonneg d
  have dl : D ≤ L * α ^ 2 := quad_bound hA fun j => by simpa [hd] using h j
  have p1 := hA.nonneg (κ • y + d)
  have p2 := hA.nonneg (κ • y - d)
  have f1 : (κ • y + d) ⬝ᵥ A *ᵥ (κ • y + d) = κ ^ 2 * Q + κ * C + D := by
    rw [hC, hQ, hD]
    simp only [Matrix.mulVec_add, Matrix.mulVec_smul, dotProduct_add, add_dotProduct, dotProduct_smul, smul_dotProduct, smul_eq_mul]
    ring
  have f2 : (κ • y - d) ⬝ᵥ A *ᵥ (κ • y - d) = κ ^ 2 * Q - κ * C + D := by
    rw [hC, hQ, hD]
    simp only [Matrix.mulVec_sub, Matrix.mulVec_smul, dotProduct_sub, sub_dotProduct, dotProduct_smul, smul_dotProduct, smul_eq_mul]
    ring
  rw [f1] at p1
  rw [f2] at p2
  have dk : D ≤ D / κ := by rw [le_div_iff₀ hκ]; nlinarith
  have hk : κ * (D / κ) = D := by field_simp
  have c1 : -(κ * Q + D / κ) ≤ C := by
    have : 0 ≤ κ * (C + (κ * Q + D / κ)) := by nlinarith
    have := nonneg_of_mul_nonneg_right this hκ
    linarith
  have c2 : C ≤ κ * Q + D / κ := by
    have : 0 ≤ κ * ((κ * Q + D / κ) - C) := by nlinarith
    have := nonneg_of_mul_nonneg_right this hκ
    linarith
  have ql : D / κ ≤ L * α ^ 2 / κ := div_le_div_of_nonneg_right dl hκ.le
  have qx : 0 ≤ Qx := hA.nonneg x
  have e4 : 4 * L * α ^ 2 / κ = 4 * (L * α ^ 2 / κ) := by ring
  rw [e4]
  have gq : g * Qx ≤ κ * (Q + (κ * Q + D / κ) + D) := (mul_le_mul_of_nonneg_right hgκ qx).trans (mul_le_mul_of_nonneg_left (by linarith) hκ.le)
  have kq : κ * (κ * Q) ≤ κ * Q := by nlinarith [mul_nonneg hκ.le q0]
  have kd : κ * D ≤ D / κ := by nlinarith
  rw [abs_le] at hs ⊢
  constructor <;> nlinarith [hs.1, hs.2]

/-! ### Terms -/

section Terms

variable {V P H B M : Type} [LinearOrder V] [Zero V] [Add V] [Sub V] [Mul V] {E : Machine.Eval V P H B M} {val : V → ℝ} {rnd : ℝ → ℝ} {u big : ℝ} {pose : P → Pose ℝ} {γ lam Z ε L : ℝ}
  {tp sp normals : List (Fin 4 → V)} {target source : Cloud (Fin 4 → V) M} {mval : M → Matrix (Fin 4) (Fin 4) ℝ} {fine : M → Prop}

/-- The computed term `e` of residual `r` under weight `A`. -/
def TermOf (val : V → ℝ) (γ lam Z : ℝ) (A : Matrix (Fin 4) (Fin 4) ℝ) (r : Fin 4 → V) (e : V) : Prop :=
  (∀ j, |val (r j)| ≤ 3 * Z) → |val e - (vals val r ⬝ᵥ A *ᵥ vals val r) / 2| ≤ γ * ((vals val r ⬝ᵥ A *ᵥ vals val r) / 2) + lam

/-- What one call of a weighted factor leaves behind: pair, contribution, and later errors. `Q` is any property of the errors. -/
theorem weighted_terms (hT : TermAccuracy E val mval fine γ lam Z) {Q : V → Prop} (hQ : ∀ r, Q (E.half (E.sqNorm r))) (hQ' : ∀ r m, fine m → Q (E.quad r m)) {F : Type} {needs : Needs} {mf : Machine.Factor F V P H B M} {weight : F → Matrix (Fin 4) (Fin 4) ℝ} {ok : F → Prop}
    (hw : WeightedFactor E val normals mval fine F needs mf weight ok) (ht : target.points = tp.map some) (hs : source.points = sp.map some) (hn : needs.normals = true → target.normals = normals.map some)
    (hN : tp.length < 2 ^ 32) {nn : (Fin 4 → V) → Res (Option (Nat × V))} {rej : Machine.Rejector V P} {T : P} {i : Nat} {p : Fin 4 → V} (hi : sp[i]? = some p) {f f' : F} {o : Option (H × B × V)}
    (hl : mf.linearize (Machine.cloudWorld target source nn) rej T i f = .ok (f', o)) :
    (mf.inlier f' = false ∧ o = none ∧ ∀ T', mf.error (Machine.cloudWorld target source nn) T' f' = .ok 0) ∨
      ∃ q A b e, mf.inlier f' = true ∧ mf.source f' = i ∧ tp[mf.target f']? = some q ∧ o = some (A, b, e) ∧ (ok f' → TermOf val γ lam Z (weight f') (q - E.apply T p) e ∧ Q e) ∧
        ∀ T', ∃ e', mf.error (Machine.cloudWorld target source nn) T' f' = .ok e' ∧ (ok f' → TermOf val γ lam Z (weight f') (q - E.apply T' p) e' ∧ Q e') := by
  have hp : source.point i = .ok p := cloud_point hs hi
  have hget : ∀ {k q}, target.point k = .ok q → tp[k]? = some q ∧ k ≠ npos := by
    intro k q h
    rcases hk : tp[k]? with _ | q'
    · exfalso
      simp only [Cloud.point, getSlot, rd, ht, List.getElem?_map, hk, Option.map_none] at h
      cases h
    · have h' := cloud_point ht hk
      rw [h] at h'
      obtain rfl := Except.ok.inj h'
      refine ⟨rfl, ?_⟩
      have := (List.getElem?_eq_some_iff.1 hk).1
      unfold npos
      omega
  cases hw with
  | icp =>
    simp only [Machine.icpFactor, Machine.icpLinearize] at hl
    rcases hsr : Machine.search E (Machine.cloudWorld target source nn) rej T i with x | ⟨v, k⟩
    · rw [hsr] at hl; simp [bind, Except.bind] at hl
    have hv : v = E.apply T p := by
      simp only [Machine.search, Machine.cloudWorld, hp, bind, Except.bind] at hsr
      split at hsr
      · cases hsr
      · split at hsr
        · cases hsr; rfl
        · split at hsr <;> · cases hsr; rfl
    subst hv
    rw [hsr] at hl
    cases k with
    | none =>
      simp only [bind, Except.bind, Except.ok.injEq, Prod.mk.injEq] at hl
      obtain ⟨rfl, rfl⟩ := hl
      exact .inl ⟨by simp [Machine.icpFactor, ICP.inlier], rfl, fun T' => by simp [Machine.icpFactor, Machine.icpError]⟩
    | some k =>
      rcases htp : target.point k with x | q
      · simp only [bind, Except.bind, Machine.cloudWorld, htp] at hl; cases hl
      simp only [bind, Except.bind, Machine.cloudWorld, htp, hp, Except.ok.injEq, Prod.mk.injEq] at hl
      obtain ⟨rfl, rfl⟩ := hl
      obtain ⟨hk, hk'⟩ := hget htp
      have hterm : ∀ T', TermOf val γ lam Z 1 (q - E.apply T' p) (E.half (E.sqNorm (q - E.apply T' p))) := by
        intro T' hr
        have := hT.icp _ hr
        simpa [vals, dotProduct, sq] using this
      refine .inr ⟨q, _, _, _, by simp [Machine.icpFactor, ICP.inlier, hk'], rfl, hk, rfl, fun _ => ⟨hterm T, hQ _⟩, fun T' => ⟨_, ?_, fun _ => ⟨hterm T', hQ _⟩⟩⟩
      simp only [Machine.icpFactor, Machine.icpError, if_neg hk', Machine.cloudWorld, htp, hp, bind, Except.bind]
  | plane =>
    simp only [Machine.planeFactor, Machine.planeLinearize] at hl
    rcases hsr : Machine.search E (Machine.cloudWorld target source nn) rej T i with x | ⟨v, k⟩
    · rw [hsr] at hl; simp [bind, Except.bind] at hl
    have hv : v = E.apply T p := by
      simp only [Machine.search, Machine.cloudWorld, hp, bind, Except.bind] at hsr
      split at hsr
      · cases hsr
      · split at hsr
        · cases hsr; rfl
        · split at hsr <;> · cases hsr; rfl
    subst hv
    rw [hsr] at hl
    cases k with
    | none =>
      simp only [bind, Except.bind, Except.ok.injEq, Prod.mk.injEq] at hl
      obtain ⟨rfl, rfl⟩ := hl
      exact .inl ⟨by simp [Machine.planeFactor, ICP.inlier], rfl, fun T' => by simp [Machine.planeFactor, Machine.planeError]⟩
    | some k =>
      rcases hnv : target.normal k with x | nv
      · simp only [bind, Except.bind, Machine.cloudWorld, hnv] at hl; cases hl
      rcases htp : target.point k with x | q
      · simp only [bind, Except.bind, Machine.cloudWorld, hnv, htp] at hl; cases hl
      simp only [bind, Except.bind, Machine.cloudWorld, hnv, htp, hp, Except.ok.injEq, Prod.mk.injEq] at hl
      obtain ⟨rfl, rfl⟩ := hl
      obtain ⟨hk, hk'⟩ := hget htp
      have hnk : normals[k]? = some nv := by
        rcases hk : normals[k]? with _ | n'
        · exfalso
          simp only [Cloud.normal, getSlot, rd, hn rfl, List.getElem?_map, hk, Option.map_none] at hnv
          cases hnv
        · simp only [Cloud.normal, getSlot, rd, hn rfl, List.getElem?_map, hk, Option.map_some] at hnv
          rw [← Except.ok.inj hnv]
      have hterm : ∀ T', TermOf val γ lam Z (Matrix.diagonal fun j => val ((normals[k]?.getD 0) j) ^ 2) (q - E.apply T' p) (E.half (E.sqNorm (nv * (q - E.apply T' p)))) := by
        intro T' hr
        have := hT.plane nv _ hr
        have e : vals val (q - E.apply T' p) ⬝ᵥ (Matrix.diagonal fun j => val (nv j) ^ 2) *ᵥ vals val (q - E.apply T' p) = ∑ j, (val (nv j) * val ((q - E.apply T' p) j)) ^ 2 := by
          simp only [dotProduct, Matrix.mulVec_diagonal, vals]
          exact Finset.sum_congr rfl fun j _ => by ring
        rw [hnk, Option.getD_some, e]
        exact this
      refine .inr ⟨q, _, _, _, by simp [Machine.planeFactor, ICP.inlier, hk'], rfl, hk, rfl, fun _ => ⟨hterm T, hQ _⟩, fun T' => ⟨_, ?_, fun _ => ⟨hterm T', hQ _⟩⟩⟩
      simp only [Machine.planeFactor, Machine.planeError, if_neg hk', Machine.cloudWorld, htp, hp, hnv, bind, Except.bind]
  | gicp =>
    simp only [Machine.gicpFactor, Machine.gicpLinearize] at hl
    rcases hsr : Machine.search E (Machine.cloudWorld target source nn) rej T i with x | ⟨v, k⟩
    · rw [hsr] at hl; simp [bind, Except.bind] at hl
    have hv : v = E.apply T p := by
      simp only [Machine.search, Machine.cloudWorld, hp, bind, Except.bind] at hsr
      split at hsr
      · cases hsr
      · split at hsr
        · cases hsr; rfl
        · split at hsr <;> · cases hsr; rfl
    subst hv
    rw [hsr] at hl
    cases k with
    | none =>
      simp only [bind, Except.bind, Except.ok.injEq, Prod.mk.injEq] at hl
      obtain ⟨rfl, rfl⟩ := hl
      exact .inl ⟨by simp [Machine.gicpFactor], rfl, fun T' => by simp [Machine.gicpFactor, Machine.gicpError]⟩
    | some k =>
      rcases hct : target.cov k with x | ct
      · simp only [bind, Except.bind, Machine.cloudWorld, hct] at hl; cases hl
      rcases hcs : source.cov i with x | cs
      · simp only [bind, Except.bind, Machine.cloudWorld, hct, hcs] at hl; cases hl
      rcases htp : target.point k with x | q
      · simp only [bind, Except.bind, Machine.cloudWorld, hct, hcs, htp] at hl; cases hl
      simp only [bind, Except.bind, Machine.cloudWorld, hct, hcs, htp, hp, Except.ok.injEq, Prod.mk.injEq] at hl
      obtain ⟨rfl, rfl⟩ := hl
      obtain ⟨hk, hk'⟩ := hget htp
      refine .inr ⟨q, _, _, _, by simp [Machine.gicpFactor, hk'], rfl, hk, rfl, fun h => ⟨fun hr => hT.gicp _ _ h hr, hQ' _ _ h⟩, fun T' => ⟨E.quad (q - E.apply T' p) (E.mahalanobis f.mahalanobis ct cs T), ?_, fun h => ⟨fun hr => hT.gicp _ _ h hr, hQ' _ _ h⟩⟩⟩
      simp only [Machine.gicpFactor, Machine.gicpError, if_neg hk', Machine.cloudWorld, htp, hp, bind, Except.bind]

end Terms

end Verif.Props
