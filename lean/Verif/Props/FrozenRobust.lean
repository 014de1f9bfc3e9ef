import Verif.Props.FrozenRun

/-!
C112: as C111 for factors with a robust kernel.
-/

set_option linter.unusedSectionVars false
set_option linter.unusedSimpArgs false
set_option linter.unnecessarySeqFocus false

namespace Verif.Spec

open Matrix Verif Verif.Knn Verif.Factors Verif.Machine Verif.Proofs.RegMem

/-- Weighted error under Huber's kernel of width `c`: the error if its root is below the width, else width times root. -/
noncomputable def huberError (c x : ℝ) : ℝ := min x (c * Real.sqrt x)

/-- Weighted error under Cauchy's kernel. -/
noncomputable def cauchyError (c x : ℝ) : ℝ := c * x / (c + x)

/-- The kernels of the library. -/
inductive IsKernel : (ℝ → ℝ) → Prop
  | huber (c : ℝ) : 0 < c → IsKernel (huberError c)
  | cauchy (c : ℝ) : 0 < c → IsKernel (cauchyError c)

/-- Accuracy of a kernel: weight function `wt` and square root give the weighted error up to a relative error `κ`, in both orders of the factors. -/
structure KernelAccuracy {V : Type} [Mul V] (wt sqrt : V → V) (val : V → ℝ) (ρ : ℝ → ℝ) (κ : ℝ) : Prop where
  left : ∀ e, 0 ≤ val e → |val (e * wt (sqrt e)) - ρ (val e)| ≤ κ * ρ (val e)
  right : ∀ e, 0 ≤ val e → |val (wt (sqrt e) * e) - ρ (val e)| ≤ κ * ρ (val e)

/-- Errors of the factors are not negative. -/
structure NonnegTerms {V P H B M : Type} (E : Eval V P H B M) (val : V → ℝ) (fine : M → Prop) : Prop where
  icp : ∀ r, 0 ≤ val (E.half (E.sqNorm r))
  gicp : ∀ r m, fine m → 0 ≤ val (E.quad r m)

/-- Robust cost of given pairs with given weights at a pose. -/
noncomputable def frozenRobustCost (ρ : ℝ → ℝ) (tgt src : List (Fin 4 → ℝ)) (pairs : List (Option (Nat × Nat × Matrix (Fin 4) (Fin 4) ℝ))) (T : Pose ℝ) : ℝ :=
  (pairs.map fun x => x.elim 0 fun y => ρ (weightedCost y.2.2 (tgt[y.1]?.getD 0) (src[y.2.1]?.getD 0) T)).sum

end Verif.Spec

namespace Verif.Props

open Matrix Verif Verif.Knn Verif.KdTree Verif.Proofs Verif.Proofs.RegMem Verif.Factors Verif.Reduction Verif.PointCloud Verif.RegMem Verif.Spec

/-! ### Kernels -/

/-- What is used of a kernel. -/
structure KernelLaws (ρ : ℝ → ℝ) : Prop where
  nonneg : ∀ x, 0 ≤ x → 0 ≤ ρ x
  zero : ρ 0 = 0
  mono : ∀ x y, 0 ≤ x → x ≤ y → ρ x ≤ ρ y
  add : ∀ x y, 0 ≤ x → 0 ≤ y → ρ (x + y) ≤ ρ x + y
  scale : ∀ k x, 1 ≤ k → 0 ≤ x → ρ (k * x) ≤ k * ρ x

theorem kernel_laws {ρ : ℝ → ℝ} (h : IsKernel ρ) : KernelLaws ρ := by
  cases h with
  | huber c hc =>
    unfold huberError
    refine ⟨fun x hx => le_min hx (by positivity), by simp, fun x y _ hxy => min_le_min hxy (mul_le_mul_of_nonneg_left (Real.sqrt_le_sqrt hxy) hc.le), ?_, ?_⟩
    · intro x y hx hy
      rcases le_total x (c * √x) with h1 | h1
      · rw [min_eq_left h1]
        exact min_le_left _ _
      · rw [min_eq_right h1]
        have hx2 := Real.mul_self_sqrt hx
        have hs := Real.sqrt_nonneg x
        rcases hs.eq_or_lt with h0 | h0
        · rw [← h0] at hx2
          refine (min_le_left _ _).trans ?_
          rw [← h0]
          linarith
        · have hcs : c ≤ √x := by
            by_contra hcon
            have := mul_lt_mul_of_pos_right (not_le.1 hcon) h0
            linarith
          refine (min_le_right _ _).trans ?_
          have hxy2 := Real.mul_self_sqrt (show 0 ≤ x + y by linarith)
          have hle : √x ≤ √(x + y) := Real.sqrt_le_sqrt (by linarith)
          have : c * (√(x + y) - √x) ≤ (√(x + y) + √x) * (√(x + y) - √x) := mul_le_mul_of_nonneg_right (by linarith) (by linarith)
          nlinarith
    · intro k x hk hx
      rw [mul_min_of_nonneg _ _ (by linarith)]
      refine min_le_min (le_refl _) ?_
      rw [Real.sqrt_mul (by linarith)]
      have h1 : √k ≤ k := by
        rw [Real.sqrt_le_left (by linarith)]
        nlinarith
      have := mul_le_mul_of_nonneg_right h1 (mul_nonneg hc.le (Real.sqrt_nonneg x))
      linarith
  | cauchy c hc =>
    unfold cauchyError
    have hd : ∀ x, 0 ≤ x → 0 < c + x := fun x hx => by linarith
    refine ⟨fun x hx => by have := hd x hx; positivity, by simp, ?_, ?_, ?_⟩
    · intro x y hx hxy
      rw [div_le_div_iff₀ (hd x hx) (hd y (hx.trans hxy))]
      nlinarith [mul_le_mul_of_nonneg_left hxy (sq_nonneg c)]
    · intro x y hx hy
      rw [div_add' _ _ _ (hd x hx).ne', div_le_div_iff₀ (hd _ (by linarith)) (hd x hx)]
      have a1 := mul_nonneg hx hy
      have a2 := mul_nonneg a1 hx
      have a3 := mul_nonneg a1 hy
      have a4 := mul_nonneg hc.le a1
      have a5 := mul_nonneg hc.le (mul_nonneg hy hy)
      nlinarith
    · intro k x hk hx
      have hkx : 0 ≤ k * x := mul_nonneg (by linarith) hx
      rw [← mul_div_assoc, div_le_div_iff₀ (hd _ hkx) (hd x hx)]
      have : x * (c * (k * x)) ≤ (k * x) * (c * (k * x)) := mul_le_mul_of_nonneg_right (by nlinarith) (mul_nonneg hc.le hkx)
      nlinarith

/-- A computed weighted error `e'` of a computed error `e` against the exact one. -/
theorem kernel_error {ρ : ℝ → ℝ} (hρ : KernelLaws ρ) {ε κ τ c e e' : ℝ} (he : 0 < ε) (he' : ε ≤ 1 / 48) (hκ : κ ≤ ε) (hτ : 0 ≤ τ) (hc : 0 ≤ c) (h0 : 0 ≤ e) (h1 : |e - c| ≤ τ + ε * c)
    (h2 : |e' - ρ e| ≤ κ * ρ e) : |e' - ρ c| ≤ 2 * τ + 3 * ε * ρ c ∧ |e'| ≤ 2 * |e| := by
  have r0 := hρ.nonneg e h0
  have rc := hρ.nonneg c hc
  obtain ⟨l1, l2⟩ := abs_le.1 h1
  have up : ρ e ≤ (1 + ε) * ρ c + τ := by
    have a1 := hρ.mono e ((1 + ε) * c + τ) h0 (by linarith)
    have a2 := hρ.add ((1 + ε) * c) τ (mul_nonneg (by linarith) hc) hτ
    have a3 := hρ.scale (1 + ε) c (by linarith) hc
    linarith
  have low : (1 - ε) * ρ c ≤ ρ e + τ := by
    have p : 0 < 1 - ε := by linarith
    have a1 := hρ.mono ((1 - ε) * c) (e + τ) (mul_nonneg p.le hc) (by linarith)
    have a2 := hρ.add e τ h0 hτ
    have a3 := hρ.scale (1 - ε)⁻¹ ((1 - ε) * c) ((one_le_inv₀ p).2 (by linarith)) (mul_nonneg p.le hc)
    rw [inv_mul_cancel_left₀ p.ne'] at a3
    have a4 := mul_le_mul_of_nonneg_left a3 p.le
    rw [mul_inv_cancel_left₀ p.ne'] at a4
    linarith
  have le : ρ e ≤ e := by
    have := hρ.add 0 e le_rfl h0
    rw [zero_add, hρ.zero, zero_add] at this
    exact this
  have k1 : κ * ρ e ≤ ε * ρ e := mul_le_mul_of_nonneg_right hκ r0
  have k2 : ε * ρ e ≤ ε * ((1 + ε) * ρ c + τ) := mul_le_mul_of_nonneg_left up he.le
  have k3 : ε * (ε * ρ c) ≤ 1 / 48 * (ε * ρ c) := mul_le_mul_of_nonneg_right he' (mul_nonneg he.le rc)
  have k4 : ε * τ ≤ 1 / 48 * τ := mul_le_mul_of_nonneg_right he' hτ
  have k5 : ε * ρ e ≤ 1 / 48 * ρ e := mul_le_mul_of_nonneg_right he' r0
  have k6 := mul_nonneg he.le rc
  obtain ⟨m1, m2⟩ := abs_le.1 h2
  rw [abs_of_nonneg h0]
  refine ⟨abs_le.2 ⟨by nlinarith, by nlinarith⟩, abs_le.2 ⟨by nlinarith, by nlinarith⟩⟩

/-! ### Runs -/

section Run

variable {V P H B M D F : Type} [LinearOrder V] [Zero V] [Add V] [Sub V] [Mul V] [Div V] [Zero H] [Add H] [Zero B] [Add B] {E : Machine.Eval V P H B M} {val : V → ℝ} {rnd : ℝ → ℝ} {u big : ℝ} {pose : P → Pose ℝ}
  {γ lam Z ε L κ : ℝ} {tp sp normals : List (Fin 4 → V)} {target source : Cloud (Fin 4 → V) M} {mval : M → Matrix (Fin 4) (Fin 4) ℝ} {fine : M → Prop} {needs : Needs} {mf : Machine.Factor F V P H B M}
  {weight : F → Matrix (Fin 4) (Fin 4) ℝ} {ok : F → Prop} {wt sqrt : V → V} {ρ : ℝ → ℝ}

/-- C112. Levenberg-Marquardt in machine arithmetic with a robust kernel over point-to-point, point-to-plane or GICP factors: no iteration increases the exact robust cost of the pairs it works with by more than
a small factor and a small summand. -/
theorem C112_descent (h : PairInputs E val pose rnd u big γ lam Z ε tp sp target source) (heps : ε ≤ 1 / 48) (hne : tp ≠ []) (hw : WeightedFactor E val normals mval fine F needs mf weight ok)
    (hT : TermAccuracy E val mval fine γ lam Z) (hpos : NonnegTerms E val fine) (hρ : IsKernel ρ) (hK : KernelAccuracy wt sqrt val ρ κ) (hκ : κ ≤ ε)
    (hs : Supplied needs target source) (hn : needs.normals = true → target.normals = normals.map some) (hL : 0 ≤ L) (hsums : (1 + u) ^ (sp.length + 1) - 1 ≤ 3 * ε)
    (hrange : (1 + u) ^ sp.length * (sp.length * (2 * (3 * L * Z ^ 2 + frozenSlack γ u lam Z ε L))) ≤ big)
    (b : KdTree.Builder V) (hnth : NthElementSpec b.nthElement) (hfind : FindAxisSpec (fun p => ∃ a, p = .axis a) b.findAxis) (hm : SafeLeafSize b.maxLeafSize)
    {points : List (Pt V)} (hpts : Machine.cloudPoints target = .ok points) {fuelB fuel : Nat} (hfB : points.length < fuelB) (hfuel : points.length < fuel)
    {t : KdTree.Tree V} (ht : KdTree.construct E.ops b fuelB points = .ok t) {maxD : V} (hmax : 17 * Z ^ 2 + 2 * icpSlack γ u lam Z ε < val maxD) (junk : Nat × V)
    {gate : V} (cfg : Machine.Config V P H B D) (hrej : cfg.rejector = Machine.distanceRejector gate) (hU : ∀ T s, (cfg.updateLinearized T s).2.2 = s.2.2) (hU' : ∀ T e, cfg.updateError T e = e)
    (execL execE : P → List F → Exec) (hexL : ∀ T fs, (execL T fs).Complete fs.length) (hexE : ∀ T fs, (execE T fs).Complete fs.length) (st : Machine.LMSetting V) (T0 : P) {r fs log}
    (hrun : Machine.align (Machine.robust E wt sqrt mf) (Machine.cloudWorld target source (Machine.kdNearest E maxD points t fuel junk)) cfg execL execE (.lm st) T0 source.size = .ok (r, fs, log))
    (hreach : ∀ it ∈ log, ∀ p ∈ sp, Reach val (pose it.T0) Z p ∧ Reach val (pose it.T1) Z p)
    (hweights : ∀ it ∈ log, ∀ f ∈ it.factors, mf.inlier f = true → ok f ∧ Moderate L (weight f)) :
    ∀ it ∈ log, frozenRobustCost ρ (tp.map (vals val)) (sp.map (vals val)) (weightedPairs mf weight it.factors) (pose it.T1) ≤
      (1 + 30 * ε) * frozenRobustCost ρ (tp.map (vals val)) (sp.map (vals val)) (weightedPairs mf weight it.factors) (pose it.T0) + 16 * sp.length * frozenSlack γ u lam Z ε L := by
  have he := h.eps
  have hτ := frozenSlack_nonneg (u := u) h.accuracy he hL
  have hb : 0 ≤ 3 * L * Z ^ 2 := by positivity
  have hl := kernel_laws hρ
  let c : Pose ℝ → F → ℝ := fun T f => if mf.inlier f then ρ (weightedCost (weight f) (((tp.map (vals val))[mf.target f]?).getD 0) (((sp.map (vals val))[mf.source f]?).getD 0) T) else 0
  have hcost : ∀ fs T, frozenRobustCost ρ (tp.map (vals val)) (sp.map (vals val)) (weightedPairs mf weight fs) T = (fs.map (c T)).sum := by
    intro fs T
    unfold frozenRobustCost weightedPairs
    rw [List.map_map]
    congr 1
    refine List.map_congr_left fun f _ => ?_
    simp only [Function.comp, c]
    cases mf.inlier f <;> simp
  intro it hmem
  rw [hcost, hcost]
  have key := frozen_run (δ := 3 * ε) (τ := 2 * frozenSlack γ u lam Z ε L) h hne (.robust wt sqrt (weighted_library hw)) hs (by linarith) (by linarith) (by linarith) hsums hrange b hnth hfind hm hpts hfB hfuel ht
    hmax junk cfg hrej hU hU' execL execE hexL hexE st T0 hrun hreach c ?_ ?_ it hmem
  · refine key.trans (le_of_eq (by ring))
  · intro it hmem f hf
    by_cases hin : mf.inlier f = true
    · simp only [c, hin, if_true]
      exact hl.nonneg _ (div_nonneg ((hweights it hmem f hf hin).2.nonneg _) (by norm_num))
    · simp [c, hin]
  · intro it hmem i p f f' o hp hf' hlin
    simp only [Machine.robust, bind, Except.bind] at hlin
    rcases hlin0 : mf.linearize (Machine.cloudWorld target source (Machine.kdNearest E maxD points t fuel junk)) (Machine.distanceRejector gate) it.T0 i f with x | ⟨f0, o0⟩
    · rw [hlin0] at hlin; simp at hlin
    rw [hlin0] at hlin
    have hf0 : f0 = f' := by
      rcases o0 with _ | ⟨A, b, e⟩ <;> simp only [Except.ok.injEq, Prod.mk.injEq] at hlin <;> exact hlin.1
    subst hf0
    rcases weighted_terms hT (Q := fun e => 0 ≤ val e) hpos.icp hpos.gicp hw h.targetPoints h.sourcePoints hn h.size hp hlin0 with ⟨a1, a2, a3⟩ | ⟨q, A, b, e, a1, a2, a3, a4, a5, a6⟩
    · subst a2
      simp only [Except.ok.injEq, Prod.mk.injEq, true_and] at hlin
      subst hlin
      have hz : val (wt (sqrt 0) * 0) = 0 := by
        have := hK.right 0 (le_of_eq h.arith.zero.symm)
        rw [h.arith.zero, hl.zero, mul_zero, sub_zero] at this
        exact abs_eq_zero.1 (le_antisymm this (abs_nonneg _))
      refine ⟨wt (sqrt 0) * 0, by simp only [Machine.robust, a3, bind, Except.bind], ?_⟩
      have hc : ∀ T, c T f0 = 0 := fun T => by simp [c, a1]
      simp only [hc, Option.elim, hz, sub_self, abs_zero, mul_zero, add_zero, le_refl, true_and]
      exact ⟨by linarith, by linarith, by linarith, by linarith⟩
    · subst a4
      simp only [Except.ok.injEq, Prod.mk.injEq, true_and] at hlin
      subst hlin
      obtain ⟨w1, w2⟩ := hweights it hmem f0 hf' a1
      obtain ⟨e', a7, a8⟩ := a6 it.T1
      have hq := h.near q (List.mem_of_getElem? a3)
      have hpm := List.mem_of_getElem? hp
      have hc : ∀ T, c T f0 = ρ (weightedCost (weight f0) (vals val q) (vals val p) T) := fun T => by simp [c, a1, a2, a3, hp]
      obtain ⟨x1, x2, x3⟩ := frozen_term h hL w2 (hreach it hmem _ hpm).1 hq (a5 w1).1
      obtain ⟨y1, y2, y3⟩ := frozen_term h hL w2 (hreach it hmem _ hpm).2 hq (a8 w1).1
      obtain ⟨k1, k2⟩ := kernel_error hl he heps hκ hτ x1 (a5 w1).2 x2 (hK.left e (a5 w1).2)
      obtain ⟨k3, k4⟩ := kernel_error hl he heps hκ hτ y1 (a8 w1).2 y2 (hK.right e' (a8 w1).2)
      refine ⟨wt (sqrt e') * e', by simp only [Machine.robust, a7, bind, Except.bind], ?_⟩
      simp only [hc, Option.elim]
      exact ⟨hl.nonneg _ x1, hl.nonneg _ y1, k1, k3, by linarith, by linarith⟩

end Run

end Verif.Props
