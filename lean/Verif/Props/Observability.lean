import Verif.Props.StiffHeld
import Verif.Props.Lie
import Mathlib.LinearAlgebra.CrossProduct

/-!
C84: when the matched points determine the pose. The Hessian of the result is positive definite exactly if they are not on a line, and a zero error then means the true pose.
-/

set_option linter.unusedSectionVars false
set_option linter.unusedSimpArgs false
set_option linter.unnecessarySeqFocus false

namespace Verif.Spec

open Matrix Verif Verif.Factors

/-- The matched pairs (target, source). -/
def pairsOf (src : List Site) (partner : List (Option Site)) : List (Site × Site) := (src.zip partner).filterMap fun p => p.2.map fun t => (t, p.1)

/-- All points are on one line. -/
def OnLine (ps : List (Fin 3 → ℝ)) : Prop := ∃ c d : Fin 3 → ℝ, d ≠ 0 ∧ ∀ p ∈ ps, ∃ s : ℝ, p = c + s • d

/-- Positive definite. -/
def Definite {n : Type} [Fintype n] (A : Matrix n n ℝ) : Prop := ∀ x : n → ℝ, x ≠ 0 → 0 < x ⬝ᵥ A *ᵥ x

/-- The pose brings every matched source point onto its partner. -/
def Fits (T : Pose ℝ) (pairs : List (Site × Site)) : Prop := ∀ p ∈ pairs, move T p.2.pos = p.1.pos

end Verif.Spec

namespace Verif.Props

open Matrix Verif Verif.Knn Verif.KdTree Verif.Proofs Verif.Proofs.RegMem Verif.Factors Verif.Reduction Verif.Optimizer Verif.PointCloud Verif.RegMem Verif.Spec Verif.Lie
open Verif.Pipeline Verif.Features Verif.Downsample Verif.Helper

theorem pairSum_pairs (src : List Site) (partner : List (Option Site)) (f : Site → Site → ℝ) : pairSum src partner f = ((pairsOf src partner).map fun p => f p.1 p.2).sum := by
  induction src generalizing partner with
  | nil => simp [pairSum, pairsOf]
  | cons s src ih =>
    cases partner with
    | nil => simp [pairSum, pairsOf]
    | cons o partner =>
      have := ih partner
      unfold pairSum pairsOf at this ⊢
      cases o with
      | none => simpa using this
      | some t => simpa using this

theorem pairsOf_mem {src : List Site} {partner : List (Option Site)} {t s : Site} {M : (Fin 3 → ℝ) → Option Site → Prop} {L : Pose ℝ}
    (h : List.Forall₂ (fun s o => M (move L s.pos) o) src partner) (hp : (t, s) ∈ pairsOf src partner) : s ∈ src ∧ M (move L s.pos) (some t) := by
  induction h with
  | nil => simp [pairsOf] at hp
  | @cons s' o src partner h1 _ ih =>
    unfold pairsOf at hp ih
    cases o with
    | none =>
      obtain ⟨a, b⟩ := ih (by simpa using hp)
      exact ⟨by simp [a], b⟩
    | some t' =>
      simp only [List.zip_cons_cons, List.filterMap_cons, Option.map_some, List.mem_cons, Prod.mk.injEq] at hp
      rcases hp with ⟨rfl, rfl⟩ | hp
      · exact ⟨by simp, h1⟩
      · obtain ⟨a, b⟩ := ih hp
        exact ⟨by simp [a], b⟩

/-- A sum of non-negative numbers vanishes only if all do. -/
theorem sum_zero_iff {A : Type} (l : List A) (f : A → ℝ) (hf : ∀ a ∈ l, 0 ≤ f a) : (l.map f).sum = 0 ↔ ∀ a ∈ l, f a = 0 := by
  induction l with
  | nil => simp
  | cons a l ih =>
    have h1 := hf a (by simp)
    have h2 : 0 ≤ (l.map f).sum := List.sum_nonneg (by
      intro x hx
      obtain ⟨b, hb, rfl⟩ := List.mem_map.1 hx
      exact hf b (by simp [hb]))
    have h3 := ih fun b hb => hf b (by simp [hb])
    rw [List.map_cons, List.sum_cons]
    constructor
    · intro h b hb
      rcases List.mem_cons.1 hb with rfl | hb
      · linarith
      · exact h3.1 (by linarith) b hb
    · intro h
      rw [h a (by simp), h3.2 fun b hb => h b (by simp [hb]), add_zero]

/-- How a difference changes when the pose leaves `L` along `x`. -/
theorem speed_formula (L : Pose ℝ) (x : Fin 6 → ℝ) (t s : Site) : pairSpeed L x t s = L.R *ᵥ (skew s.pos *ᵥ rot x - tra x) := by
  have h := deriv_residual L ![s.pos 0, s.pos 1, s.pos 2, 1] ![t.pos 0, t.pos 1, t.pos 2, 1] rfl x
  have hm := pair_moves L x t s
  have h3 : ∀ u : ℝ, pairDiff (L.mul (se3Exp (u • x))) t s = head3 (![t.pos 0, t.pos 1, t.pos 2, 1] - (L.mul (se3Exp (u • x))).apply ![s.pos 0, s.pos 1, s.pos 2, 1]) := by
    intro u
    have e1 := head3_apply (L.mul (se3Exp (u • x))) ![s.pos 0, s.pos 1, s.pos 2, 1] rfl
    have e2 : head3 ![s.pos 0, s.pos 1, s.pos 2, 1] = s.pos := by funext j; fin_cases j <;> rfl
    rw [e2] at e1
    have e3 : head3 (![t.pos 0, t.pos 1, t.pos 2, 1] - (L.mul (se3Exp (u • x))).apply ![s.pos 0, s.pos 1, s.pos 2, 1]) =
        t.pos - head3 ((L.mul (se3Exp (u • x))).apply ![s.pos 0, s.pos 1, s.pos 2, 1]) := by
      funext j; fin_cases j <;> rfl
    rw [e3, e1]
    rfl
  have hd : HasDerivAt (fun u : ℝ => pairDiff (L.mul (se3Exp (u • x))) t s) (head3 (blocks (L.R * skew (head3 ![s.pos 0, s.pos 1, s.pos 2, 1])) (-L.R) *ᵥ x)) 0 := by
    simp only [h3]
    rw [hasDerivAt_pi] at h ⊢
    intro j
    fin_cases j
    · exact h 0
    · exact h 1
    · exact h 2
  rw [hm.unique hd]
  funext j
  fin_cases j <;>
    simp [head3, blocks, mulVec, dotProduct, Fin.sum_univ_six, Fin.sum_univ_three, Matrix.mul_apply, skew, rot, tra] <;> ring

theorem regular_zero {R : Matrix (Fin 3) (Fin 3) ℝ} (hR : R.det ≠ 0) {u : Fin 3 → ℝ} : R *ᵥ u = 0 ↔ u = 0 := by
  constructor
  · intro h
    have : R⁻¹ *ᵥ (R *ᵥ u) = u := by rw [mulVec_mulVec, Matrix.nonsing_inv_mul _ (isUnit_iff_ne_zero.2 hR), one_mulVec]
    rw [← this, h, mulVec_zero]
  · rintro rfl; simp

/-- Points that all move along one twist without changing (`p × ω = v`) are on a line, and points on a line have such a twist. -/
theorem line_twist (ps : List (Fin 3 → ℝ)) : OnLine ps ↔ ∃ x : Fin 6 → ℝ, x ≠ 0 ∧ ∀ p ∈ ps, skew p *ᵥ rot x - tra x = 0 := by
  constructor
  · rintro ⟨c, d, hd, h⟩
    refine ⟨![d 0, d 1, d 2, c 1 * d 2 - c 2 * d 1, c 2 * d 0 - c 0 * d 2, c 0 * d 1 - c 1 * d 0], ?_, ?_⟩
    · intro h0
      apply hd
      funext j
      fin_cases j
      · exact congrFun h0 0
      · exact congrFun h0 1
      · exact congrFun h0 2
    · intro p hp
      obtain ⟨s, rfl⟩ := h p hp
      funext j
      fin_cases j <;> simp [skew, rot, tra, mulVec, dotProduct, Fin.sum_univ_three] <;> ring
  · rintro ⟨x, hx, h⟩
    cases ps with
    | nil => exact ⟨0, ![1, 0, 0], fun h => by simpa using congrFun h 0, by simp⟩
    | cons p0 ps =>
      have e : ∀ p ∈ p0 :: ps, (p 1 * x 2 - p 2 * x 1 = x 3) ∧ (p 2 * x 0 - p 0 * x 2 = x 4) ∧ (p 0 * x 1 - p 1 * x 0 = x 5) := by
        intro p hp
        have := h p hp
        have a0 := congrFun this 0
        have a1 := congrFun this 1
        have a2 := congrFun this 2
        simp [skew, rot, tra, mulVec, dotProduct, Fin.sum_univ_three] at a0 a1 a2
        exact ⟨by linarith, by linarith, by linarith⟩
      by_cases hw : rot x = 0
      · exfalso
        apply hx
        have w0 : x 0 = 0 := congrFun hw 0
        have w1 : x 1 = 0 := congrFun hw 1
        have w2 : x 2 = 0 := congrFun hw 2
        obtain ⟨a, b, c⟩ := e p0 (by simp)
        funext j
        fin_cases j <;> simp [w0, w1, w2] at a b c ⊢ <;> linarith
      · refine ⟨p0, rot x, hw, fun p hp => ?_⟩
        obtain ⟨a, b, c⟩ := e p0 (by simp)
        obtain ⟨a', b', c'⟩ := e p hp
        have hn : rot x ⬝ᵥ rot x ≠ 0 := fun h0 => hw (dotProduct_self_eq_zero.1 h0)
        refine ⟨((p - p0) ⬝ᵥ rot x) / (rot x ⬝ᵥ rot x), ?_⟩
        have q : ∀ j, p j * (rot x ⬝ᵥ rot x) = p0 j * (rot x ⬝ᵥ rot x) + ((p - p0) ⬝ᵥ rot x) * rot x j := by
          intro j
          fin_cases j <;> simp [rot, dotProduct, Fin.sum_univ_three] 
          · linear_combination x 2 * (b - b') - x 1 * (c - c')
          · linear_combination x 0 * (c - c') - x 2 * (a - a')
          · linear_combination x 1 * (a - a') - x 0 * (b - b')
        funext j
        rw [Pi.add_apply, Pi.smul_apply, smul_eq_mul]
        field_simp
        linarith [q j]

theorem definite_nonneg {n : Type} [Fintype n] {A : Matrix n n ℝ} (h : Definite A) (x : n → ℝ) : 0 ≤ x ⬝ᵥ A *ᵥ x := by
  by_cases hx : x = 0
  · subst hx; simp
  · exact (h x hx).le

theorem definite_zero {n : Type} [Fintype n] {A : Matrix n n ℝ} (h : Definite A) {x : n → ℝ} : x ⬝ᵥ A *ᵥ x = 0 ↔ x = 0 := by
  constructor
  · intro h0
    by_contra hx
    exact absurd h0 (h x hx).ne'
  · rintro rfl; simp

/-- C84. One linearised system: the Hessian is positive definite exactly if the matched source points are not on a line. -/
theorem C84_system {m : Metric} {M : (Fin 3 → ℝ) → Option Site → Prop} {src : List Site} {L : Pose ℝ} {partner : List (Option Site)} {H : Matrix (Fin 6) (Fin 6) ℝ} {b : Fin 6 → ℝ}
    (hlin : Linearised m M src L partner H b) (hL : L.R.det ≠ 0) (hW : ∀ p ∈ pairsOf src partner, Definite (pairWeight m L p.1 p.2)) :
    Definite H ↔ ¬ OnLine ((pairsOf src partner).map fun p => p.2.pos) := by
  have hz : ∀ x, x ⬝ᵥ H *ᵥ x = 0 ↔ ∀ q ∈ (pairsOf src partner).map (fun p => p.2.pos), skew q *ᵥ rot x - tra x = 0 := by
    intro x
    rw [hlin.hess x, pairSum_pairs, sum_zero_iff _ _ fun p hp => definite_nonneg (hW p hp) _]
    constructor
    · intro h q hq
      obtain ⟨p, hp, rfl⟩ := List.mem_map.1 hq
      have := (definite_zero (hW p hp)).1 (h p hp)
      rw [speed_formula] at this
      exact (regular_zero hL).1 this
    · intro h p hp
      have : pairSpeed L x p.1 p.2 = 0 := by
        rw [speed_formula]
        exact (regular_zero hL).2 (h _ (List.mem_map.2 ⟨p, hp, rfl⟩))
      rw [this]; simp
  rw [line_twist]
  constructor
  · rintro hd ⟨x, hx, h⟩
    exact absurd ((hz x).2 h) (hd x hx).ne'
  · intro h x hx
    refine lt_of_le_of_ne (hlin.psd.psd x) fun h0 => h ⟨x, hx, (hz x).1 h0.symm⟩

/-- A rotation commutes with the vector product. -/
theorem rotation_cross {R : Matrix (Fin 3) (Fin 3) ℝ} (hR : IsRotation R) (a b : Fin 3 → ℝ) : R *ᵥ (skew a *ᵥ b) = skew (R *ᵥ a) *ᵥ (R *ᵥ b) := by
  have h1 : R.adjugate = Rᵀ := by
    have h := Matrix.adjugate_mul R
    rw [hR.2, one_smul] at h
    have h' : R * Rᵀ = 1 := mul_eq_one_comm.1 hR.1
    calc R.adjugate = R.adjugate * (R * Rᵀ) := by rw [h', Matrix.mul_one]
      _ = (R.adjugate * R) * Rᵀ := by rw [Matrix.mul_assoc]
      _ = Rᵀ := by rw [h, Matrix.one_mul]
  have h2 : R = R.adjugateᵀ := by rw [h1, transpose_transpose]
  have h3 : R.adjugateᵀ *ᵥ (skew a *ᵥ b) = skew (R *ᵥ a) *ᵥ (R *ᵥ b) := by
    rw [Matrix.adjugate_fin_three]
    funext j
    fin_cases j <;> simp [skew, mulVec, dotProduct, Fin.sum_univ_three] <;> ring
  rw [← h3, ← h2]

/-- Two poses with rotations that agree on points that are not on a line are equal. -/
theorem pose_determined {T T' : Pose ℝ} (hT : IsRotation T.R) (hT' : IsRotation T'.R) {ps : List (Fin 3 → ℝ)} (hps : ¬ OnLine ps) (h : ∀ p ∈ ps, move T p = move T' p) : T = T' := by
  cases ps with
  | nil => exact absurd ⟨0, ![1, 0, 0], fun h => by simpa using congrFun h 0, by simp⟩ hps
  | cons p0 ps =>
    obtain ⟨p1, h1, d1⟩ : ∃ p ∈ p0 :: ps, p - p0 ≠ 0 := by
      by_contra hc
      push Not at hc
      refine hps ⟨p0, ![1, 0, 0], fun h => by simpa using congrFun h 0, fun p hp => ⟨0, ?_⟩⟩
      rw [zero_smul, add_zero]
      exact sub_eq_zero.1 (hc p hp)
    obtain ⟨p2, h2, d2⟩ : ∃ p ∈ p0 :: ps, skew (p1 - p0) *ᵥ (p - p0) ≠ 0 := by
      by_contra hc
      push Not at hc
      refine hps ⟨p0, p1 - p0, d1, fun p hp => ?_⟩
      have e := hc p hp
      generalize hu : p1 - p0 = u at *
      have hn : u ⬝ᵥ u ≠ 0 := fun h0 => d1 (dotProduct_self_eq_zero.1 h0)
      refine ⟨((p - p0) ⬝ᵥ u) / (u ⬝ᵥ u), ?_⟩
      have a0 := congrFun e 0
      have a1 := congrFun e 1
      have a2 := congrFun e 2
      simp [skew, mulVec, dotProduct, Fin.sum_univ_three] at a0 a1 a2
      have q : ∀ j, p j * (u ⬝ᵥ u) = p0 j * (u ⬝ᵥ u) + ((p - p0) ⬝ᵥ u) * u j := by
        intro j
        fin_cases j <;> simp [dotProduct, Fin.sum_univ_three]
        · linear_combination u 2 * a1 - u 1 * a2
        · linear_combination u 0 * a2 - u 2 * a0
        · linear_combination u 1 * a0 - u 0 * a1
      funext j
      rw [Pi.add_apply, Pi.smul_apply, smul_eq_mul]
      field_simp
      linarith [q j]
    have hdir : ∀ p ∈ p0 :: ps, T.R *ᵥ (p - p0) = T'.R *ᵥ (p - p0) := by
      intro p hp
      have a := h p hp
      have b := h p0 (by simp)
      unfold move at a b
      rw [mulVec_sub, mulVec_sub]
      have : T.R *ᵥ p - T.R *ᵥ p0 = (T.R *ᵥ p + T.t) - (T.R *ᵥ p0 + T.t) := by abel
      rw [this, a, b]
      abel
    have e1 := hdir p1 h1
    have e2 := hdir p2 h2
    have e3 : T.R *ᵥ (skew (p1 - p0) *ᵥ (p2 - p0)) = T'.R *ᵥ (skew (p1 - p0) *ᵥ (p2 - p0)) := by
      rw [rotation_cross hT, rotation_cross hT', e1, e2]
    generalize p1 - p0 = u at *
    generalize p2 - p0 = v at *
    have hn : (skew u *ᵥ v) ⬝ᵥ (skew u *ᵥ v) ≠ 0 := fun h0 => d2 (dotProduct_self_eq_zero.1 h0)
    have hR : T.R = T'.R := by
      have key : ∀ w : Fin 3 → ℝ, T.R *ᵥ w = T'.R *ᵥ w := by
        intro w
        have dec : ((skew u *ᵥ v) ⬝ᵥ (skew u *ᵥ v)) • w = (w ⬝ᵥ (skew u *ᵥ v)) • (skew u *ᵥ v) + ((skew v *ᵥ (skew u *ᵥ v)) ⬝ᵥ w) • u + ((skew (skew u *ᵥ v) *ᵥ u) ⬝ᵥ w) • v := by
          funext j
          simp only [Pi.add_apply, Pi.smul_apply, smul_eq_mul]
          fin_cases j <;> simp [skew, mulVec, dotProduct, Fin.sum_univ_three] <;> ring
        have := congrArg (fun z => T.R *ᵥ z) dec
        have this' := congrArg (fun z => T'.R *ᵥ z) dec
        simp only [mulVec_add, mulVec_smul, e1, e2, e3] at this this'
        rw [← this'] at this
        exact smul_right_injective _ hn this
      ext i j
      have := congrFun (key (Pi.single j 1)) i
      simpa using this
    have ht : T.t = T'.t := by
      have a := h p0 (by simp)
      unfold move at a
      rw [hR] at a
      exact add_left_cancel a
    cases T; cases T'; simp_all

/-- The last linearisation of a run, at a pose with every property that the steps keep. -/
theorem run_last {m : Metric} {M : (Fin 3 → ℝ) → Option Site → Prop} {src : List Site} {inner : Nat} {factor re te : ℝ} {n i : Nat} {lam : ℝ} {r res : Result ℝ}
    (h : LMRun m M src inner factor re te n i lam r res) (hn : 0 < n) (hc : r.converged = false) (P : Pose ℝ → Prop) (hP : ∀ T d, P T → P (T.mul (se3Exp d))) (hr : P r.T) :
    ∃ L partner, P L ∧ P res.T ∧ Linearised m M src L partner res.H res.b ∧ res.error = totalCost m src partner L res.T := by
  induction h with
  | budget => omega
  | done n i lam r hc' => rw [hc] at hc'; cases hc'
  | stuck n i lam r p H b d _ hlin hd => exact ⟨r.T, p, hr, hr, hlin, rfl⟩
  | step n i lam r r' p H b k d _ hlin hk hd hdk hle hrun ih =>
    have h1 := hP _ (d k) hr
    by_cases hs : SmallStep re te (d k)
    · have hcv : (open Classical in decide (SmallStep re te (d k))) = true := by simpa using hs
      generalize hr1 : (⟨r.T.mul (se3Exp (d k)), (open Classical in decide (SmallStep re te (d k))), i, paired p, H, b, totalCost m src p r.T (r.T.mul (se3Exp (d k)))⟩ : Result ℝ) = r1 at hrun
      have hstop : r' = r1 := by
        have hcv1 : r1.converged = true := by rw [← hr1]; exact hcv
        cases hrun with
        | budget => rfl
        | done => rfl
        | stuck _ _ _ _ _ _ _ _ hc' => rw [hcv1] at hc'; cases hc'
        | step _ _ _ _ _ _ _ _ _ _ hc' => rw [hcv1] at hc'; cases hc'
      subst hstop
      subst hr1
      exact ⟨r.T, p, hr, h1, hlin, rfl⟩
    · have hcv : (open Classical in decide (SmallStep re te (d k))) = false := by simpa using hs
      rcases Nat.eq_zero_or_pos n with rfl | hn'
      · have hstop : r' = ⟨r.T.mul (se3Exp (d k)), (open Classical in decide (SmallStep re te (d k))), i, paired p, H, b, totalCost m src p r.T (r.T.mul (se3Exp (d k)))⟩ := by
          cases hrun <;> rfl
        subst hstop
        exact ⟨r.T, p, hr, h1, hlin, rfl⟩
      · exact ih hn' hcv h1

theorem exp_regular (T : Pose ℝ) (d : Fin 6 → ℝ) (h : T.R.det ≠ 0) : (T.mul (se3Exp d)).R.det ≠ 0 := by
  show (T.R * (se3Exp d).R).det ≠ 0
  rw [Matrix.det_mul, se3Exp_R]
  have := (stretch_so3 (rot d)).2.1
  exact mul_ne_zero h (by linarith)

/-- C84. A run of at least one iteration with definite weights, from a regular pose: for the pairs of the last linearisation, the Hessian of the result is positive definite exactly if the matched
source points are not on a line; the error is zero exactly if the returned pose brings them all onto their partners; and then, if they are not on a line, there is no other rigid pose that does. -/
theorem C84_run {m : Metric} {M : (Fin 3 → ℝ) → Option Site → Prop} {src : List Site} {inner : Nat} {factor re te : ℝ} {n i : Nat} {lam : ℝ} {r res : Result ℝ}
    (h : LMRun m M src inner factor re te n i lam r res) (hn : 0 < n) (hc : r.converged = false) (hr : r.T.R.det ≠ 0)
    (hW : ∀ L q t, ∀ s ∈ src, M q (some t) → Definite (pairWeight m L t s)) :
    ∃ L partner, Linearised m M src L partner res.H res.b ∧ res.error = totalCost m src partner L res.T ∧
      (Definite res.H ↔ ¬ OnLine ((pairsOf src partner).map fun p => p.2.pos)) ∧ (res.error = 0 ↔ Fits res.T (pairsOf src partner)) ∧
      (Definite res.H → res.error = 0 → IsRotation res.T.R → ∀ T, IsRotation T.R → Fits T (pairsOf src partner) → T = res.T) := by
  obtain ⟨L, partner, hL, _, hlin, herr⟩ := run_last h hn hc (fun T => T.R.det ≠ 0) exp_regular hr
  have hW' : ∀ p ∈ pairsOf src partner, Definite (pairWeight m L p.1 p.2) := by
    rintro ⟨t, s⟩ hp
    obtain ⟨a, b⟩ := pairsOf_mem hlin.matched hp
    exact hW L _ t s a b
  have hfit : res.error = 0 ↔ Fits res.T (pairsOf src partner) := by
    rw [herr, totalCost, pairSum_pairs, sum_zero_iff _ _ fun p hp => by
      unfold pairCost
      have := definite_nonneg (hW' p hp) (pairDiff res.T p.1 p.2)
      linarith]
    refine forall_congr' fun p => forall_congr' fun hp => ?_
    unfold pairCost
    rw [mul_eq_zero, definite_zero (hW' p hp)]
    constructor
    · rintro (h0 | h0)
      · norm_num at h0
      · exact (sub_eq_zero.1 h0).symm
    · intro h0
      right
      unfold pairDiff
      rw [h0, sub_self]
  refine ⟨L, partner, hlin, herr, C84_system hlin hL hW', hfit, fun hd h0 hrot T hT hf => ?_⟩
  refine pose_determined hT hrot ((C84_system hlin hL hW').1 hd) fun q hq => ?_
  obtain ⟨p, hp, rfl⟩ := List.mem_map.1 hq
  rw [hf p hp, hfit.1 h0 p hp]

theorem definite_inverse {A : Matrix (Fin 3) (Fin 3) ℝ} (h : Definite A) : Definite A⁻¹ := by
  have hdet : A.det ≠ 0 := by
    intro h0
    obtain ⟨v, hv, hv0⟩ := Matrix.exists_mulVec_eq_zero_iff.2 h0
    have := h v hv
    rw [hv0] at this
    simp at this
  intro x hx
  have hu : IsUnit A.det := isUnit_iff_ne_zero.2 hdet
  have e : A *ᵥ (A⁻¹ *ᵥ x) = x := by rw [mulVec_mulVec, Matrix.mul_nonsing_inv _ hu, one_mulVec]
  have hne : A⁻¹ *ᵥ x ≠ 0 := by
    intro h0
    rw [h0, mulVec_zero] at e
    exact hx e.symm
  have := h _ hne
  rw [e, dotProduct_comm] at this
  exact this

theorem local_definite {m : Metric} (hm : m ≠ .plane) (L : Pose ℝ) {t s : Site} (ht : LocalSite t) (hs : LocalSite s) : Definite (pairWeight m L t s) := by
  cases m with
  | plane => exact absurd rfl hm
  | point =>
    intro x hx
    show 0 < x ⬝ᵥ (1 : Matrix (Fin 3) (Fin 3) ℝ) *ᵥ x
    rw [one_mulVec]
    exact lt_of_le_of_ne (dot3_nonneg x) fun h0 => hx (dotProduct_self_eq_zero.1 h0.symm)
  | cov =>
    refine definite_inverse fun x hx => ?_
    have h1 := ht.quad x
    have h2 : 0 < x ⬝ᵥ x := lt_of_le_of_ne (dot3_nonneg x) fun h0 => hx (dotProduct_self_eq_zero.1 h0.symm)
    have h3 : SymPSD (L.R * s.cov * L.Rᵀ) := by
      have := hs.psd.conj L.Rᵀ
      rwa [transpose_transpose] at this
    have h4 := h3.psd x
    rw [add_mulVec, dotProduct_add]
    linarith

/-- C84. With the point-to-plane factor the weight is diagonal (see C35), so normals without a zero component make the system of a single plane as definite as that of ICP. -/
theorem C84_plane {M : (Fin 3 → ℝ) → Option Site → Prop} {src : List Site} {L : Pose ℝ} {partner : List (Option Site)} {H : Matrix (Fin 6) (Fin 6) ℝ} {b : Fin 6 → ℝ}
    (hlin : Linearised .plane M src L partner H b) (hL : L.R.det ≠ 0) (hN : ∀ p ∈ pairsOf src partner, ∀ j, p.1.normal j ≠ 0) :
    Definite H ↔ ¬ OnLine ((pairsOf src partner).map fun p => p.2.pos) := by
  refine C84_system hlin hL fun p hp x hx => ?_
  show 0 < x ⬝ᵥ (Matrix.diagonal fun j => p.1.normal j ^ 2) *ᵥ x
  have : x ⬝ᵥ (Matrix.diagonal fun j => p.1.normal j ^ 2) *ᵥ x = ∑ j, (p.1.normal j * x j) * (p.1.normal j * x j) := by
    simp only [dotProduct, mulVec_diagonal]
    exact Finset.sum_congr rfl fun j _ => by ring
  rw [this]
  obtain ⟨j, hj⟩ : ∃ j, x j ≠ 0 := by
    by_contra hc
    push Not at hc
    exact hx (funext hc)
  exact Finset.sum_pos' (fun _ _ => mul_self_nonneg _) ⟨j, Finset.mem_univ _, mul_self_pos.2 (mul_ne_zero (hN p hp j) hj)⟩

section Align

variable {e : Env} (he : EnvMeets e) {T : Type} {d : Nat} (cast : T → ℝ) {target source : List (Fin (d + 3) → T)} {s : Setting} (hleaf : s.downsamplingResolution ≠ 0)
  (hT : InputFits cast s.downsamplingResolution target) (hS : InputFits cast s.downsamplingResolution source)

include he hleaf hT hS in
/-- C84. `align` with ICP or GICP on two vectors of points, any number of threads and every complete execution, at least one iteration allowed: with the nearest pairs within the gate at some pose `L`,
the Hessian of the result is positive definite exactly if the matched source points are not on a line, the error is zero exactly if the returned pose fits all pairs, and then it is the only rigid pose
that does (if the Hessian is definite and the returned pose is rigid, see C41). -/
theorem C84_align {m : Metric} (htype : MethodMetric s.type m) (hm : s.type ≠ .planeIcp) (hgate : s.maxCorrespondenceDistance * s.maxCorrespondenceDistance < e.maxD) {xt xs : PrepExec}
    {y : RegExec} (hy : RunsToEnd y s.numThreads.toNat) {initT : Pose ℝ} (hinit : IsRotation initT.R) {r : Res (Result ℝ)}
    (h : Pipeline.align e xt xs y cast target source initT s = some r) (hdef : ¬ (target = [] ∧ source ≠ [])) (hit : 0 < s.maxIterations) :
    ∃ res outT outS tgt src L partner, r = .ok res ∧ Sampled s.numThreads s.downsamplingResolution (target.map (vecPoint cast)) outT ∧
      Sampled s.numThreads s.downsamplingResolution (source.map (vecPoint cast)) outS ∧ LocalSites outT e.maxD 10 tgt ∧ LocalSites outS e.maxD 10 src ∧
      Linearised m (NearestWithin tgt (s.maxCorrespondenceDistance * s.maxCorrespondenceDistance)) src L partner res.H res.b ∧
      (Definite res.H ↔ ¬ OnLine ((pairsOf src partner).map fun p => p.2.pos)) ∧ (res.error = 0 ↔ Fits res.T (pairsOf src partner)) ∧
      (Definite res.H → res.error = 0 → IsRotation res.T.R → ∀ T, IsRotation T.R → Fits T (pairsOf src partner) → T = res.T) := by
  obtain ⟨res, outT, outS, tgt, src, h1, h2, h3, h4, h5, h6⟩ := C67_clouds he cast hleaf hT hS htype hgate hy h (fun hh => hdef ⟨hh.1, hh.2.1⟩)
  have hm' : m ≠ .plane := by
    rintro rfl
    cases hq : s.type <;> rw [hq] at htype <;> cases htype
    exact hm hq
  obtain ⟨L, partner, a1, _, a3, a4, a5⟩ := C84_run h6 (by omega) rfl (by show initT.R.det ≠ 0; rw [hinit.2]; norm_num)
    (fun L q t s' hs' hM => local_definite hm' L (local_sites h4 t hM.1) (local_sites h5 s' hs'))
  exact ⟨res, outT, outS, tgt, src, L, partner, h1, h2, h3, h4, h5, a1, a3, a4, a5⟩

end Align

/-- Three corners of a triangle are not on a line, two points are. -/
example : ¬ OnLine [![0, 0, 0], ![1, 0, 0], ![0, 1, 0]] ∧ OnLine [![0, 0, 0], ![1, 2, 0]] := by
  constructor
  · rintro ⟨c, d, hd, h⟩
    obtain ⟨s0, h0⟩ := h ![0, 0, 0] (by simp)
    obtain ⟨s1, h1⟩ := h ![1, 0, 0] (by simp)
    obtain ⟨s2, h2⟩ := h ![0, 1, 0] (by simp)
    have a0 := congrFun h0 0
    have a1 := congrFun h0 1
    have b0 := congrFun h1 0
    have b1 := congrFun h1 1
    have c0 := congrFun h2 0
    have c1 := congrFun h2 1
    simp at a0 a1 b0 b1 c0 c1
    have e1 : (s1 - s0) * d 0 = 1 := by linarith
    have e2 : (s1 - s0) * d 1 = 0 := by linarith
    have e3 : (s2 - s0) * d 1 = 1 := by linarith
    rcases mul_eq_zero.1 e2 with h | h
    · rw [h] at e1; norm_num at e1
    · rw [h] at e3; norm_num at e3
  · refine ⟨0, ![1, 2, 0], fun h => by simpa using congrFun h 0, fun p hp => ?_⟩
    rcases List.mem_cons.1 hp with rfl | hp
    · exact ⟨0, by ext j; fin_cases j <;> simp⟩
    · rw [List.mem_singleton] at hp
      subst hp
      exact ⟨1, by simp⟩

/-- The hypotheses of `C84_align` hold for every execution of a concrete ICP alignment with two threads. -/
example : ∃ (e : Env) (xt xs : PrepExec) (y : RegExec) (res : Result ℝ) (src : List Site) (partner : List (Option Site)), EnvMeets e ∧ RunsToEnd y 2 ∧
    Pipeline.align e xt xs y (fun x : ℝ => x) parabola3 parabola3 ⟨1, ![1 / 2, 0, 0]⟩ { Setting.default with type := .icp, downsamplingResolution := 1, numThreads := 2 } = some (.ok res) ∧
    (Definite res.H ↔ ¬ OnLine ((pairsOf src partner).map fun p => p.2.pos)) ∧ (res.error = 0 ↔ Fits res.T (pairsOf src partner)) := by
  obtain ⟨e, he, hmax, _⟩ := env_exists 1000 (by norm_num) (0, 0)
  obtain ⟨xt, xs, y, r, hy, h⟩ := C61_executes he (fun x : ℝ => x) (s := { Setting.default with type := .icp, downsamplingResolution := 1, numThreads := 2 }) (by simp) parabola3_fits parabola3_fits
    (by simp) ⟨1, ![1 / 2, 0, 0]⟩
  obtain ⟨res, outT, outS, tgt, src, L, partner, rfl, _, _, _, _, _, h1, h2, _⟩ := C84_align he (fun x : ℝ => x)
    (s := { Setting.default with type := .icp, downsamplingResolution := 1, numThreads := 2 }) (by simp) parabola3_fits parabola3_fits (m := .point) .icp (by simp)
    (by rw [hmax]; norm_num [Setting.default]) hy ⟨by simp, by simp⟩ h (by simp [parabola3]) (by simp [Setting.default])
  exact ⟨e, xt, xs, y, res, src, partner, he, hy, h, h1, h2⟩

end Verif.Props
