import Verif.Spec.Robust
import Verif.Props.Steps
import Mathlib.Analysis.SpecialFunctions.Log.Deriv
import Mathlib.Analysis.SpecialFunctions.Sqrt

/-!
C73: registration with a robust kernel. The linearised system is that of the Huber or Cauchy loss; the error that the optimiser
evaluates to accept steps is another function.
-/

set_option linter.unusedSectionVars false
set_option linter.unusedSimpArgs false
set_option linter.unnecessarySeqFocus false

namespace Verif.Props

open Matrix Verif Verif.Proofs Verif.Factors Verif.Reduction Verif.Optimizer Verif.Spec Verif.Lie

/-- The kernels of the library with their losses. -/
inductive LossOf : (ℝ → ℝ) → (ℝ → ℝ) → Prop where
  | huber (c : ℝ) : 0 < c → LossOf (huberWeight c) (huberLoss c)
  | cauchy (c : ℝ) : 0 < c → LossOf (cauchyWeight c) (cauchyLoss c)

section Loss

variable {w loss : ℝ → ℝ}

theorem huber_weight_sqrt {c : ℝ} (hc : 0 < c) (e : ℝ) : huberWeight c (Real.sqrt e) = if e < c ^ 2 then 1 else c / Real.sqrt e := by
  unfold huberWeight
  rw [abs_of_nonneg (Real.sqrt_nonneg e)]
  by_cases h : e < c ^ 2
  · rw [if_pos h, if_pos ((Real.sqrt_lt' hc).2 h)]
  · rw [if_neg h, if_neg (fun h' => h ((Real.sqrt_lt' hc).1 h'))]

theorem cauchy_weight_sqrt (c : ℝ) {e : ℝ} (he : 0 ≤ e) : cauchyWeight c (Real.sqrt e) = c / (c + e) := by
  unfold cauchyWeight
  rw [Real.mul_self_sqrt he]

/-- The loss lies below its tangent: `w` is its slope and it is concave in the squared error. -/
theorem loss_tangent (h : LossOf w loss) {e e' : ℝ} (he : 0 ≤ e) (he' : 0 ≤ e') : loss e' ≤ loss e + w (Real.sqrt e) * (e' - e) := by
  cases h with
  | huber c hc =>
    rw [huber_weight_sqrt hc]
    unfold huberLoss
    have hs := Real.sq_sqrt he
    have hs' := Real.sq_sqrt he'
    have hn := Real.sqrt_nonneg e
    have hn' := Real.sqrt_nonneg e'
    by_cases h1 : e < c ^ 2
    · rw [if_pos h1, if_pos h1]
      by_cases h2 : e' < c ^ 2
      · rw [if_pos h2]; linarith
      · rw [if_neg h2]; nlinarith [sq_nonneg (Real.sqrt e' - c)]
    · have hce : c ≤ Real.sqrt e := by
        apply Real.le_sqrt_of_sq_le; exact not_lt.1 h1
      have hpos : 0 < Real.sqrt e := lt_of_lt_of_le hc hce
      rw [if_neg h1, if_neg h1]
      have key : c / Real.sqrt e * (e' - e) = c * (Real.sqrt e' ^ 2 / Real.sqrt e - Real.sqrt e) := by
        rw [hs']
        nth_rewrite 2 [← hs]
        field_simp
      rw [key]
      have h3 : 2 * Real.sqrt e' - Real.sqrt e ≤ Real.sqrt e' ^ 2 / Real.sqrt e := by
        rw [le_div_iff₀ hpos]; nlinarith [sq_nonneg (Real.sqrt e' - Real.sqrt e)]
      by_cases h2 : e' < c ^ 2
      · rw [if_pos h2]
        have h4 : Real.sqrt e' ^ 2 / Real.sqrt e * Real.sqrt e = e' := by rw [hs']; field_simp
        have h5 : Real.sqrt e' ^ 2 / Real.sqrt e ≤ c := by
          rw [div_le_iff₀ hpos, hs']; nlinarith
        nlinarith [mul_nonneg (sub_nonneg.2 hce) (sub_nonneg.2 h5)]
      · rw [if_neg h2]
        nlinarith
  | cauchy c hc =>
    rw [cauchy_weight_sqrt c he]
    unfold cauchyLoss
    have h1 : 0 < 1 + e / c := by positivity
    have h2 : 0 < 1 + e' / c := by positivity
    have h3 := Real.log_le_sub_one_of_pos (div_pos h2 h1)
    rw [Real.log_div h2.ne' h1.ne'] at h3
    have h4 : c * ((1 + e' / c) / (1 + e / c) - 1) = c / (c + e) * (e' - e) := by
      field_simp
      ring
    nlinarith

theorem loss_deriv (h : LossOf w loss) {e : ℝ} (he : 0 ≤ e) : HasDerivAt loss (w (Real.sqrt e)) e := by
  cases h with
  | huber c hc =>
    rw [huber_weight_sqrt hc]
    by_cases h1 : e < c ^ 2
    · rw [if_pos h1]
      refine (hasDerivAt_id e).congr_of_eventuallyEq ?_
      filter_upwards [Iio_mem_nhds h1] with x hx
      simp only [huberLoss, if_pos (Set.mem_Iio.1 hx), id]
    · rw [if_neg h1]
      have hce : c ^ 2 ≤ e := not_lt.1 h1
      have hepos : 0 < e := lt_of_lt_of_le (by positivity) hce
      have hroot : HasDerivAt (fun x => 2 * c * Real.sqrt x - c ^ 2) (c / Real.sqrt e) e := by
        have := ((Real.hasDerivAt_sqrt hepos.ne').const_mul (2 * c)).sub_const (c ^ 2)
        refine this.congr_deriv ?_
        field_simp
      rcases hce.eq_or_lt with h2 | h2
      · subst h2
        have hsq : Real.sqrt (c ^ 2) = c := Real.sqrt_sq hc.le
        rw [hsq, div_self hc.ne'] at hroot ⊢
        have hr : HasDerivWithinAt (huberLoss c) 1 (Set.Ici (c ^ 2)) (c ^ 2) := by
          refine hroot.hasDerivWithinAt.congr (fun x hx => ?_) ?_
          · simp only [huberLoss, if_neg (not_lt.2 (Set.mem_Ici.1 hx))]
          · simp only [huberLoss, lt_irrefl, if_false]
        have hl : HasDerivWithinAt (huberLoss c) 1 (Set.Iio (c ^ 2)) (c ^ 2) := by
          refine (hasDerivAt_id (c ^ 2)).hasDerivWithinAt.congr (fun x hx => ?_) ?_
          · simp only [huberLoss, if_pos (Set.mem_Iio.1 hx), id]
          · simp only [huberLoss, lt_irrefl, if_false, hsq, id]; ring
        have := hl.union hr
        rw [Set.Iio_union_Ici] at this
        exact this.hasDerivAt Filter.univ_mem
      · refine hroot.congr_of_eventuallyEq ?_
        filter_upwards [Ioi_mem_nhds h2] with x hx
        simp only [huberLoss, if_neg (not_lt.2 (Set.mem_Ioi.1 hx).le)]
  | cauchy c hc =>
    rw [cauchy_weight_sqrt c he]
    have h1 : 0 < 1 + e / c := by positivity
    have h2 : HasDerivAt (fun x : ℝ => 1 + x / c) (1 / c) e := ((hasDerivAt_id e).div_const c).const_add 1
    have := ((h2.log h1.ne').const_mul c)
    refine this.congr_deriv ?_
    field_simp

theorem loss_zero (h : LossOf w loss) : loss 0 = 0 := by
  cases h with
  | huber c hc => simp [huberLoss, hc.ne', pow_pos hc]
  | cauchy c hc => simp [cauchyLoss]

/-- The evaluated error never exceeds the loss; for Huber it is at least half of it. -/
theorem C73_scale {c : ℝ} (hc : 0 < c) {e : ℝ} (he : 0 ≤ e) :
    (huberWeight c (Real.sqrt e) * e ≤ huberLoss c e ∧ huberLoss c e ≤ 2 * (huberWeight c (Real.sqrt e) * e)) ∧
    cauchyWeight c (Real.sqrt e) * e ≤ cauchyLoss c e := by
  refine ⟨?_, ?_⟩
  · rw [huber_weight_sqrt hc]
    unfold huberLoss
    by_cases h1 : e < c ^ 2
    · rw [if_pos h1, if_pos h1]; constructor <;> linarith
    · rw [if_neg h1, if_neg h1]
      have hce : c ≤ Real.sqrt e := Real.le_sqrt_of_sq_le (not_lt.1 h1)
      have hpos : 0 < Real.sqrt e := lt_of_lt_of_le hc hce
      have key : c / Real.sqrt e * e = c * Real.sqrt e := by
        nth_rewrite 2 [← Real.sq_sqrt he]
        field_simp
      rw [key]
      constructor <;> nlinarith
  · have := loss_tangent (.cauchy c hc) he (le_refl 0)
    rw [loss_zero (.cauchy c hc)] at this
    linarith

theorem kernel_of (h : LossOf w loss) : RobustKernel w := by
  cases h with
  | huber c hc => exact (C36_huber c hc).1
  | cauchy c hc => exact C36_cauchy c hc

end Loss

/-! ### the linearised system -/

section System

variable {F : Type} {w loss : ℝ → ℝ}

/-- The errors of the factors at a pose, without the kernel. -/
noncomputable def plainErrors (pf : PointFactor F ℝ) (sc : Scene ℝ) (fs : List F) (T : Pose ℝ) : List ℝ := fs.map (pf.error sc T)

/-- After a linearisation the error of a factor is not negative at any pose. -/
theorem error_nonneg {sc : Scene ℝ} {pf : PointFactor F ℝ} {Inv : F → Prop} (h : Plain sc pf Inv) (rej : Rejector ℝ) (T : Pose ℝ) (i : Nat) (f : F) (hf : Inv f)
    (hn : SearchIndices sc) (T' : Pose ℝ) : 0 ≤ pf.error sc T' (pf.linearize sc rej T i f).1 := by
  cases hc : correspondence sc rej T i with
  | none => rw [((factor_cases h.shipped sc hn rej T i f).2 hc).2.2 T']
  | some k =>
    have half : ∀ x : ℝ, 0 ≤ x → 0 ≤ 1 / 2 * x := fun x hx => by positivity
    cases h with
    | icp =>
      simp only [icpFactor, ICP.linearize, hc, ICP.error]
      split
      · exact le_refl _
      · exact half _ (dot_self_nonneg _)
    | plane =>
      simp only [planeFactor, PlaneICP.linearize, hc, PlaneICP.error]
      split
      · exact le_refl _
      · exact half _ (dot_self_nonneg _)
    | gicp inv hinv ht hs hpd =>
      simp only [gicpFactor, GICP.linearize, hc, GICP.error]
      split
      · exact le_refl _
      · exact half _ ((setBlock_psd hf ((fusedCov_psd (ht k) (hs i)).inverse (hinv _ (fused_regular hs hpd rej T i k hc)))).psd _)

/-- The robust linearisation stores what the wrapped factor stores. -/
theorem robust_fst (pf : PointFactor F ℝ) (sc : Scene ℝ) (rej : Rejector ℝ) (T : Pose ℝ) (i : Nat) (f : F) :
    ((robustFactor w Real.sqrt pf).linearize sc rej T i f).1 = (pf.linearize sc rej T i f).1 := by
  simp only [robustFactor, robustLinearize]
  rcases pf.linearize sc rej T i f with ⟨f', _ | ⟨H, b, e⟩⟩ <;> rfl

/-- `b` of one robust factor is the gradient of the loss. -/
theorem robust_gradient (hk : LossOf w loss) {sc : Scene ℝ} {pf : PointFactor F ℝ} {Inv : F → Prop} (hpf : Plain sc pf Inv) (hn : SearchIndices sc) (rej : Rejector ℝ)
    (T : Pose ℝ) (i : Nat) (hp : sc.srcPoint i 3 = 1) (f : F) (hf : Inv f) (d : Fin 6 → ℝ) :
    HasDerivAt (fun s : ℝ => loss (pf.error sc (T.mul (se3Exp (s • d))) (pf.linearize sc rej T i f).1))
      ((((robustFactor w Real.sqrt pf).linearize sc rej T i f).2.getD 0).2.1 ⬝ᵥ d) 0 := by
  have hT : T.mul (se3Exp ((0 : ℝ) • d)) = T := by rw [se3_at_zero]; simp [Pose.mul, Pose.one]
  have hnn := error_nonneg hpf rej T i f hf hn T
  have h32 := C32_factor hpf.shipped sc hn rej T i f
  have hgrad := hpf.gradient hn rej T i hp f hf
  rcases hl : pf.linearize sc rej T i f with ⟨f', _ | ⟨H, b, e⟩⟩
  · have hz : ∀ T', pf.error sc T' f' = 0 := by
      cases hcc : correspondence sc rej T i with
      | none =>
        have := ((factor_cases hpf.shipped sc hn rej T i f).2 hcc).2.2
        rw [hl] at this; exact this
      | some k =>
        have := ((factor_cases hpf.shipped sc hn rej T i f).1 k hcc).1
        rw [hl] at this; cases this
    simp only [hz, robustFactor, robustLinearize, hl, Option.getD_none, Prod.snd_zero, Prod.fst_zero, zero_dotProduct]
    exact hasDerivAt_const _ _
  · rw [hl] at h32 hnn
    have he : pf.error sc T f' = e := h32.1 H b e rfl
    have h1 := hgrad f' H b e hl d
    have h2 : HasDerivAt loss (w (Real.sqrt e)) (pf.error sc (T.mul (se3Exp ((0 : ℝ) • d))) f') := by
      rw [hT, he]
      exact loss_deriv hk (he ▸ hnn)
    have h3 := h2.comp (0 : ℝ) h1
    refine h3.congr_deriv ?_
    simp only [robustFactor, robustLinearize, hl, Option.getD_some, smul_dotProduct, smul_eq_mul]

/-- C73, gradient. The accumulated `b` of a registration with a robust kernel is the gradient of the total loss of the matched pairs. Missing:
that it is the gradient of the error the optimiser evaluates (false, see `C73_violated`). -/
theorem C73_gradient_partial (hk : LossOf w loss) {sc : Scene ℝ} {pf : PointFactor F ℝ} {Inv : F → Prop} (hpf : Plain sc pf Inv) (hn : SearchIndices sc)
    (rej : Rejector ℝ) (T : Pose ℝ) (fs fs' : List F) (hfs : ∀ f ∈ fs, Inv f) (hp : ∀ i < fs.length, sc.srcPoint i 3 = 1) (H : Matrix (Fin 6) (Fin 6) ℝ) (b : Fin 6 → ℝ) (e : ℝ)
    (h : serialLinearize ((robustFactor w Real.sqrt pf).linearize sc rej T) fs = .ok (fs', (H, b, e))) (d : Fin 6 → ℝ) :
    HasDerivAt (fun s : ℝ => totalLoss loss (plainErrors pf sc fs' (T.mul (se3Exp (s • d))))) (b ⬝ᵥ d) 0 := by
  rw [serial_ok] at h
  simp only [Except.ok.injEq] at h
  unfold reduceSpec at h
  obtain ⟨rfl, h2⟩ := Prod.mk.inj h
  have hb : b ⬝ᵥ d = (fs.mapIdx (fun i f => (((robustFactor w Real.sqrt pf).linearize sc rej T i f).2.getD 0).2.1 ⬝ᵥ d)).sum := by
    have : ∀ l : List (Sys ℝ), l.sum.2.1 ⬝ᵥ d = (l.map (fun s => s.2.1 ⬝ᵥ d)).sum := by
      intro l
      induction l with
      | nil => simp
      | cons a l ih => simp only [List.sum_cons, List.map_cons, Prod.snd_add, Prod.fst_add, add_dotProduct, ih]
    have h3 := this (fs.mapIdx (fun i f => ((robustFactor w Real.sqrt pf).linearize sc rej T i f).2.getD 0))
    rw [h2, map_mapIdx'] at h3
    exact h3
  rw [hb]
  unfold totalLoss plainErrors
  simp only [List.map_map, map_mapIdx', robust_fst, Function.comp_apply]
  clear h h2 hb
  have gen : ∀ (l : List F) (n : Nat), (∀ f ∈ l, Inv f) → (∀ i < l.length, sc.srcPoint (i + n) 3 = 1) →
      HasDerivAt (fun s : ℝ => (l.mapIdx (fun i f => loss (pf.error sc (T.mul (se3Exp (s • d))) (pf.linearize sc rej T (i + n) f).1))).sum)
        (l.mapIdx (fun i f => (((robustFactor w Real.sqrt pf).linearize sc rej T (i + n) f).2.getD 0).2.1 ⬝ᵥ d)).sum 0 := by
    intro l
    induction l with
    | nil => intro n _ _; simpa using hasDerivAt_const (0 : ℝ) (0 : ℝ)
    | cons f l ih =>
      intro n hl hpl
      simp only [List.mapIdx_cons, List.sum_cons]
      have h1 := ih (n + 1) (fun f hf => hl f (by simp [hf])) (fun i hi => by
        have := hpl (i + 1) (by simpa using hi)
        rwa [Nat.add_assoc, Nat.add_comm 1 n] at this)
      have e1 : ∀ i : Nat, i + 1 + n = i + (n + 1) := fun i => by omega
      simp only [e1]
      exact (robust_gradient hk hpf hn rej T (0 + n) (hpl 0 (by simp)) f (hl f (by simp)) d).add h1
  simpa using gen fs 0 hfs (by simpa using hp)

/-- Weights of a linearisation at `T`. -/
noncomputable def weightsAt (w : ℝ → ℝ) (pf : PointFactor F ℝ) (sc : Scene ℝ) (fs : List F) (T : Pose ℝ) : List ℝ :=
  fs.map (fun f => w (Real.sqrt (pf.error sc T f)))

/-- Cost with the weights held fixed. -/
noncomputable def weightedCost (ws es : List ℝ) : ℝ := (List.zipWith (· * ·) ws es).sum

/-- C73, majorisation. With the weights of a pose `T` held fixed, the weighted cost minus its value at `T` bounds the change of the loss: a pose
that does not raise the weighted cost does not raise the loss. -/
theorem C73_majorised (hk : LossOf w loss) {sc : Scene ℝ} {pf : PointFactor F ℝ} {Inv : F → Prop} (hpf : Plain sc pf Inv) (hn : SearchIndices sc) (rej : Rejector ℝ) (T : Pose ℝ)
    (fs fs' : List F) (hfs : ∀ f ∈ fs, Inv f) (s : Sys ℝ) (h : serialLinearize ((robustFactor w Real.sqrt pf).linearize sc rej T) fs = .ok (fs', s)) (T' : Pose ℝ) :
    totalLoss loss (plainErrors pf sc fs' T') ≤ totalLoss loss (plainErrors pf sc fs' T) +
      (weightedCost (weightsAt w pf sc fs' T) (plainErrors pf sc fs' T') - weightedCost (weightsAt w pf sc fs' T) (plainErrors pf sc fs' T)) := by
  rw [serial_ok] at h
  simp only [Except.ok.injEq] at h
  unfold reduceSpec at h
  obtain ⟨rfl, -⟩ := Prod.mk.inj h
  have hpos : ∀ f ∈ fs.mapIdx (fun i f => ((robustFactor w Real.sqrt pf).linearize sc rej T i f).1), ∀ T', 0 ≤ pf.error sc T' f := by
    intro f hf T'
    rw [List.mem_mapIdx] at hf
    obtain ⟨i, hi, rfl⟩ := hf
    rw [robust_fst]
    exact error_nonneg hpf rej T i _ (hfs _ (List.getElem_mem hi)) hn T'
  generalize fs.mapIdx (fun i f => ((robustFactor w Real.sqrt pf).linearize sc rej T i f).1) = l at hpos
  induction l with
  | nil => simp [totalLoss, plainErrors, weightedCost, weightsAt]
  | cons f l ih =>
    have h1 := ih (fun g hg => hpos g (by simp [hg]))
    have h2 := loss_tangent hk (hpos f (by simp) T) (hpos f (by simp) T')
    simp only [totalLoss, plainErrors, weightedCost, weightsAt, List.map_cons, List.sum_cons, List.zipWith_cons_cons] at h1 ⊢
    linarith

/-- C73, descent. In every iteration of a registration with a robust kernel (either optimiser, positive damping) that applies a step `d`, the
total loss of the pairs of that iteration, moved along `T * se3_exp(s d)`, has a derivative at `s = 0` that is not positive, and negative
unless `d` is zero. Missing: the same for the error the optimiser evaluates (false, see `C73_violated`). -/
theorem C73_descent_partial (hk : LossOf w loss) (sc : Scene ℝ) (hn : SearchIndices sc) {pf : PointFactor F ℝ} {Inv : F → Prop} (hpf : Plain sc pf Inv) (n : Nat)
    (hp : ∀ i < n, sc.srcPoint i 3 = 1) (rej : Rejector ℝ) (g : General ℝ) (hg : ShippedGeneral g) (solve : Matrix (Fin 6) (Fin 6) ℝ → (Fin 6 → ℝ) → (Fin 6 → ℝ))
    (hs : SolveContract solve) (conv : (Fin 6 → ℝ) → Bool) (T0 : Pose ℝ) (r : Result ℝ) (fs' : List F) (log : List (Iteration F ℝ))
    (h : (∃ st, 0 < st.initLambda ∧ 0 < st.lambdaFactor ∧
        alignLM (robustFactor w Real.sqrt pf) (registrationProblem (robustFactor w Real.sqrt pf) sc rej g solve se3Exp conv) st T0 n = .ok (r, fs', log)) ∨
      ∃ lambda m, 0 < lambda ∧ alignGN (robustFactor w Real.sqrt pf) (registrationProblem (robustFactor w Real.sqrt pf) sc rej g solve se3Exp conv) lambda m T0 n = .ok (r, fs', log))
    (it : Iteration F ℝ) (hit : it ∈ log) (d : Fin 6 → ℝ) (hd : it.step = some d) :
    ∃ slope : ℝ, HasDerivAt (fun s : ℝ => totalLoss loss (plainErrors pf sc it.factors (it.T0.mul (se3Exp (s • d))))) slope 0 ∧ slope ≤ 0 ∧ (d ≠ 0 → slope < 0) := by
  have hsound : ∀ T, SoundAt (robustFactor w Real.sqrt pf) sc rej T Inv := fun T =>
    C33_robust w Real.sqrt (fun x => ((kernel_of hk).range x).1.le) pf sc rej T Inv (hpf.sound rej T)
  have hgood : ∀ (T : Pose ℝ) (fs fs' : List F) (s : Sys ℝ), (fs.length = n ∧ ∀ f ∈ fs, Inv f) →
      serialLinearize ((robustFactor w Real.sqrt pf).linearize sc rej T) fs = .ok (fs', s) → GoodSystem s.1 s.2.1 s.2.2 ∧ fs'.length = n ∧ ∀ f ∈ fs', Inv f := by
    rintro T fs fs' ⟨H, b, e⟩ ⟨hl, hfs⟩ hlin
    obtain ⟨h1, h2⟩ := C33_accumulated (hsound T) fs fs' hfs H b e hlin
    refine ⟨h1, ?_, h2⟩
    rw [serial_ok] at hlin
    simp only [Except.ok.injEq, reduceSpec, Prod.mk.injEq] at hlin
    rw [← hlin.1]
    simp [hl]
  have hinit : (List.replicate n (robustFactor w Real.sqrt pf).init).length = n ∧ ∀ f ∈ List.replicate n (robustFactor w Real.sqrt pf).init, Inv f :=
    ⟨by simp, fun f hf => by rw [List.eq_of_mem_replicate hf]; exact (hsound T0).init⟩
  let P := registrationProblem (robustFactor w Real.sqrt pf) sc rej g solve se3Exp conv
  let Q : List F → Prop := fun fs => fs.length = n ∧ ∀ f ∈ fs, Inv f
  have hQ : ∀ T fs fs' s, Q fs → P.linearize T fs = .ok (fs', s) → Q fs' := fun T fs fs' s hq hl => (hgood T fs fs' s hq hl).2
  have hsolved : ∃ H b, Solved P Q it H b := by
    rcases h with ⟨st, h1, h2, h⟩ | ⟨lambda, m, h1, h⟩
    · obtain ⟨r0, rfl, hl⟩ := lm_unfold h
      exact (lmLoop_steps hQ h2 h1 hl hinit).1 it hit
    · obtain ⟨r0, rfl, hl⟩ := gn_unfold h
      exact (gnLoop_steps hQ h1 hl hinit).1 it hit
  obtain ⟨H, b, fs0, s, hq, hlin, hsys, hstep⟩ := hsolved
  obtain ⟨hgs, _⟩ := hgood _ _ _ _ hq hlin
  obtain ⟨hpsd, hb⟩ := general_system hg it.T0 s hgs.hess
  have hsys' : g.updateLinearized it.T0 s = (H, b, it.e0) := hsys
  rw [hsys'] at hpsd hb
  obtain ⟨lam, hlam, hdel⟩ := hstep d hd
  have heq : (H + lam • (1 : Matrix (Fin 6) (Fin 6) ℝ)) *ᵥ d = -b := by
    rw [hdel]
    exact hs _ (damped_symm hpsd lam) (damped_pos hpsd hlam) (-b)
  obtain ⟨hle, hlt⟩ := damped_descent hpsd hlam b d heq
  obtain ⟨Hs, bs, es⟩ := s
  have hbs : bs = b := (Prod.mk.inj hb).1.symm
  subst hbs
  refine ⟨bs ⬝ᵥ d, C73_gradient_partial hk hpf hn rej it.T0 fs0 it.factors hq.2 (fun i hi => hp i (by rw [← hq.1]; exact hi)) Hs bs es hlin d, hle,
    fun hd0 => hlt fun hb0 => hd0 ?_⟩
  subst hb0
  by_contra hne
  have := damped_pos hpsd hlam d hne
  rw [heq, neg_zero, dotProduct_zero] at this
  exact lt_irrefl _ this

/-- C73, acceptance with Huber. An accepted step of Levenberg-Marquardt leaves the loss at most twice as large as before. -/
theorem C73_huber_accepted {c : ℝ} (hc : 0 < c) (sc : Scene ℝ) (hn : SearchIndices sc) {pf : PointFactor F ℝ} {Inv : F → Prop} (hpf : Plain sc pf Inv) (n : Nat)
    (rej : Rejector ℝ) (g : General ℝ) (hg : g = nullFactor ∨ ∃ f : RestrictDoF ℝ, g = f.general) (solve : Matrix (Fin 6) (Fin 6) ℝ → (Fin 6 → ℝ) → (Fin 6 → ℝ))
    (conv : (Fin 6 → ℝ) → Bool) (T0 : Pose ℝ) (st : LMSetting ℝ) :
    ∃ r fs' log, alignLM (robustFactor (huberWeight c) Real.sqrt pf) (registrationProblem (robustFactor (huberWeight c) Real.sqrt pf) sc rej g solve se3Exp conv) st T0 n = .ok (r, fs', log) ∧
      ∀ it ∈ log, totalLoss (huberLoss c) (plainErrors pf sc it.factors it.T1) ≤ 2 * totalLoss (huberLoss c) (plainErrors pf sc it.factors it.T0) := by
  have hw : LossOf (huberWeight c) (huberLoss c) := .huber c hc
  have hship : Shipped (robustFactor (huberWeight c) Real.sqrt pf) := .robust _ _ hpf.shipped
  obtain ⟨r, fs', log, hrun, _, _, hdesc, _⟩ := C38_registration_partial hship sc hn rej g hg solve se3Exp conv st T0 n
  refine ⟨r, fs', log, hrun, fun it hit => ?_⟩
  have hsound : ∀ T, SoundAt (robustFactor (huberWeight c) Real.sqrt pf) sc rej T Inv := fun T =>
    C33_robust _ Real.sqrt (fun x => ((kernel_of hw).range x).1.le) pf sc rej T Inv (hpf.sound rej T)
  obtain ⟨r0, -, hl⟩ := lm_unfold hrun
  obtain ⟨_, fs0, s, hq, hlin, _⟩ := (lmLoop_keep (Q := fun fs => ∀ f ∈ fs, Inv f) (fun T fs fs' s hq hlin =>
    (C33_accumulated (hsound T) fs fs' hq s.1 s.2.1 s.2.2 hlin).2) hl (fun f hf => by rw [List.eq_of_mem_replicate hf]; exact (hsound T0).init)).2 it hit
  have hpos : ∀ f ∈ it.factors, ∀ T', 0 ≤ pf.error sc T' f := by
    intro f hf T'
    have hlin' : serialLinearize ((robustFactor (huberWeight c) Real.sqrt pf).linearize sc rej it.T0) fs0 = .ok (it.factors, s) := hlin
    rw [serial_ok] at hlin'
    simp only [Except.ok.injEq, reduceSpec, Prod.mk.injEq] at hlin'
    rw [← hlin'.1, List.mem_mapIdx] at hf
    obtain ⟨i, hi, rfl⟩ := hf
    rw [robust_fst]
    exact error_nonneg hpf rej it.T0 i _ (hq _ (List.getElem_mem hi)) hn T'
  obtain ⟨e0, e1, h0, h1, hle⟩ := hdesc it hit
  rw [serialError_ok] at h0 h1
  simp only [Except.ok.injEq] at h0 h1
  have bound : ∀ (l : List F) (T : Pose ℝ), (∀ f ∈ l, ∀ T', 0 ≤ pf.error sc T' f) →
      errorSpec ((robustFactor (huberWeight c) Real.sqrt pf).error sc T) l ≤ totalLoss (huberLoss c) (plainErrors pf sc l T) ∧
      totalLoss (huberLoss c) (plainErrors pf sc l T) ≤ 2 * errorSpec ((robustFactor (huberWeight c) Real.sqrt pf).error sc T) l := by
    intro l T
    induction l with
    | nil => intro _; simp [errorSpec, totalLoss, plainErrors]
    | cons f l ih =>
      intro hl
      obtain ⟨a, b⟩ := ih (fun g hg => hl g (by simp [hg]))
      obtain ⟨⟨a', b'⟩, _⟩ := C73_scale hc (hl f (by simp) T)
      simp only [errorSpec, totalLoss, plainErrors, List.map_cons, List.sum_cons, robustFactor, robustError] at a b ⊢
      constructor <;> linarith
  have b0 := (bound it.factors it.T0 hpos).1
  have b1 := (bound it.factors it.T1 hpos).2
  rw [h0] at b0
  rw [h1] at b1
  linarith

end System

/-! ### the evaluated error is not what the steps descend -/

section Stuck

/-- Two source points on the x axis, at 0 and 10; the nearest target points are at -1 and 11.5. -/
noncomputable def sceneStuck : Scene ℝ where
  srcPoint := fun i => if i = 0 then ![0, 0, 0, 1] else ![10, 0, 0, 1]
  tgtPoint := fun k => if k = 0 then ![-1, 0, 0, 1] else ![23 / 2, 0, 0, 1]
  tgtNormal := fun _ => ![0, 0, 1, 0]
  srcCov := fun _ => diagonal ![1, 1, 1, 0]
  tgtCov := fun _ => diagonal ![1, 1, 1, 0]
  nn := fun q => if q 0 < 21 / 4 then some (0, (q 0 + 1) ^ 2 + q 1 ^ 2 + q 2 ^ 2) else some (1, (q 0 - 23 / 2) ^ 2 + q 1 ^ 2 + q 2 ^ 2)

theorem stuck_indices : SearchIndices sceneStuck := by
  intro q k d h
  simp only [sceneStuck] at h
  split at h <;> (simp only [Option.some.injEq, Prod.mk.injEq] at h; rw [← h.1]; decide)

/-- ICP with the Cauchy kernel of width 1. -/
noncomputable def cauchyICP : PointFactor ICP ℝ := robustFactor (cauchyWeight 1) Real.sqrt icpFactor

theorem cauchy_one {e : ℝ} (he : 0 ≤ e) : cauchyWeight 1 (Real.sqrt e) = 1 / (1 + e) := cauchy_weight_sqrt 1 he

noncomputable def stuckH : Matrix (Fin 6) (Fin 6) ℝ :=
  !![0, 0, 0, 0, 0, 0; 0, 800 / 17, 0, 0, 0, -80 / 17; 0, 0, 800 / 17, 0, 80 / 17, 0; 0, 0, 0, 58 / 51, 0, 0; 0, 0, 80 / 17, 0, 58 / 51, 0; 0, -80 / 17, 0, 0, 0, 58 / 51]

theorem stuck_linearize (fs : List ICP) (h : fs.length = 2) :
    serialLinearize (cauchyICP.linearize sceneStuck nullRejector ⟨1, 0⟩) fs = .ok ([⟨0, 0⟩, ⟨1, 1⟩], (stuckH, ![0, 0, 0, -2 / 51, 0, 0], 44 / 51)) := by
  obtain ⟨f0, f1, rfl⟩ := List.length_eq_two.1 h
  rw [serial_ok]
  have hT : ∀ p : Fin 4 → ℝ, Pose.apply ⟨1, 0⟩ p = p := by
    intro p
    funext i
    fin_cases i <;> simp [Pose.apply, Pose.matrix, mulVec, dotProduct, Fin.sum_univ_four]
  have hc0 : correspondence sceneStuck nullRejector ⟨1, 0⟩ 0 = some 0 := by
    simp [correspondence, hT, sceneStuck, nullRejector]
  have hc1 : correspondence sceneStuck nullRejector ⟨1, 0⟩ 1 = some 1 := by
    simp [correspondence, hT, sceneStuck, nullRejector]
    norm_num
  have h0 : sceneStuck.tgtPoint 0 - sceneStuck.srcPoint 0 = ![-1, 0, 0, 0] := by
    funext i; fin_cases i <;> simp [sceneStuck]
  have h1 : sceneStuck.tgtPoint 1 - sceneStuck.srcPoint 1 = ![3 / 2, 0, 0, 0] := by
    funext i; fin_cases i <;> simp [sceneStuck]; norm_num
  have hJ0 : blocks ((1 : Matrix (Fin 3) (Fin 3) ℝ) * skew (head3 (sceneStuck.srcPoint 0))) (-1) =
      !![0, 0, 0, -1, 0, 0; 0, 0, 0, 0, -1, 0; 0, 0, 0, 0, 0, -1; 0, 0, 0, 0, 0, 0] := by
    ext i j
    fin_cases i <;> fin_cases j <;> simp [blocks, skew, head3, sceneStuck, Matrix.one_apply]
  have hJ1 : blocks ((1 : Matrix (Fin 3) (Fin 3) ℝ) * skew (head3 (sceneStuck.srcPoint 1))) (-1) =
      !![0, 0, 0, -1, 0, 0; 0, 0, -10, 0, -1, 0; 0, 10, 0, 0, 0, -1; 0, 0, 0, 0, 0, 0] := by
    ext i j
    fin_cases i <;> fin_cases j <;> simp [blocks, skew, head3, sceneStuck, Matrix.one_apply]
  have he0 : (1 / 2 : ℝ) * ((![-1, 0, 0, 0] : Fin 4 → ℝ) ⬝ᵥ ![-1, 0, 0, 0]) = 1 / 2 := by
    simp [dotProduct, Fin.sum_univ_four]
  have he1 : (1 / 2 : ℝ) * ((![3 / 2, 0, 0, 0] : Fin 4 → ℝ) ⬝ᵥ ![3 / 2, 0, 0, 0]) = 9 / 8 := by
    simp [dotProduct, Fin.sum_univ_four]; norm_num
  simp only [reduceSpec, List.mapIdx_cons, List.mapIdx_nil, cauchyICP, robustFactor, robustLinearize, icpFactor, ICP.linearize, zero_add, hc0, hc1, List.sum_cons, List.sum_nil,
    Option.getD_some, add_zero, hT, h0, h1, hJ0, hJ1, he0, he1, cauchy_one (show (0 : ℝ) ≤ 1 / 2 by norm_num), cauchy_one (show (0 : ℝ) ≤ 9 / 8 by norm_num)]
  congr 2
  refine Prod.ext ?_ (Prod.ext ?_ ?_)
  · ext i j
    fin_cases i <;> fin_cases j <;> simp [stuckH, Matrix.mul_apply, Fin.sum_univ_four] <;> norm_num
  · funext i
    fin_cases i <;> simp [mulVec, dotProduct, Fin.sum_univ_four] <;> norm_num
  · simp; norm_num

theorem stuck_delta (solve : Matrix (Fin 6) (Fin 6) ℝ → (Fin 6 → ℝ) → (Fin 6 → ℝ)) (hs : SolveContract solve) (lam : ℝ) (hlam : 0 < lam) :
    solve (stuckH + lam • (1 : Matrix (Fin 6) (Fin 6) ℝ)) (-![0, 0, 0, -2 / 51, 0, 0]) = ![0, 0, 0, 2 / 51 / (58 / 51 + lam), 0, 0] := by
  have hlin := stuck_linearize (List.replicate 2 ICP.init) rfl
  have hsound : SoundAt cauchyICP sceneStuck nullRejector ⟨1, 0⟩ (fun _ => True) :=
    C33_robust _ Real.sqrt (fun x => ((C36_cauchy (1 : ℝ) one_pos).range x).1.le) icpFactor sceneStuck nullRejector _ _ (C33_icp _ _ _)
  have hpsd : SymPSD stuckH := (C33_accumulated hsound _ _ (fun _ _ => trivial) _ _ _ hlin).1.hess
  have h1 := hs _ (damped_symm hpsd lam) (damped_pos hpsd hlam) (-![0, 0, 0, -2 / 51, 0, 0])
  refine (posdef_exists_unique (damped_pos hpsd hlam) _).unique h1 ?_
  funext i
  fin_cases i <;> simp [stuckH, mulVec, dotProduct, Fin.sum_univ_succ, Matrix.one_apply] <;> field_simp

/-- The evaluated error at a translation along x. -/
noncomputable def stuckError (t : ℝ) : ℝ := 1 / (1 + 1 / 2 * (1 + t) ^ 2) * (1 / 2 * (1 + t) ^ 2) + 1 / (1 + 1 / 2 * (3 / 2 - t) ^ 2) * (1 / 2 * (3 / 2 - t) ^ 2)

theorem stuck_error (t : ℝ) : serialError (cauchyICP.error sceneStuck ⟨1, ![t, 0, 0]⟩) [⟨0, 0⟩, ⟨1, 1⟩] = .ok (stuckError t) := by
  rw [serialError_ok]
  have h0 : sceneStuck.tgtPoint 0 - Pose.apply ⟨1, ![t, 0, 0]⟩ (sceneStuck.srcPoint 0) = ![-(1 + t), 0, 0, 0] := by
    funext i
    fin_cases i <;> simp [sceneStuck, Pose.apply, Pose.matrix, mulVec, dotProduct, Fin.sum_univ_four]
    ring
  have h1 : sceneStuck.tgtPoint 1 - Pose.apply ⟨1, ![t, 0, 0]⟩ (sceneStuck.srcPoint 1) = ![3 / 2 - t, 0, 0, 0] := by
    funext i
    fin_cases i <;> simp [sceneStuck, Pose.apply, Pose.matrix, mulVec, dotProduct, Fin.sum_univ_four]
    ring
  have he0 : (1 / 2 : ℝ) * ((![-(1 + t), 0, 0, 0] : Fin 4 → ℝ) ⬝ᵥ ![-(1 + t), 0, 0, 0]) = 1 / 2 * (1 + t) ^ 2 := by
    simp [dotProduct, Fin.sum_univ_four]; ring
  have he1 : (1 / 2 : ℝ) * ((![3 / 2 - t, 0, 0, 0] : Fin 4 → ℝ) ⬝ᵥ ![3 / 2 - t, 0, 0, 0]) = 1 / 2 * (3 / 2 - t) ^ 2 := by
    simp [dotProduct, Fin.sum_univ_four]; ring
  simp only [errorSpec, List.map_cons, List.map_nil, List.sum_cons, List.sum_nil, add_zero, cauchyICP, robustFactor, robustError, icpFactor, ICP.error]
  rw [if_neg (by decide), if_neg (by decide), h0, h1, he0, he1, cauchy_one (by positivity), cauchy_one (by positivity)]
  rfl

/-- Every trial step raises the evaluated error. -/
theorem stuck_rises {t : ℝ} (h0 : 0 < t) (h1 : t ≤ 1 / 29) : 44 / 51 < stuckError t := by
  unfold stuckError
  have e0 : 1 / (1 + 1 / 2 * (1 + t) ^ 2) * (1 / 2 * (1 + t) ^ 2) = 1 - 1 / (1 + 1 / 2 * (1 + t) ^ 2) := by
    field_simp
    ring
  have e1 : 1 / (1 + 1 / 2 * (3 / 2 - t) ^ 2) * (1 / 2 * (3 / 2 - t) ^ 2) = 1 - 1 / (1 + 1 / 2 * (3 / 2 - t) ^ 2) := by
    field_simp
    ring
  rw [e0, e1]
  have : 1 / (1 + 1 / 2 * (1 + t) ^ 2) + 1 / (1 + 1 / 2 * (3 / 2 - t) ^ 2) < 58 / 51 := by
    rw [div_add_div _ _ (by positivity) (by positivity), div_lt_div_iff₀ (by positivity) (by norm_num)]
    nlinarith [mul_pos h0 h0, mul_pos (mul_pos h0 h0) h0, mul_nonneg (mul_pos h0 h0).le (sub_nonneg.2 h1), mul_nonneg h0.le (sub_nonneg.2 h1)]
  linarith

theorem stuck_slope : HasDerivAt stuckError (292 / 2601) 0 := by
  have e0 : HasDerivAt (fun t : ℝ => 1 / 2 * (1 + t) ^ 2) 1 0 := by
    have := (((hasDerivAt_id (0 : ℝ)).const_add 1).pow 2).const_mul (1 / 2)
    refine this.congr_deriv ?_
    simp
  have e1 : HasDerivAt (fun t : ℝ => 1 / 2 * (3 / 2 - t) ^ 2) (-(3 / 2)) 0 := by
    have := (((hasDerivAt_id (0 : ℝ)).const_sub (3 / 2)).pow 2).const_mul (1 / 2)
    refine this.congr_deriv ?_
    simp
  have f0 := ((e0.const_add 1).inv (by norm_num)).mul e0
  have f1 := ((e1.const_add 1).inv (by norm_num)).mul e1
  have := f0.add f1
  refine (this.congr_deriv ?_).congr_of_eventuallyEq (Filter.Eventually.of_forall fun t => ?_)
  · simp; norm_num
  · simp [stuckError]

/-- The claim that the steps of a robust registration descend the error that the optimiser evaluates fails. For every contract-abiding solver and all
settings, Levenberg-Marquardt on `sceneStuck` rejects every trial step and stops at the initial guess without convergence, though the
gradient `b` is not zero. Along the direction of all trial steps the loss falls at the rate 2/51 while the evaluated error rises at the rate 292/2601:
neither of the two is stationary. The cause is robust_kernel.hpp:97, which takes `w(sqrt(e)) e` for the loss. -/
theorem C73_violated (solve : Matrix (Fin 6) (Fin 6) ℝ → (Fin 6 → ℝ) → (Fin 6 → ℝ)) (hs : SolveContract solve) (conv : (Fin 6 → ℝ) → Bool) (st : LMSetting ℝ)
    (hi : 0 < st.maxIterations) (hl : 0 < st.initLambda) (hf : 0 < st.lambdaFactor) :
    ∃ (r : Result ℝ) (fs' : List ICP) (it : Iteration ICP ℝ) (err : Pose ℝ → ℝ),
      alignLM cauchyICP (registrationProblem cauchyICP sceneStuck nullRejector nullFactor solve se3Exp conv) st ⟨1, 0⟩ 2 = .ok (r, fs', [it]) ∧
      r.T = ⟨1, 0⟩ ∧ r.converged = false ∧ it.step = none ∧ it.evals = st.maxInner.toNat ∧ r.b = ![0, 0, 0, -2 / 51, 0, 0] ∧
      (∀ T, serialError (cauchyICP.error sceneStuck T) it.factors = .ok (err T)) ∧
      HasDerivAt (fun s : ℝ => totalLoss (cauchyLoss 1) (plainErrors icpFactor sceneStuck it.factors ((⟨1, 0⟩ : Pose ℝ).mul (se3Exp (s • ![0, 0, 0, 1, 0, 0]))))) (-2 / 51) 0 ∧
      HasDerivAt (fun s : ℝ => err ((⟨1, 0⟩ : Pose ℝ).mul (se3Exp (s • ![0, 0, 0, 1, 0, 0])))) (292 / 2601) 0 := by
  have hlin := stuck_linearize (List.replicate 2 ICP.init) rfl
  have hshift : ∀ t : ℝ, Pose.mul ⟨1, 0⟩ (se3Exp ![0, 0, 0, t, 0, 0]) = ⟨1, ![t, 0, 0]⟩ := by
    intro t
    rw [se3_translation _ (by funext i; fin_cases i <;> simp [rot])]
    simp only [Pose.mul, Pose.mk.injEq, one_mulVec, mul_one, true_and]
    funext i
    fin_cases i <;> simp [tra]
  have hsmul : ∀ t : ℝ, t • (![0, 0, 0, 1, 0, 0] : Fin 6 → ℝ) = ![0, 0, 0, t, 0, 0] := by
    intro t; funext i; fin_cases i <;> simp
  have hdelta := fun lam (hlam : 0 < lam) => stuck_delta solve hs lam hlam
  have hin : ∀ (fuel : Nat) (lam : ℝ), 0 < lam → ∃ lam', lmInner (registrationProblem cauchyICP sceneStuck nullRejector nullFactor solve se3Exp conv) st.lambdaFactor ⟨1, 0⟩
      [⟨0, 0⟩, ⟨1, 1⟩] stuckH ![0, 0, 0, -2 / 51, 0, 0] fuel lam (44 / 51) = .ok ⟨lam', 44 / 51, fuel, none⟩ := by
    intro fuel
    induction fuel with
    | zero => intro lam _; exact ⟨lam, rfl⟩
    | succ fuel ih =>
      intro lam hlam
      obtain ⟨lam', h⟩ := ih (lam * st.lambdaFactor) (mul_pos hlam hf)
      refine ⟨lam', ?_⟩
      unfold lmInner
      have hpos : 0 < 2 / 51 / (58 / 51 + lam) := by positivity
      have hsmall : 2 / 51 / (58 / 51 + lam) ≤ 1 / 29 := by
        rw [div_le_div_iff₀ (by positivity) (by norm_num)]
        nlinarith
      have hrise := stuck_rises hpos hsmall
      simp only [Problem.delta, registrationProblem, hdelta lam hlam, hshift, stuck_error, ok_bind, nullFactor]
      rw [if_neg (not_le.2 hrise)]
      simp only [registrationProblem, nullFactor] at h
      rw [h, ok_bind]
  obtain ⟨lam', hinner⟩ := hin st.maxInner.toNat st.initLambda hl
  obtain ⟨fuel, hfuel⟩ : ∃ fuel, st.maxIterations.toNat = fuel + 1 := ⟨st.maxIterations.toNat - 1, by omega⟩
  refine ⟨⟨⟨1, 0⟩, false, 0, 2, stuckH, ![0, 0, 0, -2 / 51, 0, 0], 44 / 51⟩, [⟨0, 0⟩, ⟨1, 1⟩], ⟨⟨1, 0⟩, [⟨0, 0⟩, ⟨1, 1⟩], 44 / 51, st.maxInner.toNat, none, ⟨1, 0⟩, 44 / 51⟩,
    fun T => errorSpec (cauchyICP.error sceneStuck T) [⟨0, 0⟩, ⟨1, 1⟩], ?_, rfl, rfl, rfl, rfl, rfl, fun T => serialError_ok _ _, ?_, ?_⟩
  · unfold alignLM levenbergMarquardt
    rw [hfuel]
    unfold lmLoop
    have hlin' : (registrationProblem cauchyICP sceneStuck nullRejector nullFactor solve se3Exp conv).linearize (Result.init ⟨1, 0⟩).T (List.replicate 2 cauchyICP.init) =
      .ok ([⟨0, 0⟩, ⟨1, 1⟩], (stuckH, ![0, 0, 0, -2 / 51, 0, 0], 44 / 51)) := hlin
    rw [if_neg (by simp [Result.init]), hlin', ok_bind]
    have hin' : lmInner (registrationProblem cauchyICP sceneStuck nullRejector nullFactor solve se3Exp conv) st.lambdaFactor (Result.init (⟨1, 0⟩ : Pose ℝ)).T
      [⟨0, 0⟩, ⟨1, 1⟩] stuckH ![0, 0, 0, -2 / 51, 0, 0] st.maxInner.toNat st.initLambda (44 / 51) = .ok ⟨lam', 44 / 51, st.maxInner.toNat, none⟩ := hinner
    show ((lmInner (registrationProblem cauchyICP sceneStuck nullRejector nullFactor solve se3Exp conv) st.lambdaFactor (Result.init (⟨1, 0⟩ : Pose ℝ)).T
      [⟨0, 0⟩, ⟨1, 1⟩] stuckH ![0, 0, 0, -2 / 51, 0, 0] st.maxInner.toNat st.initLambda (44 / 51) >>= _) >>= _) = _
    rw [hin']
    rfl
  · have h := C73_gradient_partial (.cauchy 1 one_pos) (Plain.icp (sc := sceneStuck)) stuck_indices nullRejector ⟨1, 0⟩ _ _ (fun _ _ => trivial)
      (fun i hi => by unfold sceneStuck; simp only; split <;> rfl) _ _ _ hlin ![0, 0, 0, 1, 0, 0]
    refine h.congr_deriv ?_
    simp [dotProduct, Fin.sum_univ_succ]
  · have he : ∀ s : ℝ, errorSpec (cauchyICP.error sceneStuck ((⟨1, 0⟩ : Pose ℝ).mul (se3Exp (s • ![0, 0, 0, 1, 0, 0])))) [⟨0, 0⟩, ⟨1, 1⟩] = stuckError s := by
      intro s
      have := stuck_error s
      rw [serialError_ok] at this
      rw [hsmul, hshift]
      exact Except.ok.inj this
    simp only [he]
    exact stuck_slope

/-- One Gauss-Newton iteration on `sceneStuck` meets the hypotheses of `C73_descent_partial` and `C73_gradient_partial` with a step that is not zero. -/
example : ∃ solve, SolveContract solve ∧ ∃ r fs' log, alignGN cauchyICP (registrationProblem cauchyICP sceneStuck nullRejector nullFactor solve se3Exp (fun _ => false)) 1 1 ⟨1, 0⟩ 2 =
      .ok (r, fs', log) ∧ ∃ it ∈ log, ∃ d, it.step = some d ∧ d ≠ 0 ∧
    ∃ slope : ℝ, HasDerivAt (fun s : ℝ => totalLoss (cauchyLoss 1) (plainErrors icpFactor sceneStuck it.factors (it.T0.mul (se3Exp (s • d))))) slope 0 ∧ slope < 0 := by
  obtain ⟨solve, hs⟩ := solver_exists
  have hlin : (registrationProblem cauchyICP sceneStuck nullRejector nullFactor solve se3Exp (fun _ => false)).linearize (Result.init ⟨1, 0⟩).T (List.replicate 2 cauchyICP.init) =
      .ok ([⟨0, 0⟩, ⟨1, 1⟩], (stuckH, ![0, 0, 0, -2 / 51, 0, 0], 44 / 51)) := stuck_linearize (List.replicate 2 ICP.init) rfl
  have hrun := gnLoop_step (fuel := 0) (i := 0) (lambda := 1) rfl hlin rfl rfl
  have hd : (registrationProblem cauchyICP sceneStuck nullRejector nullFactor solve se3Exp (fun _ => false)).delta 1 stuckH ![0, 0, 0, -2 / 51, 0, 0] ≠ 0 := by
    have h1 := stuck_delta solve hs 1 one_pos
    show solve _ _ ≠ 0
    rw [h1]
    intro h
    have := congrFun h 3
    simp at this
    norm_num at this
  have key : ∀ x, gnLoop (registrationProblem cauchyICP sceneStuck nullRejector nullFactor solve se3Exp (fun _ => false)) 1 (0 + 1) 0 (Result.init ⟨1, 0⟩) (List.replicate 2 cauchyICP.init) =
      .ok x → alignGN cauchyICP (registrationProblem cauchyICP sceneStuck nullRejector nullFactor solve se3Exp (fun _ => false)) 1 1 ⟨1, 0⟩ 2 =
      .ok (countInliers (registrationProblem cauchyICP sceneStuck nullRejector nullFactor solve se3Exp (fun _ => false)) x.1 x.2.1, x.2.1, x.2.2) := by
    intro x h
    unfold alignGN gaussNewton
    rw [show Int.toNat 1 = 0 + 1 from rfl, h]
    rfl
  have hali := key _ hrun
  refine ⟨solve, hs, _, _, _, hali, _, List.mem_singleton.2 rfl, _, rfl, hd, ?_⟩
  obtain ⟨slope, h1, _, h3⟩ := C73_descent_partial (.cauchy 1 one_pos) sceneStuck stuck_indices Plain.icp 2
    (fun i hi => by unfold sceneStuck; simp only; split <;> rfl) nullRejector nullFactor .null solve hs (fun _ => false) ⟨1, 0⟩ _ _ _
    (.inr ⟨1, 1, one_pos, hali⟩) _ (List.mem_singleton.2 rfl) _ rfl
  exact ⟨slope, h1, h3 hd⟩

/-- Huber's loss beyond the width: at `e = 4`, width 1, the weight is 1/2 and the loss 3, between the evaluated error 2 and twice that. -/
example : huberLoss 1 4 = 3 ∧ huberWeight 1 (Real.sqrt 4) * 4 = 2 := by
  have h : Real.sqrt 4 = 2 := by rw [show (4 : ℝ) = 2 ^ 2 by norm_num]; exact Real.sqrt_sq (by norm_num)
  constructor
  · rw [huberLoss, if_neg (by norm_num), h]; norm_num
  · rw [huberWeight, h, if_neg (by norm_num)]; norm_num

end Stuck

end Verif.Props
