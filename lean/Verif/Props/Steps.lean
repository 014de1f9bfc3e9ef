import Verif.Spec.Steps
import Verif.Proofs.Steps
import Verif.Props.Lie
import Verif.Props.Registration

/-!
C60: every step of the optimisers is the Levenberg-Marquardt step of the system linearised in that iteration, a descent direction of the
registration error, and the reported system is that of the last iteration.
-/

set_option linter.unusedSectionVars false

namespace Verif.Props

open Matrix Verif Verif.Proofs Verif.Factors Verif.Reduction Verif.Optimizer Verif.Spec Verif.Lie

section Steps

variable {K : Type} [Field K] [LinearOrder K] [IsStrictOrderedRing K] {F : Type}

/-- The solution of the damped equations is the only minimiser of the damped model. -/
theorem damped_minimiser {H : Matrix (Fin 6) (Fin 6) K} (hH : SymPSD H) {lam : K} (hl : 0 < lam) {b d : Fin 6 → K}
    (hd : (H + lam • (1 : Matrix (Fin 6) (Fin 6) K)) *ᵥ d = -b) : MinimisesModel H b lam d := by
  intro x hx
  have h1 := damped_pos hH hl (x - d) (sub_ne_zero.2 hx)
  have hb : b = -(H *ᵥ d) - lam • d := by
    rw [add_mulVec, smul_mulVec, one_mulVec] at hd
    rw [← neg_neg b, ← hd, neg_add, sub_eq_add_neg]
  have hsym : d ⬝ᵥ H *ᵥ x = x ⬝ᵥ H *ᵥ d := by
    rw [dotProduct_comm, ← hH.1, mulVec_transpose, ← dotProduct_mulVec, hH.1]
  have hsym2 : d ⬝ᵥ x = x ⬝ᵥ d := dotProduct_comm _ _
  unfold dampedModel
  rw [hb]
  simp only [add_mulVec, smul_mulVec, one_mulVec, mulVec_sub, dotProduct_add, dotProduct_sub, sub_dotProduct, dotProduct_smul, smul_dotProduct, neg_dotProduct, smul_eq_mul, hsym, hsym2] at h1 ⊢
  have e1 : (H *ᵥ d) ⬝ᵥ x = x ⬝ᵥ H *ᵥ d := dotProduct_comm _ _
  have e2 : (H *ᵥ d) ⬝ᵥ d = d ⬝ᵥ H *ᵥ d := dotProduct_comm _ _
  rw [e1, e2]
  linarith

/-- C60. In a run of either optimiser with positive damping, on any problem whose systems are symmetric positive semi-definite: the step of
every iteration is the only minimiser of the damped quadratic model of the system linearised at the pose of that iteration, it
does not point uphill, and it points strictly downhill unless the gradient is zero. The reported `H` and `b` are those of the last
iteration. -/
theorem C60_steps (P : Problem F K) (hs : SolveContract P.solve) (Q : List F → Prop) (hQ : ∀ T fs fs' s, Q fs → P.linearize T fs = .ok (fs', s) → Q fs')
    (hH : ∀ T fs fs' s, Q fs → P.linearize T fs = .ok (fs', s) → SymPSD (P.general.updateLinearized T s).1) (T0 : Pose K) (fs fs' : List F) (hfs : Q fs) (r : Result K)
    (log : List (Iteration F K))
    (h : (∃ st, 0 < st.initLambda ∧ 0 < st.lambdaFactor ∧ levenbergMarquardt P st T0 fs = .ok (r, fs', log)) ∨
      ∃ lambda n, 0 < lambda ∧ gaussNewton P lambda n T0 fs = .ok (r, fs', log)) :
    (∀ it ∈ log, ∃ fs0 s H b, P.linearize it.T0 fs0 = .ok (it.factors, s) ∧ P.general.updateLinearized it.T0 s = (H, b, it.e0) ∧ SymPSD H ∧
      (log.getLast? = some it → r.H = H ∧ r.b = b) ∧
      ∀ d, it.step = some d → (∃ lam, 0 < lam ∧ MinimisesModel H b lam d) ∧ b ⬝ᵥ d ≤ 0 ∧ (b ≠ 0 → b ⬝ᵥ d < 0)) ∧
    (log = [] → r.H = 0 ∧ r.b = 0) := by
  have hlog : (∀ it ∈ log, ∃ H b, Solved P Q it H b) ∧ (∀ it, log.getLast? = some it → Solved P Q it r.H r.b) ∧ (log = [] → r.H = 0 ∧ r.b = 0) := by
    rcases h with ⟨st, h1, h2, h⟩ | ⟨lambda, n, h1, h⟩
    · obtain ⟨r0, rfl, hl⟩ := lm_unfold h
      obtain ⟨a, b, c⟩ := lmLoop_steps hQ h2 h1 hl hfs
      exact ⟨a, b, fun he => by rw [c he]; exact ⟨rfl, rfl⟩⟩
    · obtain ⟨r0, rfl, hl⟩ := gn_unfold h
      obtain ⟨a, b, c⟩ := gnLoop_steps hQ h1 hl hfs
      exact ⟨a, b, fun he => by rw [c he]; exact ⟨rfl, rfl⟩⟩
  obtain ⟨hall, hlast, hnil⟩ := hlog
  refine ⟨fun it hit => ?_, hnil⟩
  have key : ∃ H b, Solved P Q it H b ∧ (log.getLast? = some it → r.H = H ∧ r.b = b) := by
    by_cases hl : log.getLast? = some it
    · exact ⟨r.H, r.b, hlast it hl, fun _ => ⟨rfl, rfl⟩⟩
    · obtain ⟨H, b, h⟩ := hall it hit
      exact ⟨H, b, h, fun h => absurd h hl⟩
  obtain ⟨H, b, ⟨fs0, s, hq, hlin, hsys, hstep⟩, hrep⟩ := key
  have hpsd := hH _ _ _ _ hq hlin
  rw [hsys] at hpsd
  refine ⟨fs0, s, H, b, hlin, hsys, hpsd, hrep, fun d hd => ?_⟩
  obtain ⟨lam, hlam, rfl⟩ := hstep d hd
  have heq : (H + lam • (1 : Matrix (Fin 6) (Fin 6) K)) *ᵥ P.delta lam H b = -b := hs _ (damped_symm hpsd lam) (damped_pos hpsd hlam) (-b)
  exact ⟨⟨lam, hlam, damped_minimiser hpsd hlam heq⟩, damped_descent hpsd hlam b _ heq⟩

end Steps

section Descent

variable {F : Type}

theorem general_system {g : General ℝ} (hg : ShippedGeneral g) (T : Pose ℝ) (s : Sys ℝ) (h : SymPSD s.1) :
    SymPSD (g.updateLinearized T s).1 ∧ (g.updateLinearized T s).2 = s.2 := by
  cases hg with
  | null => exact ⟨h, rfl⟩
  | restrict f hf =>
    refine ⟨?_, rfl⟩
    have hd : SymPSD (f.lambda • diagonal (fun i => |f.mask i - 1|) : Matrix (Fin 6) (Fin 6) ℝ) := by
      refine ⟨by rw [transpose_smul, diagonal_transpose], fun x => ?_⟩
      rw [smul_mulVec, dotProduct_smul, smul_eq_mul]
      refine mul_nonneg hf ?_
      simp only [dotProduct, mulVec_diagonal]
      refine Finset.sum_nonneg fun i _ => ?_
      have := mul_nonneg (abs_nonneg (f.mask i - 1)) (mul_self_nonneg (x i))
      nlinarith
    exact h.add hd

/-- The factors without robust kernel, with the invariant of the data they store and what they need of the scene: points with a
fourth coordinate of 1, and for GICP covariances of which the sums that occur are regular. -/
inductive Plain (sc : Scene ℝ) : {F : Type} → PointFactor F ℝ → (F → Prop) → Prop where
  | icp : Plain sc icpFactor (fun _ => True)
  | plane : Plain sc planeFactor (fun _ => True)
  | gicp (inv : Matrix (Fin 3) (Fin 3) ℝ → Matrix (Fin 3) (Fin 3) ℝ) : InverseContract inv → (∀ k, SymPSD (sc.tgtCov k)) → (∀ i, SymPSD (sc.srcCov i)) →
      (∀ q k d, sc.nn q = some (k, d) → ∀ x, x ≠ 0 → 0 < x ⬝ᵥ block33 (sc.tgtCov k) *ᵥ x) → Plain sc (gicpFactor inv) ZeroBorder

theorem Plain.shipped {sc : Scene ℝ} {pf : PointFactor F ℝ} {Inv : F → Prop} (h : Plain sc pf Inv) : Shipped pf := by
  cases h with
  | icp => exact .icp
  | plane => exact .plane
  | gicp inv => exact .gicp inv

/-- The fused covariance of a correspondence is regular. -/
theorem fused_regular {sc : Scene ℝ} (hs : ∀ i, SymPSD (sc.srcCov i))
    (hpd : ∀ q k d, sc.nn q = some (k, d) → ∀ x, x ≠ 0 → 0 < x ⬝ᵥ block33 (sc.tgtCov k) *ᵥ x) (rej : Rejector ℝ) (T : Pose ℝ) (i k : Nat)
    (hcor : correspondence sc rej T i = some k) : ∃ B, fusedCov sc T k i * B = 1 := by
  have hk : ∀ x, x ≠ 0 → 0 < x ⬝ᵥ block33 (sc.tgtCov k) *ᵥ x := by
    unfold correspondence at hcor
    rcases hq : sc.nn (T.apply (sc.srcPoint i)) with _ | ⟨k', d⟩
    · rw [hq] at hcor; cases hcor
    · rw [hq] at hcor
      simp only at hcor
      split at hcor
      · cases hcor
      · simp only [Option.some.injEq] at hcor
        subst hcor
        exact hpd _ _ _ hq
  have hpos : ∀ x, x ≠ 0 → 0 < x ⬝ᵥ fusedCov sc T k i *ᵥ x := by
    intro x hx
    have h1 : fusedCov sc T k i = block33 (sc.tgtCov k) + block33 (T.matrix * sc.srcCov i * T.matrixᵀ) := rfl
    rw [h1, add_mulVec, dotProduct_add]
    have h2 := hk x hx
    have h4 : SymPSD (T.matrix * sc.srcCov i * T.matrixᵀ) := by
      have := (hs i).conj T.matrixᵀ
      rwa [transpose_transpose] at this
    have h3 := h4.block.psd x
    linarith
  have hcol := fun j : Fin 3 => (posdef_exists_unique hpos (Pi.single j 1)).exists
  choose c hc using hcol
  refine ⟨(Matrix.of c)ᵀ, ?_⟩
  ext a b
  have := congrFun (hc b) a
  rw [Matrix.mul_apply]
  simp only [mulVec, dotProduct] at this
  simp only [transpose_apply, of_apply]
  rw [this]
  simp [Matrix.one_apply, Pi.single_apply]

theorem Plain.sound {sc : Scene ℝ} {pf : PointFactor F ℝ} {Inv : F → Prop} (h : Plain sc pf Inv) (rej : Rejector ℝ) (T : Pose ℝ) : SoundAt pf sc rej T Inv := by
  cases h with
  | icp => exact C33_icp sc rej T
  | plane => exact C33_plane sc rej T
  | gicp inv hinv ht hs hpd => exact C33_gicp inv hinv sc rej T ht hs (fun i k hc => fused_regular hs hpd rej T i k hc)

theorem Plain.gradient {sc : Scene ℝ} {pf : PointFactor F ℝ} {Inv : F → Prop} (h : Plain sc pf Inv) (hn : SearchIndices sc) (rej : Rejector ℝ) (T : Pose ℝ) (i : Nat)
    (hp : sc.srcPoint i 3 = 1) (f : F) (hf : Inv f) : GradientAt pf sc rej T i f := by
  cases h with
  | icp => exact C34_icp sc hn rej T i hp f
  | plane => exact C34_plane sc hn rej T i hp f
  | gicp inv hinv ht hs hpd => exact C34_gicp inv hinv sc hn rej T i hp ht (hs i) (fun k hc => fused_regular hs hpd rej T i k hc) f hf

/-- C60 for a registration: in every iteration that applies a step `d`, the registration error for the correspondences of that iteration,
moved along `T * se3_exp(s d)`, has at `s = 0` a derivative that is not positive, and negative unless `d` is zero; and `d` minimises the damped
model of the linearised error. -/
theorem C60_descent (sc : Scene ℝ) (hn : SearchIndices sc) {pf : PointFactor F ℝ} {Inv : F → Prop} (hpf : Plain sc pf Inv) (n : Nat) (hp : ∀ i < n, sc.srcPoint i 3 = 1)
    (rej : Rejector ℝ) (g : General ℝ) (hg : ShippedGeneral g) (solve : Matrix (Fin 6) (Fin 6) ℝ → (Fin 6 → ℝ) → (Fin 6 → ℝ)) (hs : SolveContract solve)
    (conv : (Fin 6 → ℝ) → Bool) (T0 : Pose ℝ) (r : Result ℝ) (fs' : List F) (log : List (Iteration F ℝ))
    (h : (∃ st, 0 < st.initLambda ∧ 0 < st.lambdaFactor ∧ alignLM pf (registrationProblem pf sc rej g solve se3Exp conv) st T0 n = .ok (r, fs', log)) ∨
      ∃ lambda m, 0 < lambda ∧ alignGN pf (registrationProblem pf sc rej g solve se3Exp conv) lambda m T0 n = .ok (r, fs', log))
    (it : Iteration F ℝ) (hit : it ∈ log) (d : Fin 6 → ℝ) (hd : it.step = some d) :
    ∃ (err : Pose ℝ → ℝ) (slope : ℝ), (∀ T, serialError (pf.error sc T) it.factors = .ok (err T)) ∧
      HasDerivAt (fun s : ℝ => err (it.T0.mul (se3Exp (s • d)))) slope 0 ∧ slope ≤ 0 ∧ (d ≠ 0 → slope < 0) := by
  have hgood : ∀ (T : Pose ℝ) (fs fs' : List F) (s : Sys ℝ), (fs.length = n ∧ ∀ f ∈ fs, Inv f) → serialLinearize (pf.linearize sc rej T) fs = .ok (fs', s) →
      GoodSystem s.1 s.2.1 s.2.2 ∧ fs'.length = n ∧ ∀ f ∈ fs', Inv f := by
    rintro T fs fs' ⟨H, b, e⟩ ⟨hl, hfs⟩ hlin
    obtain ⟨h1, h2⟩ := C33_accumulated (hpf.sound rej T) fs fs' hfs H b e hlin
    refine ⟨h1, ?_, h2⟩
    rw [serial_ok] at hlin
    simp only [Except.ok.injEq, reduceSpec, Prod.mk.injEq] at hlin
    rw [← hlin.1]
    simp [hl]
  have hinit : (List.replicate n pf.init).length = n ∧ ∀ f ∈ List.replicate n pf.init, Inv f :=
    ⟨by simp, fun f hf => by rw [List.eq_of_mem_replicate hf]; exact (hpf.sound rej T0).init⟩
  -- the system of this iteration, with its factors
  let P := registrationProblem pf sc rej g solve se3Exp conv
  let Q : List F → Prop := fun fs => fs.length = n ∧ ∀ f ∈ fs, Inv f
  have hQ : ∀ T fs fs' s, Q fs → P.linearize T fs = .ok (fs', s) → Q fs' := fun T fs fs' s hq hl => (hgood T fs fs' s hq hl).2
  have hsolved : ∃ H b, Solved P Q it H b := by
    rcases h with ⟨st, h1, h2, h⟩ | ⟨lambda, m, h1, h⟩
    · obtain ⟨r0, rfl, hl⟩ := lm_unfold h
      exact (lmLoop_steps hQ h2 h1 hl hinit).1 it hit
    · obtain ⟨r0, rfl, hl⟩ := gn_unfold h
      exact (gnLoop_steps hQ h1 hl hinit).1 it hit
  obtain ⟨H, b, fs0, s, hq, hlin, hsys, hstep⟩ := hsolved
  obtain ⟨hgs, _⟩ := hgood _ _ _ _ hq hlin
  obtain ⟨hpsd, hb⟩ := general_system hg it.T0 s hgs.hess
  have hsys' : g.updateLinearized it.T0 s = (H, b, it.e0) := hsys
  rw [hsys'] at hpsd hb
  obtain ⟨lam, hlam, hdel⟩ := hstep d hd
  have heq : (H + lam • (1 : Matrix (Fin 6) (Fin 6) ℝ)) *ᵥ d = -b := by
    rw [hdel]
    exact hs _ (damped_symm hpsd lam) (damped_pos hpsd hlam) (-b)
  obtain ⟨hle, hlt⟩ := damped_descent hpsd hlam b d heq
  obtain ⟨Hs, bs, es⟩ := s
  obtain ⟨err, h1, h2⟩ := C34_reduction hpf.shipped sc hn rej it.T0 fs0 it.factors (fun i f hf => hpf.gradient hn rej it.T0 i
    (hp i (by rw [← hq.1]; exact (List.getElem?_eq_some_iff.1 hf).1)) f (hq.2 f (List.mem_of_getElem? hf))) Hs bs es hlin d
  have hbs : bs = b := (Prod.mk.inj hb).1.symm
  subst hbs
  refine ⟨err, bs ⬝ᵥ d, h1, h2, hle, fun hd0 => hlt fun hb0 => hd0 ?_⟩
  subst hb0
  by_contra hne
  have := damped_pos hpsd hlam d hne
  rw [heq, neg_zero, dotProduct_zero] at this
  exact lt_irrefl _ this

/-- The run of `origin_run` meets the hypotheses of `C60_steps` and `C60_descent`: its iteration applies a step that is not zero, and the error has
a negative slope along it. -/
example : ∃ solve, SolveContract solve ∧ ∃ r fs' log, alignLM icpFactor (registrationProblem icpFactor sceneOrigin (distanceRejector 1) nullFactor solve se3Exp
      (converged 1 (1 / 10))) ⟨1, 10, 1, 10⟩ ⟨1, ![1 / 4, 0, 0]⟩ 1 = .ok (r, fs', log) ∧
    ∃ it ∈ log, ∃ d, it.step = some d ∧ d ≠ 0 ∧ ∃ (err : Pose ℝ → ℝ) (slope : ℝ), (∀ T, serialError (icpFactor.error sceneOrigin T) it.factors = .ok (err T)) ∧
      HasDerivAt (fun s : ℝ => err (it.T0.mul (se3Exp (s • d)))) slope 0 ∧ slope < 0 := by
  obtain ⟨solve, hs⟩ := solver_exists
  have hrun := origin_run solve hs
  have hd : (![0, 0, 0, -1 / 8, 0, 0] : Fin 6 → ℝ) ≠ 0 := fun h => by
    have := congrFun h 3
    simp at this
  refine ⟨solve, hs, _, _, _, hrun, _, List.mem_singleton.2 rfl, _, rfl, hd, ?_⟩
  obtain ⟨err, slope, h1, h2, _, h4⟩ := C60_descent sceneOrigin (by intro q k d h; simp only [sceneOrigin, Option.some.injEq, Prod.mk.injEq] at h; rw [← h.1]; decide) .icp 1 (fun i _ => by simp [sceneOrigin]) (distanceRejector 1)
    nullFactor .null solve hs (converged 1 (1 / 10)) _ _ _ _ (.inl ⟨⟨1, 10, 1, 10⟩, by norm_num, by norm_num, hrun⟩) _ (List.mem_singleton.2 rfl) _ rfl
  exact ⟨err, slope, h1, h2, h4 hd⟩

end Descent

end Verif.Props
