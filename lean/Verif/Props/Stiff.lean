import Verif.Spec.Stiff
import Verif.Props.Descent

/-!
C77: registration with a `RestrictDoFFactor`.
-/

set_option linter.unusedSectionVars false
set_option linter.unusedSimpArgs false
set_option linter.unnecessarySeqFocus false

namespace Verif.Props

open Matrix Verif Verif.Knn Verif.KdTree Verif.Proofs Verif.Proofs.RegMem Verif.Factors Verif.Reduction Verif.Optimizer Verif.PointCloud Verif.RegMem Verif.Spec Verif.Lie
open Verif.Pipeline Verif.Features Verif.Downsample Verif.Helper

theorem stiffness_eq (f : RestrictDoF ℝ) : f.lambda • diagonal (fun i => |f.mask i - 1|) = stiffness f.lambda f.mask := by
  ext i j
  unfold stiffness
  by_cases h : i = j
  · subst h; simp
  · simp [h]

theorem stiffness_psd {lambda : ℝ} (h : 0 ≤ lambda) (mask : Fin 6 → ℝ) : SymPSD (stiffness lambda mask) := by
  have : stiffness lambda mask = diagonal (fun i => lambda * |mask i - 1|) := by
    ext i j
    unfold stiffness
    by_cases h : i = j
    · subst h; simp
    · simp [h]
  rw [this]
  exact diagonal_psd fun i => mul_nonneg h (abs_nonneg _)

/-- The general factor adds `D` to the matrix and nothing to the error. -/
def AddsStiffness (g : General ℝ) (D : Matrix (Fin 6) (Fin 6) ℝ) : Prop :=
  (∀ T s, g.updateLinearized T s = (s.1 + D, s.2)) ∧ ∀ T e, g.updateError T e = e

theorem restrict_adds (f : RestrictDoF ℝ) : AddsStiffness f.general (stiffness f.lambda f.mask) :=
  ⟨fun T s => by rw [← stiffness_eq]; rfl, fun _ _ => rfl⟩

/-! ### the optimiser -/

section Loop

variable {nrm : Nat → Fin 3 → ℝ} {sc : Scene ℝ} {n : Nat} (hsc : Homogeneous sc n) {m : Metric} {F : Type} {pf : PointFactor F ℝ} {Inv : F → Prop} (hm : Measures sc n m pf Inv) {rej : Rejector ℝ}
  {M : (Fin 3 → ℝ) → Option Site → Prop} {g : General ℝ} {D : Matrix (Fin 6) (Fin 6) ℝ} (hg : AddsStiffness g D) (hD : SymPSD D)
  {solve : Matrix (Fin 6) (Fin 6) ℝ → (Fin 6 → ℝ) → (Fin 6 → ℝ)} (hs : SolveContract solve) (re te : ℝ)

include hsc hm hs hg hD in
theorem loop_stiff {factor : ℝ} (hfac : 0 < factor) (inner : Nat) : ∀ (fuel i : Nat) (lam : ℝ) (r r' : Result ℝ) (fs fs' : List F) (log : List (Iteration F ℝ)), 0 < lam →
    (fs.length = n ∧ ∀ f ∈ fs, Inv f) →
    lmLoop (registrationProblem pf sc rej g solve se3Exp (converged re te)) factor inner fuel i lam r fs = .ok (r', fs', log) →
    (∀ it ∈ log, ∀ i < n, M (move it.T0 (head3 (sc.srcPoint i))) ((correspondence sc rej it.T0 i).map (targetSite sc))) →
    StiffRun D m M (sourceSites sc nrm n) inner factor re te fuel i lam { r with numInliers := fs.countP pf.inlier } { r' with numInliers := fs'.countP pf.inlier } := by
  intro fuel
  induction fuel with
  | zero =>
    intro i lam r r' fs fs' log _ _ h _
    cases h
    exact .budget _ _ _
  | succ fuel ih =>
    intro i lam r r' fs fs' log hlam hfs h hM
    rw [lmLoop] at h
    split at h
    · rename_i hc
      cases h
      exact .done _ _ _ _ hc
    · rename_i hc
      have hc : r.converged = false := by simpa using hc
      obtain ⟨⟨fs1, H, b, e⟩, h1, h⟩ := call_of_ok h
      have hMr : ∀ i < n, M (move r.T (head3 (sc.srcPoint i))) ((correspondence sc rej r.T i).map (targetSite sc)) := by
        obtain ⟨o, _, h'⟩ := call_of_ok h
        rcases hacc : o.accepted with _ | ⟨d, newT⟩
        · rw [hacc] at h'
          cases h'
          exact hM _ (List.mem_cons_self ..)
        · rw [hacc] at h'
          obtain ⟨⟨r2, fs2, log2⟩, _, h4⟩ := call_of_ok h'
          cases h4
          exact hM _ (List.mem_cons_self ..)
      obtain ⟨hlin, he, herr, hfs1, hcount⟩ := system_linearised hsc hm r.T hMr fs fs1 hfs H b e h1
      have hup : (registrationProblem pf sc rej g solve se3Exp (converged re te)).general.updateLinearized r.T (H, b, e) = (H + D, b, e) := hg.1 r.T (H, b, e)
      simp only [hup] at h
      obtain ⟨o, h2, h⟩ := call_of_ok h
      have hpsd := hlin.psd.add hD
      have hd : ∀ k : Nat, Damped (H + D) b (lam * factor ^ k) (solve (H + D + (lam * factor ^ k) • (1 : Matrix (Fin 6) (Fin 6) ℝ)) (-b)) := fun k =>
        hs _ (damped_symm hpsd _) (damped_pos hpsd (mul_pos hlam (pow_pos hfac k))) (-b)
      have ht := inner_trials (registrationProblem pf sc rej g solve se3Exp (converged re te)) hg.2 factor r.T fs1 _ herr (H + D) b e _ _ _ h2
      rw [he] at ht
      rcases ht with ⟨a1, a2, a3⟩ | ⟨k, hk, a1, a2, a3, a4, a5⟩
      · rw [a1] at h
        cases h
        have := StiffRun.stuck (rotEps := re) (traEps := te) fuel i lam { r with numInliers := fs.countP pf.inlier } _ H b (fun k => solve (H + D + (lam * factor ^ k) • (1 : Matrix (Fin 6) (Fin 6) ℝ)) (-b)) hc hlin
          (fun k hk => ⟨hd k, a3 k hk⟩)
        simp only [hc, a2, hcount] at this ⊢
        exact this
      · rw [a3] at h
        obtain ⟨⟨r2, fs2, log2⟩, h3, h4⟩ := call_of_ok h
        cases h4
        have hrec := ih _ _ _ _ _ _ _ (by rw [a4]; exact div_pos (mul_pos hlam (pow_pos hfac k)) hfac) hfs1 h3 (fun it hit => hM it (List.mem_cons_of_mem _ hit))
        refine StiffRun.step fuel i lam _ _ _ H b k (fun k => solve (H + D + (lam * factor ^ k) • (1 : Matrix (Fin 6) (Fin 6) ℝ)) (-b)) hc hlin hk (fun j hj => ⟨hd j, a1 j hj⟩) (hd k) a2 ?_
        rw [a4] at hrec
        simp only [hcount, a5, registrationProblem, small_step] at hrec
        exact hrec

include hsc hm hs hg hD in
theorem registration_stiff {st : LMSetting ℝ} (hlam : 0 < st.initLambda) (hfac : 0 < st.lambdaFactor) (T0 : Pose ℝ) (r : Result ℝ) (fs' : List F) (log : List (Iteration F ℝ))
    (h : levenbergMarquardt (registrationProblem pf sc rej g solve se3Exp (converged re te)) st T0 (List.replicate n pf.init) = .ok (r, fs', log))
    (hM : ∀ it ∈ log, ∀ i < n, M (move it.T0 (head3 (sc.srcPoint i))) ((correspondence sc rej it.T0 i).map (targetSite sc))) :
    StiffRun D m M (sourceSites sc nrm n) st.maxInner.toNat st.lambdaFactor re te st.maxIterations.toNat 0 st.initLambda (Result.init T0) r := by
  obtain ⟨r0, rfl, hl⟩ := lm_unfold h
  have hinit : (List.replicate n pf.init).length = n ∧ ∀ f ∈ List.replicate n pf.init, Inv f :=
    ⟨by simp, fun f hf => by rw [List.eq_of_mem_replicate hf]; exact (hm.plain.sound rej T0).init⟩
  have h1 := loop_stiff (nrm := nrm) (M := M) hsc hm hg hD hs re te hfac _ _ _ _ _ _ _ _ _ hlam hinit hl hM
  have h0 : (List.replicate n pf.init).countP pf.inlier = 0 := by
    rw [List.countP_eq_zero]
    intro f hf
    rw [List.eq_of_mem_replicate hf]
    cases hm <;> simp [icpFactor, planeFactor, gicpFactor, ICP.init, ICP.inlier, GICP.init, GICP.inlier]
  rw [h0] at h1
  exact h1

end Loop

/-! ### clouds -/

/-- C77. Registration of two clouds with features on the k-d tree of the target, any of the three factors, a `RestrictDoFFactor` with any mask and weight and every complete execution: it ends without fault, and all fields
of the result are those of the descent with the stiffness of the factor. -/
theorem C77_align {e : Env} (he : EnvMeets e) {m : Metric} {needs : Needs} {F : Type} {mf : MemFactor F ℝ} {pf : PointFactor F ℝ} {Inv : F → Prop} (hmf : MetricFactor e.inv m needs mf pf Inv)
    {outT outS : List (Pt ℝ)} {k : Nat} {ct cs : RCloud} {t : KdTree.Tree ℝ} (execL execE : Pose ℝ → List F → Exec)
    (hL : ∀ T fs, fs.length = cs.size → (execL T fs).Complete cs.size) (hE : ∀ T fs, fs.length = cs.size → (execE T fs).Complete cs.size)
    {gate : ℝ} (hgate : gate < e.maxD) (re te : ℝ) (f : RestrictDoF ℝ) (hf : 0 ≤ f.lambda) {st : LMSetting ℝ} (hlam : 0 < st.initLambda) (hfac : 0 < st.lambdaFactor)
    (hN : outT.length < 2 ^ 32) (hT : LocalFeatures outT e.maxD k ct) (hS : LocalFeatures outS e.maxD k cs)
    (hTw : ∀ p ∈ outT, p.w = 1) (hSw : ∀ p ∈ outS, p.w = 1)
    (ht : outT ≠ [] → TreeOf e.builder outT t) (ht0 : outT = [] → t = ⟨[], [], none⟩) (initT : Pose ℝ) (hn : ¬ (outT = [] ∧ outS ≠ [] ∧ 0 < st.maxIterations)) :
    ∃ out, RegMem.align mf (cloudWorld ct cs (kdNearest e.maxD outT t (outT.length + 1) e.junk)) ⟨distanceRejector gate, f.general, e.solve, se3Exp, converged re te⟩ execL execE (.lm st) initT
        cs.size = .ok out ∧
      StiffRun (stiffness f.lambda f.mask) m (NearestWithin (cloudSites ct) gate) (cloudSites cs) st.maxInner.toNat st.lambdaFactor re te st.maxIterations.toNat 0 st.initLambda (Result.init initT) out.1 := by
  obtain ⟨⟨res, fs', log⟩, sc, h1, h2, hhom, hmeas, hsrc, hrule, _⟩ := clouds_core he hmf execL execE hL hE hgate re te f.general st hN hT hS hTw hSw ht ht0 initT hn
  refine ⟨(res, fs', log), h1, ?_⟩
  rw [← hsrc]
  exact registration_stiff hhom hmeas (restrict_adds f) (stiffness_psd hf _) he.solve re te hlam hfac initT res fs' log h2 (fun it _ => hrule it.T0)

/-! ### what the descent does -/

section Run

variable {D : Matrix (Fin 6) (Fin 6) ℝ} {m : Metric} {M M' : (Fin 3 → ℝ) → Option Site → Prop} {src : List Site} {inner : Nat} {factor re te : ℝ}

/-- C77. Without masked directions it is the plain descent. -/
theorem C77_unmasked {n i : Nat} {lam : ℝ} {r r' : Result ℝ} : StiffRun 0 m M src inner factor re te n i lam r r' ↔ LMRun m M src inner factor re te n i lam r r' := by
  constructor
  · intro h
    induction h with
    | budget i lam r => exact .budget i lam r
    | done n i lam r hc => exact .done n i lam r hc
    | stuck n i lam r p H b d hc hlin hd =>
      simp only [add_zero] at hd ⊢
      exact .stuck n i lam r p H b d hc hlin hd
    | step n i lam r r' p H b k d hc hlin hk hd hdk hle _ ih =>
      simp only [add_zero] at hd hdk ih
      exact .step n i lam r r' p H b k d hc hlin hk hd hdk hle ih
  · intro h
    induction h with
    | budget i lam r => exact .budget i lam r
    | done n i lam r hc => exact .done n i lam r hc
    | stuck n i lam r p H b d hc hlin hd =>
      have := StiffRun.stuck (D := 0) (rotEps := re) (traEps := te) (inner := inner) (factor := factor) n i lam r p H b d hc hlin (by simpa only [add_zero] using hd)
      simpa only [add_zero] using this
    | step n i lam r r' p H b k d hc hlin hk hd hdk hle _ ih =>
      refine StiffRun.step (D := 0) n i lam r r' p H b k d hc hlin hk (by simpa only [add_zero] using hd) (by simpa only [add_zero] using hdk) hle ?_
      simpa only [add_zero] using ih

/-- C77. The outcome is determined where the matching rules allow one and the same partner. -/
theorem C77_determined (hD : SymPSD D) (hf : 0 < factor) (hM : ∀ q o o', M q o → M' q o' → o = o') :
    ∀ {n i : Nat} {lam : ℝ} {r r1 r2 : Result ℝ}, 0 < lam → StiffRun D m M src inner factor re te n i lam r r1 → StiffRun D m M' src inner factor re te n i lam r r2 → r1 = r2 := by
  intro n i lam r r1 r2 hl h1
  induction h1 generalizing r2 with
  | budget i lam r => intro h2; cases h2 <;> rfl
  | done n i lam r hc =>
    intro h2
    cases h2 with
    | budget => rfl
    | done => rfl
    | stuck _ _ _ _ _ _ _ _ hc' => rw [hc] at hc'; cases hc'
    | step _ _ _ _ _ _ _ _ _ _ hc' => rw [hc] at hc'; cases hc'
  | stuck n i lam r p H b d hc hlin hd =>
    intro h2
    have hpsd := hlin.psd.add hD
    cases h2 with
    | done _ _ _ _ hc' => rw [hc] at hc'; cases hc'
    | stuck _ _ _ _ p' H' b' d' hc' hlin' hd' =>
      obtain ⟨rfl, rfl, rfl⟩ := linearised_unique hM hlin hlin'
      rfl
    | step _ _ _ _ _ p' H' b' k d' hc' hlin' hk hd' hdk hle =>
      obtain ⟨rfl, rfl, rfl⟩ := linearised_unique hM hlin hlin'
      have := damped_unique hpsd (mul_pos hl (pow_pos hf k)) (hd k hk).1 hdk
      rw [← this] at hle
      exact absurd hle (not_le.2 (hd k hk).2)
  | step n i lam r r' p H b k d hc hlin hk hd hdk hle _ ih =>
    intro h2
    have hpsd := hlin.psd.add hD
    cases h2 with
    | done _ _ _ _ hc' => rw [hc] at hc'; cases hc'
    | stuck _ _ _ _ p' H' b' d' hc' hlin' hd' =>
      obtain ⟨rfl, rfl, rfl⟩ := linearised_unique hM hlin hlin'
      have := damped_unique hpsd (mul_pos hl (pow_pos hf k)) (hd' k hk).1 hdk
      rw [← this] at hle
      exact absurd hle (not_le.2 (hd' k hk).2)
    | step _ _ _ _ _ p' H' b' k' d' hc' hlin' hk' hd' hdk' hle' hrun =>
      obtain ⟨rfl, rfl, rfl⟩ := linearised_unique hM hlin hlin'
      have hkk : k = k' := by
        rcases lt_trichotomy k k' with hlt | heq | hgt
        · have := damped_unique hpsd (mul_pos hl (pow_pos hf k)) (hd' k hlt).1 hdk
          rw [← this] at hle
          exact absurd hle (not_le.2 (hd' k hlt).2)
        · exact heq
        · have := damped_unique hpsd (mul_pos hl (pow_pos hf k')) (hd k' hgt).1 hdk'
          rw [← this] at hle'
          exact absurd hle' (not_le.2 (hd k' hgt).2)
      subst hkk
      rw [← damped_unique hpsd (mul_pos hl (pow_pos hf k)) hdk hdk'] at hrun
      exact ih (div_pos (mul_pos hl (pow_pos hf k)) hf) hrun

end Run

end Verif.Props
