import Verif.Proofs.Optimizer
import Verif.Props.Factors
import Verif.Props.Lie

/-! C38, C39, C40 and the parts of C31 and C41 that concern whole optimiser runs. -/

set_option linter.unusedSectionVars false
set_option linter.unusedSimpArgs false
set_option linter.unnecessarySeqFocus false

namespace Verif.Props

open Matrix Verif Verif.Proofs Verif.Factors Verif.Spec Verif.Reduction Verif.Optimizer Verif.Lie

variable {K : Type} [Field K] [LinearOrder K] [IsStrictOrderedRing K] {F : Type}

/-! ### runs -/

/-- A general factor that has no error of its own. -/
structure NoOwnError (g : General K) : Prop where
  error : ∀ T e, g.updateError T e = e
  lin : ∀ T s, (g.updateLinearized T s).2.2 = s.2.2

theorem noOwnError_null : NoOwnError (nullFactor : General K) := ⟨fun _ _ => rfl, fun _ _ => rfl⟩

theorem noOwnError_restrict (f : RestrictDoF K) : NoOwnError f.general := ⟨fun _ _ => rfl, fun _ _ => rfl⟩

/-- The error found while linearising is the error evaluated at the same pose with the same correspondences (C32). -/
def Consistent (P : Problem F K) : Prop := ∀ T fs fs' s, P.linearize T fs = .ok (fs', s) → P.error T fs' = .ok s.2.2

theorem consistent_registration {pf : PointFactor F K} (hpf : Shipped pf) (sc : Scene K) (hn : SearchIndices sc) (rej : Rejector K) (g : General K)
    (solve : Matrix (Fin 6) (Fin 6) K → (Fin 6 → K) → (Fin 6 → K)) (exp : (Fin 6 → K) → Pose K) (conv : (Fin 6 → K) → Bool) :
    Consistent (registrationProblem pf sc rej g solve exp conv) := by
  rintro T fs fs' ⟨H, b, e⟩ h
  exact C32_reduction hpf sc hn rej T fs fs' H b e h

/-- The poses of a run form a chain from the initial guess to the reported pose. -/
structure PoseChain (T0 : Pose K) (log : List (Iteration F K)) (T : Pose K) : Prop where
  start : ∀ a, log.head? = some a → a.T0 = T0
  link : ∀ j a b, log[j]? = some a → log[j + 1]? = some b → b.T0 = a.T1
  finish : ∀ a, log.getLast? = some a → T = a.T1
  empty : log = [] → T = T0

theorem lm_unfold {P : Problem F K} {st : LMSetting K} {T0 : Pose K} {fs fs' : List F} {r : Result K} {log : List (Iteration F K)}
    (h : levenbergMarquardt P st T0 fs = .ok (r, fs', log)) :
    ∃ r0, r = countInliers P r0 fs' ∧ lmLoop P st.lambdaFactor st.maxInner.toNat st.maxIterations.toNat 0 st.initLambda (Result.init T0) fs = .ok (r0, fs', log) := by
  unfold levenbergMarquardt at h
  obtain ⟨⟨r0, fs0, log0⟩, h1, h2⟩ := res_bind h
  simp only [Except.ok.injEq, Prod.mk.injEq] at h2
  obtain ⟨rfl, rfl, rfl⟩ := h2
  exact ⟨r0, rfl, h1⟩

theorem gn_unfold {P : Problem F K} {lambda : K} {n : Int} {T0 : Pose K} {fs fs' : List F} {r : Result K} {log : List (Iteration F K)}
    (h : gaussNewton P lambda n T0 fs = .ok (r, fs', log)) :
    ∃ r0, r = countInliers P r0 fs' ∧ gnLoop P lambda n.toNat 0 (Result.init T0) fs = .ok (r0, fs', log) := by
  unfold gaussNewton at h
  obtain ⟨⟨r0, fs0, log0⟩, h1, h2⟩ := res_bind h
  simp only [Except.ok.injEq, Prod.mk.injEq] at h2
  obtain ⟨rfl, rfl, rfl⟩ := h2
  exact ⟨r0, rfl, h1⟩

theorem getLast?_of_ne {A : Type} {l : List A} (h : l ≠ []) : ∃ a, l.getLast? = some a ∧ a ∈ l := by
  refine ⟨l.getLast h, List.getLast?_eq_some_getLast h, List.getLast_mem h⟩

theorem getLast?_index {A : Type} {l : List A} {a : A} {j : Nat} (h : l[j]? = some a) (hj : j + 1 = l.length) : l.getLast? = some a := by
  rw [List.getLast?_eq_getElem?]
  rw [← hj]
  exact h

theorem length_linearize {pf : PointFactor F K} {sc : Scene K} {rej : Rejector K} {g : General K}
    {solve : Matrix (Fin 6) (Fin 6) K → (Fin 6 → K) → (Fin 6 → K)} {exp : (Fin 6 → K) → Pose K} {conv : (Fin 6 → K) → Bool} {T : Pose K} {fs fs' : List F} {s : Sys K}
    (hl : (registrationProblem pf sc rej g solve exp conv).linearize T fs = .ok (fs', s)) : fs'.length = fs.length := by
  simp only [registrationProblem] at hl
  rw [serial_ok] at hl
  simp only [Except.ok.injEq, reduceSpec, Prod.mk.injEq] at hl
  rw [← hl.1]; simp

/-! ### C38 -/

/-- Every accepted step leaves the error, for that iteration's correspondences, no larger than before. Without an accepted step
the pose is unchanged, the run ends and convergence is not claimed. The reported error is the error at the reported pose for the
last correspondences. Holds for every problem whose general factor has no error of its own. Missing: general factors with an
error of their own (false, see `C38_violated`). -/
theorem C38_descent_partial (P : Problem F K) (hg : NoOwnError P.general) (hc : Consistent P) (st : LMSetting K) (T0 : Pose K) (fs fs' : List F) (r : Result K)
    (log : List (Iteration F K)) (h : levenbergMarquardt P st T0 fs = .ok (r, fs', log)) :
    PoseChain T0 log r.T ∧
    (∀ it ∈ log, P.error it.T0 it.factors = .ok it.e0 ∧ P.error it.T1 it.factors = .ok it.e1 ∧ it.e1 ≤ it.e0) ∧
    (∀ j it, log[j]? = some it → it.step = none → it.T1 = it.T0 ∧ j + 1 = log.length ∧ r.T = it.T0 ∧ r.converged = false) ∧
    (log ≠ [] → P.error r.T fs' = .ok r.error ∧ ∃ it, log.getLast? = some it ∧ fs' = it.factors) := by
  obtain ⟨r0, rfl, hl⟩ := lm_unfold h
  obtain ⟨ok, _, hdesc, _⟩ := lmLoop_spec hl
  have hit : ∀ it ∈ log, P.error it.T0 it.factors = .ok it.e0 ∧ P.error it.T1 it.factors = .ok it.e1 ∧ it.e1 ≤ it.e0 := by
    intro it hi
    obtain ⟨⟨fs0, s, hlin, he0⟩, _, hrej, hacc⟩ := ok.iters it hi
    obtain ⟨hle, hnone⟩ := hdesc hg.error it hi
    have h0 : P.error it.T0 it.factors = .ok it.e0 := by rw [he0, hg.lin]; exact hc _ _ _ _ hlin
    refine ⟨h0, ?_, hle⟩
    cases hs : it.step with
    | none => rw [hrej hs, hnone hs]; exact h0
    | some d => exact (hacc d hs).2.1
  refine ⟨⟨ok.first, fun j a b ha hb => (ok.chain j a b ha hb).1, fun a ha => (ok.last a ha).2.2.1, fun he => ?_⟩, hit, ?_, ?_⟩
  · show r0.T = T0
    rw [(ok.empty he).1]; rfl
  · intro j it hj hs
    have hjl : j < log.length := by
      by_contra hlt
      rw [List.getElem?_eq_none (by omega)] at hj
      cases hj
    have hend : j + 1 = log.length := by
      by_contra hne
      have hlt : j + 1 < log.length := by omega
      obtain ⟨_, d, hd, _⟩ := ok.chain j it _ hj (List.getElem?_eq_getElem hlt)
      rw [hs] at hd; cases hd
    have hrej := (ok.iters it (List.mem_of_getElem? hj)).rejected hs
    obtain ⟨_, _, hT, _, hconv⟩ := ok.last it (getLast?_index hj hend)
    refine ⟨hrej, hend, hT.trans hrej, ?_⟩
    show r0.converged = false
    cases hcv : r0.converged with
    | false => rfl
    | true =>
      obtain ⟨d, hd, _⟩ := hconv.1 hcv
      rw [hs] at hd; cases hd
  · intro hne
    obtain ⟨it, hlast, hmem⟩ := getLast?_of_ne hne
    obtain ⟨hf, he, hT, _, _⟩ := ok.last it hlast
    refine ⟨?_, it, hlast, hf⟩
    show P.error r0.T fs' = .ok r0.error
    rw [hf, he, hT]
    exact (hit it hmem).2.1

/-- The library's registrations (any point factor, with or without robust kernel, unconstrained or with restricted degrees of
freedom, any neighbour search, solver and exponential): no run faults and every run has the properties of `C38_descent_partial`. -/
theorem C38_registration_partial {pf : PointFactor F K} (hpf : Shipped pf) (sc : Scene K) (hn : SearchIndices sc) (rej : Rejector K) (g : General K)
    (hg : g = nullFactor ∨ ∃ f : RestrictDoF K, g = f.general) (solve : Matrix (Fin 6) (Fin 6) K → (Fin 6 → K) → (Fin 6 → K)) (exp : (Fin 6 → K) → Pose K)
    (conv : (Fin 6 → K) → Bool) (st : LMSetting K) (T0 : Pose K) (n : Nat) :
    ∃ r fs' log, alignLM pf (registrationProblem pf sc rej g solve exp conv) st T0 n = .ok (r, fs', log) ∧ fs'.length = n ∧ PoseChain T0 log r.T ∧
      (∀ it ∈ log, ∃ e0 e1, serialError (pf.error sc it.T0) it.factors = .ok e0 ∧ serialError (pf.error sc it.T1) it.factors = .ok e1 ∧ e1 ≤ e0) ∧
      (∀ j it, log[j]? = some it → it.step = none → it.T1 = it.T0 ∧ j + 1 = log.length ∧ r.T = it.T0 ∧ r.converged = false) ∧
      (log ≠ [] → serialError (pf.error sc r.T) fs' = .ok r.error ∧ ∃ it, log.getLast? = some it ∧ fs' = it.factors) := by
  have hno : NoOwnError g := by
    rcases hg with rfl | ⟨f, rfl⟩
    · exact noOwnError_null
    · exact noOwnError_restrict f
  obtain ⟨⟨r0, fs', log⟩, hrun⟩ := lmLoop_total (P := registrationProblem pf sc rej g solve exp conv)
    (fun T fs => ⟨_, serial_ok _ fs⟩) (fun T fs => ⟨_, serialError_ok _ fs⟩) (factor := st.lambdaFactor) (maxInner := st.maxInner.toNat)
    (fuel := st.maxIterations.toNat) (i := 0) (lambda := st.initLambda) (r := Result.init T0) (fs := List.replicate n pf.init)
  have h : alignLM pf (registrationProblem pf sc rej g solve exp conv) st T0 n = .ok (countInliers (registrationProblem pf sc rej g solve exp conv) r0 fs', fs', log) := by
    unfold alignLM levenbergMarquardt
    rw [hrun, ok_bind]
  obtain ⟨c1, c2, c3, c4⟩ := C38_descent_partial _ hno (consistent_registration hpf sc hn rej g solve exp conv) st T0 _ fs' _ log h
  refine ⟨_, _, _, h, ?_, c1, fun it hi => ⟨_, _, c2 it hi⟩, c3, c4⟩
  have hk := lmLoop_keep (Q := fun l => l.length = n) (fun T l l' s hl hlin => ?_) hrun (by simp)
  · exact hk.1
  · exact (length_linearize hlin).trans hl

/-! ### C39 -/

/-- Levenberg-Marquardt: at most `max_iterations` linearisations, at most `max_inner_iterations` error evaluations for each;
fewer iterations only on convergence or when an iteration found no acceptable step. -/
theorem C39_budget (P : Problem F K) (st : LMSetting K) (T0 : Pose K) (fs fs' : List F) (r : Result K) (log : List (Iteration F K))
    (h : levenbergMarquardt P st T0 fs = .ok (r, fs', log)) :
    log.length ≤ st.maxIterations.toNat ∧ (log.map Iteration.evals).sum ≤ st.maxIterations.toNat * st.maxInner.toNat ∧
    (∀ it ∈ log, it.evals ≤ st.maxInner.toNat ∧ (it.step = none → it.evals = st.maxInner.toNat)) ∧
    (log.length < st.maxIterations.toNat → r.converged = true ∨ ∃ it, log.getLast? = some it ∧ it.step = none) := by
  obtain ⟨r0, rfl, hrun⟩ := lm_unfold h
  obtain ⟨ok, _, _, hev⟩ := lmLoop_spec hrun
  refine ⟨ok.len, ?_, fun it hi => ⟨(ok.iters it hi).evals, hev it hi⟩, ok.budget⟩
  have : (log.map Iteration.evals).sum ≤ log.length * st.maxInner.toNat := by
    have gen : ∀ l : List (Iteration F K), (∀ it ∈ l, it.evals ≤ st.maxInner.toNat) → (l.map Iteration.evals).sum ≤ l.length * st.maxInner.toNat := by
      intro l
      induction l with
      | nil => simp
      | cons a l ih =>
        intro hb
        have h1 := hb a (by simp)
        have h2 := ih (fun it hi => hb it (by simp [hi]))
        simp only [List.map_cons, List.sum_cons, List.length_cons]
        rw [Nat.succ_mul]; omega
    exact gen log (fun it hi => (ok.iters it hi).evals)
  exact this.trans (Nat.mul_le_mul_right _ ok.len)

/-- Gauss-Newton: at most `max_iterations` linearisations, no error evaluations; fewer only on convergence. -/
theorem C39_budget_gn (P : Problem F K) (lambda : K) (n : Int) (T0 : Pose K) (fs fs' : List F) (r : Result K) (log : List (Iteration F K))
    (h : gaussNewton P lambda n T0 fs = .ok (r, fs', log)) :
    log.length ≤ n.toNat ∧ (∀ it ∈ log, it.evals = 0) ∧ (log.length < n.toNat → r.converged = true) := by
  obtain ⟨r0, rfl, hrun⟩ := gn_unfold h
  obtain ⟨h1, _, h3, _, _, _, h7, _⟩ := gnLoop_spec hrun
  exact ⟨h1, fun it hi => (h3 it hi).2.1, h7⟩

/-- Convergence is reported exactly when the last performed iteration applied a step that meets both thresholds, and the reported
pose is the one after that step; no earlier step met them. -/
theorem C39_genuine (solve : Matrix (Fin 6) (Fin 6) ℝ → (Fin 6 → ℝ) → (Fin 6 → ℝ)) (exp : (Fin 6 → ℝ) → Pose ℝ) (rotationEps translationEps : ℝ)
    (lin : Pose ℝ → List F → Res (List F × Sys ℝ)) (err : Pose ℝ → List F → Res ℝ) (g : General ℝ) (inl : F → Bool) (T0 : Pose ℝ) (fs fs' : List F) (r : Result ℝ)
    (log : List (Iteration F ℝ))
    (h : (∃ st, levenbergMarquardt ⟨lin, err, g, solve, exp, converged rotationEps translationEps, inl⟩ st T0 fs = .ok (r, fs', log)) ∨
      ∃ lambda n, gaussNewton ⟨lin, err, g, solve, exp, converged rotationEps translationEps, inl⟩ lambda n T0 fs = .ok (r, fs', log)) :
    (r.converged = true ↔ ∃ it d, log.getLast? = some it ∧ it.step = some d ∧
      Real.sqrt (d 0 ^ 2 + d 1 ^ 2 + d 2 ^ 2) ≤ rotationEps ∧ Real.sqrt (d 3 ^ 2 + d 4 ^ 2 + d 5 ^ 2) ≤ translationEps) ∧
    (∀ it d, log.getLast? = some it → it.step = some d → r.T = it.T0.mul (exp d)) ∧
    (∀ j it, log[j]? = some it → j + 1 < log.length → ∃ d, it.step = some d ∧
      ¬ (Real.sqrt (d 0 ^ 2 + d 1 ^ 2 + d 2 ^ 2) ≤ rotationEps ∧ Real.sqrt (d 3 ^ 2 + d 4 ^ 2 + d 5 ^ 2) ≤ translationEps)) := by
  have hcv : ∀ d : Fin 6 → ℝ, converged rotationEps translationEps d = true ↔
      (Real.sqrt (d 0 ^ 2 + d 1 ^ 2 + d 2 ^ 2) ≤ rotationEps ∧ Real.sqrt (d 3 ^ 2 + d 4 ^ 2 + d 5 ^ 2) ≤ translationEps) := by
    intro d
    simp [converged, rot, tra, dotProduct, Fin.sum_univ_three, pow_two]
  have key : (log = [] → r.converged = false) ∧ (∀ it, log.getLast? = some it → r.T = it.T1 ∧ (r.converged = true ↔ ∃ d, it.step = some d ∧ converged rotationEps translationEps d = true)) ∧
      (∀ it ∈ log, ∀ d, it.step = some d → it.T1 = it.T0.mul (exp d)) ∧
      (∀ j a b, log[j]? = some a → log[j + 1]? = some b → ∃ d, a.step = some d ∧ converged rotationEps translationEps d = false) := by
    rcases h with ⟨st, h⟩ | ⟨lambda, n, h⟩
    · obtain ⟨r0, rfl, hrun⟩ := lm_unfold h
      obtain ⟨ok, _⟩ := lmLoop_spec hrun
      refine ⟨fun he => ?_, fun it hi => ?_, fun it hi d hd => ((ok.iters it hi).accepted d hd).1, fun j a b ha hb => (ok.chain j a b ha hb).2⟩
      · show r0.converged = false
        rw [(ok.empty he).1]; rfl
      · obtain ⟨_, _, a, _, b⟩ := ok.last it hi
        exact ⟨a, b⟩
    · obtain ⟨r0, rfl, hrun⟩ := gn_unfold h
      obtain ⟨_, h2, h3, h4, h5, _⟩ := gnLoop_spec hrun
      refine ⟨fun he => ?_, fun it hi => ?_, fun it hi d hd => ?_, fun j a b ha hb => (h5 j a b ha hb).2⟩
      · show r0.converged = false
        rw [(h2 he).1]; rfl
      · obtain ⟨_, _, a, _, b⟩ := h4 it hi
        exact ⟨a, b⟩
      · obtain ⟨_, _, _, d', hd', hT⟩ := h3 it hi
        rw [hd] at hd'; cases hd'; exact hT
  obtain ⟨k1, k2, k3, k4⟩ := key
  refine ⟨?_, ?_, ?_⟩
  · constructor
    · intro hr
      have hne : log ≠ [] := fun he => by rw [k1 he] at hr; cases hr
      obtain ⟨it, hl, _⟩ := getLast?_of_ne hne
      obtain ⟨d, hd, hc⟩ := (k2 it hl).2.1 hr
      exact ⟨it, d, hl, hd, (hcv d).1 hc⟩
    · rintro ⟨it, d, hl, hd, hc⟩
      exact (k2 it hl).2.2 ⟨d, hd, (hcv d).2 hc⟩
  · intro it d hl hd
    rw [(k2 it hl).1]
    exact k3 it (List.mem_of_getLast? hl) d hd
  · intro j it hj hlt
    obtain ⟨d, hd, hc⟩ := k4 j it _ hj (List.getElem?_eq_getElem hlt)
    refine ⟨d, hd, fun hx => ?_⟩
    rw [(hcv d).2 hx] at hc; cases hc

/-- Non-positive budgets: without outer iterations the initial guess comes back untouched; without inner iterations the pose is
still the initial guess and convergence is not claimed. -/
theorem C39_nonpositive (P : Problem F K) (st : LMSetting K) (lambda : K) (n : Int) (T0 : Pose K) (fs : List F) :
    (st.maxIterations ≤ 0 → levenbergMarquardt P st T0 fs = .ok (⟨T0, false, 0, fs.countP P.inlier, 0, 0, 0⟩, fs, [])) ∧
    (n ≤ 0 → gaussNewton P lambda n T0 fs = .ok (⟨T0, false, 0, fs.countP P.inlier, 0, 0, 0⟩, fs, [])) ∧
    (st.maxInner ≤ 0 → ∀ r fs' log, levenbergMarquardt P st T0 fs = .ok (r, fs', log) → r.T = T0 ∧ r.converged = false ∧ log.length ≤ 1) := by
  refine ⟨fun h => ?_, fun h => ?_, fun h r fs' log hr => ?_⟩
  · unfold levenbergMarquardt
    rw [Int.toNat_eq_zero.2 h]
    rfl
  · unfold gaussNewton
    rw [Int.toNat_eq_zero.2 h]
    rfl
  · obtain ⟨r0, rfl, hrun⟩ := lm_unfold hr
    obtain ⟨ok, _⟩ := lmLoop_spec hrun
    rw [Int.toNat_eq_zero.2 h] at ok
    have hnone : ∀ it ∈ log, it.step = none := by
      intro it hi
      cases hs : it.step with
      | none => rfl
      | some d =>
        obtain ⟨_, _, h1⟩ := (ok.iters it hi).accepted d hs
        have h2 := (ok.iters it hi).evals
        omega
    cases log with
    | nil =>
      obtain ⟨h1, _⟩ := ok.empty rfl
      rw [h1]
      exact ⟨rfl, rfl, by simp⟩
    | cons a l =>
      have hl : l = [] := by
        cases l with
        | nil => rfl
        | cons b l =>
          obtain ⟨_, d, hd, _⟩ := ok.chain 0 a b rfl rfl
          rw [hnone a (by simp)] at hd; cases hd
      subst hl
      obtain ⟨_, _, hT, _, hc⟩ := ok.last a rfl
      refine ⟨?_, ?_, by simp⟩
      · show r0.T = T0
        rw [hT, (ok.iters a (by simp)).rejected (hnone a (by simp)), ok.first a rfl]
        rfl
      · show r0.converged = false
        cases hcv : r0.converged with
        | false => rfl
        | true =>
          obtain ⟨d, hd, _⟩ := hc.1 hcv
          rw [hnone a (by simp)] at hd; cases hd

/-! ### C40 -/

/-- The exact relation: `iterations` is one less than the number of performed iterations, and zero if there were none. Missing:
equality (false, see `C40_violated`). -/
theorem C40_relation_partial (P : Problem F K) (T0 : Pose K) (fs fs' : List F) (r : Result K) (log : List (Iteration F K))
    (h : (∃ st, levenbergMarquardt P st T0 fs = .ok (r, fs', log)) ∨ ∃ lambda n, gaussNewton P lambda n T0 fs = .ok (r, fs', log)) :
    r.iterations = log.length - 1 := by
  rcases h with ⟨st, h⟩ | ⟨lambda, n, h⟩
  · obtain ⟨r0, rfl, hrun⟩ := lm_unfold h
    obtain ⟨ok, _⟩ := lmLoop_spec hrun
    show r0.iterations = _
    by_cases hne : log = []
    · rw [(ok.empty hne).1, hne]; rfl
    · obtain ⟨it, hl, _⟩ := getLast?_of_ne hne
      have := (ok.last it hl).2.2.2.1
      omega
  · obtain ⟨r0, rfl, hrun⟩ := gn_unfold h
    obtain ⟨_, h2, _, h4, _⟩ := gnLoop_spec hrun
    show r0.iterations = _
    by_cases hne : log = []
    · rw [(h2 hne).1, hne]; rfl
    · obtain ⟨it, hl, _⟩ := getLast?_of_ne hne
      have := (h4 it hl).2.2.2.1
      omega

/-- The claim itself holds for no run that performs an iteration. -/
theorem C40_violated (P : Problem F K) (T0 : Pose K) (fs fs' : List F) (r : Result K) (log : List (Iteration F K))
    (h : (∃ st, levenbergMarquardt P st T0 fs = .ok (r, fs', log)) ∨ ∃ lambda n, gaussNewton P lambda n T0 fs = .ok (r, fs', log)) (hne : log ≠ []) :
    r.iterations ≠ log.length := by
  rw [C40_relation_partial P T0 fs fs' r log h]
  have := List.length_pos_iff.2 hne
  omega

/-! ### C31 and C41 for whole runs -/

/-- The reported number of inliers is the number of source points with a neighbour within the gate at the pose of the last
linearisation. -/
theorem C31_result {pf : PointFactor F K} (hpf : Shipped pf) (sc : Scene K) (hn : SearchIndices sc) (maxDistSq : K) (g : General K)
    (solve : Matrix (Fin 6) (Fin 6) K → (Fin 6 → K) → (Fin 6 → K)) (exp : (Fin 6 → K) → Pose K) (conv : (Fin 6 → K) → Bool) (T0 : Pose K) (n : Nat)
    (r : Result K) (fs' : List F) (log : List (Iteration F K))
    (h : (∃ st, alignLM pf (registrationProblem pf sc (distanceRejector maxDistSq) g solve exp conv) st T0 n = .ok (r, fs', log)) ∨
      ∃ lambda m, alignGN pf (registrationProblem pf sc (distanceRejector maxDistSq) g solve exp conv) lambda m T0 n = .ok (r, fs', log))
    (it : Iteration F K) (hl : log.getLast? = some it) : r.numInliers = (List.range n).countP (gated sc maxDistSq it.T0) := by
  have hQ : ∀ (T : Pose K) (l l' : List F) (s : Sys K), l.length = n →
      (registrationProblem pf sc (distanceRejector maxDistSq) g solve exp conv).linearize T l = .ok (l', s) → l'.length = n :=
    fun T l l' s hl hlin => (length_linearize hlin).trans hl
  have key : r.numInliers = fs'.countP pf.inlier ∧ fs' = it.factors ∧ ∃ fs0 s, fs0.length = n ∧
      serialLinearize (pf.linearize sc (distanceRejector maxDistSq) it.T0) fs0 = .ok (it.factors, s) := by
    rcases h with ⟨st, h⟩ | ⟨lambda, m, h⟩
    · obtain ⟨r0, rfl, hrun⟩ := lm_unfold h
      obtain ⟨ok, _⟩ := lmLoop_spec hrun
      obtain ⟨_, fs0, s, hq, hlin, _⟩ := (lmLoop_keep hQ hrun (by simp)).2 it (List.mem_of_getLast? hl)
      exact ⟨rfl, (ok.last it hl).1, fs0, s, hq, hlin⟩
    · obtain ⟨r0, rfl, hrun⟩ := gn_unfold h
      obtain ⟨_, _, _, h4, _⟩ := gnLoop_spec hrun
      obtain ⟨_, fs0, s, hq, hlin, _⟩ := (gnLoop_keep hQ hrun (by simp)).2 it (List.mem_of_getLast? hl)
      exact ⟨rfl, (h4 it hl).1, fs0, s, hq, hlin⟩
  obtain ⟨h1, h2, fs0, s, h3, h4⟩ := key
  rw [h1, h2, (C31_inliers hpf sc hn maxDistSq it.T0 fs0 it.factors s h4).1, h3]

/-- The pose of a run is the initial guess multiplied by the exponentials of the applied steps. -/
theorem chain_poses (exp : (Fin 6 → K) → Pose K) : ∀ (log : List (Iteration F K)) (T0 T : Pose K), PoseChain T0 log T →
    (∀ it ∈ log, (it.step = none → it.T1 = it.T0) ∧ ∀ d, it.step = some d → it.T1 = it.T0.mul (exp d)) →
    T = (log.filterMap Iteration.step).foldl (fun T a => T.mul (exp a)) T0 := by
  intro log
  induction log with
  | nil => intro T0 T h _; exact h.empty rfl
  | cons a l ih =>
    intro T0 T h hs
    have h1 : (a :: l).filterMap Iteration.step = (match a.step with | none => [] | some d => [d]) ++ l.filterMap Iteration.step := by
      rw [List.filterMap_cons]
      cases a.step <;> rfl
    rw [h1, List.foldl_append]
    have h2 : (match a.step with | none => [] | some d => [d]).foldl (fun T a => T.mul (exp a)) T0 = a.T1 := by
      have h0 := h.start a rfl
      cases hst : a.step with
      | none => rw [(hs a (by simp)).1 hst, h0]; rfl
      | some d => rw [(hs a (by simp)).2 d hst, h0]; rfl
    rw [h2]
    apply ih
    · refine ⟨?_, ?_, ?_, ?_⟩
      · intro b hb
        rw [List.head?_eq_getElem?] at hb
        exact h.link 0 a b rfl hb
      · intro j b c hb hc
        exact h.link (j + 1) b c hb hc
      · intro b hb
        cases l with
        | nil => cases hb
        | cons c l => exact h.finish b (by rw [List.getLast?_cons_cons]; exact hb)
      · rintro rfl
        exact h.finish a rfl
    · intro it hi
      exact hs it (by simp [hi])

/-- The poses of an optimiser run are those of `C41_rigid` and `C41_drift`: initial guess times `se3_exp` of each applied step.
Hence the reported pose is rigid when no applied step is in the small-angle range, and nearly rigid in any case. -/
theorem C41_run (lin : Pose ℝ → List F → Res (List F × Sys ℝ)) (err : Pose ℝ → List F → Res ℝ) (g : General ℝ)
    (solve : Matrix (Fin 6) (Fin 6) ℝ → (Fin 6 → ℝ) → (Fin 6 → ℝ)) (conv : (Fin 6 → ℝ) → Bool) (inl : F → Bool) (T0 : Pose ℝ) (hT0 : IsRotation T0.R) (fs fs' : List F)
    (r : Result ℝ) (log : List (Iteration F ℝ))
    (h : (∃ st, levenbergMarquardt ⟨lin, err, g, solve, se3Exp, conv, inl⟩ st T0 fs = .ok (r, fs', log)) ∨
      ∃ lambda n, gaussNewton ⟨lin, err, g, solve, se3Exp, conv, inl⟩ lambda n T0 fs = .ok (r, fs', log)) :
    r.T = posesAfter T0 (log.filterMap Iteration.step) ∧
    ((∀ a ∈ log.filterMap Iteration.step, 1e-10 ≤ rot a ⬝ᵥ rot a ∨ rot a = 0) → IsRotation r.T.R) ∧
    StretchAtMost r.T.R ((1 + 1e-44) ^ (log.filterMap Iteration.step).countP smallStep) := by
  have hT : r.T = posesAfter T0 (log.filterMap Iteration.step) := by
    rcases h with ⟨st, h⟩ | ⟨lambda, n, h⟩
    · obtain ⟨r0, rfl, hrun⟩ := lm_unfold h
      obtain ⟨ok, _⟩ := lmLoop_spec hrun
      refine chain_poses se3Exp log T0 r0.T ⟨ok.first, fun j a b ha hb => (ok.chain j a b ha hb).1, fun a ha => (ok.last a ha).2.2.1, fun he => ?_⟩ ?_
      · rw [(ok.empty he).1]; rfl
      · intro it hi
        exact ⟨(ok.iters it hi).rejected, fun d hd => ((ok.iters it hi).accepted d hd).1⟩
    · obtain ⟨r0, rfl, hrun⟩ := gn_unfold h
      obtain ⟨_, h2, h3, h4, h5, h6, _⟩ := gnLoop_spec hrun
      refine chain_poses se3Exp log T0 r0.T ⟨h6, fun j a b ha hb => (h5 j a b ha hb).1, fun a ha => (h4 a ha).2.2.1, fun he => ?_⟩ ?_
      · rw [(h2 he).1]; rfl
      · intro it hi
        obtain ⟨_, _, _, d', hd', hT⟩ := h3 it hi
        refine ⟨fun hn => ?_, fun d hd => ?_⟩
        · rw [hn] at hd'; cases hd'
        · rw [hd] at hd'; cases hd'; exact hT
  refine ⟨hT, fun hs => ?_, ?_⟩
  · rw [hT]; exact (C41_rigid T0 hT0 _ hs).1
  · rw [hT]; exact C41_drift T0 hT0 _

/-! ### violation of C38 with a general factor, and concrete cases -/

/-- One source and one target point, both at the origin. -/
noncomputable def sceneOrigin : Scene ℝ where
  srcPoint := fun _ => ![0, 0, 0, 1]
  tgtPoint := fun _ => ![0, 0, 0, 1]
  tgtNormal := fun _ => ![0, 0, 1, 0]
  srcCov := fun _ => diagonal ![1, 1, 1, 0]
  tgtCov := fun _ => diagonal ![1, 1, 1, 0]
  nn := fun q => some (0, q 0 ^ 2 + q 1 ^ 2 + q 2 ^ 2)

/-- Error of a prior that pulls the x translation towards 1 or -1. -/
noncomputable def priorError (T : Pose ℝ) : ℝ := 8 * (T.t 0 ^ 2 - 1) ^ 2

/-- The prior as a general factor: residual `4 (x^2 - 1)`, added as Gauss-Newton terms `J^T J`, `J^T r`, `r^2 / 2`. -/
noncomputable def prior : General ℝ where
  updateLinearized := fun T s => (s.1 + Matrix.single 3 3 (64 * T.t 0 ^ 2), s.2.1 + ![0, 0, 0, 32 * T.t 0 * (T.t 0 ^ 2 - 1), 0, 0], s.2.2 + priorError T)
  updateError := fun T e => e + priorError T

theorem origin_linearize (x : ℝ) (fs : List ICP) (h : fs.length = 1) :
    serialLinearize (icpFactor.linearize sceneOrigin nullRejector ⟨1, ![x, 0, 0]⟩) fs =
      .ok ([⟨0, 0⟩], (diagonal ![0, 0, 0, 1, 1, 1], ![0, 0, 0, x, 0, 0], 1 / 2 * x ^ 2)) := by
  obtain ⟨f, rfl⟩ := List.length_eq_one_iff.1 h
  rw [serial_ok]
  have hc : correspondence sceneOrigin nullRejector ⟨1, ![x, 0, 0]⟩ 0 = some 0 := rfl
  have hT : Pose.apply ⟨1, ![x, 0, 0]⟩ (sceneOrigin.srcPoint 0) = ![x, 0, 0, 1] := by
    funext i
    fin_cases i <;> simp [sceneOrigin, Pose.apply, Pose.matrix, mulVec, dotProduct, Fin.sum_univ_four]
  simp only [reduceSpec, List.mapIdx_cons, List.mapIdx_nil, icpFactor, ICP.linearize, hc, List.sum_cons, List.sum_nil, Option.getD_some, add_zero, hT]
  have hr : sceneOrigin.tgtPoint 0 - ![x, 0, 0, 1] = ![-x, 0, 0, 0] := by
    funext i; fin_cases i <;> simp [sceneOrigin]
  have hJ : blocks ((1 : Matrix (Fin 3) (Fin 3) ℝ) * skew (head3 (sceneOrigin.srcPoint 0))) (-1) =
      !![0, 0, 0, -1, 0, 0; 0, 0, 0, 0, -1, 0; 0, 0, 0, 0, 0, -1; 0, 0, 0, 0, 0, 0] := by
    ext i j
    fin_cases i <;> fin_cases j <;> simp [blocks, skew, head3, sceneOrigin, Matrix.one_apply]
  rw [hr, hJ]
  congr 4
  · ext i j
    fin_cases i <;> fin_cases j <;> simp [Matrix.mul_apply, Fin.sum_univ_four, diagonal]
  · funext i
    fin_cases i <;> simp [mulVec, dotProduct, Fin.sum_univ_four]
  · simp [dotProduct, Fin.sum_univ_four]; ring

theorem origin_error (x : ℝ) : serialError (icpFactor.error sceneOrigin ⟨1, ![x, 0, 0]⟩) [⟨0, 0⟩] = .ok (1 / 2 * x ^ 2) := by
  rw [serialError_ok]
  have hT : Pose.apply ⟨1, ![x, 0, 0]⟩ (sceneOrigin.srcPoint 0) = ![x, 0, 0, 1] := by
    funext i
    fin_cases i <;> simp [sceneOrigin, Pose.apply, Pose.matrix, mulVec, dotProduct, Fin.sum_univ_four]
  have hr : sceneOrigin.tgtPoint 0 - ![x, 0, 0, 1] = ![-x, 0, 0, 0] := by
    funext i; fin_cases i <;> simp [sceneOrigin]
  simp only [errorSpec, List.map_cons, List.map_nil, List.sum_cons, List.sum_nil, add_zero, icpFactor, ICP.error, hT]
  rw [if_neg (by decide), hr]
  simp [dotProduct, Fin.sum_univ_four]; ring

theorem diag_solve {solve : Matrix (Fin 6) (Fin 6) ℝ → (Fin 6 → ℝ) → (Fin 6 → ℝ)} (hs : SolveContract solve) (a : Fin 6 → ℝ) (ha : ∀ i, 0 < a i) (r : Fin 6 → ℝ) :
    solve (diagonal a) r = fun i => r i / a i := by
  have h := hs (diagonal a) (diagonal_transpose a) (by
    intro x hx
    have : ∃ i, x i ≠ 0 := by
      by_contra hne
      push Not at hne
      exact hx (funext hne)
    obtain ⟨i, hi⟩ := this
    simp only [dotProduct, mulVec_diagonal]
    refine Finset.sum_pos' (fun j _ => ?_) ⟨i, Finset.mem_univ _, ?_⟩
    · have := mul_nonneg (ha j).le (mul_self_nonneg (x j)); nlinarith
    · have := mul_pos (ha i) (mul_self_pos.2 hi); nlinarith) r
  funext i
  have := congrFun h i
  rw [mulVec_diagonal] at this
  rw [← this]
  field_simp [(ha i).ne']

/-- With a general factor that has an error of its own the claim fails: for every contract-abiding solver, one Levenberg-Marquardt
iteration accepts a step that raises the total error from 7.0625 to 13.625, and reports 1.125. The cause is optimizer.hpp:114,
which adds the general factor's trial error to the reference error instead of the trial error. -/
theorem C38_violated (solve : Matrix (Fin 6) (Fin 6) ℝ → (Fin 6 → ℝ) → (Fin 6 → ℝ)) (hs : SolveContract solve) :
    ∃ (r : Result ℝ) (fs' : List ICP) (it : Iteration ICP ℝ) (e0 e1 : ℝ),
      alignLM icpFactor (registrationProblem icpFactor sceneOrigin nullRejector prior solve se3Exp (fun _ => false)) ⟨1, 10, 4 / 5, 10⟩ ⟨1, ![1 / 4, 0, 0]⟩ 1 =
        .ok (r, fs', [it]) ∧ it.step.isSome = true ∧ r.T = it.T1 ∧ fs' = it.factors ∧
      serialError (icpFactor.error sceneOrigin it.T0) it.factors = .ok e0 ∧ serialError (icpFactor.error sceneOrigin it.T1) it.factors = .ok e1 ∧
      e0 + priorError it.T0 = 7.0625 ∧ e1 + priorError it.T1 = 13.625 ∧ r.error = 1.125 := by
  have hlin := origin_linearize (1 / 4) (List.replicate 1 ICP.init) rfl
  have hprior : prior.updateLinearized ⟨1, ![1 / 4, 0, 0]⟩ (diagonal ![0, 0, 0, 1, 1, 1], ![0, 0, 0, 1 / 4, 0, 0], 1 / 2 * (1 / 4) ^ 2) =
      (diagonal ![0, 0, 0, 5, 1, 1], ![0, 0, 0, -29 / 4, 0, 0], 113 / 16) := by
    simp only [prior, priorError]
    refine Prod.ext ?_ (Prod.ext ?_ ?_)
    · ext i j
      fin_cases i <;> fin_cases j <;> simp [Matrix.single, diagonal] <;> norm_num
    · funext i
      fin_cases i <;> simp <;> norm_num
    · simp; norm_num
  have hA : diagonal ![0, 0, 0, 5, 1, 1] + (4 / 5 : ℝ) • (1 : Matrix (Fin 6) (Fin 6) ℝ) = diagonal ![4 / 5, 4 / 5, 4 / 5, 29 / 5, 9 / 5, 9 / 5] := by
    ext i j
    fin_cases i <;> fin_cases j <;> simp [diagonal, Matrix.one_apply] <;> norm_num
  have hd : solve (diagonal ![0, 0, 0, 5, 1, 1] + (4 / 5 : ℝ) • (1 : Matrix (Fin 6) (Fin 6) ℝ)) (-![0, 0, 0, -29 / 4, 0, 0]) = ![0, 0, 0, 5 / 4, 0, 0] := by
    rw [hA, diag_solve hs _ (by intro i; fin_cases i <;> simp)]
    funext i
    fin_cases i <;> simp; norm_num
  have hT1 : Pose.mul ⟨1, ![1 / 4, 0, 0]⟩ (se3Exp ![0, 0, 0, 5 / 4, 0, 0]) = ⟨1, ![3 / 2, 0, 0]⟩ := by
    rw [se3_translation _ (by funext i; fin_cases i <;> simp [rot])]
    simp only [Pose.mul, Pose.mk.injEq, one_mulVec, mul_one, true_and]
    funext i
    fin_cases i <;> simp [tra] <;> norm_num
  have h0 := origin_error (1 / 4)
  have h1 := origin_error (3 / 2)
  have hin : ∀ fuel, lmInner (registrationProblem icpFactor sceneOrigin nullRejector prior solve se3Exp (fun _ => false)) 10 ⟨1, ![1 / 4, 0, 0]⟩ [⟨0, 0⟩]
      (diagonal ![0, 0, 0, 5, 1, 1]) ![0, 0, 0, -29 / 4, 0, 0] (fuel + 1) (4 / 5) (113 / 16) =
      .ok ⟨4 / 5 / 10, 1 / 2 * (3 / 2) ^ 2, 1, some (![0, 0, 0, 5 / 4, 0, 0], ⟨1, ![3 / 2, 0, 0]⟩)⟩ := by
    intro fuel
    unfold lmInner
    simp only [Problem.delta, registrationProblem, hd, hT1, h1, ok_bind]
    rw [if_pos]
    simp only [prior, priorError]
    norm_num
  refine ⟨⟨⟨1, ![3 / 2, 0, 0]⟩, false, 0, 1, diagonal ![0, 0, 0, 5, 1, 1], ![0, 0, 0, -29 / 4, 0, 0], 1 / 2 * (3 / 2) ^ 2⟩, [⟨0, 0⟩],
    ⟨⟨1, ![1 / 4, 0, 0]⟩, [⟨0, 0⟩], 113 / 16, 1, some ![0, 0, 0, 5 / 4, 0, 0], ⟨1, ![3 / 2, 0, 0]⟩, 1 / 2 * (3 / 2) ^ 2⟩, _, _, ?_, rfl, rfl, rfl, h0, h1, ?_, ?_, ?_⟩
  · unfold alignLM levenbergMarquardt
    rw [show (icpFactor : PointFactor ICP ℝ).init = ICP.init from rfl]
    have hstep := lmLoop_step (P := registrationProblem icpFactor sceneOrigin nullRejector prior solve se3Exp (fun _ => false)) (factor := 10) (fuel := 0) (i := 0)
      (r := Result.init ⟨1, ![1 / 4, 0, 0]⟩) (fs := List.replicate 1 ICP.init)
      (fs1 := [⟨0, 0⟩]) (s := (diagonal ![0, 0, 0, 1, 1, 1], ![0, 0, 0, 1 / 4, 0, 0], 1 / 2 * (1 / 4) ^ 2)) rfl hlin hprior (hin 9) rfl rfl
    show (lmLoop _ _ 10 1 _ _ _ _ >>= _) = _
    rw [hstep]
    rfl
  · simp [priorError]; norm_num
  · simp [priorError]; norm_num
  · norm_num

/-- A solver with the contract exists. -/
theorem solver_exists : ∃ solve : Matrix (Fin 6) (Fin 6) ℝ → (Fin 6 → ℝ) → (Fin 6 → ℝ), SolveContract solve := by
  classical
  refine ⟨fun A r => if h : ∀ x, x ≠ 0 → 0 < x ⬝ᵥ A *ᵥ x then (posdef_exists_unique h r).choose else 0, ?_⟩
  intro A _ hA r
  simp only
  rw [dif_pos hA]
  exact (posdef_exists_unique hA r).choose_spec.1

/-- A concrete run meeting the hypotheses of `C38_registration_partial`, `C39_genuine`, `C40_violated`, `C41_run` and `C31_result`: without
general factor one iteration moves the source point from distance 1/4 to 1/8 and reports `iterations = 0`. -/
theorem origin_run (solve : Matrix (Fin 6) (Fin 6) ℝ → (Fin 6 → ℝ) → (Fin 6 → ℝ)) (hs : SolveContract solve) :
    alignLM icpFactor (registrationProblem icpFactor sceneOrigin (distanceRejector 1) nullFactor solve se3Exp (converged 1 (1 / 10))) ⟨1, 10, 1, 10⟩ ⟨1, ![1 / 4, 0, 0]⟩ 1 =
      .ok (⟨⟨1, ![1 / 8, 0, 0]⟩, false, 0, 1, diagonal ![0, 0, 0, 1, 1, 1], ![0, 0, 0, 1 / 4, 0, 0], 1 / 128⟩, [⟨0, 0⟩],
        [⟨⟨1, ![1 / 4, 0, 0]⟩, [⟨0, 0⟩], 1 / 32, 1, some ![0, 0, 0, -1 / 8, 0, 0], ⟨1, ![1 / 8, 0, 0]⟩, 1 / 128⟩]) := by
  have hlin : serialLinearize (icpFactor.linearize sceneOrigin (distanceRejector 1) ⟨1, ![1 / 4, 0, 0]⟩) (List.replicate 1 ICP.init) =
      .ok ([⟨0, 0⟩], (diagonal ![0, 0, 0, 1, 1, 1], ![0, 0, 0, 1 / 4, 0, 0], 1 / 32)) := by
    have h := origin_linearize (1 / 4) (List.replicate 1 ICP.init) rfl
    have hc1 : correspondence sceneOrigin nullRejector ⟨1, ![1 / 4, 0, 0]⟩ 0 = some 0 := rfl
    have hc2 : correspondence sceneOrigin (distanceRejector 1) ⟨1, ![1 / 4, 0, 0]⟩ 0 = some 0 := by
      apply correspondence_some rfl
      simp [sceneOrigin, Pose.apply, Pose.matrix, mulVec, dotProduct, Fin.sum_univ_four]
      norm_num
    rw [serial_ok] at h ⊢
    simp only [reduceSpec, List.replicate_succ, List.replicate_zero, List.mapIdx_cons, List.mapIdx_nil, icpFactor, ICP.linearize, hc1, hc2] at h ⊢
    rw [h]
    norm_num
  have hA : diagonal ![0, 0, 0, 1, 1, 1] + (1 : ℝ) • (1 : Matrix (Fin 6) (Fin 6) ℝ) = diagonal ![1, 1, 1, 2, 2, 2] := by
    ext i j
    fin_cases i <;> fin_cases j <;> simp [diagonal, Matrix.one_apply] <;> norm_num
  have hd : solve (diagonal ![0, 0, 0, 1, 1, 1] + (1 : ℝ) • (1 : Matrix (Fin 6) (Fin 6) ℝ)) (-![0, 0, 0, 1 / 4, 0, 0]) = ![0, 0, 0, -1 / 8, 0, 0] := by
    rw [hA, diag_solve hs _ (by intro i; fin_cases i <;> simp)]
    funext i
    fin_cases i <;> simp; norm_num
  have hT1 : Pose.mul ⟨1, ![1 / 4, 0, 0]⟩ (se3Exp ![0, 0, 0, -1 / 8, 0, 0]) = ⟨1, ![1 / 8, 0, 0]⟩ := by
    rw [se3_translation _ (by funext i; fin_cases i <;> simp [rot])]
    simp only [Pose.mul, Pose.mk.injEq, one_mulVec, mul_one, true_and]
    funext i
    fin_cases i <;> simp [tra] <;> norm_num
  have h1 : serialError (icpFactor.error sceneOrigin ⟨1, ![1 / 8, 0, 0]⟩) [⟨0, 0⟩] = .ok (1 / 128) := by
    rw [origin_error]; norm_num
  have hcv : converged 1 (1 / 10) ![0, 0, 0, -1 / 8, 0, 0] = false := by
    have : ¬ Real.sqrt (tra ![0, 0, 0, -1 / 8, 0, 0] ⬝ᵥ tra ![0, 0, 0, -1 / 8, 0, 0]) ≤ 1 / 10 := by
      rw [not_le]
      apply Real.lt_sqrt_of_sq_lt
      simp [tra, dotProduct, Fin.sum_univ_three]
      norm_num
    unfold converged
    rw [decide_eq_false this, Bool.and_false]
  have hin : ∀ fuel, lmInner (registrationProblem icpFactor sceneOrigin (distanceRejector 1) nullFactor solve se3Exp (converged 1 (1 / 10))) 10 ⟨1, ![1 / 4, 0, 0]⟩ [⟨0, 0⟩]
      (diagonal ![0, 0, 0, 1, 1, 1]) ![0, 0, 0, 1 / 4, 0, 0] (fuel + 1) 1 (1 / 32) =
      .ok ⟨1 / 10, 1 / 128, 1, some (![0, 0, 0, -1 / 8, 0, 0], ⟨1, ![1 / 8, 0, 0]⟩)⟩ := by
    intro fuel
    unfold lmInner
    simp only [Problem.delta, registrationProblem, hd, hT1, h1, ok_bind]
    rw [if_pos]
    simp only [nullFactor]
    norm_num
  have hstep := lmLoop_step (P := registrationProblem icpFactor sceneOrigin (distanceRejector 1) nullFactor solve se3Exp (converged 1 (1 / 10))) (factor := 10) (fuel := 0) (i := 0)
    (r := Result.init ⟨1, ![1 / 4, 0, 0]⟩) (fs := List.replicate 1 ICP.init)
    (fs1 := [⟨0, 0⟩]) (s := (diagonal ![0, 0, 0, 1, 1, 1], ![0, 0, 0, 1 / 4, 0, 0], 1 / 32)) rfl hlin rfl (hin 9) rfl rfl
  unfold alignLM levenbergMarquardt
  show (lmLoop _ _ 10 1 _ _ _ _ >>= _) = _
  rw [show (icpFactor : PointFactor ICP ℝ).init = ICP.init from rfl, hstep, ok_bind]
  simp only [countInliers]
  rw [show (registrationProblem icpFactor sceneOrigin (distanceRejector 1) nullFactor solve se3Exp (converged 1 (1 / 10))).converged ![0, 0, 0, -1 / 8, 0, 0] = false from hcv]
  rfl

/-- The side conditions of `C38_registration_partial`, `C41_run` and `C31_result` hold for that run. -/
example : SearchIndices sceneOrigin ∧ IsRotation (1 : Matrix (Fin 3) (Fin 3) ℝ) ∧ Shipped (K := ℝ) icpFactor := by
  refine ⟨?_, ⟨by simp, by simp⟩, .icp⟩
  intro q k d h
  simp only [sceneOrigin, Option.some.injEq, Prod.mk.injEq] at h
  rw [← h.1]; decide

end Verif.Props
