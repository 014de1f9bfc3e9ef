import Verif.Proofs.Optimizer
import Verif.Spec.Registration

/-! The steps taken by the optimisers. -/

set_option linter.unusedSectionVars false

namespace Verif.Proofs

open Matrix Verif Verif.Factors Verif.Optimizer Verif.Spec

variable {K : Type} [Field K] [LinearOrder K] [IsStrictOrderedRing K] {F : Type}

/-- A recorded iteration with the system it solved: from factor states satisfying `Q` and with positive damping. -/
def Solved (P : Problem F K) (Q : List F → Prop) (it : Iteration F K) (H : Matrix (Fin 6) (Fin 6) K) (b : Fin 6 → K) : Prop :=
  ∃ fs s, Q fs ∧ P.linearize it.T0 fs = .ok (it.factors, s) ∧ P.general.updateLinearized it.T0 s = (H, b, it.e0) ∧
    ∀ d, it.step = some d → ∃ lam, 0 < lam ∧ d = P.delta lam H b

theorem lmInner_steps {P : Problem F K} {factor : K} (hf : 0 < factor) {T : Pose K} {fs : List F} {H : Matrix (Fin 6) (Fin 6) K} {b : Fin 6 → K} :
    ∀ {fuel : Nat} {lambda e : K} {r : Inner K}, 0 < lambda → lmInner P factor T fs H b fuel lambda e = .ok r →
      0 < r.lambda ∧ ∀ d T1, r.accepted = some (d, T1) → ∃ lam, 0 < lam ∧ d = P.delta lam H b := by
  intro fuel
  induction fuel with
  | zero =>
    intro lambda e r hl h
    unfold lmInner at h
    cases h
    exact ⟨hl, by intro d T1 h; cases h⟩
  | succ fuel ih =>
    intro lambda e r hl h
    unfold lmInner at h
    simp only at h
    obtain ⟨newE, hE, h⟩ := res_bind h
    split at h
    · cases h
      exact ⟨div_pos hl hf, by intro d T1 h; cases h; exact ⟨lambda, hl, rfl⟩⟩
    · obtain ⟨r', hr', h⟩ := res_bind h
      cases h
      obtain ⟨a, b⟩ := ih (mul_pos hl hf) hr'
      exact ⟨a, b⟩

theorem lmLoop_steps {P : Problem F K} {Q : List F → Prop} (hQ : ∀ T fs fs' s, Q fs → P.linearize T fs = .ok (fs', s) → Q fs') {factor : K} (hf : 0 < factor) {maxInner : Nat} :
    ∀ {fuel i : Nat} {lambda : K} {r r' : Result K} {fs fs' : List F} {log : List (Iteration F K)}, 0 < lambda →
      lmLoop P factor maxInner fuel i lambda r fs = .ok (r', fs', log) → Q fs →
        (∀ it ∈ log, ∃ H b, Solved P Q it H b) ∧ (∀ it, log.getLast? = some it → Solved P Q it r'.H r'.b) ∧ (log = [] → r' = r) := by
  intro fuel
  induction fuel with
  | zero =>
    intro i lambda r r' fs fs' log hl h hq
    unfold lmLoop at h
    cases h
    exact ⟨by simp, by simp, fun _ => rfl⟩
  | succ fuel ih =>
    intro i lambda r r' fs fs' log hl h hq
    unfold lmLoop at h
    by_cases hc : r.converged = true
    · rw [if_pos hc] at h
      cases h
      exact ⟨by simp, by simp, fun _ => rfl⟩
    · rw [if_neg hc] at h
      obtain ⟨⟨fs1, s⟩, hlin, h⟩ := res_bind h
      have hq1 := hQ _ _ _ _ hq hlin
      simp only at h
      obtain ⟨inner, hin, h⟩ := res_bind h
      obtain ⟨hl', hs⟩ := lmInner_steps hf hl hin
      cases ha : inner.accepted with
      | none =>
        rw [ha] at h
        simp only [Except.ok.injEq, Prod.mk.injEq] at h
        obtain ⟨rfl, rfl, rfl⟩ := h
        have key : Solved P Q ⟨r.T, fs1, (P.general.updateLinearized r.T s).2.2, inner.evals, none, r.T, inner.e⟩
            (P.general.updateLinearized r.T s).1 (P.general.updateLinearized r.T s).2.1 := ⟨fs, s, hq, hlin, rfl, by intro d h; cases h⟩
        refine ⟨?_, ?_, by simp⟩
        · intro it hit
          rw [List.mem_singleton.1 hit]
          exact ⟨_, _, key⟩
        · intro it hit
          simp only [List.getLast?_singleton, Option.some.injEq] at hit
          subst hit
          exact key
      | some dT =>
        obtain ⟨d, newT⟩ := dT
        rw [ha] at h
        simp only at h
        obtain ⟨⟨r2, fs2, log2⟩, hrec, h⟩ := res_bind h
        simp only [Except.ok.injEq, Prod.mk.injEq] at h
        obtain ⟨rfl, rfl, rfl⟩ := h
        have key : Solved P Q ⟨r.T, fs1, (P.general.updateLinearized r.T s).2.2, inner.evals, some d, newT, inner.e⟩
            (P.general.updateLinearized r.T s).1 (P.general.updateLinearized r.T s).2.1 := ⟨fs, s, hq, hlin, rfl, by intro d' h; cases h; exact hs d newT ha⟩
        obtain ⟨a, b, c⟩ := ih hl' hrec hq1
        refine ⟨?_, ?_, by simp⟩
        · intro it hit
          rcases List.mem_cons.1 hit with rfl | hit
          · exact ⟨_, _, key⟩
          · exact a it hit
        · intro it hit
          by_cases hne : log2 = []
          · subst hne
            simp only [List.getLast?_singleton, Option.some.injEq] at hit
            subst hit
            rw [c rfl]
            exact key
          · rw [List.getLast?_cons] at hit
            obtain ⟨x, hx⟩ : ∃ x, log2.getLast? = some x := ⟨_, List.getLast?_eq_some_getLast hne⟩
            rw [hx] at hit
            simp only [Option.getD_some, Option.some.injEq] at hit
            subst hit
            exact b x hx

theorem gnLoop_steps {P : Problem F K} {Q : List F → Prop} (hQ : ∀ T fs fs' s, Q fs → P.linearize T fs = .ok (fs', s) → Q fs') {lambda : K} (hl : 0 < lambda) :
    ∀ {fuel i : Nat} {r r' : Result K} {fs fs' : List F} {log : List (Iteration F K)},
      gnLoop P lambda fuel i r fs = .ok (r', fs', log) → Q fs →
        (∀ it ∈ log, ∃ H b, Solved P Q it H b) ∧ (∀ it, log.getLast? = some it → Solved P Q it r'.H r'.b) ∧ (log = [] → r' = r) := by
  intro fuel
  induction fuel with
  | zero =>
    intro i r r' fs fs' log h hq
    unfold gnLoop at h
    cases h
    exact ⟨by simp, by simp, fun _ => rfl⟩
  | succ fuel ih =>
    intro i r r' fs fs' log h hq
    unfold gnLoop at h
    by_cases hc : r.converged = true
    · rw [if_pos hc] at h
      cases h
      exact ⟨by simp, by simp, fun _ => rfl⟩
    · rw [if_neg hc] at h
      obtain ⟨⟨fs1, s⟩, hlin, h⟩ := res_bind h
      have hq1 := hQ _ _ _ _ hq hlin
      simp only at h
      obtain ⟨⟨r2, fs2, log2⟩, hrec, h⟩ := res_bind h
      simp only [Except.ok.injEq, Prod.mk.injEq] at h
      obtain ⟨rfl, rfl, rfl⟩ := h
      obtain ⟨a, b, c⟩ := ih hrec hq1
      have key : Solved P Q ⟨r.T, fs1, (P.general.updateLinearized r.T s).2.2, 0, some (P.delta lambda (P.general.updateLinearized r.T s).1 (P.general.updateLinearized r.T s).2.1),
          r.T.mul (P.exp (P.delta lambda (P.general.updateLinearized r.T s).1 (P.general.updateLinearized r.T s).2.1)), (P.general.updateLinearized r.T s).2.2⟩
          (P.general.updateLinearized r.T s).1 (P.general.updateLinearized r.T s).2.1 := ⟨fs, s, hq, hlin, rfl, by intro d' h; cases h; exact ⟨lambda, hl, rfl⟩⟩
      refine ⟨?_, ?_, by simp⟩
      · intro it hit
        rcases List.mem_cons.1 hit with rfl | hit
        · exact ⟨_, _, key⟩
        · exact a it hit
      · intro it hit
        by_cases hne : log2 = []
        · subst hne
          simp only [List.getLast?_singleton, Option.some.injEq] at hit
          subst hit
          rw [c rfl]
          exact key
        · rw [List.getLast?_cons] at hit
          obtain ⟨x, hx⟩ : ∃ x, log2.getLast? = some x := ⟨_, List.getLast?_eq_some_getLast hne⟩
          rw [hx] at hit
          simp only [Option.getD_some, Option.some.injEq] at hit
          subst hit
          exact b x hx

end Verif.Proofs
