import Verif.Model.Optimizer
import Verif.Proofs.Parallel
import Verif.Proofs.Factors

/-! Invariants of the optimiser loops. -/

set_option linter.unusedSectionVars false

namespace Verif.Proofs

open Matrix Verif Verif.Factors Verif.Optimizer

variable {K : Type} [Field K] [LinearOrder K] {F : Type}

theorem res_bind {A B : Type} {x : Res A} {f : A → Res B} {b : B} (h : (x >>= f) = .ok b) : ∃ a, x = .ok a ∧ f a = .ok b := by
  cases x with
  | error e => rw [err_bind] at h; cases h
  | ok a => rw [ok_bind] at h; exact ⟨a, rfl, h⟩

/-- What one recorded outer iteration satisfies, whatever the general factor. -/
structure IterOK (P : Problem F K) (maxInner : Nat) (it : Iteration F K) : Prop where
  lin : ∃ fs s, P.linearize it.T0 fs = .ok (it.factors, s) ∧ it.e0 = (P.general.updateLinearized it.T0 s).2.2
  evals : it.evals ≤ maxInner
  rejected : it.step = none → it.T1 = it.T0
  accepted : ∀ d, it.step = some d → it.T1 = it.T0.mul (P.exp d) ∧ P.error it.T1 it.factors = .ok it.e1 ∧ 1 ≤ it.evals

/-- Invariants of the lambda loop. -/
theorem lmInner_spec {P : Problem F K} {factor : K} {T : Pose K} {fs : List F} {H : Matrix (Fin 6) (Fin 6) K} {b : Fin 6 → K} :
    ∀ {fuel : Nat} {lambda e : K} {r : Inner K}, lmInner P factor T fs H b fuel lambda e = .ok r →
      r.evals ≤ fuel ∧ (∀ d T1, r.accepted = some (d, T1) → T1 = T.mul (P.exp d) ∧ P.error T1 fs = .ok r.e ∧ 1 ≤ r.evals) ∧
      (r.accepted = none → r.evals = fuel) ∧
      ((∀ T e, P.general.updateError T e = e) → r.e ≤ e ∧ (r.accepted = none → r.e = e)) := by
  intro fuel
  induction fuel with
  | zero =>
    intro lambda e r h
    unfold lmInner at h
    cases h
    exact ⟨le_refl _, (by intro d T1 h; cases h), fun _ => rfl, fun _ => ⟨le_refl _, fun _ => rfl⟩⟩
  | succ fuel ih =>
    intro lambda e r h
    unfold lmInner at h
    simp only at h
    obtain ⟨newE, hE, h⟩ := res_bind h
    by_cases hle : newE ≤ P.general.updateError (T.mul (P.exp (P.delta lambda H b))) e
    · rw [if_pos hle] at h
      cases h
      refine ⟨by simp, ?_, ?_, ?_⟩
      · intro d T1 h; cases h; exact ⟨rfl, hE, le_refl _⟩
      · intro h; cases h
      · intro hg
        rw [hg] at hle
        exact ⟨hle, fun h => by cases h⟩
    · rw [if_neg hle] at h
      obtain ⟨r', hr', h⟩ := res_bind h
      cases h
      obtain ⟨i1, i2, i3, i4⟩ := ih hr'
      refine ⟨by simpa using i1, ?_, ?_, ?_⟩
      · intro d T1 h
        obtain ⟨a, b, c⟩ := i2 d T1 h
        exact ⟨a, b, by simp⟩
      · intro h; simpa using i3 h
      · intro hg
        obtain ⟨a, b⟩ := i4 hg
        rw [hg] at a b
        exact ⟨a, b⟩

/-- Facts about a whole run of an outer loop started at index `i` with result `r` and factors `fs`. -/
structure RunOK (P : Problem F K) (maxInner fuel i : Nat) (r : Result K) (fs : List F) (r' : Result K) (fs' : List F) (log : List (Iteration F K)) : Prop where
  len : log.length ≤ fuel
  iters : ∀ it ∈ log, IterOK P maxInner it
  empty : log = [] → r' = r ∧ fs' = fs
  last : ∀ it, log.getLast? = some it → fs' = it.factors ∧ r'.error = it.e1 ∧ r'.T = it.T1 ∧ r'.iterations + 1 = i + log.length ∧
    (r'.converged = true ↔ ∃ d, it.step = some d ∧ P.converged d = true)
  chain : ∀ j a b, log[j]? = some a → log[j + 1]? = some b → b.T0 = a.T1 ∧ (∃ d, a.step = some d ∧ P.converged d = false)
  first : ∀ a, log.head? = some a → a.T0 = r.T
  budget : log.length < fuel → r'.converged = true ∨ ∃ it, log.getLast? = some it ∧ it.step = none
  inl : r'.numInliers = r.numInliers

theorem RunOK.nil {P : Problem F K} {maxInner fuel i : Nat} {r : Result K} {fs : List F} (h : fuel = 0 ∨ r.converged = true) :
    RunOK P maxInner fuel i r fs r fs [] where
  len := Nat.zero_le _
  iters := by simp
  empty := fun _ => ⟨rfl, rfl⟩
  last := by simp
  chain := by simp
  first := by simp
  budget := by
    intro hl
    rcases h with h | h
    · simp at hl; omega
    · exact .inl h
  inl := rfl

theorem RunOK.cons {P : Problem F K} {maxInner fuel i : Nat} {r r1 r2 : Result K} {fs fs2 : List F} {it : Iteration F K} {log : List (Iteration F K)}
    {d : Fin 6 → K} (hit : IterOK P maxInner it) (h0 : it.T0 = r.T) (hs : it.step = some d) (h1 : r1.T = it.T1) (h2 : r1.converged = P.converged d)
    (h3 : r1.iterations = i) (h4 : r1.error = it.e1) (h5 : r1.numInliers = r.numInliers)
    (hrun : RunOK P maxInner fuel (i + 1) r1 it.factors r2 fs2 log) (hstop : P.converged d = true → log = []) :
    RunOK P maxInner (fuel + 1) i r fs r2 fs2 (it :: log) where
  len := by have := hrun.len; simp only [List.length_cons]; omega
  iters := by
    intro x hx
    rcases List.mem_cons.1 hx with rfl | hx
    · exact hit
    · exact hrun.iters x hx
  empty := by simp
  last := by
    intro x hx
    cases hl : log with
    | nil =>
      rw [hl] at hx
      simp at hx
      subst hx
      obtain ⟨e1, e2⟩ := hrun.empty hl
      subst e1 e2
      refine ⟨rfl, h4, h1, ?_, ?_⟩
      · simp [h3]
      · rw [h2]
        constructor
        · intro hc; exact ⟨d, hs, hc⟩
        · rintro ⟨d', hd', hc⟩
          rw [hs] at hd'
          cases hd'
          exact hc
    | cons y ys =>
      have hx' : log.getLast? = some x := by
        rw [hl] at hx ⊢
        simpa [List.getLast?_cons_cons] using hx
      obtain ⟨a, b, c, e, f⟩ := hrun.last x hx'
      refine ⟨a, b, c, ?_, f⟩
      rw [hl] at e
      simp only [List.length_cons] at e ⊢
      omega
  chain := by
    intro j a b ha hb
    cases j with
    | zero =>
      simp only [List.getElem?_cons_zero, Option.some.injEq] at ha
      subst ha
      rw [List.getElem?_cons_succ] at hb
      have hh : log.head? = some b := by rw [List.head?_eq_getElem?]; exact hb
      refine ⟨(hrun.first b hh).trans h1, d, hs, ?_⟩
      cases hc : P.converged d with
      | false => rfl
      | true =>
        rw [hstop hc] at hb
        simp at hb
    | succ j =>
      rw [List.getElem?_cons_succ] at ha hb
      exact hrun.chain j a b ha hb
  first := by intro a ha; simp at ha; subst ha; exact h0
  budget := by
    intro hlt
    rcases hrun.budget (by simpa using hlt) with h | ⟨x, hx, hx2⟩
    · exact .inl h
    · right
      refine ⟨x, ?_, hx2⟩
      cases hl : log with
      | nil => rw [hl] at hx; simp at hx
      | cons y ys => rw [List.getLast?_cons_cons, ← hl]; exact hx
  inl := hrun.inl.trans h5

theorem gnLoop_spec {P : Problem F K} {lambda : K} :
    ∀ {fuel i : Nat} {r r' : Result K} {fs fs' : List F} {log : List (Iteration F K)}, gnLoop P lambda fuel i r fs = .ok (r', fs', log) →
      log.length ≤ fuel ∧ (log = [] → r' = r ∧ fs' = fs) ∧ (∀ it ∈ log, (∃ fs s, P.linearize it.T0 fs = .ok (it.factors, s) ∧ it.e0 = (P.general.updateLinearized it.T0 s).2.2 ∧
          it.step = some (P.delta lambda (P.general.updateLinearized it.T0 s).1 (P.general.updateLinearized it.T0 s).2.1)) ∧
          it.evals = 0 ∧ it.e1 = it.e0 ∧ ∃ d, it.step = some d ∧ it.T1 = it.T0.mul (P.exp d)) ∧
      (∀ it, log.getLast? = some it → fs' = it.factors ∧ r'.error = it.e1 ∧ r'.T = it.T1 ∧ r'.iterations + 1 = i + log.length ∧
        (r'.converged = true ↔ ∃ d, it.step = some d ∧ P.converged d = true)) ∧
      (∀ j a b, log[j]? = some a → log[j + 1]? = some b → b.T0 = a.T1 ∧ (∃ d, a.step = some d ∧ P.converged d = false)) ∧
      (∀ a, log.head? = some a → a.T0 = r.T) ∧ (log.length < fuel → r'.converged = true) ∧ (r.converged = true → log = []) ∧ r'.numInliers = r.numInliers := by
  intro fuel
  induction fuel with
  | zero =>
    intro i r r' fs fs' log h
    unfold gnLoop at h
    cases h
    simp
  | succ fuel ih =>
    intro i r r' fs fs' log h
    unfold gnLoop at h
    by_cases hc : r.converged = true
    · rw [if_pos hc] at h
      cases h
      simp [hc]
    · rw [if_neg hc] at h
      obtain ⟨⟨fs1, s⟩, hlin, h⟩ := res_bind h
      simp only at h
      obtain ⟨⟨r2, fs2, log2⟩, hrec, h⟩ := res_bind h
      simp only [Except.ok.injEq, Prod.mk.injEq] at h
      obtain ⟨rfl, rfl, rfl⟩ := h
      obtain ⟨i1, i2, i3, i4, i5, i6, i7, i8, i9⟩ := ih hrec
      refine ⟨by simpa using i1, by simp, ?_, ?_, ?_, ?_, ?_, fun h => absurd h hc, i9⟩
      · intro it hit
        rcases List.mem_cons.1 hit with rfl | hit
        · exact ⟨⟨fs, s, hlin, rfl, rfl⟩, rfl, rfl, _, rfl, rfl⟩
        · exact i3 it hit
      · intro it hit
        cases hl : log2 with
        | nil =>
          rw [hl] at hit
          simp at hit
          subst hit
          obtain ⟨e1, e2⟩ := i2 hl
          subst e1 e2
          refine ⟨rfl, rfl, rfl, by simp, ?_⟩
          simp
        | cons y ys =>
          have hx' : log2.getLast? = some it := by
            rw [hl] at hit ⊢
            simpa [List.getLast?_cons_cons] using hit
          obtain ⟨a, b, c, e, f⟩ := i4 it hx'
          refine ⟨a, b, c, ?_, f⟩
          rw [hl] at e
          simp only [List.length_cons] at e ⊢
          omega
      · intro j a b ha hb
        cases j with
        | zero =>
          simp only [List.getElem?_cons_zero, Option.some.injEq] at ha
          subst ha
          rw [List.getElem?_cons_succ] at hb
          have hh : log2.head? = some b := by rw [List.head?_eq_getElem?]; exact hb
          refine ⟨i6 b hh, _, rfl, ?_⟩
          by_contra hcd
          have := i8 (by simpa using hcd)
          rw [this] at hb
          simp at hb
        | succ j =>
          rw [List.getElem?_cons_succ] at ha hb
          exact i5 j a b ha hb
      · intro a ha; simp at ha; subst ha; rfl
      · intro hlt; exact i7 (by simpa using hlt)

/-- LM outer loop. -/
theorem lmLoop_spec {P : Problem F K} {factor : K} {maxInner : Nat} :
    ∀ {fuel i : Nat} {lambda : K} {r r' : Result K} {fs fs' : List F} {log : List (Iteration F K)},
      lmLoop P factor maxInner fuel i lambda r fs = .ok (r', fs', log) →
      RunOK P maxInner fuel i r fs r' fs' log ∧ (r.converged = true → log = []) ∧
      ((∀ T e, P.general.updateError T e = e) → ∀ it ∈ log, it.e1 ≤ it.e0 ∧ (it.step = none → it.e1 = it.e0)) ∧
      ∀ it ∈ log, it.step = none → it.evals = maxInner := by
  intro fuel
  induction fuel with
  | zero =>
    intro i lambda r r' fs fs' log h
    unfold lmLoop at h
    cases h
    exact ⟨RunOK.nil (.inl rfl), fun _ => rfl, by simp, by simp⟩
  | succ fuel ih =>
    intro i lambda r r' fs fs' log h
    unfold lmLoop at h
    by_cases hc : r.converged = true
    · rw [if_pos hc] at h
      cases h
      exact ⟨RunOK.nil (.inr hc), fun _ => rfl, by simp, by simp⟩
    · rw [if_neg hc] at h
      obtain ⟨⟨fs1, s⟩, hlin, h⟩ := res_bind h
      simp only at h
      obtain ⟨inner, hin, h⟩ := res_bind h
      obtain ⟨k1, k2, k3, k4⟩ := lmInner_spec hin
      cases ha : inner.accepted with
      | none =>
        rw [ha] at h
        simp only [Except.ok.injEq, Prod.mk.injEq] at h
        obtain ⟨rfl, rfl, rfl⟩ := h
        refine ⟨?_, fun h => absurd h hc, ?_, ?_⟩
        · refine ⟨by simp, ?_, by simp, ?_, ?_, ?_, ?_, rfl⟩
          · intro it hit
            simp only [List.mem_singleton] at hit
            subst hit
            refine ⟨⟨fs, s, hlin, rfl⟩, k1, fun _ => rfl, ?_⟩
            intro d hd; cases hd
          · intro it hit
            simp at hit
            subst hit
            refine ⟨rfl, rfl, rfl, by simp, ?_⟩
            simp [hc]
          · intro j a b ha hb; simp at hb
          · intro a ha; simp at ha; subst ha; rfl
          · intro _; right; exact ⟨_, rfl, rfl⟩
        · intro hg it hit
          simp only [List.mem_singleton] at hit
          subst hit
          obtain ⟨a, b⟩ := k4 hg
          exact ⟨a, fun _ => b ha⟩
        · intro it hit _
          simp only [List.mem_singleton] at hit
          subst hit
          exact k3 ha
      | some dT =>
        obtain ⟨d, newT⟩ := dT
        rw [ha] at h
        simp only at h
        obtain ⟨⟨r2, fs2, log2⟩, hrec, h⟩ := res_bind h
        simp only [Except.ok.injEq, Prod.mk.injEq] at h
        obtain ⟨rfl, rfl, rfl⟩ := h
        obtain ⟨i1, i2, i3, i4⟩ := ih hrec
        obtain ⟨a1, a2, a3⟩ := k2 d newT ha
        refine ⟨?_, fun h => absurd h hc, ?_, ?_⟩
        · refine RunOK.cons (d := d) ?_ rfl rfl ?_ ?_ ?_ ?_ ?_ i1 (fun h => i2 h)
          · refine ⟨⟨fs, s, hlin, rfl⟩, k1, ?_, ?_⟩
            · intro h; cases h
            · intro d' hd'
              cases hd'
              exact ⟨a1, a2, a3⟩
          all_goals rfl
        · intro hg it hit
          rcases List.mem_cons.1 hit with rfl | hit
          · obtain ⟨a, b⟩ := k4 hg
            exact ⟨a, fun h => by cases h⟩
          · exact i3 hg it hit
        · intro it hit hs
          rcases List.mem_cons.1 hit with rfl | hit
          · cases hs
          · exact i4 it hit hs

/-- A property of the factor states that every linearisation keeps (or establishes) holds throughout a run. -/
theorem lmLoop_keep {P : Problem F K} {Q : List F → Prop} (hQ : ∀ T fs fs' s, Q fs → P.linearize T fs = .ok (fs', s) → Q fs') {factor : K} {maxInner : Nat} :
    ∀ {fuel i : Nat} {lambda : K} {r r' : Result K} {fs fs' : List F} {log : List (Iteration F K)},
      lmLoop P factor maxInner fuel i lambda r fs = .ok (r', fs', log) → Q fs → Q fs' ∧
        ∀ it ∈ log, Q it.factors ∧ ∃ fs0 s, Q fs0 ∧ P.linearize it.T0 fs0 = .ok (it.factors, s) ∧ it.e0 = (P.general.updateLinearized it.T0 s).2.2 := by
  intro fuel
  induction fuel with
  | zero =>
    intro i lambda r r' fs fs' log h hq
    unfold lmLoop at h
    cases h
    exact ⟨hq, by simp⟩
  | succ fuel ih =>
    intro i lambda r r' fs fs' log h hq
    unfold lmLoop at h
    by_cases hc : r.converged = true
    · rw [if_pos hc] at h
      cases h
      exact ⟨hq, by simp⟩
    · rw [if_neg hc] at h
      obtain ⟨⟨fs1, s⟩, hlin, h⟩ := res_bind h
      have hq1 := hQ _ _ _ _ hq hlin
      simp only at h
      obtain ⟨inner, hin, h⟩ := res_bind h
      cases ha : inner.accepted with
      | none =>
        rw [ha] at h
        simp only [Except.ok.injEq, Prod.mk.injEq] at h
        obtain ⟨rfl, rfl, rfl⟩ := h
        refine ⟨hq1, ?_⟩
        intro it hit
        simp only [List.mem_singleton] at hit
        subst hit
        exact ⟨hq1, fs, s, hq, hlin, rfl⟩
      | some dT =>
        obtain ⟨d, newT⟩ := dT
        rw [ha] at h
        simp only at h
        obtain ⟨⟨r2, fs2, log2⟩, hrec, h⟩ := res_bind h
        simp only [Except.ok.injEq, Prod.mk.injEq] at h
        obtain ⟨rfl, rfl, rfl⟩ := h
        obtain ⟨a, b⟩ := ih hrec hq1
        refine ⟨a, ?_⟩
        intro it hit
        rcases List.mem_cons.1 hit with rfl | hit
        · exact ⟨hq1, fs, s, hq, hlin, rfl⟩
        · exact b it hit

theorem gnLoop_keep {P : Problem F K} {Q : List F → Prop} (hQ : ∀ T fs fs' s, Q fs → P.linearize T fs = .ok (fs', s) → Q fs') {lambda : K} :
    ∀ {fuel i : Nat} {r r' : Result K} {fs fs' : List F} {log : List (Iteration F K)},
      gnLoop P lambda fuel i r fs = .ok (r', fs', log) → Q fs → Q fs' ∧
        ∀ it ∈ log, Q it.factors ∧ ∃ fs0 s, Q fs0 ∧ P.linearize it.T0 fs0 = .ok (it.factors, s) ∧ it.e0 = (P.general.updateLinearized it.T0 s).2.2 := by
  intro fuel
  induction fuel with
  | zero =>
    intro i r r' fs fs' log h hq
    unfold gnLoop at h
    cases h
    exact ⟨hq, by simp⟩
  | succ fuel ih =>
    intro i r r' fs fs' log h hq
    unfold gnLoop at h
    by_cases hc : r.converged = true
    · rw [if_pos hc] at h
      cases h
      exact ⟨hq, by simp⟩
    · rw [if_neg hc] at h
      obtain ⟨⟨fs1, s⟩, hlin, h⟩ := res_bind h
      have hq1 := hQ _ _ _ _ hq hlin
      simp only at h
      obtain ⟨⟨r2, fs2, log2⟩, hrec, h⟩ := res_bind h
      simp only [Except.ok.injEq, Prod.mk.injEq] at h
      obtain ⟨rfl, rfl, rfl⟩ := h
      obtain ⟨a, b⟩ := ih hrec hq1
      refine ⟨a, ?_⟩
      intro it hit
      rcases List.mem_cons.1 hit with rfl | hit
      · exact ⟨hq1, fs, s, hq, hlin, rfl⟩
      · exact b it hit

/-- One accepted iteration of the outer loop. -/
theorem lmLoop_step {P : Problem F K} {factor : K} {maxInner fuel i : Nat} {lambda : K} {r r2 : Result K} {fs fs1 fs2 : List F} {log : List (Iteration F K)} {s : Sys K}
    {H : Matrix (Fin 6) (Fin 6) K} {b : Fin 6 → K} {e : K} {inner : Inner K} {d : Fin 6 → K} {newT : Pose K} (hc : r.converged = false)
    (hlin : P.linearize r.T fs = .ok (fs1, s)) (hg : P.general.updateLinearized r.T s = (H, b, e)) (hin : lmInner P factor r.T fs1 H b maxInner lambda e = .ok inner)
    (ha : inner.accepted = some (d, newT))
    (hrec : lmLoop P factor maxInner fuel (i + 1) inner.lambda { r with converged := P.converged d, T := newT, iterations := i, H := H, b := b, error := inner.e } fs1 =
      .ok (r2, fs2, log)) :
    lmLoop P factor maxInner (fuel + 1) i lambda r fs = .ok (r2, fs2, ⟨r.T, fs1, e, inner.evals, some d, newT, inner.e⟩ :: log) := by
  unfold lmLoop
  rw [if_neg (by simp [hc]), hlin, ok_bind]
  simp only [hg]
  rw [hin, ok_bind, ha]
  simp only
  rw [hrec, ok_bind]

/-- One iteration of the Gauss-Newton loop. -/
theorem gnLoop_step {P : Problem F K} {fuel i : Nat} {lambda : K} {r r2 : Result K} {fs fs1 fs2 : List F} {log : List (Iteration F K)} {s : Sys K}
    {H : Matrix (Fin 6) (Fin 6) K} {b : Fin 6 → K} {e : K} (hc : r.converged = false) (hlin : P.linearize r.T fs = .ok (fs1, s))
    (hg : P.general.updateLinearized r.T s = (H, b, e))
    (hrec : gnLoop P lambda fuel (i + 1) { r with converged := P.converged (P.delta lambda H b), T := r.T.mul (P.exp (P.delta lambda H b)), iterations := i, H := H, b := b, error := e } fs1 =
      .ok (r2, fs2, log)) :
    gnLoop P lambda (fuel + 1) i r fs = .ok (r2, fs2, ⟨r.T, fs1, e, 0, some (P.delta lambda H b), r.T.mul (P.exp (P.delta lambda H b)), e⟩ :: log) := by
  unfold gnLoop
  rw [if_neg (by simp [hc]), hlin, ok_bind]
  simp only [hg]
  rw [hrec, ok_bind]

/-- No call faults: no run faults. -/
theorem lmInner_total {P : Problem F K} (he : ∀ T fs, ∃ e, P.error T fs = .ok e) {factor : K} {T : Pose K} {fs : List F} {H : Matrix (Fin 6) (Fin 6) K} {b : Fin 6 → K} :
    ∀ {fuel : Nat} {lambda e : K}, ∃ r, lmInner P factor T fs H b fuel lambda e = .ok r := by
  intro fuel
  induction fuel with
  | zero => intro lambda e; exact ⟨_, rfl⟩
  | succ fuel ih =>
    intro lambda e
    unfold lmInner
    simp only
    obtain ⟨newE, hE⟩ := he (T.mul (P.exp (P.delta lambda H b))) fs
    rw [hE, ok_bind]
    split
    · exact ⟨_, rfl⟩
    · obtain ⟨r, hr⟩ := ih (lambda := lambda * factor) (e := P.general.updateError (T.mul (P.exp (P.delta lambda H b))) e)
      rw [hr, ok_bind]
      exact ⟨_, rfl⟩

theorem lmLoop_total {P : Problem F K} (hl : ∀ T fs, ∃ x, P.linearize T fs = .ok x) (he : ∀ T fs, ∃ e, P.error T fs = .ok e) {factor : K} {maxInner : Nat} :
    ∀ {fuel i : Nat} {lambda : K} {r : Result K} {fs : List F}, ∃ x, lmLoop P factor maxInner fuel i lambda r fs = .ok x := by
  intro fuel
  induction fuel with
  | zero => intros; exact ⟨_, rfl⟩
  | succ fuel ih =>
    intro i lambda r fs
    unfold lmLoop
    split
    · exact ⟨_, rfl⟩
    · obtain ⟨⟨fs1, s⟩, hx⟩ := hl r.T fs
      rw [hx, ok_bind]
      simp only
      obtain ⟨inner, hin⟩ := lmInner_total he (factor := factor) (T := r.T) (fs := fs1) (H := (P.general.updateLinearized r.T s).1)
        (b := (P.general.updateLinearized r.T s).2.1) (fuel := maxInner) (lambda := lambda) (e := (P.general.updateLinearized r.T s).2.2)
      rw [hin, ok_bind]
      cases ha : inner.accepted with
      | none => exact ⟨_, rfl⟩
      | some dT =>
        obtain ⟨d, newT⟩ := dT
        simp only
        obtain ⟨x, hx⟩ := ih (i := i + 1) (lambda := inner.lambda) (r := { r with converged := P.converged d, T := newT, iterations := i, H := (P.general.updateLinearized r.T s).1, b := (P.general.updateLinearized r.T s).2.1, error := inner.e }) (fs := fs1)
        rw [hx, ok_bind]
        exact ⟨_, rfl⟩

theorem gnLoop_total {P : Problem F K} (hl : ∀ T fs, ∃ x, P.linearize T fs = .ok x) {lambda : K} :
    ∀ {fuel i : Nat} {r : Result K} {fs : List F}, ∃ x, gnLoop P lambda fuel i r fs = .ok x := by
  intro fuel
  induction fuel with
  | zero => intros; exact ⟨_, rfl⟩
  | succ fuel ih =>
    intro i r fs
    unfold gnLoop
    split
    · exact ⟨_, rfl⟩
    · obtain ⟨⟨fs1, s⟩, hx⟩ := hl r.T fs
      rw [hx, ok_bind]
      simp only
      obtain ⟨x, hx⟩ := ih (i := i + 1) (r := { r with converged := P.converged (P.delta lambda (P.general.updateLinearized r.T s).1 (P.general.updateLinearized r.T s).2.1), T := r.T.mul (P.exp (P.delta lambda (P.general.updateLinearized r.T s).1 (P.general.updateLinearized r.T s).2.1)), iterations := i, H := (P.general.updateLinearized r.T s).1, b := (P.general.updateLinearized r.T s).2.1, error := (P.general.updateLinearized r.T s).2.2 }) (fs := fs1)
      rw [hx, ok_bind]
      exact ⟨_, rfl⟩

end Verif.Proofs
