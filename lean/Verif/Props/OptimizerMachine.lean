import Verif.Model.RegistrationMachine
import Mathlib.Tactic.NormNum
import Mathlib.Data.Rat.Defs
import Mathlib.Algebra.Order.Ring.Unbundled.Rat

/-!
C97: the optimisers in machine arithmetic. Nothing is assumed about the numbers but that a NaN compares false with everything, so rounding, overflow and NaN are covered.
-/

set_option linter.unusedSectionVars false
set_option linter.unusedSimpArgs false
set_option linter.unnecessarySeqFocus false

namespace Verif.Spec

open Verif Verif.Machine

/-- A value that is not even at most itself, the IEEE definition of NaN. -/
def IsNaN {V : Type} [LE V] (v : V) : Prop := ¬ v ≤ v

/-- IEEE comparisons: a NaN on either side makes them false. -/
structure NaNCompares (V : Type) [LE V] : Prop where
  left : ∀ a b : V, IsNaN a → ¬ a ≤ b
  right : ∀ a b : V, IsNaN b → ¬ a ≤ b

variable {F V P H B D : Type} [LE V]

/-- Each iteration starts from the pose the one before ended with. -/
def Linked (T0 : P) : List (Iteration F V P H B D) → P → Prop
  | [], T => T = T0
  | it :: rest, T => it.T0 = T0 ∧ Linked it.T1 rest T

/-- One outer iteration of Levenberg-Marquardt with at most `maxInner` trials: the system is that of the pose and the factors; an applied step solves the damped system, and the error computed for the
new pose compares as at most the error computed for the old one; without such a step all trials were made and the pose is kept. -/
structure LmIteration (p : Machine.Problem F V P H B D) (maxInner : Nat) (it : Iteration F V P H B D) : Prop where
  system : ∃ fs s, p.linearize it.T0 fs = .ok (it.factors, s) ∧ p.updateLinearized it.T0 s = (it.H, it.b, it.e0)
  applied : ∀ d, it.step = some d → (∃ lambda, d = p.delta lambda it.H it.b) ∧ it.T1 = p.step it.T0 d ∧ p.error it.T1 it.factors = .ok it.e1 ∧ it.e1 ≤ it.e0 ∧ it.evals ≤ maxInner
  kept : it.step = none → it.T1 = it.T0 ∧ it.e1 = it.e0 ∧ it.evals = maxInner

/-- One iteration of Gauss-Newton: the step is applied in any case. -/
structure GnIteration (p : Machine.Problem F V P H B D) (lambda : V) (it : Iteration F V P H B D) : Prop where
  system : ∃ fs s, p.linearize it.T0 fs = .ok (it.factors, s) ∧ p.updateLinearized it.T0 s = (it.H, it.b, it.e0)
  applied : it.step = some (p.delta lambda it.H it.b) ∧ it.T1 = p.step it.T0 (p.delta lambda it.H it.b) ∧ it.e1 = it.e0

/-- What the result says about the iterations: it describes the last one, counts those before it, and says converged exactly if the step of the last one passed the test. Iterations stop only after
convergence, without an acceptable step, or after `max` of them. -/
structure Describes (p : Machine.Problem F V P H B D) (max : Nat) (T0 : P) (log : List (Iteration F V P H B D)) (r : Machine.Result V P H B) (fs : List F) : Prop where
  budget : log.length ≤ max
  linked : Linked T0 log r.T
  goes_on : ∀ it ∈ log.dropLast, ∃ d, it.step = some d ∧ p.converged d = false
  last : ∀ it, log.getLast? = some it → r.H = it.H ∧ r.b = it.b ∧ r.error = it.e1 ∧ r.iterations + 1 = log.length ∧ fs = it.factors ∧
    (r.converged = true ↔ ∃ d, it.step = some d ∧ p.converged d = true) ∧ (it.step.isSome = true → r.converged = false → log.length = max)
  none : log = [] → r.converged = false ∧ r.iterations = 0 ∧ max = 0
  inliers : r.numInliers = fs.countP p.inlier

end Verif.Spec

namespace Verif.Props

open Verif Verif.Machine Verif.Spec

section Loops

variable {F V P H B D : Type} [Zero V] [Add V] [Mul V] [Div V] [LE V] [DecidableLE V] [Zero H] [Add H] [Zero B] [Add B]

theorem machine_inner (p : Machine.Problem F V P H B D) (hU : ∀ T e, p.updateError T e = e) (factor : V) (T : P) (fs : List F) (A : H) (b : B) :
    ∀ (fuel : Nat) (lambda e : V) {r : Machine.Inner V P D}, Machine.lmInner p factor T fs A b fuel lambda e = .ok r →
    (∀ d T1, r.accepted = some (d, T1) → (∃ l, d = p.delta l A b) ∧ T1 = p.step T d ∧ p.error T1 fs = .ok r.e ∧ r.e ≤ e ∧ r.evals ≤ fuel) ∧
    (r.accepted = none → r.e = e ∧ r.evals = fuel)
  | 0, lambda, e, r, h => by
    simp only [Machine.lmInner, Except.ok.injEq] at h
    subst h
    exact ⟨(by intro d T1 h; cases h), fun _ => ⟨rfl, rfl⟩⟩
  | fuel + 1, lambda, e, r, h => by
    simp only [Machine.lmInner, bind, Except.bind, hU] at h
    rcases he : p.error (p.step T (p.delta lambda A b)) fs with x | newE
    · rw [he] at h; simp at h
    · rw [he] at h
      simp only at h
      split at h
      · rename_i hle
        cases h
        refine ⟨?_, by intro h; cases h⟩
        intro d T1 hd
        simp only [Option.some.injEq, Prod.mk.injEq] at hd
        obtain ⟨rfl, rfl⟩ := hd
        exact ⟨⟨_, rfl⟩, rfl, he, hle, by simp only; omega⟩
      · rcases hi : Machine.lmInner p factor T fs A b fuel (lambda * factor) e with x | r1
        · rw [hi] at h; simp at h
        · rw [hi] at h
          simp only [Except.ok.injEq] at h
          subst h
          obtain ⟨h1, h2⟩ := machine_inner p hU factor T fs A b fuel (lambda * factor) e hi
          refine ⟨?_, ?_⟩
          · intro d T1 hd
            obtain ⟨g1, g2, g3, g4, g5⟩ := h1 d T1 hd
            exact ⟨g1, g2, g3, g4, by simp only; omega⟩
          · intro hn
            obtain ⟨g1, g2⟩ := h2 hn
            exact ⟨g1, by simp only; omega⟩

/-- What the loops keep: as `Describes`, for the iterations from number `i` on. -/
structure Rest (p : Machine.Problem F V P H B D) (max i : Nat) (r0 : Machine.Result V P H B) (fs0 : List F) (log : List (Iteration F V P H B D)) (r : Machine.Result V P H B) (fs : List F) : Prop where
  budget : log.length ≤ max
  linked : Linked r0.T log r.T
  goes_on : ∀ it ∈ log.dropLast, ∃ d, it.step = some d ∧ p.converged d = false
  last : ∀ it, log.getLast? = some it → r.H = it.H ∧ r.b = it.b ∧ r.error = it.e1 ∧ r.iterations + 1 = i + log.length ∧ fs = it.factors ∧
    (r.converged = true ↔ ∃ d, it.step = some d ∧ p.converged d = true) ∧ (it.step.isSome = true → r.converged = false → log.length = max)
  none : log = [] → r = r0 ∧ fs = fs0 ∧ (r0.converged = false → max = 0)
  stop : r0.converged = true → log = []

theorem rest_cons {p : Machine.Problem F V P H B D} {max i : Nat} {r0 r1 r : Machine.Result V P H B} {fs0 fs : List F} {log : List (Iteration F V P H B D)} (it : Iteration F V P H B D)
    {d : D} (hd : it.step = some d) (hT0 : it.T0 = r0.T) (hr1 : r1 = { r0 with converged := p.converged d, T := it.T1, iterations := i, H := it.H, b := it.b, error := it.e1 })
    (h0 : r0.converged = false) (h : Rest p max (i + 1) r1 it.factors log r fs) : Rest p (max + 1) i r0 fs0 (it :: log) r fs := by
  have hT1 : r1.T = it.T1 := by rw [hr1]
  have hc1 : r1.converged = p.converged d := by rw [hr1]
  refine ⟨by simpa using h.budget, ⟨hT0, by rw [← hT1]; exact h.linked⟩, ?_, ?_, (by intro h; cases h), by intro hc; rw [h0] at hc; cases hc⟩
  · intro it' hit'
    cases log with
    | nil => simp at hit'
    | cons it2 rest =>
      rw [List.dropLast_cons_of_ne_nil (by simp)] at hit'
      rcases List.mem_cons.1 hit' with e | e
      · subst e
        refine ⟨d, hd, ?_⟩
        rcases hc : p.converged d with _ | _
        · rfl
        · have := h.stop (by rw [hc1, hc])
          cases this
      · exact h.goes_on it' e
  · intro it' hit'
    cases log with
    | nil =>
      simp only [List.getLast?_singleton, Option.some.injEq] at hit'
      subst hit'
      obtain ⟨e1, e2, e3⟩ := h.none rfl
      subst e1
      refine ⟨by rw [hr1], by rw [hr1], by rw [hr1], by rw [hr1]; rfl, e2, ?_, ?_⟩
      · rw [hc1, hd]
        constructor
        · intro hc; exact ⟨d, rfl, hc⟩
        · rintro ⟨d', hd', hc⟩
          cases hd'; exact hc
      · intro _ hc
        simp [e3 hc]
    | cons it2 rest =>
      rw [List.getLast?_cons_cons] at hit'
      obtain ⟨g1, g2, g3, g4, g5, g6, g7⟩ := h.last it' hit'
      refine ⟨g1, g2, g3, ?_, g5, g6, ?_⟩
      · simp only [List.length_cons] at g4 ⊢; omega
      · intro a b
        have := g7 a b
        simp only [List.length_cons] at this ⊢; omega

theorem machine_lm_rest (p : Machine.Problem F V P H B D) (hU : ∀ T e, p.updateError T e = e) (factor : V) (maxInner : Nat) :
    ∀ (fuel i : Nat) (lambda : V) (r0 : Machine.Result V P H B) (fs0 : List F) {r fs log}, Machine.lmLoop p factor maxInner fuel i lambda r0 fs0 = .ok (r, fs, log) →
      Rest p fuel i r0 fs0 log r fs ∧ ∀ it ∈ log, LmIteration p maxInner it
  | 0, i, lambda, r0, fs0, r, fs, log, h => by
    simp only [Machine.lmLoop, Except.ok.injEq, Prod.mk.injEq] at h
    obtain ⟨rfl, rfl, rfl⟩ := h
    exact ⟨⟨le_refl _, rfl, by simp, by simp, fun _ => ⟨rfl, rfl, fun _ => rfl⟩, fun _ => rfl⟩, by simp⟩
  | fuel + 1, i, lambda, r0, fs0, r, fs, log, h => by
    simp only [Machine.lmLoop] at h
    split at h
    · rename_i hc
      simp only [Except.ok.injEq, Prod.mk.injEq] at h
      obtain ⟨rfl, rfl, rfl⟩ := h
      exact ⟨⟨Nat.zero_le _, rfl, by simp, by simp, fun _ => ⟨rfl, rfl, fun h => by rw [hc] at h; cases h⟩, fun _ => rfl⟩, by simp⟩
    · rename_i hc
      have hc : r0.converged = false := by simpa using hc
      rcases hl : p.linearize r0.T fs0 with x | ⟨fs1, s⟩
      · simp [bind, Except.bind, hl] at h
      rcases hs : p.updateLinearized r0.T s with ⟨A, b, e⟩
      simp only [bind, Except.bind, hl, hs] at h
      rcases hi : Machine.lmInner p factor r0.T fs1 A b maxInner lambda e with x | inner
      · rw [hi] at h; simp at h
      rw [hi] at h
      simp only at h
      obtain ⟨i1, i2⟩ := machine_inner p hU factor r0.T fs1 A b maxInner lambda e hi
      rcases ha : inner.accepted with _ | ⟨d, newT⟩
      · rw [ha] at h
        simp only [Except.ok.injEq, Prod.mk.injEq] at h
        obtain ⟨rfl, rfl, rfl⟩ := h
        obtain ⟨g1, g2⟩ := i2 ha
        refine ⟨⟨by simp, ⟨rfl, rfl⟩, by simp, ?_, (by intro h; cases h), by intro h; rw [hc] at h; cases h⟩, ?_⟩
        · intro it hit
          simp only [List.getLast?_singleton, Option.some.injEq] at hit
          subst hit
          exact ⟨rfl, rfl, rfl, rfl, rfl, ⟨(fun h => by rw [hc] at h; cases h), by rintro ⟨_, h, _⟩; cases h⟩, by intro h; cases h⟩
        · intro it hit
          simp only [List.mem_singleton] at hit
          subst hit
          exact ⟨⟨fs0, s, hl, hs⟩, (by intro d h; cases h), fun _ => ⟨rfl, g1, g2⟩⟩
      · rw [ha] at h
        simp only at h
        rcases hn : Machine.lmLoop p factor maxInner fuel (i + 1) inner.lambda
            { r0 with converged := p.converged d, T := newT, iterations := i, H := A, b := b, error := inner.e } fs1 with x | ⟨r2, fs2, log2⟩
        · rw [hn] at h; simp at h
        rw [hn] at h
        simp only [Except.ok.injEq, Prod.mk.injEq] at h
        obtain ⟨rfl, rfl, rfl⟩ := h
        obtain ⟨n1, n2⟩ := machine_lm_rest p hU factor maxInner fuel (i + 1) _ _ _ hn
        obtain ⟨g1, g2, g3, g4, g5⟩ := i1 d newT ha
        refine ⟨rest_cons _ rfl rfl rfl hc n1, ?_⟩
        intro it hit
        rcases List.mem_cons.1 hit with e | e
        · subst e
          refine ⟨⟨fs0, s, hl, hs⟩, ?_, by intro h; cases h⟩
          intro d' hd'
          cases hd'
          exact ⟨g1, g2, g3, g4, g5⟩
        · exact n2 it e

theorem machine_gn_rest (p : Machine.Problem F V P H B D) (lambda : V) :
    ∀ (fuel i : Nat) (r0 : Machine.Result V P H B) (fs0 : List F) {r fs log}, Machine.gnLoop p lambda fuel i r0 fs0 = .ok (r, fs, log) →
      Rest p fuel i r0 fs0 log r fs ∧ ∀ it ∈ log, GnIteration p lambda it
  | 0, i, r0, fs0, r, fs, log, h => by
    simp only [Machine.gnLoop, Except.ok.injEq, Prod.mk.injEq] at h
    obtain ⟨rfl, rfl, rfl⟩ := h
    exact ⟨⟨le_refl _, rfl, by simp, by simp, fun _ => ⟨rfl, rfl, fun _ => rfl⟩, fun _ => rfl⟩, by simp⟩
  | fuel + 1, i, r0, fs0, r, fs, log, h => by
    simp only [Machine.gnLoop] at h
    split at h
    · rename_i hc
      simp only [Except.ok.injEq, Prod.mk.injEq] at h
      obtain ⟨rfl, rfl, rfl⟩ := h
      exact ⟨⟨Nat.zero_le _, rfl, by simp, by simp, fun _ => ⟨rfl, rfl, fun h => by rw [hc] at h; cases h⟩, fun _ => rfl⟩, by simp⟩
    · rename_i hc
      have hc : r0.converged = false := by simpa using hc
      rcases hl : p.linearize r0.T fs0 with x | ⟨fs1, s⟩
      · simp [bind, Except.bind, hl] at h
      rcases hs : p.updateLinearized r0.T s with ⟨A, b, e⟩
      simp only [bind, Except.bind, hl, hs] at h
      rcases hn : Machine.gnLoop p lambda fuel (i + 1)
          { r0 with converged := p.converged (p.delta lambda A b), T := p.step r0.T (p.delta lambda A b), iterations := i, H := A, b := b, error := e } fs1 with x | ⟨r2, fs2, log2⟩
      · rw [hn] at h; simp at h
      rw [hn] at h
      simp only [Except.ok.injEq, Prod.mk.injEq] at h
      obtain ⟨rfl, rfl, rfl⟩ := h
      obtain ⟨n1, n2⟩ := machine_gn_rest p lambda fuel (i + 1) _ _ hn
      refine ⟨rest_cons _ rfl rfl rfl hc n1, ?_⟩
      intro it hit
      rcases List.mem_cons.1 hit with e | e
      · subst e
        exact ⟨⟨fs0, s, hl, hs⟩, rfl, rfl, rfl⟩
      · exact n2 it e

theorem describes_of_rest {p : Machine.Problem F V P H B D} {max : Nat} {T0 : P} {fs0 fs : List F} {log : List (Iteration F V P H B D)} {r : Machine.Result V P H B}
    (h : Rest p max 0 (Machine.Result.init T0) fs0 log r fs) : Describes p max T0 log (Machine.countInliers p r fs) fs := by
  refine ⟨h.budget, h.linked, h.goes_on, ?_, ?_, rfl⟩
  · intro it hit
    have := h.last it hit
    simpa [Machine.countInliers] using this
  · intro hn
    obtain ⟨rfl, _, g⟩ := h.none hn
    exact ⟨rfl, rfl, g rfl⟩

/-- C97 (Levenberg-Marquardt). In every arithmetic, with every solver and every factor type: the iterations of a finished call are linked from the initial guess to the returned pose; every applied
step solves the damped system at the pose it leaves, and the error computed for the new pose compared as at most the one computed for the old; the result describes the last iteration, `iterations` counts
those before it, and `converged` is set exactly if the last step passed the test. -/
theorem C97_levenberg_marquardt (p : Machine.Problem F V P H B D) (hU : ∀ T e, p.updateError T e = e) (st : Machine.LMSetting V) (T0 : P) (fs0 : List F) {r fs log}
    (h : Machine.levenbergMarquardt p st T0 fs0 = .ok (r, fs, log)) :
    Describes p st.maxIterations.toNat T0 log r fs ∧ ∀ it ∈ log, LmIteration p st.maxInner.toNat it := by
  simp only [Machine.levenbergMarquardt, bind, Except.bind] at h
  rcases hn : Machine.lmLoop p st.lambdaFactor st.maxInner.toNat st.maxIterations.toNat 0 st.initLambda (Machine.Result.init T0) fs0 with x | ⟨r1, fs1, log1⟩
  · rw [hn] at h; simp at h
  rw [hn] at h
  simp only [Except.ok.injEq, Prod.mk.injEq] at h
  obtain ⟨rfl, rfl, rfl⟩ := h
  obtain ⟨n1, n2⟩ := machine_lm_rest p hU _ _ _ _ _ _ _ hn
  exact ⟨describes_of_rest n1, n2⟩

/-- C97 (Gauss-Newton). The same for Gauss-Newton, which applies every step and reports the error before it. -/
theorem C97_gauss_newton (p : Machine.Problem F V P H B D) (lambda : V) (maxIterations : Int) (T0 : P) (fs0 : List F) {r fs log}
    (h : Machine.gaussNewton p lambda maxIterations T0 fs0 = .ok (r, fs, log)) :
    Describes p maxIterations.toNat T0 log r fs ∧ ∀ it ∈ log, GnIteration p lambda it := by
  simp only [Machine.gaussNewton, bind, Except.bind] at h
  rcases hn : Machine.gnLoop p lambda maxIterations.toNat 0 (Machine.Result.init T0) fs0 with x | ⟨r1, fs1, log1⟩
  · rw [hn] at h; simp at h
  rw [hn] at h
  simp only [Except.ok.injEq, Prod.mk.injEq] at h
  obtain ⟨rfl, rfl, rfl⟩ := h
  obtain ⟨n1, n2⟩ := machine_gn_rest p lambda _ _ _ _ hn
  exact ⟨describes_of_rest n1, n2⟩

theorem linked_end {log : List (Iteration F V P H B D)} {T0 T : P} (h : Linked T0 log T) : (log = [] ∧ T = T0) ∨ ∃ it, log.getLast? = some it ∧ T = it.T1 := by
  induction log generalizing T0 with
  | nil => exact .inl ⟨rfl, h⟩
  | cons it rest ih =>
    right
    rcases ih h.2 with ⟨rfl, e⟩ | ⟨it', h1, h2⟩
    · exact ⟨it, by simp, e⟩
    · refine ⟨it', ?_, h2⟩
      cases rest with
      | nil => simp at h1
      | cons a l => rw [List.getLast?_cons_cons]; exact h1

theorem linked_source {log : List (Iteration F V P H B D)} {T0 T : P} (h : Linked T0 log T) (hk : ∀ it ∈ log, it.step = none → it.T1 = it.T0) :
    T = T0 ∨ ∃ it ∈ log, it.step.isSome = true ∧ T = it.T1 := by
  induction log generalizing T0 with
  | nil => exact .inl h
  | cons it rest ih =>
    rcases ih h.2 (fun x hx => hk x (by simp [hx])) with e | ⟨it', h1, h2, h3⟩
    · rcases hs : it.step with _ | d
      · exact .inl (by rw [e, hk it (by simp) hs, h.1])
      · exact .inr ⟨it, by simp, by simp [hs], e⟩
    · exact .inr ⟨it', by simp [h1], h2, h3⟩

/-- C97 (NaN guard). Levenberg-Marquardt returns the initial guess or a pose for which the computed error is a number, at most another number: the error computed for the pose it was reached from, on
the same correspondences. -/
theorem C97_nan_guard (hnan : NaNCompares V) (p : Machine.Problem F V P H B D) (hU : ∀ T e, p.updateError T e = e) (st : Machine.LMSetting V) (T0 : P) (fs0 : List F) {r fs log}
    (h : Machine.levenbergMarquardt p st T0 fs0 = .ok (r, fs, log)) :
    r.T = T0 ∨ ∃ it ∈ log, ∃ e, p.error r.T it.factors = .ok e ∧ e ≤ it.e0 ∧ ¬ IsNaN e ∧ ¬ IsNaN it.e0 := by
  obtain ⟨h1, h2⟩ := C97_levenberg_marquardt p hU st T0 fs0 h
  rcases linked_source h1.linked (fun it hit hs => ((h2 it hit).kept hs).1) with e | ⟨it, hit, hs, e⟩
  · exact .inl e
  · obtain ⟨d, hd⟩ := Option.isSome_iff_exists.1 hs
    obtain ⟨_, _, g3, g4, _⟩ := (h2 it hit).applied d hd
    exact .inr ⟨it, hit, it.e1, by rw [e]; exact g3, g4, fun hn => hnan.left _ _ hn g4, fun hn => hnan.right _ _ hn g4⟩

theorem machine_inner_none (hnan : NaNCompares V) (p : Machine.Problem F V P H B D) (hU : ∀ T e, p.updateError T e = e) (factor : V) (T : P) (fs : List F) (A : H) (b : B)
    (hE : ∀ T, ∃ e, p.error T fs = .ok e) {e : V} (he : IsNaN e) : ∀ (fuel : Nat) (lambda : V), ∃ l, Machine.lmInner p factor T fs A b fuel lambda e = .ok ⟨l, e, fuel, none⟩
  | 0, lambda => ⟨lambda, rfl⟩
  | fuel + 1, lambda => by
    obtain ⟨x, hx⟩ := hE (p.step T (p.delta lambda A b))
    obtain ⟨l, hl⟩ := machine_inner_none hnan p hU factor T fs A b hE he fuel (lambda * factor)
    refine ⟨l, ?_⟩
    simp only [Machine.lmInner, bind, Except.bind, hU, hx, hl]
    rw [if_neg (hnan.right _ _ he)]

/-- C97 (NaN at the start). If the error computed at the initial guess is NaN, Levenberg-Marquardt returns the initial guess after one iteration in which all trials were rejected: not converged, with a
NaN as error. -/
theorem C97_nan_start (hnan : NaNCompares V) (p : Machine.Problem F V P H B D) (hU : ∀ T e, p.updateError T e = e) (st : Machine.LMSetting V) (hmax : 0 < st.maxIterations) (T0 : P) (fs0 fs1 : List F)
    (s : H × B × V) (hl : p.linearize T0 fs0 = .ok (fs1, s)) (hE : ∀ T, ∃ e, p.error T fs1 = .ok e) {A : H} {b : B} {e : V} (hs : p.updateLinearized T0 s = (A, b, e)) (he : IsNaN e) :
    Machine.levenbergMarquardt p st T0 fs0 =
      .ok (⟨T0, false, 0, fs1.countP p.inlier, A, b, e⟩, fs1, [⟨T0, fs1, A, b, e, st.maxInner.toNat, none, T0, e⟩]) := by
  obtain ⟨n, hn⟩ : ∃ n, st.maxIterations.toNat = n + 1 := ⟨st.maxIterations.toNat - 1, by omega⟩
  obtain ⟨l, hi⟩ := machine_inner_none hnan p hU st.lambdaFactor T0 fs1 A b hE he st.maxInner.toNat st.initLambda
  simp only [Machine.levenbergMarquardt, hn, Machine.lmLoop, Machine.Result.init, Bool.false_eq_true, if_false, bind, Except.bind, hl, hs, hi, Machine.countInliers]

end Loops

/-! ### Exact arithmetic -/

section Exact

open Matrix Verif.Factors

variable {F K : Type} [Field K] [LinearOrder K]

/-- The exact problem read as a machine problem. -/
def ofExact (p : Optimizer.Problem F K) : Machine.Problem F K (Pose K) (Matrix (Fin 6) (Fin 6) K) (Fin 6 → K) (Fin 6 → K) :=
  ⟨p.linearize, p.error, p.general.updateLinearized, p.general.updateError, p.delta, fun T d => T.mul (p.exp d), p.converged, p.inlier⟩

def toResult (r : Machine.Result K (Pose K) (Matrix (Fin 6) (Fin 6) K) (Fin 6 → K)) : Optimizer.Result K := ⟨r.T, r.converged, r.iterations, r.numInliers, r.H, r.b, r.error⟩

def toIteration (it : Machine.Iteration F K (Pose K) (Matrix (Fin 6) (Fin 6) K) (Fin 6 → K) (Fin 6 → K)) : Optimizer.Iteration F K := ⟨it.T0, it.factors, it.e0, it.evals, it.step, it.T1, it.e1⟩

def toOutcome (x : Machine.Result K (Pose K) (Matrix (Fin 6) (Fin 6) K) (Fin 6 → K) × List F × List (Machine.Iteration F K (Pose K) (Matrix (Fin 6) (Fin 6) K) (Fin 6 → K) (Fin 6 → K))) :
    Optimizer.Result K × List F × List (Optimizer.Iteration F K) := (toResult x.1, x.2.1, x.2.2.map toIteration)

theorem exact_inner (p : Optimizer.Problem F K) (factor : K) (T : Pose K) (fs : List F) (A : Matrix (Fin 6) (Fin 6) K) (b : Fin 6 → K) : ∀ (fuel : Nat) (lambda e : K),
    Optimizer.lmInner p factor T fs A b fuel lambda e = (Machine.lmInner (ofExact p) factor T fs A b fuel lambda e).map fun r => ⟨r.lambda, r.e, r.evals, r.accepted⟩
  | 0, lambda, e => rfl
  | fuel + 1, lambda, e => by
    have e1 : ∀ T, (ofExact p).error T fs = p.error T fs := fun _ => rfl
    have e2 : ∀ T e, (ofExact p).updateError T e = p.general.updateError T e := fun _ _ => rfl
    have e3 : ∀ d, (ofExact p).step T d = T.mul (p.exp d) := fun _ => rfl
    have e4 : (ofExact p).delta lambda A b = p.delta lambda A b := rfl
    simp only [Optimizer.lmInner, Machine.lmInner, bind, Except.bind, e1, e2, e3, e4]
    rcases p.error (T.mul (p.exp (p.delta lambda A b))) fs with x | newE
    · rfl
    · by_cases hle : newE ≤ p.general.updateError (T.mul (p.exp (p.delta lambda A b))) e
      · simp only [if_pos hle]
        rfl
      · simp only [if_neg hle]
        rw [exact_inner p factor T fs A b fuel]
        generalize Machine.lmInner _ factor T fs A b fuel (lambda * factor) _ = y
        cases y <;> rfl

theorem exact_lm (p : Optimizer.Problem F K) (factor : K) (maxInner : Nat) : ∀ (fuel i : Nat) (lambda : K) (r : Machine.Result K (Pose K) (Matrix (Fin 6) (Fin 6) K) (Fin 6 → K)) (fs : List F),
    Optimizer.lmLoop p factor maxInner fuel i lambda (toResult r) fs = (Machine.lmLoop (ofExact p) factor maxInner fuel i lambda r fs).map toOutcome
  | 0, i, lambda, r, fs => rfl
  | fuel + 1, i, lambda, r, fs => by
    have hc : (toResult r).converged = r.converged := rfl
    have hT : (toResult r).T = r.T := rfl
    unfold Optimizer.lmLoop Machine.lmLoop
    rw [hc]
    split
    · rfl
    · rcases hl : p.linearize r.T fs with x | ⟨fs1, s⟩
      · simp [bind, Except.bind, hT, hl, ofExact, Except.map]
      rcases hs : p.general.updateLinearized r.T s with ⟨A, b, e⟩
      have hl' : (ofExact p).linearize r.T fs = .ok (fs1, s) := hl
      have hs' : (ofExact p).updateLinearized r.T s = (A, b, e) := hs
      simp only [bind, Except.bind, hT, hl, hs, hl', hs', exact_inner]
      rcases Machine.lmInner (ofExact p) factor r.T fs1 A b maxInner lambda e with x | inner
      · rfl
      · simp only [Except.map]
        rcases ha : inner.accepted with _ | ⟨d, newT⟩
        · rfl
        · simp only
          have := exact_lm p factor maxInner fuel (i + 1) inner.lambda { r with converged := p.converged d, T := newT, iterations := i, H := A, b := b, error := inner.e } fs1
          simp only [toResult] at this
          have hcv : (ofExact p).converged d = p.converged d := rfl
          simp only [toResult, this, hcv]
          rcases Machine.lmLoop (ofExact p) factor maxInner fuel (i + 1) inner.lambda { r with converged := p.converged d, T := newT, iterations := i, H := A, b := b, error := inner.e } fs1 with x | ⟨r2, fs2, log⟩
          · rfl
          · rfl

theorem exact_gn (p : Optimizer.Problem F K) (lambda : K) : ∀ (fuel i : Nat) (r : Machine.Result K (Pose K) (Matrix (Fin 6) (Fin 6) K) (Fin 6 → K)) (fs : List F),
    Optimizer.gnLoop p lambda fuel i (toResult r) fs = (Machine.gnLoop (ofExact p) lambda fuel i r fs).map toOutcome
  | 0, i, r, fs => rfl
  | fuel + 1, i, r, fs => by
    have hc : (toResult r).converged = r.converged := rfl
    have hT : (toResult r).T = r.T := rfl
    unfold Optimizer.gnLoop Machine.gnLoop
    rw [hc]
    split
    · rfl
    · rcases hl : p.linearize r.T fs with x | ⟨fs1, s⟩
      · simp [bind, Except.bind, hT, hl, ofExact, Except.map]
      rcases hs : p.general.updateLinearized r.T s with ⟨A, b, e⟩
      have hl' : (ofExact p).linearize r.T fs = .ok (fs1, s) := hl
      have hs' : (ofExact p).updateLinearized r.T s = (A, b, e) := hs
      have hd : (ofExact p).delta lambda A b = p.delta lambda A b := rfl
      have hst : ∀ d, (ofExact p).step r.T d = r.T.mul (p.exp d) := fun _ => rfl
      have hcv : ∀ d, (ofExact p).converged d = p.converged d := fun _ => rfl
      have := exact_gn p lambda fuel (i + 1)
        { r with converged := p.converged (p.delta lambda A b), T := r.T.mul (p.exp (p.delta lambda A b)), iterations := i, H := A, b := b, error := e } fs1
      simp only [toResult] at this
      simp only [bind, Except.bind, hT, hl, hs, hl', hs', hd, hst, hcv, toResult, this]
      rcases Machine.gnLoop (ofExact p) lambda fuel (i + 1)
        { r with converged := p.converged (p.delta lambda A b), T := r.T.mul (p.exp (p.delta lambda A b)), iterations := i, H := A, b := b, error := e } fs1 with x | ⟨r2, fs2, log⟩
      · rfl
      · rfl

/-- C97 (exact arithmetic). With the operations of an ordered field the machine optimisers are those of `Model/Optimizer.lean`. -/
theorem C97_exact (p : Optimizer.Problem F K) (T0 : Pose K) (fs : List F) :
    (∀ st : Machine.LMSetting K, Optimizer.levenbergMarquardt p ⟨st.maxIterations, st.maxInner, st.initLambda, st.lambdaFactor⟩ T0 fs =
      (Machine.levenbergMarquardt (ofExact p) st T0 fs).map toOutcome) ∧
    ∀ (lambda : K) (n : Int), Optimizer.gaussNewton p lambda n T0 fs = (Machine.gaussNewton (ofExact p) lambda n T0 fs).map toOutcome := by
  constructor
  · intro st
    have := exact_lm p st.lambdaFactor st.maxInner.toNat st.maxIterations.toNat 0 st.initLambda (Machine.Result.init T0) fs
    simp only [Optimizer.levenbergMarquardt, Machine.levenbergMarquardt, bind, Except.bind]
    have h0 : Optimizer.Result.init T0 = toResult (Machine.Result.init T0) := rfl
    rw [h0, this]
    rcases Machine.lmLoop (ofExact p) st.lambdaFactor st.maxInner.toNat st.maxIterations.toNat 0 st.initLambda (Machine.Result.init T0) fs with x | ⟨r, fs2, log⟩
    · rfl
    · rfl
  · intro lambda n
    have := exact_gn p lambda n.toNat 0 (Machine.Result.init T0) fs
    simp only [Optimizer.gaussNewton, Machine.gaussNewton, bind, Except.bind]
    have h0 : Optimizer.Result.init T0 = toResult (Machine.Result.init T0) := rfl
    rw [h0, this]
    rcases Machine.gnLoop (ofExact p) lambda n.toNat 0 (Machine.Result.init T0) fs with x | ⟨r, fs2, log⟩
    · rfl
    · rfl

end Exact

/-! ### Numbers with a NaN -/

/-- Rational numbers and a NaN, which every operation hands on. -/
def QN : Type := Option ℚ

namespace QN

instance : DecidableEq QN := inferInstanceAs (DecidableEq (Option ℚ))
def num (q : ℚ) : QN := some q
def nan : QN := Option.none
def lift (f : ℚ → ℚ → ℚ) : QN → QN → QN
  | some a, some b => some (f a b)
  | _, _ => nan
instance : Zero QN := ⟨num 0⟩
instance : Add QN := ⟨lift (· + ·)⟩
instance : Sub QN := ⟨lift (· - ·)⟩
instance : Mul QN := ⟨lift (· * ·)⟩
/-- Dividing by zero gives NaN here (in IEEE arithmetic an infinity, or NaN). -/
instance : Div QN := ⟨fun a b => if b = num 0 then nan else lift (· / ·) a b⟩
def leB : QN → QN → Bool
  | some a, some b => decide (a ≤ b)
  | _, _ => false
def ltB : QN → QN → Bool
  | some a, some b => decide (a < b)
  | _, _ => false
instance : LE QN := ⟨fun a b => leB a b = true⟩
instance : LT QN := ⟨fun a b => ltB a b = true⟩
instance : DecidableLE QN := fun a b => inferInstanceAs (Decidable (leB a b = true))
instance : DecidableLT QN := fun a b => inferInstanceAs (Decidable (ltB a b = true))

theorem isNaN_iff (a : QN) : IsNaN a ↔ a = nan := by
  rcases a with _ | a
  · exact ⟨fun _ => rfl, fun _ h => by cases h⟩
  · exact ⟨fun h => absurd (show leB (some a) (some a) = true by simp [leB]) h, fun h => by cases h⟩

theorem compares : NaNCompares QN := by
  constructor
  · intro a b ha h
    rw [isNaN_iff] at ha
    subst ha
    rcases b with _ | b <;> cases h
  · intro a b hb h
    rw [isNaN_iff] at hb
    subst hb
    rcases a with _ | a <;> cases h

end QN

open QN in
/-- A problem with one unknown, `(T - 3)^2 / 2`, and a solver that breaks down (NaN) at `T = 1`. -/
def oneUnknown : Machine.Problem Unit QN QN QN QN QN where
  linearize := fun T fs => .ok (fs, if T = num 1 then nan else num 1, T - num 3, (T - num 3) * (T - num 3) / num 2)
  error := fun T _ => .ok ((T - num 3) * (T - num 3) / num 2)
  updateLinearized := fun _ s => s
  updateError := fun _ e => e
  delta := fun l A b => (num 0 - b) / (A + l)
  step := fun T d => T + d
  converged := fun d => decide (d ≤ num (1 / 100)) && decide (num (-1 / 100) ≤ d)
  inlier := fun _ => true

/-- From 0 the computed error falls in every iteration until the step is small enough. -/
example : ((Machine.levenbergMarquardt oneUnknown ⟨20, 10, QN.num 1, QN.num 10⟩ (QN.num 0) [()]).map fun x => (x.1.T, x.1.converged, x.2.2.map fun it => (it.T1, it.evals))).toOption =
    some (QN.num (3 - 3 / (2222 * 1001)), true, [(QN.num (3 / 2), 1), (QN.num (63 / 22), 1), (QN.num (3 - 3 / 2222), 1), (QN.num (3 - 3 / (2222 * 1001)), 1)]) := by decide +kernel

/-- At a NaN the first iteration rejects all its trials. -/
example : ((Machine.levenbergMarquardt oneUnknown ⟨20, 10, QN.num 1, QN.num 10⟩ QN.nan [()]).map fun x => (x.1.T, x.1.error, x.1.converged, x.1.iterations + x.2.2.length)).toOption =
    some (QN.nan, QN.nan, false, 1) ∧
    ((Machine.levenbergMarquardt oneUnknown ⟨20, 10, QN.num 1, QN.num 10⟩ QN.nan [()]).map fun x => x.2.2.map fun it => (it.T1, it.evals)).toOption = some [(QN.nan, 10)] := by
  constructor <;> decide +kernel

/-- C97 (the guard is that of Levenberg-Marquardt alone). When the solver breaks down at the initial guess, Levenberg-Marquardt keeps the guess, Gauss-Newton returns a pose that is not a number. -/
theorem C97_gauss_newton_unguarded :
    ((Machine.levenbergMarquardt oneUnknown ⟨20, 10, QN.num 1, QN.num 10⟩ (QN.num 1) [()]).map fun x => (x.1.T, x.1.error)).toOption = some (QN.num 1, QN.num 2) ∧
    ((Machine.gaussNewton oneUnknown (QN.num 1) 20 (QN.num 1) [()]).map fun x => (x.1.T, x.1.error, x.1.iterations)).toOption = some (QN.nan, QN.nan, 19) := by
  constructor <;> decide +kernel

end Verif.Props
