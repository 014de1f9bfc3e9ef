import Verif.Proofs.Optimizer
import Verif.Spec.Registration

/-! Optimiser runs that start at a stationary pose. -/

set_option linter.unusedSectionVars false

namespace Verif.Proofs

open Matrix Verif Verif.Factors Verif.Optimizer Verif.Spec

variable {K : Type} [Field K] [LinearOrder K] [IsStrictOrderedRing K] {F : Type}

theorem pose_mul_one (T : Pose K) : T.mul Pose.one = T := by
  simp [Pose.mul, Pose.one]

theorem pose_mul_assoc (A B C : Pose K) : (A.mul B).mul C = A.mul (B.mul C) := by
  simp only [Pose.mul, Matrix.mul_assoc, mulVec_add, mulVec_mulVec, add_assoc]

/-- A damped positive semi-definite system with zero right-hand side has the zero solution. -/
theorem delta_zero {P : Problem F K} (hs : SolveContract P.solve) {H : Matrix (Fin 6) (Fin 6) K} (hH : SymPSD H) {lambda : K} (hl : 0 < lambda) :
    P.delta lambda H 0 = 0 := by
  unfold Problem.delta
  rw [neg_zero]
  have h := hs (H + lambda • 1) (damped_symm hH lambda) (damped_pos hH hl) 0
  by_contra hne
  have := damped_pos hH hl _ hne
  rw [h, dotProduct_zero] at this
  exact lt_irrefl _ this

/-- At `T0` every linearisation from factor states satisfying `Inv` gives a system with zero gradient and error `e`, and keeps
`Inv`. -/
structure Still (P : Problem F K) (T0 : Pose K) (Inv : List F → Prop) (e : K) : Prop where
  lin : ∀ fs, Inv fs → ∃ fs1 s H, P.linearize T0 fs = .ok (fs1, s) ∧ P.general.updateLinearized T0 s = (H, 0, e) ∧ SymPSD H ∧ Inv fs1 ∧ P.error T0 fs1 = .ok e
  general : ∀ x, P.general.updateError T0 x = x

/-- Such a run keeps its pose; with a positive budget it reports that error, and it converges at once if a zero step satisfies the
criteria. -/
theorem lmLoop_still {P : Problem F K} {T0 : Pose K} {Inv : List F → Prop} {e : K} (hst : Still P T0 Inv e) (hs : SolveContract P.solve)
    (he : P.exp 0 = Pose.one) {factor : K} (hf : 0 < factor) {maxInner : Nat} (hm : 0 < maxInner) :
    ∀ {fuel i : Nat} {lambda : K} {r : Result K} {fs : List F}, 0 < lambda → r.T = T0 → Inv fs → r.converged = false →
      ∃ r' fs' log, lmLoop P factor maxInner fuel i lambda r fs = .ok (r', fs', log) ∧ r'.T = T0 ∧ (∀ it ∈ log, it.step = some 0 ∧ it.T0 = T0 ∧ it.T1 = T0) ∧
        (fuel = 0 → r' = r ∧ fs' = fs) ∧
        (0 < fuel → r'.error = e ∧ r'.b = 0 ∧ (∃ fs0 s, Inv fs0 ∧ P.linearize T0 fs0 = .ok (fs', s)) ∧ r'.converged = P.converged 0 ∧
          log.length = if P.converged 0 then 1 else fuel) := by
  obtain ⟨m, rfl⟩ : ∃ m, maxInner = m + 1 := ⟨maxInner - 1, by omega⟩
  intro fuel
  induction fuel with
  | zero =>
    intro i lambda r fs _ hT _ _
    exact ⟨r, fs, [], rfl, hT, by simp, fun _ => ⟨rfl, rfl⟩, fun h => absurd h (lt_irrefl _)⟩
  | succ fuel ih =>
    intro i lambda r fs hl hT hi hc
    obtain ⟨fs1, s, H, h1, h2, h3, h4, h5⟩ := hst.lin fs hi
    have hd := delta_zero hs h3 hl
    have hin : lmInner P factor T0 fs1 H 0 (m + 1) lambda e = .ok ⟨lambda / factor, e, 1, some (0, T0)⟩ := by
      unfold lmInner
      simp only [hd, he, pose_mul_one, h5, ok_bind, hst.general]
      rw [if_pos (le_refl _)]
    subst hT
    cases hcv : P.converged 0 with
    | true =>
      have hrec : lmLoop P factor (m + 1) fuel (i + 1) (lambda / factor)
          { r with converged := P.converged 0, T := r.T, iterations := i, H := H, b := 0, error := e } fs1 =
          .ok ({ r with converged := P.converged 0, T := r.T, iterations := i, H := H, b := 0, error := e }, fs1, []) := by
        cases fuel with
        | zero => rfl
        | succ fuel => unfold lmLoop; rw [if_pos hcv]
      refine ⟨_, _, _, lmLoop_step hc h1 h2 hin rfl hrec, rfl, by simp, by simp, fun _ => ⟨rfl, rfl, ⟨fs, s, hi, h1⟩, hcv, by simp⟩⟩
    | false =>
      obtain ⟨r', fs', log, g1, g2, g3, g4, g5⟩ := ih (i := i + 1) (lambda := lambda / factor)
        (r := { r with converged := P.converged 0, T := r.T, iterations := i, H := H, b := 0, error := e }) (fs := fs1) (div_pos hl hf) rfl h4 hcv
      refine ⟨_, _, _, lmLoop_step hc h1 h2 hin rfl g1, g2, ?_, by simp, fun _ => ?_⟩
      · intro it hit
        rcases List.mem_cons.1 hit with rfl | hit
        · exact ⟨rfl, rfl, rfl⟩
        · exact g3 it hit
      · rcases Nat.eq_zero_or_pos fuel with h0 | h0
        · obtain ⟨rfl, rfl⟩ := g4 h0
          subst h0
          refine ⟨rfl, rfl, ⟨fs, s, hi, h1⟩, hcv, ?_⟩
          unfold lmLoop at g1
          simp only [Except.ok.injEq, Prod.mk.injEq] at g1
          rw [← g1.2.2]
          simp
        · obtain ⟨a, b, c, d, f⟩ := g5 h0
          refine ⟨a, b, c, d.trans hcv, ?_⟩
          rw [hcv] at f
          simp only [Bool.false_eq_true, if_false] at f ⊢
          rw [List.length_cons, f]

theorem gnLoop_still {P : Problem F K} {T0 : Pose K} {Inv : List F → Prop} {e : K} (hst : Still P T0 Inv e) (hs : SolveContract P.solve)
    (he : P.exp 0 = Pose.one) {lambda : K} (hl : 0 < lambda) :
    ∀ {fuel i : Nat} {r : Result K} {fs : List F}, r.T = T0 → Inv fs → r.converged = false →
      ∃ r' fs' log, gnLoop P lambda fuel i r fs = .ok (r', fs', log) ∧ r'.T = T0 ∧ (∀ it ∈ log, it.step = some 0 ∧ it.T0 = T0 ∧ it.T1 = T0) ∧
        (fuel = 0 → r' = r ∧ fs' = fs) ∧
        (0 < fuel → r'.error = e ∧ r'.b = 0 ∧ (∃ fs0 s, Inv fs0 ∧ P.linearize T0 fs0 = .ok (fs', s)) ∧ r'.converged = P.converged 0 ∧
          log.length = if P.converged 0 then 1 else fuel) := by
  intro fuel
  induction fuel with
  | zero =>
    intro i r fs hT _ _
    exact ⟨r, fs, [], rfl, hT, by simp, fun _ => ⟨rfl, rfl⟩, fun h => absurd h (lt_irrefl _)⟩
  | succ fuel ih =>
    intro i r fs hT hi hc
    obtain ⟨fs1, s, H, h1, h2, h3, h4, h5⟩ := hst.lin fs hi
    have hd := delta_zero hs h3 hl
    have hmul : T0.mul (P.exp (P.delta lambda H 0)) = T0 := by rw [hd, he, pose_mul_one]
    subst hT
    cases hcv : P.converged 0 with
    | true =>
      have hrec : gnLoop P lambda fuel (i + 1)
          { r with converged := P.converged (P.delta lambda H 0), T := r.T.mul (P.exp (P.delta lambda H 0)), iterations := i, H := H, b := 0, error := e } fs1 =
          .ok ({ r with converged := true, T := r.T, iterations := i, H := H, b := 0, error := e }, fs1, []) := by
        rw [hmul, hd, hcv]
        cases fuel with
        | zero => rfl
        | succ fuel => unfold gnLoop; rw [if_pos rfl]
      refine ⟨_, _, _, gnLoop_step hc h1 h2 hrec, rfl, ?_, by simp, fun _ => ⟨rfl, rfl, ⟨fs, s, hi, h1⟩, rfl, by simp⟩⟩
      intro it hit
      simp only [List.mem_singleton] at hit
      subst hit
      exact ⟨by simp [hd], rfl, hmul⟩
    | false =>
      obtain ⟨r', fs', log, g1, g2, g3, g4, g5⟩ := ih (i := i + 1)
        (r := { r with converged := P.converged (P.delta lambda H 0), T := r.T.mul (P.exp (P.delta lambda H 0)), iterations := i, H := H, b := 0, error := e }) (fs := fs1)
        hmul h4 (by simp only [hd, hcv])
      refine ⟨_, _, _, gnLoop_step hc h1 h2 g1, g2, ?_, by simp, fun _ => ?_⟩
      · intro it hit
        rcases List.mem_cons.1 hit with rfl | hit
        · exact ⟨by simp [hd], rfl, hmul⟩
        · exact g3 it hit
      · rcases Nat.eq_zero_or_pos fuel with h0 | h0
        · obtain ⟨rfl, rfl⟩ := g4 h0
          subst h0
          refine ⟨rfl, rfl, ⟨fs, s, hi, h1⟩, by simp only [hd, hcv], ?_⟩
          unfold gnLoop at g1
          simp only [Except.ok.injEq, Prod.mk.injEq] at g1
          rw [← g1.2.2]
          simp
        · obtain ⟨a, b, c, d, f⟩ := g5 h0
          refine ⟨a, b, c, d.trans hcv, ?_⟩
          rw [hcv] at f
          simp only [Bool.false_eq_true, if_false] at f ⊢
          rw [List.length_cons, f]

end Verif.Proofs
