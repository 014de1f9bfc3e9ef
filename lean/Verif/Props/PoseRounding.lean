import Verif.Model.PoseMachine
import Verif.Model.OdometryMachine
import Verif.Proofs.Norms
import Verif.Proofs.Lie
import Verif.Props.DownsamplingRounding
import Mathlib.Algebra.Order.Ring.Pow

/-!
C107: poses under rounding. The code multiplies poses and never normalises them; how far can the rotation part get from a rotation?
-/

set_option linter.unusedSectionVars false
set_option linter.unusedSimpArgs false
set_option linter.unnecessarySeqFocus false

namespace Verif.Spec

open Matrix Verif Verif.Machine Verif.Factors

/-- Within `e` of a rotation, in the Frobenius norm. -/
def NearRotation (e : ℝ) (R : Matrix (Fin 3) (Fin 3) ℝ) : Prop := ∃ Q, IsRotation Q ∧ fro (R - Q) ≤ e

/-- The values of the rotation part of a pose; `val` is the value of a machine number. -/
def rotationPart {V : Type} (val : V → ℝ) (T : Pose V) : Matrix (Fin 3) (Fin 3) ℝ := fun i j => val (T.R i j)

/-- The rotation part of a pose holds no NaN and no infinity. -/
def RotationFinite {V : Type} (finite : V → Prop) (T : Pose V) : Prop := ∀ i j, finite (T.R i j)

/-- The sum of three products. An infinite operand or a NaN makes the result infinite or NaN; for finite numbers of at most two there is relative error `γ` in each product, and error `η` from underflow. -/
structure DotAccuracy {V : Type} (o : Ops V) (finite : V → Prop) (val : V → ℝ) (γ η : ℝ) : Prop where
  γ_nonneg : 0 ≤ γ
  η_nonneg : 0 ≤ η
  operands : ∀ a b c x y z, finite (o.dot3 a b c x y z) → finite a ∧ finite b ∧ finite c ∧ finite x ∧ finite y ∧ finite z
  dot : ∀ a b c x y z, finite (o.dot3 a b c x y z) → |val a| ≤ 2 → |val b| ≤ 2 → |val c| ≤ 2 → |val x| ≤ 2 → |val y| ≤ 2 → |val z| ≤ 2 →
    |val (o.dot3 a b c x y z) - (val a * val x + val b * val y + val c * val z)| ≤ γ * (|val a * val x| + |val b * val y| + |val c * val z|) + η

/-- The pose computed from a step (`se3_exp`, lie.hpp:77-100) has a rotation part within `ε` of a rotation, if it holds no NaN and no infinity. -/
def ExpAccuracy {V D : Type} (finite : V → Prop) (val : V → ℝ) (exp : D → Pose V) (ε : ℝ) : Prop := ∀ d, RotationFinite finite (exp d) → NearRotation ε (rotationPart val (exp d))

/-- How far the rotation part may be from a rotation after `n` products with matrices within `ε` of rotations, if it was within `e` of a rotation before: of the order of `e + n (ε + 4 γ + 3 η)`. -/
noncomputable def rotationDrift (γ η ε e : ℝ) (n : ℕ) : ℝ := (1 + (ε + γ * (2 + ε))) ^ n * (e + n * (ε + 2 * γ * (2 + ε) + 3 * η))

/-- The number of iterations an optimiser may make. -/
def iterationLimit {V : Type} : Method V → ℕ
  | .lm st => st.maxIterations.toNat
  | .gn _ n => n.toNat

end Verif.Spec

namespace Verif.Props

open Matrix Verif Verif.Machine Verif.Spec Verif.Proofs Verif.Factors

/-! ### near rotations -/

theorem rotation_entry {Q : Matrix (Fin 3) (Fin 3) ℝ} (h : IsRotation Q) (i j : Fin 3) : |Q i j| ≤ 1 := by
  have h1 := congrFun (congrFun h.1 j) j
  simp only [Matrix.mul_apply, transpose_apply, one_apply_eq] at h1
  have h2 : Q i j * Q i j ≤ ∑ k, Q k j * Q k j := Finset.single_le_sum (f := fun k => Q k j * Q k j) (fun k _ => mul_self_nonneg _) (Finset.mem_univ i)
  rw [h1] at h2
  exact abs_le_of_sq_le_sq' (by nlinarith) (by norm_num) |> abs_le.2

theorem fro_rotation {Q : Matrix (Fin 3) (Fin 3) ℝ} (h : IsRotation Q) : fro Q ≤ 2 := by
  have h1 : fro Q ^ 2 = 3 := by
    have h2 : fro (Q * 1) = fro (1 : Matrix (Fin 3) (Fin 3) ℝ) := fro_orth h.1 1
    rw [mul_one] at h2
    rw [h2, fro_sq]
    simp [Fin.sum_univ_three, Matrix.one_apply]
  nlinarith [fro_nonneg Q]

theorem fro_orth_right {Q : Matrix (Fin 3) (Fin 3) ℝ} (h : IsRotation Q) (A : Matrix (Fin 3) (Fin 3) ℝ) : fro (A * Q) = fro A := by
  have hq : Qᵀᵀ * Qᵀ = 1 := by
    rw [transpose_transpose]
    exact mul_eq_one_comm.1 h.1
  rw [← fro_transpose, transpose_mul, fro_orth hq, fro_transpose]

theorem entry_le_fro (A : Matrix (Fin 3) (Fin 3) ℝ) (i j : Fin 3) : |A i j| ≤ fro A := abs_coord_le (fun p : Fin 3 × Fin 3 => A p.1 p.2) (i, j)

theorem near_mono {e e' : ℝ} {R : Matrix (Fin 3) (Fin 3) ℝ} (h : NearRotation e R) (he : e ≤ e') : NearRotation e' R := by
  obtain ⟨Q, hQ, hd⟩ := h
  exact ⟨Q, hQ, hd.trans he⟩

theorem near_nonneg {e : ℝ} {R : Matrix (Fin 3) (Fin 3) ℝ} (h : NearRotation e R) : 0 ≤ e := by
  obtain ⟨Q, _, hd⟩ := h
  exact (fro_nonneg _).trans hd

theorem near_entry {e : ℝ} {R : Matrix (Fin 3) (Fin 3) ℝ} (h : NearRotation e R) (he : e ≤ 1) (i j : Fin 3) : |R i j| ≤ 2 := by
  obtain ⟨Q, hQ, hd⟩ := h
  have h1 := entry_le_fro (R - Q) i j
  have h2 := rotation_entry hQ i j
  have h3 : R i j = (R - Q) i j + Q i j := by simp
  rw [h3]
  exact (abs_add_le _ _).trans (by linarith)

theorem near_fro_le {e : ℝ} {R : Matrix (Fin 3) (Fin 3) ℝ} (h : NearRotation e R) : fro R ≤ 2 + e := by
  obtain ⟨Q, hQ, hd⟩ := h
  have h3 : R = (R - Q) + Q := by simp
  rw [h3]
  have := fro_add_le (R - Q) Q
  have := fro_rotation hQ
  linarith

/-- Entries off by at most the given amounts. -/
theorem fro_mono {A B : Matrix (Fin 3) (Fin 3) ℝ} (h : ∀ i j, |A i j| ≤ B i j) : fro A ≤ fro B := by
  rw [← sq_le_sq₀ (fro_nonneg _) (fro_nonneg _), fro_sq, fro_sq]
  refine Finset.sum_le_sum fun i _ => Finset.sum_le_sum fun j _ => ?_
  rw [← sq_abs (A i j)]
  exact pow_le_pow_left₀ (abs_nonneg _) (h i j) 2

theorem fro_abs (A : Matrix (Fin 3) (Fin 3) ℝ) : fro (of fun i j => |A i j|) = fro A := by
  have : fro (of fun i j => |A i j|) ^ 2 = fro A ^ 2 := by simp only [fro_sq, of_apply, sq_abs]
  exact (sq_eq_sq₀ (fro_nonneg _) (fro_nonneg _)).1 this

theorem fro_const {c : ℝ} (hc : 0 ≤ c) : fro (of fun _ _ => c) = 3 * c := by
  have : fro (of fun _ _ => c) ^ 2 = (3 * c) ^ 2 := by
    rw [fro_sq]
    simp [Fin.sum_univ_three]
    ring
  exact (sq_eq_sq₀ (fro_nonneg _) (by positivity)).1 this

/-- One product of poses, measured from given rotations. -/
theorem mul_error {V : Type} {o : Ops V} {finite : V → Prop} {val : V → ℝ} {γ η : ℝ} (hd : DotAccuracy o finite val γ η) {A B : Pose V} (hf : RotationFinite finite (poseMul o A B)) {e ε : ℝ} (he : e ≤ 1) (hε : ε ≤ 1) {QA QB : Matrix (Fin 3) (Fin 3) ℝ}
    (hQA : IsRotation QA) (hQB : IsRotation QB) (hEA : fro (rotationPart val A - QA) ≤ e) (hEB : fro (rotationPart val B - QB) ≤ ε) :
    fro (rotationPart val (poseMul o A B) - QA * QB) ≤ e * (1 + (ε + γ * (2 + ε))) + (ε + 2 * γ * (2 + ε) + 3 * η) := by
  have hA : NearRotation e (rotationPart val A) := ⟨QA, hQA, hEA⟩
  have hB : NearRotation ε (rotationPart val B) := ⟨QB, hQB, hEB⟩
  have he0 := near_nonneg hA
  have hε0 := near_nonneg hB
  have hAf := near_fro_le hA
  have hBf := near_fro_le hB
  have hAe := near_entry hA he
  have hBe := near_entry hB hε
  set RA := rotationPart val A with hRA
  set RB := rotationPart val B with hRB
  have hF : fro (rotationPart val (poseMul o A B) - RA * RB) ≤ γ * ((2 + e) * (2 + ε)) + 3 * η := by
    have h1 : fro (rotationPart val (poseMul o A B) - RA * RB) ≤ fro (γ • ((of fun i j => |RA i j|) * (of fun i j => |RB i j|) : Matrix (Fin 3) (Fin 3) ℝ) + of fun _ _ => η) := by
      refine fro_mono fun i j => ?_
      have h2 := hd.dot (A.R i 0) (A.R i 1) (A.R i 2) (B.R 0 j) (B.R 1 j) (B.R 2 j) (hf i j) (hAe i 0) (hAe i 1) (hAe i 2) (hBe 0 j) (hBe 1 j) (hBe 2 j)
      simp only [abs_mul] at h2
      simp only [Matrix.sub_apply, Matrix.mul_apply, Fin.sum_univ_three, Matrix.add_apply, Matrix.smul_apply, smul_eq_mul, of_apply]
      exact h2
    refine h1.trans ((fro_add_le _ _).trans ?_)
    rw [fro_const hd.η_nonneg, fro_smul, abs_of_nonneg hd.γ_nonneg]
    have h3 : fro ((of fun i j => |RA i j|) * (of fun i j => |RB i j|) : Matrix (Fin 3) (Fin 3) ℝ) ≤ (2 + e) * (2 + ε) := by
      refine (fro_mul_le _ _).trans ?_
      rw [fro_abs, fro_abs]
      exact mul_le_mul hAf hBf (fro_nonneg _) (by linarith)
    have := mul_le_mul_of_nonneg_left h3 hd.γ_nonneg
    linarith
  have hG : fro (RA * RB - QA * QB) ≤ e + ε + e * ε := by
    have h1 : RA * RB - QA * QB = (RA - QA) * QB + QA * (RB - QB) + (RA - QA) * (RB - QB) := by noncomm_ring
    rw [h1]
    have h2 := fro_add_le ((RA - QA) * QB + QA * (RB - QB)) ((RA - QA) * (RB - QB))
    have h3 := fro_add_le ((RA - QA) * QB) (QA * (RB - QB))
    rw [fro_orth_right hQB, fro_orth hQA.1] at h3
    have h4 := fro_mul_le (RA - QA) (RB - QB)
    have h5 : fro (RA - QA) * fro (RB - QB) ≤ e * ε := mul_le_mul hEA hEB (fro_nonneg _) he0
    linarith
  have h1 : rotationPart val (poseMul o A B) - QA * QB = (rotationPart val (poseMul o A B) - RA * RB) + (RA * RB - QA * QB) := by abel
  rw [h1]
  have h2 := fro_add_le (rotationPart val (poseMul o A B) - RA * RB) (RA * RB - QA * QB)
  have h3 : γ * ((2 + e) * (2 + ε)) = e * (γ * (2 + ε)) + 2 * γ * (2 + ε) := by ring
  linarith

/-- One product of poses. -/
theorem near_mul {V : Type} {o : Ops V} {finite : V → Prop} {val : V → ℝ} {γ η : ℝ} (hd : DotAccuracy o finite val γ η) {A B : Pose V} (hf : RotationFinite finite (poseMul o A B)) {e ε : ℝ} (he : e ≤ 1) (hε : ε ≤ 1) (hA : NearRotation e (rotationPart val A))
    (hB : NearRotation ε (rotationPart val B)) :
    NearRotation (e * (1 + (ε + γ * (2 + ε))) + (ε + 2 * γ * (2 + ε) + 3 * η)) (rotationPart val (poseMul o A B)) := by
  obtain ⟨QA, hQA, hEA⟩ := hA
  obtain ⟨QB, hQB, hEB⟩ := hB
  exact ⟨QA * QB, IsRotation.mul hQA hQB, mul_error hd hf he hε hQA hQB hEA hEB⟩

section drift

variable {γ η ε e : ℝ} (hγ : 0 ≤ γ) (hη : 0 ≤ η) (hε : 0 ≤ ε) (he : 0 ≤ e)

theorem drift_zero : rotationDrift γ η ε e 0 = e := by simp [rotationDrift]

include hγ hη hε he in
theorem drift_nonneg (n : ℕ) : 0 ≤ rotationDrift γ η ε e n := by
  unfold rotationDrift
  positivity

include hγ hη hε he in
theorem drift_succ (n : ℕ) : rotationDrift γ η ε e n * (1 + (ε + γ * (2 + ε))) + (ε + 2 * γ * (2 + ε) + 3 * η) ≤ rotationDrift γ η ε e (n + 1) := by
  unfold rotationDrift
  set a := ε + γ * (2 + ε)
  set c := ε + 2 * γ * (2 + ε) + 3 * η
  have ha : 0 ≤ a := by positivity
  have hc : 0 ≤ c := by positivity
  have h1 : (1 : ℝ) ≤ (1 + a) ^ (n + 1) := one_le_pow₀ (by linarith)
  have h2 : c ≤ (1 + a) ^ (n + 1) * c := le_mul_of_one_le_left hc h1
  push_cast
  have h3 : (1 + a) ^ (n + 1) * (e + (n + 1) * c) = (1 + a) ^ n * (e + n * c) * (1 + a) + (1 + a) ^ (n + 1) * c := by ring
  linarith

include hγ hη hε he in
theorem drift_mono {m n : ℕ} (h : m ≤ n) : rotationDrift γ η ε e m ≤ rotationDrift γ η ε e n := by
  refine monotone_nat_of_le_succ (fun n => ?_) h
  have h1 := drift_succ hγ hη hε he n
  have h2 := drift_nonneg hγ hη hε he n
  have h3 : 0 ≤ rotationDrift γ η ε e n * (ε + γ * (2 + ε)) := by positivity
  have h4 : 0 ≤ ε + 2 * γ * (2 + ε) + 3 * η := by positivity
  linarith

end drift

/-! ### the optimisers -/

section Optimisers

variable {F V P H B D : Type} [Zero V] [Add V] [Mul V] [Div V] [LE V] [DecidableLE V] [Zero H] [Add H] [Zero B] [Add B]

theorem inner_step (p : Machine.Problem F V P H B D) (factor : V) (T : P) (fs : List F) (A : H) (b : B) : ∀ (fuel : ℕ) (lambda e : V) {r : Machine.Inner V P D},
    Machine.lmInner p factor T fs A b fuel lambda e = .ok r → ∀ d T1, r.accepted = some (d, T1) → ∃ l, d = p.delta l A b ∧ T1 = p.step T d
  | 0, lambda, e, r, h => by
    simp only [Machine.lmInner, Except.ok.injEq] at h
    subst h
    intro d T1 h; cases h
  | fuel + 1, lambda, e, r, h => by
    simp only [Machine.lmInner, bind, Except.bind] at h
    rcases he : p.error (p.step T (p.delta lambda A b)) fs with x | newE
    · rw [he] at h; simp at h
    · rw [he] at h
      simp only at h
      split at h
      · cases h
        intro d T1 hd
        simp only [Option.some.injEq, Prod.mk.injEq] at hd
        obtain ⟨rfl, rfl⟩ := hd
        exact ⟨_, rfl, rfl⟩
      · rcases hi : Machine.lmInner p factor T fs A b fuel (lambda * factor) (p.updateError (p.step T (p.delta lambda A b)) e) with x | r1
        · rw [hi] at h; simp at h
        · rw [hi] at h
          simp only [Except.ok.injEq] at h
          subst h
          intro d T1 hd
          exact inner_step p factor T fs A b fuel _ _ hi d T1 hd

/-- What holds of the first pose after no steps, and of a pose after one more step if it held before, holds of all poses after the number of iterations. -/
theorem lm_poses (p : Machine.Problem F V P H B D) (Inv : ℕ → P → Prop) (mono : ∀ n T, Inv n T → Inv (n + 1) T) (hs : ∀ n T l A b, Inv n T → Inv (n + 1) (p.step T (p.delta l A b))) (factor : V)
    (maxInner : ℕ) : ∀ (fuel i : ℕ) (lambda : V) (r0 : Machine.Result V P H B) (fs : List F) {r fs' log}, Machine.lmLoop p factor maxInner fuel i lambda r0 fs = .ok (r, fs', log) →
    Inv i r0.T → i ≤ r0.iterations + 1 → i ≤ r.iterations + 1 ∧ (r.iterations + 1 ≤ i + fuel ∨ r.iterations = r0.iterations) ∧ Inv (r.iterations + 1) r.T ∧ ∀ it ∈ log, Inv (r.iterations + 1) it.T1
  | 0, i, lambda, r0, fs, r, fs', log, h, h0, hi => by
    simp only [Machine.lmLoop, Except.ok.injEq, Prod.mk.injEq] at h
    obtain ⟨rfl, rfl, rfl⟩ := h
    exact ⟨hi, .inr rfl, Nat.le_induction h0 (fun n _ ih => mono n _ ih) _ hi, by simp⟩
  | fuel + 1, i, lambda, r0, fs, r, fs', log, h, h0, hi => by
    simp only [Machine.lmLoop] at h
    split at h
    · simp only [Except.ok.injEq, Prod.mk.injEq] at h
      obtain ⟨rfl, rfl, rfl⟩ := h
      exact ⟨hi, .inr rfl, Nat.le_induction h0 (fun n _ ih => mono n _ ih) _ hi, by simp⟩
    · simp only [bind, Except.bind] at h
      rcases hl : p.linearize r0.T fs with x | ⟨fs1, s⟩
      · rw [hl] at h; simp at h
      rw [hl] at h
      simp only at h
      rcases hn : Machine.lmInner p factor r0.T fs1 (p.updateLinearized r0.T s).1 (p.updateLinearized r0.T s).2.1 maxInner lambda (p.updateLinearized r0.T s).2.2 with x | inner
      · rw [hn] at h; simp at h
      rw [hn] at h
      simp only at h
      rcases ha : inner.accepted with _ | ⟨d, T1⟩
      · rw [ha] at h
        simp only [Except.ok.injEq, Prod.mk.injEq] at h
        obtain ⟨rfl, rfl, rfl⟩ := h
        refine ⟨by simp, .inl (by simp only; omega), mono _ _ h0, ?_⟩
        intro it hit
        rw [List.mem_singleton] at hit
        subst hit
        exact mono _ _ h0
      · rw [ha] at h
        simp only at h
        obtain ⟨l, rfl, rfl⟩ := inner_step p factor r0.T fs1 _ _ _ _ _ hn d T1 ha
        split at h
        · cases h
        rename_i hrec
        simp only [Except.ok.injEq, Prod.mk.injEq] at h
        obtain ⟨rfl, rfl, rfl⟩ := h
        have hstep := hs i r0.T l (p.updateLinearized r0.T s).1 (p.updateLinearized r0.T s).2.1 h0
        obtain ⟨i1, i2, i3, i4⟩ := lm_poses p Inv mono hs factor maxInner fuel (i + 1) _ _ _ hrec hstep (by simp)
        refine ⟨by omega, .inl (by rcases i2 with e | e <;> (try simp only at e) <;> omega), i3, ?_⟩
        intro it hit
        rcases List.mem_cons.1 hit with e | e
        · subst e
          exact Nat.le_induction hstep (fun n _ ih => mono n _ ih) _ i1
        · exact i4 it e

theorem gn_poses (p : Machine.Problem F V P H B D) (Inv : ℕ → P → Prop) (mono : ∀ n T, Inv n T → Inv (n + 1) T) (hs : ∀ n T l A b, Inv n T → Inv (n + 1) (p.step T (p.delta l A b))) (lambda : V) :
    ∀ (fuel i : ℕ) (r0 : Machine.Result V P H B) (fs : List F) {r fs' log}, Machine.gnLoop p lambda fuel i r0 fs = .ok (r, fs', log) →
    Inv i r0.T → i ≤ r0.iterations + 1 → i ≤ r.iterations + 1 ∧ (r.iterations + 1 ≤ i + fuel ∨ r.iterations = r0.iterations) ∧ Inv (r.iterations + 1) r.T ∧ ∀ it ∈ log, Inv (r.iterations + 1) it.T1
  | 0, i, r0, fs, r, fs', log, h, h0, hi => by
    simp only [Machine.gnLoop, Except.ok.injEq, Prod.mk.injEq] at h
    obtain ⟨rfl, rfl, rfl⟩ := h
    exact ⟨hi, .inr rfl, Nat.le_induction h0 (fun n _ ih => mono n _ ih) _ hi, by simp⟩
  | fuel + 1, i, r0, fs, r, fs', log, h, h0, hi => by
    simp only [Machine.gnLoop] at h
    split at h
    · simp only [Except.ok.injEq, Prod.mk.injEq] at h
      obtain ⟨rfl, rfl, rfl⟩ := h
      exact ⟨hi, .inr rfl, Nat.le_induction h0 (fun n _ ih => mono n _ ih) _ hi, by simp⟩
    · simp only [bind, Except.bind] at h
      rcases hl : p.linearize r0.T fs with x | ⟨fs1, s⟩
      · rw [hl] at h; simp at h
      rw [hl] at h
      simp only at h
      split at h
      · cases h
      rename_i hrec
      simp only [Except.ok.injEq, Prod.mk.injEq] at h
      obtain ⟨rfl, rfl, rfl⟩ := h
      have hstep := hs i r0.T lambda (p.updateLinearized r0.T s).1 (p.updateLinearized r0.T s).2.1 h0
      obtain ⟨i1, i2, i3, i4⟩ := gn_poses p Inv mono hs lambda fuel (i + 1) _ _ hrec hstep (by simp)
      refine ⟨by omega, .inl (by rcases i2 with e | e <;> (try simp only at e) <;> omega), i3, ?_⟩
      intro it hit
      rcases List.mem_cons.1 hit with e | e
      · subst e
        exact Nat.le_induction hstep (fun n _ ih => mono n _ ih) _ i1
      · exact i4 it e

theorem method_poses (p : Machine.Problem F V P H B D) (Inv : ℕ → P → Prop) (mono : ∀ n T, Inv n T → Inv (n + 1) T) (hs : ∀ n T l A b, Inv n T → Inv (n + 1) (p.step T (p.delta l A b))) (meth : Method V) (T0 : P)
    (fs : List F) (h0 : Inv 0 T0) {r fs' log} (h : meth.run p T0 fs = .ok (r, fs', log)) :
    (r.iterations + 1 ≤ iterationLimit meth ∨ r.iterations = 0) ∧ Inv (r.iterations + 1) r.T ∧ ∀ it ∈ log, Inv (r.iterations + 1) it.T1 := by
  cases meth with
  | lm st =>
    simp only [Method.run, Machine.levenbergMarquardt, bind, Except.bind] at h
    split at h
    · cases h
    rename_i hrec
    simp only [Except.ok.injEq, Prod.mk.injEq] at h
    obtain ⟨rfl, rfl, rfl⟩ := h
    obtain ⟨_, i2, i3, i4⟩ := lm_poses p Inv mono hs _ _ _ _ _ _ _ hrec h0 (by simp)
    exact ⟨by simpa [Machine.Result.init, iterationLimit, Machine.countInliers] using i2, i3, i4⟩
  | gn lambda n =>
    simp only [Method.run, Machine.gaussNewton, bind, Except.bind] at h
    split at h
    · cases h
    rename_i hrec
    simp only [Except.ok.injEq, Prod.mk.injEq] at h
    obtain ⟨rfl, rfl, rfl⟩ := h
    obtain ⟨_, i2, i3, i4⟩ := gn_poses p Inv mono hs _ _ _ _ _ hrec h0 (by simp)
    exact ⟨by simpa [Machine.Result.init, iterationLimit, Machine.countInliers] using i2, i3, i4⟩

end Optimisers

/-! ### the claims -/

/-- What being near a rotation means: lengths are kept up to a factor within `e` of one, and `RᵀR` is within `2 e + e²` of the identity. -/
theorem C107_rigid {e : ℝ} {R : Matrix (Fin 3) (Fin 3) ℝ} (h : NearRotation e R) : (∀ v, |len (R *ᵥ v) - len v| ≤ e * len v) ∧ fro (Rᵀ * R - 1) ≤ 2 * e + e ^ 2 := by
  obtain ⟨Q, hQ, hd⟩ := h
  constructor
  · intro v
    have h1 : R *ᵥ v = (R - Q) *ᵥ v + Q *ᵥ v := by rw [← add_mulVec]; simp
    have h2 := len_mulVec_le (R - Q) v
    have h3 : fro (R - Q) * len v ≤ e * len v := mul_le_mul_of_nonneg_right hd (len_nonneg v)
    have h4 := len_add_le ((R - Q) *ᵥ v) (Q *ᵥ v)
    have h5 := len_sub_le (R *ᵥ v) ((R - Q) *ᵥ v)
    rw [← h1] at h4
    have h6 : R *ᵥ v - (R - Q) *ᵥ v = Q *ᵥ v := by rw [← sub_mulVec]; simp
    rw [h6] at h5
    rw [len_orth hQ.1] at h4 h5
    rw [abs_le]
    constructor <;> linarith
  · have h1 : Rᵀ * R - 1 = Qᵀ * (R - Q) + (Qᵀ * (R - Q))ᵀ + (R - Q)ᵀ * (R - Q) := by
      simp only [transpose_mul, transpose_transpose, transpose_sub, mul_sub, sub_mul, hQ.1, transpose_one]
      abel
    have h2 := fro_add_le (Qᵀ * (R - Q) + (Qᵀ * (R - Q))ᵀ) ((R - Q)ᵀ * (R - Q))
    have h3 := fro_add_le (Qᵀ * (R - Q)) (Qᵀ * (R - Q))ᵀ
    have hqt : Qᵀᵀ * Qᵀ = 1 := by
      rw [transpose_transpose]
      exact mul_eq_one_comm.1 hQ.1
    rw [fro_transpose, fro_orth hqt] at h3
    have h4 := fro_mul_le (R - Q)ᵀ (R - Q)
    rw [fro_transpose] at h4
    have h5 : fro (R - Q) * fro (R - Q) ≤ e * e := mul_le_mul hd hd (fro_nonneg _) ((fro_nonneg _).trans hd)
    rw [h1]
    nlinarith

section Claims

variable {F V H B D M : Type} {o : Ops V} {finite : V → Prop} {val : V → ℝ} {γ η ε e : ℝ} {exp : D → Pose V}

/-- The invariant of the loops. -/
theorem drift_step (hd : DotAccuracy o finite val γ η) (hε0 : 0 ≤ ε) (hε1 : ε ≤ 1) (he : 0 ≤ e) {T E : Pose V} (hE : RotationFinite finite E → NearRotation ε (rotationPart val E)) (n : ℕ)
    (hT : RotationFinite finite T → rotationDrift γ η ε e n ≤ 1 → NearRotation (rotationDrift γ η ε e n) (rotationPart val T)) (hf : RotationFinite finite (poseMul o T E))
    (hn : rotationDrift γ η ε e (n + 1) ≤ 1) : NearRotation (rotationDrift γ η ε e (n + 1)) (rotationPart val (poseMul o T E)) := by
  have h1 : rotationDrift γ η ε e n ≤ 1 := (drift_mono hd.γ_nonneg hd.η_nonneg hε0 he (Nat.le_succ n)).trans hn
  have hfT : RotationFinite finite T := by
    intro i j
    obtain ⟨g0, g1, g2, _, _, _⟩ := hd.operands _ _ _ _ _ _ (hf i 0)
    fin_cases j <;> assumption
  have hfE : RotationFinite finite E := by
    intro i j
    obtain ⟨_, _, _, g0, g1, g2⟩ := hd.operands _ _ _ _ _ _ (hf 0 j)
    fin_cases i <;> assumption
  exact near_mono (near_mul hd hf h1 hε1 (hT hfT h1) (hE hfE)) (drift_succ hd.γ_nonneg hd.η_nonneg hε0 he n)

variable [Zero V] [Add V] [Mul V] [Div V] [LE V] [DecidableLE V] [Zero H] [Add H] [Zero B] [Add B]

/-- The optimisers: started within `e` of a rotation, all poses up to the result are within `rotationDrift` of a rotation for the number of iterations made, unless they hold a NaN or an infinity; and the number
of iterations is limited. -/
theorem C107_optimizers (hd : DotAccuracy o finite val γ η) (hε0 : 0 ≤ ε) (hε1 : ε ≤ 1) (hexp : ExpAccuracy finite val exp ε) (p : Machine.Problem F V (Pose V) H B D) (hp : ∀ T d, p.step T d = poseMul o T (exp d))
    (meth : Method V) (T0 : Pose V) (fs : List F) (h0 : NearRotation e (rotationPart val T0)) {r fs' log} (h : meth.run p T0 fs = .ok (r, fs', log)) (hn : rotationDrift γ η ε e (r.iterations + 1) ≤ 1) :
    (r.iterations + 1 ≤ iterationLimit meth ∨ r.iterations = 0) ∧
    (RotationFinite finite r.T → NearRotation (rotationDrift γ η ε e (r.iterations + 1)) (rotationPart val r.T)) ∧
    ∀ it ∈ log, RotationFinite finite it.T1 → NearRotation (rotationDrift γ η ε e (r.iterations + 1)) (rotationPart val it.T1) := by
  have he := near_nonneg h0
  obtain ⟨g1, g2, g3⟩ := method_poses p (fun n T => RotationFinite finite T → rotationDrift γ η ε e n ≤ 1 → NearRotation (rotationDrift γ η ε e n) (rotationPart val T))
    (by
      intro n T hT hf hn
      have hm := drift_mono hd.γ_nonneg hd.η_nonneg hε0 he (Nat.le_succ n)
      exact near_mono (hT hf (hm.trans hn)) hm)
    (by
      intro n T l A b hT hf hn
      rw [hp] at hf ⊢
      exact drift_step hd hε0 hε1 he (hexp _) n hT hf hn)
    meth T0 fs (by intro _ _; rw [drift_zero]; exact h0) h
  exact ⟨g1, fun hf => g2 hf hn, fun it hit hf => g3 it hit hf hn⟩

end Claims

/-! ### odometry -/

/-- The loop over the frames: what is kept for the state, and what follows for the pose of each frame. -/
theorem online_poses {C Q S P : Type} {sample : C → Res Q} {step : S → Q → Res (S × P)} (J : ℕ → S → Prop) (Out : ℕ → P → Prop) (hs : ∀ k s q s' T, J k s → step s q = .ok (s', T) → J (k + 1) s' ∧ Out k T) (s0 : S)
    (h0 : J 0 s0) (points : List (Option C)) {s ps out} (h : Machine.online sample step s0 points = .ok (s, ps, out)) : ∀ k T, out[k]? = some T → Out k T := by
  have main : ∀ (f : S × List (Option C) × List P → ℕ → Res (S × List (Option C) × List P)),
      (∀ st i st', f st i = .ok st' → ∃ q s' T, step st.1 q = .ok (s', T) ∧ st'.1 = s' ∧ st'.2.2 = st.2.2 ++ [T]) →
      ∀ (l : List ℕ) (st : S × List (Option C) × List P) {st'}, l.foldlM f st = .ok st' → J st.2.2.length st.1 → (∀ k T, st.2.2[k]? = some T → Out k T) → ∀ k T, st'.2.2[k]? = some T → Out k T := by
    intro f hf l
    induction l with
    | nil =>
      intro st st' h _ hO
      simp only [List.foldlM_nil, pure, Except.pure, Except.ok.injEq] at h
      subst h
      exact hO
    | cons i l ih =>
      intro st st' h hJ hO
      simp only [List.foldlM_cons, bind, Except.bind] at h
      rcases hi : f st i with x | st1
      · rw [hi] at h; cases h
      rw [hi] at h
      simp only at h
      obtain ⟨q, s', T, g1, g2, g3⟩ := hf _ _ _ hi
      obtain ⟨g4, g5⟩ := hs _ _ _ _ _ hJ g1
      refine ih st1 h (by rw [g3, g2]; simpa using g4) ?_
      intro k T' hk
      rw [g3, List.getElem?_append] at hk
      split at hk
      · exact hO k T' hk
      · rename_i hlt
        rcases hk0 : k - st.2.2.length with _ | m
        · rw [hk0] at hk
          simp only [List.getElem?_cons_zero, Option.some.injEq] at hk
          subst hk
          have : k = st.2.2.length := by omega
          rw [this]
          exact g5
        · rw [hk0] at hk
          simp at hk
  refine main _ ?_ _ (s0, points, []) h h0 (by simp)
  intro st i st' h
  simp only [bind, Except.bind] at h
  split at h
  · cases h
  split at h
  · cases h
  split at h
  · cases h
  rename_i q _
  split at h
  · cases h
  rename_i r hr
  split at h
  · cases h
  simp only [pure, Except.pure, Except.ok.injEq] at h
  subst h
  exact ⟨q, r.1, r.2, hr, rfl, rfl⟩

section Odometry

variable {V H B D M R : Type} [LT V] [DecidableLT V] [LE V] [DecidableLE V] [Zero V] [Add V] [Sub V] [Mul V] [Div V] [Zero H] [Add H] [Zero B] [Add B]
  {o : Ops V} {finite : V → Prop} {val : V → ℝ} {γ η ε : ℝ} {exp : D → Pose V}

/-- The iterations a registration can take at most. -/
theorem limit_le {n m : ℕ} (h : n + 1 ≤ m ∨ n = 0) : n + 1 ≤ max 1 m := by omega

/-- The engines that register a frame to the one before it and multiply the poses (`small_gicp`, `small_gicp_omp`, `small_gicp_tbb`, `small_vgicp_omp`, `small_vgicp_tbb`): a registration of at most `n` iterations is
within `ρ = rotationDrift 0 n` of a rotation, and the pose of frame `k` within the drift of `k` products with such poses, unless it holds a NaN or an infinity. -/
theorem C107_odometry (hd : DotAccuracy o finite val γ η) (hε0 : 0 ≤ ε) (hε1 : ε ≤ 1) (hexp : ExpAccuracy finite val exp ε) (e : OdomEnv V (Pose V) H B D M R) (hstep : ∀ T d, e.registration.step T d = poseMul o T (exp d))
    (hmul : ∀ S T, e.mul S T = poseMul o S T) (hid : rotationPart val e.identity = 1) (par : OdomParams V) (points : List (Option (Frame V (Pose V) M)))
    (hn : rotationDrift γ η ε 0 (max 1 (iterationLimit e.meth)) ≤ 1) :
    (∀ {s ps out}, gicpOnline e par points = .ok (s, ps, out) → ∀ k T, out[k]? = some T → RotationFinite finite T → rotationDrift γ η (rotationDrift γ η ε 0 (max 1 (iterationLimit e.meth))) 0 k ≤ 1 →
      NearRotation (rotationDrift γ η (rotationDrift γ η ε 0 (max 1 (iterationLimit e.meth))) 0 k) (rotationPart val T)) ∧
    (∀ {s ps out}, vgicpOnline e par points = .ok (s, ps, out) → ∀ k T, out[k]? = some T → RotationFinite finite T → rotationDrift γ η (rotationDrift γ η ε 0 (max 1 (iterationLimit e.meth))) 0 k ≤ 1 →
      NearRotation (rotationDrift γ η (rotationDrift γ η ε 0 (max 1 (iterationLimit e.meth))) 0 k) (rotationPart val T)) := by
  set N := max 1 (iterationLimit e.meth) with hN
  set ρ := rotationDrift γ η ε 0 N with hρ
  have hρ0 : 0 ≤ ρ := drift_nonneg hd.γ_nonneg hd.η_nonneg hε0 le_rfl N
  have hI : NearRotation 0 (rotationPart val e.identity) := ⟨1, ⟨by simp, by simp⟩, by rw [hid, sub_self]; simp [fro, len]⟩
  have hrun : ∀ {F : Type} (mf : Factor F V (Pose V) H B M) (w : World V M) (cfg : Config V (Pose V) H B D) (l x) (n : ℕ) {r}, cfg.step = e.registration.step → align mf w cfg l x e.meth e.identity n = .ok r →
      RotationFinite finite r.1.T → NearRotation ρ (rotationPart val r.1.T) := by
    intro F mf w cfg l x n r hc hr hf
    obtain ⟨r, fs, log⟩ := r
    have hlim := (method_poses (problem mf w cfg l x) (fun _ _ => True) (fun _ _ _ => trivial) (fun _ _ _ _ _ _ => trivial) e.meth e.identity _ trivial hr).1
    have hm : rotationDrift γ η ε 0 (r.iterations + 1) ≤ ρ := drift_mono hd.γ_nonneg hd.η_nonneg hε0 le_rfl (limit_le hlim)
    obtain ⟨_, g, _⟩ := C107_optimizers hd hε0 hε1 hexp (problem mf w cfg l x) (fun T d => by rw [← hstep, ← hc]; rfl) e.meth e.identity _ hI hr (hm.trans hn)
    exact near_mono (g hf) hm
  have key : ∀ {C Q : Type} (prep : C → Res Q) (reg : Q → Q → Res (Pose V)), (∀ t q r, reg t q = .ok r → RotationFinite finite r → NearRotation ρ (rotationPart val r)) →
      ∀ (sample : Frame V (Pose V) M → Res C) {s ps out}, Machine.online sample (frameToFrame e.mul prep reg) ⟨none, e.identity⟩ points = .ok (s, ps, out) →
      ∀ k T, out[k]? = some T → RotationFinite finite T → rotationDrift γ η ρ 0 k ≤ 1 → NearRotation (rotationDrift γ η ρ 0 k) (rotationPart val T) := by
    intro C Q prep reg hreg sample s ps out h
    refine online_poses (fun k s => (s.target = none ↔ k = 0) ∧ (RotationFinite finite s.T → rotationDrift γ η ρ 0 (k - 1) ≤ 1 → NearRotation (rotationDrift γ η ρ 0 (k - 1)) (rotationPart val s.T)))
      (fun k T => RotationFinite finite T → rotationDrift γ η ρ 0 k ≤ 1 → NearRotation (rotationDrift γ η ρ 0 k) (rotationPart val T)) ?_ _ ⟨by simp, ?_⟩ points h
    · intro k s q s' T ⟨hJ1, hJ2⟩ hq
      simp only [frameToFrame, bind, Except.bind] at hq
      split at hq
      · cases hq
      split at hq
      · rename_i ht
        simp only [pure, Except.pure, Except.ok.injEq, Prod.mk.injEq] at hq
        obtain ⟨rfl, rfl⟩ := hq
        have hk := hJ1.1 ht
        subst hk
        exact ⟨⟨by simp, by simpa using hJ2⟩, by simpa using hJ2⟩
      · rename_i ht
        split at hq
        · cases hq
        rename_i r hr
        simp only [pure, Except.pure, Except.ok.injEq, Prod.mk.injEq] at hq
        obtain ⟨rfl, rfl⟩ := hq
        have hT : RotationFinite finite (e.mul s.T r) → rotationDrift γ η ρ 0 k ≤ 1 → NearRotation (rotationDrift γ η ρ 0 k) (rotationPart val (e.mul s.T r)) := by
          intro hf hk
          rw [hmul] at hf ⊢
          rcases k with _ | k
          · simp [hJ1.2 rfl] at ht
          · exact drift_step hd hρ0 hn le_rfl (hreg _ _ _ hr) k hJ2 hf hk
        exact ⟨⟨by simp, by simpa using hT⟩, hT⟩
    · intro _ _
      simpa [drift_zero] using hI
  constructor
  · intro s ps out h
    refine key _ _ ?_ _ h
    intro t q r hr
    simp only [registerFrames, bind, Except.bind] at hr
    split at hr
    · cases hr
    split at hr
    · cases hr
    rename_i res hres
    simp only [pure, Except.pure, Except.ok.injEq] at hr
    subst hr
    exact hrun _ _ (gated e par) _ _ _ rfl hres
  · intro s ps out h
    refine key _ _ ?_ _ h
    intro t q r hr
    simp only [registerMapFrames, alignToMap, bind, Except.bind] at hr
    split at hr
    · cases hr
    rename_i res hres
    simp only [pure, Except.pure, Except.ok.injEq] at hr
    subst hr
    exact hrun _ _ (gated e par) _ _ _ rfl hres

/-- The engines that register a frame to the map, from the pose of the frame before it: after frame `k` the pose has gone through at most `k` times the number of iterations. -/
theorem C107_model {C : Type} (hd : DotAccuracy o finite val γ η) (hε0 : 0 ≤ ε) (hε1 : ε ≤ 1) (hexp : ExpAccuracy finite val exp ε) (e : OdomEnv V (Pose V) H B D M R)
    (hstep : ∀ T d, e.registration.step T d = poseMul o T (exp d)) (hid : rotationPart val e.identity = 1) (c : Cells V (Pose V) M C) (par : OdomParams V) (points : List (Option (Frame V (Pose V) M)))
    {s ps out} (h : modelOnline e c par points = .ok (s, ps, out)) : ∀ k T, out[k]? = some T → RotationFinite finite T → rotationDrift γ η ε 0 (k * max 1 (iterationLimit e.meth)) ≤ 1 →
      NearRotation (rotationDrift γ η ε 0 (k * max 1 (iterationLimit e.meth))) (rotationPart val T) := by
  set N := max 1 (iterationLimit e.meth) with hN
  refine online_poses (fun k s => (s.map = none ↔ k = 0) ∧ (RotationFinite finite s.T → rotationDrift γ η ε 0 ((k - 1) * N) ≤ 1 → NearRotation (rotationDrift γ η ε 0 ((k - 1) * N)) (rotationPart val s.T)))
    (fun k T => RotationFinite finite T → rotationDrift γ η ε 0 (k * N) ≤ 1 → NearRotation (rotationDrift γ η ε 0 (k * N)) (rotationPart val T)) ?_ _ ⟨by simp, ?_⟩ points h
  · intro k s q s' T ⟨hJ1, hJ2⟩ hq
    simp only [modelStep, bind, Except.bind] at hq
    split at hq
    · cases hq
    rename_i p _
    split at hq
    · rename_i ht
      split at hq
      · cases hq
      simp only [pure, Except.pure, Except.ok.injEq, Prod.mk.injEq] at hq
      obtain ⟨rfl, rfl⟩ := hq
      have hk := hJ1.1 ht
      subst hk
      exact ⟨⟨by simp, by simpa using hJ2⟩, by simpa using hJ2⟩
    · rename_i m ht
      split at hq
      · cases hq
      rename_i T1 hT1
      split at hq
      · cases hq
      simp only [pure, Except.pure, Except.ok.injEq, Prod.mk.injEq] at hq
      obtain ⟨rfl, rfl⟩ := hq
      have hT : RotationFinite finite T1 → rotationDrift γ η ε 0 (k * N) ≤ 1 → NearRotation (rotationDrift γ η ε 0 (k * N)) (rotationPart val T1) := by
        rcases k with _ | k
        · rw [hJ1.2 rfl] at ht
          cases ht
        simp only [Nat.add_sub_cancel] at hJ2
        intro hf hk
        simp only [alignToMap, bind, Except.bind] at hT1
        split at hT1
        · cases hT1
        rename_i res hres
        simp only [pure, Except.pure, Except.ok.injEq] at hT1
        subst hT1
        obtain ⟨r, fs, log⟩ := res
        obtain ⟨g1, g2, _⟩ := method_poses _ (fun n T => RotationFinite finite T → rotationDrift γ η ε 0 (k * N + n) ≤ 1 → NearRotation (rotationDrift γ η ε 0 (k * N + n)) (rotationPart val T))
          (by
            intro n T hT hf hn
            have hm := drift_mono (e := 0) hd.γ_nonneg hd.η_nonneg hε0 le_rfl (Nat.le_succ (k * N + n))
            exact near_mono (hT hf (hm.trans hn)) hm)
          (by
            intro n T l A b hT hf hn
            simp only [problem, hstep] at hf ⊢
            exact drift_step hd hε0 hε1 le_rfl (hexp _) _ hT hf hn)
          e.meth s.T _ hJ2 hres
        have hle : k * N + (r.iterations + 1) ≤ (k + 1) * N := by
          rw [Nat.succ_mul]
          exact Nat.add_le_add_left (limit_le g1) _
        have hm := drift_mono (e := 0) hd.γ_nonneg hd.η_nonneg hε0 le_rfl hle
        exact near_mono (g2 hf (hm.trans hk)) hm
      exact ⟨⟨by simp, by simpa using hT⟩, hT⟩
  · intro _ _
    simp only [Nat.zero_sub, Nat.zero_mul, drift_zero]
    exact ⟨1, ⟨by simp, by simp⟩, by rw [hid, sub_self]; simp [fro, len]⟩

end Odometry

end Verif.Props
