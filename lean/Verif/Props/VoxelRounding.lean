import Verif.Model.VoxelMachine
import Verif.Props.DownsamplingRounding
import Mathlib.Algebra.BigOperators.Field
import Mathlib.Algebra.BigOperators.Fin

/-!
C94: Gaussian voxels in floating-point arithmetic.
-/

set_option linter.unusedSectionVars false
set_option linter.unusedSimpArgs false
set_option linter.unnecessarySeqFocus false

namespace Verif.Spec

open Verif Verif.Voxel Verif.Voxel.Machine

variable {K : Type} [Field K] [LinearOrder K]

/-- What the calls have added to the voxel, in order. -/
def added : List (Step K) → List (Pt K × Mat4 K)
  | [] => []
  | .add tp C :: l => (tp, C) :: added l
  | .finalize :: l => added l

/-- How often a point is added to a voxel that has been finalized (`closed`: it is finalized at the start). -/
def reopenings : Bool → List (Step K) → Nat
  | _, [] => 0
  | closed, .add _ _ :: l => (if closed then 1 else 0) + reopenings false l
  | _, .finalize :: l => reopenings true l

/-- `a` is the mean of the numbers, up to one rounding error for every number and two for every re-opening. -/
def MeanAfter (u η : K) (r : Nat) (xs : List K) (a : K) : Prop :=
  |a - xs.sum / xs.length| ≤ ((1 + u) ^ (xs.length + 2 * r) - 1) * ((xs.map fun x => |x|).sum / xs.length) + (r + 1) * (1 + u) ^ (xs.length + 2 * r) * η

/-- The numbers are machine numbers of at most `X`, the last components are 1, and nothing overflows with `r` re-openings. -/
structure VoxelInput (rnd : K → K) (u η big : K) (N : Nat) (X : K) (r : Nat) (xs : List (Pt K × Mat4 K)) : Prop where
  machine : ∀ s ∈ xs, rnd s.1.x = s.1.x ∧ rnd s.1.y = s.1.y ∧ rnd s.1.z = s.1.z ∧ ∀ i j, rnd (s.2 i j) = s.2 i j
  size : ∀ s ∈ xs, |s.1.x| ≤ X ∧ |s.1.y| ≤ X ∧ |s.1.z| ≤ X ∧ ∀ i j, |s.2 i j| ≤ X
  last : ∀ s ∈ xs, s.1.w = 1
  count : xs.length ≤ N
  range : (1 + u) ^ (xs.length + 2 * r) * (xs.length * (X + (r + 1) * η)) ≤ big

end Verif.Spec

namespace Verif.Proofs

open Verif Verif.Voxel Verif.Voxel.Machine Verif.Spec

section VoxelSums

variable {K : Type} [Field K] [LinearOrder K] [IsStrictOrderedRing K] [FloorRing K] {o : Ops K} {rnd : K → K} {u η big : K} {N : Nat} (h : Spec.Machine o rnd u η big N)

include h

theorem open_add {s S x A H p : K} (hA : |S| ≤ A) (hp : 1 ≤ p) (he : |s - S| ≤ (p - 1) * A + p * H) (hs : rnd s = s) (hx : rnd x = x)
    (hb : p * (A + |x| + H) ≤ big) : |o.add s x - (S + x)| ≤ (p * (1 + u) - 1) * (A + |x|) + p * (1 + u) * H := by
  have hu := h.u_nonneg
  have habs := abs_nonneg x
  have hS := abs_nonneg S
  have h1 : |s + x| ≤ p * (A + |x| + H) := by
    have e : s + x = (s - S) + (S + x) := by ring
    rw [e]
    refine (abs_add_le _ _).trans ?_
    have := abs_add_le S x
    nlinarith [mul_nonneg (sub_nonneg.2 hp) habs]
  have h2 := h.sum s x hs hx (h1.trans hb)
  rw [h.add]
  have e : rnd (s + x) - (S + x) = (rnd (s + x) - (s + x)) + (s - S) := by ring
  rw [e]
  refine (abs_add_le _ _).trans ?_
  have h5 := mul_le_mul_of_nonneg_left h1 hu
  nlinarith [mul_nonneg (sub_nonneg.2 hp) habs]

theorem close_div {s S A H p n : K} (hA : |S| ≤ A) (hp : 1 ≤ p) (he : |s - S| ≤ (p - 1) * A + p * H) (hn : 1 ≤ n)
    (hb : p * (A + H) ≤ big) : |o.div s n - S / n| * n ≤ (p * (1 + u) - 1) * A + p * (1 + u) * (H + n * η) := by
  have hu := h.u_nonneg
  have heta := h.eta_nonneg
  have hn0 : 0 < n := by linarith
  have hA0 : 0 ≤ A := (abs_nonneg _).trans hA
  have h1 : |s| ≤ p * (A + H) := by
    have e : s = (s - S) + S := by ring
    rw [e]
    refine (abs_add_le _ _).trans ?_
    nlinarith
  have h2 : |s / n| * n = |s| := by rw [abs_div, abs_of_pos hn0, div_mul_cancel₀ _ hn0.ne']
  have h3 : |s / n| ≤ |s| := by nlinarith [abs_nonneg (s / n)]
  have h4 := h.err (s / n) (h3.trans (h1.trans hb))
  rw [h.div]
  have e : rnd (s / n) - S / n = (rnd (s / n) - s / n) + (s - S) / n := by ring
  have h5 : |rnd (s / n) - S / n| * n ≤ |rnd (s / n) - s / n| * n + |s - S| := by
    rw [e]
    refine (mul_le_mul_of_nonneg_right (abs_add_le _ _) hn0.le).trans ?_
    rw [add_mul, abs_div (s - S), abs_of_pos hn0, div_mul_cancel₀ _ hn0.ne']
  have h6 : |rnd (s / n) - s / n| * n ≤ u * |s| + η * n := by
    have := mul_le_mul_of_nonneg_right h4 hn0.le
    rw [add_mul, mul_assoc, h2] at this
    exact this
  have h7 := mul_le_mul_of_nonneg_left h1 hu
  have h8 : 0 ≤ n * η := mul_nonneg hn0.le heta
  have h9 : 1 ≤ p * (1 + u) := by nlinarith
  nlinarith [mul_nonneg (sub_nonneg.2 h9) h8]

theorem reopen_mul {s S A H p n : K} (hA : |S| ≤ A) (hp : 1 ≤ p) (hn : 1 ≤ n) (he : |s - S / n| * n ≤ (p - 1) * A + p * H)
    (hb : p * (A + H) ≤ big) : |o.mul s n - S| ≤ (p * (1 + u) - 1) * A + p * (1 + u) * (H + η) := by
  have hu := h.u_nonneg
  have heta := h.eta_nonneg
  have hn0 : 0 < n := by linarith
  have hA0 : 0 ≤ A := (abs_nonneg _).trans hA
  have h0 : |s * n - S| = |s - S / n| * n := by
    have e : s * n - S = (s - S / n) * n := by field_simp
    rw [e, abs_mul, abs_of_pos hn0]
  have h1 : |s * n| ≤ p * (A + H) := by
    have e : s * n = (s * n - S) + S := by ring
    rw [e]
    refine (abs_add_le _ _).trans ?_
    rw [h0]
    nlinarith
  have h2 := h.err (s * n) (h1.trans hb)
  rw [h.mul]
  have e : rnd (s * n) - S = (rnd (s * n) - s * n) + (s * n - S) := by ring
  rw [e]
  refine (abs_add_le _ _).trans ?_
  rw [h0]
  have h7 := mul_le_mul_of_nonneg_left h1 hu
  have h9 : 1 ≤ p * (1 + u) := by nlinarith
  nlinarith [mul_nonneg (sub_nonneg.2 h9) heta]

end VoxelSums

/-! ### One number of the voxel -/

section VoxelNumber

variable {K : Type} [Field K] [LinearOrder K] [IsStrictOrderedRing K] [FloorRing K]

/-- What happens to one of the numbers that a voxel consists of. -/
def numStep (o : Ops K) (f : Pt K × Mat4 K → K) (v : Bool × Nat × K) : Step K → Bool × Nat × K
  | .add tp C => (false, v.2.1 + 1, o.add (if v.1 then o.mul v.2.2 (v.2.1 : K) else v.2.2) (f (tp, C)))
  | .finalize => if v.1 then v else (true, v.2.1, o.div v.2.2 (v.2.1 : K))

/-- `f` picks a number out of a point and a covariance, `g` the same number out of a voxel. -/
structure Picks (o : Ops K) (f : Pt K × Mat4 K → K) (g : GaussianVoxel K → K) : Prop where
  start : g (fresh o) = o.zero
  add : ∀ v tp C, g (Voxel.Machine.add o v tp C) = o.add (if v.finalized then o.mul (g v) (v.numPoints : K) else g v) (f (tp, C))
  finalize : ∀ v, g (Voxel.Machine.finalize o v) = if v.finalized then g v else o.div (g v) (v.numPoints : K)

theorem pick_step {o : Ops K} {f : Pt K × Mat4 K → K} {g : GaussianVoxel K → K} (hfg : Picks o f g) (v : GaussianVoxel K) (e : Step K) :
    ((step o v e).finalized, (step o v e).numPoints, g (step o v e)) = numStep o f (v.finalized, v.numPoints, g v) e := by
  cases e with
  | add tp C =>
    simp only [step, numStep, hfg.add]
    unfold Voxel.Machine.add
    cases hf : v.finalized <;> simp [hf]
  | finalize =>
    simp only [step, numStep, hfg.finalize]
    unfold Voxel.Machine.finalize
    cases hf : v.finalized <;> simp [hf]

theorem pick_run {o : Ops K} {f : Pt K × Mat4 K → K} {g : GaussianVoxel K → K} (hfg : Picks o f g) : ∀ (steps : List (Step K)) (v : GaussianVoxel K),
    ((steps.foldl (step o) v).finalized, (steps.foldl (step o) v).numPoints, g (steps.foldl (step o) v)) = steps.foldl (numStep o f) (v.finalized, v.numPoints, g v)
  | [], _ => rfl
  | e :: l, v => by rw [List.foldl_cons, List.foldl_cons, ← pick_step hfg, pick_run hfg l]

theorem picks_mean (o : Ops K) : Picks o (fun s => s.1.x) (fun v => v.mean.x) ∧ Picks o (fun s => s.1.y) (fun v => v.mean.y) ∧ Picks o (fun s => s.1.z) (fun v => v.mean.z) ∧
    Picks o (fun s => s.1.w) (fun v => v.mean.w) := by
  refine ⟨⟨rfl, ?_, ?_⟩, ⟨rfl, ?_, ?_⟩, ⟨rfl, ?_, ?_⟩, ⟨rfl, ?_, ?_⟩⟩ <;> intros v <;>
    first
      | (intro tp C; unfold Voxel.Machine.add; cases v.finalized <;> rfl)
      | (unfold Voxel.Machine.finalize; cases v.finalized <;> rfl)

theorem picks_cov (o : Ops K) (i j : Fin 4) : Picks o (fun s => s.2 i j) (fun v => v.cov i j) := by
  refine ⟨rfl, ?_, ?_⟩ <;> intros v <;>
    first
      | (intro tp C; unfold Voxel.Machine.add; cases v.finalized <;> rfl)
      | (unfold Voxel.Machine.finalize; cases v.finalized <;> rfl)

/-- State of a number after `j + 1` additions and `r` re-openings. -/
def NumState (rnd : K → K) (u η : K) (j r : Nat) (S A : K) (v : Bool × Nat × K) : Prop :=
  v.2.1 = j + 1 ∧ rnd v.2.2 = v.2.2 ∧
    if v.1 then |v.2.2 - S / ((j + 1 : ℕ) : K)| * ((j + 1 : ℕ) : K) ≤ ((1 + u) ^ (j + 1 + 2 * r) - 1) * A + (1 + u) ^ (j + 1 + 2 * r) * ((r + 1) * (j + 1) * η)
    else |v.2.2 - S| ≤ ((1 + u) ^ (j + 2 * r) - 1) * A + (1 + u) ^ (j + 2 * r) * (r * (j + 1) * η)

variable {o : Ops K} {rnd : K → K} {u η big : K} {N : Nat} (h : Spec.Machine o rnd u η big N)

include h

set_option maxHeartbeats 1000000 in
theorem num_run (f : Pt K × Mat4 K → K) : ∀ (steps : List (Step K)) (j r : Nat) (S A : K) (v : Bool × Nat × K), NumState rnd u η j r S A v → |S| ≤ A →
    (∀ s ∈ added steps, rnd (f s) = f s) →
    (1 + u) ^ (j + 1 + (added steps).length + 2 * (r + reopenings v.1 steps)) *
      (A + ((added steps).map fun s => |f s|).sum + (((r + reopenings v.1 steps : ℕ) : K) + 1) * ((j + 1 + (added steps).length : ℕ) : K) * η) ≤ big →
    NumState rnd u η (j + (added steps).length) (r + reopenings v.1 steps) (S + ((added steps).map f).sum) (A + ((added steps).map fun s => |f s|).sum)
      (steps.foldl (numStep o f) v)
  | [], j, r, S, A, v, hv, _, _, _ => by simpa [added, reopenings] using hv
  | .finalize :: l, j, r, S, A, v, hv, hA, hm, hb => by
    have hu := h.u_nonneg
    have heta := h.eta_nonneg
    have one : (1 : K) ≤ 1 + u := by linarith
    have hA0 : 0 ≤ A := (abs_nonneg _).trans hA
    have hsum : 0 ≤ ((added l).map fun s => |f s|).sum := List.sum_nonneg (by simp only [List.mem_map]; rintro _ ⟨y, -, rfl⟩; exact abs_nonneg _)
    simp only [added, reopenings] at hm hb ⊢
    rw [List.foldl_cons]
    obtain ⟨c, n, s⟩ := v
    cases c with
    | true => exact num_run f l j r S A (true, n, s) hv hA hm hb
    | false =>
      obtain ⟨hn, hs, he⟩ := hv
      simp only [Bool.false_eq_true, if_false] at hn hs he
      subst hn
      refine num_run f l j r S A (true, j + 1, o.div s ((j + 1 : ℕ) : K)) ⟨rfl, by simp only [h.div]; exact h.idem _, ?_⟩ hA hm hb
      simp only [if_true]
      have hp : (1 : K) ≤ (1 + u) ^ (j + 2 * r) := one_le_pow₀ one
      have hj : (1 : K) ≤ ((j + 1 : ℕ) : K) := by exact_mod_cast Nat.succ_le_succ (Nat.zero_le j)
      have key := close_div h hA hp (H := r * (j + 1) * η) he hj (by
        refine le_trans ?_ hb
        have h1 : (1 + u) ^ (j + 2 * r) ≤ (1 + u) ^ (j + 1 + (added l).length + 2 * (r + reopenings true l)) := pow_le_pow_right₀ one (by omega)
        refine mul_le_mul h1 ?_ (by positivity) (by positivity)
        have h2 : (r : K) * (j + 1) ≤ (((r + reopenings true l : ℕ) : K) + 1) * ((j + 1 + (added l).length : ℕ) : K) := by
          have : (r : ℕ) * (j + 1) ≤ (r + reopenings true l + 1) * (j + 1 + (added l).length) := Nat.mul_le_mul (by omega) (by omega)
          exact_mod_cast this
        have h3 := mul_le_mul_of_nonneg_right h2 heta
        linarith)
      refine key.trans (le_of_eq ?_)
      push_cast
      ring
  | .add tp C :: l, j, r, S, A, v, hv, hA, hm, hb => by
    have hu := h.u_nonneg
    have heta := h.eta_nonneg
    have one : (1 : K) ≤ 1 + u := by linarith
    have hA0 : 0 ≤ A := (abs_nonneg _).trans hA
    have hsum : 0 ≤ ((added l).map fun s => |f s|).sum := List.sum_nonneg (by simp only [List.mem_map]; rintro _ ⟨y, -, rfl⟩; exact abs_nonneg _)
    have habs := abs_nonneg (f (tp, C))
    simp only [added, reopenings, List.map_cons, List.sum_cons, List.length_cons] at hm hb ⊢
    rw [List.foldl_cons]
    have hx := hm (tp, C) (by simp)
    have hm' : ∀ s ∈ added l, rnd (f s) = f s := fun s hs => hm s (by simp [hs])
    obtain ⟨c, n, s⟩ := v
    obtain ⟨hn, hs, he⟩ := hv
    simp only at hn hs he hb ⊢
    subst hn
    have hA' : |S + f (tp, C)| ≤ A + |f (tp, C)| := (abs_add_le _ _).trans (by linarith)
    have hj : (1 : K) ≤ ((j + 1 : ℕ) : K) := by exact_mod_cast Nat.succ_le_succ (Nat.zero_le j)
    cases c with
    | false =>
      simp only [Bool.false_eq_true, if_false] at he hb
      have hp : (1 : K) ≤ (1 + u) ^ (j + 2 * r) := one_le_pow₀ one
      have key := open_add h hA hp (H := r * (j + 1) * η) he hs hx (by
        refine le_trans ?_ hb
        have h1 : (1 + u) ^ (j + 2 * r) ≤ (1 + u) ^ (j + 1 + ((added l).length + 1) + 2 * (r + (0 + reopenings false l))) := pow_le_pow_right₀ one (by omega)
        refine mul_le_mul h1 ?_ (by positivity) (by positivity)
        have h2 : (r : K) * (j + 1) ≤ (((r + (0 + reopenings false l) : ℕ) : K) + 1) * ((j + 1 + ((added l).length + 1) : ℕ) : K) := by
          have : (r : ℕ) * (j + 1) ≤ (r + (0 + reopenings false l) + 1) * (j + 1 + ((added l).length + 1)) := Nat.mul_le_mul (by omega) (by omega)
          exact_mod_cast this
        have h3 := mul_le_mul_of_nonneg_right h2 heta
        linarith)
      have ih := num_run f l (j + 1) r (S + f (tp, C)) (A + |f (tp, C)|) (false, j + 1 + 1, o.add s (f (tp, C))) ⟨rfl, by simp only [h.add]; exact h.idem _, by
          simp only [Bool.false_eq_true, if_false]
          refine key.trans ?_
          have e : (1 + u) ^ (j + 1 + 2 * r) = (1 + u) ^ (j + 2 * r) * (1 + u) := by rw [← pow_succ]; congr 1; omega
          rw [e]
          have h4 : (r : K) * (j + 1) * η ≤ r * (((j + 1 : ℕ) : K) + 1) * η := by
            refine mul_le_mul_of_nonneg_right (mul_le_mul_of_nonneg_left ?_ (by positivity)) heta
            push_cast
            linarith
          have h5 := mul_le_mul_of_nonneg_left h4 (by positivity : 0 ≤ (1 + u) ^ (j + 2 * r) * (1 + u))
          linarith⟩ hA' hm' (by
        refine le_trans (le_of_eq ?_) hb
        simp only [Bool.false_eq_true, if_false, zero_add, show j + 1 + 1 + (added l).length = j + 1 + ((added l).length + 1) by omega]
        ring)
      simp only [numStep, Bool.false_eq_true, if_false, zero_add] at ih ⊢
      rw [show j + ((added l).length + 1) = j + 1 + (added l).length by omega, ← add_assoc, ← add_assoc]
      exact ih
    | true =>
      simp only [if_true] at he hb
      have hp : (1 : K) ≤ (1 + u) ^ (j + 1 + 2 * r) := one_le_pow₀ one
      have hcount : ((r : K) + 1) * (j + 1) + 1 ≤ (((r + (1 + reopenings false l) : ℕ) : K) + 1) * ((j + 1 + ((added l).length + 1) : ℕ) : K) := by
        have : (r + 1) * (j + 1) + 1 ≤ (r + (1 + reopenings false l) + 1) * (j + 1 + ((added l).length + 1)) := by nlinarith
        exact_mod_cast this
      have hcount' := mul_le_mul_of_nonneg_right hcount heta
      have k1 := reopen_mul h hA hp (H := (r + 1) * (j + 1) * η) hj he (by
        refine le_trans ?_ hb
        have h1 : (1 + u) ^ (j + 1 + 2 * r) ≤ (1 + u) ^ (j + 1 + ((added l).length + 1) + 2 * (r + (1 + reopenings false l))) := pow_le_pow_right₀ one (by omega)
        refine mul_le_mul h1 ?_ (by positivity) (by positivity)
        linarith)
      have e1 : (1 + u) ^ (j + 2 + 2 * r) = (1 + u) ^ (j + 1 + 2 * r) * (1 + u) := by rw [← pow_succ]; congr 1; omega
      rw [← e1] at k1
      have hp2 : (1 : K) ≤ (1 + u) ^ (j + 2 + 2 * r) := one_le_pow₀ one
      have key := open_add h hA hp2 (H := (r + 1) * (j + 1) * η + η) k1 (by rw [h.mul]; exact h.idem _) hx (by
        refine le_trans ?_ hb
        have h1 : (1 + u) ^ (j + 2 + 2 * r) ≤ (1 + u) ^ (j + 1 + ((added l).length + 1) + 2 * (r + (1 + reopenings false l))) := pow_le_pow_right₀ one (by omega)
        refine mul_le_mul h1 ?_ (by positivity) (by positivity)
        linarith)
      have ih := num_run f l (j + 1) (r + 1) (S + f (tp, C)) (A + |f (tp, C)|) (false, j + 1 + 1, o.add (o.mul s ((j + 1 : ℕ) : K)) (f (tp, C)))
          ⟨rfl, by simp only [h.add]; exact h.idem _, by
          simp only [Bool.false_eq_true, if_false]
          refine key.trans ?_
          have e : (1 + u) ^ (j + 1 + 2 * (r + 1)) = (1 + u) ^ (j + 2 + 2 * r) * (1 + u) := by rw [← pow_succ]; congr 1; omega
          rw [e]
          have h4 : ((r : K) + 1) * (j + 1) * η + η ≤ ((r + 1 : ℕ) : K) * (((j + 1 : ℕ) : K) + 1) * η := by
            push_cast
            have : (0 : K) ≤ r * η := by positivity
            nlinarith
          have h5 := mul_le_mul_of_nonneg_left h4 (by positivity : 0 ≤ (1 + u) ^ (j + 2 + 2 * r) * (1 + u))
          linarith⟩ hA' hm' (by
        refine le_trans (le_of_eq ?_) hb
        simp only [show j + 1 + 1 + (added l).length = j + 1 + ((added l).length + 1) by omega, show r + 1 + reopenings false l = r + (1 + reopenings false l) by omega]
        ring)
      simp only [numStep, if_true] at ih ⊢
      rw [show j + ((added l).length + 1) = j + 1 + (added l).length by omega, show r + (1 + reopenings false l) = r + 1 + reopenings false l by omega, ← add_assoc, ← add_assoc]
      exact ih

end VoxelNumber

end Verif.Proofs

namespace Verif.Props

open Verif Verif.Voxel Verif.Voxel.Machine Verif.Spec Verif.Proofs

variable {K : Type} [Field K] [LinearOrder K] [IsStrictOrderedRing K] [FloorRing K]

/-! ### Exact arithmetic -/

/-- In exact arithmetic these are the calls of the voxel map's own voxels. -/
theorem C94_exact (v : GaussianVoxel K) (tp : Pt K) (src : SrcPt K) (T : Mat4 K) :
    Voxel.Machine.add (exactOps K) v tp (T * src.cov * T.transpose) = v.add tp src T ∧ Voxel.Machine.finalize (exactOps K) v = v.finalize ∧ fresh (exactOps K) = (gaussianContents (K := K)).fresh := by
  refine ⟨?_, ?_, rfl⟩
  · unfold Voxel.Machine.add GaussianVoxel.add
    cases hf : v.finalized
    · rfl
    · simp only [if_true, scale, Pt.smul, Pt.add, Pt.plus, exactOps, GaussianVoxel.mk.injEq, true_and]
      congr 1
      ext i j
      simp [mul_comm]
  · unfold Voxel.Machine.finalize GaussianVoxel.finalize
    cases hf : v.finalized
    · simp only [Bool.false_eq_true, if_false, GaussianVoxel.mk.injEq, true_and]
      congr 1
      ext i j
      simp [exactOps, div_eq_inv_mul]
    · rfl

section Rounded

variable {o : Ops K} {rnd : K → K} {u η big : K} {N : Nat} (h : Spec.Machine o rnd u η big N)

include h

/-- One of the numbers of the voxel. -/
theorem number_mean {X : K} {p : Pt K} {C : Mat4 K} {rest : List (Step K)} {f : Pt K × Mat4 K → K} {g : GaussianVoxel K → K} (hfg : Picks o f g)
    (hm : ∀ s ∈ added (.add p C :: rest), rnd (f s) = f s) (hX : ∀ s ∈ added (.add p C :: rest), |f s| ≤ X)
    (hb : (1 + u) ^ ((added (.add p C :: rest)).length + 2 * reopenings false (.add p C :: rest)) *
      ((added (.add p C :: rest)).length * (X + (reopenings false (.add p C :: rest) + 1) * η)) ≤ big) :
    (run o (.add p C :: rest ++ [.finalize])).finalized = true ∧ (run o (.add p C :: rest ++ [.finalize])).numPoints = (added (.add p C :: rest)).length ∧
      MeanAfter u η (reopenings false (.add p C :: rest)) ((added (.add p C :: rest)).map f) (g (run o (.add p C :: rest ++ [.finalize]))) := by
  have hu := h.u_nonneg
  have heta := h.eta_nonneg
  have one : (1 : K) ≤ 1 + u := by linarith
  have happ : ∀ l : List (Step K), added (l ++ [.finalize]) = added l := by
    intro l
    induction l with
    | nil => rfl
    | cons e l ih => cases e <;> simp [added, ih]
  have hre : ∀ (l : List (Step K)) c, reopenings c (l ++ [.finalize]) = reopenings c l := by
    intro l
    induction l with
    | nil => intro c; rfl
    | cons e l ih => intro c; cases e <;> simp [reopenings, ih]
  have hend : ∀ (l : List (Step K)) v, ((l ++ [Step.finalize]).foldl (numStep o f) v).1 = true := by
    intro l v
    rw [List.foldl_append]
    simp only [List.foldl_cons, List.foldl_nil, numStep]
    split
    · assumption
    · rfl
  have h0 : rnd 0 = 0 := by simpa using h.nat 0 (Nat.zero_le _)
  have hx := hm (p, C) (by simp [added])
  have first : o.add o.zero (f (p, C)) = f (p, C) := by rw [h.add, h.zero, zero_add, hx]
  have hpick := pick_run hfg (.add p C :: rest ++ [.finalize]) (fresh o)
  rw [hfg.start, List.cons_append, List.foldl_cons] at hpick
  rw [List.foldl_cons] at hpick
  have hs : numStep o f ((fresh o).finalized, (fresh o).numPoints, o.zero) (.add p C) = (false, 0 + 1, f (p, C)) := by
    simp only [numStep, fresh, Bool.false_eq_true, if_false, first]
  rw [hs] at hpick
  simp only [added, reopenings, List.length_cons, List.map_cons, Bool.false_eq_true, if_false, zero_add] at hm hX hb ⊢
  have habs : |f (p, C)| + ((added rest).map fun s => |f s|).sum ≤ ((added rest).length + 1 : ℕ) * X := by
    have h1 := List.sum_le_card_nsmul ((added rest).map fun s => |f s|) X (by
      simp only [List.mem_map]
      rintro _ ⟨s, hs, rfl⟩
      exact hX s (by simp [hs]))
    have h2 := hX (p, C) (by simp)
    rw [List.length_map, nsmul_eq_mul] at h1
    push_cast
    linarith
  have key := num_run h f (rest ++ [.finalize]) 0 0 (f (p, C)) |f (p, C)| (false, 0 + 1, f (p, C)) ⟨rfl, hx, by simp⟩ le_rfl (by
      rw [happ]
      exact fun s hs => hm s (by simp [hs])) (by
    rw [happ, hre]
    refine le_trans ?_ hb
    simp only [zero_add]
    rw [show 1 + (added rest).length = (added rest).length + 1 by omega]
    refine mul_le_mul_of_nonneg_left ?_ (by positivity)
    have : ((((added rest).length + 1 : ℕ) : K)) * (X + ((reopenings false rest : K) + 1) * η) = ((added rest).length + 1 : ℕ) * X + ((reopenings false rest : K) + 1) * ((added rest).length + 1 : ℕ) * η := by ring
    rw [this]
    linarith)
  rw [happ, hre] at key
  simp only [zero_add] at key hpick
  have hfin := hend rest (false, 1, f (p, C))
  rw [List.foldl_append] at hfin key hpick
  rw [← List.foldl_append] at hfin key hpick
  rw [← hpick] at key hfin
  obtain ⟨k1, k2, k3⟩ := key
  simp only at k1 k2 k3 hfin
  rw [if_pos hfin] at k3
  refine ⟨hfin, k1, ?_⟩
  unfold MeanAfter
  simp only [List.length_cons, List.length_map, List.sum_cons, List.map_cons, List.map_map, Function.comp_def]
  have hpos : (0 : K) < (((added rest).length + 1 : ℕ) : K) := by positivity
  rw [← mul_le_mul_iff_left₀ hpos]
  refine k3.trans (le_of_eq ?_)
  field_simp
  push_cast
  ring

/-- C94: the mean and the covariance of a finalized voxel are the averages of what has been added to it, up to one rounding error for every point and two for every time that a finalized voxel received
points again. The last component of the mean is exactly 1. -/
theorem C94_average {X : K} {p : Pt K} {C : Mat4 K} {rest : List (Step K)}
    (hin : VoxelInput rnd u η big N X (reopenings false (.add p C :: rest)) (added (.add p C :: rest))) :
    ∃ v, run o (.add p C :: rest ++ [.finalize]) = v ∧ v.finalized = true ∧ v.numPoints = (added (.add p C :: rest)).length ∧ v.mean.w = 1 ∧
      MeanAfter u η (reopenings false (.add p C :: rest)) ((added (.add p C :: rest)).map fun s => s.1.x) v.mean.x ∧
      MeanAfter u η (reopenings false (.add p C :: rest)) ((added (.add p C :: rest)).map fun s => s.1.y) v.mean.y ∧
      MeanAfter u η (reopenings false (.add p C :: rest)) ((added (.add p C :: rest)).map fun s => s.1.z) v.mean.z ∧
      ∀ i j, MeanAfter u η (reopenings false (.add p C :: rest)) ((added (.add p C :: rest)).map fun s => s.2 i j) (v.cov i j) := by
  obtain ⟨px, py, pz, pw⟩ := picks_mean o
  have kx := number_mean h px (fun s hs => (hin.machine s hs).1) (fun s hs => (hin.size s hs).1) hin.range
  refine ⟨_, rfl, kx.1, kx.2.1, ?_, kx.2.2, (number_mean h py (fun s hs => (hin.machine s hs).2.1) (fun s hs => (hin.size s hs).2.1) hin.range).2.2,
    (number_mean h pz (fun s hs => (hin.machine s hs).2.2.1) (fun s hs => (hin.size s hs).2.2.1) hin.range).2.2,
    fun i j => (number_mean h (picks_cov o i j) (fun s hs => (hin.machine s hs).2.2.2 i j) (fun s hs => (hin.size s hs).2.2.2 i j) hin.range).2.2⟩
  have ones : ∀ (l : List (Step K)) (v : Bool × Nat × K), 1 ≤ v.2.1 → v.2.2 = (if v.1 then 1 else (v.2.1 : K)) → (∀ s ∈ added l, s.1.w = 1) → v.2.1 + (added l).length ≤ N →
      (l.foldl (numStep o fun s => s.1.w) v).2.2 = if (l.foldl (numStep o fun s => s.1.w) v).1 then 1 else ((l.foldl (numStep o fun s => s.1.w) v).2.1 : K) := by
    intro l
    induction l with
    | nil => intro v _ hv _ _; exact hv
    | cons e l ih =>
      rintro ⟨c, n, a⟩ hn hv hw hN
      rw [List.foldl_cons]
      simp only at hn hv hN
      have hn0 : (n : K) ≠ 0 := by exact_mod_cast (by omega : n ≠ 0)
      cases e with
      | add q D =>
        simp only [added, List.length_cons] at hw hN
        refine ih _ (by simp [numStep]) ?_ (fun s hs => hw s (by simp [hs])) (by simp only [numStep]; omega)
        have e1 : (if c = true then o.mul a (n : K) else a) = n := by
          cases c with
          | true =>
            simp only [if_true] at hv ⊢
            rw [hv, h.mul, one_mul, h.nat n (by omega)]
          | false => simpa using hv
        simp only [numStep, e1, Bool.false_eq_true, if_false]
        rw [h.add, hw (q, D) (by simp)]
        have := h.nat (n + 1) (by omega)
        push_cast at this ⊢
        exact this
      | finalize =>
        simp only [added] at hw hN
        cases c with
        | true => exact ih _ hn hv hw hN
        | false =>
          refine ih _ hn ?_ hw hN
          simp only [Bool.false_eq_true, if_false] at hv
          simp only [numStep, Bool.false_eq_true, if_false, if_true]
          rw [hv, h.div, div_self hn0]
          simpa using h.nat 1 (by omega)
  have hpick := pick_run pw (.add p C :: rest ++ [.finalize]) (fresh o)
  rw [pw.start, List.cons_append, List.foldl_cons, List.foldl_cons] at hpick
  have happ : ∀ l : List (Step K), added (l ++ [.finalize]) = added l := by
    intro l
    induction l with
    | nil => rfl
    | cons e l ih => cases e <;> simp [added, ih]
  have hN := hin.count
  simp only [added, List.length_cons] at hN
  have hp1 : p.w = 1 := hin.last (p, C) (by simp [added])
  have hs : numStep o (fun s => s.1.w) ((fresh o).finalized, (fresh o).numPoints, o.zero) (.add p C) = (false, 1, 1) := by
    simp only [numStep, fresh, Bool.false_eq_true, if_false, zero_add, hp1]
    rw [h.add, h.zero, zero_add]
    simpa using h.nat 1 (by omega)
  rw [hs] at hpick
  have := ones (rest ++ [.finalize]) (false, 1, 1) le_rfl (by simp) (by
    rw [happ]
    exact fun s hs => hin.last s (by simp [added, hs])) (by rw [happ]; simp only; omega)
  rw [← hpick] at this
  simp only at this
  have hf : ((rest ++ [Step.finalize]).foldl (step o) (step o (fresh o) (.add p C))).finalized = true := kx.1
  rw [if_pos hf] at this
  exact this

/-- Two voxels that have received the same points, in whatever order and however distributed over calls, differ by no more than the sum of their rounding errors. -/
theorem C94_apart {r r' : Nat} {xs ys : List K} (hp : xs.Perm ys) {a b : K} (ha : MeanAfter u η r xs a) (hb : MeanAfter u η r' ys b) :
    |a - b| ≤ ((1 + u) ^ (xs.length + 2 * r) - 1 + ((1 + u) ^ (xs.length + 2 * r') - 1)) * ((xs.map fun x => |x|).sum / xs.length) +
      ((r + 1) * (1 + u) ^ (xs.length + 2 * r) + (r' + 1) * (1 + u) ^ (xs.length + 2 * r')) * η := by
  unfold MeanAfter at ha hb
  rw [← hp.sum_eq, ← (hp.map _).sum_eq, ← hp.length_eq] at hb
  have e : a - b = (a - xs.sum / xs.length) - (b - xs.sum / xs.length) := by ring
  rw [e]
  refine (abs_sub _ _).trans ((add_le_add ha hb).trans (le_of_eq ?_))
  ring

/-- Symmetric covariances with a zero last row give a covariance with these properties, without any error. -/
theorem C94_shape (steps : List (Step K)) : ((∀ s ∈ added steps, ∀ i j, s.2 i j = s.2 j i) → ∀ i j, (run o steps).cov i j = (run o steps).cov j i) ∧
    ∀ i j, (∀ s ∈ added steps, s.2 i j = 0) → (run o steps).cov i j = 0 := by
  have h0 : rnd 0 = 0 := by simpa using h.nat 0 (Nat.zero_le _)
  have aux : ∀ (l : List (Step K)) (v : GaussianVoxel K), ((∀ s ∈ added l, ∀ i j, s.2 i j = s.2 j i) → (∀ i j, v.cov i j = v.cov j i) →
      ∀ i j, (l.foldl (step o) v).cov i j = (l.foldl (step o) v).cov j i) ∧ ∀ i j, (∀ s ∈ added l, s.2 i j = 0) → v.cov i j = 0 → (l.foldl (step o) v).cov i j = 0 := by
    intro l
    induction l with
    | nil => exact fun v => ⟨fun _ hv => hv, fun _ _ _ hv => hv⟩
    | cons e l ih =>
      intro v
      simp only [List.foldl_cons]
      cases e with
      | add q D =>
        constructor
        · intro hs hv
          refine (ih _).1 (fun s hm => hs s (by simp [added, hm])) ?_
          intro i j
          simp only [step]
          rw [(picks_cov o i j).add, (picks_cov o j i).add, hv i j, hs (q, D) (by simp [added]) i j]
        · intro i j hs hv
          refine (ih _).2 i j (fun s hm => hs s (by simp [added, hm])) ?_
          simp only [step]
          rw [(picks_cov o i j).add, hv, hs (q, D) (by simp [added]), h.mul, zero_mul, h0, ite_self, h.add, add_zero, h0]
      | finalize =>
        constructor
        · intro hs hv
          refine (ih _).1 hs ?_
          intro i j
          simp only [step]
          rw [(picks_cov o i j).finalize, (picks_cov o j i).finalize, hv i j]
        · intro i j hs hv
          refine (ih _).2 i j hs ?_
          simp only [step]
          rw [(picks_cov o i j).finalize, hv, h.div, zero_div, h0, ite_self]
  exact ⟨fun hs => (aux steps (fresh o)).1 hs fun _ _ => rfl, fun i j hs => (aux steps (fresh o)).2 i j hs h.zero⟩

/-- Variances stay non-negative. -/
theorem C94_variance (steps : List (Step K)) (i : Fin 4) (hs : ∀ s ∈ added steps, 0 ≤ s.2 i i) : 0 ≤ (run o steps).cov i i := by
  have h0 : rnd 0 = 0 := by simpa using h.nat 0 (Nat.zero_le _)
  have hr : ∀ x, 0 ≤ x → 0 ≤ rnd x := fun x hx => by simpa [h0] using h.mono 0 x hx
  have aux : ∀ (l : List (Step K)) (v : GaussianVoxel K), (∀ s ∈ added l, 0 ≤ s.2 i i) → 0 ≤ v.cov i i → 0 ≤ (l.foldl (step o) v).cov i i := by
    intro l
    induction l with
    | nil => exact fun v _ hv => hv
    | cons e l ih =>
      intro v hs hv
      rw [List.foldl_cons]
      cases e with
      | add q D =>
        refine ih _ (fun s hm => hs s (by simp [added, hm])) ?_
        simp only [step]
        rw [(picks_cov o i i).add, h.add]
        refine hr _ (add_nonneg ?_ (hs (q, D) (by simp [added])))
        split
        · rw [h.mul]
          exact hr _ (mul_nonneg hv (Nat.cast_nonneg _))
        · exact hv
      | finalize =>
        refine ih _ hs ?_
        simp only [step]
        rw [(picks_cov o i i).finalize]
        split
        · exact hv
        · rw [h.div]
          exact hr _ (div_nonneg hv (Nat.cast_nonneg _))
  exact aux steps (fresh o) hs (by simp [fresh, h.zero])

/-- In the directions of space the covariance is bounded from below like the covariances that have been added, up to three times the error of an entry. -/
theorem C94_definite {X lam : K} {p : Pt K} {C : Mat4 K} {rest : List (Step K)} {r : Nat} (hr : reopenings false (.add p C :: rest) = r)
    (hin : VoxelInput rnd u η big N X r (added (.add p C :: rest))) (hlam : ∀ s ∈ added (.add p C :: rest), ∀ w : Fin 4 → K, w 3 = 0 → lam * ∑ i, w i ^ 2 ≤ ∑ i, ∑ j, w i * s.2 i j * w j)
    (w : Fin 4 → K) (hw : w 3 = 0) :
    (lam - 3 * (((1 + u) ^ ((added (.add p C :: rest)).length + 2 * r) - 1) * X + (r + 1) * (1 + u) ^ ((added (.add p C :: rest)).length + 2 * r) * η)) * ∑ i, w i ^ 2 ≤
      ∑ i, ∑ j, w i * (run o (.add p C :: rest ++ [.finalize])).cov i j * w j := by
  subst hr
  obtain ⟨v, hv, -, -, -, -, -, -, hc⟩ := C94_average h hin
  rw [hv]
  have hu := h.u_nonneg
  have heta := h.eta_nonneg
  have one : (1 : K) ≤ 1 + u := by linarith
  set xs := added (Step.add p C :: rest) with hxs
  set r := reopenings false (Step.add p C :: rest) with hrdef
  set P := (1 + u) ^ (xs.length + 2 * r) with hP
  have hP1 : 1 ≤ P := one_le_pow₀ one
  have hlen : (0 : K) < xs.length := by
    have : 0 < xs.length := by rw [hxs]; simp [added]
    exact_mod_cast this
  have hX0 : 0 ≤ X := (abs_nonneg _).trans (hin.size (p, C) (by simp [hxs, added])).1
  set ε := (P - 1) * X + (r + 1) * P * η with hε
  have hε0 : 0 ≤ ε := by have := sub_nonneg.2 hP1; positivity
  -- entries
  have hent : ∀ i j, |v.cov i j - (xs.map fun s => s.2 i j).sum / xs.length| ≤ ε := by
    intro i j
    have := hc i j
    unfold MeanAfter at this
    rw [List.length_map, List.map_map] at this
    refine this.trans ?_
    have h1 : (xs.map ((fun x => |x|) ∘ fun s : Pt K × Mat4 K => s.2 i j)).sum / xs.length ≤ X := by
      rw [div_le_iff₀ hlen]
      have := List.sum_le_card_nsmul (xs.map ((fun x => |x|) ∘ fun s : Pt K × Mat4 K => s.2 i j)) X (by
        simp only [List.mem_map]
        rintro _ ⟨s, hs, rfl⟩
        exact (hin.size s hs).2.2.2 i j)
      rw [List.length_map, nsmul_eq_mul] at this
      linarith
    have := mul_le_mul_of_nonneg_left h1 (sub_nonneg.2 hP1)
    linarith
  -- the exact average
  have hform : ∀ l : List (Pt K × Mat4 K), (∀ s ∈ l, ∀ w : Fin 4 → K, w 3 = 0 → lam * ∑ i, w i ^ 2 ≤ ∑ i, ∑ j, w i * s.2 i j * w j) →
      l.length * (lam * ∑ i, w i ^ 2) ≤ ∑ i, ∑ j, w i * (l.map fun s => s.2 i j).sum * w j := by
    intro l
    induction l with
    | nil => intro _; simp
    | cons s l ih =>
      intro hl
      have h1 := hl s (by simp) w hw
      have h2 := ih fun t ht => hl t (by simp [ht])
      have e : ∑ i, ∑ j, w i * ((s :: l).map fun s => s.2 i j).sum * w j = ∑ i, ∑ j, w i * s.2 i j * w j + ∑ i, ∑ j, w i * (l.map fun s => s.2 i j).sum * w j := by
        rw [← Finset.sum_add_distrib]
        refine Finset.sum_congr rfl fun i _ => ?_
        rw [← Finset.sum_add_distrib]
        refine Finset.sum_congr rfl fun j _ => ?_
        rw [List.map_cons, List.sum_cons]
        ring
      rw [e, List.length_cons]
      push_cast
      linarith
  have hq := hform xs hlam
  have havg : lam * ∑ i, w i ^ 2 ≤ ∑ i, ∑ j, w i * ((xs.map fun s => s.2 i j).sum / xs.length) * w j := by
    have e : ∑ i, ∑ j, w i * ((xs.map fun s => s.2 i j).sum / xs.length) * w j = (∑ i, ∑ j, w i * (xs.map fun s => s.2 i j).sum * w j) / xs.length := by
      rw [Finset.sum_div]
      refine Finset.sum_congr rfl fun i _ => ?_
      rw [Finset.sum_div]
      refine Finset.sum_congr rfl fun j _ => ?_
      ring
    rw [e, le_div_iff₀ hlen]
    linarith
  have hdiff : ∑ i, ∑ j, w i * ((xs.map fun s => s.2 i j).sum / xs.length) * w j - ∑ i, ∑ j, w i * v.cov i j * w j ≤ ε * (3 * ∑ i, w i ^ 2) := by
    have e : ∑ i, ∑ j, w i * ((xs.map fun s => s.2 i j).sum / xs.length) * w j - ∑ i, ∑ j, w i * v.cov i j * w j =
        ∑ i, ∑ j, w i * (((xs.map fun s => s.2 i j).sum / xs.length) - v.cov i j) * w j := by
      rw [← Finset.sum_sub_distrib]
      refine Finset.sum_congr rfl fun i _ => ?_
      rw [← Finset.sum_sub_distrib]
      refine Finset.sum_congr rfl fun j _ => ?_
      ring
    rw [e]
    have term : ∀ i j, w i * (((xs.map fun s => s.2 i j).sum / xs.length) - v.cov i j) * w j ≤ ε * ((w i ^ 2 + w j ^ 2) / 2) := by
      intro i j
      have h1 : w i * (((xs.map fun s => s.2 i j).sum / xs.length) - v.cov i j) * w j ≤ |w i * w j| * ε := by
        have h2 : w i * (((xs.map fun s => s.2 i j).sum / xs.length) - v.cov i j) * w j = (w i * w j) * (((xs.map fun s => s.2 i j).sum / xs.length) - v.cov i j) := by ring
        rw [h2]
        refine (le_abs_self _).trans ?_
        rw [abs_mul]
        refine mul_le_mul_of_nonneg_left ?_ (abs_nonneg _)
        rw [abs_sub_comm]
        exact hent i j
      have h3 : |w i * w j| ≤ (w i ^ 2 + w j ^ 2) / 2 := by
        rw [abs_mul]
        nlinarith [sq_nonneg (|w i| - |w j|), sq_abs (w i), sq_abs (w j)]
      have := mul_le_mul_of_nonneg_right h3 hε0
      linarith
    simp only [Fin.sum_univ_four, hw]
    have t00 := term 0 0
    have t01 := term 0 1
    have t02 := term 0 2
    have t10 := term 1 0
    have t11 := term 1 1
    have t12 := term 1 2
    have t20 := term 2 0
    have t21 := term 2 1
    have t22 := term 2 2
    linarith
  have e : (lam - 3 * ε) * ∑ i, w i ^ 2 = lam * ∑ i, w i ^ 2 - ε * (3 * ∑ i, w i ^ 2) := by ring
  rw [e]
  linarith

end Rounded

/-! ### What rounding does -/

/-- A covariance with a value on the diagonal. -/
def round3 (s : ℚ) : Mat4 ℚ := fun i j => if i = j ∧ i ≠ 3 then s else 0

/-- Eight points with the covariance 1 in every direction. -/
def eightPoints : List (Step ℚ) := [1, 2, 3, 4, 5, 6, 8].map fun x => .add ⟨x, 0, 0, 1⟩ (round3 1)

/-- The same eight points, in one call and in two: the means differ. -/
theorem C94_batches_differ : added (eightPoints ++ [.finalize, .add ⟨0, 0, 0, 1⟩ (round3 1)]) = added (eightPoints ++ [.add ⟨0, 0, 0, 1⟩ (round3 1)]) ∧
    (run (nearestOps 52) (eightPoints ++ [.add ⟨0, 0, 0, 1⟩ (round3 1), .finalize])).mean = ⟨29 / 8, 0, 0, 1⟩ ∧
    (run (nearestOps 52) (eightPoints ++ [.finalize, .add ⟨0, 0, 0, 1⟩ (round3 1), .finalize])).mean = ⟨29 / 8 + 1 / 2 ^ 51, 0, 0, 1⟩ := by
  refine ⟨rfl, by decide +kernel, by decide +kernel⟩

/-- Covariance of points on the line through `(1, t)` in the plane. -/
def alongLine (t : ℚ) : Mat4 ℚ := fun i j => if i = 0 ∧ j = 0 then 1 else if (i = 0 ∧ j = 1) ∨ (i = 1 ∧ j = 0) then t else if i = 1 ∧ j = 1 then t ^ 2 else 0

/-- Three points along one line and a fourth along a line that is almost the same. -/
def almostAligned : List (Step ℚ) := [1, 1, 1, 1 + 1 / 2 ^ 26].map fun t => .add ⟨0, 0, 0, 1⟩ (alongLine t)

/-- The average of semidefinite matrices of machine numbers that the voxel computes need not be semidefinite. -/
theorem C94_indefinite : (∀ s ∈ added almostAligned, (∀ i j, nearest 52 (s.2 i j) = s.2 i j) ∧ ∀ w : Fin 4 → ℚ, 0 ≤ ∑ i, ∑ j, w i * s.2 i j * w j) ∧
    ∃ w : Fin 4 → ℚ, ∑ i, ∑ j, w i * (run (nearestOps 52) (almostAligned ++ [.finalize])).cov i j * w j < 0 := by
  have psd : ∀ (t : ℚ) (w : Fin 4 → ℚ), 0 ≤ ∑ i, ∑ j, w i * alongLine t i j * w j := by
    intro t w
    have e : ∑ i, ∑ j, w i * alongLine t i j * w j = (w 0 + t * w 1) ^ 2 := by
      simp [Fin.sum_univ_four, alongLine]
      ring
    rw [e]
    positivity
  constructor
  · intro s hs
    have hs' : s = (⟨0, 0, 0, 1⟩, alongLine 1) ∨ s = (⟨0, 0, 0, 1⟩, alongLine (1 + 1 / 2 ^ 26)) := by
      simp only [almostAligned, added, List.map_cons, List.map_nil, List.mem_cons, List.not_mem_nil, or_false] at hs
      tauto
    rcases hs' with rfl | rfl
    · exact ⟨fun i => by fin_cases i <;> decide +kernel, psd _⟩
    · exact ⟨fun i => by fin_cases i <;> decide +kernel, psd _⟩
  · refine ⟨![4 + 1 / 2 ^ 26, -4, 0, 0], ?_⟩
    decide +kernel

/-- The premises are met by the eight points in two calls, and the covariance stays positive definite. -/
theorem eight_input : VoxelInput (nearest 52) (1 / 2 ^ 53) 0 (2 ^ 100) (2 ^ 53) 8 1 (added (eightPoints ++ [.finalize, .add ⟨0, 0, 0, 1⟩ (round3 1)])) where
  machine := by
    intro s hs
    have h1 : ∀ s ∈ added (eightPoints ++ [.finalize, .add ⟨0, 0, 0, 1⟩ (round3 1)]), nearest 52 s.1.x = s.1.x ∧ nearest 52 s.1.y = s.1.y ∧ nearest 52 s.1.z = s.1.z := by decide +kernel
    have h2 : ∀ s ∈ added (eightPoints ++ [.finalize, .add ⟨0, 0, 0, 1⟩ (round3 1)]), s.2 = round3 1 := by
      simp [eightPoints, added]
    have h3 : ∀ i j, nearest 52 (round3 1 i j) = round3 1 i j := fun i => by fin_cases i <;> decide +kernel
    obtain ⟨a, b, c⟩ := h1 s hs
    refine ⟨a, b, c, ?_⟩
    rw [h2 s hs]
    exact h3
  size := by decide +kernel
  last := by decide +kernel
  count := by decide +kernel
  range := by decide +kernel

example : ∃ v, run (nearestOps 52) (eightPoints ++ [.finalize, .add ⟨0, 0, 0, 1⟩ (round3 1), .finalize]) = v ∧ v.numPoints = 8 ∧ MeanAfter (1 / 2 ^ 53) 0 1 [1, 2, 3, 4, 5, 6, 8, 0] v.mean.x := by
  obtain ⟨v, h1, -, h2, -, h3, -⟩ := C94_average (nearest_machine 52 (2 ^ 100)) (rest := eightPoints.tail ++ [.finalize, .add ⟨0, 0, 0, 1⟩ (round3 1)]) (p := ⟨1, 0, 0, 1⟩) (C := round3 1) eight_input
  exact ⟨v, h1, h2, h3⟩

example (w : Fin 4 → ℚ) (hw : w 3 = 0) : (1 - 3 * (((1 + 1 / 2 ^ 53) ^ 10 - 1) * 8 + (1 + 1) * (1 + 1 / 2 ^ 53) ^ 10 * 0)) * ∑ i, w i ^ 2 ≤
    ∑ i, ∑ j, w i * (run (nearestOps 52) (eightPoints ++ [.finalize, .add ⟨0, 0, 0, 1⟩ (round3 1), .finalize])).cov i j * w j := by
  have := C94_definite (nearest_machine 52 (2 ^ 100)) (lam := 1) (rest := eightPoints.tail ++ [.finalize, .add ⟨0, 0, 0, 1⟩ (round3 1)]) (p := ⟨1, 0, 0, 1⟩) (C := round3 1) rfl eight_input (by
    have h2 : ∀ s ∈ added (eightPoints ++ [.finalize, .add ⟨0, 0, 0, 1⟩ (round3 1)]), s.2 = round3 1 := by
      simp [eightPoints, added]
    intro s hs w hw
    rw [h2 s hs]
    simp [Fin.sum_univ_four, round3, hw]
    linarith) w hw
  exact_mod_cast this

/-- The two ways of adding the eight points differ by no more than 2⁻⁴⁶. -/
example : ((1 + 1 / 2 ^ 53) ^ (8 + 2 * 1) - 1 + ((1 + 1 / 2 ^ 53) ^ (8 + 2 * 0) - 1) : ℚ) * (29 / 8) ≤ 1 / 2 ^ 46 := by norm_num

example : (1 / 2 ^ 53 : ℚ) ≤ |(29 / 8 + 1 / 2 ^ 51) - ([1, 2, 3, 4, 5, 6, 8, 0] : List ℚ).sum / 8| := by decide +kernel

end Verif.Props
