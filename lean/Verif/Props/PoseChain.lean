import Verif.Props.ExpLoss
import Verif.Proofs.Equivariance

/-!
C109: the pose that a registration returns is the product of the exponentials of its steps, up to rounding.
-/

set_option linter.unusedSectionVars false
set_option linter.unusedSimpArgs false
set_option linter.unnecessarySeqFocus false

namespace Verif.Spec

open Matrix Verif Verif.Factors NormedSpace

/-- The initial motion followed by the motions of the twists, exactly. -/
noncomputable def motionAfter (Y : Matrix (Fin 4) (Fin 4) ℝ) (as : List (Fin 6 → ℝ)) : Matrix (Fin 4) (Fin 4) ℝ := as.foldl (fun Y a => Y * exp (twistMatrix a)) Y

/-- The sum of the translations of the twists, componentwise. -/
def travel (as : List (Fin 6 → ℝ)) : ℝ := (as.map fun a => |a 3| + |a 4| + |a 5|).sum

/-- Bound of the error of the translation of `se3_exp`, relative to the translation of the twist. -/
noncomputable def translationLoss (ε : ℝ) : ℝ := Real.sqrt (2 * ε) + 470 * ε + 2 / 10 ^ 9

/-- The values of the translation of a pose. -/
def translationPart {V : Type} (val : V → ℝ) (T : Pose V) : Fin 3 → ℝ := fun i => val (T.t i)

/-- Rotation and translation of a motion given as a 4x4 matrix. -/
def rotationOf (Y : Matrix (Fin 4) (Fin 4) ℝ) : Matrix (Fin 3) (Fin 3) ℝ := of fun i j => Y i.castSucc j.castSucc

def translationOf (Y : Matrix (Fin 4) (Fin 4) ℝ) : Fin 3 → ℝ := fun i => Y i.castSucc 3

/-- A pose without NaN and infinity. -/
def PoseFinite {V : Type} (finite : V → Prop) (T : Pose V) : Prop := RotationFinite finite T ∧ ∀ i, finite (T.t i)

/-- The steps that an optimiser made, in their order. -/
def stepsOf {F V P H B D : Type} (log : List (Machine.Iteration F V P H B D)) : List D := log.filterMap (·.step)

end Verif.Spec

namespace Verif.Props

open Matrix Verif Verif.Machine Verif.Spec Verif.Proofs Verif.Factors Verif.Lie NormedSpace

/-! ### exact motions -/

theorem cross_shrinks (w v : Fin 3 → ℝ) {W s q : ℝ} (hW : W ^ 2 = w 0 ^ 2 + w 1 ^ 2 + w 2 ^ 2) (h : 0 ≤ 2 * q - s ^ 2 - q ^ 2 * W ^ 2) : len ((1 + s • skew w + q • (skew w * skew w)) *ᵥ v) ≤ len v := by
  refine len_le_of_sq (len_nonneg _) ?_
  rw [len_sq]
  have key : ((1 + s • skew w + q • (skew w * skew w)) *ᵥ v) ⬝ᵥ ((1 + s • skew w + q • (skew w * skew w)) *ᵥ v) =
      v ⬝ᵥ v - (2 * q - s ^ 2 - q ^ 2 * (w 0 ^ 2 + w 1 ^ 2 + w 2 ^ 2)) * ((w 1 * v 2 - w 2 * v 1) ^ 2 + (w 2 * v 0 - w 0 * v 2) ^ 2 + (w 0 * v 1 - w 1 * v 0) ^ 2) := by
    simp [mulVec, dotProduct, Fin.sum_univ_three, skew, Matrix.mul_apply, Matrix.add_apply, Matrix.smul_apply, Matrix.one_apply]
    ring
  rw [key, ← hW]
  have : 0 ≤ (2 * q - s ^ 2 - q ^ 2 * W ^ 2) * ((w 1 * v 2 - w 2 * v 1) ^ 2 + (w 2 * v 0 - w 0 * v 2) ^ 2 + (w 0 * v 1 - w 1 * v 0) ^ 2) := mul_nonneg h (by positivity)
  linarith

/-- The exponential of a twist is a rigid motion that translates no further than the twist says. -/
theorem exp_pose (a : Fin 6 → ℝ) : ∃ X : Pose ℝ, X.matrix = exp (twistMatrix a) ∧ IsRotation X.R ∧ len X.t ≤ len (tra a) := by
  set W := len (rot a) with hWd
  obtain ⟨k, hk⟩ : ∃ k : ℝ, k * W = Real.sin (W / 2) := by
    by_cases h0 : W = 0
    · exact ⟨0, by rw [h0]; simp⟩
    · exact ⟨Real.sin (W / 2) / W, by field_simp⟩
  have hWsq : W ^ 2 = rot a 0 ^ 2 + rot a 1 ^ 2 + rot a 2 ^ 2 := by
    rw [hWd, len_sq]
    simp [dotProduct, Fin.sum_univ_three]
    ring
  obtain ⟨X, hX⟩ : ∃ X : Pose ℝ, X.matrix = exp (twistMatrix a) := by
    by_cases hp : 0 < rot a ⬝ᵥ rot a
    · exact ⟨closedPose a, closedPose_exp a hp⟩
    · exact ⟨_, twist_translation a (rot_zero_of_not_pos hp)⟩
  refine ⟨X, hX, ?_, ?_⟩
  · have hR : X.R = (Lie.Quat.mk (Real.cos (W / 2)) (k * a 0) (k * a 1) (k * a 2)).toRotationMatrix := by
      ext i j
      rw [← (exp_entries a hk i j).1, ← hX]
      fin_cases i <;> fin_cases j <;> rfl
    have hq : qn (Lie.Quat.mk (Real.cos (W / 2)) (k * a 0) (k * a 1) (k * a 2)) = 1 := by
      have h1 : (k * a 0) ^ 2 + (k * a 1) ^ 2 + (k * a 2) ^ 2 = (k * W) ^ 2 := by
        rw [mul_pow k W, hWsq]
        simp only [rot, cons_val_zero, cons_val_one, cons_val]
        ring
      have h2 := Real.sin_sq_add_cos_sq (W / 2)
      rw [hk] at h1
      simp only [qn]
      linarith
    rw [hR]
    exact ⟨rot_orth _ hq, by rw [rot_det, hq]; ring⟩
  · have ht : X.t = (1 + ((1 - Real.cos W) / W ^ 2) • skew (rot a) + ((W - Real.sin W) / W ^ 3) • (skew (rot a) * skew (rot a))) *ᵥ tra a := by
      funext i
      rw [← (exp_entries a hk i 0).2, ← hX]
      fin_cases i <;> rfl
    rw [ht]
    refine cross_shrinks (rot a) (tra a) hWsq ?_
    by_cases h0 : W = 0
    · rw [h0]; simp
    · have h1 : 2 * ((W - Real.sin W) / W ^ 3) - ((1 - Real.cos W) / W ^ 2) ^ 2 - ((W - Real.sin W) / W ^ 3) ^ 2 * W ^ 2 = (W ^ 2 - 2 * (1 - Real.cos W)) / W ^ 4 := by
        field_simp
        have := Real.sin_sq_add_cos_sq W
        linear_combination -this
      rw [h1]
      refine div_nonneg ?_ (by positivity)
      linarith [(abs_one_sub_cos W).2]

theorem motion_pose (Y : Pose ℝ) (hY : IsRotation Y.R) (as : List (Fin 6 → ℝ)) : ∃ Z : Pose ℝ, Z.matrix = motionAfter Y.matrix as ∧ IsRotation Z.R ∧ len Z.t ≤ len Y.t + travel as := by
  induction as using List.reverseRecOn with
  | nil => exact ⟨Y, rfl, hY, by simp [travel]⟩
  | append_singleton as a ih =>
    obtain ⟨Z, h1, h2, h3⟩ := ih
    obtain ⟨X, g1, g2, g3⟩ := exp_pose a
    refine ⟨Z.mul X, ?_, IsRotation.mul h2 g2, ?_⟩
    · rw [pose_mul_matrix, h1, g1]
      simp [motionAfter]
    · have h4 : len (tra a) ≤ |a 3| + |a 4| + |a 5| := by
        refine len_le_of_sq (by positivity) ?_
        have e : tra a ⬝ᵥ tra a = |a 3| ^ 2 + |a 4| ^ 2 + |a 5| ^ 2 := by
          simp [tra, dotProduct, Fin.sum_univ_three]
          ring
        rw [e]
        have := mul_nonneg (abs_nonneg (a 3)) (abs_nonneg (a 4))
        have := mul_nonneg (abs_nonneg (a 3)) (abs_nonneg (a 5))
        have := mul_nonneg (abs_nonneg (a 4)) (abs_nonneg (a 5))
        nlinarith
      have h5 : travel (as ++ [a]) = travel as + (|a 3| + |a 4| + |a 5|) := by simp [travel]
      have h6 : (Z.mul X).t = Z.R *ᵥ X.t + Z.t := rfl
      rw [h5, h6]
      have := len_add_le (Z.R *ᵥ X.t) Z.t
      rw [len_orth h2.1] at this
      linarith

/-! ### one product -/

theorem len_abs (x : Fin 3 → ℝ) : len (fun i => |x i|) = len x := by
  have : len (fun i => |x i|) ^ 2 = len x ^ 2 := by
    rw [len_sq, len_sq]
    simp only [dotProduct, abs_mul_abs_self]
  exact (sq_eq_sq₀ (len_nonneg _) (len_nonneg _)).1 this

theorem len_const {c : ℝ} (hc : 0 ≤ c) : len (fun _ : Fin 3 => c) ≤ 2 * c := by
  refine len_le_of_sq (by linarith) ?_
  simp only [dotProduct, Fin.sum_univ_three]
  nlinarith

section Chain

variable {V : Type} [LT V] [DecidableLT V] {o : Ops V} {c : TrigOps V} {finite : V → Prop} {val : V → ℝ} {u γ η ζ ε : ℝ}

theorem translation_step (hc : TrigAccuracy o c finite val u γ η ζ) {T E : Pose V} {Y X : Pose ℝ} {A b τ : ℝ} (hfin : ∀ i, finite ((poseMul o T E).t i)) (hY : IsRotation Y.R) (hA : A ≤ 1 / 10) (hR : fro (rotationPart val T - Y.R) ≤ A)
    (hE : len (translationPart val E - X.t) ≤ τ) (hT : len (translationPart val T - Y.t) ≤ b) :
    len (translationPart val (poseMul o T E) - (Y.mul X).t) ≤ (1 + u) * b + τ + (A + 3 * γ + 4 * u) * (len X.t + τ) + 4 * η + u * len Y.t := by
  have hu0 := hc.u_nonneg
  have hu1 := hc.u_le
  have hγ0 := hc.γ_nonneg
  have hγ1 := hc.γ_le
  have hη0 := hc.η_nonneg
  have hA0 : 0 ≤ A := (fro_nonneg _).trans hR
  set R := rotationPart val T with hRd
  set e := translationPart val E with hed
  set t := translationPart val T with htd
  set t' := translationPart val (poseMul o T E) with htd'
  set D : Fin 3 → ℝ := fun i => val (o.dot3 (T.R i 0) (T.R i 1) (T.R i 2) (E.t 0) (E.t 1) (E.t 2)) with hDd
  have hadd := fun i => hc.add _ _ (hfin i)
  have hdot := fun i => (hc.dot _ _ _ _ _ _ (hadd i).1).2
  set l := len X.t + τ with hl
  have he : len e ≤ l := by
    have : e = (e - X.t) + X.t := by abel
    rw [this]
    have := len_add_le (e - X.t) X.t
    linarith
  have he0 := len_nonneg e
  have hfR : fro R ≤ 21 / 10 := by
    have := near_fro_le ⟨Y.R, hY, hR⟩
    linarith
  have d1 : len (D - R *ᵥ e) ≤ 21 / 10 * γ * l + 2 * η := by
    have h1 : len (D - R *ᵥ e) ≤ len (γ • ((of fun i j => |R i j|) *ᵥ (fun i => |e i|)) + fun _ => η) := by
      refine len_mono fun i => ?_
      have := hdot i
      simp only [abs_mul] at this
      simp only [Pi.sub_apply, Pi.add_apply, Pi.smul_apply, smul_eq_mul, mulVec, dotProduct, Fin.sum_univ_three, of_apply]
      exact this
    refine h1.trans ((len_add_le _ _).trans ?_)
    rw [len_smul, abs_of_nonneg hγ0]
    have h2 := len_mulVec_le (of fun i j => |R i j|) (fun i => |e i|)
    rw [fro_abs, len_abs] at h2
    have h3 : fro R * len e ≤ 21 / 10 * l := mul_le_mul hfR he he0 (by norm_num)
    have h4 := mul_le_mul_of_nonneg_left (h2.trans h3) hγ0
    have h5 := len_const hη0
    linarith
  have d2 : len ((R - Y.R) *ᵥ e) ≤ A * l := (len_mulVec_le _ _).trans (mul_le_mul hR he he0 hA0)
  have d3 : len (Y.R *ᵥ (e - X.t)) ≤ τ := by rw [len_orth hY.1]; exact hE
  have d4 : len (Y.R *ᵥ e) ≤ l := by rw [len_orth hY.1]; exact he
  have hD : len D ≤ l + A * l + (21 / 10 * γ * l + 2 * η) := by
    have e1 : D = (D - R *ᵥ e) + ((R - Y.R) *ᵥ e + Y.R *ᵥ e) := by
      rw [sub_mulVec]
      abel
    rw [e1]
    have h1 := len_add_le (D - R *ᵥ e) ((R - Y.R) *ᵥ e + Y.R *ᵥ e)
    have h2 := len_add_le ((R - Y.R) *ᵥ e) (Y.R *ᵥ e)
    linarith
  have ht : len t ≤ len Y.t + b := by
    have e1 : t = (t - Y.t) + Y.t := by abel
    rw [e1]
    have := len_add_le (t - Y.t) Y.t
    linarith
  have d5 : len (t' - (D + t)) ≤ u * (len D + len t) := by
    have h1 : len (t' - (D + t)) ≤ len (u • fun i => |(D + t) i|) := by
      refine len_mono fun i => ?_
      exact (hadd i).2.2
    rw [len_smul, abs_of_nonneg hu0, len_abs] at h1
    exact h1.trans (mul_le_mul_of_nonneg_left (len_add_le _ _) hu0)
  have e1 : t' - (Y.mul X).t = (t' - (D + t)) + ((D - R *ᵥ e) + ((R - Y.R) *ᵥ e + (Y.R *ᵥ (e - X.t) + (t - Y.t)))) := by
    show t' - (Y.R *ᵥ X.t + Y.t) = _
    rw [sub_mulVec, mulVec_sub]
    abel
  rw [e1]
  have h1 := len_add_le (t' - (D + t)) ((D - R *ᵥ e) + ((R - Y.R) *ᵥ e + (Y.R *ᵥ (e - X.t) + (t - Y.t))))
  have h2 := len_add_le (D - R *ᵥ e) ((R - Y.R) *ᵥ e + (Y.R *ᵥ (e - X.t) + (t - Y.t)))
  have h3 := len_add_le ((R - Y.R) *ᵥ e) (Y.R *ᵥ (e - X.t) + (t - Y.t))
  have h4 := len_add_le (Y.R *ᵥ (e - X.t)) (t - Y.t)
  have hl0 : 0 ≤ l := he0.trans he
  have h5 : u * len D ≤ u * (12 / 10 * l + 2 * η) := by
    refine mul_le_mul_of_nonneg_left (hD.trans ?_) hu0
    have i1 := mul_le_mul_of_nonneg_right hA hl0
    have i2 := mul_le_mul_of_nonneg_right hγ1 hl0
    linarith
  have h6 := mul_le_mul_of_nonneg_left ht hu0
  have h7 : u * (2 * η) ≤ η := by
    have := mul_le_mul_of_nonneg_right hu1 hη0
    linarith
  have h8 : 0 ≤ γ * l := mul_nonneg hγ0 hl0
  have h9 : 0 ≤ u * l := mul_nonneg hu0 hl0
  linarith

/-! ### the chain -/

theorem travel_nonneg (as : List (Fin 6 → ℝ)) : 0 ≤ travel as := List.sum_nonneg (by
  intro x hx
  obtain ⟨a, _, rfl⟩ := List.mem_map.1 hx
  positivity)

theorem loss_nonneg (hε : 0 ≤ ε) : 0 ≤ translationLoss ε := by
  unfold translationLoss
  have := Real.sqrt_nonneg (2 * ε)
  positivity

/-- The pose after a list of steps, each computed with `se3_exp` and multiplied to the right. -/
theorem chain_error (hc : TrigAccuracy o c finite val u γ η ζ) (he : ExpMapAccuracy o c finite val u) (hu : u ≤ ε) (hγ : γ ≤ 3 * ε) (hη : η ≤ ε / 10 ^ 30) (hε' : ε ≤ 1 / 10 ^ 6) (T0 : Pose V) {Q0 : Matrix (Fin 3) (Fin 3) ℝ}
    (hQ0 : IsRotation Q0) {e : ℝ} (h0 : fro (rotationPart val T0 - Q0) ≤ e) {A P : ℝ} (hA : A ≤ 1 / 10) (ds : List (Fin 6 → V)) :
    (∀ d ∈ ds, len (rot fun i => val (d i)) ≤ 4) → PoseFinite finite (ds.foldl (fun T d => poseMul o T (se3Motion o c d)) T0) → rotationDrift γ η (1320 * ε + 3 / 10 ^ 17) e ds.length ≤ A →
    len (translationPart val T0) + travel (ds.map fun d i => val (d i)) ≤ P →
    ∃ Z : Pose ℝ, Z.matrix = motionAfter (Pose.matrix ⟨Q0, translationPart val T0⟩) (ds.map fun d i => val (d i)) ∧ IsRotation Z.R ∧ len Z.t ≤ P ∧
      fro (rotationPart val (ds.foldl (fun T d => poseMul o T (se3Motion o c d)) T0) - Z.R) ≤ rotationDrift γ η (1320 * ε + 3 / 10 ^ 17) e ds.length ∧
      len (translationPart val (ds.foldl (fun T d => poseMul o T (se3Motion o c d)) T0) - Z.t) ≤
        (1 + u) ^ ds.length * ((4 * translationLoss ε + A + 3 * γ + 4 * u) * travel (ds.map fun d i => val (d i)) + ds.length * (8 * η + u * P)) := by
  have hu0 := hc.u_nonneg
  have hγ0 := hc.γ_nonneg
  have hη0 := hc.η_nonneg
  have hε : 0 ≤ ε := hu0.trans hu
  have he0 : 0 ≤ e := (fro_nonneg _).trans h0
  have hρ0 : 0 ≤ 1320 * ε + 3 / 10 ^ 17 := by positivity
  have hK := loss_nonneg hε
  induction ds using List.reverseRecOn with
  | nil =>
    intro _ _ _ hP
    refine ⟨⟨Q0, translationPart val T0⟩, rfl, hQ0, by simpa [travel] using hP, by simpa [drift_zero] using h0, ?_⟩
    simp [travel, len]
  | append_singleton ds d ih =>
    intro h4 hf hdr hP
    simp only [List.foldl_append, List.foldl_cons, List.foldl_nil, List.map_append, List.map_cons, List.map_nil, List.length_append, List.length_cons, List.length_nil, zero_add] at hf hdr hP ⊢
    set T := ds.foldl (fun T d => poseMul o T (se3Motion o c d)) T0 with hTd
    set a : Fin 6 → ℝ := fun i => val (d i) with had
    have htr : travel (ds.map (fun d i => val (d i)) ++ [a]) = travel (ds.map fun d i => val (d i)) + (|a 3| + |a 4| + |a 5|) := by simp [travel]
    set S := |a 3| + |a 4| + |a 5| with hS
    have hS0 : 0 ≤ S := by positivity
    have hmono := drift_mono hγ0 hη0 hρ0 he0 (Nat.le_succ ds.length)
    rw [htr] at hP ⊢
    have hadd := fun i => hc.add _ _ (hf.2 i)
    have hrow := fun i j => (hc.dot _ _ _ _ _ _ (hf.1 i j)).1
    have htrow := fun i => (hc.dot _ _ _ _ _ _ (hadd i).1).1
    have hfT : PoseFinite finite T := by
      refine ⟨fun i j => ?_, fun i => (hadd i).2.1⟩
      obtain ⟨g0, g1, g2, _⟩ := hrow i 0
      fin_cases j
      · exact g0
      · exact g1
      · exact g2
    have hfE : RotationFinite finite (se3Motion o c d) := by
      intro i j
      obtain ⟨_, _, _, g0, g1, g2⟩ := hrow 0 j
      fin_cases i
      · exact g0
      · exact g1
      · exact g2
    have hfEt : ∀ i, finite ((se3Motion o c d).t i) := by
      intro i
      obtain ⟨_, _, _, g0, g1, g2⟩ := htrow 0
      fin_cases i
      · exact g0
      · exact g1
      · exact g2
    obtain ⟨Z, z1, z2, z3, z4, z5⟩ := ih (fun d hd => h4 d (List.mem_append_left _ hd)) hfT (hmono.trans hdr) (by linarith)
    have hW := h4 d (by simp)
    obtain ⟨X, x1, x2, x3⟩ := exp_pose a
    have hXR : fro (rotationPart val (se3Motion o c d) - X.R) ≤ 1320 * ε + 3 / 10 ^ 17 := by
      have h1 : fro (rotationPart val (se3Motion o c d) - X.R) ≤ fro (of fun _ _ => 440 * ε + 1 / 10 ^ 17) := by
        refine fro_mono fun i j => ?_
        have h2 := C108_rotation hc hu hγ hη hε' (translationM o c) d hfE hW i j
        have h3 : exp (twistMatrix fun i => val (d i)) i.castSucc j.castSucc = X.R i j := by
          show exp (twistMatrix a) _ _ = _
          rw [← x1]
          fin_cases i <;> fin_cases j <;> rfl
        rw [h3] at h2
        exact h2
      rw [fro_const (by positivity)] at h1
      linarith
    have hXt : len (translationPart val (se3Motion o c d) - X.t) ≤ 2 * (translationLoss ε * S + η) := by
      have h1 : len (translationPart val (se3Motion o c d) - X.t) ≤ len (fun _ : Fin 3 => translationLoss ε * S + η) := by
        refine len_mono fun i => ?_
        have h2 := (C108_translation hc he hu hγ hη hε' d hfE hfEt hW i).1
        have h3 : exp (twistMatrix fun i => val (d i)) i.castSucc 3 = X.t i := by
          show exp (twistMatrix a) _ _ = _
          rw [← x1]
          fin_cases i <;> rfl
        rw [h3] at h2
        exact h2
      exact h1.trans (len_const (by positivity))
    have hXS : len X.t ≤ S := by
      refine x3.trans (len_le_of_sq hS0 ?_)
      have e1 : tra a ⬝ᵥ tra a = |a 3| ^ 2 + |a 4| ^ 2 + |a 5| ^ 2 := by
        simp [tra, dotProduct, Fin.sum_univ_three]
        ring
      rw [e1, hS]
      have := mul_nonneg (abs_nonneg (a 3)) (abs_nonneg (a 4))
      have := mul_nonneg (abs_nonneg (a 3)) (abs_nonneg (a 5))
      have := mul_nonneg (abs_nonneg (a 4)) (abs_nonneg (a 5))
      nlinarith
    have hρ1 : 1320 * ε + 3 / 10 ^ 17 ≤ 1 := by linarith
    have hd1 : rotationDrift γ η (1320 * ε + 3 / 10 ^ 17) e ds.length ≤ A := hmono.trans hdr
    have hA0 : 0 ≤ A := (drift_nonneg hγ0 hη0 hρ0 he0 _).trans hd1
    have hrot := mul_error (trig_dot hc) hf.1 (hd1.trans (by linarith)) hρ1 z2 x2 z4 hXR
    have htra := translation_step hc (X := X) hf.2 z2 hA (z4.trans hd1) hXt z5
    refine ⟨Z.mul X, ?_, IsRotation.mul z2 x2, ?_, hrot.trans (drift_succ hγ0 hη0 hρ0 he0 _), ?_⟩
    · rw [pose_mul_matrix, z1, x1]
      simp [motionAfter]
    · obtain ⟨Z', y1, y2, y3⟩ := motion_pose ⟨Q0, translationPart val T0⟩ hQ0 (ds.map (fun d i => val (d i)) ++ [a])
      have e1 : Z'.matrix = (Z.mul X).matrix := by
        rw [y1, pose_mul_matrix, z1, x1]
        simp [motionAfter]
      have e2 : Z'.t = (Z.mul X).t := by
        funext i
        have := fun i : Fin 4 => congrFun (congrFun e1 i) 3
        fin_cases i
        · exact this 0
        · exact this 1
        · exact this 2
      rw [← e2]
      rw [htr] at y3
      exact y3.trans hP
    · refine htra.trans ?_
      have hα : A + 3 * γ + 4 * u ≤ 1 := by linarith
      have hα0 : 0 ≤ A + 3 * γ + 4 * u := by positivity
      set K := translationLoss ε
      set α := A + 3 * γ + 4 * u
      set t := travel (ds.map fun d i => val (d i)) with ht
      have ht0 : 0 ≤ t := travel_nonneg _
      have hKS : 0 ≤ K * S := by positivity
      have k1 : α * (len X.t + 2 * (K * S + η)) ≤ α * S + 2 * (K * S + η) := by
        have i1 := mul_le_mul_of_nonneg_left hXS hα0
        have i2 := mul_le_mul_of_nonneg_right hα (show 0 ≤ 2 * (K * S + η) by positivity)
        linarith
      have k2 := mul_le_mul_of_nonneg_left z3 hu0
      have hP0 : 0 ≤ P := (len_nonneg _).trans z3
      have e1 : 4 * K + A + 3 * γ + 4 * u = 4 * K + α := by simp only [α]; ring
      rw [e1] at *
      have h1 : (1 : ℝ) ≤ (1 + u) ^ (ds.length + 1) := one_le_pow₀ (by linarith)
      have h2 : 0 ≤ (4 * K + α) * S + (8 * η + u * P) := by positivity
      have h3 := mul_le_mul_of_nonneg_right h1 h2
      push_cast
      have e2 : (1 + u) ^ (ds.length + 1) * ((4 * K + α) * (t + S) + (ds.length + 1) * (8 * η + u * P)) =
          (1 + u) * ((1 + u) ^ ds.length * ((4 * K + α) * t + ds.length * (8 * η + u * P))) + (1 + u) ^ (ds.length + 1) * ((4 * K + α) * S + (8 * η + u * P)) := by
        rw [pow_succ]
        ring
      rw [e2]
      linarith

end Chain

/-! ### the optimisers -/

section Optimisers

variable {F V P H B D : Type} [Zero V] [Add V] [Mul V] [Div V] [LE V] [DecidableLE V] [Zero H] [Add H] [Zero B] [Add B]

theorem lm_steps (p : Machine.Problem F V P H B D) (factor : V) (maxInner : ℕ) : ∀ (fuel i : ℕ) (lambda : V) (r0 : Machine.Result V P H B) (fs : List F) {r fs' log},
    Machine.lmLoop p factor maxInner fuel i lambda r0 fs = .ok (r, fs', log) → r.T = (stepsOf log).foldl p.step r0.T ∧ (stepsOf log).length ≤ fuel
  | 0, i, lambda, r0, fs, r, fs', log, h => by
    simp only [Machine.lmLoop, Except.ok.injEq, Prod.mk.injEq] at h
    obtain ⟨rfl, rfl, rfl⟩ := h
    exact ⟨rfl, le_rfl⟩
  | fuel + 1, i, lambda, r0, fs, r, fs', log, h => by
    simp only [Machine.lmLoop] at h
    split at h
    · simp only [Except.ok.injEq, Prod.mk.injEq] at h
      obtain ⟨rfl, rfl, rfl⟩ := h
      exact ⟨rfl, Nat.zero_le _⟩
    · simp only [bind, Except.bind] at h
      rcases hl : p.linearize r0.T fs with x | ⟨fs1, s⟩
      · rw [hl] at h; simp at h
      rw [hl] at h
      simp only at h
      rcases hn : Machine.lmInner p factor r0.T fs1 (p.updateLinearized r0.T s).1 (p.updateLinearized r0.T s).2.1 maxInner lambda (p.updateLinearized r0.T s).2.2 with x | inner
      · rw [hn] at h; simp at h
      rw [hn] at h
      simp only at h
      rcases ha : inner.accepted with _ | ⟨d, T1⟩
      · rw [ha] at h
        simp only [Except.ok.injEq, Prod.mk.injEq] at h
        obtain ⟨rfl, rfl, rfl⟩ := h
        exact ⟨rfl, Nat.zero_le _⟩
      · rw [ha] at h
        simp only at h
        obtain ⟨l, rfl, rfl⟩ := inner_step p factor r0.T fs1 _ _ _ _ _ hn d T1 ha
        split at h
        · cases h
        rename_i hrec
        simp only [Except.ok.injEq, Prod.mk.injEq] at h
        obtain ⟨rfl, rfl, rfl⟩ := h
        obtain ⟨i1, i2⟩ := lm_steps p factor maxInner fuel (i + 1) _ _ _ hrec
        exact ⟨i1, Nat.succ_le_succ i2⟩

theorem gn_steps (p : Machine.Problem F V P H B D) (lambda : V) : ∀ (fuel i : ℕ) (r0 : Machine.Result V P H B) (fs : List F) {r fs' log}, Machine.gnLoop p lambda fuel i r0 fs = .ok (r, fs', log) →
    r.T = (stepsOf log).foldl p.step r0.T ∧ (stepsOf log).length ≤ fuel
  | 0, i, r0, fs, r, fs', log, h => by
    simp only [Machine.gnLoop, Except.ok.injEq, Prod.mk.injEq] at h
    obtain ⟨rfl, rfl, rfl⟩ := h
    exact ⟨rfl, le_rfl⟩
  | fuel + 1, i, r0, fs, r, fs', log, h => by
    simp only [Machine.gnLoop] at h
    split at h
    · simp only [Except.ok.injEq, Prod.mk.injEq] at h
      obtain ⟨rfl, rfl, rfl⟩ := h
      exact ⟨rfl, Nat.zero_le _⟩
    · simp only [bind, Except.bind] at h
      rcases hl : p.linearize r0.T fs with x | ⟨fs1, s⟩
      · rw [hl] at h; simp at h
      rw [hl] at h
      simp only at h
      split at h
      · cases h
      rename_i hrec
      simp only [Except.ok.injEq, Prod.mk.injEq] at h
      obtain ⟨rfl, rfl, rfl⟩ := h
      obtain ⟨i1, i2⟩ := gn_steps p lambda fuel (i + 1) _ _ hrec
      exact ⟨i1, Nat.succ_le_succ i2⟩

/-- In any arithmetic the pose that an optimiser returns is the initial pose with the accepted steps applied one after the other, at most as many as there are iterations; rejected steps leave no trace. -/
theorem C109_steps (p : Machine.Problem F V P H B D) (meth : Method V) (T0 : P) (fs : List F) {r fs' log} (h : meth.run p T0 fs = .ok (r, fs', log)) :
    r.T = (stepsOf log).foldl p.step T0 ∧ (stepsOf log).length ≤ iterationLimit meth := by
  cases meth with
  | lm st =>
    simp only [Method.run, Machine.levenbergMarquardt, bind, Except.bind] at h
    split at h
    · cases h
    rename_i hrec
    simp only [Except.ok.injEq, Prod.mk.injEq] at h
    obtain ⟨rfl, rfl, rfl⟩ := h
    exact lm_steps p _ _ _ _ _ _ _ hrec
  | gn lambda n =>
    simp only [Method.run, Machine.gaussNewton, bind, Except.bind] at h
    split at h
    · cases h
    rename_i hrec
    simp only [Except.ok.injEq, Prod.mk.injEq] at h
    obtain ⟨rfl, rfl, rfl⟩ := h
    exact gn_steps p _ _ _ _ _ hrec

end Optimisers

/-! ### the claims -/

section Claims

variable {F V H B : Type} [LT V] [DecidableLT V] [LE V] [DecidableLE V] [Zero V] [Add V] [Mul V] [Div V] [Zero H] [Add H] [Zero B] [Add B] {o : Ops V} {c : TrigOps V} {finite : V → Prop} {val : V → ℝ} {u γ η ζ ε e : ℝ}

/-- The pose that an optimiser returns is the initial pose times the exponentials of the accepted steps, up to rounding: the rotation up to the drift of `C107`, the translation up to the loss of `se3_exp` and the drift, times the
distance travelled. `Q0` is the rotation that the initial pose stands for. -/
theorem C109_product (hc : TrigAccuracy o c finite val u γ η ζ) (he : ExpMapAccuracy o c finite val u) (hu : u ≤ ε) (hγ : γ ≤ 3 * ε) (hη : η ≤ ε / 10 ^ 30) (hε' : ε ≤ 1 / 10 ^ 6) (p : Machine.Problem F V (Pose V) H B (Fin 6 → V))
    (hp : ∀ T d, p.step T d = poseMul o T (se3Motion o c d)) (meth : Method V) (T0 : Pose V) (fs : List F) {Q0 : Matrix (Fin 3) (Fin 3) ℝ} (hQ0 : IsRotation Q0) (h0 : fro (rotationPart val T0 - Q0) ≤ e) {r fs' log}
    (h : meth.run p T0 fs = .ok (r, fs', log)) (hf : PoseFinite finite r.T) (h4 : ∀ d ∈ stepsOf log, len (rot fun i => val (d i)) ≤ 4) {A : ℝ} (hA : A ≤ 1 / 10)
    (hn : rotationDrift γ η (1320 * ε + 3 / 10 ^ 17) e (stepsOf log).length ≤ A) :
    let as := (stepsOf log).map fun d i => val (d i)
    let Y := motionAfter (Pose.matrix ⟨Q0, translationPart val T0⟩) as
    fro (rotationPart val r.T - rotationOf Y) ≤ rotationDrift γ η (1320 * ε + 3 / 10 ^ 17) e (stepsOf log).length ∧
    len (translationPart val r.T - translationOf Y) ≤
      (1 + u) ^ (stepsOf log).length * ((4 * translationLoss ε + A + 3 * γ + 4 * u) * travel as + (stepsOf log).length * (8 * η + u * (len (translationPart val T0) + travel as))) := by
  intro as Y
  have hfold : r.T = (stepsOf log).foldl (fun T d => poseMul o T (se3Motion o c d)) T0 := by
    rw [(C109_steps p meth T0 fs h).1]
    exact congrArg (fun f => (stepsOf log).foldl f T0) (funext fun T => funext fun d => hp T d)
  rw [hfold] at hf ⊢
  obtain ⟨Z, z1, _, _, z4, z5⟩ := chain_error hc he hu hγ hη hε' T0 hQ0 h0 hA (stepsOf log) h4 hf hn le_rfl
  have hR : rotationOf Y = Z.R := by
    ext i j
    show motionAfter _ _ _ _ = _
    rw [← z1]
    fin_cases i <;> fin_cases j <;> rfl
  have ht : translationOf Y = Z.t := by
    funext i
    show motionAfter _ _ _ _ = _
    rw [← z1]
    fin_cases i <;> rfl
  rw [hR, ht]
  exact ⟨z4, z5⟩

/-- Doubles and at most 20 iterations (the default): the rotation is right up to `1e-11`, the translation up to `7.5e-8` of the distance travelled, if the initial rotation is right. -/
theorem C109_doubles (hc : TrigAccuracy o c finite val u γ η ζ) (he : ExpMapAccuracy o c finite val u) (hu : u ≤ 1 / 2 ^ 53) (hγ : γ ≤ 3 / 2 ^ 53) (hη : η ≤ 1 / 10 ^ 50) (p : Machine.Problem F V (Pose V) H B (Fin 6 → V))
    (hp : ∀ T d, p.step T d = poseMul o T (se3Motion o c d)) (meth : Method V) (hmax : iterationLimit meth ≤ 20) (T0 : Pose V) (fs : List F) {Q0 : Matrix (Fin 3) (Fin 3) ℝ} (hQ0 : IsRotation Q0)
    (h0 : fro (rotationPart val T0 - Q0) ≤ e) (he' : e ≤ 1 / 100) {r fs' log} (h : meth.run p T0 fs = .ok (r, fs', log)) (hf : PoseFinite finite r.T) (h4 : ∀ d ∈ stepsOf log, len (rot fun i => val (d i)) ≤ 4) :
    let as := (stepsOf log).map fun d i => val (d i)
    let Y := motionAfter (Pose.matrix ⟨Q0, translationPart val T0⟩) as
    fro (rotationPart val r.T - rotationOf Y) ≤ 3 * e + 1 / 10 ^ 11 ∧
    len (translationPart val r.T - translationOf Y) ≤ (75 / 10 ^ 9 + 4 * e) * travel as + 3 / 10 ^ 15 * len (translationPart val T0) + 2 / 10 ^ 48 := by
  intro as Y
  have hu0 := hc.u_nonneg
  have hγ0 := hc.γ_nonneg
  have hη0 := hc.η_nonneg
  have he0 : 0 ≤ e := (fro_nonneg _).trans h0
  have hη' : η ≤ (1 / 2 ^ 53 : ℝ) / 10 ^ 30 := hη.trans (by norm_num)
  have hγ' : γ ≤ 3 * (1 / 2 ^ 53 : ℝ) := hγ.trans (by norm_num)
  have hlen : (stepsOf log).length ≤ 20 := ((C109_steps p meth T0 fs h).2).trans hmax
  have hlen' : ((stepsOf log).length : ℝ) ≤ 20 := by exact_mod_cast hlen
  have hlen0 : (0 : ℝ) ≤ ((stepsOf log).length : ℝ) := Nat.cast_nonneg _
  set ρ : ℝ := 1320 * (1 / 2 ^ 53) + 3 / 10 ^ 17 with hρ
  have hρ0 : 0 ≤ ρ := by rw [hρ]; norm_num
  have hρ1 : ρ ≤ 148 / 10 ^ 15 := by rw [hρ]; norm_num
  have hdr : rotationDrift γ η ρ e (stepsOf log).length ≤ 3 * e + 1 / 10 ^ 11 := by
    have hg : γ * (2 + ρ) ≤ 1 / 10 ^ 15 := by
      have : γ * (2 + ρ) ≤ 3 / 2 ^ 53 * (2 + 148 / 10 ^ 15) := mul_le_mul hγ (by linarith) (by linarith) (by positivity)
      exact this.trans (by norm_num)
    have hg0 : 0 ≤ γ * (2 + ρ) := by positivity
    have h1 := drift_le (n := (stepsOf log).length) hγ0 hη0 hρ0 he0 (by
      have : ((stepsOf log).length : ℝ) * (ρ + γ * (2 + ρ)) ≤ 20 * (1 / 10 ^ 12) := mul_le_mul hlen' (by linarith) (by positivity) (by norm_num)
      exact this.trans (by norm_num))
    have h2 : ((stepsOf log).length : ℝ) * (ρ + 2 * γ * (2 + ρ) + 3 * η) ≤ 20 * (152 / 10 ^ 15) := by
      refine mul_le_mul hlen' ?_ (by positivity) (by norm_num)
      have : η ≤ 1 / 10 ^ 16 := hη.trans (by norm_num)
      linarith
    refine h1.trans ((mul_le_mul_of_nonneg_left (add_le_add le_rfl h2) (by norm_num)).trans ?_)
    linarith
  obtain ⟨g1, g2⟩ := C109_product hc he hu hγ' hη' (by norm_num) p hp meth T0 fs hQ0 h0 h hf h4 (A := 3 * e + 1 / 10 ^ 11) (by linarith) hdr
  refine ⟨g1.trans hdr, g2.trans ?_⟩
  have ht0 : 0 ≤ travel as := travel_nonneg _
  have hl0 := len_nonneg (translationPart val T0)
  have hK : translationLoss (1 / 2 ^ 53) ≤ 17 / 10 ^ 9 := by
    unfold translationLoss
    have h1 : Real.sqrt (2 * (1 / 2 ^ 53)) = 1 / 2 ^ 26 := by
      rw [show (2 * (1 / 2 ^ 53) : ℝ) = (1 / 2 ^ 26) ^ 2 by norm_num]
      exact Real.sqrt_sq (by positivity)
    rw [h1]
    norm_num
  have hpow : (1 + u) ^ (stepsOf log).length ≤ 101 / 100 := by
    have h1 : (1 + u) ^ (stepsOf log).length ≤ (1 + u) ^ 20 := pow_le_pow_right₀ (by linarith) hlen
    have h2 : (1 + u) ^ 20 ≤ (1 + 1 / 2 ^ 53) ^ 20 := pow_le_pow_left₀ (by linarith) (by linarith) 20
    exact h1.trans (h2.trans (by norm_num))
  have k1 : (4 * translationLoss (1 / 2 ^ 53) + (3 * e + 1 / 10 ^ 11) + 3 * γ + 4 * u) * travel as ≤ (681 / 10 ^ 10 + 3 * e) * travel as := by
    refine mul_le_mul_of_nonneg_right ?_ ht0
    have h1 : 3 * γ + 4 * u ≤ 1 / 10 ^ 14 := by
      have : (3 * (3 / 2 ^ 53) + 4 * (1 / 2 ^ 53) : ℝ) ≤ 1 / 10 ^ 14 := by norm_num
      linarith
    linarith
  have k2 : u * (len (translationPart val T0) + travel as) ≤ 112 / 10 ^ 18 * (len (translationPart val T0) + travel as) :=
    mul_le_mul_of_nonneg_right (hu.trans (by norm_num)) (by positivity)
  have k3 : ((stepsOf log).length : ℝ) * (8 * η + u * (len (translationPart val T0) + travel as)) ≤ 20 * (8 * (1 / 10 ^ 50) + 112 / 10 ^ 18 * (len (translationPart val T0) + travel as)) :=
    mul_le_mul hlen' (by linarith) (by positivity) (by norm_num)
  have k4 : 0 ≤ (681 / 10 ^ 10 + 3 * e) * travel as + 20 * (8 * (1 / 10 ^ 50) + 112 / 10 ^ 18 * (len (translationPart val T0) + travel as)) := by positivity
  refine (mul_le_mul hpow (add_le_add k1 k3) ?_ (by norm_num)).trans ?_
  · have := loss_nonneg (ε := 1 / 2 ^ 53) (by positivity)
    positivity
  · have := mul_nonneg he0 ht0
    linarith

end Claims

/-! ### an example -/

instance : Zero NReal := ⟨some 0⟩
noncomputable instance : Add NReal := ⟨(biasedOps 0).add⟩
noncomputable instance : Mul NReal := ⟨(biasedOps 0).mul⟩
noncomputable instance : Div NReal := ⟨(biasedOps 0).div⟩
noncomputable instance : DecidableLE NReal := fun _ _ => Classical.dec _

/-- A registration of one step, whose system is solved by the twist `a`. -/
noncomputable def oneStep (o : Ops NReal) (c : TrigOps NReal) (a : Fin 6 → NReal) : Machine.Problem Unit NReal (Pose NReal) NReal NReal (Fin 6 → NReal) where
  linearize := fun _ fs => .ok (fs, (some 1, some 1, some 1))
  error := fun _ _ => .ok (some 0)
  updateLinearized := fun _ s => s
  updateError := fun _ e => e
  delta := fun _ _ _ => a
  step := fun T d => poseMul o T (se3Motion o c d)
  converged := fun _ => true
  inlier := fun _ => true

/-- The hypotheses of `C109_doubles` can be met, by a registration from the identity with a step that turns and moves. -/
example : ∃ (o : Ops NReal) (c : TrigOps NReal) (a : Fin 6 → NReal) (T0 : Pose NReal), TrigAccuracy o c NReal.finite NReal.val (1 / 2 ^ 53) (3 * (1 / 2 ^ 53)) 0 0 ∧ ExpMapAccuracy o c NReal.finite NReal.val (1 / 2 ^ 53) ∧
    rotationPart NReal.val T0 = 1 ∧ |NReal.val (a 3)| + |NReal.val (a 4)| + |NReal.val (a 5)| = 1 ∧
    ∃ r fs log, (Method.gn (some 0) 20).run (oneStep o c a) T0 [()] = .ok (r, fs, log) ∧ PoseFinite NReal.finite r.T ∧ stepsOf log = [a] ∧ len (rot fun i => NReal.val (a i)) ≤ 4 := by
  obtain ⟨a, h1, h2, h3, h4, h5, h6, _⟩ := coarse_loss (ε := 1 / 2 ^ 53) (by norm_num) (by norm_num)
  refine ⟨biasedOps 0, coarseTrig (1 / 2 ^ 53), a, ⟨fun i j => some (if i = j then 1 else 0), fun _ => some 0⟩, h1, h2, ?_, h6, _, _, _, rfl, ?_, rfl, h5⟩
  · ext i j
    simp [rotationPart, NReal.val, Matrix.one_apply]
  · have hdot : ∀ {a b d x y z : NReal}, NReal.finite a → NReal.finite b → NReal.finite d → NReal.finite x → NReal.finite y → NReal.finite z → NReal.finite ((biasedOps 0).dot3 a b d x y z) := by
      rintro _ _ _ _ _ _ ⟨a, rfl⟩ ⟨b, rfl⟩ ⟨d, rfl⟩ ⟨x, rfl⟩ ⟨y, rfl⟩ ⟨z, rfl⟩
      exact ⟨_, rfl⟩
    have hadd : ∀ {a b : NReal}, NReal.finite a → NReal.finite b → NReal.finite ((biasedOps 0).add a b) := by
      rintro _ _ ⟨a, rfl⟩ ⟨b, rfl⟩
      exact ⟨_, rfl⟩
    show PoseFinite NReal.finite (poseMul (biasedOps 0) ⟨fun i j => some (if i = j then 1 else 0), fun _ => some 0⟩ (se3Motion (biasedOps 0) (coarseTrig (1 / 2 ^ 53)) a))
    exact ⟨fun i j => hdot ⟨_, rfl⟩ ⟨_, rfl⟩ ⟨_, rfl⟩ (h3 0 j) (h3 1 j) (h3 2 j), fun i => hadd (hdot ⟨_, rfl⟩ ⟨_, rfl⟩ ⟨_, rfl⟩ (h4 0) (h4 1) (h4 2)) ⟨_, rfl⟩⟩

end Verif.Props
