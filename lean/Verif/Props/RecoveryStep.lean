import Verif.Spec.Recovery
import Verif.Proofs.LeastSquares
import Verif.Proofs.PoseError
import Verif.Props.GaussNewton
import Mathlib.Topology.MetricSpace.ProperSpace.Real
import Mathlib.Topology.Algebra.Module.FiniteDimension

/-!
C89, first part: one iteration near the true pose.
-/

set_option linter.unusedSectionVars false
set_option linter.unusedSimpArgs false
set_option linter.unnecessarySeqFocus false

namespace Verif.Props

open Matrix Verif Verif.Proofs Verif.Factors Verif.Optimizer Verif.Spec Verif.Lie

/-! ### Finite clouds -/

theorem exists_bound {A : Type} (l : List A) (f : A → ℝ) : ∃ B : ℝ, 1 ≤ B ∧ ∀ a ∈ l, f a ≤ B := by
  induction l with
  | nil => exact ⟨1, le_rfl, fun a ha => by simp at ha⟩
  | cons a l ih =>
    obtain ⟨B, h1, h2⟩ := ih
    refine ⟨max B (f a), h1.trans (le_max_left _ _), fun b hb => ?_⟩
    rcases List.mem_cons.1 hb with rfl | hb
    · exact le_max_right _ _
    · exact (h2 b hb).trans (le_max_left _ _)

theorem exists_floor {A : Type} (l : List A) (f : A → ℝ) (h : ∀ a ∈ l, 0 < f a) : ∃ δ : ℝ, 0 < δ ∧ ∀ a ∈ l, δ ≤ f a := by
  induction l with
  | nil => exact ⟨1, one_pos, fun a ha => by simp at ha⟩
  | cons a l ih =>
    obtain ⟨δ, h1, h2⟩ := ih fun b hb => h b (by simp [hb])
    refine ⟨min δ (f a), lt_min h1 (h a (by simp)), fun b hb => ?_⟩
    rcases List.mem_cons.1 hb with rfl | hb
    · exact min_le_right _ _
    · exact (min_le_left _ _).trans (h2 b hb)

open Classical in
theorem separation {tgt : List Site} (h : ∀ t ∈ tgt, ∀ t' ∈ tgt, t.pos = t'.pos → t = t') : ∃ δ : ℝ, 0 < δ ∧ ∀ t ∈ tgt, ∀ t' ∈ tgt, t ≠ t' → δ ≤ len (t.pos - t'.pos) := by
  obtain ⟨δ, h1, h2⟩ := exists_floor (tgt ×ˢ tgt) (fun p => if p.1 = p.2 then 1 else len (p.1.pos - p.2.pos)) (by
    rintro ⟨t, t'⟩ hp
    obtain ⟨a, b⟩ := List.pair_mem_product.1 hp
    dsimp only
    split
    · exact one_pos
    · rename_i hne
      refine lt_of_le_of_ne (len_nonneg _) fun h0 => hne (h t a t' b ?_)
      exact sub_eq_zero.1 (len_eq_zero.1 h0.symm))
  refine ⟨δ, h1, fun t a t' b hne => ?_⟩
  have := h2 (t, t') (List.pair_mem_product.2 ⟨a, b⟩)
  dsimp only at this
  rwa [if_neg hne] at this

/-- The moved points of two poses are close. -/
theorem move_gap {L T : Pose ℝ} {p : Fin 3 → ℝ} {B : ℝ} (hB : 1 ≤ B) (hp : len p ≤ B) : len (move T p - move L p) ≤ 3 * B * poseGap L T := by
  have e : move T p - move L p = (T.R - L.R) *ᵥ p + (T.t - L.t) := by
    unfold move
    rw [sub_mulVec]
    abel
  rw [e]
  refine (len_add_le _ _).trans ?_
  have h0 := gap_nonneg L T
  have h := gap_sq L T
  have h1 : fro (T.R - L.R) ≤ 3 / 2 * poseGap L T := by
    rw [fro_sub_comm]
    refine le_of_sq_le_sq ?_ (by positivity)
    nlinarith [sq_nonneg (len (L.t - T.t)), sq_nonneg (fro (L.R - T.R))]
  have h2 : len (T.t - L.t) ≤ poseGap L T := by
    rw [len_sub_comm]
    refine le_of_sq_le_sq ?_ h0
    nlinarith [sq_nonneg (fro (L.R - T.R))]
  have h3 := (len_mulVec_le (T.R - L.R) p).trans (mul_le_mul h1 hp (len_nonneg p) (by positivity))
  nlinarith

/-- Near the true pose the partner is the true one. -/
theorem true_partner {tgt src : List Site} {T : Pose ℝ} (h : Overlaps tgt src T) {gate : ℝ} (hg : 0 < gate) {τ : Site → Site} (hτ : ∀ s ∈ src, τ s ∈ tgt ∧ (τ s).pos = move T s.pos) :
    ∃ e1 : ℝ, 0 < e1 ∧ ∀ L : Pose ℝ, poseGap L T ≤ e1 → ∀ s ∈ src, ∀ o, NearestWithin tgt gate (move L s.pos) o → o = some (τ s) := by
  obtain ⟨B, hB, hb⟩ := exists_bound src (fun s => len s.pos)
  obtain ⟨δ, hδ, hsep⟩ := separation h.distinct
  obtain ⟨σ, hσ, hσg⟩ : ∃ σ : ℝ, 0 < σ ∧ σ ^ 2 ≤ gate := ⟨Real.sqrt gate, Real.sqrt_pos.2 hg, (Real.sq_sqrt hg.le).le⟩
  refine ⟨min (δ / (9 * B)) (σ / (3 * B)), lt_min (by positivity) (by positivity), fun L hL s hs o ho => ?_⟩
  have h1 := move_gap (L := L) (T := T) hB (hb s hs)
  have h2 : len (move T s.pos - move L s.pos) ≤ δ / 3 := by
    refine h1.trans ?_
    have := (le_div_iff₀ (by positivity)).1 (hL.trans (min_le_left _ _))
    linarith
  have h3 : len (move T s.pos - move L s.pos) ≤ σ := by
    refine h1.trans ?_
    have := (le_div_iff₀ (by positivity)).1 (hL.trans (min_le_right _ _))
    linarith
  obtain ⟨a, b⟩ := hτ s hs
  refine nearest_only a ?_ ?_ ho
  · rw [b, ← len_sq]
    exact (pow_le_pow_left₀ (len_nonneg _) h3 2).trans hσg
  · intro t ht hne
    rw [← len_sq, ← len_sq]
    refine pow_lt_pow_left₀ ?_ (len_nonneg _) two_ne_zero
    have h4 := hsep t ht _ a hne
    have h5 : len (t.pos - (τ s).pos) ≤ len (t.pos - move L s.pos) + len ((τ s).pos - move L s.pos) := by
      have : t.pos - (τ s).pos = (t.pos - move L s.pos) - ((τ s).pos - move L s.pos) := by abel
      rw [this]
      exact len_sub_le _ _
    rw [b] at h5 ⊢
    rw [b] at h4
    linarith

/-! ### Weights -/

/-- The part of a difference that counts. -/
def sensed (m : Metric) (t : Site) : Matrix (Fin 3) (Fin 3) ℝ :=
  match m with
  | .plane => diagonal t.normal
  | _ => 1

theorem sensed_le (m : Metric) {t : Site} (ht : LocalSite t) (x : Fin 3 → ℝ) : len (sensed m t *ᵥ x) ≤ len x := by
  cases m with
  | point => simp [sensed]
  | cov => simp [sensed]
  | plane =>
    refine len_le_of_sq (len_nonneg x) ?_
    rw [len_sq]
    have := weight_le .plane Pose.one ht SymPSD.one (s := ⟨0, 0, 1⟩) x
    refine le_trans (le_of_eq ?_) (this.trans_eq (one_mul _))
    simp only [sensed, pairWeight, dotProduct, mulVec_diagonal]
    exact Finset.sum_congr rfl fun i _ => by ring

theorem local_upper {s : Site} (h : LocalSite s) (x : Fin 3 → ℝ) : x ⬝ᵥ s.cov *ᵥ x ≤ x ⬝ᵥ x := by
  rcases h with ⟨_, h⟩ | ⟨hn, h⟩
  · rw [h, one_mulVec]
  · have hv : x ⬝ᵥ (vecMulVec s.normal s.normal) *ᵥ x = (s.normal ⬝ᵥ x) * (s.normal ⬝ᵥ x) := by
      simp only [dotProduct, mulVec, vecMulVec_apply, Fin.sum_univ_three]
      ring
    rw [h, sub_mulVec, dotProduct_sub, one_mulVec, smul_mulVec, dotProduct_smul, hv, smul_eq_mul]
    nlinarith [mul_self_nonneg (s.normal ⬝ᵥ x)]

theorem sensed_weight (m : Metric) {L : Pose ℝ} {η : ℝ} (hη : StretchAtMost L.R (1 + η)) (hη1 : η ≤ 3) {t s : Site} (ht : LocalSite t) (hs : LocalSite s) (x : Fin 3 → ℝ) :
    1 / 5 * len (sensed m t *ᵥ x) ^ 2 ≤ x ⬝ᵥ pairWeight m L t s *ᵥ x := by
  cases m with
  | point =>
    simp only [sensed, pairWeight, one_mulVec, len_sq]
    linarith [dot_nonneg x]
  | plane =>
    have e : x ⬝ᵥ pairWeight .plane L t s *ᵥ x = len (sensed .plane t *ᵥ x) ^ 2 := by
      rw [len_sq]
      simp only [sensed, pairWeight, dotProduct, mulVec_diagonal]
      exact Finset.sum_congr rfl fun i _ => by ring
    rw [e]
    nlinarith [sq_nonneg (len (sensed .plane t *ᵥ x))]
  | cov =>
    simp only [sensed, one_mulVec, len_sq]
    show 1 / 5 * (x ⬝ᵥ x) ≤ x ⬝ᵥ (t.cov + L.R * s.cov * L.Rᵀ)⁻¹ *ᵥ x
    have hR : SymPSD (L.R * s.cov * L.Rᵀ) := by
      have := hs.psd.conj L.Rᵀ
      rwa [transpose_transpose] at this
    have hA : SymPSD (t.cov + L.R * s.cov * L.Rᵀ) := ht.psd.add hR
    have hup : ∀ y : Fin 3 → ℝ, y ⬝ᵥ (t.cov + L.R * s.cov * L.Rᵀ) *ᵥ y ≤ 5 * (y ⬝ᵥ y) := by
      intro y
      have h1 := local_upper ht y
      have h2 := local_upper hs (L.Rᵀ *ᵥ y)
      have h3 : y ⬝ᵥ (L.R * s.cov * L.Rᵀ) *ᵥ y = (L.Rᵀ *ᵥ y) ⬝ᵥ s.cov *ᵥ (L.Rᵀ *ᵥ y) := by
        rw [← mulVec_mulVec, ← mulVec_mulVec, dotProduct_mulVec y, ← mulVec_transpose]
      have h4 : (L.Rᵀ *ᵥ y) ⬝ᵥ (L.Rᵀ *ᵥ y) ≤ 4 * (y ⬝ᵥ y) := by
        -- `|Lᵀy|² = y·L(Lᵀy) ≤ |y| · 2 |Lᵀy|`
        have e : (L.Rᵀ *ᵥ y) ⬝ᵥ (L.Rᵀ *ᵥ y) = y ⬝ᵥ L.R *ᵥ (L.Rᵀ *ᵥ y) := by
          rw [dotProduct_mulVec y, ← mulVec_transpose]
        have k := (dot_le y (L.R *ᵥ (L.Rᵀ *ᵥ y))).trans (mul_le_mul_of_nonneg_left (len_stretch_le (by linarith) hη (L.Rᵀ *ᵥ y)).2 (len_nonneg y))
        rw [← e, ← len_sq] at k
        rw [← len_sq, ← len_sq]
        have a0 := len_nonneg y
        have b0 := len_nonneg (L.Rᵀ *ᵥ y)
        generalize len y = a at *
        generalize len (L.Rᵀ *ᵥ y) = b at *
        rcases eq_or_lt_of_le b0 with h | h
        · rw [← h]; nlinarith
        · have : b ≤ 2 * a := by
            by_contra hc
            nlinarith [mul_lt_mul_of_pos_right (not_le.1 hc) h]
          nlinarith
      rw [add_mulVec, dotProduct_add, h3]
      linarith
    have hdet : IsUnit (t.cov + L.R * s.cov * L.Rᵀ).det := by
      refine isUnit_iff_ne_zero.2 fun h0 => ?_
      obtain ⟨v, hv, hv0⟩ := Matrix.exists_mulVec_eq_zero_iff.2 h0
      have h1 := ht.quad v
      have h2 := hR.psd v
      have h3 : v ⬝ᵥ (t.cov + L.R * s.cov * L.Rᵀ) *ᵥ v = 0 := by rw [hv0, dotProduct_zero]
      rw [add_mulVec, dotProduct_add] at h3
      have h4 : 0 < v ⬝ᵥ v := lt_of_le_of_ne (dot_nonneg v) fun h0 => hv (dotProduct_self_eq_zero.1 h0.symm)
      linarith
    have hx : (t.cov + L.R * s.cov * L.Rᵀ) *ᵥ ((t.cov + L.R * s.cov * L.Rᵀ)⁻¹ *ᵥ x) = x := by rw [mulVec_mulVec, Matrix.mul_nonsing_inv _ hdet, one_mulVec]
    have := psd_len_le hA (by norm_num) hup ((t.cov + L.R * s.cov * L.Rᵀ)⁻¹ *ᵥ x)
    rw [hx, dotProduct_comm (_ *ᵥ x)] at this
    linarith

/-! ### Observability near the true pose -/

theorem speed_arm (L : Pose ℝ) (x : Fin 6 → ℝ) (t s : Site) : pairSpeed L x t s = -(L.R *ᵥ arm s.pos x) := by
  rw [speed_formula, ← mulVec_neg]
  congr 1
  unfold arm
  funext i
  fin_cases i <;> simp [skew, mulVec, dotProduct, Fin.sum_univ_three, rot, tra] <;> ring

theorem arm_add (p : Fin 3 → ℝ) (x y : Fin 6 → ℝ) : arm p (x + y) = arm p x + arm p y := by
  unfold arm
  funext i
  fin_cases i <;> simp [skew, mulVec, dotProduct, Fin.sum_univ_three, rot, tra] <;> ring

theorem arm_smul (p : Fin 3 → ℝ) (k : ℝ) (x : Fin 6 → ℝ) : arm p (k • x) = k • arm p x := by
  unfold arm
  funext i
  fin_cases i <;> simp [skew, mulVec, dotProduct, Fin.sum_univ_three, rot, tra] <;> ring

/-- A sum of squares that vanishes only at zero is bounded below by a multiple of the squared length. -/
theorem sum_lower {A : Type} (l : List A) (f : A → (Fin 6 → ℝ) → Fin 3 → ℝ) (hs : ∀ a (k : ℝ) x, f a (k • x) = k • f a x) (hc : ∀ a, Continuous (f a))
    (h : ∀ x : Fin 6 → ℝ, x ≠ 0 → ∃ a ∈ l, f a x ≠ 0) : ∃ μ : ℝ, 0 < μ ∧ ∀ x : Fin 6 → ℝ, μ * len x ^ 2 ≤ (l.map fun a => len (f a x) ^ 2).sum := by
  have hcont : Continuous fun x : Fin 6 → ℝ => (l.map fun a => len (f a x) ^ 2).sum := by
    clear h
    induction l with
    | nil => simpa using continuous_const
    | cons a l ih =>
      simp only [List.map_cons, List.sum_cons]
      refine Continuous.add ?_ ih
      simp only [len_sq, dotProduct]
      exact continuous_finsetSum _ fun i _ => ((continuous_apply i).comp (hc a)).mul ((continuous_apply i).comp (hc a))
  have hlen : Continuous fun x : Fin 6 → ℝ => len x := by
    unfold len dotProduct
    exact Real.continuous_sqrt.comp (continuous_finsetSum _ fun i _ => (continuous_apply i).mul (continuous_apply i))
  have hcomp : IsCompact {x : Fin 6 → ℝ | len x = 1} := by
    refine Metric.isCompact_of_isClosed_isBounded (isClosed_eq hlen continuous_const) ?_
    refine (Metric.isBounded_closedBall (x := (0 : Fin 6 → ℝ)) (r := 1)).subset fun x hx => ?_
    rw [mem_closedBall_zero_iff, pi_norm_le_iff_of_nonneg zero_le_one]
    intro i
    rw [Real.norm_eq_abs]
    exact (abs_coord_le x i).trans_eq hx
  have hne : {x : Fin 6 → ℝ | len x = 1}.Nonempty := ⟨![1, 0, 0, 0, 0, 0], by simp [len, dotProduct, Fin.sum_univ_six]⟩
  obtain ⟨x0, hx0, hmin⟩ := hcomp.exists_isMinOn hne hcont.continuousOn
  have hx0' : x0 ≠ 0 := by
    rintro rfl
    have : len (0 : Fin 6 → ℝ) = 1 := hx0
    rw [len_zero] at this
    norm_num at this
  have hnn : ∀ x : Fin 6 → ℝ, ∀ a ∈ l, 0 ≤ len (f a x) ^ 2 := fun x a _ => sq_nonneg _
  refine ⟨(l.map fun a => len (f a x0) ^ 2).sum, ?_, fun x => ?_⟩
  · refine lt_of_le_of_ne (lsum_nonneg _ _ (hnn x0)) fun h0 => ?_
    obtain ⟨a, ha, hne⟩ := h x0 hx0'
    have := (sum_zero_iff l _ (hnn x0)).1 h0.symm a ha
    exact hne (len_eq_zero.1 (by simpa using this))
  · by_cases hx : x = 0
    · subst hx
      rw [len_zero]
      simpa using lsum_nonneg _ _ (hnn 0)
    · have hl : 0 < len x := lt_of_le_of_ne (len_nonneg x) fun h0 => hx (len_eq_zero.1 h0.symm)
      have hu : len ((len x)⁻¹ • x) = 1 := by rw [len_smul, abs_of_pos (inv_pos.2 hl), inv_mul_cancel₀ hl.ne']
      have h1 := hmin (show (len x)⁻¹ • x ∈ {x : Fin 6 → ℝ | len x = 1} from hu)
      have e : (l.map fun a => len (f a x) ^ 2) = l.map fun a => len x ^ 2 * len (f a ((len x)⁻¹ • x)) ^ 2 := by
        refine List.map_congr_left fun a _ => ?_
        rw [hs, len_smul, abs_of_pos (inv_pos.2 hl), mul_pow, ← mul_assoc, ← mul_pow, mul_inv_cancel₀ hl.ne', one_pow, one_mul]
      rw [e, lsum_mul, mul_comm]
      exact mul_le_mul_of_nonneg_left h1 (sq_nonneg _)

/-- The Gauss–Newton matrix is bounded below near the true pose. -/
theorem near_lower {m : Metric} {tgt src : List Site} {T : Pose ℝ} (hobs : Observable m tgt src T) (h : Overlaps tgt src T) (ht : ∀ t ∈ tgt, LocalSite t) (hs : ∀ s ∈ src, LocalSite s)
    {τ : Site → Site} (hτ : ∀ s ∈ src, τ s ∈ tgt ∧ (τ s).pos = move T s.pos) :
    ∃ μ e2 : ℝ, 0 < μ ∧ 0 < e2 ∧ ∀ (L : Pose ℝ) (η : ℝ), poseGap L T ≤ e2 → StretchAtMost L.R (1 + η) → η ≤ 3 → ∀ x : Fin 6 → ℝ,
      μ * len x ^ 2 ≤ ((src.map fun s => (τ s, s)).map fun p : Site × Site => pairSpeed L x p.1 p.2 ⬝ᵥ pairWeight m L p.1 p.2 *ᵥ pairSpeed L x p.1 p.2).sum := by
  obtain ⟨B, hB, hb⟩ := exists_bound src (fun s => len s.pos)
  obtain ⟨μ, hμ, hlow⟩ := sum_lower src (fun s x => sensed m (τ s) *ᵥ (T.R *ᵥ arm s.pos x))
    (fun a k x => by rw [arm_smul, mulVec_smul, mulVec_smul])
    (fun s => by
      unfold arm rot tra
      refine continuous_pi fun i => ?_
      simp only [mulVec, dotProduct, skew, Fin.sum_univ_three]
      fin_cases i <;> simp <;> fun_prop)
    (by
      intro x hx
      obtain ⟨s, hs', t, ht', e, hne⟩ := hobs x hx
      have : t = τ s := h.distinct t ht' _ (hτ s hs').1 (e.trans (hτ s hs').2.symm)
      subst this
      refine ⟨s, hs', fun h0 => hne ?_⟩
      rw [speed_arm, mulVec_neg, neg_eq_zero]
      cases m with
      | point =>
        simp only [sensed, one_mulVec] at h0
        rw [h0, mulVec_zero]
      | cov =>
        simp only [sensed, one_mulVec] at h0
        rw [h0, mulVec_zero]
      | plane =>
        simp only [sensed, pairWeight] at h0 ⊢
        have e : (diagonal fun i => (τ s).normal i ^ 2) = diagonal (τ s).normal * diagonal (τ s).normal := by
          rw [diagonal_mul_diagonal]
          congr 1
          funext i
          ring
        rw [e, ← mulVec_mulVec, h0, mulVec_zero])
  refine ⟨μ / 20, min 1 (μ / (64 * (src.length + 1) * B ^ 2)), by positivity, lt_min one_pos (by positivity), fun L η hL hη hη1 x => ?_⟩
  have he1 := hL.trans (min_le_left _ _)
  have he2 := (le_div_iff₀ (by positivity)).1 (hL.trans (min_le_right _ _))
  have he0 := gap_nonneg L T
  rw [List.map_map]
  have key : ∀ s ∈ src, 1 / 10 * len (sensed m (τ s) *ᵥ (T.R *ᵥ arm s.pos x)) ^ 2 ≤
      pairSpeed L x (τ s) s ⬝ᵥ pairWeight m L (τ s) s *ᵥ pairSpeed L x (τ s) s + 1 / 5 * (4 * B * poseGap L T * len x) ^ 2 := by
    intro s hs'
    obtain ⟨a, _⟩ := hτ s hs'
    have k1 := sensed_weight m hη hη1 (ht _ a) (hs s hs') (pairSpeed L x (τ s) s)
    have k2 : sensed m (τ s) *ᵥ (T.R *ᵥ arm s.pos x) = sensed m (τ s) *ᵥ ((T.R - L.R) *ᵥ arm s.pos x) - sensed m (τ s) *ᵥ pairSpeed L x (τ s) s := by
      rw [speed_arm, sub_mulVec, mulVec_sub, mulVec_neg]
      abel
    have k3 : len (sensed m (τ s) *ᵥ ((T.R - L.R) *ᵥ arm s.pos x)) ≤ 4 * B * poseGap L T * len x := by
      refine (sensed_le m (ht _ a) _).trans ((len_mulVec_le _ _).trans ?_)
      have h1 : fro (T.R - L.R) ≤ 3 / 2 * poseGap L T := by
        rw [fro_sub_comm, ← errZ_fro h.rigid]
        exact errZ_le h.rigid
      have h2 := mul_le_mul h1 (arm_le hB (hb s hs') x) (len_nonneg _) (by positivity)
      refine h2.trans ?_
      have := mul_nonneg (mul_nonneg (by linarith : (0 : ℝ) ≤ B) he0) (len_nonneg x)
      nlinarith
    have k4 := len_sub_le (sensed m (τ s) *ᵥ ((T.R - L.R) *ᵥ arm s.pos x)) (sensed m (τ s) *ᵥ pairSpeed L x (τ s) s)
    rw [← k2] at k4
    have n1 := len_nonneg (sensed m (τ s) *ᵥ (T.R *ᵥ arm s.pos x))
    have n2 := len_nonneg (sensed m (τ s) *ᵥ pairSpeed L x (τ s) s)
    have n3 := len_nonneg (sensed m (τ s) *ᵥ ((T.R - L.R) *ᵥ arm s.pos x))
    generalize len (sensed m (τ s) *ᵥ (T.R *ᵥ arm s.pos x)) = A at *
    generalize len (sensed m (τ s) *ᵥ pairSpeed L x (τ s) s) = C at *
    generalize 4 * B * poseGap L T * len x = Y at *
    have : A ≤ Y + C := by linarith
    have : A ^ 2 ≤ 2 * Y ^ 2 + 2 * C ^ 2 := by nlinarith [sq_nonneg (Y - C)]
    linarith
  have s1 := lsum_le src (fun s => 1 / 10 * len (sensed m (τ s) *ᵥ (T.R *ᵥ arm s.pos x)) ^ 2 + -1 * (pairSpeed L x (τ s) s ⬝ᵥ pairWeight m L (τ s) s *ᵥ pairSpeed L x (τ s) s))
    (M := 1 / 5 * (4 * B * poseGap L T * len x) ^ 2) (fun s hs' => by linarith [key s hs'])
  rw [lsum_add, lsum_mul, lsum_mul] at s1
  have s2 := hlow x
  have s3 : (src.length : ℝ) * (1 / 5 * (4 * B * poseGap L T * len x) ^ 2) ≤ 1 / 20 * μ * len x ^ 2 := by
    have x0 := sq_nonneg (len x)
    have : (src.length : ℝ) * (1 / 5 * (4 * B * poseGap L T * len x) ^ 2) = 1 / 20 * (src.length * 64 * B ^ 2 * poseGap L T ^ 2) * len x ^ 2 := by ring
    rw [this]
    refine mul_le_mul_of_nonneg_right (mul_le_mul_of_nonneg_left ?_ (by norm_num)) x0
    have n0 : (0 : ℝ) ≤ src.length := Nat.cast_nonneg _
    have q : poseGap L T ^ 2 ≤ poseGap L T := by nlinarith
    have b2 : (0 : ℝ) ≤ 64 * B ^ 2 := by positivity
    have := mul_le_mul_of_nonneg_left q (mul_nonneg n0 b2)
    nlinarith [mul_nonneg b2 he0]
  show _ ≤ (src.map fun s => pairSpeed L x (τ s) s ⬝ᵥ pairWeight m L (τ s) s *ᵥ pairSpeed L x (τ s) s).sum
  linarith

/-! ### One iteration -/

theorem partner_eq {tgt src : List Site} {gate : ℝ} {L : Pose ℝ} {τ : Site → Site} (hτ : ∀ s ∈ src, ∀ o, NearestWithin tgt gate (move L s.pos) o → o = some (τ s)) {partner : List (Option Site)}
    (h : List.Forall₂ (fun s o => NearestWithin tgt gate (move L s.pos) o) src partner) : partner = src.map fun s => some (τ s) := by
  induction h with
  | nil => rfl
  | cons h1 _ ih =>
    rw [List.map_cons, ← ih fun s hs => hτ s (List.mem_cons_of_mem _ hs), hτ _ (List.mem_cons_self ..) _ h1]

theorem pairsOf_true (src : List Site) (τ : Site → Site) : pairsOf src (src.map fun s => some (τ s)) = src.map fun s => (τ s, s) := by
  induction src with
  | nil => rfl
  | cons s src ih =>
    unfold pairsOf at ih ⊢
    simp [ih]

theorem grad_weighted {m : Metric} {M : (Fin 3 → ℝ) → Option Site → Prop} {src : List Site} {L : Pose ℝ} {p : List (Option Site)} {H : Matrix (Fin 6) (Fin 6) ℝ} {b : Fin 6 → ℝ}
    (h : Linearised m M src L p H b) (hW : ∀ s ∈ src, ∀ t, M (move L s.pos) (some t) → SymPSD (pairWeight m L t s)) (x : Fin 6 → ℝ) :
    b ⬝ᵥ x = pairSum src p (fun t s => pairDiff L t s ⬝ᵥ pairWeight m L t s *ᵥ pairSpeed L x t s) := by
  refine (h.grad x).unique ?_
  unfold totalCost pairSum
  have hm := h.matched
  clear h
  induction hm with
  | nil => simpa using hasDerivAt_const (0 : ℝ) (0 : ℝ)
  | @cons s o src p h1 h2 ih =>
    simp only [List.zipWith_cons_cons, List.sum_cons]
    refine HasDerivAt.add ?_ (ih fun s hs => hW s (List.mem_cons_of_mem _ hs))
    cases o with
    | none => exact hasDerivAt_const _ _
    | some t => exact cost_moves L x (hW s (List.mem_cons_self ..) t h1)

theorem weightBound_pos (m : Metric) : 1 ≤ weightBound m := by cases m <;> norm_num [weightBound]

theorem total_pairs (m : Metric) (src : List Site) (partner : List (Option Site)) (L T : Pose ℝ) :
    2 * totalCost m src partner L T = ((pairsOf src partner).map fun p => pairDiff T p.1 p.2 ⬝ᵥ pairWeight m L p.1 p.2 *ᵥ pairDiff T p.1 p.2).sum := by
  unfold totalCost
  rw [pairSum_pairs]
  unfold pairCost
  rw [lsum_mul]
  ring

theorem num_sq {x η : ℝ} (_ : 0 ≤ x) (hη : 0 ≤ η) (h : η ≤ 1 / 2) : (2 * x + 3 * η) ^ 2 ≤ 8 * x ^ 2 + 9 * η := by nlinarith [sq_nonneg (2 * x - 3 * η)]

theorem num_sq_le {x : ℝ} (h0 : 0 ≤ x) (h : x ≤ 1) : x ^ 2 ≤ x := by nlinarith

theorem num_sq2 (x : ℝ) {η : ℝ} (hη : 0 ≤ η) (h : η ≤ 1 / 2) : (x + η) ^ 2 ≤ 2 * (x ^ 2 + η) := by nlinarith [sq_nonneg (x - η)]

theorem step_numbers {n w B μ lam x x' y u r e η c1 c2 K1 K2 K3 K4 K5 q : ℝ} (hlam : 0 ≤ lam) (hB : 1 ≤ B) (hn0 : 0 ≤ n) (hw1 : 1 ≤ w) (hμ : 0 < μ)
    (hK1 : K1 = n * w * (5 * B) * (50 * B)) (hK2 : K2 = n * w * (5 * B) ^ 2 + K1) (hq : q = K2 / μ) (hK4 : K4 = 50 * B + 40 * B * q ^ 2)
    (hK5 : K5 = 2 * K1 * (q + 1) + 2 * (n * w * (5 * B)) * K4 * (q + 1) + n * w * K4 ^ 2) (hK3 : K3 = K1 + 60 * K2 * (q + 3))
    (x0 : 0 ≤ x) (d0 : 0 ≤ r) (u0 : 0 ≤ u) (hη0 : 0 ≤ η) (g0 : 0 ≤ e) (b2 : η ≤ 1 / 2) (a2 : e ≤ 1 / 2) (a3 : e * (2 * (1 + K2)) ≤ μ) (b3 : η * (2 * (1 + K2)) ≤ μ) (g : e ≤ 2 * x + 3 * η) (xe : x ≤ e)
    (s1 : (μ + lam) * u ≤ lam * x + n * w * (5 * B) * (5 * B * (e ^ 2 + η))) (s2 : (μ + lam) * r ≤ n * w * (5 * B) ^ 2 * x + n * w * (5 * B) * (5 * B * (e ^ 2 + η)))
    (s3 : μ * x ≤ (n * w * (5 * B) ^ 2 + lam) * r + n * w * (5 * B) * (5 * B * (e ^ 2 + η)))
    (s4 : r ≤ 1 → (μ + 2 * lam) * r ^ 2 - 2 * (n * w * (5 * B) * (5 * B * (e ^ 2 + η))) * (r + x) - 2 * (n * w * (5 * B) * (5 * B * (e ^ 2 + η) + 20 * B * r ^ 2)) * u -
      n * w * (5 * B * (e ^ 2 + η) + 20 * B * r ^ 2) ^ 2 ≤ 2 * c1 - 2 * c2)
    (s5 : r ≤ 1 → y ≤ 30 * r * (r + e)) (du : u ≤ r + x) (sx : x' ≤ y + u) :
    r ≤ 1 ∧ (μ + lam) * r ≤ (1 + K2 + K3 + K5) * (x + η) ∧ (μ + lam) * x' ≤ lam * x + (1 + K2 + K3 + K5) * (x ^ 2 + η) ∧
      μ * x ≤ (1 + K2 + K3 + K5 + lam) * r + (1 + K2 + K3 + K5) * (x ^ 2 + η) ∧ (μ + 2 * lam) * r ^ 2 - (1 + K2 + K3 + K5) * (x ^ 2 + η) * (x + η) ≤ 2 * (c1 - c2) := by
  have p1 : 0 ≤ K1 := by rw [hK1]; positivity
  have p2 : 0 ≤ K2 := by rw [hK2]; positivity
  have pq : 0 ≤ q := by rw [hq]; positivity
  have p4 : 0 ≤ K4 := by rw [hK4]; positivity
  have p5 : 0 ≤ K5 := by rw [hK5]; positivity
  have p3 : 0 ≤ K3 := by rw [hK3]; positivity
  have hh : 0 ≤ n * w * (5 * B) ^ 2 := by positivity
  have hx1 : x ≤ 1 / 2 := xe.trans a2
  have B0 : 0 ≤ B := by linarith
  have w0 : 0 ≤ w := by linarith
  have S0 : 0 ≤ x ^ 2 + η := by positivity
  have ee : e ^ 2 ≤ 8 * x ^ 2 + 9 * η := by
    have : e ^ 2 ≤ (2 * x + 3 * η) ^ 2 := pow_le_pow_left₀ g0 g 2
    exact this.trans (num_sq x0 hη0 b2)
  have hγ : 5 * B * (e ^ 2 + η) ≤ 50 * B * (x ^ 2 + η) := by
    have : e ^ 2 + η ≤ 10 * (x ^ 2 + η) := by linarith [sq_nonneg x]
    linarith [mul_le_mul_of_nonneg_left this B0]
  have hKγ : n * w * (5 * B) * (5 * B * (e ^ 2 + η)) ≤ K1 * (x ^ 2 + η) := by
    have := mul_le_mul_of_nonneg_left hγ (by positivity : 0 ≤ n * w * (5 * B))
    rw [hK1]
    linarith
  have hxx : x ^ 2 + η ≤ x + η := by linarith [num_sq_le x0 (hx1.trans (by norm_num))]
  have t2 : (μ + lam) * r ≤ K2 * (x + η) := by
    have := mul_le_mul_of_nonneg_left hxx p1
    have := mul_nonneg hh hη0
    rw [hK2, add_mul, mul_add]
    linarith
  have hr : r ≤ q * (x + η) := by
    rw [hq, div_mul_eq_mul_div, le_div_iff₀ hμ]
    linarith [mul_nonneg hlam d0, add_mul μ lam r]
  have hr1 : r ≤ 1 := by
    have h1 : μ * r ≤ K2 * (x + η) := by linarith [mul_nonneg hlam d0, add_mul μ lam r]
    have h2 : K2 * (x + η) ≤ μ := by
      have := mul_le_mul_of_nonneg_left xe p2
      rw [mul_add]
      linarith [mul_comm e K2, mul_comm η K2]
    by_contra hc
    linarith [mul_lt_mul_of_pos_left (not_le.1 hc) hμ]
  have s4 := s4 hr1
  have s5 := s5 hr1
  have sq2 : (x + η) ^ 2 ≤ 2 * (x ^ 2 + η) := num_sq2 x hη0 b2
  refine ⟨hr1, ?_, ?_, ?_, ?_⟩
  · have := mul_nonneg (by linarith : (0 : ℝ) ≤ 1 + K3 + K5) (add_nonneg x0 hη0)
    linarith
  · have h1 : (μ + lam) * y ≤ 60 * K2 * (q + 3) * (x ^ 2 + η) := by
      have hm : 0 ≤ μ + lam := by linarith
      have k1 : (μ + lam) * y ≤ 30 * ((μ + lam) * r) * (r + e) := by
        refine (mul_le_mul_of_nonneg_left s5 hm).trans_eq ?_
        ring
      have k2 : r + e ≤ (q + 3) * (x + η) := by linarith [add_mul q 3 (x + η)]
      have k3 : 30 * ((μ + lam) * r) * (r + e) ≤ 30 * (K2 * (x + η)) * ((q + 3) * (x + η)) :=
        mul_le_mul (mul_le_mul_of_nonneg_left t2 (by norm_num)) k2 (by linarith) (by positivity)
      have k4 : 30 * (K2 * (x + η)) * ((q + 3) * (x + η)) = 30 * K2 * (q + 3) * (x + η) ^ 2 := by ring
      have k5 := mul_le_mul_of_nonneg_left sq2 (by positivity : 0 ≤ 30 * K2 * (q + 3))
      linarith
    have h2 := mul_le_mul_of_nonneg_left sx (by linarith : 0 ≤ μ + lam)
    have h3 := mul_nonneg (by linarith : (0 : ℝ) ≤ 1 + K2 + K5) S0
    have h4 : K3 * (x ^ 2 + η) = K1 * (x ^ 2 + η) + 60 * K2 * (q + 3) * (x ^ 2 + η) := by rw [hK3]; ring
    linarith
  · have h1 : n * w * (5 * B) ^ 2 ≤ 1 + K2 + K3 + K5 := by rw [hK2] at p2 ⊢; linarith
    have h2 : K1 ≤ 1 + K2 + K3 + K5 := by rw [hK2]; linarith
    have h3 := mul_le_mul_of_nonneg_right h1 d0
    have h4 := mul_le_mul_of_nonneg_right h2 S0
    linarith
  · have hκ : 20 * B * r ^ 2 ≤ 40 * B * q ^ 2 * (x ^ 2 + η) := by
      have k1 : r ^ 2 ≤ (q * (x + η)) ^ 2 := pow_le_pow_left₀ d0 hr 2
      have k2 : (q * (x + η)) ^ 2 ≤ q ^ 2 * (2 * (x ^ 2 + η)) := by rw [mul_pow]; exact mul_le_mul_of_nonneg_left sq2 (sq_nonneg q)
      have := mul_le_mul_of_nonneg_left (k1.trans k2) (by positivity : 0 ≤ 20 * B)
      linarith
    have hγκ : 5 * B * (e ^ 2 + η) + 20 * B * r ^ 2 ≤ K4 * (x ^ 2 + η) := by rw [hK4]; linarith
    have hγκ0 : 0 ≤ 5 * B * (e ^ 2 + η) + 20 * B * r ^ 2 := by positivity
    have hrx : r + x ≤ (q + 1) * (x + η) := by linarith [add_mul q 1 (x + η)]
    have k1 : 2 * (n * w * (5 * B) * (5 * B * (e ^ 2 + η))) * (r + x) ≤ 2 * K1 * (q + 1) * ((x ^ 2 + η) * (x + η)) := by
      refine (mul_le_mul (mul_le_mul_of_nonneg_left hKγ (by norm_num)) hrx (by linarith) (by positivity)).trans_eq ?_
      ring
    have k2 : 2 * (n * w * (5 * B) * (5 * B * (e ^ 2 + η) + 20 * B * r ^ 2)) * u ≤ 2 * (n * w * (5 * B)) * K4 * (q + 1) * ((x ^ 2 + η) * (x + η)) := by
      refine (mul_le_mul (mul_le_mul_of_nonneg_left (mul_le_mul_of_nonneg_left hγκ (by positivity)) (by norm_num)) (du.trans hrx) u0 (by positivity)).trans_eq ?_
      ring
    have k3 : n * w * (5 * B * (e ^ 2 + η) + 20 * B * r ^ 2) ^ 2 ≤ n * w * K4 ^ 2 * ((x ^ 2 + η) * (x + η)) := by
      have j1 : (5 * B * (e ^ 2 + η) + 20 * B * r ^ 2) ^ 2 ≤ (K4 * (x ^ 2 + η)) ^ 2 := pow_le_pow_left₀ hγκ0 hγκ 2
      have j2 : (x ^ 2 + η) ^ 2 ≤ (x ^ 2 + η) * (x + η) := by rw [sq]; exact mul_le_mul_of_nonneg_left hxx S0
      have j3 : (K4 * (x ^ 2 + η)) ^ 2 ≤ K4 ^ 2 * ((x ^ 2 + η) * (x + η)) := by rw [mul_pow]; exact mul_le_mul_of_nonneg_left j2 (sq_nonneg K4)
      have := mul_le_mul_of_nonneg_left (j1.trans j3) (by positivity : 0 ≤ n * w)
      linarith
    have k4 : K5 * ((x ^ 2 + η) * (x + η)) = 2 * K1 * (q + 1) * ((x ^ 2 + η) * (x + η)) + 2 * (n * w * (5 * B)) * K4 * (q + 1) * ((x ^ 2 + η) * (x + η)) + n * w * K4 ^ 2 * ((x ^ 2 + η) * (x + η)) := by
      rw [hK5]; ring
    have k5 := mul_nonneg (by linarith : (0 : ℝ) ≤ 1 + K2 + K3) (mul_nonneg S0 (add_nonneg x0 hη0))
    have k6 : (1 + K2 + K3 + K5) * (x ^ 2 + η) * (x + η) = (1 + K2 + K3) * ((x ^ 2 + η) * (x + η)) + K5 * ((x ^ 2 + η) * (x + η)) := by ring
    rw [k6]
    linarith

section

variable {m : Metric} {tgt src : List Site} {T : Pose ℝ} (hobs : Observable m tgt src T) (h : Overlaps tgt src T) (ht : ∀ t ∈ tgt, LocalSite t) (hs : ∀ s ∈ src, LocalSite s)
  {gate : ℝ} (hg : 0 < gate)

include hobs h ht hs hg

/-- Near the true pose the linearised system is a least-squares system near its solution. -/
theorem near_solution : ∃ (l : List (Site × Site)) (B μ e0 : ℝ), 1 ≤ B ∧ 0 < μ ∧ 0 < e0 ∧ (∀ p ∈ l, len p.2.pos ≤ B) ∧
    ∀ (L : Pose ℝ) (η : ℝ) (partner : List (Option Site)) (H : Matrix (Fin 6) (Fin 6) ℝ) (b : Fin 6 → ℝ), poseGap L T ≤ e0 → StretchAtMost L.R (1 + η) → η ≤ 3 →
      Linearised m (NearestWithin tgt gate) src L partner H b → paired partner = src.length ∧ pairsOf src partner = l ∧
        NearSolution l (fun p x => pairSpeed L x p.1 p.2) (fun p => pairWeight m L p.1 p.2) (fun p => pairDiff L p.1 p.2) H b (errTwist T L) (5 * B) (weightBound m)
          (5 * B * (poseGap L T ^ 2 + η)) μ := by
  classical
  obtain ⟨τ, hτ⟩ : ∃ τ : Site → Site, ∀ s ∈ src, τ s ∈ tgt ∧ (τ s).pos = move T s.pos := by
    refine ⟨fun s => if hh : ∃ t ∈ tgt, t.pos = move T s.pos then hh.choose else s, fun s hs' => ?_⟩
    have hh := h.image s hs'
    simp only [dif_pos hh]
    exact hh.choose_spec
  obtain ⟨B, hB, hb⟩ := exists_bound src (fun s => len s.pos)
  obtain ⟨e1, he1, hpart⟩ := true_partner h hg hτ
  obtain ⟨μ, e2, hμ, he2, hlow⟩ := near_lower hobs h ht hs hτ
  have hmem : ∀ p ∈ src.map (fun s => (τ s, s)), p.2 ∈ src ∧ p.1 ∈ tgt ∧ p.1.pos = move T p.2.pos := by
    intro p hp
    obtain ⟨s, hs', rfl⟩ := List.mem_map.1 hp
    exact ⟨hs', hτ s hs'⟩
  refine ⟨src.map fun s => (τ s, s), B, μ, min e1 e2, hB, hμ, lt_min he1 he2, fun p hp => hb _ (hmem p hp).1, fun L η partner H b hL hη hη1 hlin => ?_⟩
  have hp : partner = src.map fun s => some (τ s) := partner_eq (hpart L (hL.trans (min_le_left _ _))) hlin.matched
  have hpairs : pairsOf src partner = src.map fun s => (τ s, s) := by rw [hp, pairsOf_true]
  have hη0 : 0 ≤ η := by have := hη.2; linarith [this.1, this.2]
  refine ⟨?_, hpairs, ?_⟩
  · rw [hp]
    unfold paired
    rw [List.countP_map, List.countP_eq_length.2 (by simp)]
  have hW : ∀ s ∈ src, ∀ t, NearestWithin tgt gate (move L s.pos) (some t) → SymPSD (pairWeight m L t s) := fun s hs' t hM => weight_psd m L (fun _ => (ht t hM.1).psd) (fun _ => (hs s hs').psd)
  exact {
    add := fun a x y => by
      show pairSpeed L (x + y) a.1 a.2 = pairSpeed L x a.1 a.2 + pairSpeed L y a.1 a.2
      rw [speed_arm, speed_arm, speed_arm, arm_add, mulVec_add, neg_add]
    smul := fun a k x => by
      show pairSpeed L (k • x) a.1 a.2 = k • pairSpeed L x a.1 a.2
      rw [speed_arm, speed_arm, arm_smul, mulVec_smul, smul_neg]
    psd := fun a ha => weight_psd m L (fun _ => (ht _ (hmem a ha).2.1).psd) (fun _ => (hs _ (hmem a ha).1).psd)
    weight := fun a ha => psd_len (weight_psd m L (fun _ => (ht _ (hmem a ha).2.1).psd) (fun _ => (hs _ (hmem a ha).1).psd)) (zero_le_one.trans (weightBound_pos m))
      (weight_le m L (ht _ (hmem a ha).2.1) (hs _ (hmem a ha).1).psd)
    speed := fun a ha x => by
      show len (pairSpeed L x a.1 a.2) ≤ _
      rw [speed_arm, len_neg]
      have := (len_stretch_le (by linarith) hη (arm a.2.pos x)).2
      have := arm_le hB (hb _ (hmem a ha).1) x
      linarith
    sym := hlin.psd.symm
    hess := fun x => by rw [hlin.hess x, pairSum_pairs, hpairs]
    grad := fun x => by rw [grad_weighted hlin hW x, pairSum_pairs, hpairs]
    near := fun a ha => by
      have := residual_err h.rigid hη hB (hb _ (hmem a ha).1)
      show len (pairDiff L a.1 a.2 + pairSpeed L (errTwist T L) a.1 a.2) ≤ _
      rw [speed_arm, ← sub_eq_add_neg]
      unfold pairDiff
      rw [(hmem a ha).2.2]
      exact this
    lower := fun x => by
      rw [hlin.hess x, pairSum_pairs, hpairs]
      exact hlow L η (hL.trans (min_le_right _ _)) hη hη1 x
    c0 := by positivity
    w0 := zero_le_one.trans (weightBound_pos m)
    γ0 := by have := sq_nonneg (poseGap L T); positivity }

/-- One iteration near the true pose, with the length `x` of the error twist and the stretching `η` of the current pose: the step, the new error, the step from below, and the decrease of the cost. -/
theorem step_bounds : ∃ K μ e0 : ℝ, 1 ≤ K ∧ 0 < μ ∧ 0 < e0 ∧ e0 ≤ 1 / 2 ∧
    ∀ (L : Pose ℝ) (η : ℝ) (partner : List (Option Site)) (H : Matrix (Fin 6) (Fin 6) ℝ) (b : Fin 6 → ℝ), poseGap L T ≤ e0 → StretchAtMost L.R (1 + η) → η ≤ e0 →
      Linearised m (NearestWithin tgt gate) src L partner H b → paired partner = src.length ∧ ∀ (lam : ℝ) (d : Fin 6 → ℝ), 0 ≤ lam → Damped H b lam d → len d ≤ 1 ∧
        (μ + lam) * len d ≤ K * (len (errTwist T L) + η) ∧
        (μ + lam) * len (errTwist T (L.mul (se3Exp d))) ≤ lam * len (errTwist T L) + K * (len (errTwist T L) ^ 2 + η) ∧
        μ * len (errTwist T L) ≤ (K + lam) * len d + K * (len (errTwist T L) ^ 2 + η) ∧
        (μ + 2 * lam) * len d ^ 2 - K * (len (errTwist T L) ^ 2 + η) * (len (errTwist T L) + η) ≤
          2 * (totalCost m src partner L L - totalCost m src partner L (L.mul (se3Exp d))) := by
  obtain ⟨l, B, μ, e1, hB, hμ, he1, hb, hmain⟩ := near_solution hobs h ht hs hg
  obtain ⟨n, hn0, hn⟩ : ∃ n : ℝ, 0 ≤ n ∧ n = l.length := ⟨_, Nat.cast_nonneg _, rfl⟩
  obtain ⟨w, hw1, hw⟩ : ∃ w : ℝ, 1 ≤ w ∧ w = weightBound m := ⟨_, weightBound_pos m, rfl⟩
  obtain ⟨K1, hK1⟩ : ∃ K1 : ℝ, K1 = n * w * (5 * B) * (50 * B) := ⟨_, rfl⟩
  obtain ⟨K2, hK2⟩ : ∃ K2 : ℝ, K2 = n * w * (5 * B) ^ 2 + K1 := ⟨_, rfl⟩
  obtain ⟨q, hq⟩ : ∃ q : ℝ, q = K2 / μ := ⟨_, rfl⟩
  obtain ⟨K4, hK4⟩ : ∃ K4 : ℝ, K4 = 50 * B + 40 * B * q ^ 2 := ⟨_, rfl⟩
  obtain ⟨K5, hK5⟩ : ∃ K5 : ℝ, K5 = 2 * K1 * (q + 1) + 2 * (n * w * (5 * B)) * K4 * (q + 1) + n * w * K4 ^ 2 := ⟨_, rfl⟩
  obtain ⟨K3, hK3⟩ : ∃ K3 : ℝ, K3 = K1 + 60 * K2 * (q + 3) := ⟨_, rfl⟩
  have p1 : 0 ≤ K1 := by rw [hK1]; positivity
  have p2 : 0 ≤ K2 := by rw [hK2]; positivity
  have pq : 0 ≤ q := by rw [hq]; positivity
  have p4 : 0 ≤ K4 := by rw [hK4]; positivity
  have p5 : 0 ≤ K5 := by rw [hK5]; positivity
  have p3 : 0 ≤ K3 := by rw [hK3]; positivity
  have hh : 0 ≤ n * w * (5 * B) ^ 2 := by positivity
  refine ⟨1 + K2 + K3 + K5, μ, min e1 (min (1 / 2) (μ / (2 * (1 + K2)))), by linarith, hμ, lt_min he1 (lt_min (by norm_num) (by positivity)), (min_le_right _ _).trans (min_le_left _ _),
    fun L η partner H b hL hη hη1 hlin => ?_⟩
  have hη0 : 0 ≤ η := by have := hη.2; linarith [this.1, this.2]
  have a1 := hL.trans (min_le_left _ _)
  have a2 := hL.trans ((min_le_right _ _).trans (min_le_left _ _))
  have a3 := (le_div_iff₀ (by positivity)).1 (hL.trans ((min_le_right _ _).trans (min_le_right _ _)))
  have b2 := hη1.trans ((min_le_right _ _).trans (min_le_left _ _))
  have b3 := (le_div_iff₀ (by positivity)).1 (hη1.trans ((min_le_right _ _).trans (min_le_right _ _)))
  obtain ⟨hpaired, hpairs, hns⟩ := hmain L η partner H b a1 hη (by linarith) hlin
  refine ⟨hpaired, fun lam d hlam hd => ?_⟩
  have g := gap_le h.rigid hη a2
  have g0 := gap_nonneg L T
  have xe := err_le_gap (L := L) h.rigid
  have s1 := hns.step_err hd hlam
  have s2 := hns.step_le hd
  have s3 := hns.err_le hd hlam
  have s4 := fun hd1 : len d ≤ 1 => hns.decrease hd (D' := fun p => pairDiff (L.mul (se3Exp d)) p.1 p.2) (κ := 20 * B * len d ^ 2) (fun p hp => by
    have := move_step hη (by linarith) hd1 hB (hb p hp)
    show len (pairDiff (L.mul (se3Exp d)) p.1 p.2 - pairDiff L p.1 p.2 - pairSpeed L d p.1 p.2) ≤ _
    rw [speed_arm]
    unfold pairDiff
    rw [← len_neg]
    refine le_trans (le_of_eq ?_) this
    congr 1
    abel)
  have s5 := fun hd1 : len d ≤ 1 => err_step (L := L) h.rigid hd1
  have hc1 := total_pairs m src partner L L
  have hc2 := total_pairs m src partner L (L.mul (se3Exp d))
  rw [hpairs] at hc1 hc2
  rw [← hc1, ← hc2] at s4
  have x0 := len_nonneg (errTwist T L)
  have d0 := len_nonneg d
  have u0 := len_nonneg (d - errTwist T L)
  have du : len (d - errTwist T L) ≤ len d + len (errTwist T L) := len_sub_le _ _
  have sx : len (errTwist T (L.mul (se3Exp d))) ≤ len (errTwist T (L.mul (se3Exp d)) - (errTwist T L - d)) + len (d - errTwist T L) := by
    rw [len_sub_comm d]
    refine le_trans (le_of_eq ?_) (len_add_le _ _)
    rw [sub_add_cancel]
  rw [← hn, ← hw] at s1 s2 s3 s4
  generalize len (errTwist T (L.mul (se3Exp d)) - (errTwist T L - d)) = y at *
  generalize len (errTwist T (L.mul (se3Exp d))) = x' at *
  generalize len (errTwist T L) = x at *
  generalize len (d - errTwist T L) = u at *
  generalize len d = r at *
  generalize poseGap L T = e at *
  generalize totalCost m src partner L L = c1 at *
  generalize totalCost m src partner L (L.mul (se3Exp d)) = c2 at *
  clear hns hd hlin hmain hc1 hc2 hpairs
  exact step_numbers hlam hB hn0 hw1 hμ hK1 hK2 hq hK4 hK5 hK3 x0 d0 u0 hη0 g0 b2 a2 a3 b3 g xe s1 s2 s3 s4 s5 du sx

end

end Verif.Props
