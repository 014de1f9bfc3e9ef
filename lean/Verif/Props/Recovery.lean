import Verif.Props.RecoveryStep

/-!
C89: registration of two scans of the same points recovers the pose between them, from every initial pose near it.
-/

set_option linter.unusedSectionVars false
set_option linter.unusedSimpArgs false
set_option linter.unnecessarySeqFocus false

namespace Verif.Props

open Matrix Verif Verif.Proofs Verif.Factors Verif.Optimizer Verif.Spec Verif.Lie

/-! ### Numbers -/

theorem pow_stretch {δ : ℝ} (h0 : 0 ≤ δ) : ∀ j : Nat, 2 * (j : ℝ) * δ ≤ 1 → (1 + δ) ^ j ≤ 1 + 2 * j * δ
  | 0, _ => by simp
  | j + 1, h => by
    push_cast at h ⊢
    have hj : (0 : ℝ) ≤ j := Nat.cast_nonneg j
    have ih := pow_stretch h0 j (by nlinarith)
    rw [pow_succ]
    have h1 := mul_le_mul_of_nonneg_right ih (by linarith : 0 ≤ 1 + δ)
    have h2 : 2 * (j : ℝ) * δ * δ ≤ δ := by nlinarith
    nlinarith

/-- A step changes the distance to another pose only by a multiple of its length. -/
theorem gap_step {T L : Pose ℝ} {η : ℝ} (hη : StretchAtMost L.R (1 + η)) (hη1 : η ≤ 3) {d : Fin 6 → ℝ} (hd : len d ≤ 1) :
    poseGap (L.mul (se3Exp d)) T ≤ 5 / 2 * poseGap L T + 26 * len d := by
  have hr := len_rot_le d
  have ht := len_tra_le d
  have hr1 := hr.trans hd
  have d0 := len_nonneg d
  have g0 := gap_nonneg L T
  have hcol : ∀ A : Matrix (Fin 3) (Fin 3) ℝ, fro (L.R * A) ≤ 2 * fro A := by
    intro A
    refine le_of_sq_le_sq ?_ (by have := fro_nonneg A; positivity)
    rw [fro_cols, mul_pow, fro_cols A, Finset.mul_sum]
    refine Finset.sum_le_sum fun j _ => ?_
    rw [← mul_pow]
    refine pow_le_pow_left₀ (len_nonneg _) ?_ 2
    exact (len_stretch_le (by linarith) hη (fun i => A i j)).2
  have e1 : (L.mul (se3Exp d)).R - T.R = L.R * ((se3Exp d).R - 1) + (L.R - T.R) := by
    show L.R * (se3Exp d).R - T.R = _
    rw [Matrix.mul_sub, Matrix.mul_one]
    abel
  have e2 : (L.mul (se3Exp d)).t - T.t = L.R *ᵥ (se3Exp d).t + (L.t - T.t) := by
    show L.R *ᵥ (se3Exp d).t + L.t - T.t = _
    abel
  have a1 : fro ((L.mul (se3Exp d)).R - T.R) ≤ 12 * len d + fro (L.R - T.R) := by
    rw [e1]
    refine (fro_add_le _ _).trans (add_le_add ?_ le_rfl)
    have := hcol ((se3Exp d).R - 1)
    have := exp_R_first hr1
    linarith
  have a2 : len ((L.mul (se3Exp d)).t - T.t) ≤ 14 * len d + len (L.t - T.t) := by
    rw [e2]
    refine (len_add_le _ _).trans (add_le_add ?_ le_rfl)
    have := (len_stretch_le (by linarith) hη (se3Exp d).t).2
    have := exp_t_first hr1
    linarith
  have b := gap_sq L T
  have b1 : fro (L.R - T.R) ≤ 3 / 2 * poseGap L T := by
    refine le_of_sq_le_sq ?_ (by positivity)
    nlinarith [sq_nonneg (len (L.t - T.t)), sq_nonneg (fro (L.R - T.R))]
  have b2 : len (L.t - T.t) ≤ poseGap L T := by
    refine le_of_sq_le_sq ?_ g0
    nlinarith [sq_nonneg (fro (L.R - T.R))]
  have c := gap_sq (L.mul (se3Exp d)) T
  have n1 := fro_nonneg ((L.mul (se3Exp d)).R - T.R)
  have n2 := len_nonneg ((L.mul (se3Exp d)).t - T.t)
  have c1 : poseGap (L.mul (se3Exp d)) T ≤ fro ((L.mul (se3Exp d)).R - T.R) + len ((L.mul (se3Exp d)).t - T.t) := by
    refine le_of_sq_le_sq ?_ (by positivity)
    rw [c]
    nlinarith [mul_nonneg n1 n2, sq_nonneg (fro ((L.mul (se3Exp d)).R - T.R))]
  linarith

/-- Where the poses of a registration that started at the distance `g` from the true pose are after `j` iterations. -/
structure NearPose (T : Pose ℝ) (g δ : ℝ) (j : Nat) (L : Pose ℝ) : Prop where
  stretch : StretchAtMost L.R ((1 + δ) ^ j)
  err : len (errTwist T L) ≤ g
  gap : poseGap L T ≤ 3 * g

theorem stretch_mono {R : Matrix (Fin 3) (Fin 3) ℝ} {c c' : ℝ} (h : StretchAtMost R c) (hc : c ≤ c') : StretchAtMost R c' :=
  ⟨fun u => ⟨(h.1 u).1, (h.1 u).2.trans (mul_le_mul_of_nonneg_right hc (dot_nonneg u))⟩, h.2.1, h.2.2.trans hc⟩

/-- What an iteration does at a pose near the true one. -/
structure Iterates (m : Metric) (tgt src : List Site) (T : Pose ℝ) (gate lam0 μ K g δ N F : ℝ) : Prop where
  drift : N ≤ F
  floor : F ≤ g
  gap : ∀ (j : Nat) (L : Pose ℝ), j ≤ 2 ^ 31 → NearPose T g δ j L → poseGap L T ≤ 2 * len (errTwist T L) + 3 * N
  iteration : ∀ (j : Nat) (L : Pose ℝ) (partner : List (Option Site)) (H : Matrix (Fin 6) (Fin 6) ℝ) (b : Fin 6 → ℝ), j + 1 ≤ 2 ^ 31 → NearPose T g δ j L →
    Linearised m (NearestWithin tgt gate) src L partner H b → paired partner = src.length ∧ ∀ (lam : ℝ) (d : Fin 6 → ℝ), 0 ≤ lam → Damped H b lam d →
      NearPose T g δ (j + 1) (L.mul (se3Exp d)) ∧ len d ≤ K * (len (errTwist T L) + N) ∧
      (len (errTwist T L) ≤ F → len (errTwist T (L.mul (se3Exp d))) ≤ F) ∧
      (F ≤ len (errTwist T L) → (μ + lam) * len (errTwist T (L.mul (se3Exp d))) ≤ (lam + μ / 2) * len (errTwist T L)) ∧
      len (errTwist T L) ≤ K * (1 + lam) * len d + F ∧
      (lam ≤ lam0 → F < len (errTwist T L) → totalCost m src partner L (L.mul (se3Exp d)) ≤ totalCost m src partner L L)

section

variable {m : Metric} {tgt src : List Site} {T : Pose ℝ} (hobs : Observable m tgt src T) (h : Overlaps tgt src T) (ht : ∀ t ∈ tgt, LocalSite t) (hs : ∀ s ∈ src, LocalSite s)
  {gate : ℝ} (hg : 0 < gate)

include hobs h ht hs hg

set_option maxHeartbeats 1000000 in
theorem near_iteration {lam0 : ℝ} (hlam0 : 0 ≤ lam0) : ∃ μ K r D κ : ℝ, 0 < μ ∧ 0 < K ∧ 0 < r ∧ 0 < D ∧ 0 < κ ∧ ∀ g : ℝ, 0 ≤ g → g ≤ r →
    ∀ N F : ℝ, N = 2 ^ 32 * (D * g) ^ 8 → F = N / κ → Iterates m tgt src T gate lam0 μ K g ((D * g) ^ 8) N F := by
  obtain ⟨K, μ, e0, hK, hμ, he0, he1, hstep⟩ := step_bounds hobs h ht hs hg
  obtain ⟨D, hD⟩ : ∃ D : ℝ, D = 2 * K / μ := ⟨_, rfl⟩
  have pD : 0 < D := by rw [hD]; positivity
  obtain ⟨κ, hκ0, hκ1, hκ2, hκ3⟩ : ∃ κ : ℝ, 0 < κ ∧ κ ≤ 1 ∧ 4 * K * κ ≤ μ ∧ 16 * K * (K + lam0) ^ 2 * κ ≤ μ ^ 3 := by
    refine ⟨min 1 (min (μ / (4 * K)) (μ ^ 3 / (16 * K * (K + lam0) ^ 2))), ?_, min_le_left _ _, ?_, ?_⟩
    · exact lt_min one_pos (lt_min (by positivity) (by positivity))
    · rw [mul_comm]
      exact (le_div_iff₀ (by positivity)).1 ((min_le_right _ _).trans (min_le_left _ _))
    · rw [mul_comm]
      exact (le_div_iff₀ (by positivity)).1 ((min_le_right _ _).trans (min_le_right _ _))
  obtain ⟨r, hr0, hr1, hr2, hr3, hr4, hr5⟩ : ∃ r : ℝ, 0 < r ∧ r ≤ 1 ∧ 3 * r ≤ e0 ∧ r ≤ κ ∧ (15 / 2 + 26 * D) * r ≤ 1 / 2 ∧ 2 ^ 34 * D ^ 8 * r ≤ κ := by
    refine ⟨min (min 1 (e0 / 3)) (min κ (min (1 / 2 / (15 / 2 + 26 * D)) (κ / (2 ^ 34 * D ^ 8)))), ?_, ?_, ?_, ?_, ?_, ?_⟩
    · exact lt_min (lt_min one_pos (by positivity)) (lt_min hκ0 (lt_min (by positivity) (by positivity)))
    · exact (min_le_left _ _).trans (min_le_left _ _)
    · have := (min_le_left (min 1 (e0 / 3)) (min κ (min (1 / 2 / (15 / 2 + 26 * D)) (κ / (2 ^ 34 * D ^ 8))))).trans (min_le_right _ _)
      linarith
    · exact (min_le_right _ _).trans (min_le_left _ _)
    · rw [mul_comm]
      exact (le_div_iff₀ (by positivity)).1 ((min_le_right _ _).trans ((min_le_right _ _).trans (min_le_left _ _)))
    · rw [mul_comm]
      exact (le_div_iff₀ (by positivity)).1 ((min_le_right _ _).trans ((min_le_right _ _).trans (min_le_right _ _)))
  refine ⟨μ, 2 * K / μ, r, D, κ, hμ, by positivity, hr0, pD, hκ0, fun g hg0 hgr N F hN hF => ?_⟩
  have hg1 := hgr.trans hr1
  have hδ0 : 0 ≤ (D * g) ^ 8 := by positivity
  have hN0 : 0 ≤ N := by rw [hN]; positivity
  -- the stretching is small against `g`
  have hNg : 4 * N ≤ κ * g := by
    have h1 : g ^ 8 ≤ g * r := by
      have : g ^ 7 ≤ g := by
        calc g ^ 7 ≤ g ^ 1 := pow_le_pow_of_le_one hg0 hg1 (by norm_num)
          _ = g := pow_one g
      calc g ^ 8 = g * g ^ 7 := by ring
        _ ≤ g * r := mul_le_mul_of_nonneg_left (this.trans hgr) hg0
    have h2 : 4 * N = 2 ^ 34 * D ^ 8 * g ^ 8 := by rw [hN, mul_pow]; ring
    rw [h2]
    calc 2 ^ 34 * D ^ 8 * g ^ 8 ≤ 2 ^ 34 * D ^ 8 * (g * r) := mul_le_mul_of_nonneg_left h1 (by positivity)
      _ = (2 ^ 34 * D ^ 8 * r) * g := by ring
      _ ≤ κ * g := mul_le_mul_of_nonneg_right hr5 hg0
  have hNκ : N = F * κ := by rw [hF, div_mul_cancel₀ _ hκ0.ne']
  have hF0 : 0 ≤ F := by rw [hF]; positivity
  have hNF : N ≤ F := by rw [hNκ]; nlinarith
  have hFg : 4 * F ≤ g := by
    have : 4 * F * κ ≤ g * κ := by nlinarith
    exact le_of_mul_le_mul_right this hκ0
  have hNg4 : 4 * N ≤ g := by linarith
  have hstretch : ∀ (j : Nat) (L : Pose ℝ), j ≤ 2 ^ 31 → StretchAtMost L.R ((1 + (D * g) ^ 8) ^ j) → StretchAtMost L.R (1 + N) := by
    intro j L hj hL
    refine stretch_mono hL ?_
    have hj' : (j : ℝ) ≤ 2 ^ 31 := by exact_mod_cast hj
    have h1 : 2 * (j : ℝ) * (D * g) ^ 8 ≤ N := by
      rw [hN]
      nlinarith [mul_le_mul_of_nonneg_right hj' hδ0]
    exact (pow_stretch hδ0 j (by linarith)).trans (by linarith)
  refine ⟨hNF, by linarith, fun j L hj hL => ?_, fun j L partner H b hj hL hlin => ?_⟩
  · exact gap_le h.rigid (hstretch j L hj hL.stretch) (hL.gap.trans (by linarith))
  have hη := hstretch j L (by omega) hL.stretch
  obtain ⟨hp, hmain⟩ := hstep L N partner H b (hL.gap.trans (by linarith)) hη (by linarith) hlin
  refine ⟨hp, fun lam d hlam hd => ?_⟩
  obtain ⟨hd1, m1, m2, m3, m4⟩ := hmain lam d hlam hd
  have x0 := len_nonneg (errTwist T L)
  have x0' := len_nonneg (errTwist T (L.mul (se3Exp d)))
  have d0 := len_nonneg d
  have hxg := hL.err
  have hgap := hL.gap
  have gs := gap_step (T := T) hη (by linarith) hd1
  have hst := hL.stretch
  have hpow : (1 : ℝ) ≤ (1 + (D * g) ^ 8) ^ j := one_le_pow₀ (by linarith)
  have hes := exp_stretch d
  have hdr := len_rot_le d
  have hdr0 := len_nonneg (rot d)
  have hgl := fun hgap' : StretchAtMost (L.mul (se3Exp d)).R (1 + N) => gap_le (L := L.mul (se3Exp d)) h.rigid hgap'
  generalize hx : len (errTwist T L) = x at *
  generalize hx' : len (errTwist T (L.mul (se3Exp d))) = x' at *
  -- products
  have hKx : 4 * (K * x ^ 2) ≤ μ * x := by
    have h1 : 4 * K * x ≤ μ := by
      have : 4 * K * x ≤ 4 * K * κ := mul_le_mul_of_nonneg_left (hxg.trans (hgr.trans hr3)) (by linarith)
      linarith
    have := mul_le_mul_of_nonneg_right h1 x0
    linarith [show 4 * K * x * x = 4 * (K * x ^ 2) by ring]
  have hKN : 4 * (K * N) ≤ μ * F := by
    have := mul_le_mul_of_nonneg_left hκ2 hF0
    rw [hNκ]
    linarith [show F * (4 * K * κ) = 4 * (K * (F * κ)) by ring]
  have hμd : μ * len d ≤ K * (x + N) := by linarith [mul_nonneg hlam d0, add_mul μ lam (len d)]
  have hdK : len d ≤ 2 * K / μ * (x + N) := by
    rw [div_mul_eq_mul_div, le_div_iff₀ hμ]
    linarith [mul_nonneg (by linarith : 0 ≤ K) (by linarith : 0 ≤ x + N)]
  have hdg : len d ≤ D * g := by
    have h1 : μ * len d ≤ 2 * K * g := by
      have : K * (x + N) ≤ K * (2 * g) := mul_le_mul_of_nonneg_left (by linarith) (by linarith)
      linarith
    rw [hD, div_mul_eq_mul_div, le_div_iff₀ hμ]
    linarith
  have m2' : (μ + lam) * x' ≤ (lam + μ / 4) * x + μ / 4 * F := by
    have e1 : K * (x ^ 2 + N) = K * x ^ 2 + K * N := by ring
    have e2 : (lam + μ / 4) * x = lam * x + μ * x / 4 := by ring
    rw [e2]
    linarith
  have hfloor : x ≤ F → x' ≤ F := by
    intro hxF
    have h1 : (lam + μ / 4) * x ≤ (lam + μ / 4) * F := mul_le_mul_of_nonneg_left hxF (by positivity)
    have h2 : (μ + lam) * x' ≤ (μ + lam) * F := by
      have : 0 ≤ μ * F := by positivity
      linarith [show (lam + μ / 4) * F = lam * F + μ * F / 4 by ring, show (μ + lam) * F = lam * F + μ * F by ring]
    exact le_of_mul_le_mul_left h2 (by linarith)
  have hcontr : F ≤ x → (μ + lam) * x' ≤ (lam + μ / 2) * x := by
    intro hFx
    have h1 := mul_le_mul_of_nonneg_left hFx (by linarith : 0 ≤ μ / 4)
    linarith [show (lam + μ / 2) * x = (lam + μ / 4) * x + μ / 4 * x by ring]
  have hxg' : x' ≤ g := by
    rcases le_total x F with hc | hc
    · exact (hfloor hc).trans (by linarith)
    · have h1 := hcontr hc
      have h2 : (μ + lam) * x' ≤ (μ + lam) * x := by
        have : 0 ≤ μ * x := by positivity
        linarith [show (lam + μ / 2) * x = lam * x + μ * x / 2 by ring, show (μ + lam) * x = lam * x + μ * x by ring]
      exact (le_of_mul_le_mul_left h2 (by linarith)).trans hxg
  have hstr' : StretchAtMost (L.mul (se3Exp d)).R ((1 + (D * g) ^ 8) ^ (j + 1)) := by
    have h1 : StretchAtMost (se3Exp d).R (1 + (D * g) ^ 8) := stretch_mono hes (by
      have := pow_le_pow_left₀ hdr0 (hdr.trans hdg) 8
      linarith)
    rw [pow_succ]
    exact StretchAtMost.mul hpow hst h1
  have hgap' : poseGap (L.mul (se3Exp d)) T ≤ 2 * x' + 3 * N := by
    refine hgl (hstretch (j + 1) _ hj hstr') ?_
    have h1 : (15 / 2 + 26 * D) * g ≤ 1 / 2 := (mul_le_mul_of_nonneg_left hgr (by positivity)).trans hr4
    linarith [show (15 / 2 + 26 * D) * g = 15 / 2 * g + 26 * (D * g) by ring]
  refine ⟨⟨hstr', by rw [hx']; exact hxg', by linarith⟩, hdK, hfloor, hcontr, ?_, fun hl hFx => ?_⟩
  · have e1 : K * (x ^ 2 + N) = K * x ^ 2 + K * N := by ring
    have h1 : 3 / 4 * (μ * x) ≤ (K + lam) * len d + μ * F / 4 := by linarith
    have h2 : (K + lam) * len d ≤ K * (1 + lam) * len d := by
      refine mul_le_mul_of_nonneg_right ?_ d0
      rw [mul_add, mul_one]
      exact add_le_add le_rfl (le_mul_of_one_le_left hlam hK)
    have h3 : μ * x ≤ μ * (2 * K / μ * (1 + lam) * len d + F) := by
      have e2 : μ * (2 * K / μ * (1 + lam) * len d + F) = 2 * (K * (1 + lam) * len d) + μ * F := by field_simp
      rw [e2]
      have : 0 ≤ μ * F := by positivity
      have : 0 ≤ K * (1 + lam) * len d := by positivity
      linarith
    exact le_of_mul_le_mul_left h3 hμ
  · have hxp : 0 < x := lt_of_le_of_lt hF0 hFx
    have hNx : N ≤ κ * x := by rw [hNκ, mul_comm]; exact mul_le_mul_of_nonneg_left hFx.le hκ0.le
    have hlow : μ * x ≤ 2 * (K + lam0) * len d := by
      have e1 : K * (x ^ 2 + N) = K * x ^ 2 + K * N := by ring
      have h1 := mul_le_mul_of_nonneg_left hFx.le hμ.le
      have h2 := mul_le_mul_of_nonneg_right hl d0
      linarith [add_mul K lam (len d), show 2 * (K + lam0) * len d = 2 * (K * len d) + 2 * (lam0 * len d) by ring]
    have hsq : (μ * x) ^ 2 ≤ (2 * (K + lam0) * len d) ^ 2 := pow_le_pow_left₀ (by positivity) hlow 2
    have hA : K * (x ^ 2 + N) * (x + N) ≤ 4 * K * κ * x ^ 2 := by
      have h1 : x ^ 2 + N ≤ 2 * κ * x := by
        have : x * x ≤ κ * x := mul_le_mul_of_nonneg_right (hxg.trans (hgr.trans hr3)) x0
        linarith [sq x]
      have h2 : x + N ≤ 2 * x := by
        have : κ * x ≤ 1 * x := mul_le_mul_of_nonneg_right hκ1 x0
        linarith
      have h3 : K * (x ^ 2 + N) ≤ K * (2 * κ * x) := mul_le_mul_of_nonneg_left h1 (by linarith)
      refine (mul_le_mul h3 h2 (by linarith) (by positivity)).trans_eq ?_
      ring
    have hB : 4 * K * κ * x ^ 2 ≤ μ * len d ^ 2 := by
      have h1 := mul_le_mul_of_nonneg_right hκ3 (sq_nonneg x)
      have h2 := mul_le_mul_of_nonneg_left hsq hμ.le
      have h3 : 4 * (K + lam0) ^ 2 * (4 * K * κ * x ^ 2) ≤ 4 * (K + lam0) ^ 2 * (μ * len d ^ 2) := by
        linarith [show 16 * K * (K + lam0) ^ 2 * κ * x ^ 2 = 4 * (K + lam0) ^ 2 * (4 * K * κ * x ^ 2) by ring, show μ ^ 3 * x ^ 2 = μ * (μ * x) ^ 2 by ring,
          show μ * (2 * (K + lam0) * len d) ^ 2 = 4 * (K + lam0) ^ 2 * (μ * len d ^ 2) by ring]
      exact le_of_mul_le_mul_left h3 (by positivity)
    have hC : 0 ≤ lam * len d ^ 2 := by positivity
    linarith [show (μ + 2 * lam) * len d ^ 2 = μ * len d ^ 2 + 2 * (lam * len d ^ 2) by ring]

end

/-! ### Runs -/

theorem contract {μ lam lam0 x x' : ℝ} (hμ : 0 < μ) (hl : 0 ≤ lam) (hl0 : lam ≤ lam0) (hx : 0 ≤ x) (h : (μ + lam) * x' ≤ (lam + μ / 2) * x) :
    x' ≤ (lam0 + μ / 2) / (lam0 + μ) * x := by
  rw [div_mul_eq_mul_div, le_div_iff₀ (by linarith)]
  refine le_of_mul_le_mul_left ?_ (by linarith : 0 < μ + lam)
  have h1 := mul_le_mul_of_nonneg_right h (by linarith : 0 ≤ lam0 + μ)
  have h2 : 0 ≤ μ * (lam0 - lam) * x := mul_nonneg (mul_nonneg hμ.le (by linarith)) hx
  nlinarith

theorem small_len {re te : ℝ} {d : Fin 6 → ℝ} (h : SmallStep re te d) : len d ≤ re + te := by
  have h1 : len (rot d) ≤ re := by
    refine le_of_eq_of_le ?_ h.1
    unfold len
    congr 1
    simp [rot, dotProduct, Fin.sum_univ_three]
    ring
  have h2 : len (tra d) ≤ te := by
    refine le_of_eq_of_le ?_ h.2
    unfold len
    congr 1
    simp [tra, dotProduct, Fin.sum_univ_three]
    ring
  exact (twist_le d).trans (add_le_add h1 h2)

theorem not_small {re te x : ℝ} {d : Fin 6 → ℝ} (h : len d ≤ x) (hr : x ≤ re) (ht : x ≤ te) : SmallStep re te d := by
  constructor
  · refine le_of_eq_of_le ?_ (((len_rot_le d).trans h).trans hr)
    unfold len
    congr 1
    simp [rot, dotProduct, Fin.sum_univ_three]
    ring
  · refine le_of_eq_of_le ?_ (((len_tra_le d).trans h).trans ht)
    unfold len
    congr 1
    simp [tra, dotProduct, Fin.sum_univ_three]
    ring

section

variable {m : Metric} {tgt src : List Site} {T : Pose ℝ} {gate lam0 μ K g δ N F : ℝ} (hI : Iterates m tgt src T gate lam0 μ K g δ N F) (hμ : 0 < μ) (hK : 0 < K) (hg : 0 ≤ g) (hF : 0 ≤ F)

include hI hμ hK hg hF

theorem gn_near (hl : 0 ≤ lam0) {re te : ℝ} {n i : Nat} {r res : Result ℝ} (h : GNRun m (NearestWithin tgt gate) src lam0 re te n i r res) :
    ∀ j : Nat, j + n ≤ 2 ^ 31 → NearPose T g δ j r.T → r.converged = false →
      len (errTwist T r.T) ≤ max (((lam0 + μ / 2) / (lam0 + μ)) ^ j * g) F →
      (∃ j' ≤ 2 ^ 31, NearPose T g δ j' res.T) ∧ (0 < n → res.numInliers = src.length) ∧
      (res.converged = false → len (errTwist T res.T) ≤ max (((lam0 + μ / 2) / (lam0 + μ)) ^ (j + n) * g) F) ∧
      (res.converged = true → 0 ≤ re + te ∧ len (errTwist T res.T) ≤ K * (1 + lam0) * (re + te) + F) ∧
      (res.converged = false → 0 < n → K * (max (((lam0 + μ / 2) / (lam0 + μ)) ^ (j + n - 1) * g) F + N) ≤ re →
        K * (max (((lam0 + μ / 2) / (lam0 + μ)) ^ (j + n - 1) * g) F + N) ≤ te → False) := by
  have hρ : 0 ≤ (lam0 + μ / 2) / (lam0 + μ) := by positivity
  induction h with
  | budget i r =>
    intro j hj hn hc hx
    exact ⟨⟨j, by omega, hn⟩, (fun h => absurd h (lt_irrefl 0)), (fun _ => by simpa using hx), (fun h => by rw [hc] at h; cases h), fun _ h => absurd h (lt_irrefl 0)⟩
  | done n i r hc' => intro j _ _ hc; rw [hc] at hc'; cases hc'
  | step n i r r' p H b d _ hlin hd hrun ih =>
    intro j hj hn hc hx
    obtain ⟨hp, hit⟩ := hI.iteration j r.T p H b (by omega) hn hlin
    obtain ⟨c1, c2, c3, c4, c5, _⟩ := hit lam0 d hl hd
    have hx' : len (errTwist T (r.T.mul (se3Exp d))) ≤ max (((lam0 + μ / 2) / (lam0 + μ)) ^ (j + 1) * g) F := by
      rcases le_total (len (errTwist T r.T)) F with hc | hc
      · exact (c3 hc).trans (le_max_right _ _)
      · have h1 := contract hμ hl le_rfl (len_nonneg _) (c4 hc)
        rcases le_max_iff.1 hx with h2 | h2
        · refine (h1.trans (mul_le_mul_of_nonneg_left h2 hρ)).trans ((le_of_eq ?_).trans (le_max_left _ _))
          ring
        · exact (c3 h2).trans (le_max_right _ _)
    by_cases hs : SmallStep re te d
    · have hcv : (open Classical in decide (SmallStep re te d)) = true := by simpa using hs
      generalize hr1 : (⟨r.T.mul (se3Exp d), (open Classical in decide (SmallStep re te d)), i, paired p, H, b, totalCost m src p r.T r.T⟩ : Result ℝ) = r1 at hrun
      have hr1c : r1.converged = true := by subst hr1; exact hcv
      have hstop : r' = r1 := by
        cases hrun with
        | budget => rfl
        | done => rfl
        | step _ _ _ _ _ _ _ _ hc' => rw [hr1c] at hc'; cases hc'
      subst hstop
      subst hr1
      refine ⟨⟨j + 1, by omega, c1⟩, fun _ => hp, fun h => ?_, fun _ => ?_, fun h => ?_⟩
      · rw [hr1c] at h; cases h
      · have hds := small_len hs
        have d0 := len_nonneg d
        refine ⟨by linarith, ?_⟩
        have hk : 0 ≤ K * (1 + lam0) := by positivity
        have h1 := mul_le_mul_of_nonneg_left hds hk
        show len (errTwist T (r.T.mul (se3Exp d))) ≤ _
        rcases le_total (len (errTwist T r.T)) F with hc | hc
        · have h2 : 0 ≤ K * (1 + lam0) * (re + te) := mul_nonneg hk (by linarith)
          linarith [c3 hc]
        · have h1' := contract hμ hl le_rfl (len_nonneg _) (c4 hc)
          have h3 : (lam0 + μ / 2) / (lam0 + μ) ≤ 1 := by rw [div_le_one (by linarith)]; linarith
          have h4 := mul_le_mul_of_nonneg_right h3 (len_nonneg (errTwist T r.T))
          linarith
      · rw [hr1c] at h; cases h
    · have hcv : (open Classical in decide (SmallStep re te d)) = false := by simpa using hs
      obtain ⟨a1, a2, a3, a4, a5⟩ := ih (j + 1) (by omega) c1 hcv hx'
      refine ⟨a1, fun _ => ?_, fun h => ?_, a4, fun h _ h1 h2 => ?_⟩
      · rcases Nat.eq_zero_or_pos n with h0 | h0
        · subst h0
          cases hrun with
          | budget => exact hp
          | done => exact hp
        · exact a2 h0
      · have := a3 h
        rwa [show j + 1 + n = j + (n + 1) by omega] at this
      · rcases Nat.eq_zero_or_pos n with h0 | h0
        · subst h0
          have : j + (0 + 1) - 1 = j := by omega
          rw [this] at h1 h2
          refine hs (not_small ?_ h1 h2)
          refine c2.trans (mul_le_mul_of_nonneg_left ?_ hK.le)
          linarith
        · have : j + 1 + n - 1 = j + (n + 1) - 1 := by omega
          rw [this] at a5
          exact a5 h h0 h1 h2

theorem lm_near (hl0 : 0 ≤ lam0) {inner : Nat} (hin : 0 < inner) {factor : ℝ} (hfac : 1 ≤ factor) {re te lam : ℝ} {n i : Nat} {r res : Result ℝ}
    (h : LMRun m (NearestWithin tgt gate) src inner factor re te n i lam r res) :
    ∀ j : Nat, 0 ≤ lam → j + n ≤ 2 ^ 31 → NearPose T g δ j r.T → r.converged = false →
      (lam ≤ lam0 ∧ len (errTwist T r.T) ≤ ((lam0 + μ / 2) / (lam0 + μ)) ^ j * g ∨ len (errTwist T r.T) ≤ F) →
      (∃ j' ≤ 2 ^ 31, NearPose T g δ j' res.T) ∧ (0 < n → res.numInliers = src.length) ∧
      (res.converged = false → len (errTwist T res.T) ≤ max (((lam0 + μ / 2) / (lam0 + μ)) ^ (j + n) * g) F) ∧
      (res.converged = true → 0 ≤ re + te ∧ len (errTwist T res.T) ≤ K * (1 + lam0) * (re + te) + F) := by
  have hρ : 0 ≤ (lam0 + μ / 2) / (lam0 + μ) := by positivity
  have hρ1 : (lam0 + μ / 2) / (lam0 + μ) ≤ 1 := by rw [div_le_one (by linarith)]; linarith
  induction h with
  | budget i lam r =>
    refine fun j _ hj hn hc hx => ⟨⟨j, by omega, hn⟩, (fun h => absurd h (lt_irrefl 0)), (fun _ => ?_), (fun h => by rw [hc] at h; cases h)⟩
    rcases hx with hx | hx
    · exact hx.2.trans (le_max_left _ _)
    · exact hx.trans (le_max_right _ _)
  | done n i lam r hc' => intro j _ _ _ hc; rw [hc] at hc'; cases hc'
  | stuck n i lam r p H b d _ hlin hd =>
    intro j hl hj hn hc hx
    obtain ⟨hp, hit⟩ := hI.iteration j r.T p H b (by omega) hn hlin
    refine ⟨⟨j, by omega, hn⟩, fun _ => hp, fun _ => ?_, fun h => by cases h⟩
    refine le_trans ?_ (le_max_right _ _)
    show len (errTwist T r.T) ≤ F
    rcases hx with hx | hx
    · by_contra hc
      have h0 := hd 0 hin
      rw [pow_zero, mul_one] at h0
      obtain ⟨_, _, _, _, _, c6⟩ := hit lam (d 0) hl h0.1
      exact absurd (c6 hx.1 (not_le.1 hc)) (not_le.2 h0.2)
    · exact hx
  | step n i lam r r' p H b k d _ hlin hk hd hdk hle hrun ih =>
    intro j hl hj hn hc hx
    obtain ⟨hp, hit⟩ := hI.iteration j r.T p H b (by omega) hn hlin
    have hfp : 0 < factor := by linarith
    have hlk : 0 ≤ lam * factor ^ k := by positivity
    obtain ⟨c1, c2, c3, c4, c5, _⟩ := hit _ (d k) hlk hdk
    -- above the floor the first trial is taken
    have hfirst : F < len (errTwist T r.T) → k = 0 ∧ lam ≤ lam0 ∧ len (errTwist T r.T) ≤ ((lam0 + μ / 2) / (lam0 + μ)) ^ j * g := by
      intro hFx
      rcases hx with hx | hx
      · refine ⟨?_, hx⟩
        by_contra hk0
        have h0 := hd 0 (Nat.pos_of_ne_zero hk0)
        rw [pow_zero, mul_one] at h0
        obtain ⟨_, _, _, _, _, c6⟩ := hit lam (d 0) hl h0.1
        exact absurd (c6 hx.1 hFx) (not_le.2 h0.2)
      · exact absurd hx (not_le.2 hFx)
    have hx' : lam * factor ^ k / factor ≤ lam0 ∧ len (errTwist T (r.T.mul (se3Exp (d k)))) ≤ ((lam0 + μ / 2) / (lam0 + μ)) ^ (j + 1) * g ∨ len (errTwist T (r.T.mul (se3Exp (d k)))) ≤ F := by
      rcases le_or_gt (len (errTwist T r.T)) F with hc | hc
      · exact Or.inr (c3 hc)
      · obtain ⟨rfl, h1, h2⟩ := hfirst hc
        refine Or.inl ⟨?_, ?_⟩
        · rw [pow_zero, mul_one]
          exact (div_le_self hl hfac).trans h1
        · have h3 := contract (lam0 := lam0) hμ hlk (by rw [pow_zero, mul_one]; exact h1) (len_nonneg _) (c4 hc.le)
          refine (h3.trans (mul_le_mul_of_nonneg_left h2 hρ)).trans (le_of_eq ?_)
          ring
    by_cases hs : SmallStep re te (d k)
    · have hcv : (open Classical in decide (SmallStep re te (d k))) = true := by simpa using hs
      generalize hr1 : (⟨r.T.mul (se3Exp (d k)), (open Classical in decide (SmallStep re te (d k))), i, paired p, H, b, totalCost m src p r.T (r.T.mul (se3Exp (d k)))⟩ : Result ℝ) = r1 at hrun
      have hr1c : r1.converged = true := by subst hr1; exact hcv
      have hstop : r' = r1 := by
        cases hrun with
        | budget => rfl
        | done => rfl
        | stuck _ _ _ _ _ _ _ _ hc' => rw [hr1c] at hc'; cases hc'
        | step _ _ _ _ _ _ _ _ _ _ hc' => rw [hr1c] at hc'; cases hc'
      subst hstop
      subst hr1
      refine ⟨⟨j + 1, by omega, c1⟩, fun _ => hp, fun h => ?_, fun _ => ?_⟩
      · rw [hr1c] at h; cases h
      · have hds := small_len hs
        have d0 := len_nonneg (d k)
        refine ⟨by linarith, ?_⟩
        have hk' : 0 ≤ K * (1 + lam0) := by positivity
        have h1 := mul_le_mul_of_nonneg_left hds hk'
        show len (errTwist T (r.T.mul (se3Exp (d k)))) ≤ _
        rcases le_or_gt (len (errTwist T r.T)) F with hc | hc
        · have h2 : 0 ≤ K * (1 + lam0) * (re + te) := mul_nonneg hk' (by linarith)
          linarith [c3 hc]
        · obtain ⟨rfl, g1, g2⟩ := hfirst hc
          rw [pow_zero, mul_one] at c4 c5
          have h1' := contract hμ hl g1 (len_nonneg _) (c4 hc.le)
          have h4 := mul_le_mul_of_nonneg_right hρ1 (len_nonneg (errTwist T r.T))
          have h5 : K * (1 + lam) * len (d 0) ≤ K * (1 + lam0) * len (d 0) := mul_le_mul_of_nonneg_right (mul_le_mul_of_nonneg_left (by linarith) hK.le) d0
          linarith
    · have hcv : (open Classical in decide (SmallStep re te (d k))) = false := by simpa using hs
      obtain ⟨a1, a2, a3, a4⟩ := ih (j + 1) (by positivity) (by omega) c1 hcv hx'
      refine ⟨a1, fun _ => ?_, fun h => ?_, a4⟩
      · rcases Nat.eq_zero_or_pos n with h0 | h0
        · subst h0
          cases hrun with
          | budget => exact hp
          | done => exact hp
        · exact a2 h0
      · have := a3 h
        rwa [show j + 1 + n = j + (n + 1) by omega] at this

end

section

variable {m : Metric} {tgt src : List Site} {T : Pose ℝ} (hobs : Observable m tgt src T) (h : Overlaps tgt src T) (ht : ∀ t ∈ tgt, LocalSite t) (hs : ∀ s ∈ src, LocalSite s)
  {gate : ℝ} (hg : 0 < gate)

theorem near_start {init : Pose ℝ} (hT : IsRotation T.R) (hi : IsRotation init.R) (δ : ℝ) : NearPose T (poseGap init T) δ 0 init :=
  ⟨by rw [pow_zero]; exact rotation_stretch hi, err_le_gap hT, by linarith [gap_nonneg init T]⟩

theorem recovered_numbers {K lam0 C1 ρ re te N F g x gap : ℝ} {n : Nat} (hg : 0 ≤ g) (hK : 0 < K) (hl : 0 ≤ lam0) (hC : 0 ≤ C1) (hNF : N ≤ F) (hF : F = C1 * g ^ 8)
    (hρ : 0 ≤ ρ) (hgap : gap ≤ 2 * x + 3 * N) :
    (x ≤ max (ρ ^ n * g) F → gap ≤ 2 * ρ ^ n * g + (2 * K * (1 + lam0) + 5 * C1 + K * (1 + 2 * C1)) * g ^ 8) ∧
    (0 ≤ re + te → x ≤ K * (1 + lam0) * (re + te) + F →
      gap ≤ (2 * K * (1 + lam0) + 5 * C1 + K * (1 + 2 * C1)) * (re + te) + (2 * K * (1 + lam0) + 5 * C1 + K * (1 + 2 * C1)) * g ^ 8) := by
  have g8 : 0 ≤ g ^ 8 := by positivity
  have F0 : 0 ≤ F := by rw [hF]; positivity
  have hA : 0 ≤ (2 * K * (1 + lam0) + K * (1 + 2 * C1)) * g ^ 8 := by positivity
  have hρn : 0 ≤ ρ ^ n * g := by positivity
  constructor
  · intro hx
    have h1 : max (ρ ^ n * g) F ≤ ρ ^ n * g + F := max_le (by linarith) (by linarith)
    have h2 : 5 * F = 5 * C1 * g ^ 8 := by rw [hF]; ring
    nlinarith
  · intro h0 hx
    have h2 : 5 * F = 5 * C1 * g ^ 8 := by rw [hF]; ring
    have hB : 0 ≤ (5 * C1 + K * (1 + 2 * C1)) * (re + te) := by positivity
    nlinarith

include hobs h ht hs hg

/-- C89. Two scans of the same points (every source point is brought onto a target point by the true pose `T`), with features as the library estimates them, whose pairs determine the pose, matched to
nearest points within any positive distance. There is a neighbourhood of `T` from which Gauss–Newton recovers it: the distance shrinks by a constant factor per iteration, down to a term of eighth
order in the initial distance; if the flag tells convergence, what is left is of the order of the bounds for a small step; and the flag does tell it after enough iterations. The constants depend on the
clouds, the gate and the damping only. -/
theorem C89_gauss_newton {lam : ℝ} (hl : 0 ≤ lam) : ∃ radius ρ C : ℝ, 0 < radius ∧ 0 ≤ ρ ∧ ρ < 1 ∧ 0 ≤ C ∧ ∀ (init : Pose ℝ), IsRotation init.R → poseGap init T ≤ radius →
    ∀ (re te : ℝ) (n : Nat) (res : Result ℝ), n ≤ 2 ^ 31 → GNRun m (NearestWithin tgt gate) src lam re te n 0 (Result.init init) res →
      Recovered T ρ C (poseGap init T) re te n src.length res ∧
      (0 < n → C * (ρ ^ (n - 1) * poseGap init T + poseGap init T ^ 8) ≤ min re te → res.converged = true) := by
  obtain ⟨μ, K, r, D, κ, hμ, hK, hr, hD, hκ, hiter⟩ := near_iteration hobs h ht hs hg hl
  have hC1 : 0 ≤ 2 ^ 32 * D ^ 8 / κ := by positivity
  generalize hC : 2 ^ 32 * D ^ 8 / κ = C1 at hC1
  have hρ : 0 ≤ (lam + μ / 2) / (lam + μ) := by positivity
  refine ⟨r, (lam + μ / 2) / (lam + μ), 2 * K * (1 + lam) + 5 * C1 + K * (1 + 2 * C1), hr, hρ, ?_, by positivity, fun init hi hgap re te n res hn hrun => ?_⟩
  · rw [div_lt_one (by linarith)]; linarith
  have hI := hiter (poseGap init T) (gap_nonneg _ _) hgap _ _ rfl rfl
  have hF : 2 ^ 32 * (D * poseGap init T) ^ 8 / κ = C1 * poseGap init T ^ 8 := by rw [← hC, mul_pow]; ring
  have hN0 : 0 ≤ 2 ^ 32 * (D * poseGap init T) ^ 8 := by positivity
  have g0 := gap_nonneg init T
  have hF0 : 0 ≤ 2 ^ 32 * (D * poseGap init T) ^ 8 / κ := by positivity
  generalize 2 ^ 32 * (D * poseGap init T) ^ 8 / κ = F at hI hF hF0
  generalize 2 ^ 32 * (D * poseGap init T) ^ 8 = N at hI hN0
  obtain ⟨⟨j, hj, a1⟩, a2, a3, a4, a5⟩ := gn_near hI hμ hK g0 hF0 hl hrun 0 (by omega) (near_start h.rigid hi _) rfl (by
    rw [pow_zero, one_mul]
    exact (err_le_gap h.rigid).trans (le_max_left _ _))
  rw [Nat.zero_add] at a3 a5
  have hgap' := hI.gap j res.T hj a1
  obtain ⟨b1, b2⟩ := recovered_numbers (n := n) (re := re) (te := te) g0 hK hl hC1 hI.drift hF hρ hgap'
  refine ⟨⟨a1.gap, a2, fun hc => b1 (a3 hc), fun hc => b2 (a4 hc).1 (a4 hc).2⟩, fun hn0 hmin => ?_⟩
  by_contra hc
  have hle : K * (max (((lam + μ / 2) / (lam + μ)) ^ (n - 1) * poseGap init T) F + N) ≤ min re te := by
    refine le_trans ?_ hmin
    have p0 : 0 ≤ ((lam + μ / 2) / (lam + μ)) ^ (n - 1) * poseGap init T := by positivity
    generalize ((lam + μ / 2) / (lam + μ)) ^ (n - 1) * poseGap init T = P at p0
    have g8 : 0 ≤ poseGap init T ^ 8 := by positivity
    have h1 : max P F ≤ P + F := max_le (by linarith) (by linarith)
    have h2 : K * (max P F + N) ≤ K * (P + 2 * F) := mul_le_mul_of_nonneg_left (by linarith [hI.drift]) hK.le
    refine h2.trans ?_
    rw [hF]
    have h3 : 0 ≤ (2 * K * (1 + lam) + 5 * C1) * (P + poseGap init T ^ 8) := by positivity
    have h4 : 0 ≤ K * (2 * C1 * P) := by positivity
    have h5 : 0 ≤ K * poseGap init T ^ 8 := by positivity
    nlinarith
  exact a5 (by simpa using hc) hn0 (hle.trans (min_le_left _ _)) (hle.trans (min_le_right _ _))

/-- C89. The same for Levenberg–Marquardt, for every initial damping, if the damping factor is at least 1 and a trial is allowed. -/
theorem C89_levenberg_marquardt {lam : ℝ} (hl : 0 ≤ lam) :
    ∃ radius ρ C : ℝ, 0 < radius ∧ 0 ≤ ρ ∧ ρ < 1 ∧ 0 ≤ C ∧ ∀ (init : Pose ℝ), IsRotation init.R → poseGap init T ≤ radius →
      ∀ (inner : Nat) (factor re te : ℝ) (n : Nat) (res : Result ℝ), 0 < inner → 1 ≤ factor → n ≤ 2 ^ 31 → LMRun m (NearestWithin tgt gate) src inner factor re te n 0 lam (Result.init init) res →
        Recovered T ρ C (poseGap init T) re te n src.length res := by
  obtain ⟨μ, K, r, D, κ, hμ, hK, hr, hD, hκ, hiter⟩ := near_iteration hobs h ht hs hg hl
  have hC1 : 0 ≤ 2 ^ 32 * D ^ 8 / κ := by positivity
  generalize hC : 2 ^ 32 * D ^ 8 / κ = C1 at hC1
  have hρ : 0 ≤ (lam + μ / 2) / (lam + μ) := by positivity
  refine ⟨r, (lam + μ / 2) / (lam + μ), 2 * K * (1 + lam) + 5 * C1 + K * (1 + 2 * C1), hr, hρ, ?_, by positivity, fun init hi hgap inner factor re te n res hin hfac hn hrun => ?_⟩
  · rw [div_lt_one (by linarith)]; linarith
  have hI := hiter (poseGap init T) (gap_nonneg _ _) hgap _ _ rfl rfl
  have hF : 2 ^ 32 * (D * poseGap init T) ^ 8 / κ = C1 * poseGap init T ^ 8 := by rw [← hC, mul_pow]; ring
  have g0 := gap_nonneg init T
  have hF0 : 0 ≤ 2 ^ 32 * (D * poseGap init T) ^ 8 / κ := by positivity
  generalize 2 ^ 32 * (D * poseGap init T) ^ 8 / κ = F at hI hF hF0
  generalize 2 ^ 32 * (D * poseGap init T) ^ 8 = N at hI
  obtain ⟨⟨j, hj, a1⟩, a2, a3, a4⟩ := lm_near hI hμ hK g0 hF0 hl hin hfac hrun 0 hl (by omega) (near_start h.rigid hi _) rfl (Or.inl ⟨le_rfl, by
    rw [pow_zero, one_mul]
    exact err_le_gap h.rigid⟩)
  rw [Nat.zero_add] at a3
  have hgap' := hI.gap j res.T hj a1
  obtain ⟨b1, b2⟩ := recovered_numbers (n := n) (re := re) (te := te) g0 hK hl hC1 hI.drift hF hρ hgap'
  exact ⟨a1.gap, a2, fun hc => b1 (a3 hc), fun hc => b2 (a4 hc).1 (a4 hc).2⟩

end

end Verif.Props
