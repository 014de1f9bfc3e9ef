import Verif.Props.ExpTranslation

/-!
C108: `se3_exp` on doubles, and how sharp the bounds are.
-/

set_option linter.unusedSectionVars false
set_option linter.unusedSimpArgs false
set_option linter.unnecessarySeqFocus false

namespace Verif.Props

open Matrix Verif Verif.Machine Verif.Spec Verif.Proofs Verif.Factors Verif.Lie NormedSpace

variable {V : Type} [LT V] [DecidableLT V] {o : Ops V} {c : TrigOps V} {finite : V → Prop} {val : V → ℝ} {u γ η ζ : ℝ}

/-- Doubles: the rotation errs by at most `6e-14`, the translation by at most `1.8e-8` of its length, and by at most `7e-13` of it above an angle of `2e-4`. -/
theorem C108_doubles (hc : TrigAccuracy o c finite val u γ η ζ) (he : ExpMapAccuracy o c finite val u) (hu : u ≤ 1 / 2 ^ 53) (hγ : γ ≤ 3 / 2 ^ 53) (hη : η ≤ 1 / 10 ^ 50) (a : Fin 6 → V)
    (hf : RotationFinite finite (se3Motion o c a)) (hft : ∀ i, finite ((se3Motion o c a).t i)) (hW4 : len (rot fun i => val (a i)) ≤ 4) :
    (∀ i j : Fin 3, |val ((se3Motion o c a).R i j) - exp (twistMatrix fun i => val (a i)) i.castSucc j.castSucc| ≤ 6 / 10 ^ 14) ∧
    (∀ i : Fin 3, |val ((se3Motion o c a).t i) - exp (twistMatrix fun i => val (a i)) i.castSucc 3| ≤ 18 / 10 ^ 9 * (|val (a 3)| + |val (a 4)| + |val (a 5)|) + 1 / 10 ^ 50) ∧
    (1 / 5000 ≤ len (rot fun i => val (a i)) → ∀ i : Fin 3,
      |val ((se3Motion o c a).t i) - exp (twistMatrix fun i => val (a i)) i.castSucc 3| ≤ 7 / 10 ^ 13 * (|val (a 3)| + |val (a 4)| + |val (a 5)|) + 1 / 10 ^ 50) := by
  have hη' : η ≤ (1 / 2 ^ 53 : ℝ) / 10 ^ 30 := hη.trans (by norm_num)
  have hε' : (1 / 2 ^ 53 : ℝ) ≤ 1 / 10 ^ 6 := by norm_num
  have hγ' : γ ≤ 3 * (1 / 2 ^ 53 : ℝ) := hγ.trans (by norm_num)
  have hS : 0 ≤ |val (a 3)| + |val (a 4)| + |val (a 5)| := by positivity
  refine ⟨fun i j => (C108_rotation hc hu hγ' hη' hε' (translationM o c) a hf hW4 i j).trans (by norm_num), fun i => ?_, fun hW i => ?_⟩
  · refine (C108_translation hc he hu hγ' hη' hε' a hf hft hW4 i).1.trans (add_le_add (mul_le_mul_of_nonneg_right ?_ hS) hη)
    have h1 : Real.sqrt (2 * (1 / 2 ^ 53)) = 1 / 2 ^ 26 := by
      rw [show (2 * (1 / 2 ^ 53) : ℝ) = (1 / 2 ^ 26) ^ 2 by norm_num]
      exact Real.sqrt_sq (by positivity)
    rw [h1]
    norm_num
  · refine ((C108_translation hc he hu hγ' hη' hε' a hf hft hW4 i).2 (le_trans (by norm_num) hW)).trans (add_le_add (mul_le_mul_of_nonneg_right ?_ hS) hη)
    have h1 : (1 / 2 ^ 53 : ℝ) / len (rot fun i => val (a i)) ≤ 1 / 2 ^ 53 * 5000 := by
      rw [div_le_iff₀ (by linarith)]
      have : (1 : ℝ) ≤ 5000 * len (rot fun i => val (a i)) := by linarith
      nlinarith
    have h2 : (1 / 2 ^ 53 * 5000 + 470 * (1 / 2 ^ 53) : ℝ) ≤ 7 / 10 ^ 13 := by norm_num
    linarith

/-! ### sharpness -/

theorem biased_exp_accuracy {u : ℝ} (h0 : 0 ≤ u) : ExpMapAccuracy (biasedOps u) realTrig NReal.finite NReal.val u where
  zero := rfl
  dot_nonneg := by
    rintro (_ | a) (_ | b) (_ | d) ⟨v, h⟩ <;> try cases h
    simp only [NReal.val, biasedOps, Option.bind_some, Option.getD_some]
    have := mul_self_nonneg a
    have := mul_self_nonneg b
    have := mul_self_nonneg d
    positivity
  sqrt_finite := by
    rintro _ ⟨x, rfl⟩ h
    have h' : ¬ x < 0 := not_lt.2 h
    exact ⟨Real.sqrt x, by simp only [realTrig, Option.bind_some, if_neg h']⟩
  neg := by
    rintro (_ | a) ⟨v, h⟩
    · cases h
    · exact ⟨⟨a, rfl⟩, rfl⟩
  mul_small := by
    rintro _ _ ⟨x, rfl⟩ ⟨y, rfl⟩ _
    exact ⟨_, rfl⟩
  sin := by
    rintro (_ | a) ⟨x, h⟩
    · cases h
    · simp only [NReal.val, realTrig, Option.map_some, Option.getD_some, sub_self, abs_zero]
      positivity
  cos := by
    rintro (_ | a) ⟨x, h⟩
    · cases h
    · simp only [NReal.val, realTrig, Option.map_some, Option.getD_some, sub_self, abs_zero]
      linarith [Real.cos_le_one a]

/-- Real numbers, with a cosine that is one where the true one is not further than `ε` from one. -/
noncomputable def coarseTrig (ε : ℝ) : TrigOps NReal := { realTrig with cos := fun a => Option.map (fun x => open Classical in if 1 - Real.cos x ≤ ε then 1 else Real.cos x) a }

theorem coarse_cos (ε x : ℝ) : |(open Classical in if 1 - Real.cos x ≤ ε then 1 else Real.cos x) - Real.cos x| ≤ 1 - Real.cos x ∧ (0 ≤ ε → |(open Classical in if 1 - Real.cos x ≤ ε then 1 else Real.cos x) - Real.cos x| ≤ ε) := by
  have h1 := Real.cos_le_one x
  split_ifs with h
  · rw [abs_of_nonneg (by linarith)]
    exact ⟨le_rfl, fun _ => h⟩
  · simp only [sub_self, abs_zero]
    exact ⟨by linarith, id⟩

theorem coarse_accuracy {ε : ℝ} (h0 : 0 ≤ ε) (h1 : ε ≤ 1 / 1000) : TrigAccuracy (biasedOps 0) (coarseTrig ε) NReal.finite NReal.val ε (3 * ε) 0 0 ∧ ExpMapAccuracy (biasedOps 0) (coarseTrig ε) NReal.finite NReal.val ε := by
  have b := biased_accuracy (u := 0) le_rfl (by norm_num)
  have e := biased_exp_accuracy (u := 0) le_rfl
  have wk : ∀ {x y : ℝ}, 0 ≤ y → x ≤ 0 * y → x ≤ ε * y := fun hy h => by
    rw [zero_mul] at h
    exact h.trans (mul_nonneg h0 hy)
  have wk0 : ∀ {x y : ℝ}, 0 ≤ y → x ≤ 0 * y + 0 → x ≤ ε * y + 0 := fun hy h => by
    rw [add_zero] at h ⊢
    exact wk hy h
  have wk1 : ∀ {x : ℝ}, x ≤ 0 → x ≤ ε := fun h => h.trans h0
  refine ⟨⟨h0, h1, by linarith, by linarith, le_rfl, by norm_num, by intro a _; simp, le_rfl, by norm_num, fun x y h => ?_, fun x y h => ?_, fun x y h => ?_, fun x y h => ?_, fun p q r x y z h => ?_, fun x h => ?_, fun x h => ?_, ?_, b.lt, rfl, rfl, rfl, ⟨b.small.1, ?_⟩,
      wk1 b.c48, wk1 b.c3840, wk1 b.c8, wk1 b.c384⟩, ⟨rfl, e.dot_nonneg, e.sqrt_finite, e.neg, e.mul_small, fun x h => wk (abs_nonneg _) (e.sin x h), ?_⟩⟩
  · exact ⟨(b.mul x y h).1, (b.mul x y h).2.1, wk0 (abs_nonneg _) (b.mul x y h).2.2⟩
  · exact ⟨(b.add x y h).1, (b.add x y h).2.1, wk (abs_nonneg _) (b.add x y h).2.2⟩
  · exact ⟨(b.sub x y h).1, (b.sub x y h).2.1, wk (abs_nonneg _) (b.sub x y h).2.2⟩
  · exact ⟨(b.div x y h).1, fun hy => ⟨((b.div x y h).2 hy).1, wk0 (abs_nonneg _) ((b.div x y h).2 hy).2⟩⟩
  · refine ⟨(b.dot p q r x y z h).1, (b.dot p q r x y z h).2.trans ?_⟩
    rw [zero_mul]
    exact add_le_add (by positivity) le_rfl
  · exact ⟨(b.sqrt x h).1, (b.sqrt x h).2.1, wk (Real.sqrt_nonneg _) (b.sqrt x h).2.2⟩
  · exact ⟨(b.sin x h).1, wk1 (b.sin x h).2⟩
  · rintro (_ | x) ⟨v, h⟩
    · cases h
    · exact ⟨⟨x, rfl⟩, (coarse_cos ε x).2 h0⟩
  · refine b.small.2.trans ?_
    rw [zero_div]
    positivity
  · rintro (_ | x) ⟨v, h⟩
    · cases h
    · have := (coarse_cos ε x).1
      have h2 := Real.cos_le_one x
      have h3 : 1 - Real.cos x ≤ 2 * (1 - Real.cos x) := by linarith
      exact this.trans h3

theorem nan_lt (x y : ℝ) : (@LT.lt NReal _ (some x) (some y)) ↔ x < y := by
  constructor
  · rintro ⟨x', y', hx, hy, h⟩
    cases hx; cases hy
    exact h
  · intro h
    exact ⟨x, y, rfl, rfl, h⟩

theorem coarse_quat {ε W : ℝ} (hW : 0 < W) : ∃ w x y z : ℝ, so3Exp (biasedOps 0) (coarseTrig ε) ![some W, some 0, some 0] = ⟨some w, some x, some y, some z⟩ := by
  have hd : (biasedOps 0).dot3 (some W) (some 0) (some 0) (some W) (some 0) (some 0) = (some (W ^ 2) : Option ℝ) := by
    simp only [biasedOps, Option.bind_some]
    exact congrArg some (by ring)
  by_cases hlt : @LT.lt NReal _ (some (W ^ 2)) (coarseTrig ε).small
  · have hlt' : @LT.lt NReal _ ((biasedOps 0).dot3 ((![some W, some 0, some 0] : Fin 3 → NReal) 0) ((![some W, some 0, some 0] : Fin 3 → NReal) 1) ((![some W, some 0, some 0] : Fin 3 → NReal) 2) ((![some W, some 0, some 0] : Fin 3 → NReal) 0)
        ((![some W, some 0, some 0] : Fin 3 → NReal) 1) ((![some W, some 0, some 0] : Fin 3 → NReal) 2)) (coarseTrig ε).small := by
      show @LT.lt NReal _ ((biasedOps 0).dot3 (some W) (some 0) (some 0) (some W) (some 0) (some 0)) _
      rw [hd]
      exact hlt
    unfold Machine.so3Exp
    simp only [if_pos hlt']
    exact ⟨_, _, _, _, rfl⟩
  · have hs : (coarseTrig ε).sqrt (some (W ^ 2)) = (some W : Option ℝ) := by
      simp only [coarseTrig, realTrig, Option.bind_some]
      rw [if_neg (not_lt.2 (sq_nonneg W)), Real.sqrt_sq hW.le]
    rw [so3_trig (biasedOps 0) (coarseTrig ε) ![some W, some 0, some 0] hd hlt, hs]
    simp only [biasedOps, coarseTrig, realTrig, Option.bind_some, Option.map_some, if_neg hW.ne']
    exact ⟨_, _, _, _, rfl⟩

set_option maxHeartbeats 1000000 in
theorem coarse_loss {ε : ℝ} (h0 : 1 / 10 ^ 19 ≤ ε) (h1 : ε ≤ 1 / 10 ^ 6) :
    ∃ a : Fin 6 → NReal, TrigAccuracy (biasedOps 0) (coarseTrig ε) NReal.finite NReal.val ε (3 * ε) 0 0 ∧ ExpMapAccuracy (biasedOps 0) (coarseTrig ε) NReal.finite NReal.val ε ∧ RotationFinite NReal.finite (se3Motion (biasedOps 0) (coarseTrig ε) a) ∧
      (∀ i, NReal.finite ((se3Motion (biasedOps 0) (coarseTrig ε) a).t i)) ∧ len (rot fun i => NReal.val (a i)) ≤ 4 ∧ |NReal.val (a 3)| + |NReal.val (a 4)| + |NReal.val (a 5)| = 1 ∧
      49 / 100 * Real.sqrt (2 * ε) ≤ |NReal.val ((se3Motion (biasedOps 0) (coarseTrig ε) a).t 2) - exp (twistMatrix fun i => NReal.val (a i)) (Fin.castSucc 2) 3| := by
  have hε0 : 0 < ε := lt_of_lt_of_le (by norm_num) h0
  set W := Real.sqrt (2 * ε) with hWd
  have hW : 0 < W := Real.sqrt_pos.2 (by linarith)
  have hWsq : W ^ 2 = 2 * ε := Real.sq_sqrt (by linarith)
  have hW1 : W ≤ 1 / 100 := by
    have h2 : W ^ 2 ≤ (1 / 100) ^ 2 := by rw [hWsq]; linarith
    exact (abs_le_of_sq_le_sq' h2 (by norm_num)).2
  have hW2 : 1 / 10 ^ 10 ≤ W := by
    have h2 : (1 / 10 ^ 10 : ℝ) ^ 2 ≤ W ^ 2 := by rw [hWsq]; linarith
    exact (abs_le_of_sq_le_sq' h2 hW.le).2
  set a : Fin 6 → NReal := ![some W, some 0, some 0, some 0, some 1, some 0] with ha
  obtain ⟨w, x, y, z, hq⟩ := coarse_quat (ε := ε) hW
  have hd : (biasedOps 0).dot3 (some W) (some 0) (some 0) (some W) (some 0) (some 0) = (some (W ^ 2) : Option ℝ) := by
    simp only [biasedOps, Option.bind_some]
    exact congrArg some (by ring)
  have hs : (coarseTrig ε).sqrt (some (W ^ 2)) = (some W : Option ℝ) := by
    simp only [coarseTrig, realTrig, Option.bind_some]
    rw [if_neg (not_lt.2 (sq_nonneg W)), Real.sqrt_sq hW.le]
  have hcos : (coarseTrig ε).cos (some W) = (some 1 : Option ℝ) := by
    have h2 : 1 - Real.cos W ≤ ε := (abs_one_sub_cos W).2.trans (by linarith)
    simp only [coarseTrig, Option.map_some, if_pos h2]
  have hnlt : ¬ @LT.lt NReal _ ((coarseTrig ε).sqrt (some (W ^ 2))) (coarseTrig ε).small := by
    rw [hs]
    intro h
    have := (nan_lt W (1 / 10 ^ 10)).1 h
    linarith
  have ht : ∀ i, (se3Motion (biasedOps 0) (coarseTrig ε) a).t i = some (if i = 1 then 1 - (W - Real.sin W) / (W ^ 2 * W) * W * W else 0) := by
    intro i
    show translationM (biasedOps 0) (coarseTrig ε) a i = _
    rw [translationM_large (biasedOps 0) (coarseTrig ε) a (T := some (W ^ 2)) hd.symm hnlt i, hs]
    have e0 : a 0 = some W := rfl
    have e1 : a 1 = some 0 := rfl
    have e2 : a 2 = some 0 := rfl
    have e3 : a 3 = some 0 := rfl
    have e4 : a 4 = some 1 := rfl
    have e5 : a 5 = some 0 := rfl
    rw [e0, e1, e2, e3, e4, e5]
    have hW2' : W ^ 2 ≠ 0 := by positivity
    have hW3' : W ^ 2 * W * (1 + 0) ≠ 0 := by positivity
    have hn : (coarseTrig ε).neg = fun a => Option.map (fun x => -x) a := rfl
    have hsn : (coarseTrig ε).sin = fun a => Option.map Real.sin a := rfl
    have hone : (coarseTrig ε).one = some 1 := rfl
    fin_cases i <;> simp [jacobianM, skewM, hcos, hn, hsn, hone, biasedOps, hW2', hW3', hW.ne'] <;> ring
  have hlen : len (rot fun i => NReal.val (a i)) = W := by
    have : (rot fun i => NReal.val (a i)) = ![W, 0, 0] := by
      funext i
      fin_cases i <;> rfl
    rw [this]
    simp [len, Real.sqrt_mul_self hW.le]
  refine ⟨a, (coarse_accuracy hε0.le (by linarith)).1, (coarse_accuracy hε0.le (by linarith)).2, ?_, fun i => ⟨_, ht i⟩, by rw [hlen]; linarith, by simp [a, NReal.val], ?_⟩
  · intro i j
    show NReal.finite (toRotation (biasedOps 0) (coarseTrig ε) (so3Exp (biasedOps 0) (coarseTrig ε) ![some W, some 0, some 0]) i j)
    rw [hq]
    fin_cases i <;> fin_cases j <;> exact ⟨_, rfl⟩
  · rw [ht 2]
    have hk : Real.sin (W / 2) / W * len (rot fun i => NReal.val (a i)) = Real.sin (len (rot fun i => NReal.val (a i)) / 2) := by
      rw [hlen]
      field_simp
    rw [(exp_entries _ hk 2 0).2, hlen]
    have hr : (rot fun i => NReal.val (a i)) = ![W, 0, 0] := by
      funext i
      fin_cases i <;> rfl
    have htr : (tra fun i => NReal.val (a i)) = ![0, 1, 0] := by
      funext i
      fin_cases i <;> rfl
    rw [hr, htr]
    have hv : ((1 + ((1 - Real.cos W) / W ^ 2) • skew ![W, 0, 0] + ((W - Real.sin W) / W ^ 3) • (skew ![W, 0, 0] * skew ![W, 0, 0])) *ᵥ ![0, 1, 0]) 2 = (1 - Real.cos W) / W := by
      simp [mulVec, dotProduct, Fin.sum_univ_three, skew, Matrix.mul_apply]
      field_simp
    rw [hv]
    have h3 := Real.cos_bound (x := W) (by rw [abs_of_pos hW]; linarith)
    rw [abs_of_pos hW] at h3
    have h4 := (abs_le.1 h3).2
    have h5 : 49 / 100 * W ≤ (1 - Real.cos W) / W := by
      rw [le_div_iff₀ hW]
      have h6 : W ^ 4 ≤ (1 / 100) ^ 2 * W ^ 2 := by
        have := mul_le_mul_of_nonneg_right (pow_le_pow_left₀ hW.le hW1 2) (sq_nonneg W)
        nlinarith
      have h7 : 0 ≤ W ^ 2 := sq_nonneg W
      nlinarith
    refine h5.trans ?_
    simp only [NReal.val, Option.getD_some]
    rw [abs_sub_comm]
    refine le_trans ?_ (le_abs_self _)
    simp

/-- The root of `ε` in `C108_translation` is not an artefact: with a cosine rounded to one the term `(1 - cos θ) / θ²` is lost, and with it almost half of `√(2ε)` of the translation. -/
theorem C108_translation_sharp {ε : ℝ} (h0 : 1 / 10 ^ 19 ≤ ε) (h1 : ε ≤ 1 / 10 ^ 6) :
    ∃ (o : Ops NReal) (c : TrigOps NReal) (a : Fin 6 → NReal), TrigAccuracy o c NReal.finite NReal.val ε (3 * ε) 0 0 ∧ ExpMapAccuracy o c NReal.finite NReal.val ε ∧ RotationFinite NReal.finite (se3Motion o c a) ∧
      (∀ i, NReal.finite ((se3Motion o c a).t i)) ∧ len (rot fun i => NReal.val (a i)) ≤ 4 ∧ |NReal.val (a 3)| + |NReal.val (a 4)| + |NReal.val (a 5)| = 1 ∧
      49 / 100 * Real.sqrt (2 * ε) ≤ |NReal.val ((se3Motion o c a).t 2) - exp (twistMatrix fun i => NReal.val (a i)) (Fin.castSucc 2) 3| :=
  ⟨biasedOps 0, coarseTrig ε, coarse_loss h0 h1⟩

/-- The hypotheses of `C108_rotation`, `C108_translation` and `C108_doubles` can be met, with errors. -/
example : ∃ (o : Ops NReal) (c : TrigOps NReal) (a : Fin 6 → NReal), TrigAccuracy o c NReal.finite NReal.val (1 / 2 ^ 53) (3 * (1 / 2 ^ 53)) 0 0 ∧ ExpMapAccuracy o c NReal.finite NReal.val (1 / 2 ^ 53) ∧ RotationFinite NReal.finite (se3Motion o c a) ∧
    (∀ i, NReal.finite ((se3Motion o c a).t i)) ∧ len (rot fun i => NReal.val (a i)) ≤ 4 ∧ (7 / 10 ^ 9 : ℝ) ≤ |NReal.val ((se3Motion o c a).t 2) - exp (twistMatrix fun i => NReal.val (a i)) (Fin.castSucc 2) 3| := by
  obtain ⟨o, c, a, h1, h2, h3, h4, h5, _, h7⟩ := C108_translation_sharp (ε := 1 / 2 ^ 53) (by norm_num) (by norm_num)
  refine ⟨o, c, a, h1, h2, h3, h4, h5, le_trans ?_ h7⟩
  have h1 : Real.sqrt (2 * (1 / 2 ^ 53)) = 1 / 2 ^ 26 := by
    rw [show (2 * (1 / 2 ^ 53) : ℝ) = (1 / 2 ^ 26) ^ 2 by norm_num]
    exact Real.sqrt_sq (by positivity)
  rw [h1]
  norm_num

end Verif.Props
