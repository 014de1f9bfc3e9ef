import Verif.Props.IcpRounding
import Verif.Props.RegistrationAnyArith
import Verif.Proofs.NthInstance

/-!
C99 for a particular arithmetic: numbers with `p + 1` binary digits and any exponent, results cut off, expressions evaluated from left to right.
-/

set_option linter.unusedSectionVars false
set_option linter.unusedSimpArgs false
set_option linter.unnecessarySeqFocus false

namespace Verif.Props

open Matrix Verif Verif.Knn Verif.KdTree Verif.Proofs Verif.Factors Verif.Reduction Verif.PointCloud Verif.RegMem Verif.Spec

/-! ### Cutting off -/

theorem cutPos_mono (p : ℕ) {x y : ℝ} (hx : 0 < x) (hxy : x ≤ y) : cutPos p x ≤ cutPos p y := by
  have hy : 0 < y := lt_of_lt_of_le hx hxy
  rcases eq_or_lt_of_le (Int.log_mono_right (b := 2) hx hxy) with h | h
  · unfold cutPos
    rw [h]
    have hq : (0 : ℝ) < 2 ^ (Int.log 2 y - p) := zpow_pos (by norm_num) _
    refine mul_le_mul_of_nonneg_right ?_ hq.le
    exact_mod_cast Int.floor_le_floor (div_le_div_of_nonneg_right hxy hq.le)
  · have h1 := (cutPos_bounds p hx).2.1
    have h2 := (cutPos_bounds p hy).1
    have h3 : x < 2 ^ (Int.log 2 x + 1) := by exact_mod_cast Int.lt_zpow_succ_log_self (R := ℝ) (b := 2) (by norm_num) x
    have h4 : (2 : ℝ) ^ (Int.log 2 x + 1) ≤ 2 ^ Int.log 2 y := zpow_le_zpow_right₀ (by norm_num) (by omega)
    linarith

theorem cutOff_nonneg (p : ℕ) {x : ℝ} (hx : 0 ≤ x) : 0 ≤ cutOff p x := by
  rcases hx.eq_or_lt with rfl | h
  · rw [cutOff_zero]
  · unfold cutOff
    rw [if_pos h.le]
    exact (cutPos_idem p h).1.le

theorem cutOff_neg (p : ℕ) (x : ℝ) : cutOff p (-x) = -cutOff p x := by
  rcases lt_trichotomy x 0 with h | rfl | h
  · unfold cutOff
    rw [if_pos (by linarith), if_neg (not_le.2 h), neg_neg]
  · simp [cutOff_zero]
  · unfold cutOff
    rw [if_neg (by linarith), if_pos h.le, neg_neg]

theorem cutOff_rounding (p : ℕ) : Rounding (cutOff p) := by
  refine ⟨?_, cutOff_neg p, cutOff_idem p⟩
  intro x y hxy
  rcases lt_trichotomy x 0 with h | rfl | h
  · rcases le_or_gt 0 y with h' | h'
    · have h1 := cutOff_nonneg p h'
      have h2 := cutOff_nonneg p (show 0 ≤ -x by linarith)
      rw [cutOff_neg] at h2
      linarith
    · have := cutPos_mono p (show 0 < -y by linarith) (show -y ≤ -x by linarith)
      unfold cutOff
      rw [if_neg (not_le.2 h), if_neg (not_le.2 h')]
      linarith
  · rw [cutOff_zero]
    exact cutOff_nonneg p hxy
  · unfold cutOff
    rw [if_pos h.le, if_pos (by linarith)]
    exact cutPos_mono p h hxy

theorem cutOff_half (p : ℕ) (x : ℝ) : cutOff p (x / 2) = cutOff p x / 2 := by
  have key : ∀ x : ℝ, 0 < x → cutPos p (x / 2) = cutPos p x / 2 := by
    intro x hx
    have hlog : Int.log 2 (x / 2) = Int.log 2 x - 1 := by
      have h1 : (2 : ℝ) ^ Int.log 2 x ≤ x := by exact_mod_cast Int.zpow_log_le_self (R := ℝ) (b := 2) (by norm_num) hx
      have h2 : x < 2 ^ (Int.log 2 x + 1) := by exact_mod_cast Int.lt_zpow_succ_log_self (R := ℝ) (b := 2) (by norm_num) x
      have hx2 : 0 < x / 2 := by linarith
      apply le_antisymm
      · have : Int.log 2 (x / 2) < Int.log 2 x := by
          rw [← Int.lt_zpow_iff_log_lt (R := ℝ) (b := 2) (by norm_num) hx2]
          push_cast
          rw [zpow_add₀ (by norm_num), zpow_one] at h2
          linarith
        omega
      · rw [← Int.zpow_le_iff_le_log (R := ℝ) (b := 2) (by norm_num) hx2]
        push_cast
        rw [zpow_sub₀ (by norm_num), zpow_one]
        linarith
    unfold cutPos
    rw [hlog]
    have e : (2 : ℝ) ^ (Int.log 2 x - 1 - p) = 2 ^ (Int.log 2 x - p) / 2 := by
      rw [show Int.log 2 x - 1 - (p : ℤ) = Int.log 2 x - p - 1 by ring, zpow_sub₀ (by norm_num), zpow_one]
    rw [e, div_div_div_cancel_right₀ (by norm_num)]
    ring
  rcases lt_trichotomy x 0 with h | rfl | h
  · unfold cutOff
    rw [if_neg (by linarith), if_neg (by linarith), show -(x / 2) = -x / 2 by ring, key (-x) (by linarith)]
    ring
  · simp [cutOff_zero]
  · unfold cutOff
    rw [if_pos (by linarith), if_pos h.le, key x h]

/-! ### Numbers -/

section Digits

variable {p : ℕ}

noncomputable instance : LinearOrder (Digits p) := inferInstanceAs (LinearOrder { x : ℝ // cutOff p x = x })

noncomputable instance : Sub (Digits p) := ⟨fun a b => ⟨cutOff p (a.1 - b.1), cutOff_idem p _⟩⟩

noncomputable instance : Mul (Digits p) := ⟨fun a b => ⟨cutOff p (a.1 * b.1), cutOff_idem p _⟩⟩

noncomputable instance : Div (Digits p) := ⟨fun a b => ⟨cutOff p (a.1 / b.1), cutOff_idem p _⟩⟩

/-- The exact value. -/
def Digits.val (a : Digits p) : ℝ := a.1

/-- Sum of four products from left to right. -/
noncomputable def Digits.dot (a b : Fin 4 → Digits p) : Digits p := a 0 * b 0 + a 1 * b 1 + a 2 * b 2 + a 3 * b 3

/-- The expressions of point-to-point ICP evaluated with these numbers; all others as in `E0`. -/
noncomputable def digitsEval {H B M : Type} (E0 : Machine.Eval (Digits p) (Pose (Digits p)) H B M) : Machine.Eval (Digits p) (Pose (Digits p)) H B M :=
  { E0 with
    ops := ⟨0, (· + ·), (· - ·), (· * ·), (· / ·), fun a b c d => a * a + b * b + c * c + d * d, fun a b c x y z => a * x + b * y + c * z⟩
    half := fun a => ⟨a.1 / 2, by rw [cutOff_half, a.2]⟩
    apply := fun T v => ![Digits.dot ![T.R 0 0, T.R 0 1, T.R 0 2, T.t 0] v, Digits.dot ![T.R 1 0, T.R 1 1, T.R 1 2, T.t 1] v, Digits.dot ![T.R 2 0, T.R 2 1, T.R 2 2, T.t 2] v, v 3]
    sqNorm := fun r => Digits.dot r r }

/-- The exact value of a pose. -/
def digitsPose (T : Pose (Digits p)) : Pose ℝ := ⟨fun i j => (T.R i j).val, fun i => (T.t i).val⟩

/-- One more addition. -/
theorem add_error {rnd : ℝ → ℝ} {u : ℝ} (hu : 0 ≤ u) (hr : ∀ x, |rnd x - x| ≤ u * |x|) {a b A B S S' e : ℝ} (_he : 0 ≤ e) (ha : |a - A| ≤ e * S) (hb : |b - B| ≤ e * S') (hA : |A| ≤ S) (hB : |B| ≤ S') :
    |rnd (a + b) - (A + B)| ≤ ((1 + u) * (1 + e) - 1) * (S + S') ∧ |A + B| ≤ S + S' := by
  refine ⟨?_, (abs_add_le _ _).trans (add_le_add hA hB)⟩
  have h1 := hr (a + b)
  have ha' : |a| ≤ (1 + e) * S := by
    have : |a| ≤ |a - A| + |A| := by simpa using abs_add_le (a - A) A
    linarith
  have hb' : |b| ≤ (1 + e) * S' := by
    have : |b| ≤ |b - B| + |B| := by simpa using abs_add_le (b - B) B
    linarith
  have h2 : |a + b| ≤ (1 + e) * (S + S') := (abs_add_le _ _).trans (by linarith)
  have h3 := mul_le_mul_of_nonneg_left h2 hu
  have tri : |rnd (a + b) - (A + B)| ≤ |rnd (a + b) - (a + b)| + |a - A| + |b - B| := by
    have e : rnd (a + b) - (A + B) = (rnd (a + b) - (a + b)) + (a - A) + (b - B) := by ring
    rw [e]
    exact abs_add_three _ _ _
  nlinarith

/-- Error of a sum of four products, for at least four digits. -/
theorem dot_error (hp : 3 ≤ p) (a b : Fin 4 → Digits p) : |(Digits.dot a b).val - ∑ k, (a k).val * (b k).val| ≤ 5 * (1 / 2 ^ p) * ∑ k, |(a k).val| * |(b k).val| := by
  set u : ℝ := 1 / 2 ^ p with hudef
  have hu : 0 ≤ u := by positivity
  have hu8 : u ≤ 1 / 8 := by
    rw [hudef]
    have : (8 : ℝ) ≤ 2 ^ p := by
      calc (8 : ℝ) = 2 ^ 3 := by norm_num
        _ ≤ 2 ^ p := pow_le_pow_right₀ (by norm_num) hp
    exact one_div_le_one_div_of_le (by norm_num) this
  have hr : ∀ x, |cutOff p x - x| ≤ u * |x| := cutOff_rel p
  have hm : ∀ k, |(a k * b k).val - (a k).val * (b k).val| ≤ u * (|(a k).val| * |(b k).val|) ∧ |(a k).val * (b k).val| ≤ |(a k).val| * |(b k).val| := fun k => by
    refine ⟨?_, le_of_eq (abs_mul _ _)⟩
    rw [← abs_mul]
    exact hr _
  have up : ∀ {e e' x y S : ℝ}, e ≤ e' → |y| ≤ S → |x - y| ≤ e * S → |x - y| ≤ e' * S := fun h hy hx => hx.trans (mul_le_mul_of_nonneg_right h ((abs_nonneg _).trans hy))
  obtain ⟨h1, g1⟩ := add_error hu hr hu (hm 0).1 (hm 1).1 (hm 0).2 (hm 1).2
  have e1 : 0 ≤ (1 + u) * (1 + u) - 1 := by nlinarith
  obtain ⟨h2, g2⟩ := add_error hu hr e1 h1 (up (by nlinarith) (hm 2).2 (hm 2).1) g1 (hm 2).2
  have e2 : 0 ≤ (1 + u) * (1 + ((1 + u) * (1 + u) - 1)) - 1 := by nlinarith [mul_nonneg hu e1]
  obtain ⟨h3, g3⟩ := add_error hu hr e2 h2 (up (by nlinarith [mul_nonneg hu e1]) (hm 3).2 (hm 3).1) g2 (hm 3).2
  rw [Fin.sum_univ_four, Fin.sum_univ_four]
  refine h3.trans (mul_le_mul_of_nonneg_right ?_ (by positivity))
  nlinarith [mul_nonneg hu hu, mul_nonneg (mul_nonneg hu hu) hu, mul_nonneg hu (sub_nonneg.2 hu8), mul_nonneg (mul_nonneg hu hu) (sub_nonneg.2 hu8), mul_nonneg (mul_nonneg (mul_nonneg hu hu) hu) (sub_nonneg.2 hu8)]

variable {H B M : Type} (E0 : Machine.Eval (Digits p) (Pose (Digits p)) H B M)

theorem digits_arith (big : ℝ) : FiniteArith (digitsEval E0) Digits.val (cutOff p) (1 / 2 ^ p) big := by
  have h := cutOff_rounding p
  have hs := sqNorm_sequential h
  exact ⟨by positivity, h, fun _ _ => Iff.rfl, rfl, fun a => a.2, fun _ _ => rfl, fun _ _ => rfl, rfl, fun _ _ => rfl, fun _ _ => rfl, fun _ _ _ => cutOff_rel p _, fun _ _ _ => cutOff_rel p _,
    fun a b c d => hs.a a.1 b.1 c.1 d.1, fun a b c d => hs.b a.1 b.1 c.1 d.1, fun a b c d => hs.c a.1 b.1 c.1 d.1⟩

theorem digits_accuracy (hp : 3 ≤ p) {Z : ℝ} (hZ : 0 ≤ Z) : IcpAccuracy (digitsEval E0) Digits.val digitsPose (5 * (1 / 2 ^ p)) 0 Z := by
  have hsq : ∀ r : Fin 4 → Digits p, |(Digits.dot r r).val - ∑ j, (r j).val ^ 2| ≤ 5 * (1 / 2 ^ p) * ∑ j, (r j).val ^ 2 + 0 := by
    intro r
    have := dot_error hp r r
    simp only [← sq, sq_abs] at this
    linarith
  refine ⟨by positivity, le_refl _, ?_, fun r _ => hsq r, ?_, ?_⟩
  · intro T v hv j
    have hj := hv j
    have row : ∀ a : Fin 4 → Digits p, (∀ k, (digitsPose T).matrix j k = (a k).val) →
        |(Digits.dot a v).val - (digitsPose T).apply (vals Digits.val v) j| ≤ 5 * (1 / 2 ^ p) * Z := by
      intro a ha
      have h1 := dot_error hp a v
      simp only [Pose.apply, Matrix.mulVec, dotProduct, ha, vals] at hj ⊢
      exact h1.trans (mul_le_mul_of_nonneg_left hj (by positivity))
    fin_cases j
    · exact row ![T.R 0 0, T.R 0 1, T.R 0 2, T.t 0] (fun k => by fin_cases k <;> rfl)
    · exact row ![T.R 1 0, T.R 1 1, T.R 1 2, T.t 1] (fun k => by fin_cases k <;> rfl)
    · exact row ![T.R 2 0, T.R 2 1, T.R 2 2, T.t 2] (fun k => by fin_cases k <;> rfl)
    · have e : (digitsPose T).apply (vals Digits.val v) 3 = (v 3).val := by
        simp [Pose.apply, Pose.matrix, Matrix.mulVec, dotProduct, Fin.sum_univ_four, vals]
      have e' : ((digitsEval E0).apply T v 3).val = (v 3).val := rfl
      show |((digitsEval E0).apply T v 3).val - (digitsPose T).apply (vals Digits.val v) 3| ≤ _
      rw [e, e', sub_self, abs_zero]
      positivity
  · intro r _
    have h2 := hsq r
    exact h2
  · intro x
    show |x.1 / 2 - x.1 / 2| ≤ 0
    simp

end Digits

/-- Poses of a run of Levenberg-Marquardt stay in every set that the steps do not leave. -/
theorem linked_poses {F V P H B D : Type} {Good : P → Prop} : ∀ {T0 T : P} {log : List (Machine.Iteration F V P H B D)}, Good T0 → Linked T0 log T → (∀ it ∈ log, Good it.T0 → Good it.T1) →
    ∀ it ∈ log, Good it.T0 ∧ Good it.T1
  | _, _, [], _, _, _ => by simp
  | T0, T, it :: rest, h0, hl, hs => by
    have h1 : Good it.T0 := by rw [hl.1]; exact h0
    have h2 := hs it (by simp) h1
    intro it' hit'
    rcases List.mem_cons.1 hit' with rfl | hm
    · exact ⟨h1, h2⟩
    · exact linked_poses h2 hl.2 (fun it'' h => hs it'' (List.mem_cons_of_mem _ h)) it' hm

/-- C99 with `p + 1` binary digits: construction of the kd-tree and registration succeed, and the result has a truncated cost of at most the initial one, up to the stated errors. The absolute one goes with
the square of `8 Z / 2 ^ p`. `Good` is any set of poses within reach that the steps do not leave. -/
theorem C99_digits {p : ℕ} (hp : 3 ≤ p) {H B M D : Type} [Zero H] [Add H] [Zero B] [Add B] (E0 : Machine.Eval (Digits p) (Pose (Digits p)) H B M) {Z ε : ℝ} (hZ : 0 ≤ Z) (hε : 0 < ε) (hε' : ε ≤ 1 / 16)
    {tp sp : List (Fin 4 → Digits p)} (hu : 15 / 2 ^ p ≤ ε) (hsum : (1 + 1 / 2 ^ p) ^ (sp.length + 1) - 1 ≤ ε)
    {target source : Cloud (Fin 4 → Digits p) M} (ht : target.points = tp.map some) (hs : source.points = sp.map some) (hne : tp ≠ []) (hN : tp.length < 2 ^ 32) (hnear : ∀ q ∈ tp, ∀ j, |(q j).val| ≤ Z)
    (gate : Digits p) (hgate : 0 ≤ gate.val) (maxD : Digits p) (hmax : 17 * Z ^ 2 + 48 * (8 / 2 ^ p * Z) ^ 2 / ε < maxD.val) (junk : Nat × Digits p)
    (cfg : Machine.Config (Digits p) (Pose (Digits p)) H B D) (hrej : cfg.rejector = Machine.distanceRejector gate) (hU : ∀ T s, (cfg.updateLinearized T s).2.2 = s.2.2) (hU' : ∀ T e, cfg.updateError T e = e)
    (execL execE : Pose (Digits p) → List ICP → Exec) (hexL : ∀ T fs, (execL T fs).Complete fs.length) (hexE : ∀ T fs, (execE T fs).Complete fs.length)
    (st : Machine.LMSetting (Digits p)) (T0 : Pose (Digits p)) (Good : Pose (Digits p) → Prop) (hG0 : Good T0) (hG : ∀ T d, Good T → Good (cfg.step T d))
    (hreach : ∀ T, Good T → ∀ x ∈ sp, Reach Digits.val (digitsPose T) Z x) {fuel : Nat} (hfuel : tp.length < fuel) :
    ∃ points t r fs log, Machine.cloudPoints target = .ok points ∧ KdTree.construct (digitsEval E0).ops ⟨20, findAxis (digitsEval E0).ops 128, fun l _ => isort l⟩ fuel points = .ok t ∧
      Machine.align (Machine.icpFactor (digitsEval E0)) (Machine.cloudWorld target source (Machine.kdNearest (digitsEval E0) maxD points t fuel junk)) cfg execL execE (.lm st) T0 source.size = .ok (r, fs, log) ∧
      truncatedCost (tp.map (vals Digits.val)) (sp.map (vals Digits.val)) gate.val (digitsPose r.T) ≤
        (1 + 10 * ε) ^ log.length *
          (truncatedCost (tp.map (vals Digits.val)) (sp.map (vals Digits.val)) gate.val (digitsPose T0) + log.length * (8 * sp.length * (24 * (8 / 2 ^ p * Z) ^ 2 / ε))) := by
  have hsl : icpSlack (5 * (1 / 2 ^ p)) (1 / 2 ^ p) 0 Z ε = 24 * (8 / 2 ^ p * Z) ^ 2 / ε := by unfold icpSlack; ring
  obtain ⟨big, hb1, hb2⟩ : ∃ big : ℝ, 3 * Z ≤ big ∧ (1 + 1 / 2 ^ p) ^ sp.length * (sp.length * (9 * Z ^ 2 + icpSlack (5 * (1 / 2 ^ p)) (1 / 2 ^ p) 0 Z ε)) ≤ big := ⟨max _ _, le_max_left _ _, le_max_right _ _⟩
  have hin : IcpInputs (digitsEval E0) Digits.val digitsPose (cutOff p) (1 / 2 ^ p) big (5 * (1 / 2 ^ p)) 0 Z ε tp sp target source gate :=
    ⟨digits_arith E0 big, digits_accuracy E0 hp hZ, hZ, hb1, hε, hε', by
      have : 5 * (1 / 2 ^ p : ℝ) = 15 / 2 ^ p / 3 := by ring
      rw [this]
      linarith, hsum, hb2, ht, hs, hN, hnear, hgate⟩
  have hset : ∀ {c : Cloud (Fin 4 → Digits p) M} {l : List (Fin 4 → Digits p)}, c.points = l.map some → PointsSet c := by
    intro c l h i hi
    have hi' : i < l.length := by simpa [Cloud.size, h] using hi
    exact ⟨l[i], by rw [h]; simp [hi']⟩
  have htl : target.size = tp.length := by simp [Cloud.size, ht]
  have hleaf : SafeLeafSize 20 := by unfold SafeLeafSize toU64; decide
  have hfind := findAxis_spec (digitsEval E0).ops 128 (by unfold toU64; decide)
  obtain ⟨points, t, h1, h2, h3⟩ := C100_no_fault (D := D) (E := digitsEval E0) .icp (target := target) (source := source)
    ⟨hset ht, hset hs, (by intro h; cases h), (by intro h; cases h), (by intro h; cases h)⟩ (by rw [htl]; exact List.length_pos_iff.2 hne) (by rw [htl]; exact hN)
    ⟨20, findAxis (digitsEval E0).ops 128, fun l _ => isort l⟩ isort_nthElementSpec.perm (fun pts range a b => by obtain ⟨q, hq, -⟩ := hfind pts range a b; exact ⟨q, hq, trivial⟩)
    hleaf (fuelB := fuel) (fuel := fuel) (by omega) (by omega)
  obtain ⟨r, fs, log, h4, -⟩ := h3 maxD junk cfg execL execE hexL hexE (.lm st) T0
  have hpl : points.length = tp.length := by
    obtain ⟨pts, e1, e2⟩ := machine_cloudPoints target (hset ht)
    rw [h1] at e1
    rw [Except.ok.inj e1, e2]
    exact htl
  obtain ⟨hd, hit⟩ := C97_levenberg_marquardt _ (show ∀ T e, (Machine.problem (Machine.icpFactor (digitsEval E0)) (Machine.cloudWorld target source
    (Machine.kdNearest (digitsEval E0) maxD points t fuel junk)) cfg execL execE).updateError T e = e from hU') st T0 _ h4
  have hposes := linked_poses (Good := Good) hG0 hd.linked (fun it hm hT => by
    rcases hst : it.step with _ | d
    · rw [((hit it hm).kept hst).1]; exact hT
    · rw [((hit it hm).applied d hst).2.1]; exact hG _ _ hT)
  have := (C99_icp_descent hin hne ⟨20, findAxis (digitsEval E0).ops 128, fun l _ => isort l⟩ isort_nthElementSpec hfind hleaf h1 (fuelB := fuel) (fuel := fuel) (by omega) (by omega) h2
    (maxD := maxD) (by rw [hsl]; exact lt_of_le_of_lt (le_of_eq (by ring)) hmax) junk cfg hrej hU hU' execL execE hexL hexE st T0 h4
    (fun it hm x hx => ⟨hreach _ (hposes it hm).1 x hx, hreach _ (hposes it hm).2 x hx⟩)).2
  rw [hsl] at this
  exact ⟨points, t, r, fs, log, h1, h2, h4, this⟩

/-! ### example: double precision without limits of the exponent -/

/-- One as a machine number. -/
noncomputable def digitsOne (p : ℕ) : Digits p := ⟨1, by
  unfold cutOff cutPos
  rw [if_pos zero_le_one, Int.log_one_right]
  have : (1 : ℝ) / 2 ^ ((0 : ℤ) - p) = ((2 ^ p : ℤ) : ℝ) := by rw [zero_sub, _root_.zpow_neg, one_div, inv_inv]; simp
  rw [this, Int.floor_intCast]
  rw [zero_sub, _root_.zpow_neg]
  push_cast
  rw [zpow_natCast, mul_inv_cancel₀ (by positivity)]⟩

/-- About 16000. -/
noncomputable def digitsMany (p : ℕ) : Digits p := ⟨cutOff p 16000, cutOff_idem p _⟩

/-- The identity, and a shift by one along the first axis. -/
noncomputable def digitsId (p : ℕ) : Pose (Digits p) := ⟨fun i j => if i = j then digitsOne p else 0, 0⟩

noncomputable def digitsShift (p : ℕ) : Pose (Digits p) := ⟨fun i j => if i = j then digitsOne p else 0, fun i => if i = 0 then digitsOne p else 0⟩

/-- A point with coordinates zero and one. -/
noncomputable def digitsPoint (p : ℕ) (a b c : Bool) : Fin 4 → Digits p := ![if a then digitsOne p else 0, if b then digitsOne p else 0, if c then digitsOne p else 0, digitsOne p]

/-- Two clouds of corners of a cube, thousand source points, any number of iterations; steps go back and forth. -/
example (E0 : Machine.Eval (Digits 52) (Pose (Digits 52)) (Digits 52) (Digits 52) Unit) (corners : List (Bool × Bool × Bool)) (hc : corners.length = 999) (st : Machine.LMSetting (Digits 52))
    (back : Pose (Digits 52) → Digits 52 → Bool) (conv : Digits 52 → Bool) (delta : Digits 52 → Digits 52 → Digits 52 → Digits 52) :
    let tp := [digitsPoint 52 true false false, digitsPoint 52 true true false]
    let sp := corners.map fun x => digitsPoint 52 x.1 x.2.1 x.2.2
    let target : Cloud (Fin 4 → Digits 52) Unit := ⟨tp.map some, [], []⟩
    let source : Cloud (Fin 4 → Digits 52) Unit := ⟨sp.map some, [], []⟩
    let cfg : Machine.Config (Digits 52) (Pose (Digits 52)) (Digits 52) (Digits 52) (Digits 52) :=
      ⟨Machine.distanceRejector (digitsOne 52), fun _ s => s, fun _ e => e, delta, fun T d => if back T d then digitsId 52 else digitsShift 52, conv⟩
    ∃ points t r fs log, Machine.cloudPoints target = .ok points ∧ KdTree.construct (digitsEval E0).ops ⟨20, findAxis (digitsEval E0).ops 128, fun l _ => isort l⟩ 3 points = .ok t ∧
      Machine.align (Machine.icpFactor (digitsEval E0)) (Machine.cloudWorld target source (Machine.kdNearest (digitsEval E0) (digitsMany 52) points t 3 (0, 0))) cfg (fun _ _ => .serial) (fun _ _ => .serial)
        (.lm st) (digitsId 52) source.size = .ok (r, fs, log) ∧
      truncatedCost (tp.map (vals Digits.val)) (sp.map (vals Digits.val)) 1 (digitsPose r.T) ≤
        (1 + 10 * (1 / 10 ^ 12)) ^ log.length * (truncatedCost (tp.map (vals Digits.val)) (sp.map (vals Digits.val)) 1 (digitsPose (digitsId 52)) + log.length / 10 ^ 11) := by
  intro tp sp target source cfg
  have v1 : (digitsOne 52).val = 1 := rfl
  have v0 : (0 : Digits 52).val = 0 := rfl
  have hlen : sp.length = 999 := by simp [sp, hc]
  have hpt : ∀ a b c j, |(digitsPoint 52 a b c j).val| ≤ 1 := by
    intro a b c j
    fin_cases j <;> simp only [digitsPoint] <;> cases a <;> cases b <;> cases c <;> simp [v0, v1]
  have hent : ∀ T, T = digitsId 52 ∨ T = digitsShift 52 → ∀ i j, |(digitsPose T).matrix i j| ≤ 1 := by
    rintro T (rfl | rfl) i j <;> fin_cases i <;> fin_cases j <;> simp [digitsPose, Pose.matrix, digitsId, digitsShift, v0, v1]
  obtain ⟨points, t, r, fs, log, h1, h2, h3, h4⟩ := C99_digits (p := 52) (by norm_num) E0 (Z := 4) (ε := 1 / 10 ^ 12) (by norm_num) (by positivity) (by norm_num) (tp := tp) (sp := sp) (by norm_num)
    (by
      rw [hlen, show 999 + 1 = 1000 from rfl]
      have hb : (1 + 1 / 2 ^ 52 : ℝ) ^ 1000 ≤ 1 + 1 / 10 ^ 12 := by
        have h := one_add_mul_le_pow (show (-2 : ℝ) ≤ -(1 / 2 ^ 52 / (1 + 1 / 2 ^ 52)) by norm_num) 1000
        have e : (1 : ℝ) + -(1 / 2 ^ 52 / (1 + 1 / 2 ^ 52)) = (1 + 1 / 2 ^ 52)⁻¹ := by norm_num
        rw [e, inv_pow] at h
        have h5 : (1 + 1 / 10 ^ 12 : ℝ)⁻¹ ≤ ((1 + 1 / 2 ^ 52 : ℝ) ^ 1000)⁻¹ := le_trans (by norm_num) h
        exact (inv_le_inv₀ (by positivity) (by positivity)).1 h5
      exact sub_le_iff_le_add'.2 hb)
    (target := target) (source := source) rfl rfl (by simp [tp]) (by simp [tp]) (by
      intro q hq j
      simp only [tp, List.mem_cons, List.not_mem_nil, or_false] at hq
      rcases hq with rfl | rfl <;> exact (hpt _ _ _ _).trans (by norm_num))
    (digitsOne 52) (by rw [v1]; norm_num) (digitsMany 52) (by
      have h := abs_le.1 (cutOff_rel 52 16000)
      have e : (digitsMany 52).val = cutOff 52 16000 := rfl
      rw [e]
      have h5 := h.1
      norm_num at h5 ⊢
      linarith) (0, 0) cfg rfl (fun _ _ => rfl) (fun _ _ => rfl) (fun _ _ => .serial) (fun _ _ => .serial) (fun _ _ => trivial) (fun _ _ => trivial) st (digitsId 52)
    (fun T => T = digitsId 52 ∨ T = digitsShift 52) (.inl rfl) (by
      intro T d _
      rcases hb : back T d with _ | _
      · exact .inr (by simp [cfg, hb])
      · exact .inl (by simp [cfg, hb]))
    (by
      intro T hT x hx j
      obtain ⟨⟨a, b, c⟩, -, rfl⟩ := List.mem_map.1 hx
      calc _ ≤ ∑ _k : Fin 4, (1 : ℝ) := Finset.sum_le_sum fun k _ => by
            have := mul_le_mul (hent T hT j k) (hpt a b c k) (abs_nonneg _) zero_le_one
            simpa using this
        _ = 4 := by simp) (fuel := 3) (by simp [tp])
  refine ⟨points, t, r, fs, log, h1, h2, h3, h4.trans ?_⟩
  rw [hlen]
  refine mul_le_mul_of_nonneg_left (add_le_add_right ?_ _) (by positivity)
  rw [div_eq_mul_inv]
  refine mul_le_mul_of_nonneg_left ?_ (by positivity)
  norm_num

end Verif.Props
