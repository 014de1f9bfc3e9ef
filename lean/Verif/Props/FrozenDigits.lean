import Verif.Props.FrozenRun

/-!
C111 for numbers with `p + 1` binary digits and point-to-plane factors.
-/

set_option linter.unusedSectionVars false
set_option linter.unusedSimpArgs false
set_option linter.unnecessarySeqFocus false

namespace Verif.Props

open Matrix Verif Verif.Knn Verif.KdTree Verif.Proofs Verif.Proofs.RegMem Verif.Factors Verif.Reduction Verif.PointCloud Verif.RegMem Verif.Spec

section Digits

variable {p : ℕ} {H B M : Type} (E0 : Machine.Eval (Digits p) (Pose (Digits p)) H B M)

theorem accuracy_weaken {E : Machine.Eval (Digits p) (Pose (Digits p)) H B M} {γ γ' Z : ℝ} (h : IcpAccuracy E Digits.val digitsPose γ 0 Z) (hZ : 0 ≤ Z) (hg : γ ≤ γ') :
    IcpAccuracy E Digits.val digitsPose γ' 0 Z := by
  have hs : ∀ r : Fin 4 → Digits p, γ * ∑ j, (r j).val ^ 2 ≤ γ' * ∑ j, (r j).val ^ 2 := fun r => mul_le_mul_of_nonneg_right hg (Finset.sum_nonneg fun _ _ => sq_nonneg _)
  exact ⟨h.gamma_nonneg.trans hg, le_refl _, fun T v hv j => (h.apply T v hv j).trans (mul_le_mul_of_nonneg_right hg hZ), fun r hr => (h.sqNorm r hr).trans (by linarith [hs r]),
    fun r hr => (h.sqNorm4 r hr).trans (by linarith [hs r]), h.half⟩

/-- The errors of point-to-point and point-to-plane factors; the quadratic form of GICP is as in `E0`, nothing is claimed about it. -/
theorem digits_terms (hp : 3 ≤ p) (Z : ℝ) (mval : M → Matrix (Fin 4) (Fin 4) ℝ) : TermAccuracy (digitsEval E0) Digits.val mval (fun _ => False) (9 * (1 / 2 ^ p)) 0 Z := by
  set u : ℝ := 1 / 2 ^ p with hudef
  have hu : 0 ≤ u := by positivity
  have hu8 : u ≤ 1 / 8 := by
    have : (8 : ℝ) ≤ 2 ^ p := by
      calc (8 : ℝ) = 2 ^ 3 := by norm_num
        _ ≤ 2 ^ p := pow_le_pow_right₀ (by norm_num) hp
    exact one_div_le_one_div_of_le (by norm_num) this
  have hhalf : ∀ x : Digits p, ((digitsEval E0).half x).val = x.val / 2 := fun _ => rfl
  have hsq : ∀ r : Fin 4 → Digits p, |((digitsEval E0).sqNorm r).val - ∑ j, (r j).val ^ 2| ≤ 5 * u * ∑ j, (r j).val ^ 2 := by
    intro r
    have := dot_error hp r r
    simp only [← sq, sq_abs] at this
    exact this
  refine ⟨?_, ?_, fun _ _ h => h.elim⟩
  · intro r _
    have h1 := hsq r
    have h0 : 0 ≤ ∑ j, (r j).val ^ 2 := Finset.sum_nonneg fun _ _ => sq_nonneg _
    have h2 := mul_nonneg hu h0
    rw [hhalf]
    rw [abs_le] at h1 ⊢
    constructor <;> linarith [h1.1, h1.2]
  · intro n r _
    have h1 := hsq (n * r)
    have hm : ∀ j, |((n * r) j).val - (n j).val * (r j).val| ≤ u * |(n j).val * (r j).val| := fun j => cutOff_rel p _
    have hsqj : ∀ j, |((n * r) j).val ^ 2 - ((n j).val * (r j).val) ^ 2| ≤ (2 * u + u ^ 2) * ((n j).val * (r j).val) ^ 2 := by
      intro j
      set x := ((n * r) j).val
      set y := (n j).val * (r j).val
      have h := hm j
      have e : x ^ 2 - y ^ 2 = (x - y) * ((x - y) + 2 * y) := by ring
      rw [e, abs_mul]
      have h3 : |(x - y) + 2 * y| ≤ u * |y| + 2 * |y| := (abs_add_le _ _).trans (by rw [abs_mul, abs_two]; linarith)
      calc |x - y| * |(x - y) + 2 * y| ≤ (u * |y|) * (u * |y| + 2 * |y|) := mul_le_mul h h3 (abs_nonneg _) (by positivity)
        _ = (2 * u + u ^ 2) * |y| ^ 2 := by ring
        _ = _ := by rw [sq_abs]
    set X := ∑ j, ((n * r) j).val ^ 2
    set Y := ∑ j, ((n j).val * (r j).val) ^ 2
    have h0 : 0 ≤ Y := Finset.sum_nonneg fun _ _ => sq_nonneg _
    have h2 : |X - Y| ≤ (2 * u + u ^ 2) * Y := by
      simp only [X, Y]
      rw [← Finset.sum_sub_distrib, Finset.mul_sum]
      exact (Finset.abs_sum_le_sum_abs _ _).trans (Finset.sum_le_sum fun j _ => hsqj j)
    rw [hhalf]
    have h3 : 5 * u * X ≤ 5 * u * ((1 + (2 * u + u ^ 2)) * Y) := mul_le_mul_of_nonneg_left (by linarith [(abs_le.1 h2).2]) (by positivity)
    have h4 : 5 * u * (1 + (2 * u + u ^ 2)) + (2 * u + u ^ 2) ≤ 9 * u := by
      have := mul_nonneg hu (sub_nonneg.2 hu8)
      have := mul_nonneg (mul_nonneg hu hu) (sub_nonneg.2 hu8)
      nlinarith
    have h5 := mul_le_mul_of_nonneg_right h4 h0
    rw [abs_le] at h1 h2 ⊢
    constructor <;> nlinarith [h1.1, h1.2, h2.1, h2.2]

/-- Weights of point-to-plane factors, for normals with components up to one. -/
theorem plane_moderate {normals : List (Fin 4 → Digits p)} (hunit : ∀ n ∈ normals, ∀ j, |(n j).val| ≤ 1) (k : Nat) : Moderate 4 (Matrix.diagonal fun j => ((normals[k]?.getD 0) j).val ^ 2) := by
  refine ⟨fun v => ?_, ?_⟩
  · simp only [dotProduct, Matrix.mulVec_diagonal]
    exact Finset.sum_nonneg fun j _ => le_trans (mul_nonneg (sq_nonneg ((normals[k]?.getD 0) j).val) (sq_nonneg (v j))) (le_of_eq (by ring))
  · have hle : ∀ j, ((normals[k]?.getD 0) j).val ^ 2 ≤ 1 := by
      intro j
      rcases hk : normals[k]? with _ | n
      · rw [Option.getD_none]
        have : ((0 : Fin 4 → Digits p) j).val = 0 := rfl
        rw [this]
        norm_num
      · rw [Option.getD_some, ← sq_abs]
        have := hunit n (List.mem_of_getElem? hk) j
        exact pow_le_one₀ (abs_nonneg _) this
    have e : ∀ i j, |(Matrix.diagonal fun j => ((normals[k]?.getD 0) j).val ^ 2) i j| = if i = j then ((normals[k]?.getD 0) i).val ^ 2 else 0 := by
      intro i j
      rw [Matrix.diagonal_apply]
      split
      · exact abs_of_nonneg (sq_nonneg _)
      · exact abs_zero
    simp only [e, Finset.sum_ite_eq, Finset.mem_univ, if_true]
    calc _ ≤ ∑ _i : Fin 4, (1 : ℝ) := Finset.sum_le_sum fun i _ => hle i
      _ = 4 := by simp

end Digits

/-- C111 with `p + 1` binary digits and point-to-plane factors with normals of components up to one: tree and registration succeed, and no iteration increases the cost of its pairs by more than the stated
errors. -/
theorem C111_digits {p : ℕ} (hp : 3 ≤ p) {H B M D : Type} [Zero H] [Add H] [Zero B] [Add B] (E0 : Machine.Eval (Digits p) (Pose (Digits p)) H B M) {Z ε : ℝ} (hZ : 0 ≤ Z) (hε : 0 < ε) (hε' : ε ≤ 1 / 16)
    {tp sp normals : List (Fin 4 → Digits p)} (hu : 27 / 2 ^ p ≤ ε) (hsum : (1 + 1 / 2 ^ p) ^ (sp.length + 1) - 1 ≤ ε) {target source : Cloud (Fin 4 → Digits p) M} (ht : target.points = tp.map some)
    (hs : source.points = sp.map some) (hn : target.normals = normals.map some) (hne : tp ≠ []) (hN : tp.length < 2 ^ 32) (hnear : ∀ q ∈ tp, ∀ j, |(q j).val| ≤ Z) (hunit : ∀ n ∈ normals, ∀ j, |(n j).val| ≤ 1)
    (hsup : Supplied ⟨true, false⟩ target source) (gate maxD : Digits p) (hmax : 17 * Z ^ 2 + 48 * (12 / 2 ^ p * Z) ^ 2 / ε < maxD.val) (junk : Nat × Digits p)
    (cfg : Machine.Config (Digits p) (Pose (Digits p)) H B D) (hrej : cfg.rejector = Machine.distanceRejector gate) (hU : ∀ T s, (cfg.updateLinearized T s).2.2 = s.2.2) (hU' : ∀ T e, cfg.updateError T e = e)
    (execL execE : Pose (Digits p) → List PlaneICP → Exec) (hexL : ∀ T fs, (execL T fs).Complete fs.length) (hexE : ∀ T fs, (execE T fs).Complete fs.length)
    (st : Machine.LMSetting (Digits p)) (T0 : Pose (Digits p)) (Good : Pose (Digits p) → Prop) (hG0 : Good T0) (hG : ∀ T d, Good T → Good (cfg.step T d))
    (hreach : ∀ T, Good T → ∀ x ∈ sp, Reach Digits.val (digitsPose T) Z x) {fuel : Nat} (hfuel : tp.length < fuel) :
    ∃ points t r fs log, Machine.cloudPoints target = .ok points ∧ KdTree.construct (digitsEval E0).ops ⟨20, findAxis (digitsEval E0).ops 128, fun l _ => isort l⟩ fuel points = .ok t ∧
      Machine.align (Machine.planeFactor (digitsEval E0)) (Machine.cloudWorld target source (Machine.kdNearest (digitsEval E0) maxD points t fuel junk)) cfg execL execE (.lm st) T0 source.size = .ok (r, fs, log) ∧
      ∀ it ∈ log, ∀ pairs, pairs = weightedPairs (Machine.planeFactor (digitsEval E0)) (fun f => Matrix.diagonal fun j => ((normals[f.target]?.getD 0) j).val ^ 2) it.factors →
        frozenCost (tp.map (vals Digits.val)) (sp.map (vals Digits.val)) pairs (digitsPose it.T1) ≤
          (1 + 10 * ε) * frozenCost (tp.map (vals Digits.val)) (sp.map (vals Digits.val)) pairs (digitsPose it.T0) + 8 * sp.length * (24 * (12 / 2 ^ p * Z) ^ 2 / ε) := by
  have hsl : 2 * icpSlack (9 * (1 / 2 ^ p)) (1 / 2 ^ p) 0 Z ε = 48 * (12 / 2 ^ p * Z) ^ 2 / ε := by unfold icpSlack; ring
  have hfs : frozenSlack (9 * (1 / 2 ^ p)) (1 / 2 ^ p) 0 Z ε 4 = 24 * (12 / 2 ^ p * Z) ^ 2 / ε := by unfold frozenSlack; ring
  have hpos : (0 : ℝ) < 1 / 2 ^ p := by positivity
  obtain ⟨big, hb1, hb2⟩ : ∃ big : ℝ, 3 * Z ≤ big ∧ (1 + 1 / 2 ^ p) ^ sp.length * (sp.length * (3 * 4 * Z ^ 2 + frozenSlack (9 * (1 / 2 ^ p)) (1 / 2 ^ p) 0 Z ε 4)) ≤ big :=
    ⟨max _ _, le_max_left _ _, le_max_right _ _⟩
  have hu' : 27 * (1 / 2 ^ p : ℝ) ≤ ε := le_trans (le_of_eq (by ring)) hu
  have hin : PairInputs (digitsEval E0) Digits.val digitsPose (cutOff p) (1 / 2 ^ p) big (9 * (1 / 2 ^ p)) 0 Z ε tp sp target source :=
    ⟨digits_arith E0 _, accuracy_weaken (digits_accuracy E0 hp hZ) hZ (by linarith), hZ, hb1, hε, hε', by linarith, by linarith, ht, hs, hN, hnear⟩
  have htl : target.size = tp.length := by simp [Cloud.size, ht]
  have hleaf : SafeLeafSize 20 := by unfold SafeLeafSize toU64; decide
  have hfind := findAxis_spec (digitsEval E0).ops 128 (by unfold toU64; decide)
  obtain ⟨points, t, h1, h2, h3⟩ := C100_no_fault (D := D) (E := digitsEval E0) .plane hsup (by rw [htl]; exact List.length_pos_iff.2 hne) (by rw [htl]; exact hN)
    ⟨20, findAxis (digitsEval E0).ops 128, fun l _ => isort l⟩ isort_nthElementSpec.perm (fun pts range a b => by obtain ⟨q, hq, -⟩ := hfind pts range a b; exact ⟨q, hq, trivial⟩)
    hleaf (fuelB := fuel) (fuel := fuel) (by omega) (by omega)
  obtain ⟨r, fs, log, h4, -⟩ := h3 maxD junk cfg execL execE hexL hexE (.lm st) T0
  have hpl : points.length = tp.length := by rw [cloud_points_eq ht h1, List.length_map]
  obtain ⟨hd, hit⟩ := C97_levenberg_marquardt _ (show ∀ T e, (Machine.problem (Machine.planeFactor (digitsEval E0)) (Machine.cloudWorld target source
    (Machine.kdNearest (digitsEval E0) maxD points t fuel junk)) cfg execL execE).updateError T e = e from hU') st T0 _ h4
  have hposes := linked_poses (Good := Good) hG0 hd.linked (fun it hm hT => by
    rcases hst : it.step with _ | d
    · rw [((hit it hm).kept hst).1]; exact hT
    · rw [((hit it hm).applied d hst).2.1]; exact hG _ _ hT)
  have := C111_descent hin hne (.plane (normals := normals)) (digits_terms E0 hp Z fun _ => 0) hsup (fun _ => hn) (by norm_num) hsum hb2 ⟨20, findAxis (digitsEval E0).ops 128, fun l _ => isort l⟩
    isort_nthElementSpec hfind hleaf h1 (fuelB := fuel) (fuel := fuel) (by omega) (by omega) h2 (maxD := maxD) (by rw [hsl]; exact hmax) junk cfg hrej hU hU' execL execE hexL hexE st T0 h4
    (fun it hm x hx => ⟨hreach _ (hposes it hm).1 x hx, hreach _ (hposes it hm).2 x hx⟩) (fun it hm f hf _ => ⟨trivial, plane_moderate hunit _⟩)
  rw [hfs] at this
  refine ⟨points, t, r, fs, log, h1, h2, h4, fun it hm pairs hpr => ?_⟩
  rw [hpr]
  exact this it hm

/-- Point-to-plane registration of corners of a cube, thousand source points, any number of iterations; steps go back and forth. -/
example (E0 : Machine.Eval (Digits 52) (Pose (Digits 52)) (Digits 52) (Digits 52) Unit) (corners : List (Bool × Bool × Bool)) (hc : corners.length = 999) (st : Machine.LMSetting (Digits 52))
    (back : Pose (Digits 52) → Digits 52 → Bool) (conv : Digits 52 → Bool) (delta : Digits 52 → Digits 52 → Digits 52 → Digits 52) :
    let tp := [digitsPoint 52 true false false, digitsPoint 52 true true false]
    let normals : List (Fin 4 → Digits 52) := [![digitsOne 52, 0, 0, 0], ![0, digitsOne 52, 0, 0]]
    let sp := corners.map fun x => digitsPoint 52 x.1 x.2.1 x.2.2
    let target : Cloud (Fin 4 → Digits 52) Unit := ⟨tp.map some, normals.map some, []⟩
    let source : Cloud (Fin 4 → Digits 52) Unit := ⟨sp.map some, [], []⟩
    let cfg : Machine.Config (Digits 52) (Pose (Digits 52)) (Digits 52) (Digits 52) (Digits 52) :=
      ⟨Machine.distanceRejector (digitsOne 52), fun _ s => s, fun _ e => e, delta, fun T d => if back T d then digitsId 52 else digitsShift 52, conv⟩
    ∃ points t r fs log, Machine.cloudPoints target = .ok points ∧ KdTree.construct (digitsEval E0).ops ⟨20, findAxis (digitsEval E0).ops 128, fun l _ => isort l⟩ 3 points = .ok t ∧
      Machine.align (Machine.planeFactor (digitsEval E0)) (Machine.cloudWorld target source (Machine.kdNearest (digitsEval E0) (digitsMany 52) points t 3 (0, 0))) cfg (fun _ _ => .serial) (fun _ _ => .serial)
        (.lm st) (digitsId 52) source.size = .ok (r, fs, log) ∧
      ∀ it ∈ log, ∀ pairs, pairs = weightedPairs (Machine.planeFactor (digitsEval E0)) (fun f => Matrix.diagonal fun j => ((normals[f.target]?.getD 0) j).val ^ 2) it.factors →
        frozenCost (tp.map (vals Digits.val)) (sp.map (vals Digits.val)) pairs (digitsPose it.T1) ≤
          (1 + 10 * (1 / 10 ^ 12)) * frozenCost (tp.map (vals Digits.val)) (sp.map (vals Digits.val)) pairs (digitsPose it.T0) + 1 / 10 ^ 10 := by
  intro tp normals sp target source cfg
  have v1 : (digitsOne 52).val = 1 := rfl
  have v0 : (0 : Digits 52).val = 0 := rfl
  have hlen : sp.length = 999 := by simp [sp, hc]
  have hpt : ∀ a b c j, |(digitsPoint 52 a b c j).val| ≤ 1 := by
    intro a b c j
    fin_cases j <;> simp only [digitsPoint] <;> cases a <;> cases b <;> cases c <;> simp [v0, v1]
  have hent : ∀ T, T = digitsId 52 ∨ T = digitsShift 52 → ∀ i j, |(digitsPose T).matrix i j| ≤ 1 := by
    rintro T (rfl | rfl) i j <;> fin_cases i <;> fin_cases j <;> simp [digitsPose, Pose.matrix, digitsId, digitsShift, v0, v1]
  obtain ⟨points, t, r, fs, log, h1, h2, h3, h4⟩ := C111_digits (p := 52) (by norm_num) E0 (Z := 4) (ε := 1 / 10 ^ 12) (by norm_num) (by positivity) (by norm_num) (tp := tp) (sp := sp) (normals := normals)
    (by norm_num)
    (by
      rw [hlen, show 999 + 1 = 1000 from rfl]
      have hb : (1 + 1 / 2 ^ 52 : ℝ) ^ 1000 ≤ 1 + 1 / 10 ^ 12 := by
        have h := one_add_mul_le_pow (show (-2 : ℝ) ≤ -(1 / 2 ^ 52 / (1 + 1 / 2 ^ 52)) by norm_num) 1000
        have e : (1 : ℝ) + -(1 / 2 ^ 52 / (1 + 1 / 2 ^ 52)) = (1 + 1 / 2 ^ 52)⁻¹ := by norm_num
        rw [e, inv_pow] at h
        have h5 : (1 + 1 / 10 ^ 12 : ℝ)⁻¹ ≤ ((1 + 1 / 2 ^ 52 : ℝ) ^ 1000)⁻¹ := le_trans (by norm_num) h
        exact (inv_le_inv₀ (by positivity) (by positivity)).1 h5
      exact sub_le_iff_le_add'.2 hb)
    (target := target) (source := source) rfl rfl rfl (by simp [tp]) (by simp [tp]) (by
      intro q hq j
      simp only [tp, List.mem_cons, List.not_mem_nil, or_false] at hq
      rcases hq with rfl | rfl <;> exact (hpt _ _ _ _).trans (by norm_num))
    (by
      intro n hn j
      simp only [normals, List.mem_cons, List.not_mem_nil, or_false] at hn
      rcases hn with rfl | rfl <;> fin_cases j <;> simp [v0, v1])
    (by
      refine ⟨?_, ?_, ?_, (by intro h; cases h), (by intro h; cases h)⟩
      · intro i hi
        have hi' : i < tp.length := by simpa [Cloud.size, target] using hi
        exact ⟨tp[i], by simp [target, hi']⟩
      · intro i hi
        have hi' : i < sp.length := by simpa [Cloud.size, source] using hi
        exact ⟨sp[i], by simp [source, hi']⟩
      · intro _ i hi
        have hi' : i < normals.length := by simpa [Cloud.size, target, tp, normals] using hi
        exact ⟨normals[i], by simp [target, hi']⟩)
    (digitsOne 52) (digitsMany 52) (by
      have h := abs_le.1 (cutOff_rel 52 16000)
      have e : (digitsMany 52).val = cutOff 52 16000 := rfl
      rw [e]
      have h5 := h.1
      norm_num at h5 ⊢
      linarith) (0, 0) cfg rfl (fun _ _ => rfl) (fun _ _ => rfl) (fun _ _ => .serial) (fun _ _ => .serial) (fun _ _ => trivial) (fun _ _ => trivial) st (digitsId 52)
    (fun T => T = digitsId 52 ∨ T = digitsShift 52) (.inl rfl) (by
      intro T d _
      rcases hb : back T d with _ | _
      · exact .inr (by simp [cfg, hb])
      · exact .inl (by simp [cfg, hb]))
    (by
      intro T hT x hx j
      obtain ⟨⟨a, b, c⟩, -, rfl⟩ := List.mem_map.1 hx
      calc _ ≤ ∑ _k : Fin 4, (1 : ℝ) := Finset.sum_le_sum fun k _ => by
            have := mul_le_mul (hent T hT j k) (hpt a b c k) (abs_nonneg _) zero_le_one
            simpa using this
        _ = 4 := by simp) (fuel := 3) (by simp [tp])
  refine ⟨points, t, r, fs, log, h1, h2, h3, fun it hit pairs hpr => (h4 it hit pairs hpr).trans ?_⟩
  rw [hlen]
  refine add_le_add_right ?_ _
  norm_num

end Verif.Props
