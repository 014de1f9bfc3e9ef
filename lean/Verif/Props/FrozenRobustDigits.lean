import Verif.Props.FrozenRobust
import Verif.Props.FrozenDigits

/-!
C112, continued: kernels of the model, and C112 for numbers with `p + 1` binary digits.
-/

set_option linter.unusedSectionVars false
set_option linter.unusedSimpArgs false
set_option linter.unnecessarySeqFocus false

namespace Verif.Props

open Matrix Verif Verif.Knn Verif.KdTree Verif.Proofs Verif.Proofs.RegMem Verif.Factors Verif.Reduction Verif.PointCloud Verif.RegMem Verif.Spec

/-! ### Kernels of exact and of rounded numbers -/

/-- Without rounding the kernels of the model are those of the specification. -/
theorem exact_huber {c : ℝ} (_hc : 0 < c) : KernelAccuracy (huberWeight c) Real.sqrt id (huberError c) 0 := by
  have key : ∀ e : ℝ, 0 ≤ e → e * huberWeight c (√e) = huberError c e := by
    intro e he
    have h2 := Real.mul_self_sqrt he
    have hs := Real.sqrt_nonneg e
    unfold huberWeight huberError
    rw [abs_of_nonneg hs]
    split
    · rename_i h
      rw [mul_one, min_eq_left (by nlinarith)]
    · rename_i h
      have hp : 0 < √e := by linarith [not_lt.1 h]
      rw [min_eq_right (by nlinarith [not_lt.1 h]), ← mul_div_assoc, div_eq_iff hp.ne']
      nlinarith
  refine ⟨fun e he => ?_, fun e he => ?_⟩
  · simp only [id] at he ⊢
    rw [key e he]
    simp
  · simp only [id] at he ⊢
    rw [mul_comm, key e he]
    simp

theorem exact_cauchy {c : ℝ} (_hc : 0 < c) : KernelAccuracy (cauchyWeight c) Real.sqrt id (cauchyError c) 0 := by
  have key : ∀ e : ℝ, 0 ≤ e → e * cauchyWeight c (√e) = cauchyError c e := by
    intro e he
    unfold cauchyWeight cauchyError
    rw [Real.mul_self_sqrt he]
    ring
  refine ⟨fun e he => ?_, fun e he => ?_⟩
  · simp only [id] at he ⊢
    rw [key e he]
    simp
  · simp only [id] at he ⊢
    rw [mul_comm, key e he]
    simp

section Digits

variable {p : ℕ} {H B M : Type} (E0 : Machine.Eval (Digits p) (Pose (Digits p)) H B M)

/-- Square root. -/
noncomputable def digitsSqrt (e : Digits p) : Digits p := ⟨cutOff p (Real.sqrt e.1), cutOff_idem p _⟩

/-- `Huber::weight` (robust_kernel.hpp:24-27). -/
noncomputable def digitsHuber (c e : Digits p) : Digits p :=
  let a : Digits p := if 0 ≤ e then e else 0 - e
  if a < c then digitsOne p else c / a

theorem digits_nonneg : NonnegTerms (digitsEval E0) Digits.val (fun _ : M => False) := by
  refine ⟨fun r => ?_, fun _ _ h => h.elim⟩
  have hm : ∀ j, 0 ≤ (r j * r j).val := fun j => cutOff_nonneg p (mul_self_nonneg _)
  have ha : ∀ a b : Digits p, 0 ≤ a.val → 0 ≤ b.val → 0 ≤ (a + b).val := fun a b h1 h2 => cutOff_nonneg p (add_nonneg h1 h2)
  exact div_nonneg (ha _ _ (ha _ _ (ha _ _ (hm 0) (hm 1)) (hm 2)) (hm 3)) (by norm_num)

/-- Beyond the width: `a` is the computed root, `q` the computed weight, `v` the product. -/
theorem huber_far {u c a s e q v : ℝ} (hu : 0 ≤ u) (hu8 : u ≤ 1 / 8) (hc : 0 < c) (s0 : 0 ≤ s) (he : 0 ≤ e) (s2 : s * s = e) (ha1 : (1 - u) * s ≤ a) (ha2 : a ≤ (1 + u) * s) (h : c ≤ a)
    (q1 : (1 - u) * (c / a) ≤ q) (q2 : q ≤ (1 + u) * (c / a)) (m1 : (1 - u) * (q * e) ≤ v) (m2 : v ≤ (1 + u) * (q * e)) : |v - min e (c * s)| ≤ 4 * u * min e (c * s) := by
  have hap : 0 < a := by linarith
  have hd : a * (c / a) = c := by field_simp
  have d0 : 0 ≤ c / a := by positivity
  have d1 : c / a ≤ 1 := by rw [div_le_one hap]; exact h
  generalize c / a = d at *
  have f1 : (1 - u) * s * d ≤ c := by rw [← hd]; exact mul_le_mul_of_nonneg_right ha1 d0
  have f2 : c ≤ (1 + u) * s * d := by
    calc c = a * d := hd.symm
      _ ≤ _ := mul_le_mul_of_nonneg_right ha2 d0
  have de : 0 ≤ d * e := mul_nonneg d0 he
  have p1 : 0 ≤ 1 - u := by linarith
  have low : (1 - u) ^ 2 * (d * e) ≤ v := by
    have := mul_le_mul_of_nonneg_left (mul_le_mul_of_nonneg_right q1 he) p1
    linarith
  have up : v ≤ (1 + u) ^ 2 * (d * e) := by
    have := mul_le_mul_of_nonneg_left (mul_le_mul_of_nonneg_right q2 he) (show 0 ≤ 1 + u by linarith)
    linarith
  have g1 : (1 - u) * (d * e) ≤ c * s := by
    have := mul_le_mul_of_nonneg_right f1 s0
    rw [← s2]
    linarith
  have g2 : c * s ≤ (1 + u) * (d * e) := by
    have := mul_le_mul_of_nonneg_right f2 s0
    rw [← s2]
    linarith
  have x0 : 0 ≤ u * (d * e) := mul_nonneg hu de
  have k0 : d * e ≤ e := by simpa using mul_le_mul_of_nonneg_right d1 he
  have r1 : min e (c * s) ≤ (1 + u) * (d * e) := (min_le_right _ _).trans g2
  have r2 : (1 - u) * (d * e) ≤ min e (c * s) := le_min (by linarith) g1
  generalize min e (c * s) = R at *
  generalize d * e = w at *
  have x2 : u * (u * w) ≤ 1 / 8 * (u * w) := mul_le_mul_of_nonneg_right hu8 x0
  have x1 : 0 ≤ u * (u * w) := mul_nonneg hu x0
  have y2 := mul_le_mul_of_nonneg_left r2 hu
  have low' : w - 2 * (u * w) ≤ v := by linarith
  have up' : v ≤ w + 2 * (u * w) + u * (u * w) := by linarith
  rw [abs_le]
  constructor <;> linarith

theorem digits_huber (hp : 3 ≤ p) (c : Digits p) (hc : 0 < c.val) : KernelAccuracy (digitsHuber c) digitsSqrt Digits.val (huberError c.val) (4 * (1 / 2 ^ p)) := by
  set u : ℝ := 1 / 2 ^ p with hudef
  have hu : 0 ≤ u := by positivity
  have hu8 : u ≤ 1 / 8 := by
    have : (8 : ℝ) ≤ 2 ^ p := by
      calc (8 : ℝ) = 2 ^ 3 := by norm_num
        _ ≤ 2 ^ p := pow_le_pow_right₀ (by norm_num) hp
    exact one_div_le_one_div_of_le (by norm_num) this
  have hr : ∀ x, 0 ≤ x → (1 - u) * x ≤ cutOff p x ∧ cutOff p x ≤ (1 + u) * x := by
    intro x hx
    have := abs_le.1 (cutOff_rel p x)
    rw [abs_of_nonneg hx] at this
    constructor <;> linarith [this.1, this.2]
  have key : ∀ e : Digits p, 0 ≤ e.val → |(digitsHuber c (digitsSqrt e) * e).val - huberError c.val e.val| ≤ 4 * u * huberError c.val e.val := by
    intro e he
    set s : ℝ := √e.val with hs
    have s0 : 0 ≤ s := Real.sqrt_nonneg _
    have s2 : s * s = e.val := Real.mul_self_sqrt he
    set a : Digits p := digitsSqrt e with hadef
    have ha : a.val = cutOff p s := rfl
    obtain ⟨ha1, ha2⟩ := hr s s0
    rw [← ha] at ha1 ha2
    have ha0 : 0 ≤ a.val := by nlinarith
    have hw : digitsHuber c a = if a < c then digitsOne p else c / a := by
      have : (0 : Digits p) ≤ a := ha0
      simp only [digitsHuber, if_pos this]
    unfold huberError
    rw [← hs, hw]
    split
    · rename_i h
      have h' : a.val < c.val := h
      have hv : (digitsOne p * e).val = e.val := by
        have : (digitsOne p * e).val = cutOff p (1 * e.val) := rfl
        rw [this, one_mul]
        exact e.2
      rw [hv]
      rcases le_total e.val (c.val * s) with h1 | h1
      · rw [min_eq_left h1, sub_self, abs_zero]
        positivity
      · rw [min_eq_right h1, abs_of_nonneg (by linarith)]
        have k1 : (1 - u) * s ≤ c.val := by linarith
        have k2 : (1 - u) * e.val ≤ c.val * s := by nlinarith
        have k3 : e.val ≤ 2 * (c.val * s) := by nlinarith
        have := mul_le_mul_of_nonneg_left k3 hu
        nlinarith [mul_nonneg hu (mul_nonneg hc.le s0)]
    · rename_i h
      have h' : c.val ≤ a.val := not_lt.1 h
      have hap : 0 < a.val := by linarith
      have hsp : 0 < s := by nlinarith
      obtain ⟨q1, q2⟩ := hr (c.val / a.val) (by positivity)
      have q0 : 0 ≤ cutOff p (c.val / a.val) := le_trans (mul_nonneg (by linarith) (by positivity)) q1
      obtain ⟨m1, m2⟩ := hr (cutOff p (c.val / a.val) * e.val) (mul_nonneg q0 he)
      exact huber_far hu hu8 hc s0 he s2 ha1 ha2 h' q1 q2 m1 m2
  refine ⟨fun e he => ?_, key⟩
  have : (e * digitsHuber c (digitsSqrt e)).val = (digitsHuber c (digitsSqrt e) * e).val := by
    show cutOff p _ = cutOff p _
    rw [mul_comm]
  rw [this]
  exact key e he

end Digits

/-- C112 with `p + 1` binary digits and point-to-plane factors with normals of components up to one: tree and registration succeed, and no iteration increases the robust cost of its pairs by more than the
stated errors. -/
theorem C112_digits {p : ℕ} (hp : 3 ≤ p) {H B M D : Type} [Zero H] [Add H] [Zero B] [Add B] (E0 : Machine.Eval (Digits p) (Pose (Digits p)) H B M) {Z ε : ℝ} (hZ : 0 ≤ Z) (hε : 0 < ε) (hε' : ε ≤ 1 / 48)
    {tp sp normals : List (Fin 4 → Digits p)} (hu : 27 / 2 ^ p ≤ ε) (hsum : (1 + 1 / 2 ^ p) ^ (sp.length + 1) - 1 ≤ ε) {target source : Cloud (Fin 4 → Digits p) M} (ht : target.points = tp.map some)
    (hs : source.points = sp.map some) (hn : target.normals = normals.map some) (hne : tp ≠ []) (hN : tp.length < 2 ^ 32) (hnear : ∀ q ∈ tp, ∀ j, |(q j).val| ≤ Z) (hunit : ∀ n ∈ normals, ∀ j, |(n j).val| ≤ 1)
    (hsup : Supplied ⟨true, false⟩ target source) {wt sqrt : Digits p → Digits p} {ρ : ℝ → ℝ} {κ : ℝ} (hρ : IsKernel ρ) (hK : KernelAccuracy wt sqrt Digits.val ρ κ) (hκ : κ ≤ ε) (gate maxD : Digits p) (hmax : 17 * Z ^ 2 + 48 * (12 / 2 ^ p * Z) ^ 2 / ε < maxD.val) (junk : Nat × Digits p)
    (cfg : Machine.Config (Digits p) (Pose (Digits p)) H B D) (hrej : cfg.rejector = Machine.distanceRejector gate) (hU : ∀ T s, (cfg.updateLinearized T s).2.2 = s.2.2) (hU' : ∀ T e, cfg.updateError T e = e)
    (execL execE : Pose (Digits p) → List PlaneICP → Exec) (hexL : ∀ T fs, (execL T fs).Complete fs.length) (hexE : ∀ T fs, (execE T fs).Complete fs.length)
    (st : Machine.LMSetting (Digits p)) (T0 : Pose (Digits p)) (Good : Pose (Digits p) → Prop) (hG0 : Good T0) (hG : ∀ T d, Good T → Good (cfg.step T d))
    (hreach : ∀ T, Good T → ∀ x ∈ sp, Reach Digits.val (digitsPose T) Z x) {fuel : Nat} (hfuel : tp.length < fuel) :
    ∃ points t r fs log, Machine.cloudPoints target = .ok points ∧ KdTree.construct (digitsEval E0).ops ⟨20, findAxis (digitsEval E0).ops 128, fun l _ => isort l⟩ fuel points = .ok t ∧
      Machine.align (Machine.robust (digitsEval E0) wt sqrt (Machine.planeFactor (digitsEval E0))) (Machine.cloudWorld target source (Machine.kdNearest (digitsEval E0) maxD points t fuel junk)) cfg execL execE (.lm st) T0 source.size = .ok (r, fs, log) ∧
      ∀ it ∈ log, ∀ pairs, pairs = weightedPairs (Machine.planeFactor (digitsEval E0)) (fun f => Matrix.diagonal fun j => ((normals[f.target]?.getD 0) j).val ^ 2) it.factors →
        frozenRobustCost ρ (tp.map (vals Digits.val)) (sp.map (vals Digits.val)) pairs (digitsPose it.T1) ≤
          (1 + 30 * ε) * frozenRobustCost ρ (tp.map (vals Digits.val)) (sp.map (vals Digits.val)) pairs (digitsPose it.T0) + 16 * sp.length * (24 * (12 / 2 ^ p * Z) ^ 2 / ε) := by
  have hsl : 2 * icpSlack (9 * (1 / 2 ^ p)) (1 / 2 ^ p) 0 Z ε = 48 * (12 / 2 ^ p * Z) ^ 2 / ε := by unfold icpSlack; ring
  have hfs : frozenSlack (9 * (1 / 2 ^ p)) (1 / 2 ^ p) 0 Z ε 4 = 24 * (12 / 2 ^ p * Z) ^ 2 / ε := by unfold frozenSlack; ring
  have hpos : (0 : ℝ) < 1 / 2 ^ p := by positivity
  obtain ⟨big, hb1, hb2⟩ : ∃ big : ℝ, 3 * Z ≤ big ∧ (1 + 1 / 2 ^ p) ^ sp.length * (sp.length * (2 * (3 * 4 * Z ^ 2 + frozenSlack (9 * (1 / 2 ^ p)) (1 / 2 ^ p) 0 Z ε 4))) ≤ big :=
    ⟨max _ _, le_max_left _ _, le_max_right _ _⟩
  have hu' : 27 * (1 / 2 ^ p : ℝ) ≤ ε := le_trans (le_of_eq (by ring)) hu
  have hin : PairInputs (digitsEval E0) Digits.val digitsPose (cutOff p) (1 / 2 ^ p) big (9 * (1 / 2 ^ p)) 0 Z ε tp sp target source :=
    ⟨digits_arith E0 _, accuracy_weaken (digits_accuracy E0 hp hZ) hZ (by linarith), hZ, hb1, hε, by linarith, by linarith, by linarith, ht, hs, hN, hnear⟩
  have htl : target.size = tp.length := by simp [Cloud.size, ht]
  have hleaf : SafeLeafSize 20 := by unfold SafeLeafSize toU64; decide
  have hfind := findAxis_spec (digitsEval E0).ops 128 (by unfold toU64; decide)
  obtain ⟨points, t, h1, h2, h3⟩ := C100_no_fault (D := D) (E := digitsEval E0) (.robust wt sqrt .plane) hsup (by rw [htl]; exact List.length_pos_iff.2 hne) (by rw [htl]; exact hN)
    ⟨20, findAxis (digitsEval E0).ops 128, fun l _ => isort l⟩ isort_nthElementSpec.perm (fun pts range a b => by obtain ⟨q, hq, -⟩ := hfind pts range a b; exact ⟨q, hq, trivial⟩)
    hleaf (fuelB := fuel) (fuel := fuel) (by omega) (by omega)
  obtain ⟨r, fs, log, h4, -⟩ := h3 maxD junk cfg execL execE hexL hexE (.lm st) T0
  have hpl : points.length = tp.length := by rw [cloud_points_eq ht h1, List.length_map]
  obtain ⟨hd, hit⟩ := C97_levenberg_marquardt _ (show ∀ T e, (Machine.problem (Machine.robust (digitsEval E0) wt sqrt (Machine.planeFactor (digitsEval E0))) (Machine.cloudWorld target source
    (Machine.kdNearest (digitsEval E0) maxD points t fuel junk)) cfg execL execE).updateError T e = e from hU') st T0 _ h4
  have hposes := linked_poses (Good := Good) hG0 hd.linked (fun it hm hT => by
    rcases hst : it.step with _ | d
    · rw [((hit it hm).kept hst).1]; exact hT
    · rw [((hit it hm).applied d hst).2.1]; exact hG _ _ hT)
  have := C112_descent hin hε' hne (.plane (normals := normals)) (digits_terms E0 hp Z fun _ => 0) (digits_nonneg E0) hρ hK hκ hsup (fun _ => hn) (by norm_num) (by linarith) hb2 ⟨20, findAxis (digitsEval E0).ops 128, fun l _ => isort l⟩
    isort_nthElementSpec hfind hleaf h1 (fuelB := fuel) (fuel := fuel) (by omega) (by omega) h2 (maxD := maxD) (by rw [hsl]; exact hmax) junk cfg hrej hU hU' execL execE hexL hexE st T0 h4
    (fun it hm x hx => ⟨hreach _ (hposes it hm).1 x hx, hreach _ (hposes it hm).2 x hx⟩) (fun it hm f hf _ => ⟨trivial, plane_moderate hunit _⟩)
  rw [hfs] at this
  refine ⟨points, t, r, fs, log, h1, h2, h4, fun it hm pairs hpr => ?_⟩
  rw [hpr]
  exact this it hm

/-- Point-to-plane registration with Huber's kernel of width one, of corners of a cube, thousand source points, any number of iterations; steps go back and forth. -/
example (E0 : Machine.Eval (Digits 52) (Pose (Digits 52)) (Digits 52) (Digits 52) Unit) (corners : List (Bool × Bool × Bool)) (hc : corners.length = 999) (st : Machine.LMSetting (Digits 52))
    (back : Pose (Digits 52) → Digits 52 → Bool) (conv : Digits 52 → Bool) (delta : Digits 52 → Digits 52 → Digits 52 → Digits 52) :
    let tp := [digitsPoint 52 true false false, digitsPoint 52 true true false]
    let normals : List (Fin 4 → Digits 52) := [![digitsOne 52, 0, 0, 0], ![0, digitsOne 52, 0, 0]]
    let sp := corners.map fun x => digitsPoint 52 x.1 x.2.1 x.2.2
    let target : Cloud (Fin 4 → Digits 52) Unit := ⟨tp.map some, normals.map some, []⟩
    let source : Cloud (Fin 4 → Digits 52) Unit := ⟨sp.map some, [], []⟩
    let cfg : Machine.Config (Digits 52) (Pose (Digits 52)) (Digits 52) (Digits 52) (Digits 52) :=
      ⟨Machine.distanceRejector (digitsOne 52), fun _ s => s, fun _ e => e, delta, fun T d => if back T d then digitsId 52 else digitsShift 52, conv⟩
    ∃ points t r fs log, Machine.cloudPoints target = .ok points ∧ KdTree.construct (digitsEval E0).ops ⟨20, findAxis (digitsEval E0).ops 128, fun l _ => isort l⟩ 3 points = .ok t ∧
      Machine.align (Machine.robust (digitsEval E0) (digitsHuber (digitsOne 52)) digitsSqrt (Machine.planeFactor (digitsEval E0))) (Machine.cloudWorld target source (Machine.kdNearest (digitsEval E0) (digitsMany 52) points t 3 (0, 0))) cfg (fun _ _ => .serial) (fun _ _ => .serial)
        (.lm st) (digitsId 52) source.size = .ok (r, fs, log) ∧
      ∀ it ∈ log, ∀ pairs, pairs = weightedPairs (Machine.planeFactor (digitsEval E0)) (fun f => Matrix.diagonal fun j => ((normals[f.target]?.getD 0) j).val ^ 2) it.factors →
        frozenRobustCost (huberError 1) (tp.map (vals Digits.val)) (sp.map (vals Digits.val)) pairs (digitsPose it.T1) ≤
          (1 + 30 * (1 / 10 ^ 12)) * frozenRobustCost (huberError 1) (tp.map (vals Digits.val)) (sp.map (vals Digits.val)) pairs (digitsPose it.T0) + 1 / 10 ^ 10 := by
  intro tp normals sp target source cfg
  have v1 : (digitsOne 52).val = 1 := rfl
  have v0 : (0 : Digits 52).val = 0 := rfl
  have hlen : sp.length = 999 := by simp [sp, hc]
  have hpt : ∀ a b c j, |(digitsPoint 52 a b c j).val| ≤ 1 := by
    intro a b c j
    fin_cases j <;> simp only [digitsPoint] <;> cases a <;> cases b <;> cases c <;> simp [v0, v1]
  have hent : ∀ T, T = digitsId 52 ∨ T = digitsShift 52 → ∀ i j, |(digitsPose T).matrix i j| ≤ 1 := by
    rintro T (rfl | rfl) i j <;> fin_cases i <;> fin_cases j <;> simp [digitsPose, Pose.matrix, digitsId, digitsShift, v0, v1]
  obtain ⟨points, t, r, fs, log, h1, h2, h3, h4⟩ := C112_digits (p := 52) (by norm_num) E0 (Z := 4) (ε := 1 / 10 ^ 12) (by norm_num) (by positivity) (by norm_num) (tp := tp) (sp := sp) (normals := normals)
    (by norm_num)
    (by
      rw [hlen, show 999 + 1 = 1000 from rfl]
      have hb : (1 + 1 / 2 ^ 52 : ℝ) ^ 1000 ≤ 1 + 1 / 10 ^ 12 := by
        have h := one_add_mul_le_pow (show (-2 : ℝ) ≤ -(1 / 2 ^ 52 / (1 + 1 / 2 ^ 52)) by norm_num) 1000
        have e : (1 : ℝ) + -(1 / 2 ^ 52 / (1 + 1 / 2 ^ 52)) = (1 + 1 / 2 ^ 52)⁻¹ := by norm_num
        rw [e, inv_pow] at h
        have h5 : (1 + 1 / 10 ^ 12 : ℝ)⁻¹ ≤ ((1 + 1 / 2 ^ 52 : ℝ) ^ 1000)⁻¹ := le_trans (by norm_num) h
        exact (inv_le_inv₀ (by positivity) (by positivity)).1 h5
      exact sub_le_iff_le_add'.2 hb)
    (target := target) (source := source) rfl rfl rfl (by simp [tp]) (by simp [tp]) (by
      intro q hq j
      simp only [tp, List.mem_cons, List.not_mem_nil, or_false] at hq
      rcases hq with rfl | rfl <;> exact (hpt _ _ _ _).trans (by norm_num))
    (by
      intro n hn j
      simp only [normals, List.mem_cons, List.not_mem_nil, or_false] at hn
      rcases hn with rfl | rfl <;> fin_cases j <;> simp [v0, v1])
    (by
      refine ⟨?_, ?_, ?_, (by intro h; cases h), (by intro h; cases h)⟩
      · intro i hi
        have hi' : i < tp.length := by simpa [Cloud.size, target] using hi
        exact ⟨tp[i], by simp [target, hi']⟩
      · intro i hi
        have hi' : i < sp.length := by simpa [Cloud.size, source] using hi
        exact ⟨sp[i], by simp [source, hi']⟩
      · intro _ i hi
        have hi' : i < normals.length := by simpa [Cloud.size, target, tp, normals] using hi
        exact ⟨normals[i], by simp [target, hi']⟩)
    (.huber 1 one_pos) (digits_huber (p := 52) (by norm_num) (digitsOne 52) one_pos) (by norm_num) (digitsOne 52) (digitsMany 52) (by
      have h := abs_le.1 (cutOff_rel 52 16000)
      have e : (digitsMany 52).val = cutOff 52 16000 := rfl
      rw [e]
      have h5 := h.1
      norm_num at h5 ⊢
      linarith) (0, 0) cfg rfl (fun _ _ => rfl) (fun _ _ => rfl) (fun _ _ => .serial) (fun _ _ => .serial) (fun _ _ => trivial) (fun _ _ => trivial) st (digitsId 52)
    (fun T => T = digitsId 52 ∨ T = digitsShift 52) (.inl rfl) (by
      intro T d _
      rcases hb : back T d with _ | _
      · exact .inr (by simp [cfg, hb])
      · exact .inl (by simp [cfg, hb]))
    (by
      intro T hT x hx j
      obtain ⟨⟨a, b, c⟩, -, rfl⟩ := List.mem_map.1 hx
      calc _ ≤ ∑ _k : Fin 4, (1 : ℝ) := Finset.sum_le_sum fun k _ => by
            have := mul_le_mul (hent T hT j k) (hpt a b c k) (abs_nonneg _) zero_le_one
            simpa using this
        _ = 4 := by simp) (fuel := 3) (by simp [tp])
  refine ⟨points, t, r, fs, log, h1, h2, h3, fun it hit pairs hpr => (h4 it hit pairs hpr).trans ?_⟩
  rw [hlen]
  refine add_le_add_right ?_ _
  norm_num

end Verif.Props
