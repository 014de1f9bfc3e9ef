import Verif.Props.FrozenDigits

/-!
C111 for numbers with `p + 1` binary digits and GICP factors.
-/

set_option linter.unusedSectionVars false
set_option linter.unusedSimpArgs false
set_option linter.unnecessarySeqFocus false

namespace Verif.Props

open Matrix Verif Verif.Knn Verif.KdTree Verif.Proofs Verif.Proofs.RegMem Verif.Factors Verif.Reduction Verif.PointCloud Verif.RegMem Verif.Spec

section Run

variable {V P H B M D F : Type} [LinearOrder V] [Zero V] [Add V] [Sub V] [Mul V] [Div V] [Zero H] [Add H] [Zero B] [Add B] {E : Machine.Eval V P H B M} {val : V → ℝ} {rnd : ℝ → ℝ} {u big : ℝ} {pose : P → Pose ℝ}
  {γ lam Z ε L : ℝ} {tp sp normals : List (Fin 4 → V)} {target source : Cloud (Fin 4 → V) M} {mval : M → Matrix (Fin 4) (Fin 4) ℝ} {fine : M → Prop} {needs : Needs} {mf : Machine.Factor F V P H B M}
  {weight : F → Matrix (Fin 4) (Fin 4) ℝ} {ok : F → Prop}

/-- Factors in the log of a run of Levenberg-Marquardt are as a linearisation has left them. -/
theorem logged_factor (h : PairInputs E val pose rnd u big γ lam Z ε tp sp target source) (hne : tp ≠ []) (hf : LibraryFactor E F needs mf) (hs : Supplied needs target source)
    (b : KdTree.Builder V) (hnth : NthElementSpec b.nthElement) (hfind : FindAxisSpec (fun p => ∃ a, p = .axis a) b.findAxis) (hm : SafeLeafSize b.maxLeafSize)
    {points : List (Pt V)} (hpts : Machine.cloudPoints target = .ok points) {fuelB fuel : Nat} (hfB : points.length < fuelB) (hfuel : points.length < fuel)
    {t : KdTree.Tree V} (ht : KdTree.construct E.ops b fuelB points = .ok t) {maxD : V} (hmax : 17 * Z ^ 2 + 2 * icpSlack γ u lam Z ε < val maxD) (junk : Nat × V)
    {gate : V} (cfg : Machine.Config V P H B D) (hrej : cfg.rejector = Machine.distanceRejector gate) (hU' : ∀ T e, cfg.updateError T e = e)
    (execL execE : P → List F → Exec) (hexL : ∀ T fs, (execL T fs).Complete fs.length) (st : Machine.LMSetting V) (T0 : P) {r fs log}
    (hrun : Machine.align mf (Machine.cloudWorld target source (Machine.kdNearest E maxD points t fuel junk)) cfg execL execE (.lm st) T0 source.size = .ok (r, fs, log))
    (hreach : ∀ it ∈ log, ∀ p ∈ sp, Reach val (pose it.T0) Z p ∧ Reach val (pose it.T1) Z p) :
    ∀ it ∈ log, ∀ f ∈ it.factors, ∃ i f0 o, mf.linearize (Machine.cloudWorld target source (Machine.kdNearest E maxD points t fuel junk)) (Machine.distanceRejector gate) it.T0 i f0 = .ok (f, o) := by
  have hnn := searches_least h hne b hnth hfind hm hpts hfB hfuel ht hmax junk
  let nn := Machine.kdNearest E maxD points t fuel junk
  let pr := Machine.problem mf (Machine.cloudWorld target source nn) cfg execL execE
  have hsz : source.size = sp.length := by simp [Cloud.size, h.sourcePoints]
  have hrun' : Machine.levenbergMarquardt pr st T0 (List.replicate source.size mf.init) = .ok (r, fs, log) := hrun
  obtain ⟨hd, hit⟩ := C97_levenberg_marquardt pr hU' st T0 _ hrun'
  have hlin : ∀ T fs fs' s, (∀ p ∈ sp, Reach val (pose T) Z p) → fs.length = sp.length → pr.linearize T fs = .ok (fs', s) → fs'.length = sp.length := by
    intro T fs fs' s hT hl hlin
    have hlin' : reduceLinearize (mf.linearize (Machine.cloudWorld target source nn) cfg.rejector T) (execL T fs) fs = .ok (fs', s) := hlin
    rw [hrej] at hlin'
    exact (pairs_linearize h hnn hf hs hT hl (hexL T fs) hlin').2.2
  have hinv : ∀ it ∈ log, ∃ fs1 s, fs1.length = sp.length ∧ pr.linearize it.T0 fs1 = .ok (it.factors, s) ∧ pr.updateLinearized it.T0 s = (it.H, it.b, it.e0) := by
    simp only [Machine.levenbergMarquardt, bind, Except.bind] at hrun'
    rcases hn : Machine.lmLoop pr st.lambdaFactor st.maxInner.toNat st.maxIterations.toNat 0 st.initLambda (Machine.Result.init T0) (List.replicate source.size mf.init) with x | ⟨r1, fs1, log1⟩
    · rw [hn] at hrun'; simp at hrun'
    rw [hn] at hrun'
    simp only [Except.ok.injEq, Prod.mk.injEq] at hrun'
    obtain ⟨-, -, rfl⟩ := hrun'
    exact machine_lm_inv pr (fun T => ∀ p ∈ sp, Reach val (pose T) Z p) (fun fs => fs.length = sp.length) (fun T fs fs' s hT hl hlin' => hlin T fs fs' s hT hl hlin') _ _ _ _ _ _ _ (by simp [hsz]) hn
      (fun it hit p hp => (hreach it hit p hp).1)
  intro it hmem
  obtain ⟨fs1, s, b1, b2, b3⟩ := hinv it hmem
  have b2' : reduceLinearize (mf.linearize (Machine.cloudWorld target source nn) (Machine.distanceRejector gate) it.T0) (execL it.T0 fs1) fs1 = .ok (it.factors, s) := by
    rw [← hrej]; exact b2
  have hok : ∀ i f, i < sp.length → ∃ r, mf.linearize (Machine.cloudWorld target source nn) (Machine.distanceRejector gate) it.T0 i f = .ok r := by
    intro i f hi
    have hp := List.getElem?_eq_getElem hi
    obtain ⟨o, h1, h2, -⟩ := pair_search (gate := gate) h hnn hp ((hreach it hmem _ (List.getElem_mem hi)).1)
    obtain ⟨f', c', g1, -⟩ := factor_records hf hs (cloud_point h.sourcePoints hp) (by simpa [h.sourcePoints] using hi) h1 (fun k hk => by
      obtain ⟨q, hq, -⟩ := h2 k hk
      have hkl := (List.getElem?_eq_some_iff.1 hq).1
      refine ⟨by simpa [h.targetPoints] using hkl, ?_⟩
      have := h.size
      unfold npos
      omega) f
    exact ⟨_, g1⟩
  have hgi : ∀ i f, i < fs1.length → mf.linearize (Machine.cloudWorld target source nn) (Machine.distanceRejector gate) it.T0 i f =
      .ok (okOr (f, none) (mf.linearize (Machine.cloudWorld target source nn) (Machine.distanceRejector gate) it.T0 i f)) := by
    intro i f hi
    obtain ⟨r, hr⟩ := hok i f (by omega)
    simp only [hr, okOr]
  obtain ⟨s', hs1, -⟩ := reduce_sum fs1 hgi (execL it.T0 fs1) (hexL _ _)
  rw [b2'] at hs1
  have e := (Prod.mk.inj (Except.ok.inj hs1)).1
  intro f hfm
  rw [e] at hfm
  obtain ⟨i, hi, rfl⟩ := List.mem_iff_getElem.1 hfm
  have hi' : i < fs1.length := by simpa using hi
  obtain ⟨⟨f1, o1⟩, hr⟩ := hok i fs1[i] (by omega)
  refine ⟨i, fs1[i], o1, hr.trans ?_⟩
  rw [List.getElem_mapIdx, hr]
  rfl

end Run

section Digits

variable {p : ℕ} {H B : Type}

/-- Matrices of these numbers. -/
abbrev DigitsMat (p : ℕ) := Fin 4 → Fin 4 → Digits p

/-- The exact value of a matrix. -/
noncomputable def digitsMat (m : DigitsMat p) : Matrix (Fin 4) (Fin 4) ℝ := fun i j => (m i j).val

/-- `0.5 * residual.transpose() * mahalanobis * residual` (gicp_factor.hpp:70, 88), from left to right; halving is exact. -/
noncomputable def digitsQuad (r : Fin 4 → Digits p) (m : DigitsMat p) : Digits p :=
  Digits.dot (fun j => Digits.dot (fun i => (⟨(r i).1 / 2, by rw [cutOff_half, (r i).2]⟩ : Digits p)) fun i => m i j) r

/-- `E0` with this quadratic form. -/
noncomputable def withQuad (E0 : Machine.Eval (Digits p) (Pose (Digits p)) H B (DigitsMat p)) : Machine.Eval (Digits p) (Pose (Digits p)) H B (DigitsMat p) := { E0 with quad := digitsQuad }

/-- Condition of a matrix: the quadratic form against the sum of the absolute values of its terms. -/
def Conditioned (K : ℝ) (m : DigitsMat p) : Prop := ∀ r : Fin 4 → ℝ, ∑ j, (∑ i, |r i| * |(m i j).val|) * |r j| ≤ K * (r ⬝ᵥ digitsMat m *ᵥ r)

theorem conditioned_nonneg {K : ℝ} (hK : 1 ≤ K) {m : DigitsMat p} (h : Conditioned K m) (v : Fin 4 → ℝ) : 0 ≤ v ⬝ᵥ digitsMat m *ᵥ v := by
  have h0 : 0 ≤ ∑ j, (∑ i, |v i| * |(m i j).val|) * |v j| := Finset.sum_nonneg fun j _ => mul_nonneg (Finset.sum_nonneg fun i _ => by positivity) (abs_nonneg _)
  exact nonneg_of_mul_nonneg_right (h0.trans (h v)) (by linarith)

theorem quad_digits_error (hp : 3 ≤ p) (r : Fin 4 → Digits p) (m : DigitsMat p) :
    |(digitsQuad r m).val - ((fun j => (r j).val) ⬝ᵥ digitsMat m *ᵥ fun j => (r j).val) / 2| ≤ 14 * (1 / 2 ^ p) * ((∑ j, (∑ i, |(r i).val| * |(m i j).val|) * |(r j).val|) / 2) := by
  set u : ℝ := 1 / 2 ^ p with hudef
  have hu : 0 ≤ u := by positivity
  have hu8 : u ≤ 1 / 8 := by
    have : (8 : ℝ) ≤ 2 ^ p := by
      calc (8 : ℝ) = 2 ^ 3 := by norm_num
        _ ≤ 2 ^ p := pow_le_pow_right₀ (by norm_num) hp
    exact one_div_le_one_div_of_le (by norm_num) this
  let hlf : Fin 4 → Digits p := fun i => ⟨(r i).1 / 2, by rw [cutOff_half, (r i).2]⟩
  let v : Fin 4 → Digits p := fun j => Digits.dot hlf fun i => m i j
  let A : Fin 4 → ℝ := fun j => ∑ i, |(r i).val| * |(m i j).val|
  let x : Fin 4 → ℝ := fun j => ∑ i, (r i).val * (m i j).val
  have hhv : ∀ i, (hlf i).val = (r i).val / 2 := fun _ => rfl
  have A0 : ∀ j, 0 ≤ A j := fun j => Finset.sum_nonneg fun i _ => by positivity
  have hv : ∀ j, |(v j).val - x j / 2| ≤ 5 * u * (A j / 2) := by
    intro j
    have := dot_error hp hlf fun i => m i j
    simp only [hhv] at this
    have e1 : ∑ k, (r k).val / 2 * (m k j).val = x j / 2 := by simp only [x, Finset.sum_div]; exact Finset.sum_congr rfl fun i _ => by ring
    have e2 : ∑ k, |(r k).val / 2| * |(m k j).val| = A j / 2 := by
      simp only [A, Finset.sum_div]
      exact Finset.sum_congr rfl fun i _ => by rw [abs_div, abs_two]; ring
    rw [e1, e2] at this
    exact this
  have hx : ∀ j, |x j| ≤ A j := fun j => (Finset.abs_sum_le_sum_abs _ _).trans (le_of_eq (Finset.sum_congr rfl fun i _ => abs_mul _ _))
  have hva : ∀ j, |(v j).val| ≤ (1 + 5 * u) * (A j / 2) := by
    intro j
    have h1 : |(v j).val| ≤ |(v j).val - x j / 2| + |x j / 2| := by simpa using abs_add_le ((v j).val - x j / 2) (x j / 2)
    have h2 : |x j / 2| = |x j| / 2 := by rw [abs_div, abs_two]
    have := hv j
    have := hx j
    linarith
  have h1 := dot_error hp v r
  have e0 : digitsQuad r m = Digits.dot v r := rfl
  set S := ∑ j, A j * |(r j).val| with hS
  have s1 : ∑ k, |(v k).val| * |(r k).val| ≤ (1 + 5 * u) * (S / 2) := by
    calc _ ≤ ∑ k, (1 + 5 * u) * (A k / 2) * |(r k).val| := Finset.sum_le_sum fun k _ => mul_le_mul_of_nonneg_right (hva k) (abs_nonneg _)
      _ = _ := by rw [hS, Finset.sum_div, Finset.mul_sum]; exact Finset.sum_congr rfl fun k _ => by ring
  have s2 : |∑ k, (v k).val * (r k).val - ∑ k, x k / 2 * (r k).val| ≤ 5 * u * (S / 2) := by
    rw [← Finset.sum_sub_distrib]
    refine (Finset.abs_sum_le_sum_abs _ _).trans ?_
    calc _ ≤ ∑ k, 5 * u * (A k / 2) * |(r k).val| := Finset.sum_le_sum fun k _ => by
          rw [← sub_mul, abs_mul]
          exact mul_le_mul_of_nonneg_right (hv k) (abs_nonneg _)
      _ = _ := by rw [hS, Finset.sum_div, Finset.mul_sum]; exact Finset.sum_congr rfl fun k _ => by ring
  have e3 : ∑ k, x k / 2 * (r k).val = ((fun j => (r j).val) ⬝ᵥ digitsMat m *ᵥ fun j => (r j).val) / 2 := by
    simp only [x, dotProduct, Matrix.mulVec, digitsMat, Fin.sum_univ_four]
    ring
  have S0 : 0 ≤ S := Finset.sum_nonneg fun j _ => mul_nonneg (A0 j) (abs_nonneg _)
  rw [e0, ← e3]
  have t1 := mul_le_mul_of_nonneg_left s1 (show 0 ≤ 5 * u by positivity)
  have t2 : |(Digits.dot v r).val - ∑ k, x k / 2 * (r k).val| ≤ |(Digits.dot v r).val - ∑ k, (v k).val * (r k).val| + |∑ k, (v k).val * (r k).val - ∑ k, x k / 2 * (r k).val| := abs_sub_le _ _ _
  have t3 : u * (u * S) ≤ 1 / 8 * (u * S) := mul_le_mul_of_nonneg_right hu8 (mul_nonneg hu S0)
  have t4 := mul_nonneg hu S0
  have t5 : 5 * u * ((1 + 5 * u) * (S / 2)) = 5 / 2 * (u * S) + 25 / 2 * (u * (u * S)) := by ring
  have t6 : 14 * u * (S / 2) = 7 * (u * S) := by ring
  have t7 : 5 * u * (S / 2) = 5 / 2 * (u * S) := by ring
  show _ ≤ 14 * u * (S / 2)
  linarith

theorem digits_gicp_terms (E0 : Machine.Eval (Digits p) (Pose (Digits p)) H B (DigitsMat p)) (hp : 3 ≤ p) {K : ℝ} (hK : 1 ≤ K) (Z : ℝ) :
    TermAccuracy (digitsEval (withQuad E0)) Digits.val digitsMat (Conditioned K) (14 * K * (1 / 2 ^ p)) 0 Z := by
  have h := digits_terms (withQuad E0) hp Z digitsMat
  have hpos : (0 : ℝ) < 1 / 2 ^ p := by positivity
  have hKu : 1 / 2 ^ p ≤ K * (1 / 2 ^ p : ℝ) := by simpa using mul_le_mul_of_nonneg_right hK hpos.le
  have hg : 9 * (1 / 2 ^ p : ℝ) ≤ 14 * K * (1 / 2 ^ p) := by linarith
  refine ⟨fun r hr => (h.icp r hr).trans (add_le_add_left (mul_le_mul_of_nonneg_right hg ?_) _), fun n r hr => (h.plane n r hr).trans (add_le_add_left (mul_le_mul_of_nonneg_right hg ?_) _), ?_⟩
  · exact div_nonneg (Finset.sum_nonneg fun _ _ => sq_nonneg _) (by norm_num)
  · exact div_nonneg (Finset.sum_nonneg fun _ _ => sq_nonneg _) (by norm_num)
  · intro r m hm _
    have h1 := quad_digits_error hp r m
    have h2 := hm fun j => (r j).val
    refine h1.trans ?_
    have := mul_le_mul_of_nonneg_left h2 (show 0 ≤ 7 * (1 / 2 ^ p : ℝ) by positivity)
    linarith

/-- The matrix a GICP factor with a partner stores. -/
theorem gicp_stored {V P H B M : Type} [Sub V] {E : Machine.Eval V P H B M} [Zero V] {w : Machine.World V M} {rej : Machine.Rejector V P} {T : P} {i : Nat} {f f' : Machine.GICP M} {o : Option (H × B × V)}
    (hl : (Machine.gicpFactor E).linearize w rej T i f = .ok (f', o)) (hin : (Machine.gicpFactor E).inlier f' = true) : ∃ ct cs, f'.mahalanobis = E.mahalanobis f.mahalanobis ct cs T := by
  simp only [Machine.gicpFactor, Machine.gicpLinearize] at hl
  rcases hsr : Machine.search E w rej T i with x | ⟨v, k⟩
  · rw [hsr] at hl; simp [bind, Except.bind] at hl
  rw [hsr] at hl
  cases k with
  | none =>
    simp only [bind, Except.bind, Except.ok.injEq, Prod.mk.injEq] at hl
    obtain ⟨rfl, -⟩ := hl
    simp [Machine.gicpFactor] at hin
  | some k =>
    rcases hct : w.tgtCov k with x | ct
    · simp only [bind, Except.bind, hct] at hl; cases hl
    rcases hcs : w.srcCov i with x | cs
    · simp only [bind, Except.bind, hct, hcs] at hl; cases hl
    rcases htp : w.tgtPoint k with x | q
    · simp only [bind, Except.bind, hct, hcs, htp] at hl; cases hl
    rcases hp : w.srcPoint i with x | p
    · simp only [bind, Except.bind, hct, hcs, htp, hp] at hl; cases hl
    simp only [bind, Except.bind, hct, hcs, htp, hp, Except.ok.injEq, Prod.mk.injEq] at hl
    obtain ⟨rfl, -⟩ := hl
    exact ⟨ct, cs, rfl⟩

end Digits

/-- C111 with `p + 1` binary digits and GICP factors, if the Mahalanobis matrices have condition `K` and entries up to `L` in sum: tree and registration succeed, and no iteration increases the cost of its pairs
by more than the stated errors. -/
theorem C111_gicp_digits {p : ℕ} (hp : 3 ≤ p) {H B D : Type} [Zero H] [Add H] [Zero B] [Add B] (E0 : Machine.Eval (Digits p) (Pose (Digits p)) H B (DigitsMat p)) {K L Z ε : ℝ} (hK : 1 ≤ K) (hL : 0 ≤ L) (hmaha : ∀ old ct cs T, Conditioned K (E0.mahalanobis old ct cs T) ∧ ∑ i, ∑ j, |(E0.mahalanobis old ct cs T i j).val| ≤ L) (hZ : 0 ≤ Z) (hε : 0 < ε) (hε' : ε ≤ 1 / 16)
    {tp sp : List (Fin 4 → Digits p)} (hu : 42 * K / 2 ^ p ≤ ε) (hsum : (1 + 1 / 2 ^ p) ^ (sp.length + 1) - 1 ≤ ε) {target source : Cloud (Fin 4 → Digits p) (DigitsMat p)} (ht : target.points = tp.map some)
    (hs : source.points = sp.map some) (hne : tp ≠ []) (hN : tp.length < 2 ^ 32) (hnear : ∀ q ∈ tp, ∀ j, |(q j).val| ≤ Z)
    (hsup : Supplied ⟨false, true⟩ target source) (gate maxD : Digits p) (hmax : 17 * Z ^ 2 + 48 * ((14 * K + 3) / 2 ^ p * Z) ^ 2 / ε < maxD.val) (junk : Nat × Digits p)
    (cfg : Machine.Config (Digits p) (Pose (Digits p)) H B D) (hrej : cfg.rejector = Machine.distanceRejector gate) (hU : ∀ T s, (cfg.updateLinearized T s).2.2 = s.2.2) (hU' : ∀ T e, cfg.updateError T e = e)
    (execL execE : Pose (Digits p) → List (Machine.GICP (DigitsMat p)) → Exec) (hexL : ∀ T fs, (execL T fs).Complete fs.length) (hexE : ∀ T fs, (execE T fs).Complete fs.length)
    (st : Machine.LMSetting (Digits p)) (T0 : Pose (Digits p)) (Good : Pose (Digits p) → Prop) (hG0 : Good T0) (hG : ∀ T d, Good T → Good (cfg.step T d))
    (hreach : ∀ T, Good T → ∀ x ∈ sp, Reach Digits.val (digitsPose T) Z x) {fuel : Nat} (hfuel : tp.length < fuel) :
    ∃ points t r fs log, Machine.cloudPoints target = .ok points ∧ KdTree.construct (digitsEval (withQuad E0)).ops ⟨20, findAxis (digitsEval (withQuad E0)).ops 128, fun l _ => isort l⟩ fuel points = .ok t ∧
      Machine.align (Machine.gicpFactor (digitsEval (withQuad E0))) (Machine.cloudWorld target source (Machine.kdNearest (digitsEval (withQuad E0)) maxD points t fuel junk)) cfg execL execE (.lm st) T0 source.size = .ok (r, fs, log) ∧
      ∀ it ∈ log, ∀ pairs, pairs = weightedPairs (Machine.gicpFactor (digitsEval (withQuad E0))) (fun f => digitsMat f.mahalanobis) it.factors →
        frozenCost (tp.map (vals Digits.val)) (sp.map (vals Digits.val)) pairs (digitsPose it.T1) ≤
          (1 + 10 * ε) * frozenCost (tp.map (vals Digits.val)) (sp.map (vals Digits.val)) pairs (digitsPose it.T0) + 8 * sp.length * (6 * L * ((14 * K + 3) / 2 ^ p * Z) ^ 2 / ε) := by
  have hsl : 2 * icpSlack (14 * K * (1 / 2 ^ p)) (1 / 2 ^ p) 0 Z ε = 48 * ((14 * K + 3) / 2 ^ p * Z) ^ 2 / ε := by unfold icpSlack; ring
  have hfs : frozenSlack (14 * K * (1 / 2 ^ p)) (1 / 2 ^ p) 0 Z ε L = 6 * L * ((14 * K + 3) / 2 ^ p * Z) ^ 2 / ε := by unfold frozenSlack; ring
  have hpos : (0 : ℝ) < 1 / 2 ^ p := by positivity
  obtain ⟨big, hb1, hb2⟩ : ∃ big : ℝ, 3 * Z ≤ big ∧ (1 + 1 / 2 ^ p) ^ sp.length * (sp.length * (3 * L * Z ^ 2 + frozenSlack (14 * K * (1 / 2 ^ p)) (1 / 2 ^ p) 0 Z ε L)) ≤ big :=
    ⟨max _ _, le_max_left _ _, le_max_right _ _⟩
  have hKu : 1 / 2 ^ p ≤ K * (1 / 2 ^ p : ℝ) := by simpa using mul_le_mul_of_nonneg_right hK hpos.le
  have hu' : 42 * (K * (1 / 2 ^ p) : ℝ) ≤ ε := le_trans (le_of_eq (by ring)) hu
  have hin : PairInputs (digitsEval (withQuad E0)) Digits.val digitsPose (cutOff p) (1 / 2 ^ p) big (14 * K * (1 / 2 ^ p)) 0 Z ε tp sp target source :=
    ⟨digits_arith (withQuad E0) _, accuracy_weaken (digits_accuracy (withQuad E0) hp hZ) hZ (by linarith), hZ, hb1, hε, hε', by linarith, by linarith, ht, hs, hN, hnear⟩
  have htl : target.size = tp.length := by simp [Cloud.size, ht]
  have hleaf : SafeLeafSize 20 := by unfold SafeLeafSize toU64; decide
  have hfind := findAxis_spec (digitsEval (withQuad E0)).ops 128 (by unfold toU64; decide)
  obtain ⟨points, t, h1, h2, h3⟩ := C100_no_fault (D := D) (E := digitsEval (withQuad E0)) .gicp hsup (by rw [htl]; exact List.length_pos_iff.2 hne) (by rw [htl]; exact hN)
    ⟨20, findAxis (digitsEval (withQuad E0)).ops 128, fun l _ => isort l⟩ isort_nthElementSpec.perm (fun pts range a b => by obtain ⟨q, hq, -⟩ := hfind pts range a b; exact ⟨q, hq, trivial⟩)
    hleaf (fuelB := fuel) (fuel := fuel) (by omega) (by omega)
  obtain ⟨r, fs, log, h4, -⟩ := h3 maxD junk cfg execL execE hexL hexE (.lm st) T0
  have hpl : points.length = tp.length := by rw [cloud_points_eq ht h1, List.length_map]
  obtain ⟨hd, hit⟩ := C97_levenberg_marquardt _ (show ∀ T e, (Machine.problem (Machine.gicpFactor (digitsEval (withQuad E0))) (Machine.cloudWorld target source
    (Machine.kdNearest (digitsEval (withQuad E0)) maxD points t fuel junk)) cfg execL execE).updateError T e = e from hU') st T0 _ h4
  have hposes := linked_poses (Good := Good) hG0 hd.linked (fun it hm hT => by
    rcases hst : it.step with _ | d
    · rw [((hit it hm).kept hst).1]; exact hT
    · rw [((hit it hm).applied d hst).2.1]; exact hG _ _ hT)
  have hreach' : ∀ it ∈ log, ∀ x ∈ sp, Reach Digits.val (digitsPose it.T0) Z x ∧ Reach Digits.val (digitsPose it.T1) Z x :=
    fun it hm x hx => ⟨hreach _ (hposes it hm).1 x hx, hreach _ (hposes it hm).2 x hx⟩
  have hlog := logged_factor hin hne .gicp hsup ⟨20, findAxis (digitsEval (withQuad E0)).ops 128, fun l _ => isort l⟩
    isort_nthElementSpec hfind hleaf h1 (fuelB := fuel) (fuel := fuel) (by omega) (by omega) h2 (maxD := maxD) (by rw [hsl]; exact hmax) junk cfg hrej hU' execL execE hexL st T0 h4 hreach'
  have := C111_descent (normals := []) hin hne .gicp (digits_gicp_terms E0 hp hK Z) hsup (by intro h; cases h) hL hsum hb2 ⟨20, findAxis (digitsEval (withQuad E0)).ops 128, fun l _ => isort l⟩
    isort_nthElementSpec hfind hleaf h1 (fuelB := fuel) (fuel := fuel) (by omega) (by omega) h2 (maxD := maxD) (by rw [hsl]; exact hmax) junk cfg hrej hU hU' execL execE hexL hexE st T0 h4
    hreach' (fun it hm f hf hin => by
      obtain ⟨i, f0, o, hl⟩ := hlog it hm f hf
      obtain ⟨ct, cs, e⟩ := gicp_stored hl hin
      rw [e]
      exact ⟨(hmaha _ _ _ _).1, conditioned_nonneg hK (hmaha _ _ _ _).1, (hmaha _ _ _ _).2⟩)
  rw [hfs] at this
  refine ⟨points, t, r, fs, log, h1, h2, h4, fun it hm pairs hpr => ?_⟩
  rw [hpr]
  exact this it hm

/-- Matrices for the example: the identity on the first three coordinates, and a projection to the first axis. -/
noncomputable def digitsDiag (b : Fin 4 → Bool) : DigitsMat 52 := fun i j => if i = j ∧ b i = true ∧ i ≠ 3 then digitsOne 52 else 0

noncomputable def digitsRound : DigitsMat 52 := digitsDiag fun _ => true

noncomputable def digitsFlat : DigitsMat 52 := digitsDiag fun i => decide (i = 0)

theorem diag_val (b : Fin 4 → Bool) (i j : Fin 4) : (digitsDiag b i j).val = if i = j ∧ b i = true ∧ i ≠ 3 then 1 else 0 := by
  unfold digitsDiag
  split <;> rfl

theorem diag_conditioned (b : Fin 4 → Bool) : Conditioned 1 (digitsDiag b) := by
  intro r
  have h : ∀ x : ℝ, |x| * |x| = x * x := fun x => abs_mul_abs_self x
  simp only [digitsMat, dotProduct, Matrix.mulVec, diag_val, Fin.sum_univ_four]
  cases b 0 <;> cases b 1 <;> cases b 2 <;> simp [h]

theorem diag_entries (b : Fin 4 → Bool) : ∑ i, ∑ j, |(digitsDiag b i j).val| ≤ 3 := by
  simp only [diag_val, Fin.sum_univ_four]
  cases b 0 <;> cases b 1 <;> cases b 2 <;> simp <;> norm_num

/-- GICP on corners of a cube, thousand source points, any number of iterations; steps go back and forth. Mahalanobis matrices are the identity or a projection, chosen in any way. -/
example (E0 : Machine.Eval (Digits 52) (Pose (Digits 52)) (Digits 52) (Digits 52) (DigitsMat 52)) (corners : List (Bool × Bool × Bool)) (hc : corners.length = 999) (st : Machine.LMSetting (Digits 52))
    (cov : DigitsMat 52) (flat : DigitsMat 52 → DigitsMat 52 → Pose (Digits 52) → Bool)
    (back : Pose (Digits 52) → Digits 52 → Bool) (conv : Digits 52 → Bool) (delta : Digits 52 → Digits 52 → Digits 52 → Digits 52) :
    let E1 := { E0 with mahalanobis := fun _ ct cs T => if flat ct cs T then digitsFlat else digitsRound }
    let tp := [digitsPoint 52 true false false, digitsPoint 52 true true false]
    let sp := corners.map fun x => digitsPoint 52 x.1 x.2.1 x.2.2
    let target : Cloud (Fin 4 → Digits 52) (DigitsMat 52) := ⟨tp.map some, [], tp.map fun _ => some cov⟩
    let source : Cloud (Fin 4 → Digits 52) (DigitsMat 52) := ⟨sp.map some, [], sp.map fun _ => some cov⟩
    let cfg : Machine.Config (Digits 52) (Pose (Digits 52)) (Digits 52) (Digits 52) (Digits 52) :=
      ⟨Machine.distanceRejector (digitsOne 52), fun _ s => s, fun _ e => e, delta, fun T d => if back T d then digitsId 52 else digitsShift 52, conv⟩
    ∃ points t r fs log, Machine.cloudPoints target = .ok points ∧ KdTree.construct (digitsEval (withQuad E1)).ops ⟨20, findAxis (digitsEval (withQuad E1)).ops 128, fun l _ => isort l⟩ 3 points = .ok t ∧
      Machine.align (Machine.gicpFactor (digitsEval (withQuad E1))) (Machine.cloudWorld target source (Machine.kdNearest (digitsEval (withQuad E1)) (digitsMany 52) points t 3 (0, 0))) cfg (fun _ _ => .serial) (fun _ _ => .serial)
        (.lm st) (digitsId 52) source.size = .ok (r, fs, log) ∧
      ∀ it ∈ log, ∀ pairs, pairs = weightedPairs (Machine.gicpFactor (digitsEval (withQuad E1))) (fun f => digitsMat f.mahalanobis) it.factors →
        frozenCost (tp.map (vals Digits.val)) (sp.map (vals Digits.val)) pairs (digitsPose it.T1) ≤
          (1 + 10 * (1 / 10 ^ 12)) * frozenCost (tp.map (vals Digits.val)) (sp.map (vals Digits.val)) pairs (digitsPose it.T0) + 1 / 10 ^ 10 := by
  intro E1 tp sp target source cfg
  have v1 : (digitsOne 52).val = 1 := rfl
  have v0 : (0 : Digits 52).val = 0 := rfl
  have hlen : sp.length = 999 := by simp [sp, hc]
  have hpt : ∀ a b c j, |(digitsPoint 52 a b c j).val| ≤ 1 := by
    intro a b c j
    fin_cases j <;> simp only [digitsPoint] <;> cases a <;> cases b <;> cases c <;> simp [v0, v1]
  have hent : ∀ T, T = digitsId 52 ∨ T = digitsShift 52 → ∀ i j, |(digitsPose T).matrix i j| ≤ 1 := by
    rintro T (rfl | rfl) i j <;> fin_cases i <;> fin_cases j <;> simp [digitsPose, Pose.matrix, digitsId, digitsShift, v0, v1]
  have hmaha : ∀ old ct cs T, Conditioned 1 (E1.mahalanobis old ct cs T) ∧ ∑ i, ∑ j, |(E1.mahalanobis old ct cs T i j).val| ≤ 3 := by
    intro old ct cs T
    have e : E1.mahalanobis old ct cs T = if flat ct cs T then digitsFlat else digitsRound := rfl
    rw [e]
    split
    · exact ⟨diag_conditioned _, diag_entries _⟩
    · exact ⟨diag_conditioned _, diag_entries _⟩
  obtain ⟨points, t, r, fs, log, h1, h2, h3, h4⟩ := C111_gicp_digits (p := 52) (by norm_num) E1 (K := 1) (L := 3) (Z := 4) (ε := 1 / 10 ^ 12) le_rfl (by norm_num) hmaha (by norm_num) (by positivity) (by norm_num) (tp := tp) (sp := sp)
    (by norm_num)
    (by
      rw [hlen, show 999 + 1 = 1000 from rfl]
      have hb : (1 + 1 / 2 ^ 52 : ℝ) ^ 1000 ≤ 1 + 1 / 10 ^ 12 := by
        have h := one_add_mul_le_pow (show (-2 : ℝ) ≤ -(1 / 2 ^ 52 / (1 + 1 / 2 ^ 52)) by norm_num) 1000
        have e : (1 : ℝ) + -(1 / 2 ^ 52 / (1 + 1 / 2 ^ 52)) = (1 + 1 / 2 ^ 52)⁻¹ := by norm_num
        rw [e, inv_pow] at h
        have h5 : (1 + 1 / 10 ^ 12 : ℝ)⁻¹ ≤ ((1 + 1 / 2 ^ 52 : ℝ) ^ 1000)⁻¹ := le_trans (by norm_num) h
        exact (inv_le_inv₀ (by positivity) (by positivity)).1 h5
      exact sub_le_iff_le_add'.2 hb)
    (target := target) (source := source) rfl rfl (by simp [tp]) (by simp [tp]) (by
      intro q hq j
      simp only [tp, List.mem_cons, List.not_mem_nil, or_false] at hq
      rcases hq with rfl | rfl <;> exact (hpt _ _ _ _).trans (by norm_num))
    (by
      refine ⟨?_, ?_, (by intro h; cases h), ?_, ?_⟩
      · intro i hi
        have hi' : i < tp.length := by simpa [Cloud.size, target] using hi
        exact ⟨tp[i], by simp [target, hi']⟩
      · intro i hi
        have hi' : i < sp.length := by simpa [Cloud.size, source] using hi
        exact ⟨sp[i], by simp [source, hi']⟩
      · intro _ i hi
        have hi' : i < tp.length := by simpa [Cloud.size, target] using hi
        exact ⟨cov, by simp [target, hi']⟩
      · intro _ i hi
        have hi' : i < sp.length := by simpa [Cloud.size, source] using hi
        exact ⟨cov, by simp [source, hi']⟩)
    (digitsOne 52) (digitsMany 52) (by
      have h := abs_le.1 (cutOff_rel 52 16000)
      have e : (digitsMany 52).val = cutOff 52 16000 := rfl
      rw [e]
      have h5 := h.1
      norm_num at h5 ⊢
      linarith) (0, 0) cfg rfl (fun _ _ => rfl) (fun _ _ => rfl) (fun _ _ => .serial) (fun _ _ => .serial) (fun _ _ => trivial) (fun _ _ => trivial) st (digitsId 52)
    (fun T => T = digitsId 52 ∨ T = digitsShift 52) (.inl rfl) (by
      intro T d _
      rcases hb : back T d with _ | _
      · exact .inr (by simp [cfg, hb])
      · exact .inl (by simp [cfg, hb]))
    (by
      intro T hT x hx j
      obtain ⟨⟨a, b, c⟩, -, rfl⟩ := List.mem_map.1 hx
      calc _ ≤ ∑ _k : Fin 4, (1 : ℝ) := Finset.sum_le_sum fun k _ => by
            have := mul_le_mul (hent T hT j k) (hpt a b c k) (abs_nonneg _) zero_le_one
            simpa using this
        _ = 4 := by simp) (fuel := 3) (by simp [tp])
  refine ⟨points, t, r, fs, log, h1, h2, h3, fun it hit pairs hpr => (h4 it hit pairs hpr).trans ?_⟩
  rw [hlen]
  refine add_le_add_right ?_ _
  norm_num

end Verif.Props
