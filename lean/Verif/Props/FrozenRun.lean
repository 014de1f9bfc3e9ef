import Verif.Props.FrozenDescent

/-!
C111, continued: sums of the terms, and the iterations of Levenberg-Marquardt.
-/

set_option linter.unusedSectionVars false
set_option linter.unusedSimpArgs false
set_option linter.unnecessarySeqFocus false

namespace Verif.Props

open Matrix Verif Verif.Knn Verif.KdTree Verif.Proofs Verif.Proofs.RegMem Verif.Factors Verif.Reduction Verif.PointCloud Verif.RegMem Verif.Spec

theorem sum_contributed {F S : Type} (c : S → ℝ) : ∀ l : List (F × Option S), (((l.map Prod.snd).filterMap id).map c).sum = (l.map fun r => r.2.elim 0 c).sum
  | [] => by simp
  | (f, o) :: l => by
    have ih := sum_contributed c l
    cases o with
    | none => rw [List.map_cons, List.filterMap_cons_none rfl, List.map_cons, List.sum_cons, ih]; simp
    | some s => exact congrArg (fun x => c s + x) ih

section Iteration

variable {V P H B M F : Type} [LinearOrder V] [Zero V] [Add V] [Sub V] [Zero H] [Add H] [Zero B] [Add B] {E : Machine.Eval V P H B M} {val : V → ℝ} {rnd : ℝ → ℝ} {u big : ℝ}

/-- One iteration that applies its step, with the pairs kept: costs `c0` before and `c1` after the step, computed up to `τ` and `ε`. -/
theorem frozen_iteration (hA : FiniteArith E val rnd u big) {N : ℕ} {ε τ C : ℝ} (he : 0 < ε) (he' : ε ≤ 1 / 16) (hτ : 0 ≤ τ) (hsums : (1 + u) ^ (N + 1) - 1 ≤ ε) (hrange : (1 + u) ^ N * (N * C) ≤ big)
    {linM : Nat → F → Res (F × Option (H × B × V))} {errM : F → Res V} {c0 c1 : F → ℝ} {fs fs' : List F} (hlen : fs.length = N) (hok : ∀ i f, i < N → ∃ r, linM i f = .ok r)
    (hcall : ∀ i f f' o, fs[i]? = some f → fs'[i]? = some f' → linM i f = .ok (f', o) → ∃ e1, errM f' = .ok e1 ∧ 0 ≤ c0 f' ∧ 0 ≤ c1 f' ∧ |o.elim 0 (fun s => val s.2.2) - c0 f'| ≤ τ + ε * c0 f' ∧
      |val e1 - c1 f'| ≤ τ + ε * c1 f' ∧ |o.elim 0 (fun s => val s.2.2)| ≤ C ∧ |val e1| ≤ C)
    {s : H × B × V} {e1 : V} {exL exE : Exec} (hexL : exL.Complete fs.length) (hexE : exE.Complete fs'.length)
    (hl : reduceLinearize linM exL fs = .ok (fs', s)) (hr : reduceError errM exE fs' = .ok e1) (hle : e1 ≤ s.2.2) :
    (fs'.map c1).sum ≤ (1 + 10 * ε) * (fs'.map c0).sum + 8 * N * τ := by
  have hu := hA.u_nonneg
  let lin : Nat → F → F × Option (H × B × V) := fun i f => okOr (f, none) (linM i f)
  have hgi : ∀ i f, i < fs.length → linM i f = .ok (lin i f) := by
    intro i f hi
    obtain ⟨r, hr⟩ := hok i f (by omega)
    simp only [lin, hr, okOr]
  obtain ⟨s', hs1, hs2⟩ := reduce_sum fs (lin := lin) hgi exL hexL
  rw [hl] at hs1
  obtain ⟨rfl, rfl⟩ := Prod.mk.inj (Except.ok.inj hs1)
  let l : List (F × Option (H × B × V)) := fs.mapIdx lin
  have hll : l.length = N := by simp [l, hlen]
  have hfs : (fs.mapIdx fun i f => (lin i f).1) = l.map Prod.fst := by apply List.ext_getElem <;> simp [l]
  have hcon : contributions lin fs = (l.map Prod.snd).filterMap id := by
    unfold contributions
    congr 1
    apply List.ext_getElem <;> simp [l]
  rw [hcon] at hs2
  rw [hfs] at hr hexE hcall ⊢
  let err : F → V := fun f => okOr 0 (errM f)
  have hinfo : ∀ x ∈ l, errM x.1 = .ok (err x.1) ∧ 0 ≤ c0 x.1 ∧ 0 ≤ c1 x.1 ∧ |x.2.elim 0 (fun s => val s.2.2) - c0 x.1| ≤ τ + ε * c0 x.1 ∧ |val (err x.1) - c1 x.1| ≤ τ + ε * c1 x.1 ∧
      |x.2.elim 0 (fun s => val s.2.2)| ≤ C ∧ |val (err x.1)| ≤ C := by
    intro x hx
    obtain ⟨i, hi, rfl⟩ := List.mem_iff_getElem.1 hx
    have hi' : i < fs.length := by simpa [l] using hi
    have e : l[i] = lin i fs[i] := by simp [l]
    obtain ⟨e1, h1, h2⟩ := hcall i fs[i] l[i].1 l[i].2 (List.getElem?_eq_getElem hi') (by simp [hi]) (by rw [hgi i _ hi', ← e])
    have e' : err l[i].1 = e1 := by simp only [err, h1, okOr]
    rw [e']
    exact ⟨h1, h2⟩
  have herr : ∀ f ∈ l.map Prod.fst, errM f = .ok (err f) := by
    intro f hf
    obtain ⟨x, hx, rfl⟩ := List.mem_map.1 hf
    exact (hinfo x hx).1
  obtain ⟨e', he1, he2⟩ := reduceError_sum _ herr exE hexE
  rw [hr] at he1
  obtain rfl := Except.ok.inj he1
  let t0 : F × Option (H × B × V) → ℝ := fun x => x.2.elim 0 fun s => val s.2.2
  let t1 : F × Option (H × B × V) → ℝ := fun x => val (err x.1)
  let at' : (F × Option (H × B × V) → ℝ) → ℕ → ℝ := fun t i => l[i]?.elim 0 t
  have hsum : ∀ t : F × Option (H × B × V) → ℝ, (l.map t).sum = ∑ i ∈ Finset.range N, at' t i := fun t => by rw [sum_list_range, hll]
  have habs : ∀ t : F × Option (H × B × V) → ℝ, (l.map fun x => |t x|).sum = ∑ i ∈ Finset.range N, |at' t i| := fun t => by
    rw [hsum]
    refine Finset.sum_congr rfl fun i _ => ?_
    simp only [at']
    cases l[i]? <;> simp
  have hmem : ∀ i ∈ Finset.range N, ∃ x ∈ l, ∀ t, at' t i = t x := fun i hi => by
    have hi' : i < l.length := by rw [hll]; exact Finset.mem_range.1 hi
    exact ⟨l[i], List.getElem_mem hi', fun t => by simp [at', hi']⟩
  have one : (1 : ℝ) ≤ 1 + u := by linarith
  have small : ∀ n ≤ N, (1 + u) ^ (n - 1) - 1 ≤ ε := fun n hn => by
    have := pow_le_pow_right₀ one (show n - 1 ≤ N + 1 by omega)
    linarith
  have fits : ∀ (n : ℕ) (t : F × Option (H × B × V) → ℝ), n ≤ N → (∀ x ∈ l, |t x| ≤ C) → (1 + u) ^ n * ∑ i ∈ Finset.range N, |at' t i| ≤ big := by
    intro n t hn ht
    have hle' : ∑ i ∈ Finset.range N, |at' t i| ≤ N * C := by
      have := Finset.sum_le_sum fun i (hi : i ∈ Finset.range N) => show |at' t i| ≤ C by
        obtain ⟨x, hx, hx'⟩ := hmem i hi
        rw [hx']
        exact ht x hx
      rw [Finset.sum_const, Finset.card_range, nsmul_eq_mul] at this
      exact this
    exact le_trans (mul_le_mul (pow_le_pow_right₀ one hn) hle' (Finset.sum_nonneg fun _ _ => abs_nonneg _) (by positivity)) hrange
  have mV : MachineSum (S := V) val rnd u big := ⟨hu, hA.zero, hA.add, hA.exact, hA.relAdd⟩
  have mS : MachineSum (S := H × B × V) (fun s => val s.2.2) rnd u big :=
    ⟨hu, hA.zero, fun a b => hA.add a.2.2 b.2.2, fun a => hA.exact a.2.2, fun a b => hA.relAdd a.2.2 b.2.2⟩
  have e0 : |val s.2.2 - ∑ i ∈ Finset.range N, at' t0 i| ≤ ε * ∑ i ∈ Finset.range N, |at' t0 i| := by
    have hlenc : ((l.map Prod.snd).filterMap id).length ≤ N := (List.length_filterMap_le _ _).trans (by simp [hll])
    have hv := sum_contributed (fun s : H × B × V => val s.2.2) l
    have hav := sum_contributed (fun s : H × B × V => |val s.2.2|) l
    have hav' : (l.map fun r => r.2.elim 0 fun s : H × B × V => |val s.2.2|).sum = (l.map fun x => |t0 x|).sum := by
      congr 1
      refine List.map_congr_left fun x _ => ?_
      simp only [t0]
      cases x.2 <;> simp
    have := hs2 (fun s => val s.2.2) rnd u big mS (by rw [hav, hav', habs]; exact fits _ t0 hlenc fun x hx => (hinfo x hx).2.2.2.2.2.1)
    rw [hv, hav, hav', habs] at this
    have ht : (l.map fun r => r.2.elim 0 fun s : H × B × V => val s.2.2).sum = ∑ i ∈ Finset.range N, at' t0 i := hsum t0
    rw [ht] at this
    exact this.trans (mul_le_mul_of_nonneg_right (small _ hlenc) (Finset.sum_nonneg fun _ _ => abs_nonneg _))
  have e1' : |val e1 - ∑ i ∈ Finset.range N, at' t1 i| ≤ ε * ∑ i ∈ Finset.range N, |at' t1 i| := by
    rw [List.map_map] at he2
    have hlenc : (l.map (err ∘ Prod.fst)).length ≤ N := by simp [hll]
    have hv : ((l.map (err ∘ Prod.fst)).map val).sum = ∑ i ∈ Finset.range N, at' t1 i := by rw [List.map_map]; exact hsum t1
    have hav : ((l.map (err ∘ Prod.fst)).map fun t => |val t|).sum = ∑ i ∈ Finset.range N, |at' t1 i| := by rw [List.map_map]; exact habs t1
    have := he2 val rnd u big mV (by rw [hav]; exact fits _ t1 hlenc fun x hx => (hinfo x hx).2.2.2.2.2.2)
    rw [hv, hav] at this
    exact this.trans (mul_le_mul_of_nonneg_right (small _ hlenc) (Finset.sum_nonneg fun _ _ => abs_nonneg _))
  have hstep := cloud_step he.le he' hτ (le_refl 0) N (at' t0) (at' t1) (fun i => 2 * at' (fun x => c0 x.1) i) (fun i => 2 * at' (fun x => c1 x.1) i) (fun i hi => by
      obtain ⟨x, hx, hx'⟩ := hmem i (Finset.mem_range.2 hi)
      simp only [hx']
      linarith [(hinfo x hx).2.1])
    (fun i hi => by
      obtain ⟨x, hx, hx'⟩ := hmem i (Finset.mem_range.2 hi)
      obtain ⟨-, a1, a2, a3, a4, -, -⟩ := hinfo x hx
      simp only [hx']
      refine ⟨.inl ⟨2 * c0 x.1, 2 * c1 x.1, by linarith, by linarith, ?_, ?_, by nlinarith, le_refl _⟩⟩
      · rw [mul_div_cancel_left₀ _ (by norm_num : (2 : ℝ) ≠ 0)]; exact a3
      · rw [mul_div_cancel_left₀ _ (by norm_num : (2 : ℝ) ≠ 0)]; exact a4)
    e0 e1' ((hA.le _ _).1 hle)
  simp only [mul_div_cancel_left₀ _ (by norm_num : (2 : ℝ) ≠ 0)] at hstep
  rw [← hsum, ← hsum] at hstep
  simpa only [List.map_map, Function.comp_def] using hstep

end Iteration

/-! ### The whole run -/

section Run

variable {V P H B M D F : Type} [LinearOrder V] [Zero V] [Add V] [Sub V] [Mul V] [Div V] [Zero H] [Add H] [Zero B] [Add B] {E : Machine.Eval V P H B M} {val : V → ℝ} {rnd : ℝ → ℝ} {u big : ℝ} {pose : P → Pose ℝ}
  {γ lam Z ε L : ℝ} {tp sp normals : List (Fin 4 → V)} {target source : Cloud (Fin 4 → V) M} {mval : M → Matrix (Fin 4) (Fin 4) ℝ} {fine : M → Prop} {needs : Needs} {mf : Machine.Factor F V P H B M}
  {weight : F → Matrix (Fin 4) (Fin 4) ℝ} {ok : F → Prop}

theorem weighted_library (hw : WeightedFactor E val normals mval fine F needs mf weight ok) : LibraryFactor E F needs mf := by
  cases hw with
  | icp => exact .icp
  | plane => exact .plane
  | gicp => exact .gicp

theorem frozenSlack_nonneg (hI : IcpAccuracy E val pose γ lam Z) (he : 0 < ε) (hL : 0 ≤ L) : 0 ≤ frozenSlack γ u lam Z ε L := by
  have := hI.lam_nonneg
  unfold frozenSlack
  positivity

/-- The computed term against the exact cost of the pair, and its size. -/
theorem frozen_term (h : PairInputs E val pose rnd u big γ lam Z ε tp sp target source) (hL : 0 ≤ L) {A : Matrix (Fin 4) (Fin 4) ℝ} (hA : Moderate L A) {T : P} {p q : Fin 4 → V} (hp : Reach val (pose T) Z p)
    (hq : ∀ j, |val (q j)| ≤ Z) {e : V} (ht : TermOf val γ lam Z A (q - E.apply T p) e) :
    0 ≤ weightedCost A (vals val q) (vals val p) (pose T) ∧ |val e - weightedCost A (vals val q) (vals val p) (pose T)| ≤ frozenSlack γ u lam Z ε L + ε * weightedCost A (vals val q) (vals val p) (pose T) ∧
      |val e| ≤ 3 * L * Z ^ 2 + frozenSlack γ u lam Z ε L := by
  have he := h.eps
  have he' := h.eps'
  have hg := h.gamma
  have hu := h.unit
  have hr := residual_error h.arith h.accuracy h.Z_nonneg h.inRange (by linarith) (by linarith) hp hq
  have ht' := ht fun j => (hr j).2
  set y : Fin 4 → ℝ := vals val q - (pose T).apply (vals val p) with hy
  set x : Fin 4 → ℝ := vals val (q - E.apply T p) with hx
  have hQ := quad_error (κ := ε / 3) (α := (γ + 3 * u) * Z) (g := γ) (l := 2 * lam) (by linarith) (by linarith) hg hA x y (fun j => (hr j).1) (s := 2 * val e) (by
    rw [abs_le] at ht' ⊢
    constructor <;> linarith)
  have hc : weightedCost A (vals val q) (vals val p) (pose T) = (y ⬝ᵥ A *ᵥ y) / 2 := rfl
  have h0 : 0 ≤ y ⬝ᵥ A *ᵥ y := hA.nonneg y
  have hb : y ⬝ᵥ A *ᵥ y ≤ L * (2 * Z) ^ 2 := quad_bound hA fun j => by
    have h1 := abs_le.1 (hq j)
    have h2 := abs_le.1 (apply_le hp j)
    simp only [hy, Pi.sub_apply, vals] at h2 ⊢
    rw [abs_le]
    constructor <;> linarith
  have e3 : 4 * L * ((γ + 3 * u) * Z) ^ 2 / (ε / 3) = 2 * (6 * L * ((γ + 3 * u) * Z) ^ 2 / ε) := by field_simp; ring
  rw [e3] at hQ
  have hmain : |val e - (y ⬝ᵥ A *ᵥ y) / 2| ≤ frozenSlack γ u lam Z ε L + ε * ((y ⬝ᵥ A *ᵥ y) / 2) := by
    unfold frozenSlack
    rw [abs_le] at hQ ⊢
    constructor <;> linarith [hQ.1, hQ.2]
  have hz : 0 ≤ L * Z ^ 2 := by positivity
  have heq : ε * (y ⬝ᵥ A *ᵥ y) ≤ 1 / 16 * (L * (2 * Z) ^ 2) := mul_le_mul he' hb h0 (by norm_num)
  rw [hc]
  refine ⟨by linarith, hmain, ?_⟩
  rw [abs_le] at hmain ⊢
  constructor <;> nlinarith [hmain.1, hmain.2]

/-- A run of Levenberg-Marquardt: if the terms of a factor are right up to `τ` and `δ`, no iteration increases the sum of the costs `c` of its factors by more than that. -/
theorem frozen_run (h : PairInputs E val pose rnd u big γ lam Z ε tp sp target source) (hne : tp ≠ []) (hf : LibraryFactor E F needs mf) (hs : Supplied needs target source)
    {δ τ C : ℝ} (hδ : 0 < δ) (hδ' : δ ≤ 1 / 16) (hτ : 0 ≤ τ) (hsums : (1 + u) ^ (sp.length + 1) - 1 ≤ δ) (hrange : (1 + u) ^ sp.length * (sp.length * C) ≤ big)
    (b : KdTree.Builder V) (hnth : NthElementSpec b.nthElement) (hfind : FindAxisSpec (fun p => ∃ a, p = .axis a) b.findAxis) (hm : SafeLeafSize b.maxLeafSize)
    {points : List (Pt V)} (hpts : Machine.cloudPoints target = .ok points) {fuelB fuel : Nat} (hfB : points.length < fuelB) (hfuel : points.length < fuel)
    {t : KdTree.Tree V} (ht : KdTree.construct E.ops b fuelB points = .ok t) {maxD : V} (hmax : 17 * Z ^ 2 + 2 * icpSlack γ u lam Z ε < val maxD) (junk : Nat × V)
    {gate : V} (cfg : Machine.Config V P H B D) (hrej : cfg.rejector = Machine.distanceRejector gate) (hU : ∀ T s, (cfg.updateLinearized T s).2.2 = s.2.2) (hU' : ∀ T e, cfg.updateError T e = e)
    (execL execE : P → List F → Exec) (hexL : ∀ T fs, (execL T fs).Complete fs.length) (hexE : ∀ T fs, (execE T fs).Complete fs.length) (st : Machine.LMSetting V) (T0 : P) {r fs log}
    (hrun : Machine.align mf (Machine.cloudWorld target source (Machine.kdNearest E maxD points t fuel junk)) cfg execL execE (.lm st) T0 source.size = .ok (r, fs, log))
    (hreach : ∀ it ∈ log, ∀ p ∈ sp, Reach val (pose it.T0) Z p ∧ Reach val (pose it.T1) Z p) (c : Pose ℝ → F → ℝ) (hc : ∀ it ∈ log, ∀ f ∈ it.factors, 0 ≤ c (pose it.T0) f)
    (hcall : ∀ it ∈ log, ∀ i p f f' o, sp[i]? = some p → f' ∈ it.factors →
      mf.linearize (Machine.cloudWorld target source (Machine.kdNearest E maxD points t fuel junk)) (Machine.distanceRejector gate) it.T0 i f = .ok (f', o) →
      ∃ e1, mf.error (Machine.cloudWorld target source (Machine.kdNearest E maxD points t fuel junk)) it.T1 f' = .ok e1 ∧ 0 ≤ c (pose it.T0) f' ∧ 0 ≤ c (pose it.T1) f' ∧
        |o.elim 0 (fun s => val s.2.2) - c (pose it.T0) f'| ≤ τ + δ * c (pose it.T0) f' ∧ |val e1 - c (pose it.T1) f'| ≤ τ + δ * c (pose it.T1) f' ∧ |o.elim 0 (fun s => val s.2.2)| ≤ C ∧ |val e1| ≤ C) :
    ∀ it ∈ log, (it.factors.map (c (pose it.T1))).sum ≤ (1 + 10 * δ) * (it.factors.map (c (pose it.T0))).sum + 8 * sp.length * τ := by
  have hnn := searches_least h hne b hnth hfind hm hpts hfB hfuel ht hmax junk
  let nn := Machine.kdNearest E maxD points t fuel junk
  let pr := Machine.problem mf (Machine.cloudWorld target source nn) cfg execL execE
  have hsz : source.size = sp.length := by simp [Cloud.size, h.sourcePoints]
  have hrun' : Machine.levenbergMarquardt pr st T0 (List.replicate source.size mf.init) = .ok (r, fs, log) := hrun
  obtain ⟨hd, hit⟩ := C97_levenberg_marquardt pr hU' st T0 _ hrun'
  have hlin : ∀ T fs fs' s, (∀ p ∈ sp, Reach val (pose T) Z p) → fs.length = sp.length → pr.linearize T fs = .ok (fs', s) → fs'.length = sp.length := by
    intro T fs fs' s hT hl hlin
    have hlin' : reduceLinearize (mf.linearize (Machine.cloudWorld target source nn) cfg.rejector T) (execL T fs) fs = .ok (fs', s) := hlin
    rw [hrej] at hlin'
    exact (pairs_linearize h hnn hf hs hT hl (hexL T fs) hlin').2.2
  have hinv : ∀ it ∈ log, ∃ fs1 s, fs1.length = sp.length ∧ pr.linearize it.T0 fs1 = .ok (it.factors, s) ∧ pr.updateLinearized it.T0 s = (it.H, it.b, it.e0) := by
    simp only [Machine.levenbergMarquardt, bind, Except.bind] at hrun'
    rcases hn : Machine.lmLoop pr st.lambdaFactor st.maxInner.toNat st.maxIterations.toNat 0 st.initLambda (Machine.Result.init T0) (List.replicate source.size mf.init) with x | ⟨r1, fs1, log1⟩
    · rw [hn] at hrun'; simp at hrun'
    rw [hn] at hrun'
    simp only [Except.ok.injEq, Prod.mk.injEq] at hrun'
    obtain ⟨-, -, rfl⟩ := hrun'
    exact machine_lm_inv pr (fun T => ∀ p ∈ sp, Reach val (pose T) Z p) (fun fs => fs.length = sp.length) (fun T fs fs' s hT hl hlin' => hlin T fs fs' s hT hl hlin') _ _ _ _ _ _ _ (by simp [hsz]) hn
      (fun it hit p hp => (hreach it hit p hp).1)
  intro it hmem
  obtain ⟨fs1, s, b1, b2, b3⟩ := hinv it hmem
  have b2' : reduceLinearize (mf.linearize (Machine.cloudWorld target source nn) (Machine.distanceRejector gate) it.T0) (execL it.T0 fs1) fs1 = .ok (it.factors, s) := by
    rw [← hrej]; exact b2
  have hok : ∀ i f, i < sp.length → ∃ r, mf.linearize (Machine.cloudWorld target source nn) (Machine.distanceRejector gate) it.T0 i f = .ok r := by
    intro i f hi
    have hp := List.getElem?_eq_getElem hi
    obtain ⟨o, h1, h2, -⟩ := pair_search (gate := gate) h hnn hp ((hreach it hmem _ (List.getElem_mem hi)).1)
    obtain ⟨f', c', g1, -⟩ := factor_records hf hs (cloud_point h.sourcePoints hp) (by simpa [h.sourcePoints] using hi) h1 (fun k hk => by
      obtain ⟨q, hq, -⟩ := h2 k hk
      have hkl := (List.getElem?_eq_some_iff.1 hq).1
      refine ⟨by simpa [h.targetPoints] using hkl, ?_⟩
      have := h.size
      unfold npos
      omega) f
    exact ⟨_, g1⟩
  have hall : ∀ i f f' o, fs1[i]? = some f → it.factors[i]? = some f' → mf.linearize (Machine.cloudWorld target source nn) (Machine.distanceRejector gate) it.T0 i f = .ok (f', o) →
      ∃ e1, mf.error (Machine.cloudWorld target source nn) it.T1 f' = .ok e1 ∧ 0 ≤ c (pose it.T0) f' ∧ 0 ≤ c (pose it.T1) f' ∧ |o.elim 0 (fun s => val s.2.2) - c (pose it.T0) f'| ≤ τ + δ * c (pose it.T0) f' ∧
        |val e1 - c (pose it.T1) f'| ≤ τ + δ * c (pose it.T1) f' ∧ |o.elim 0 (fun s => val s.2.2)| ≤ C ∧ |val e1| ≤ C := by
    intro i f f' o hf1 hf2 hl
    have hi : i < sp.length := by rw [← b1]; exact (List.getElem?_eq_some_iff.1 hf1).1
    exact hcall it hmem i sp[i] f f' o (List.getElem?_eq_getElem hi) (List.mem_of_getElem? hf2) hl
  rcases hst : it.step with _ | d
  · rw [((hit it hmem).kept hst).1]
    have h0 : 0 ≤ (it.factors.map (c (pose it.T0))).sum := by
      refine List.sum_nonneg fun x hx => ?_
      obtain ⟨f', hf', rfl⟩ := List.mem_map.1 hx
      exact hc it hmem f' hf'
    have : 0 ≤ 8 * (sp.length : ℝ) * τ := by positivity
    nlinarith [mul_nonneg hδ.le h0]
  · obtain ⟨-, -, a3, a4, -⟩ := (hit it hmem).applied d hst
    have hsum : it.e0 = s.2.2 := by
      have := hU it.T0 s
      have e : cfg.updateLinearized it.T0 s = (it.H, it.b, it.e0) := b3
      rw [e] at this
      exact this
    rw [hsum] at a4
    exact frozen_iteration h.arith hδ hδ' hτ hsums hrange b1 hok hall (hexL _ _) (hexE it.T1 it.factors) b2' a3 a4

/-- C111. Levenberg-Marquardt in machine arithmetic, with point-to-point, point-to-plane or GICP factors, a distance gate, a kd-tree and any reduction: no iteration increases the exact cost of the pairs it
works with (weights as stored) by more than a small factor and a small summand. -/
theorem C111_descent (h : PairInputs E val pose rnd u big γ lam Z ε tp sp target source) (hne : tp ≠ []) (hw : WeightedFactor E val normals mval fine F needs mf weight ok) (hT : TermAccuracy E val mval fine γ lam Z)
    (hs : Supplied needs target source) (hn : needs.normals = true → target.normals = normals.map some) (hL : 0 ≤ L) (hsums : (1 + u) ^ (sp.length + 1) - 1 ≤ ε)
    (hrange : (1 + u) ^ sp.length * (sp.length * (3 * L * Z ^ 2 + frozenSlack γ u lam Z ε L)) ≤ big)
    (b : KdTree.Builder V) (hnth : NthElementSpec b.nthElement) (hfind : FindAxisSpec (fun p => ∃ a, p = .axis a) b.findAxis) (hm : SafeLeafSize b.maxLeafSize)
    {points : List (Pt V)} (hpts : Machine.cloudPoints target = .ok points) {fuelB fuel : Nat} (hfB : points.length < fuelB) (hfuel : points.length < fuel)
    {t : KdTree.Tree V} (ht : KdTree.construct E.ops b fuelB points = .ok t) {maxD : V} (hmax : 17 * Z ^ 2 + 2 * icpSlack γ u lam Z ε < val maxD) (junk : Nat × V)
    {gate : V} (cfg : Machine.Config V P H B D) (hrej : cfg.rejector = Machine.distanceRejector gate) (hU : ∀ T s, (cfg.updateLinearized T s).2.2 = s.2.2) (hU' : ∀ T e, cfg.updateError T e = e)
    (execL execE : P → List F → Exec) (hexL : ∀ T fs, (execL T fs).Complete fs.length) (hexE : ∀ T fs, (execE T fs).Complete fs.length) (st : Machine.LMSetting V) (T0 : P) {r fs log}
    (hrun : Machine.align mf (Machine.cloudWorld target source (Machine.kdNearest E maxD points t fuel junk)) cfg execL execE (.lm st) T0 source.size = .ok (r, fs, log))
    (hreach : ∀ it ∈ log, ∀ p ∈ sp, Reach val (pose it.T0) Z p ∧ Reach val (pose it.T1) Z p)
    (hweights : ∀ it ∈ log, ∀ f ∈ it.factors, mf.inlier f = true → ok f ∧ Moderate L (weight f)) :
    ∀ it ∈ log, frozenCost (tp.map (vals val)) (sp.map (vals val)) (weightedPairs mf weight it.factors) (pose it.T1) ≤
      (1 + 10 * ε) * frozenCost (tp.map (vals val)) (sp.map (vals val)) (weightedPairs mf weight it.factors) (pose it.T0) + 8 * sp.length * frozenSlack γ u lam Z ε L := by
  have he := h.eps
  have hτ := frozenSlack_nonneg (u := u) h.accuracy he hL
  have hb : 0 ≤ 3 * L * Z ^ 2 := by positivity
  let c : Pose ℝ → F → ℝ := fun T f => if mf.inlier f then weightedCost (weight f) (((tp.map (vals val))[mf.target f]?).getD 0) (((sp.map (vals val))[mf.source f]?).getD 0) T else 0
  have hcost : ∀ fs T, frozenCost (tp.map (vals val)) (sp.map (vals val)) (weightedPairs mf weight fs) T = (fs.map (c T)).sum := by
    intro fs T
    unfold frozenCost weightedPairs
    rw [List.map_map]
    congr 1
    refine List.map_congr_left fun f _ => ?_
    simp only [Function.comp, c]
    cases mf.inlier f <;> simp
  intro it hmem
  rw [hcost, hcost]
  refine frozen_run h hne (weighted_library hw) hs he h.eps' hτ hsums hrange b hnth hfind hm hpts hfB hfuel ht hmax junk cfg hrej hU hU' execL execE hexL hexE st T0 hrun hreach c ?_ ?_ it hmem
  · intro it hmem f hf
    by_cases hin : mf.inlier f = true
    · simp only [c, hin, if_true]
      exact div_nonneg ((hweights it hmem f hf hin).2.nonneg _) (by norm_num)
    · simp [c, hin]
  · intro it hmem i p f f' o hp hf' hl
    have hi := (List.getElem?_eq_some_iff.1 hp).1
    rcases weighted_terms hT (Q := fun _ => True) (fun _ => trivial) (fun _ _ _ => trivial) hw h.targetPoints h.sourcePoints hn h.size hp hl with ⟨a1, a2, a3⟩ | ⟨q, A, b, e, a1, a2, a3, a4, a5, a6⟩
    · refine ⟨0, a3 _, ?_⟩
      have hc : ∀ T, c T f' = 0 := fun T => by simp [c, a1]
      simp only [hc, a2, Option.elim, h.arith.zero, sub_self, abs_zero, mul_zero, add_zero, le_refl, true_and]
      exact ⟨hτ, hτ, by linarith, by linarith⟩
    · obtain ⟨w1, w2⟩ := hweights it hmem f' hf' a1
      obtain ⟨e', a7, a8⟩ := a6 it.T1
      have hq := h.near q (List.mem_of_getElem? a3)
      have hpm := List.mem_of_getElem? hp
      have hc : ∀ T, c T f' = weightedCost (weight f') (vals val q) (vals val p) T := fun T => by simp [c, a1, a2, a3, hp]
      obtain ⟨x1, x2, x3⟩ := frozen_term h hL w2 (hreach it hmem _ hpm).1 hq (a5 w1).1
      obtain ⟨y1, y2, y3⟩ := frozen_term h hL w2 (hreach it hmem _ hpm).2 hq (a8 w1).1
      refine ⟨e', a7, ?_⟩
      simp only [hc, a4, Option.elim]
      exact ⟨x1, y1, x2, y2, x3, y3⟩

end Run

end Verif.Props
