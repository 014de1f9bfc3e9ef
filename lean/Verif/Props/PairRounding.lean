import Verif.Props.IcpRoundingDigits

/-!
C110: the correspondences of a registration in machine arithmetic are those of exact arithmetic up to rounding, for every factor of the library and both optimisers.
-/

set_option linter.unusedSectionVars false
set_option linter.unusedSimpArgs false
set_option linter.unnecessarySeqFocus false

namespace Verif.Spec

open Matrix Verif Verif.Knn Verif.Factors Verif.Machine

variable {V P H B M : Type} [LinearOrder V] [Zero V] [Add V] [Sub V]

/-- Clouds and numbers of a registration, as far as the search for correspondences is concerned: the points of the clouds are `tp` and `sp`, those of the target lie within reach, and a relative error of
`ε` is conceded. -/
structure PairInputs (E : Eval V P H B M) (val : V → ℝ) (pose : P → Pose ℝ) (rnd : ℝ → ℝ) (u big γ lam Z ε : ℝ) (tp sp : List (Fin 4 → V)) (target source : PointCloud.Cloud (Fin 4 → V) M) : Prop where
  arith : FiniteArith E val rnd u big
  accuracy : IcpAccuracy E val pose γ lam Z
  Z_nonneg : 0 ≤ Z
  inRange : 3 * Z ≤ big
  eps : 0 < ε
  eps' : ε ≤ 1 / 16
  gamma : γ ≤ ε / 3
  unit : u ≤ ε
  targetPoints : target.points = tp.map some
  sourcePoints : source.points = sp.map some
  size : tp.length < 2 ^ 32
  near : ∀ q ∈ tp, ∀ j, |val (q j)| ≤ Z

/-- The partners of the source points at a pose: a partner is within the gate and closest, and a point without partner has no target point within the gate; all up to a relative error `ε` and an absolute
error `τ` of the squared distances. With both zero this is what exact arithmetic gives. -/
structure PairsUpTo (tgt src : List (Fin 4 → ℝ)) (gate ε τ : ℝ) (T : Pose ℝ) (partners : List (Option Nat)) : Prop where
  length : partners.length = src.length
  paired : ∀ (i k : Nat) p, partners[i]? = some (some k) → src[i]? = some p → ∃ q, tgt[k]? = some q ∧ (1 - ε) * dist2 q (T.apply p) ≤ gate + τ ∧
    ∀ q' ∈ tgt, (1 - ε) * dist2 q (T.apply p) ≤ (1 + ε) * dist2 q' (T.apply p) + 2 * τ
  unpaired : ∀ (i : Nat) p, partners[i]? = some none → src[i]? = some p → ∀ q ∈ tgt, gate < (1 + ε) * dist2 q (T.apply p) + τ

/-- The partners recorded in the factors. -/
def partnersOf {F : Type} (mf : Factor F V P H B M) (fs : List F) : List (Option Nat) := fs.map fun f => if mf.inlier f then some (mf.target f) else none

/-- Number of source points that surely have a target point within the gate, and of those that possibly have one. -/
noncomputable def surelyWithin (tgt src : List (Fin 4 → ℝ)) (gate ε τ : ℝ) (T : Pose ℝ) : Nat :=
  open Classical in src.countP fun p => decide (∃ q ∈ tgt, (1 + ε) * dist2 q (T.apply p) + τ ≤ gate)

noncomputable def possiblyWithin (tgt src : List (Fin 4 → ℝ)) (gate ε τ : ℝ) (T : Pose ℝ) : Nat :=
  open Classical in src.countP fun p => decide (∃ q ∈ tgt, (1 - ε) * dist2 q (T.apply p) ≤ gate + τ)

end Verif.Spec

namespace Verif.Props

open Matrix Verif Verif.Knn Verif.KdTree Verif.Proofs Verif.Proofs.RegMem Verif.Factors Verif.Reduction Verif.PointCloud Verif.RegMem Verif.Spec

/-! ### What a factor records -/

section Record

variable {V P H B M : Type} [Zero V] [Add V] [Sub V] [Mul V] [LT V] [DecidableLT V] {E : Machine.Eval V P H B M}

/-- A factor records exactly the outcome of its search. -/
theorem factor_records {F : Type} {needs : Needs} {mf : Machine.Factor F V P H B M} (hf : LibraryFactor E F needs mf) {target source : Cloud (Fin 4 → V) M} (hs : Supplied needs target source)
    {nn : (Fin 4 → V) → Res (Option (Nat × V))} {rej : Machine.Rejector V P} {T : P} {i : Nat} {p : Fin 4 → V} (hp : source.point i = .ok p) (hi : i < source.points.length) {o : Option Nat}
    (hsr : Machine.search E (Machine.cloudWorld target source nn) rej T i = .ok (E.apply T p, o)) (hk : ∀ k, o = some k → k < target.points.length ∧ k ≠ npos) (f : F) :
    ∃ f' c, mf.linearize (Machine.cloudWorld target source nn) rej T i f = .ok (f', c) ∧ mf.source f' = i ∧ (if mf.inlier f' then some (mf.target f') else none) = o := by
  have htgt : ∀ i < target.points.length, ∃ p, target.point i = .ok p := by
    intro i hi
    obtain ⟨p, hp⟩ := hs.targetPoints i hi
    exact ⟨p, by simp only [Cloud.point, getSlot, rd, hp]; rfl⟩
  induction hf with
  | icp =>
    cases o with
    | none =>
      refine ⟨⟨npos, i⟩, none, ?_, rfl, by simp [Machine.icpFactor, ICP.inlier]⟩
      simp only [Machine.icpFactor, Machine.icpLinearize, hsr, bind, Except.bind]
    | some k =>
      obtain ⟨tp, htp⟩ := htgt k (hk k rfl).1
      refine ⟨⟨k, i⟩, some ((E.icpSystem T p (tp - E.apply T p)).1, (E.icpSystem T p (tp - E.apply T p)).2, E.half (E.sqNorm (tp - E.apply T p))), ?_, rfl,
        by simp [Machine.icpFactor, ICP.inlier, (hk k rfl).2]⟩
      simp only [Machine.icpFactor, Machine.icpLinearize, bind, Except.bind, Machine.cloudWorld] at hsr ⊢
      simp only [hsr, htp, hp]
  | plane =>
    cases o with
    | none =>
      refine ⟨⟨npos, i⟩, none, ?_, rfl, by simp [Machine.planeFactor, ICP.inlier]⟩
      simp only [Machine.planeFactor, Machine.planeLinearize, hsr, bind, Except.bind]
    | some k =>
      obtain ⟨tp, htp⟩ := htgt k (hk k rfl).1
      obtain ⟨nv, hnv⟩ : ∃ v, target.normal k = .ok v := by
        obtain ⟨v, hv⟩ := hs.normals rfl k (hk k rfl).1
        exact ⟨v, by simp only [Cloud.normal, getSlot, rd, hv]; rfl⟩
      refine ⟨⟨k, i⟩, some ((E.planeSystem T nv p (nv * (tp - E.apply T p))).1, (E.planeSystem T nv p (nv * (tp - E.apply T p))).2, E.half (E.sqNorm (nv * (tp - E.apply T p)))), ?_, rfl,
        by simp [Machine.planeFactor, ICP.inlier, (hk k rfl).2]⟩
      simp only [Machine.planeFactor, Machine.planeLinearize, bind, Except.bind, Machine.cloudWorld] at hsr ⊢
      simp only [hsr, htp, hp, hnv]
  | gicp =>
    cases o with
    | none =>
      refine ⟨⟨npos, i, f.mahalanobis⟩, none, ?_, rfl, by simp [Machine.gicpFactor]⟩
      simp only [Machine.gicpFactor, Machine.gicpLinearize, hsr, bind, Except.bind]
    | some k =>
      obtain ⟨tp, htp⟩ := htgt k (hk k rfl).1
      obtain ⟨ct, hct⟩ : ∃ m, target.cov k = .ok m := by
        obtain ⟨m, hm⟩ := hs.targetCovs rfl k (hk k rfl).1
        exact ⟨m, by simp only [Cloud.cov, getSlot, rd, hm]; rfl⟩
      obtain ⟨cs, hcs⟩ : ∃ m, source.cov i = .ok m := by
        obtain ⟨m, hm⟩ := hs.sourceCovs rfl i hi
        exact ⟨m, by simp only [Cloud.cov, getSlot, rd, hm]; rfl⟩
      refine ⟨⟨k, i, E.mahalanobis f.mahalanobis ct cs T⟩, some ((E.gicpSystem T (E.mahalanobis f.mahalanobis ct cs T) p (tp - E.apply T p)).1,
        (E.gicpSystem T (E.mahalanobis f.mahalanobis ct cs T) p (tp - E.apply T p)).2, E.quad (tp - E.apply T p) (E.mahalanobis f.mahalanobis ct cs T)), ?_, rfl,
        by simp [Machine.gicpFactor, (hk k rfl).2]⟩
      simp only [Machine.gicpFactor, Machine.gicpLinearize, bind, Except.bind, Machine.cloudWorld] at hsr ⊢
      simp only [hsr, htp, hp, hct, hcs]
  | @robust F needs mf wt sqrt _ ih =>
    obtain ⟨f', c, h1, h2, h3⟩ := ih hs f
    rcases c with _ | ⟨A, b, e⟩
    · exact ⟨f', none, by simp only [Machine.robust, h1, bind, Except.bind], h2, h3⟩
    · exact ⟨f', some ((E.scale (wt (sqrt e)) (A, b)).1, (E.scale (wt (sqrt e)) (A, b)).2, e * wt (sqrt e)), by simp only [Machine.robust, h1, bind, Except.bind], h2, h3⟩

end Record

/-! ### The search of one factor -/

section Pairs

variable {V P H B M : Type} [LinearOrder V] [Zero V] [Add V] [Sub V] {E : Machine.Eval V P H B M} {val : V → ℝ} {rnd : ℝ → ℝ} {u big : ℝ} {pose : P → Pose ℝ} {γ lam Z ε : ℝ}
  {tp sp : List (Fin 4 → V)} {target source : Cloud (Fin 4 → V) M}

/-- The kd-tree returns a target point whose computed distance is smallest. -/
def SearchesLeast (E : Machine.Eval V P H B M) (val : V → ℝ) (pose : P → Pose ℝ) (Z : ℝ) (tp : List (Fin 4 → V)) (nn : (Fin 4 → V) → Res (Option (Nat × V))) : Prop :=
  ∀ T : P, ∀ p, Reach val (pose T) Z p → ∃ k q, tp[k]? = some q ∧ nn (E.apply T p) = .ok (some (k, Pt.sqDist E.ops (Machine.toPt q) (Machine.toPt (E.apply T p)))) ∧
    ∀ q' ∈ tp, Pt.sqDist E.ops (Machine.toPt q) (Machine.toPt (E.apply T p)) ≤ Pt.sqDist E.ops (Machine.toPt q') (Machine.toPt (E.apply T p))

theorem cloud_points_eq (ht : target.points = tp.map some) {points : List (Pt V)} (hpts : Machine.cloudPoints target = .ok points) : points = tp.map Machine.toPt := by
  have hv : ∀ i ∈ List.range target.size, (do let p ← target.point i; return Machine.toPt p : Res (Pt V)) = .ok ((tp.map Machine.toPt)[i]?.getD (Machine.toPt 0)) := by
    intro i hi
    have hi' : i < tp.length := by simpa [Cloud.size, ht] using hi
    rw [cloud_point ht (List.getElem?_eq_getElem hi')]
    simp [hi', bind, Except.bind, pure, Except.pure]
  have e := mapM_ok _ _ _ hv
  have hpts' : (List.range target.size).mapM (fun i => (do let p ← target.point i; return Machine.toPt p : Res (Pt V))) = .ok points := hpts
  rw [e] at hpts'
  rw [← Except.ok.inj hpts']
  apply List.ext_getElem <;> simp [Cloud.size, ht]
  intro i h1
  simp [h1]

theorem searches_least (h : PairInputs E val pose rnd u big γ lam Z ε tp sp target source) (hne : tp ≠ [])
    (b : KdTree.Builder V) (hnth : NthElementSpec b.nthElement) (hfind : FindAxisSpec (fun p => ∃ a, p = .axis a) b.findAxis) (hm : SafeLeafSize b.maxLeafSize)
    {points : List (Pt V)} (hpts : Machine.cloudPoints target = .ok points) {fuelB fuel : Nat} (hfB : points.length < fuelB) (hfuel : points.length < fuel)
    {t : KdTree.Tree V} (ht : KdTree.construct E.ops b fuelB points = .ok t) {maxD : V} (hmax : 17 * Z ^ 2 + 2 * icpSlack γ u lam Z ε < val maxD) (junk : Nat × V) :
    SearchesLeast E val pose Z tp (Machine.kdNearest E maxD points t fuel junk) := by
  obtain rfl := cloud_points_eq h.targetPoints hpts
  intro T p hpr
  obtain ⟨k, q', hk, hs, hmin⟩ := nearest_rounded h.arith b hnth hfind hm (by simpa using hne) (by simpa using h.size) hfB hfuel ht junk (E.apply T p) (maxD := maxD) (by
    intro p' hp'
    obtain ⟨q, hq, rfl⟩ := List.mem_map.1 hp'
    rw [machine_lt h.arith]
    have h1 := abs_le.1 (dist_error h.arith h.accuracy h.Z_nonneg h.inRange h.eps h.eps' h.gamma h.unit hpr (h.near q hq))
    have h3 : dist2 (vals val q) ((pose T).apply (vals val p)) ≤ 16 * Z ^ 2 := dist2_le (h.near q hq) (apply_le hpr)
    have h4 := dist2_nonneg' (vals val q) ((pose T).apply (vals val p))
    have h6 : ε * dist2 (vals val q) ((pose T).apply (vals val p)) ≤ 1 / 16 * (16 * Z ^ 2) := mul_le_mul h.eps' h3 h4 (by norm_num)
    linarith [h1.2])
  rw [List.getElem?_map, Option.map_eq_some_iff] at hk
  obtain ⟨q, hq, rfl⟩ := hk
  exact ⟨k, q, hq, hs, fun q'' hq'' => hmin _ (List.mem_map_of_mem hq'')⟩

variable {gate : V} {nn : (Fin 4 → V) → Res (Option (Nat × V))}

theorem pair_search (h : PairInputs E val pose rnd u big γ lam Z ε tp sp target source) (hnn : SearchesLeast E val pose Z tp nn) {T : P} {i : Nat} {p : Fin 4 → V} (hi : sp[i]? = some p)
    (hp : Reach val (pose T) Z p) : ∃ o, Machine.search E (Machine.cloudWorld target source nn) (Machine.distanceRejector gate) T i = .ok (E.apply T p, o) ∧
      (∀ k, o = some k → ∃ q, tp[k]? = some q ∧ (1 - ε) * dist2 (vals val q) ((pose T).apply (vals val p)) ≤ val gate + 2 * icpSlack γ u lam Z ε ∧
        ∀ q' ∈ tp, (1 - ε) * dist2 (vals val q) ((pose T).apply (vals val p)) ≤ (1 + ε) * dist2 (vals val q') ((pose T).apply (vals val p)) + 2 * (2 * icpSlack γ u lam Z ε)) ∧
      (o = none → ∀ q ∈ tp, val gate < (1 + ε) * dist2 (vals val q) ((pose T).apply (vals val p)) + 2 * icpSlack γ u lam Z ε) := by
  obtain ⟨k, q, hk, hs, hmin⟩ := hnn T p hp
  have hd : ∀ q ∈ tp, _ := fun q hq => abs_le.1 (dist_error h.arith h.accuracy h.Z_nonneg h.inRange h.eps h.eps' h.gamma h.unit hp (h.near q hq))
  have hqm : q ∈ tp := List.mem_of_getElem? hk
  have hsrc : source.point i = .ok p := cloud_point h.sourcePoints hi
  by_cases hg : gate < Pt.sqDist E.ops (Machine.toPt q) (Machine.toPt (E.apply T p))
  · refine ⟨none, ?_, by simp, fun _ q' hq' => ?_⟩
    · simp only [Machine.search, Machine.cloudWorld, Machine.distanceRejector, hsrc, hs, hg, bind, Except.bind, decide_true, if_true]
    · have h1 := (machine_lt h.arith).1 hg
      have h2 := (h.arith.le _ _).1 (hmin q' hq')
      have h3 := (hd q' hq').2
      linarith
  · refine ⟨some k, ?_, ?_, by simp⟩
    · simp only [Machine.search, Machine.cloudWorld, Machine.distanceRejector, hsrc, hs, hg, bind, Except.bind, decide_false, if_false, Bool.false_eq_true]
    · intro k' hk'
      obtain rfl := Option.some.inj hk'
      have h1 := (h.arith.le _ _).1 (not_lt.1 hg)
      have h3 := (hd q hqm).1
      refine ⟨q, hk, by linarith, fun q' hq' => ?_⟩
      have h2 := (h.arith.le _ _).1 (hmin q' hq')
      have h4 := (hd q' hq').2
      linarith

/-! ### One linearisation -/

variable [Mul V] [Zero H] [Add H] [Zero B] [Add B] {F : Type} {needs : Needs} {mf : Machine.Factor F V P H B M}

theorem pairs_linearize (h : PairInputs E val pose rnd u big γ lam Z ε tp sp target source) (hnn : SearchesLeast E val pose Z tp nn) (hf : LibraryFactor E F needs mf) (hs : Supplied needs target source)
    {T : P} (hT : ∀ p ∈ sp, Reach val (pose T) Z p) {fs fs' : List F} (hlen : fs.length = sp.length) {s : H × B × V} {ex : Exec} (hex : ex.Complete fs.length)
    (hl : reduceLinearize (mf.linearize (Machine.cloudWorld target source nn) (Machine.distanceRejector gate) T) ex fs = .ok (fs', s)) :
    PairsUpTo (tp.map (vals val)) (sp.map (vals val)) (val gate) ε (2 * icpSlack γ u lam Z ε) (pose T) (partnersOf mf fs') ∧ (∀ (i : Nat) f, fs'[i]? = some f → mf.source f = i) ∧ fs'.length = sp.length := by
  have hcall : ∀ i f, i < fs.length → ∃ p o f' c, sp[i]? = some p ∧ mf.linearize (Machine.cloudWorld target source nn) (Machine.distanceRejector gate) T i f = .ok (f', c) ∧ mf.source f' = i ∧
      (if mf.inlier f' then some (mf.target f') else none) = o ∧
      (∀ k, o = some k → ∃ q, tp[k]? = some q ∧ (1 - ε) * dist2 (vals val q) ((pose T).apply (vals val p)) ≤ val gate + 2 * icpSlack γ u lam Z ε ∧
        ∀ q' ∈ tp, (1 - ε) * dist2 (vals val q) ((pose T).apply (vals val p)) ≤ (1 + ε) * dist2 (vals val q') ((pose T).apply (vals val p)) + 2 * (2 * icpSlack γ u lam Z ε)) ∧
      (o = none → ∀ q ∈ tp, val gate < (1 + ε) * dist2 (vals val q) ((pose T).apply (vals val p)) + 2 * icpSlack γ u lam Z ε) := by
    intro i f hi
    rw [hlen] at hi
    have hp := List.getElem?_eq_getElem hi
    obtain ⟨o, h1, h2, h3⟩ := pair_search (gate := gate) h hnn hp (hT _ (List.getElem_mem hi))
    obtain ⟨f', c, g1, g2, g3⟩ := factor_records hf hs (cloud_point h.sourcePoints hp) (by simpa [h.sourcePoints] using hi) h1 (fun k hk => by
      obtain ⟨q, hq, -⟩ := h2 k hk
      have hkl := (List.getElem?_eq_some_iff.1 hq).1
      refine ⟨by simpa [h.targetPoints] using hkl, ?_⟩
      have := h.size
      unfold npos
      omega) f
    exact ⟨_, o, f', c, hp, g1, g2, g3, h2, h3⟩
  obtain ⟨fs'', s'', g1, g2, g3, -⟩ := reduce_inherits _ fs (fun i f hi => by obtain ⟨_, _, f', c, _, hc, _⟩ := hcall i f hi; exact ⟨_, hc⟩) ex hex (fun _ => False) (by simp)
  rw [hl] at g1
  obtain ⟨rfl, rfl⟩ := Prod.mk.inj (Except.ok.inj g1)
  have hrec : ∀ (i : Nat) f', fs'[i]? = some f' → ∃ p o, sp[i]? = some p ∧ mf.source f' = i ∧ (if mf.inlier f' then some (mf.target f') else none) = o ∧
      (∀ k, o = some k → ∃ q, tp[k]? = some q ∧ (1 - ε) * dist2 (vals val q) ((pose T).apply (vals val p)) ≤ val gate + 2 * icpSlack γ u lam Z ε ∧
        ∀ q' ∈ tp, (1 - ε) * dist2 (vals val q) ((pose T).apply (vals val p)) ≤ (1 + ε) * dist2 (vals val q') ((pose T).apply (vals val p)) + 2 * (2 * icpSlack γ u lam Z ε)) ∧
      (o = none → ∀ q ∈ tp, val gate < (1 + ε) * dist2 (vals val q) ((pose T).apply (vals val p)) + 2 * icpSlack γ u lam Z ε) := by
    intro i f' hi
    have hil : i < fs.length := by rw [← g2]; exact (List.getElem?_eq_some_iff.1 hi).1
    obtain ⟨r, hr, hr'⟩ := g3 i _ (List.getElem?_eq_getElem hil)
    obtain ⟨p, o, f'', c, c1, c2, c3, c4, c5, c6⟩ := hcall i fs[i] hil
    rw [c2] at hr
    obtain rfl := Except.ok.inj hr
    rw [hi] at hr'
    obtain rfl := Option.some.inj hr'
    exact ⟨p, o, c1, c3, c4, c5, c6⟩
  refine ⟨⟨by simp [partnersOf, g2, hlen], ?_, ?_⟩, fun i f hi => by obtain ⟨_, _, _, hc, _⟩ := hrec i f hi; exact hc, by rw [g2, hlen]⟩
  · intro i k v hk hv
    rw [partnersOf, List.getElem?_map, Option.map_eq_some_iff] at hk
    obtain ⟨f', hf', he⟩ := hk
    rw [List.getElem?_map, Option.map_eq_some_iff] at hv
    obtain ⟨p', hp', rfl⟩ := hv
    obtain ⟨p, o, c1, -, c3, c4, -⟩ := hrec i f' hf'
    rw [hp'] at c1
    obtain rfl := Option.some.inj c1
    obtain ⟨q, d1, d2, d3⟩ := c4 k (c3.symm.trans he)
    refine ⟨vals val q, by simp [d1], d2, fun q' hq' => ?_⟩
    obtain ⟨q'', hq'', rfl⟩ := List.mem_map.1 hq'
    exact d3 q'' hq''
  · intro i v hk hv
    rw [partnersOf, List.getElem?_map, Option.map_eq_some_iff] at hk
    obtain ⟨f', hf', he⟩ := hk
    rw [List.getElem?_map, Option.map_eq_some_iff] at hv
    obtain ⟨p', hp', rfl⟩ := hv
    obtain ⟨p, o, c1, -, c3, -, c5⟩ := hrec i f' hf'
    rw [hp'] at c1
    obtain rfl := Option.some.inj c1
    intro q' hq'
    obtain ⟨q'', hq'', rfl⟩ := List.mem_map.1 hq'
    exact c5 (c3.symm.trans he) q'' hq''

end Pairs

/-! ### Counting -/

theorem countP_le_of_related {A C : Type} {P : A → Bool} {Q : C → Bool} : ∀ (a : List A) (c : List C), a.length = c.length → (∀ (i : Nat) x y, a[i]? = some x → c[i]? = some y → P x = true → Q y = true) →
    a.countP P ≤ c.countP Q
  | [], [], _, _ => by simp
  | x :: a, y :: c, hl, h => by
    have ih := countP_le_of_related a c (by simpa using hl) fun i x' y' hx hy => h (i + 1) x' y' (by simpa using hx) (by simpa using hy)
    have h0 := h 0 x y (by simp) (by simp)
    rw [List.countP_cons, List.countP_cons]
    cases hP : P x with
    | false => simp only [Bool.false_eq_true, if_false]; omega
    | true => rw [h0 hP]; simp only [if_true]; omega
  | [], _ :: _, hl, _ => by simp at hl
  | _ :: _, [], hl, _ => by simp at hl

theorem pairs_count {tgt src : List (Fin 4 → ℝ)} {gate ε τ : ℝ} {T : Pose ℝ} {partners : List (Option Nat)} (h : PairsUpTo tgt src gate ε τ T partners) :
    surelyWithin tgt src gate ε τ T ≤ partners.countP Option.isSome ∧ partners.countP Option.isSome ≤ possiblyWithin tgt src gate ε τ T := by
  classical
  constructor
  · refine countP_le_of_related _ _ h.length.symm fun i p o hp ho hw => ?_
    obtain ⟨q, hq, hle⟩ := of_decide_eq_true hw
    cases o with
    | none => exact absurd (h.unpaired i p ho hp q hq) (not_lt.2 hle)
    | some k => rfl
  · refine countP_le_of_related _ _ h.length fun i o p ho hp hs => ?_
    cases o with
    | none => simp at hs
    | some k =>
      obtain ⟨q, hq, hle, -⟩ := h.paired i k p ho hp
      exact decide_eq_true ⟨q, List.mem_of_getElem? hq, hle⟩

/-! ### The whole run -/

section Run

variable {V P H B D F : Type} [Zero V] [Add V] [Mul V] [Div V] [LE V] [DecidableLE V] [Zero H] [Add H] [Zero B] [Add B]

/-- As `machine_lm_inv`, for Gauss-Newton. -/
theorem machine_gn_inv (p : Machine.Problem F V P H B D) (Good : P → Prop) (I : List F → Prop) (hI : ∀ T fs fs' s, Good T → I fs → p.linearize T fs = .ok (fs', s) → I fs') (lambda : V) :
    ∀ (fuel i : Nat) (r0 : Machine.Result V P H B) (fs0 : List F) {r fs log}, I fs0 → Machine.gnLoop p lambda fuel i r0 fs0 = .ok (r, fs, log) → (∀ it ∈ log, Good it.T0) →
      ∀ it ∈ log, ∃ fs1 s, I fs1 ∧ p.linearize it.T0 fs1 = .ok (it.factors, s) ∧ p.updateLinearized it.T0 s = (it.H, it.b, it.e0)
  | 0, i, r0, fs0, r, fs, log, h0, h, hg => by
    simp only [Machine.gnLoop, Except.ok.injEq, Prod.mk.injEq] at h
    obtain ⟨rfl, rfl, rfl⟩ := h
    simp
  | fuel + 1, i, r0, fs0, r, fs, log, h0, h, hg => by
    simp only [Machine.gnLoop] at h
    split at h
    · simp only [Except.ok.injEq, Prod.mk.injEq] at h
      obtain ⟨rfl, rfl, rfl⟩ := h
      simp
    · rcases hl : p.linearize r0.T fs0 with x | ⟨fs1, s⟩
      · simp [bind, Except.bind, hl] at h
      rcases hs : p.updateLinearized r0.T s with ⟨A, b, e⟩
      simp only [bind, Except.bind, hl, hs] at h
      rcases hn : Machine.gnLoop p lambda fuel (i + 1)
          { r0 with converged := p.converged (p.delta lambda A b), T := p.step r0.T (p.delta lambda A b), iterations := i, H := A, b := b, error := e } fs1 with x | ⟨r2, fs2, log2⟩
      · rw [hn] at h; simp at h
      rw [hn] at h
      simp only [Except.ok.injEq, Prod.mk.injEq] at h
      obtain ⟨rfl, rfl, rfl⟩ := h
      have hg0 : Good r0.T := hg _ (List.mem_cons_self)
      intro it hit
      rcases List.mem_cons.1 hit with e | e
      · subst e
        exact ⟨fs0, s, h0, hl, hs⟩
      · exact machine_gn_inv p Good I hI lambda fuel (i + 1) _ _ (hI _ _ _ _ hg0 h0 hl) hn (fun it hit => hg it (List.mem_cons_of_mem _ hit)) it e

end Run

section Claim

variable {V P H B M D F : Type} [LinearOrder V] [Zero V] [Add V] [Sub V] [Mul V] [Div V] [Zero H] [Add H] [Zero B] [Add B] {E : Machine.Eval V P H B M} {val : V → ℝ} {rnd : ℝ → ℝ} {u big : ℝ} {pose : P → Pose ℝ}
  {γ lam Z ε : ℝ} {tp sp : List (Fin 4 → V)} {target source : Cloud (Fin 4 → V) M} {needs : Needs} {mf : Machine.Factor F V P H B M}

/-- C110. Registration of point clouds with a kd-tree and a distance gate, in machine arithmetic, with any factor of the library, either optimiser and any reduction: in every iteration the recorded
partners are those of exact arithmetic at the pose of this iteration, up to rounding; so are the returned factors at the pose of the last iteration, and `num_inliers` lies between the number of source
points that surely and the number of those that possibly have a target point within the gate. -/
theorem C110_pairs (h : PairInputs E val pose rnd u big γ lam Z ε tp sp target source) (hne : tp ≠ []) (hf : LibraryFactor E F needs mf) (hs : Supplied needs target source)
    (b : KdTree.Builder V) (hnth : NthElementSpec b.nthElement) (hfind : FindAxisSpec (fun p => ∃ a, p = .axis a) b.findAxis) (hm : SafeLeafSize b.maxLeafSize)
    {points : List (Pt V)} (hpts : Machine.cloudPoints target = .ok points) {fuelB fuel : Nat} (hfB : points.length < fuelB) (hfuel : points.length < fuel)
    {t : KdTree.Tree V} (ht : KdTree.construct E.ops b fuelB points = .ok t) {maxD : V} (hmax : 17 * Z ^ 2 + 2 * icpSlack γ u lam Z ε < val maxD) (junk : Nat × V)
    {gate : V} (cfg : Machine.Config V P H B D) (hrej : cfg.rejector = Machine.distanceRejector gate) (hU : ∀ T e, cfg.updateError T e = e)
    (execL execE : P → List F → Exec) (hexL : ∀ T fs, (execL T fs).Complete fs.length) (meth : Machine.Method V) (T0 : P) {r fs log}
    (hrun : Machine.align mf (Machine.cloudWorld target source (Machine.kdNearest E maxD points t fuel junk)) cfg execL execE meth T0 source.size = .ok (r, fs, log))
    (hreach : ∀ it ∈ log, ∀ p ∈ sp, Reach val (pose it.T0) Z p) :
    (∀ it ∈ log, PairsUpTo (tp.map (vals val)) (sp.map (vals val)) (val gate) ε (2 * icpSlack γ u lam Z ε) (pose it.T0) (partnersOf mf it.factors) ∧ ∀ (i : Nat) f, it.factors[i]? = some f → mf.source f = i) ∧
      ∀ it, log.getLast? = some it → fs = it.factors ∧ surelyWithin (tp.map (vals val)) (sp.map (vals val)) (val gate) ε (2 * icpSlack γ u lam Z ε) (pose it.T0) ≤ r.numInliers ∧
        r.numInliers ≤ possiblyWithin (tp.map (vals val)) (sp.map (vals val)) (val gate) ε (2 * icpSlack γ u lam Z ε) (pose it.T0) := by
  have hnn := searches_least h hne b hnth hfind hm hpts hfB hfuel ht hmax junk
  let pr := Machine.problem mf (Machine.cloudWorld target source (Machine.kdNearest E maxD points t fuel junk)) cfg execL execE
  have hsz : source.size = sp.length := by simp [Cloud.size, h.sourcePoints]
  have hlin : ∀ T fs fs' s, (∀ p ∈ sp, Reach val (pose T) Z p) → fs.length = sp.length → pr.linearize T fs = .ok (fs', s) →
      PairsUpTo (tp.map (vals val)) (sp.map (vals val)) (val gate) ε (2 * icpSlack γ u lam Z ε) (pose T) (partnersOf mf fs') ∧ (∀ (i : Nat) f, fs'[i]? = some f → mf.source f = i) ∧ fs'.length = sp.length := by
    intro T fs fs' s hT hl hlin
    have hlin' : reduceLinearize (mf.linearize (Machine.cloudWorld target source (Machine.kdNearest E maxD points t fuel junk)) cfg.rejector T) (execL T fs) fs = .ok (fs', s) := hlin
    rw [hrej] at hlin'
    exact pairs_linearize h hnn hf hs hT hl (hexL T fs) hlin'
  have hboth : (∀ it ∈ log, ∃ fs1 s, fs1.length = sp.length ∧ pr.linearize it.T0 fs1 = .ok (it.factors, s)) ∧ (∀ it, log.getLast? = some it → fs = it.factors) ∧ r.numInliers = fs.countP mf.inlier := by
    cases meth with
    | lm st =>
      have hrun' : Machine.levenbergMarquardt pr st T0 (List.replicate source.size mf.init) = .ok (r, fs, log) := hrun
      obtain ⟨hd, -⟩ := C97_levenberg_marquardt pr hU st T0 _ hrun'
      refine ⟨?_, fun it hit => (hd.last it hit).2.2.2.2.1, hd.inliers⟩
      simp only [Machine.levenbergMarquardt, bind, Except.bind] at hrun'
      rcases hn : Machine.lmLoop pr st.lambdaFactor st.maxInner.toNat st.maxIterations.toNat 0 st.initLambda (Machine.Result.init T0) (List.replicate source.size mf.init) with x | ⟨r1, fs1, log1⟩
      · rw [hn] at hrun'; simp at hrun'
      rw [hn] at hrun'
      simp only [Except.ok.injEq, Prod.mk.injEq] at hrun'
      obtain ⟨-, -, rfl⟩ := hrun'
      intro it hit
      obtain ⟨fs1, s, c1, c2, -⟩ := machine_lm_inv pr (fun T => ∀ p ∈ sp, Reach val (pose T) Z p) (fun fs => fs.length = sp.length) (fun T fs fs' s hT hl hlin' => (hlin T fs fs' s hT hl hlin').2.2) _ _ _ _ _ _ _
        (by simp [hsz]) hn hreach it hit
      exact ⟨fs1, s, c1, c2⟩
    | gn lambda m =>
      have hrun' : Machine.gaussNewton pr lambda m T0 (List.replicate source.size mf.init) = .ok (r, fs, log) := hrun
      obtain ⟨hd, -⟩ := C97_gauss_newton pr lambda m T0 _ hrun'
      refine ⟨?_, fun it hit => (hd.last it hit).2.2.2.2.1, hd.inliers⟩
      simp only [Machine.gaussNewton, bind, Except.bind] at hrun'
      rcases hn : Machine.gnLoop pr lambda m.toNat 0 (Machine.Result.init T0) (List.replicate source.size mf.init) with x | ⟨r1, fs1, log1⟩
      · rw [hn] at hrun'; simp at hrun'
      rw [hn] at hrun'
      simp only [Except.ok.injEq, Prod.mk.injEq] at hrun'
      obtain ⟨-, -, rfl⟩ := hrun'
      intro it hit
      obtain ⟨fs1, s, c1, c2, -⟩ := machine_gn_inv pr (fun T => ∀ p ∈ sp, Reach val (pose T) Z p) (fun fs => fs.length = sp.length) (fun T fs fs' s hT hl hlin' => (hlin T fs fs' s hT hl hlin').2.2) _ _ _ _ _
        (by simp [hsz]) hn hreach it hit
      exact ⟨fs1, s, c1, c2⟩
  obtain ⟨hinv, hlast, hcnt⟩ := hboth
  have hall : ∀ it ∈ log, PairsUpTo (tp.map (vals val)) (sp.map (vals val)) (val gate) ε (2 * icpSlack γ u lam Z ε) (pose it.T0) (partnersOf mf it.factors) ∧
      ∀ (i : Nat) f, it.factors[i]? = some f → mf.source f = i := by
    intro it hit
    obtain ⟨fs1, s, c1, c2⟩ := hinv it hit
    obtain ⟨d1, d2, -⟩ := hlin _ _ _ _ (hreach it hit) c1 c2
    exact ⟨d1, d2⟩
  refine ⟨hall, fun it hit => ?_⟩
  have hc := pairs_count (hall it (List.mem_of_getLast? hit)).1
  have e : (partnersOf mf it.factors).countP Option.isSome = r.numInliers := by
    rw [hcnt, hlast it hit, partnersOf, List.countP_map]
    congr 1
    funext f
    simp only [Function.comp]
    cases mf.inlier f <;> rfl
  rw [e] at hc
  exact ⟨hlast it hit, hc⟩

end Claim

/-! ### example: double precision without limits of the exponent -/

/-- C110 with `p + 1` binary digits: construction of the kd-tree and registration succeed, and the correspondences of every iteration are those of exact arithmetic up to a relative error `ε` and an
absolute error that goes with the square of `8 Z / 2 ^ p`. `Good` is any set of poses within reach that the steps do not leave. -/
theorem C110_digits {p : ℕ} (hp : 3 ≤ p) {H B M D F : Type} [Zero H] [Add H] [Zero B] [Add B] (E0 : Machine.Eval (Digits p) (Pose (Digits p)) H B M) {Z ε : ℝ} (hZ : 0 ≤ Z) (hε : 0 < ε) (hε' : ε ≤ 1 / 16)
    (hu : 15 / 2 ^ p ≤ ε) {tp sp : List (Fin 4 → Digits p)} {target source : Cloud (Fin 4 → Digits p) M} (ht : target.points = tp.map some) (hs : source.points = sp.map some) (hne : tp ≠ [])
    (hN : tp.length < 2 ^ 32) (hnear : ∀ q ∈ tp, ∀ j, |(q j).val| ≤ Z) {needs : Needs} {mf : Machine.Factor F (Digits p) (Pose (Digits p)) H B M} (hf : LibraryFactor (digitsEval E0) F needs mf)
    (hsup : Supplied needs target source) (gate maxD : Digits p) (hmax : 17 * Z ^ 2 + 48 * (8 / 2 ^ p * Z) ^ 2 / ε < maxD.val) (junk : Nat × Digits p)
    (cfg : Machine.Config (Digits p) (Pose (Digits p)) H B D) (hrej : cfg.rejector = Machine.distanceRejector gate) (hU : ∀ T e, cfg.updateError T e = e)
    (execL execE : Pose (Digits p) → List F → Exec) (hexL : ∀ T fs, (execL T fs).Complete fs.length) (hexE : ∀ T fs, (execE T fs).Complete fs.length)
    (meth : Machine.Method (Digits p)) (T0 : Pose (Digits p)) (Good : Pose (Digits p) → Prop) (hG0 : Good T0) (hG : ∀ T d, Good T → Good (cfg.step T d))
    (hreach : ∀ T, Good T → ∀ x ∈ sp, Reach Digits.val (digitsPose T) Z x) {fuel : Nat} (hfuel : tp.length < fuel) :
    ∃ points t r fs log, Machine.cloudPoints target = .ok points ∧ KdTree.construct (digitsEval E0).ops ⟨20, findAxis (digitsEval E0).ops 128, fun l _ => isort l⟩ fuel points = .ok t ∧
      Machine.align mf (Machine.cloudWorld target source (Machine.kdNearest (digitsEval E0) maxD points t fuel junk)) cfg execL execE meth T0 source.size = .ok (r, fs, log) ∧
      (∀ it ∈ log, PairsUpTo (tp.map (vals Digits.val)) (sp.map (vals Digits.val)) gate.val ε (48 * (8 / 2 ^ p * Z) ^ 2 / ε) (digitsPose it.T0) (partnersOf mf it.factors)) ∧
      ∀ it, log.getLast? = some it → fs = it.factors ∧ surelyWithin (tp.map (vals Digits.val)) (sp.map (vals Digits.val)) gate.val ε (48 * (8 / 2 ^ p * Z) ^ 2 / ε) (digitsPose it.T0) ≤ r.numInliers ∧
        r.numInliers ≤ possiblyWithin (tp.map (vals Digits.val)) (sp.map (vals Digits.val)) gate.val ε (48 * (8 / 2 ^ p * Z) ^ 2 / ε) (digitsPose it.T0) := by
  have hsl : 2 * icpSlack (5 * (1 / 2 ^ p)) (1 / 2 ^ p) 0 Z ε = 48 * (8 / 2 ^ p * Z) ^ 2 / ε := by unfold icpSlack; ring
  have hpos : (0 : ℝ) < 1 / 2 ^ p := by positivity
  have hin : PairInputs (digitsEval E0) Digits.val digitsPose (cutOff p) (1 / 2 ^ p) (3 * Z) (5 * (1 / 2 ^ p)) 0 Z ε tp sp target source :=
    ⟨digits_arith E0 _, digits_accuracy E0 hp hZ, hZ, le_refl _, hε, hε', by
      have : 5 * (1 / 2 ^ p : ℝ) = 15 / 2 ^ p / 3 := by ring
      rw [this]
      linarith, by
      have : (15 / 2 ^ p : ℝ) = 15 * (1 / 2 ^ p) := by ring
      rw [this] at hu
      linarith, ht, hs, hN, hnear⟩
  have htl : target.size = tp.length := by simp [Cloud.size, ht]
  have hleaf : SafeLeafSize 20 := by unfold SafeLeafSize toU64; decide
  have hfind := findAxis_spec (digitsEval E0).ops 128 (by unfold toU64; decide)
  obtain ⟨points, t, h1, h2, h3⟩ := C100_no_fault (D := D) (E := digitsEval E0) hf hsup (by rw [htl]; exact List.length_pos_iff.2 hne) (by rw [htl]; exact hN)
    ⟨20, findAxis (digitsEval E0).ops 128, fun l _ => isort l⟩ isort_nthElementSpec.perm (fun pts range a b => by obtain ⟨q, hq, -⟩ := hfind pts range a b; exact ⟨q, hq, trivial⟩)
    hleaf (fuelB := fuel) (fuel := fuel) (by omega) (by omega)
  obtain ⟨r, fs, log, h4, -⟩ := h3 maxD junk cfg execL execE hexL hexE meth T0
  have hpl : points.length = tp.length := by rw [cloud_points_eq ht h1, List.length_map]
  have hposes : ∀ it ∈ log, Good it.T0 ∧ Good it.T1 := by
    cases meth with
    | lm st =>
      obtain ⟨hd, hit⟩ := C97_levenberg_marquardt _ (show ∀ T e, (Machine.problem mf (Machine.cloudWorld target source
        (Machine.kdNearest (digitsEval E0) maxD points t fuel junk)) cfg execL execE).updateError T e = e from hU) st T0 _ h4
      exact linked_poses (Good := Good) hG0 hd.linked (fun it hm hT => by
        rcases hst : it.step with _ | d
        · rw [((hit it hm).kept hst).1]; exact hT
        · rw [((hit it hm).applied d hst).2.1]; exact hG _ _ hT)
    | gn lambda m =>
      obtain ⟨hd, hit⟩ := C97_gauss_newton _ lambda m T0 _ h4
      exact linked_poses (Good := Good) hG0 hd.linked (fun it hm hT => by rw [(hit it hm).applied.2.1]; exact hG _ _ hT)
  obtain ⟨c1, c2⟩ := C110_pairs hin hne hf hsup ⟨20, findAxis (digitsEval E0).ops 128, fun l _ => isort l⟩ isort_nthElementSpec hfind hleaf h1 (fuelB := fuel) (fuel := fuel) (by omega) (by omega) h2
    (maxD := maxD) (by rw [hsl]; exact hmax) junk cfg hrej hU execL execE hexL meth T0 h4 (fun it hm x hx => hreach _ (hposes it hm).1 x hx)
  rw [hsl] at c1 c2
  exact ⟨points, t, r, fs, log, h1, h2, h4, fun it hit => (c1 it hit).1, c2⟩

/-- GICP with Gauss-Newton on two clouds of corners of a cube, any number of source points and iterations; steps go back and forth. The absolute error is below `10^-14`. -/
example (E0 : Machine.Eval (Digits 52) (Pose (Digits 52)) (Digits 52) (Digits 52) Unit) (corners : List (Bool × Bool × Bool)) (lambda : Digits 52) (iterations : Int)
    (back : Pose (Digits 52) → Digits 52 → Bool) (conv : Digits 52 → Bool) (delta : Digits 52 → Digits 52 → Digits 52 → Digits 52) :
    let tp := [digitsPoint 52 true false false, digitsPoint 52 true true false]
    let sp := corners.map fun x => digitsPoint 52 x.1 x.2.1 x.2.2
    let target : Cloud (Fin 4 → Digits 52) Unit := ⟨tp.map some, [], tp.map fun _ => some ()⟩
    let source : Cloud (Fin 4 → Digits 52) Unit := ⟨sp.map some, [], sp.map fun _ => some ()⟩
    let cfg : Machine.Config (Digits 52) (Pose (Digits 52)) (Digits 52) (Digits 52) (Digits 52) :=
      ⟨Machine.distanceRejector (digitsOne 52), fun _ s => s, fun _ e => e, delta, fun T d => if back T d then digitsId 52 else digitsShift 52, conv⟩
    ∃ points t r fs log, Machine.cloudPoints target = .ok points ∧ KdTree.construct (digitsEval E0).ops ⟨20, findAxis (digitsEval E0).ops 128, fun l _ => isort l⟩ 3 points = .ok t ∧
      Machine.align (Machine.gicpFactor (digitsEval E0)) (Machine.cloudWorld target source (Machine.kdNearest (digitsEval E0) (digitsMany 52) points t 3 (0, 0))) cfg (fun _ _ => .serial) (fun _ _ => .serial)
        (.gn lambda iterations) (digitsId 52) source.size = .ok (r, fs, log) ∧
      ∀ it ∈ log, PairsUpTo (tp.map (vals Digits.val)) (sp.map (vals Digits.val)) 1 (1 / 10 ^ 12) (48 * (8 / 2 ^ 52 * 4) ^ 2 / (1 / 10 ^ 12)) (digitsPose it.T0)
        (partnersOf (Machine.gicpFactor (digitsEval E0)) it.factors) := by
  intro tp sp target source cfg
  have v1 : (digitsOne 52).val = 1 := rfl
  have v0 : (0 : Digits 52).val = 0 := rfl
  have hpt : ∀ a b c j, |(digitsPoint 52 a b c j).val| ≤ 1 := by
    intro a b c j
    fin_cases j <;> simp only [digitsPoint] <;> cases a <;> cases b <;> cases c <;> simp [v0, v1]
  have hent : ∀ T, T = digitsId 52 ∨ T = digitsShift 52 → ∀ i j, |(digitsPose T).matrix i j| ≤ 1 := by
    rintro T (rfl | rfl) i j <;> fin_cases i <;> fin_cases j <;> simp [digitsPose, Pose.matrix, digitsId, digitsShift, v0, v1]
  have hset : ∀ l : List (Fin 4 → Digits 52), PointsSet (⟨l.map some, [], l.map fun _ => some ()⟩ : Cloud (Fin 4 → Digits 52) Unit) ∧
      CovsSet (⟨l.map some, [], l.map fun _ => some ()⟩ : Cloud (Fin 4 → Digits 52) Unit) := by
    intro l
    constructor
    · intro i hi
      have hi' : i < l.length := by simpa using hi
      exact ⟨l[i], by simp [hi']⟩
    · intro i hi
      have hi' : i < l.length := by simpa using hi
      exact ⟨(), by simp [hi']⟩
  obtain ⟨points, t, r, fs, log, h1, h2, h3, h4, -⟩ := C110_digits (p := 52) (by norm_num) E0 (Z := 4) (ε := 1 / 10 ^ 12) (by norm_num) (by positivity) (by norm_num) (by norm_num) (tp := tp) (sp := sp)
    (target := target) (source := source) rfl rfl (by simp [tp]) (by simp [tp]) (by
      intro q hq j
      simp only [tp, List.mem_cons, List.not_mem_nil, or_false] at hq
      rcases hq with rfl | rfl <;> exact (hpt _ _ _ _).trans (by norm_num))
    .gicp ⟨(hset tp).1, (hset sp).1, (by intro h; cases h), fun _ => (hset tp).2, fun _ => (hset sp).2⟩
    (digitsOne 52) (digitsMany 52) (by
      have h := abs_le.1 (cutOff_rel 52 16000)
      have e : (digitsMany 52).val = cutOff 52 16000 := rfl
      rw [e]
      have h5 := h.1
      norm_num at h5 ⊢
      linarith) (0, 0) cfg rfl (fun _ _ => rfl) (fun _ _ => .serial) (fun _ _ => .serial) (fun _ _ => trivial) (fun _ _ => trivial) (.gn lambda iterations) (digitsId 52)
    (fun T => T = digitsId 52 ∨ T = digitsShift 52) (.inl rfl) (by
      intro T d _
      rcases hb : back T d with _ | _
      · exact .inr (by simp [cfg, hb])
      · exact .inl (by simp [cfg, hb]))
    (by
      intro T hT x hx j
      obtain ⟨⟨a, b, c⟩, -, rfl⟩ := List.mem_map.1 hx
      calc _ ≤ ∑ _k : Fin 4, (1 : ℝ) := Finset.sum_le_sum fun k _ => by
            have := mul_le_mul (hent T hT j k) (hpt a b c k) (abs_nonneg _) zero_le_one
            simpa using this
        _ = 4 := by simp) (fuel := 3) (by simp [tp])
  exact ⟨points, t, r, fs, log, h1, h2, h3, h4⟩

end Verif.Props
