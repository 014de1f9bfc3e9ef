import Verif.Proofs.Factors
import Verif.Props.Reduction
import Mathlib.Analysis.Real.Sqrt
import Mathlib.LinearAlgebra.Matrix.Diagonal
import Mathlib.Tactic.NoncommRing

/-! C31, C32, C33, C35, C36, C37: correspondences, per-point factors, robust kernels and general factors. -/

set_option linter.unusedSectionVars false
set_option linter.unusedSimpArgs false

namespace Verif.Props

open Matrix Verif Verif.Proofs Verif.Factors Verif.Spec Verif.Reduction

variable {K : Type} [Field K] [LinearOrder K] [IsStrictOrderedRing K]

/-- The factor types of the library: the three point factors and robust wrappers (of any depth). -/
inductive Shipped : {F : Type} → PointFactor F K → Prop where
  | icp : Shipped icpFactor
  | plane : Shipped planeFactor
  | gicp (inv : Matrix (Fin 3) (Fin 3) K → Matrix (Fin 3) (Fin 3) K) : Shipped (gicpFactor inv)
  | robust {F : Type} (w sqrt : K → K) {pf : PointFactor F K} : Shipped pf → Shipped (robustFactor w sqrt pf)

/-- The search never returns the marker of a missing correspondence. -/
def SearchIndices (sc : Scene K) : Prop := ∀ q k d, sc.nn q = some (k, d) → k ≠ npos

/-! ### C31 -/

/-- Does source point `i` have a neighbour within the gate? -/
def gated (sc : Scene K) (maxDistSq : K) (T : Pose K) (i : Nat) : Bool :=
  match sc.nn (T.apply (sc.srcPoint i)) with
  | none => false
  | some (_, d) => decide (d ≤ maxDistSq)

theorem correspondence_some {sc : Scene K} {m : K} {T : Pose K} {i k : Nat} {d : K} (h : sc.nn (T.apply (sc.srcPoint i)) = some (k, d)) (hd : d ≤ m) :
    correspondence sc (distanceRejector m) T i = some k := by
  unfold correspondence
  rw [h]
  simp [distanceRejector, hd]

theorem correspondence_none {sc : Scene K} {m : K} {T : Pose K} {i : Nat}
    (h : sc.nn (T.apply (sc.srcPoint i)) = none ∨ ∃ k d, sc.nn (T.apply (sc.srcPoint i)) = some (k, d) ∧ m < d) :
    correspondence sc (distanceRejector m) T i = none := by
  unfold correspondence
  rcases h with h | ⟨k, d, h, hd⟩
  · rw [h]
  · rw [h]; simp [distanceRejector, hd]

/-- Behaviour of every factor in terms of the outcome of search and rejection. -/
theorem factor_cases {F : Type} {pf : PointFactor F K} (hpf : Shipped pf) (sc : Scene K) (hn : SearchIndices sc) (rej : Rejector K) (T : Pose K)
    (i : Nat) (f : F) :
    (∀ k, correspondence sc rej T i = some k → (pf.linearize sc rej T i f).2.isSome = true ∧ pf.target (pf.linearize sc rej T i f).1 = k ∧
      pf.inlier (pf.linearize sc rej T i f).1 = true) ∧
    (correspondence sc rej T i = none → (pf.linearize sc rej T i f).2 = none ∧ pf.inlier (pf.linearize sc rej T i f).1 = false ∧
      ∀ T', pf.error sc T' (pf.linearize sc rej T i f).1 = 0) := by
  have hk : ∀ k, correspondence sc rej T i = some k → k ≠ npos := by
    intro k h
    unfold correspondence at h
    split at h
    · cases h
    · rename_i k' d hq
      split at h
      · cases h
      · cases h; exact hn _ _ _ hq
  induction hpf with
  | icp =>
    refine ⟨fun k h => ?_, fun h => ?_⟩
    · simp [icpFactor, ICP.linearize, h, ICP.inlier, hk k h]
    · simp [icpFactor, ICP.linearize, h, ICP.inlier, ICP.error]
  | plane =>
    refine ⟨fun k h => ?_, fun h => ?_⟩
    · simp [planeFactor, PlaneICP.linearize, h, ICP.inlier, hk k h]
    · simp [planeFactor, PlaneICP.linearize, h, ICP.inlier, PlaneICP.error]
  | gicp inv =>
    refine ⟨fun k h => ?_, fun h => ?_⟩
    · simp [gicpFactor, GICP.linearize, h, GICP.inlier, hk k h]
    · simp [gicpFactor, GICP.linearize, h, GICP.inlier, GICP.error]
  | robust w sqrt _ ih =>
    rename_i F pf hp
    obtain ⟨h1, h2⟩ := ih f
    refine ⟨fun k h => ?_, fun h => ?_⟩
    · obtain ⟨a, b, c⟩ := h1 k h
      simp only [robustFactor, robustLinearize]
      rcases hl : pf.linearize sc rej T i f with ⟨f', _ | ⟨H, bb, e⟩⟩
      · rw [hl] at a; cases a
      · rw [hl] at b c; exact ⟨rfl, b, c⟩
    · obtain ⟨a, b, c⟩ := h2 h
      simp only [robustFactor, robustLinearize, robustError]
      rcases hl : pf.linearize sc rej T i f with ⟨f', _ | ⟨H, bb, e⟩⟩
      · rw [hl] at b c
        refine ⟨rfl, b, fun T' => ?_⟩
        rw [c T', mul_zero]
      · rw [hl] at a; cases a

/-- A source point contributes exactly when the search finds a neighbour within the gate; then that neighbour is its
correspondence. Otherwise it contributes nothing, is no inlier and has zero error at every pose. -/
theorem C31_correspondence {F : Type} {pf : PointFactor F K} (hpf : Shipped pf) (sc : Scene K) (hn : SearchIndices sc) (maxDistSq : K)
    (T : Pose K) (i : Nat) (f : F) :
    (∀ k d, sc.nn (T.apply (sc.srcPoint i)) = some (k, d) → d ≤ maxDistSq →
      (pf.linearize sc (distanceRejector maxDistSq) T i f).2.isSome = true ∧ pf.target (pf.linearize sc (distanceRejector maxDistSq) T i f).1 = k ∧
      pf.inlier (pf.linearize sc (distanceRejector maxDistSq) T i f).1 = true) ∧
    ((sc.nn (T.apply (sc.srcPoint i)) = none ∨ ∃ k d, sc.nn (T.apply (sc.srcPoint i)) = some (k, d) ∧ maxDistSq < d) →
      (pf.linearize sc (distanceRejector maxDistSq) T i f).2 = none ∧ pf.inlier (pf.linearize sc (distanceRejector maxDistSq) T i f).1 = false ∧
      ∀ T', pf.error sc T' (pf.linearize sc (distanceRejector maxDistSq) T i f).1 = 0) := by
  obtain ⟨h1, h2⟩ := factor_cases hpf sc hn (distanceRejector maxDistSq) T i f
  exact ⟨fun k d hq hd => h1 k (correspondence_some hq hd), fun h => h2 (correspondence_none h)⟩

/-- C31 for every rejector, including one that depends on the pose and on both points: it is asked with the pose, the target index
found, the source index and the squared distance, and a point has a correspondence exactly if the search finds one that is not rejected. -/
theorem C31_any_rejector {F : Type} {pf : PointFactor F K} (hpf : Shipped pf) (sc : Scene K) (hn : SearchIndices sc) (rej : Rejector K)
    (T : Pose K) (i : Nat) (f : F) :
    (∀ k d, sc.nn (T.apply (sc.srcPoint i)) = some (k, d) → rej T k i d = false →
      (pf.linearize sc rej T i f).2.isSome = true ∧ pf.target (pf.linearize sc rej T i f).1 = k ∧ pf.inlier (pf.linearize sc rej T i f).1 = true) ∧
    ((sc.nn (T.apply (sc.srcPoint i)) = none ∨ ∃ k d, sc.nn (T.apply (sc.srcPoint i)) = some (k, d) ∧ rej T k i d = true) →
      (pf.linearize sc rej T i f).2 = none ∧ pf.inlier (pf.linearize sc rej T i f).1 = false ∧ ∀ T', pf.error sc T' (pf.linearize sc rej T i f).1 = 0) := by
  obtain ⟨h1, h2⟩ := factor_cases hpf sc hn rej T i f
  refine ⟨fun k d hk hr => h1 k ?_, fun h => h2 ?_⟩
  · unfold correspondence
    rw [hk]
    simp [hr]
  · unfold correspondence
    rcases h with h | ⟨k, d, h, hr⟩
    · rw [h]
    · rw [h]; simp [hr]


/-- The number of inliers after a linearisation is the number of source points with a neighbour within the gate, and only those
contribute to the system. -/
theorem C31_inliers {F : Type} {pf : PointFactor F K} (hpf : Shipped pf) (sc : Scene K) (hn : SearchIndices sc) (maxDistSq : K)
    (T : Pose K) (fs fs' : List F) (s : Sys K) (h : serialLinearize (pf.linearize sc (distanceRejector maxDistSq) T) fs = .ok (fs', s)) :
    fs'.countP pf.inlier = (List.range fs.length).countP (gated sc maxDistSq T) ∧ fs'.length = fs.length ∧
    s = (fs.mapIdx (fun i f => if gated sc maxDistSq T i then ((pf.linearize sc (distanceRejector maxDistSq) T i f).2).getD 0 else 0)).sum := by
  rw [serial_ok] at h
  simp only [Except.ok.injEq] at h
  obtain ⟨rfl, rfl⟩ := Prod.mk.inj h.symm
  have key : ∀ i f, pf.inlier (pf.linearize sc (distanceRejector maxDistSq) T i f).1 = gated sc maxDistSq T i ∧
      (gated sc maxDistSq T i = false → (pf.linearize sc (distanceRejector maxDistSq) T i f).2 = none) := by
    intro i f
    obtain ⟨h1, h2⟩ := C31_correspondence hpf sc hn maxDistSq T i f
    unfold gated
    rcases hq : sc.nn (T.apply (sc.srcPoint i)) with _ | ⟨k, d⟩
    · have := h2 (.inl hq)
      exact ⟨this.2.1, fun _ => this.1⟩
    · by_cases hd : d ≤ maxDistSq
      · have := h1 k d hq hd
        simp [hd, this.2.2]
      · have := h2 (.inr ⟨k, d, hq, not_le.1 hd⟩)
        simp [hd, this.2.1, this.1]
  refine ⟨?_, by simp, ?_⟩
  · have hmap : fs.mapIdx (fun i f => (pf.linearize sc (distanceRejector maxDistSq) T i f).1) =
        (List.range fs.length).zipWith (fun i f => (pf.linearize sc (distanceRejector maxDistSq) T i f).1) fs := by
      apply List.ext_getElem?
      intro j
      by_cases hj : j < fs.length
      · rw [List.getElem?_eq_getElem (by simpa using hj), List.getElem?_eq_getElem (by simpa using hj)]; simp
      · rw [List.getElem?_eq_none (by simp; omega), List.getElem?_eq_none (by simp; omega)]
    rw [hmap]
    clear hmap h
    have : ∀ (fs : List F) (is : List Nat), is.length = fs.length →
        (is.zipWith (fun i f => (pf.linearize sc (distanceRejector maxDistSq) T i f).1) fs).countP pf.inlier = is.countP (gated sc maxDistSq T) := by
      intro fs
      induction fs with
      | nil => intro is h; simp at h; subst h; rfl
      | cons f fs ih =>
        intro is h
        cases is with
        | nil => simp at h
        | cons i is =>
          rw [List.zipWith_cons_cons, List.countP_cons, List.countP_cons, ih is (by simpa using h), (key i f).1]
    exact this fs _ (by simp)
  · congr 1
    apply List.ext_getElem?
    intro j
    rw [List.getElem?_mapIdx, List.getElem?_mapIdx]
    cases fs[j]? with
    | none => rfl
    | some f =>
      simp only [Option.map_some, Option.some.injEq]
      by_cases hg : gated sc maxDistSq T j = true
      · rw [if_pos hg]
      · rw [if_neg hg, (key j f).2 (by simpa using hg)]; rfl

/-! ### C32 -/

/-- The error reported by the linearisation is the error evaluated at the same pose; a rejected point evaluates to zero. -/
theorem C32_factor {F : Type} {pf : PointFactor F K} (hpf : Shipped pf) (sc : Scene K) (hn : SearchIndices sc) (rej : Rejector K)
    (T : Pose K) (i : Nat) (f : F) :
    (∀ H b e, (pf.linearize sc rej T i f).2 = some (H, b, e) → pf.error sc T (pf.linearize sc rej T i f).1 = e) ∧
    ((pf.linearize sc rej T i f).2 = none → pf.error sc T (pf.linearize sc rej T i f).1 = 0) := by
  have hk : ∀ k, correspondence sc rej T i = some k → k ≠ npos := by
    intro k h
    unfold correspondence at h
    split at h
    · cases h
    · rename_i k' d hq
      split at h
      · cases h
      · cases h; exact hn _ _ _ hq
  refine ⟨?_, ?_⟩
  · induction hpf with
    | icp =>
      intro H b e h
      cases hc : correspondence sc rej T i with
      | none => simp [icpFactor, ICP.linearize, hc] at h
      | some k =>
        simp [icpFactor, ICP.linearize, hc] at h
        simp [icpFactor, ICP.linearize, hc, ICP.error, hk k hc, h.2.2]
    | plane =>
      intro H b e h
      cases hc : correspondence sc rej T i with
      | none => simp [planeFactor, PlaneICP.linearize, hc] at h
      | some k =>
        simp [planeFactor, PlaneICP.linearize, hc] at h
        simp [planeFactor, PlaneICP.linearize, hc, PlaneICP.error, hk k hc, h.2.2]
    | gicp inv =>
      intro H b e h
      cases hc : correspondence sc rej T i with
      | none => simp [gicpFactor, GICP.linearize, hc] at h
      | some k =>
        simp [gicpFactor, GICP.linearize, hc] at h
        simp [gicpFactor, GICP.linearize, hc, GICP.error, hk k hc, h.2.2]
    | robust w sqrt _ ih =>
      rename_i F pf hp
      intro H b e h
      simp only [robustFactor, robustLinearize, robustError] at h ⊢
      rcases hl : pf.linearize sc rej T i f with ⟨f', _ | ⟨H', b', e'⟩⟩
      · rw [hl] at h; cases h
      · rw [hl] at h
        simp only [Option.some.injEq, Prod.mk.injEq] at h
        have h1 := ih f H' b' e' (by rw [hl])
        rw [hl] at h1
        simp only at h1 ⊢
        rw [h1, mul_comm]
        exact h.2.2
  · intro h
    obtain ⟨h1, h2⟩ := factor_cases hpf sc hn rej T i f
    cases hc : correspondence sc rej T i with
    | none => exact (h2 hc).2.2 T
    | some k => have := (h1 k hc).1; rw [h] at this; cases this

/-- Whole reduction: evaluating the error at the linearisation pose gives the error of the linearised system. -/
theorem C32_reduction {F : Type} {pf : PointFactor F K} (hpf : Shipped pf) (sc : Scene K) (hn : SearchIndices sc) (rej : Rejector K)
    (T : Pose K) (fs fs' : List F) (H : Matrix (Fin 6) (Fin 6) K) (b : Fin 6 → K) (e : K)
    (h : serialLinearize (pf.linearize sc rej T) fs = .ok (fs', (H, b, e))) : serialError (pf.error sc T) fs' = .ok e := by
  rw [serial_ok] at h
  rw [serialError_ok]
  simp only [Except.ok.injEq] at h
  unfold reduceSpec at h
  obtain ⟨rfl, h2⟩ := Prod.mk.inj h
  congr 1
  unfold errorSpec
  have hsnd : ∀ l : List (Sys K), l.sum.2.2 = (l.map (fun s => s.2.2)).sum := by
    intro l
    induction l with
    | nil => rfl
    | cons a l ih => simp only [List.sum_cons, List.map_cons, Prod.snd_add, ih]
  have h3 := congrArg (fun s : Sys K => s.2.2) h2
  simp only [hsnd] at h3
  rw [← h3]
  congr 1
  apply List.ext_getElem?
  intro j
  rw [List.getElem?_map, List.getElem?_map, List.getElem?_mapIdx, List.getElem?_mapIdx]
  cases fs[j]? with
  | none => rfl
  | some f =>
    simp only [Option.map_some, Option.some.injEq]
    obtain ⟨h4, h5⟩ := C32_factor hpf sc hn rej T j f
    rcases hl : (pf.linearize sc rej T j f).2 with _ | ⟨H', b', e'⟩
    · rw [h5 hl]; rfl
    · rw [h4 _ _ _ hl]; rfl

/-! ### C33 -/

/-- At pose `T` every system produced from factor states satisfying `Inv` is sound, and `Inv` is kept. -/
structure SoundAt {F : Type} (pf : PointFactor F K) (sc : Scene K) (rej : Rejector K) (T : Pose K) (Inv : F → Prop) : Prop where
  init : Inv pf.init
  keep : ∀ i f, Inv f → Inv (pf.linearize sc rej T i f).1
  good : ∀ i f, Inv f → ∀ H b e, (pf.linearize sc rej T i f).2 = some (H, b, e) → GoodSystem H b e

theorem C33_icp (sc : Scene K) (rej : Rejector K) (T : Pose K) : SoundAt icpFactor sc rej T (fun _ => True) := by
  refine ⟨trivial, fun _ _ _ => trivial, ?_⟩
  intro i f _ H b e h
  cases hc : correspondence sc rej T i with
  | none => simp [icpFactor, ICP.linearize, hc] at h
  | some k =>
    simp only [icpFactor, ICP.linearize, hc, Option.some.injEq, Prod.mk.injEq] at h
    obtain ⟨rfl, rfl, rfl⟩ := h
    exact good_of_residual_one _ _

theorem C33_plane (sc : Scene K) (rej : Rejector K) (T : Pose K) : SoundAt planeFactor sc rej T (fun _ => True) := by
  refine ⟨trivial, fun _ _ _ => trivial, ?_⟩
  intro i f _ H b e h
  cases hc : correspondence sc rej T i with
  | none => simp [planeFactor, PlaneICP.linearize, hc] at h
  | some k =>
    simp only [planeFactor, PlaneICP.linearize, hc, Option.some.injEq, Prod.mk.injEq] at h
    obtain ⟨rfl, rfl, rfl⟩ := h
    exact good_of_residual_one _ _

/-- The part of the GICP weight matrix outside the 3x3 block is zero. -/
def ZeroBorder (f : GICP K) : Prop := ∀ i j : Fin 4, i = 3 ∨ j = 3 → f.mahalanobis i j = 0

theorem fusedCov_psd {sc : Scene K} {T : Pose K} {k i : Nat} (ht : SymPSD (sc.tgtCov k)) (hs : SymPSD (sc.srcCov i)) : SymPSD (fusedCov sc T k i) := by
  unfold fusedCov
  apply Verif.Spec.SymPSD.block
  apply ht.add
  have := hs.conj T.matrixᵀ
  rwa [transpose_transpose] at this

/-- GICP: sound whenever the covariances are positive semi-definite and the fused covariance of each correspondence is
invertible. -/
theorem C33_gicp (inv : Matrix (Fin 3) (Fin 3) K → Matrix (Fin 3) (Fin 3) K) (hinv : InverseContract inv) (sc : Scene K) (rej : Rejector K) (T : Pose K)
    (ht : ∀ k, SymPSD (sc.tgtCov k)) (hs : ∀ i, SymPSD (sc.srcCov i))
    (hreg : ∀ i k, correspondence sc rej T i = some k → ∃ B, fusedCov sc T k i * B = 1) : SoundAt (gicpFactor inv) sc rej T ZeroBorder := by
  refine ⟨fun _ _ _ => rfl, ?_, ?_⟩
  · intro i f hf
    cases hc : correspondence sc rej T i with
    | none =>
      simp only [gicpFactor, GICP.linearize, hc]
      exact hf
    | some k =>
      simp only [gicpFactor, GICP.linearize, hc]
      intro a b hab
      simp only [setBlock33]
      rw [dif_neg (by omega)]
      exact hf a b hab
  · intro i f hf H b e h
    cases hc : correspondence sc rej T i with
    | none => simp [gicpFactor, GICP.linearize, hc] at h
    | some k =>
      simp only [gicpFactor, GICP.linearize, hc, Option.some.injEq, Prod.mk.injEq] at h
      obtain ⟨rfl, rfl, rfl⟩ := h
      apply good_of_residual
      apply setBlock_psd hf
      exact (fusedCov_psd (ht k) (hs i)).inverse (hinv _ (hreg i k hc))

/-- Robust wrappers with non-negative weights keep systems sound. -/
theorem C33_robust {F : Type} (w sqrt : K → K) (hw : ∀ x, 0 ≤ w x) (pf : PointFactor F K) (sc : Scene K) (rej : Rejector K) (T : Pose K) (Inv : F → Prop)
    (h : SoundAt pf sc rej T Inv) : SoundAt (robustFactor w sqrt pf) sc rej T Inv := by
  refine ⟨h.init, ?_, ?_⟩
  · intro i f hf
    have := h.keep i f hf
    simp only [robustFactor, robustLinearize]
    rcases hl : pf.linearize sc rej T i f with ⟨f', _ | ⟨H', b', e'⟩⟩ <;> (rw [hl] at this; exact this)
  · intro i f hf H b e hs
    simp only [robustFactor, robustLinearize] at hs
    rcases hl : pf.linearize sc rej T i f with ⟨f', _ | ⟨H', b', e'⟩⟩
    · rw [hl] at hs; cases hs
    · rw [hl] at hs
      simp only [Option.some.injEq, Prod.mk.injEq] at hs
      obtain ⟨rfl, rfl, rfl⟩ := hs
      exact (h.good i f hf H' b' e' (by rw [hl])).smul (hw _)

/-- The accumulated system is sound: `H` symmetric positive semi-definite, `e >= 0`. -/
theorem C33_accumulated {F : Type} {pf : PointFactor F K} {sc : Scene K} {rej : Rejector K} {T : Pose K} {Inv : F → Prop}
    (hsound : SoundAt pf sc rej T Inv) (fs fs' : List F) (hfs : ∀ f ∈ fs, Inv f) (H : Matrix (Fin 6) (Fin 6) K) (b : Fin 6 → K) (e : K)
    (h : serialLinearize (pf.linearize sc rej T) fs = .ok (fs', (H, b, e))) : GoodSystem H b e ∧ ∀ f ∈ fs', Inv f := by
  rw [serial_ok] at h
  simp only [Except.ok.injEq] at h
  unfold reduceSpec at h
  obtain ⟨rfl, h2⟩ := Prod.mk.inj h
  refine ⟨?_, ?_⟩
  · have : ∀ l : List (Sys K), (∀ s ∈ l, GoodSystem s.1 s.2.1 s.2.2) → GoodSystem l.sum.1 l.sum.2.1 l.sum.2.2 := by
      intro l
      induction l with
      | nil => intro _; exact Verif.Spec.GoodSystem.zero
      | cons a l ih =>
        intro hl
        rw [List.sum_cons]
        exact (hl a (by simp)).add (ih (fun s hs => hl s (by simp [hs])))
    have hg := this (fs.mapIdx (fun i f => (pf.linearize sc rej T i f).2.getD 0)) (by
      intro s hs
      rw [List.mem_mapIdx] at hs
      obtain ⟨i, hi, rfl⟩ := hs
      rcases hl : (pf.linearize sc rej T i fs[i]).2 with _ | ⟨H', b', e'⟩
      · exact Verif.Spec.GoodSystem.zero
      · exact hsound.good i fs[i] (hfs _ (List.getElem_mem hi)) H' b' e' hl)
    rw [h2] at hg
    exact hg
  · intro f hf
    rw [List.mem_mapIdx] at hf
    obtain ⟨i, hi, rfl⟩ := hf
    exact hsound.keep i fs[i] (hfs _ (List.getElem_mem hi))

/-- With positive damping the step equation has exactly one solution, the solver returns it, and it is a descent direction. -/
theorem C33_step (H : Matrix (Fin 6) (Fin 6) K) (b : Fin 6 → K) (e lam : K) (hl : 0 < lam) (h : GoodSystem H b e)
    (solve : Matrix (Fin 6) (Fin 6) K → (Fin 6 → K) → (Fin 6 → K)) (hsolve : SolveContract solve) :
    (∃! d, (H + lam • (1 : Matrix (Fin 6) (Fin 6) K)) *ᵥ d = -b) ∧
    (H + lam • (1 : Matrix (Fin 6) (Fin 6) K)) *ᵥ solve (H + lam • 1) (-b) = -b ∧
    b ⬝ᵥ solve (H + lam • 1) (-b) ≤ 0 ∧ (b ≠ 0 → b ⬝ᵥ solve (H + lam • 1) (-b) < 0) := by
  have hs := hsolve (H + lam • 1) (damped_symm h.hess lam) (damped_pos h.hess hl) (-b)
  exact ⟨posdef_exists_unique (damped_pos h.hess hl) _, hs, damped_descent h.hess hl b _ hs⟩

/-! ### C35 -/

/-- Signed distance of the transformed source point from the tangent plane (normal components 0..2). -/
def planeDistance (sc : Scene K) (T : Pose K) (f : PlaneICP) : K :=
  head3 (sc.tgtNormal f.target) ⬝ᵥ head3 (sc.tgtPoint f.target - T.apply (sc.srcPoint f.source))

theorem plane_error_sum (sc : Scene K) (T : Pose K) (f : PlaneICP) (hf : f.target ≠ npos) (h3 : sc.tgtNormal f.target 3 = 0) :
    PlaneICP.error sc T f = 1 / 2 * ∑ i, (head3 (sc.tgtNormal f.target) i * head3 (sc.tgtPoint f.target - T.apply (sc.srcPoint f.source)) i) ^ 2 := by
  unfold PlaneICP.error
  rw [if_neg hf]
  simp only [dotProduct, Fin.sum_univ_succ, head3, Pi.mul_apply]
  simp [h3]
  ring

/-- The code's error is not half the squared plane distance: there is a unit normal and a point in the tangent plane with a
non-zero error. -/
theorem C35_violated : ∃ (sc : Scene ℚ) (T : Pose ℚ) (f : PlaneICP), f.target ≠ npos ∧ sc.tgtNormal f.target 3 = 0 ∧
    head3 (sc.tgtNormal f.target) ⬝ᵥ head3 (sc.tgtNormal f.target) = 1 ∧ planeDistance sc T f = 0 ∧ PlaneICP.error sc T f ≠ 0 := by
  refine ⟨⟨fun _ => ![0, 0, 0, 1], fun _ => ![4, -3, 0, 1], fun _ => ![3 / 5, 4 / 5, 0, 0], fun _ => 0, fun _ => 0, fun _ => some (0, 25)⟩,
    Pose.one, ⟨0, 0⟩, by decide, rfl, ?_, ?_, ?_⟩
  · simp [head3, dotProduct, Fin.sum_univ_succ]; norm_num
  · simp [planeDistance, head3, dotProduct, Fin.sum_univ_succ, Pose.apply, Pose.one, Pose.matrix, mulVec]; norm_num
  · rw [plane_error_sum _ _ _ (by decide) rfl]
    simp [head3, Fin.sum_univ_succ, Pose.apply, Pose.one, Pose.matrix, mulVec, dotProduct]; norm_num

/-- What does hold: the error is half the squared plane distance when the normal is axis-aligned; in general it vanishes only in
the tangent plane, and a third of half the squared plane distance is a lower bound. Missing: equality (false, see
`C35_violated`). -/
theorem C35_plane_distance_partial (sc : Scene K) (T : Pose K) (f : PlaneICP) (hf : f.target ≠ npos) (h3 : sc.tgtNormal f.target 3 = 0) :
    ((∃ a : Fin 3, ∀ j, j ≠ a → head3 (sc.tgtNormal f.target) j = 0) → PlaneICP.error sc T f = 1 / 2 * planeDistance sc T f ^ 2) ∧
    1 / 2 * planeDistance sc T f ^ 2 ≤ 3 * PlaneICP.error sc T f ∧ (PlaneICP.error sc T f = 0 → planeDistance sc T f = 0) ∧
    (PlaneICP.error sc T f = 0 ↔ ∀ i, head3 (sc.tgtNormal f.target) i * head3 (sc.tgtPoint f.target - T.apply (sc.srcPoint f.source)) i = 0) := by
  rw [plane_error_sum sc T f hf h3]
  unfold planeDistance
  generalize head3 (sc.tgtNormal f.target) = n
  generalize head3 (sc.tgtPoint f.target - T.apply (sc.srcPoint f.source)) = r
  have hcs : 1 / 2 * (n ⬝ᵥ r) ^ 2 ≤ 3 * (1 / 2 * ∑ i, (n i * r i) ^ 2) := by
    simp only [dotProduct, Fin.sum_univ_three]
    nlinarith [sq_nonneg (n 0 * r 0 - n 1 * r 1), sq_nonneg (n 0 * r 0 - n 2 * r 2), sq_nonneg (n 1 * r 1 - n 2 * r 2)]
  refine ⟨?_, hcs, ?_, ?_⟩
  · rintro ⟨a, ha⟩
    have h1 : ∑ i, (n i * r i) ^ 2 = (n a * r a) ^ 2 := by
      apply Finset.sum_eq_single a
      · intro j _ hj; rw [ha j hj]; ring
      · intro h; exact absurd (Finset.mem_univ a) h
    have h2 : n ⬝ᵥ r = n a * r a := by
      apply Finset.sum_eq_single a
      · intro j _ hj; rw [ha j hj, zero_mul]
      · intro h; exact absurd (Finset.mem_univ a) h
    rw [h1, h2]
  · intro h0
    rw [h0] at hcs
    have : (n ⬝ᵥ r) ^ 2 = 0 := le_antisymm (by linarith) (sq_nonneg _)
    exact pow_eq_zero_iff (two_ne_zero) |>.1 this
  · constructor
    · intro h0 i
      have hs : ∑ i, (n i * r i) ^ 2 = 0 := by linarith
      rw [Finset.sum_eq_zero_iff_of_nonneg (fun i _ => sq_nonneg _)] at hs
      exact pow_eq_zero_iff (two_ne_zero) |>.1 (hs i (Finset.mem_univ i))
    · intro h0
      simp [h0]

/-! ### C36 -/

/-- What a robust kernel has to satisfy. -/
structure RobustKernel (w : K → K) : Prop where
  range : ∀ e, 0 < w e ∧ w e ≤ 1
  even : ∀ e, w (-e) = w e
  antitone : ∀ a b, |a| ≤ |b| → w b ≤ w a
  zero : w 0 = 1
  /-- The robustified error `w(x) x^2` is non-decreasing in `x >= 0`. -/
  monotone : ∀ a b, 0 ≤ a → a ≤ b → w a * (a * a) ≤ w b * (b * b)

theorem C36_huber (c : K) (hc : 0 < c) : RobustKernel (huberWeight c) ∧ ∀ e, |e| < c → huberWeight c e = 1 := by
  refine ⟨⟨?_, ?_, ?_, ?_, ?_⟩, ?_⟩
  · intro e
    unfold huberWeight
    split
    · exact ⟨one_pos, le_refl _⟩
    · rename_i h
      have hp : 0 < |e| := lt_of_lt_of_le hc (not_lt.1 h)
      exact ⟨div_pos hc hp, (div_le_one hp).2 (not_lt.1 h)⟩
  · intro e; unfold huberWeight; rw [abs_neg]
  · intro a b hab
    unfold huberWeight
    by_cases hb : |b| < c
    · rw [if_pos hb, if_pos (lt_of_le_of_lt hab hb)]
    · rw [if_neg hb]
      have hbp : 0 < |b| := lt_of_lt_of_le hc (not_lt.1 hb)
      by_cases ha : |a| < c
      · rw [if_pos ha]; exact (div_le_one hbp).2 (not_lt.1 hb)
      · rw [if_neg ha]
        have hap : 0 < |a| := lt_of_lt_of_le hc (not_lt.1 ha)
        exact div_le_div_of_nonneg_left (le_of_lt hc) hap hab
  · unfold huberWeight; rw [abs_zero, if_pos hc]
  · intro a b ha hab
    have hb := le_trans ha hab
    unfold huberWeight
    rw [abs_of_nonneg ha, abs_of_nonneg hb]
    have hsq : ∀ x : K, 0 < x → c / x * (x * x) = c * x := by intro x hx; field_simp
    by_cases h1 : b < c
    · rw [if_pos h1, if_pos (lt_of_le_of_lt hab h1)]
      nlinarith
    · rw [if_neg h1, hsq b (lt_of_lt_of_le hc (not_lt.1 h1))]
      by_cases h2 : a < c
      · rw [if_pos h2]
        have := not_lt.1 h1
        nlinarith
      · rw [if_neg h2, hsq a (lt_of_lt_of_le hc (not_lt.1 h2))]
        nlinarith
  · intro e he; unfold huberWeight; rw [if_pos he]

theorem C36_cauchy (c : K) (hc : 0 < c) : RobustKernel (cauchyWeight c) := by
  have hpos : ∀ e : K, 0 < c + e * e := fun e => add_pos_of_pos_of_nonneg hc (mul_self_nonneg e)
  refine ⟨?_, ?_, ?_, ?_, ?_⟩
  · intro e
    unfold cauchyWeight
    exact ⟨div_pos hc (hpos e), (div_le_one (hpos e)).2 (by have := mul_self_nonneg e; linarith)⟩
  · intro e; unfold cauchyWeight; rw [neg_mul_neg]
  · intro a b hab
    unfold cauchyWeight
    apply div_le_div_of_nonneg_left (le_of_lt hc) (hpos a)
    have := mul_self_le_mul_self (abs_nonneg a) hab
    rw [abs_mul_abs_self, abs_mul_abs_self] at this
    linarith
  · unfold cauchyWeight; rw [mul_zero, add_zero, div_self (ne_of_gt hc)]
  · intro a b ha hab
    unfold cauchyWeight
    rw [div_mul_eq_mul_div, div_mul_eq_mul_div, div_le_div_iff₀ (hpos a) (hpos b)]
    have h1 : a * a ≤ b * b := mul_self_le_mul_self ha hab
    have : c * (a * a) * (c + b * b) ≤ c * (b * b) * (c + a * a) := by
      have h2 : c * (c * (a * a)) ≤ c * (c * (b * b)) := mul_le_mul_of_nonneg_left (mul_le_mul_of_nonneg_left h1 (le_of_lt hc)) (le_of_lt hc)
      nlinarith
    exact this

/-- The robustified error of a factor is non-negative, not larger than the plain error, and ordered like the plain errors. -/
theorem C36_robust_error {F : Type} (w sqrt : K → K) (hw : RobustKernel w) (hsqrt : ∀ e, 0 ≤ e → 0 ≤ sqrt e ∧ sqrt e * sqrt e = e) (err : F → K)
    (f g : F) (hf : 0 ≤ err f) (hg : 0 ≤ err g) :
    0 ≤ robustError w sqrt err f ∧ robustError w sqrt err f ≤ err f ∧ (err f ≤ err g → robustError w sqrt err f ≤ robustError w sqrt err g) := by
  unfold robustError
  obtain ⟨h1, h2⟩ := hw.range (sqrt (err f))
  refine ⟨mul_nonneg (le_of_lt h1) hf, by nlinarith, fun hfg => ?_⟩
  obtain ⟨s1, e1⟩ := hsqrt _ hf
  obtain ⟨s2, e2⟩ := hsqrt _ hg
  have hle : sqrt (err f) ≤ sqrt (err g) := by
    by_contra hlt
    have hlt := not_le.1 hlt
    have := mul_self_lt_mul_self s2 hlt
    rw [e1, e2] at this
    exact absurd hfg (not_le.2 this)
  have := hw.monotone _ _ s1 hle
  rwa [e1, e2] at this

/-! ### C37 -/

/-- `RestrictDoFFactor` changes only the diagonal entries of masked directions, adding `lambda` there; `b` and `e` are kept, at
linearisation and at error evaluation. -/
theorem C37_only_masked (r : RestrictDoF K) (hm : ∀ i, r.mask i = 0 ∨ r.mask i = 1) (T : Pose K) (s : Sys K) :
    (∀ i j, (r.general.updateLinearized T s).1 i j = s.1 i j + (if i = j ∧ r.mask i = 0 then r.lambda else 0)) ∧
    (r.general.updateLinearized T s).2 = s.2 ∧ ∀ e, r.general.updateError T e = e := by
  refine ⟨?_, rfl, fun _ => rfl⟩
  intro i j
  simp only [RestrictDoF.general, Matrix.add_apply, Matrix.smul_apply, smul_eq_mul]
  congr 1
  by_cases hij : i = j
  · subst hij
    rw [diagonal_apply_eq]
    rcases hm i with h | h
    · rw [if_pos ⟨rfl, h⟩, h]; simp
    · rw [if_neg (by rintro ⟨_, h'⟩; rw [h] at h'; exact one_ne_zero h'), h]; simp
  · rw [diagonal_apply_ne _ hij, if_neg (fun h => hij h.1), mul_zero]

/-- Masks set through the two setters: rotation entries first, translation entries last. -/
theorem C37_masks (r : RestrictDoF K) (rot tra : Fin 3 → K) :
    ((r.setRotationMask rot).setTranslationMask tra).mask = ![rot 0, rot 1, rot 2, tra 0, tra 1, tra 2] ∧
    ((r.setTranslationMask tra).setRotationMask rot).mask = ![rot 0, rot 1, rot 2, tra 0, tra 1, tra 2] := by
  constructor <;> (funext i; fin_cases i <;> rfl)

/-- The computed step moves little in masked directions: the squared masked components sum to at most `e / lambda` (the claimed
bound is `2 e / lambda`). -/
theorem C37_bound (r : RestrictDoF K) (hm : ∀ i, r.mask i = 0 ∨ r.mask i = 1) (hlam : 0 < r.lambda) (T : Pose K) (H : Matrix (Fin 6) (Fin 6) K) (b : Fin 6 → K)
    (e : K) (hgood : GoodSystem H b e) (damp : K) (hdamp : 0 ≤ damp) (d : Fin 6 → K)
    (hd : ((r.general.updateLinearized T (H, b, e)).1 + damp • (1 : Matrix (Fin 6) (Fin 6) K)) *ᵥ d = -(r.general.updateLinearized T (H, b, e)).2.1) :
    ∑ i, (if r.mask i = 0 then d i ^ 2 else 0) ≤ e / r.lambda ∧ ∑ i, (if r.mask i = 0 then d i ^ 2 else 0) ≤ 2 * e / r.lambda := by
  have main : r.lambda * ∑ i, (if r.mask i = 0 then d i ^ 2 else 0) ≤ e := by
    have h1 := congrArg (fun v => d ⬝ᵥ v) hd
    simp only [RestrictDoF.general, add_mulVec, dotProduct_add, smul_mulVec, dotProduct_smul, one_mulVec, dotProduct_neg, smul_eq_mul] at h1
    have h2 : d ⬝ᵥ (diagonal (fun i => |r.mask i - 1|)) *ᵥ d = ∑ i, (if r.mask i = 0 then d i ^ 2 else 0) := by
      unfold dotProduct
      apply Finset.sum_congr rfl
      intro i _
      rw [mulVec_diagonal]
      rcases hm i with h | h
      · rw [if_pos h, h]; simp; ring
      · rw [if_neg (by rw [h]; exact one_ne_zero), h]; simp
    rw [h2] at h1
    have h3 := hgood.model d
    have h4 := hgood.hess.psd d
    have h5 := mul_nonneg hdamp (dot_self_nonneg d)
    rw [dotProduct_comm b d] at h3
    linarith
  have h1 : ∑ i, (if r.mask i = 0 then d i ^ 2 else 0) ≤ e / r.lambda := by
    rw [le_div_iff₀ hlam, mul_comm]; exact main
  refine ⟨h1, le_trans h1 ?_⟩
  apply div_le_div_of_nonneg_right _ (le_of_lt hlam)
  have := hgood.nonneg
  linarith

/-! ### concrete cases -/

/-- Two source points; the first has a neighbour within distance 1, the second only a far one. -/
def sceneTwo : Scene ℚ where
  srcPoint := fun i => if i = 0 then ![0, 0, 0, 1] else ![10, 0, 0, 1]
  tgtPoint := fun _ => ![0, 0, 1 / 2, 1]
  tgtNormal := fun _ => ![0, 0, 1, 0]
  srcCov := fun _ => diagonal ![1, 1, 1, 0]
  tgtCov := fun _ => diagonal ![1, 1, 1, 0]
  nn := fun q => some (0, q 0 ^ 2 + q 1 ^ 2 + (q 2 - 1 / 2) ^ 2)

example : SearchIndices sceneTwo := by
  intro q k d h
  simp only [sceneTwo, Option.some.injEq, Prod.mk.injEq] at h
  rw [← h.1]; decide

example : gated sceneTwo 1 Pose.one 0 = true ∧ gated sceneTwo 1 Pose.one 1 = false := by
  constructor <;> (simp [gated, sceneTwo, Pose.apply, Pose.one, Pose.matrix, mulVec, dotProduct, Fin.sum_univ_succ]; try norm_num)

/-- The contracts are satisfiable: `Matrix` inverse and the solver built from it. -/
example : InverseContract (fun A : Matrix (Fin 3) (Fin 3) ℚ => A⁻¹) := by
  rintro A ⟨B, hB⟩
  have : IsUnit A.det := by
    apply (Matrix.isUnit_iff_isUnit_det A).1
    exact ⟨⟨A, B, hB, _root_.mul_eq_one_comm.1 hB⟩, rfl⟩
  exact Matrix.mul_nonsing_inv A this

example : SolveContract (fun (A : Matrix (Fin 6) (Fin 6) ℚ) r => A⁻¹ *ᵥ r) := by
  intro A _ hA r
  have hinj : Function.Injective A.mulVec := by
    intro x y hxy
    by_contra hne
    have h1 := hA (x - y) (sub_ne_zero.2 hne)
    have : A *ᵥ (x - y) = 0 := by rw [mulVec_sub]; exact sub_eq_zero.2 hxy
    rw [this, dotProduct_zero] at h1
    exact lt_irrefl _ h1
  have hdet : IsUnit A.det := (Matrix.isUnit_iff_isUnit_det A).1 (Matrix.mulVec_injective_iff_isUnit.1 hinj)
  rw [mulVec_mulVec, Matrix.mul_nonsing_inv A hdet, one_mulVec]

/-- The premise of `C36_robust_error` on `sqrt` is met by the real square root. -/
example : ∀ e : ℝ, 0 ≤ e → 0 ≤ Real.sqrt e ∧ Real.sqrt e * Real.sqrt e = e := fun e he => ⟨Real.sqrt_nonneg e, Real.mul_self_sqrt he⟩

/-- Huber weights below and above the width. -/
example : huberWeight (1 : ℚ) (1 / 2) = 1 ∧ huberWeight (1 : ℚ) (-4) = 1 / 4 := by
  constructor <;> (unfold huberWeight; norm_num [abs_of_pos, abs_of_neg])

/-- A mask that fixes roll and pitch and leaves the rest free. -/
example : ∀ i, (({ lambda := 1, mask := ![0, 0, 1, 1, 1, 1] } : RestrictDoF ℚ).mask i) = 0 ∨ ({ lambda := 1, mask := ![0, 0, 1, 1, 1, 1] } : RestrictDoF ℚ).mask i = 1 := by
  intro i; fin_cases i <;> simp

/-- Positive semi-definite covariances with an invertible fusion: the covariances of `sceneTwo`. -/
example : SymPSD (sceneTwo.tgtCov 0) := by
  refine ⟨by simp [sceneTwo, diagonal_transpose], fun x => ?_⟩
  simp [sceneTwo, dotProduct, mulVec_diagonal, Fin.sum_univ_succ]
  nlinarith [mul_self_nonneg (x 0), mul_self_nonneg (x 1), mul_self_nonneg (x 2)]

/-- The fused covariance of the first point of `sceneTwo` at the identity is invertible (it is `2 I`). -/
example : ∃ B, fusedCov sceneTwo Pose.one 0 0 * B = 1 := by
  refine ⟨diagonal ![1 / 2, 1 / 2, 1 / 2], ?_⟩
  ext i j
  rw [mul_diagonal]
  fin_cases i <;> fin_cases j <;>
    simp [fusedCov, block33, sceneTwo, Pose.one, Pose.matrix, Matrix.mul_apply, Fin.sum_univ_succ, Matrix.vecMul, dotProduct]
  all_goals norm_num

/-- The first point of `sceneTwo` contributes an actual system with positive error. -/
example : ∃ H b e, ((icpFactor : PointFactor ICP ℚ).linearize sceneTwo (distanceRejector 1) Pose.one 0 ICP.init).2 = some (H, b, e) ∧ 0 < e := by
  have hc : correspondence sceneTwo (distanceRejector 1) Pose.one 0 = some 0 := by
    apply correspondence_some (d := 1 / 4)
    · simp [sceneTwo, Pose.apply, Pose.one, Pose.matrix, mulVec, dotProduct, Fin.sum_univ_succ]; norm_num
    · norm_num
  simp only [icpFactor, ICP.linearize, hc]
  refine ⟨_, _, _, rfl, ?_⟩
  simp [sceneTwo, Pose.apply, Pose.one, Pose.matrix, mulVec, dotProduct, Fin.sum_univ_succ]

end Verif.Props
