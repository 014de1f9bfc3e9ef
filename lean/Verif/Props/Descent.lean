import Verif.Spec.Descent
import Verif.Props.Steps
import Verif.Props.PipelineVoxel

/-!
C67: registration is Levenberg–Marquardt descent on the cost of nearest pairs, from the points to every field of the result.
-/

set_option linter.unusedSectionVars false
set_option linter.unusedSimpArgs false
set_option linter.unnecessarySeqFocus false

namespace Verif.Props

open Matrix Verif Verif.Knn Verif.KdTree Verif.Proofs Verif.Proofs.RegMem Verif.Factors Verif.Reduction Verif.Optimizer Verif.PointCloud Verif.RegMem Verif.Spec Verif.Lie
open Verif.Pipeline Verif.Features Verif.Downsample Verif.Helper

/-! ### from four to three coordinates -/

theorem head3_apply (T : Pose ℝ) (p : Fin 4 → ℝ) (hp : p 3 = 1) : head3 (T.apply p) = move T (head3 p) := by
  funext i
  fin_cases i <;> simp [head3, Pose.apply, Pose.matrix, move, mulVec, dotProduct, Fin.sum_univ_four, Fin.sum_univ_three, hp]

theorem apply_last (T : Pose ℝ) (p : Fin 4 → ℝ) : T.apply p 3 = p 3 := by
  simp [Pose.apply, Pose.matrix, mulVec, dotProduct, Fin.sum_univ_four]

theorem dot4_head (u v : Fin 4 → ℝ) (hu : u 3 = 0) : u ⬝ᵥ v = head3 u ⬝ᵥ head3 v := by
  simp [head3, dotProduct, Fin.sum_univ_four, Fin.sum_univ_three, hu]

theorem head3_mulVec_block (M : Matrix (Fin 4) (Fin 4) ℝ) (u : Fin 4 → ℝ) (hu : u 3 = 0) : head3 (M *ᵥ u) = block33 M *ᵥ head3 u := by
  funext i
  fin_cases i <;> simp [head3, block33, mulVec, dotProduct, Fin.sum_univ_four, Fin.sum_univ_three, hu]

theorem block33_set (M : Matrix (Fin 4) (Fin 4) ℝ) (A : Matrix (Fin 3) (Fin 3) ℝ) : block33 (setBlock33 M A) = A := by
  ext i j
  simp [block33, setBlock33]

theorem quad_head (M : Matrix (Fin 4) (Fin 4) ℝ) (u : Fin 4 → ℝ) (hu : u 3 = 0) : u ⬝ᵥ M *ᵥ u = head3 u ⬝ᵥ block33 M *ᵥ head3 u := by
  rw [dot4_head _ _ hu, head3_mulVec_block _ _ hu]

theorem block33_conj (T : Pose ℝ) (C : Matrix (Fin 4) (Fin 4) ℝ) (hC : ∀ a b : Fin 4, a = 3 ∨ b = 3 → C a b = 0) :
    block33 (T.matrix * C * T.matrixᵀ) = T.R * block33 C * T.Rᵀ := by
  have h3 : ∀ a, C a 3 = 0 := fun a => hC a 3 (Or.inr rfl)
  have h3' : ∀ a, C 3 a = 0 := fun a => hC 3 a (Or.inl rfl)
  ext i j
  simp only [block33, Matrix.mul_apply, transpose_apply, Fin.sum_univ_four, Fin.sum_univ_three, h3, h3', mul_zero, zero_mul, add_zero]
  fin_cases i <;> fin_cases j <;> simp [Pose.matrix]

theorem blocks_last (A B : Matrix (Fin 3) (Fin 3) ℝ) (x : Fin 6 → ℝ) : (blocks A B *ᵥ x) 3 = 0 := by
  simp [blocks, mulVec, dotProduct]

/-! ### the sites of a scene -/

/-- Target and source of a scene as points in space. The normal of a source point is not used by any factor; `nrm` gives it. -/
def targetSite (sc : Scene ℝ) (k : Nat) : Site := ⟨head3 (sc.tgtPoint k), head3 (sc.tgtNormal k), block33 (sc.tgtCov k)⟩
def sourceSite (sc : Scene ℝ) (nrm : Nat → Fin 3 → ℝ) (i : Nat) : Site := ⟨head3 (sc.srcPoint i), nrm i, block33 (sc.srcCov i)⟩

/-- What a scene must meet for a factor type, and the cost the factor measures. -/
inductive Measures (sc : Scene ℝ) (n : Nat) : Metric → {F : Type} → PointFactor F ℝ → (F → Prop) → Prop where
  | point : Measures sc n .point icpFactor (fun _ => True)
  | plane : Measures sc n .plane planeFactor (fun _ => True)
  | cov (inv : Matrix (Fin 3) (Fin 3) ℝ → Matrix (Fin 3) (Fin 3) ℝ) : InverseContract inv → (∀ k, SymPSD (sc.tgtCov k)) → (∀ i, SymPSD (sc.srcCov i)) →
      (∀ q k d, sc.nn q = some (k, d) → ∀ x, x ≠ 0 → 0 < x ⬝ᵥ block33 (sc.tgtCov k) *ᵥ x) →
      (∀ i < n, ∀ a b : Fin 4, a = 3 ∨ b = 3 → sc.srcCov i a b = 0) → Measures sc n .cov (gicpFactor inv) ZeroBorder

theorem Measures.plain {sc : Scene ℝ} {n : Nat} {m : Metric} {F : Type} {pf : PointFactor F ℝ} {Inv : F → Prop} (h : Measures sc n m pf Inv) : Plain sc pf Inv := by
  cases h with
  | point => exact .icp
  | plane => exact .plane
  | cov inv h1 h2 h3 h4 => exact .gicp inv h1 h2 h3 h4

/-- The homogeneous coordinate of every point is 1. -/
structure Homogeneous (sc : Scene ℝ) (n : Nat) : Prop where
  index : SearchIndices sc
  source : ∀ i < n, sc.srcPoint i 3 = 1
  target : ∀ q k d, sc.nn q = some (k, d) → sc.tgtPoint k 3 = 1

theorem corr_found {sc : Scene ℝ} {rej : Rejector ℝ} {T : Pose ℝ} {i k : Nat} (h : correspondence sc rej T i = some k) : ∃ q d, sc.nn q = some (k, d) := by
  unfold correspondence at h
  rcases hq : sc.nn (T.apply (sc.srcPoint i)) with _ | ⟨k', d⟩
  · rw [hq] at h; cases h
  · rw [hq] at h
    simp only at h
    split at h
    · cases h
    · cases h; exact ⟨_, d, hq⟩

section Pair

variable {nrm : Nat → Fin 3 → ℝ} {sc : Scene ℝ} {n : Nat} (hsc : Homogeneous sc n)

theorem diff_head (T : Pose ℝ) {i k : Nat} (hs : sc.srcPoint i 3 = 1) (ht : sc.tgtPoint k 3 = 1) :
    head3 (sc.tgtPoint k - T.apply (sc.srcPoint i)) = pairDiff T (targetSite sc k) (sourceSite sc nrm i) ∧ (sc.tgtPoint k - T.apply (sc.srcPoint i)) 3 = 0 := by
  constructor
  · have h1 := head3_apply T (sc.srcPoint i) hs
    have h2 : head3 (sc.tgtPoint k - T.apply (sc.srcPoint i)) = head3 (sc.tgtPoint k) - head3 (T.apply (sc.srcPoint i)) := by
      funext j; fin_cases j <;> rfl
    rw [h2, h1]
    rfl
  · rw [Pi.sub_apply, apply_last, hs, ht, sub_self]

theorem speed_head (L : Pose ℝ) {i k : Nat} (hs : sc.srcPoint i 3 = 1) (ht : sc.tgtPoint k 3 = 1) (x : Fin 6 → ℝ) :
    pairSpeed L x (targetSite sc k) (sourceSite sc nrm i) = head3 (blocks (L.R * skew (head3 (sc.srcPoint i))) (-L.R) *ᵥ x) := by
  have h := deriv_residual L (sc.srcPoint i) (sc.tgtPoint k) hs x
  unfold pairSpeed
  refine HasDerivAt.deriv ?_
  have h3 : ∀ u : ℝ, pairDiff (L.mul (se3Exp (u • x))) (targetSite sc k) (sourceSite sc nrm i) = head3 (sc.tgtPoint k - (L.mul (se3Exp (u • x))).apply (sc.srcPoint i)) :=
    fun u => (diff_head _ hs ht).1.symm
  simp only [h3]
  rw [hasDerivAt_pi] at h ⊢
  intro j
  fin_cases j
  · exact h 0
  · exact h 1
  · exact h 2

theorem plane_jacobian (nv : Fin 4 → ℝ) (R S : Matrix (Fin 3) (Fin 3) ℝ) (x : Fin 6 → ℝ) :
    blocks (diagonal (head3 nv) * R * S) (diagonal (head3 nv) * (-R)) *ᵥ x = nv * (blocks (R * S) (-R) *ᵥ x) := by
  funext j
  rw [Matrix.mul_assoc]
  simp only [Pi.mul_apply, mulVec, dotProduct, Finset.mul_sum]
  apply Finset.sum_congr rfl
  intro l _
  unfold blocks
  by_cases hj : j.val < 3
  · simp only [dif_pos hj]
    have hh : head3 nv ⟨j.val, hj⟩ = nv j := by
      obtain ⟨j, hj'⟩ := j
      interval_cases j <;> rfl
    split
    · rw [diagonal_mul, hh]; ring
    · rw [diagonal_mul, hh]; ring
  · simp only [dif_neg hj]; ring

theorem plane_quad (nv u : Fin 4 → ℝ) (hu : u 3 = 0) : (nv * u) ⬝ᵥ (nv * u) = head3 u ⬝ᵥ diagonal (fun i => head3 nv i ^ 2) *ᵥ head3 u := by
  simp [head3, dotProduct, mulVec_diagonal, Fin.sum_univ_four, Fin.sum_univ_three, hu]
  ring

include hsc in
/-- What a factor with a correspondence computes and stores. -/
theorem factor_pair {m : Metric} {F : Type} {pf : PointFactor F ℝ} {Inv : F → Prop} (hm : Measures sc n m pf Inv) {rej : Rejector ℝ} {L : Pose ℝ} {i k : Nat} (hi : i < n)
    (hc : correspondence sc rej L i = some k) {f : F} (hf : Inv f) :
    ∃ f' H b e, pf.linearize sc rej L i f = (f', some (H, b, e)) ∧ pf.inlier f' = true ∧ (∀ T, pf.error sc T f' = pairCost m L (targetSite sc k) (sourceSite sc nrm i) T) ∧
      e = pairCost m L (targetSite sc k) (sourceSite sc nrm i) L ∧
      (∀ x, x ⬝ᵥ H *ᵥ x = pairSpeed L x (targetSite sc k) (sourceSite sc nrm i) ⬝ᵥ pairWeight m L (targetSite sc k) (sourceSite sc nrm i) *ᵥ pairSpeed L x (targetSite sc k) (sourceSite sc nrm i)) ∧
      ∀ x, HasDerivAt (fun u : ℝ => pairCost m L (targetSite sc k) (sourceSite sc nrm i) (L.mul (se3Exp (u • x)))) (b ⬝ᵥ x) 0 := by
  obtain ⟨q, d, hq⟩ := corr_found hc
  have hs := hsc.source i hi
  have ht := hsc.target q k d hq
  have hk : k ≠ npos := hsc.index q k d hq
  have hgrad := hm.plain.gradient hsc.index rej L i hs f hf
  have hquad : ∀ (J : Matrix (Fin 4) (Fin 6) ℝ) (W : Matrix (Fin 4) (Fin 4) ℝ) (x : Fin 6 → ℝ), x ⬝ᵥ (Jᵀ * W * J) *ᵥ x = (J *ᵥ x) ⬝ᵥ W *ᵥ (J *ᵥ x) := by
    intro J W x
    rw [Matrix.mul_assoc, ← mulVec_mulVec, ← mulVec_mulVec, dotProduct_comm, mulVec_transpose, ← dotProduct_mulVec, dotProduct_comm]
  cases hm with
  | point =>
    have hl : icpFactor.linearize sc rej L i f = (⟨k, i⟩, some ((blocks (L.R * skew (head3 (sc.srcPoint i))) (-L.R))ᵀ * blocks (L.R * skew (head3 (sc.srcPoint i))) (-L.R),
        (blocks (L.R * skew (head3 (sc.srcPoint i))) (-L.R))ᵀ *ᵥ (sc.tgtPoint k - L.apply (sc.srcPoint i)),
        1 / 2 * ((sc.tgtPoint k - L.apply (sc.srcPoint i)) ⬝ᵥ (sc.tgtPoint k - L.apply (sc.srcPoint i))))) := by
      simp only [icpFactor, ICP.linearize, hc]
    have herr : ∀ T, icpFactor.error sc T ⟨k, i⟩ = pairCost .point L (targetSite sc k) (sourceSite sc nrm i) T := by
      intro T
      obtain ⟨h1, h2⟩ := diff_head T hs ht
      simp only [icpFactor, ICP.error, if_neg hk, pairCost, pairWeight, one_mulVec]
      rw [dot4_head _ _ h2, h1]
    refine ⟨_, _, _, _, hl, by simpa [icpFactor, ICP.inlier] using hk, herr, ?_, fun x => ?_, fun x => ?_⟩
    · rw [← herr L]
      simp only [icpFactor, ICP.error, if_neg hk]
    · have h1 := hquad (blocks (L.R * skew (head3 (sc.srcPoint i))) (-L.R)) 1 x
      rw [Matrix.mul_one] at h1
      rw [h1, speed_head L hs ht, one_mulVec, dot4_head _ _ (blocks_last _ _ _)]
      simp only [pairWeight, one_mulVec]
    · have h1 := hgrad _ _ _ _ hl x
      simpa only [herr] using h1
  | plane =>
    have hl : planeFactor.linearize sc rej L i f = (⟨k, i⟩, some ((blocks (diagonal (head3 (sc.tgtNormal k)) * L.R * skew (head3 (sc.srcPoint i))) (diagonal (head3 (sc.tgtNormal k)) * (-L.R)))ᵀ *
          blocks (diagonal (head3 (sc.tgtNormal k)) * L.R * skew (head3 (sc.srcPoint i))) (diagonal (head3 (sc.tgtNormal k)) * (-L.R)),
        (blocks (diagonal (head3 (sc.tgtNormal k)) * L.R * skew (head3 (sc.srcPoint i))) (diagonal (head3 (sc.tgtNormal k)) * (-L.R)))ᵀ *ᵥ (sc.tgtNormal k * (sc.tgtPoint k - L.apply (sc.srcPoint i))),
        1 / 2 * ((sc.tgtNormal k * (sc.tgtPoint k - L.apply (sc.srcPoint i))) ⬝ᵥ (sc.tgtNormal k * (sc.tgtPoint k - L.apply (sc.srcPoint i)))))) := by
      simp only [planeFactor, PlaneICP.linearize, hc]
    have herr : ∀ T, planeFactor.error sc T ⟨k, i⟩ = pairCost .plane L (targetSite sc k) (sourceSite sc nrm i) T := by
      intro T
      obtain ⟨h1, h2⟩ := diff_head T hs ht
      simp only [planeFactor, PlaneICP.error, if_neg hk, pairCost, pairWeight]
      rw [plane_quad _ _ h2, h1]
      rfl
    refine ⟨_, _, _, _, hl, by simpa [planeFactor, ICP.inlier] using hk, herr, ?_, fun x => ?_, fun x => ?_⟩
    · rw [← herr L]
      simp only [planeFactor, PlaneICP.error, if_neg hk]
    · have h1 := hquad (blocks (diagonal (head3 (sc.tgtNormal k)) * L.R * skew (head3 (sc.srcPoint i))) (diagonal (head3 (sc.tgtNormal k)) * (-L.R))) 1 x
      rw [Matrix.mul_one] at h1
      rw [h1, one_mulVec, plane_jacobian, plane_quad _ _ (blocks_last _ _ _), speed_head L hs ht]
      rfl
    · have h1 := hgrad _ _ _ _ hl x
      simpa only [herr] using h1
  | cov inv hinv _ hs' hpd hborder =>
    have hreg : ∃ B, fusedCov sc L k i * B = 1 := fused_regular hs' hpd rej L i k hc
    have hfused : fusedCov sc L k i = (targetSite sc k).cov + L.R * (sourceSite sc nrm i).cov * L.Rᵀ := by
      show block33 (sc.tgtCov k) + block33 (L.matrix * sc.srcCov i * L.matrixᵀ) = _
      rw [block33_conj L _ (hborder i hi)]
      rfl
    have hw : inv (fusedCov sc L k i) = pairWeight .cov L (targetSite sc k) (sourceSite sc nrm i) := by
      have h1 := hinv _ hreg
      rw [← Matrix.inv_eq_right_inv h1, hfused]
      rfl
    have hl : (gicpFactor inv).linearize sc rej L i f = (⟨k, i, setBlock33 f.mahalanobis (inv (fusedCov sc L k i))⟩, some
        ((blocks (L.R * skew (head3 (sc.srcPoint i))) (-L.R))ᵀ * setBlock33 f.mahalanobis (inv (fusedCov sc L k i)) * blocks (L.R * skew (head3 (sc.srcPoint i))) (-L.R),
        ((blocks (L.R * skew (head3 (sc.srcPoint i))) (-L.R))ᵀ * setBlock33 f.mahalanobis (inv (fusedCov sc L k i))) *ᵥ (sc.tgtPoint k - L.apply (sc.srcPoint i)),
        1 / 2 * ((sc.tgtPoint k - L.apply (sc.srcPoint i)) ⬝ᵥ setBlock33 f.mahalanobis (inv (fusedCov sc L k i)) *ᵥ (sc.tgtPoint k - L.apply (sc.srcPoint i))))) := by
      simp only [gicpFactor, GICP.linearize, hc]
    have herr : ∀ T, (gicpFactor inv).error sc T ⟨k, i, setBlock33 f.mahalanobis (inv (fusedCov sc L k i))⟩ = pairCost .cov L (targetSite sc k) (sourceSite sc nrm i) T := by
      intro T
      obtain ⟨h1, h2⟩ := diff_head T hs ht
      simp only [gicpFactor, GICP.error, if_neg hk, pairCost]
      rw [quad_head _ _ h2, h1, block33_set, hw]
    refine ⟨_, _, _, _, hl, by simpa [gicpFactor, GICP.inlier] using hk, herr, ?_, fun x => ?_, fun x => ?_⟩
    · rw [← herr L]
      simp only [gicpFactor, GICP.error, if_neg hk]
    · rw [hquad, quad_head _ _ (blocks_last _ _ _), block33_set, hw, speed_head L hs ht]
    · have h1 := hgrad _ _ _ _ hl x
      simpa only [herr] using h1

include hsc in
/-- A factor without correspondence. -/
theorem factor_alone {m : Metric} {F : Type} {pf : PointFactor F ℝ} {Inv : F → Prop} (hm : Measures sc n m pf Inv) {rej : Rejector ℝ} {L : Pose ℝ} {i : Nat}
    (hc : correspondence sc rej L i = none) (f : F) :
    (pf.linearize sc rej L i f).2 = none ∧ pf.inlier (pf.linearize sc rej L i f).1 = false ∧ ∀ T, pf.error sc T (pf.linearize sc rej L i f).1 = 0 :=
  (factor_cases hm.plain.shipped sc hsc.index rej L i f).2 hc

end Pair

/-! ### the system of an iteration -/

theorem pairSum_map {A : Type} (l : List A) (S : A → Site) (P : A → Option Site) (f : Site → Site → ℝ) :
    pairSum (l.map S) (l.map P) f = (l.map (fun i => match P i with | none => 0 | some t => f t (S i))).sum := by
  unfold pairSum
  induction l with
  | nil => rfl
  | cons a l ih => rw [List.map_cons, List.map_cons, List.zipWith_cons_cons, List.map_cons, List.sum_cons, List.sum_cons, ih] <;> rfl

theorem mapIdx_sum {F A : Type} [AddCommMonoid A] (φ : A → ℝ) (h0 : φ 0 = 0) (hadd : ∀ a b, φ (a + b) = φ a + φ b) (fs : List F) (g : Nat → F → A) (h : Nat → ℝ)
    (hg : ∀ i f, fs[i]? = some f → φ (g i f) = h i) : φ (fs.mapIdx g).sum = ((List.range fs.length).map h).sum := by
  have h1 : ∀ l : List A, φ l.sum = (l.map φ).sum := by
    intro l
    induction l with
    | nil => simpa using h0
    | cons a l ih => rw [List.sum_cons, hadd, ih, List.map_cons, List.sum_cons]
  rw [h1, map_mapIdx']
  congr 1
  apply List.ext_getElem
  · simp
  · intro i h2 h3
    rw [List.length_mapIdx] at h2
    rw [List.getElem_mapIdx, List.getElem_map, List.getElem_range]
    exact hg i _ (List.getElem?_eq_getElem h2)

theorem hasDerivAt_list (l : List Nat) (c : Nat → ℝ → ℝ) (c' : Nat → ℝ) (h : ∀ i ∈ l, HasDerivAt (c i) (c' i) 0) :
    HasDerivAt (fun u => (l.map (fun i => c i u)).sum) (l.map c').sum 0 := by
  induction l with
  | nil => simpa using hasDerivAt_const (0 : ℝ) (0 : ℝ)
  | cons a l ih =>
    simp only [List.map_cons, List.sum_cons]
    exact (h a (by simp)).add (ih (fun i hi => h i (by simp [hi])))

section System

variable {nrm : Nat → Fin 3 → ℝ} {sc : Scene ℝ} {n : Nat} (hsc : Homogeneous sc n) {m : Metric} {F : Type} {pf : PointFactor F ℝ} {Inv : F → Prop} (hm : Measures sc n m pf Inv) {rej : Rejector ℝ}
  {M : (Fin 3 → ℝ) → Option Site → Prop}

/-- The source points, and their partners at the pose `L`. -/
def sourceSites (sc : Scene ℝ) (nrm : Nat → Fin 3 → ℝ) (n : Nat) : List Site := (List.range n).map (sourceSite sc nrm)
noncomputable def partnersAt (sc : Scene ℝ) (rej : Rejector ℝ) (n : Nat) (L : Pose ℝ) : List (Option Site) := (List.range n).map (fun i => (correspondence sc rej L i).map (targetSite sc))

include hsc hm in
theorem system_linearised (L : Pose ℝ) (hM : ∀ i < n, M (move L (head3 (sc.srcPoint i))) ((correspondence sc rej L i).map (targetSite sc))) (fs fs' : List F) (hfs : fs.length = n ∧ ∀ f ∈ fs, Inv f) (H : Matrix (Fin 6) (Fin 6) ℝ) (b : Fin 6 → ℝ) (e : ℝ)
    (h : serialLinearize (pf.linearize sc rej L) fs = .ok (fs', (H, b, e))) :
    Linearised m M (sourceSites sc nrm n) L (partnersAt sc rej n L) H b ∧ e = totalCost m (sourceSites sc nrm n) (partnersAt sc rej n L) L L ∧
      (∀ T, serialError (pf.error sc T) fs' = .ok (totalCost m (sourceSites sc nrm n) (partnersAt sc rej n L) L T)) ∧ (fs'.length = n ∧ ∀ f ∈ fs', Inv f) ∧
      fs'.countP pf.inlier = paired (partnersAt sc rej n L) := by
  obtain ⟨hl, hinv⟩ := hfs
  obtain ⟨hgood, hinv'⟩ := C33_accumulated (hm.plain.sound rej L) fs fs' hinv H b e h
  rw [serial_ok] at h
  simp only [Except.ok.injEq] at h
  unfold reduceSpec at h
  obtain ⟨h1, h2⟩ := Prod.mk.inj h
  have hlen' : fs'.length = n := by rw [← h1, List.length_mapIdx, hl]
  have hlt : ∀ {i : Nat} {f : F}, fs[i]? = some f → i < n ∧ Inv f := fun {i f} hf =>
    ⟨hl ▸ (List.getElem?_eq_some_iff.1 hf).1, hinv f (List.mem_of_getElem? hf)⟩
  -- the errors stored in the factors
  have herr : ∀ T, errorSpec (pf.error sc T) fs' = totalCost m (sourceSites sc nrm n) (partnersAt sc rej n L) L T := by
    intro T
    unfold errorSpec totalCost sourceSites partnersAt
    rw [← h1, map_mapIdx', pairSum_map, ← hl]
    refine mapIdx_sum (fun a => a) rfl (fun _ _ => rfl) fs _ _ fun i f hf => ?_
    obtain ⟨hi, hfi⟩ := hlt hf
    cases hc : correspondence sc rej L i with
    | none => exact (factor_alone hsc hm hc f).2.2 T
    | some k =>
      obtain ⟨f', H', b', e', q1, _, q3, _⟩ := factor_pair (nrm := nrm) hsc hm hi hc hfi
      simp only [q1, Option.map_some]
      exact q3 T
  have hcomp : ∀ φ : Sys ℝ → ℝ, φ 0 = 0 → (∀ a b, φ (a + b) = φ a + φ b) → ∀ g : Site → Site → ℝ,
      (∀ i k f H' b' e', i < n → Inv f → correspondence sc rej L i = some k → (pf.linearize sc rej L i f).2 = some (H', b', e') → φ (H', b', e') = g (targetSite sc k) (sourceSite sc nrm i)) →
      φ (H, b, e) = pairSum (sourceSites sc nrm n) (partnersAt sc rej n L) g := by
    intro φ h0 hadd g hg
    unfold sourceSites partnersAt
    rw [← h2, pairSum_map, ← hl]
    refine mapIdx_sum φ h0 hadd fs _ _ fun i f hf => ?_
    obtain ⟨hi, hfi⟩ := hlt hf
    cases hc : correspondence sc rej L i with
    | none =>
      rw [(factor_alone hsc hm hc f).1]
      simpa using h0
    | some k =>
      obtain ⟨f', H', b', e', q1, _⟩ := factor_pair (nrm := nrm) hsc hm hi hc hfi
      have q2 : (pf.linearize sc rej L i f).2 = some (H', b', e') := by rw [q1]
      rw [q2]
      simp only [Option.getD_some, Option.map_some]
      exact hg i k f H' b' e' hi hfi hc q2
  have hget : ∀ {i k : Nat} {f : F} {H' b' e'}, i < n → Inv f → correspondence sc rej L i = some k → (pf.linearize sc rej L i f).2 = some (H', b', e') →
      e' = pairCost m L (targetSite sc k) (sourceSite sc nrm i) L ∧
      (∀ x, x ⬝ᵥ H' *ᵥ x = pairSpeed L x (targetSite sc k) (sourceSite sc nrm i) ⬝ᵥ pairWeight m L (targetSite sc k) (sourceSite sc nrm i) *ᵥ pairSpeed L x (targetSite sc k) (sourceSite sc nrm i)) ∧
      ∀ x, HasDerivAt (fun u : ℝ => pairCost m L (targetSite sc k) (sourceSite sc nrm i) (L.mul (se3Exp (u • x)))) (b' ⬝ᵥ x) 0 := by
    intro i k f H' b' e' hi hfi hc hq
    obtain ⟨f', H'', b'', e'', q1, _, _, q4, q5, q6⟩ := factor_pair (nrm := nrm) hsc hm hi hc hfi
    rw [q1] at hq
    simp only [Option.some.injEq, Prod.mk.injEq] at hq
    obtain ⟨rfl, rfl, rfl⟩ := hq
    exact ⟨q4, q5, q6⟩
  refine ⟨⟨?_, hgood.hess, fun x => ?_, fun x => ?_⟩, ?_, fun T => by rw [serialError_ok, herr T], ⟨hlen', hinv'⟩, ?_⟩
  · unfold sourceSites partnersAt
    rw [List.forall₂_map_left_iff, List.forall₂_map_right_iff, List.forall₂_same]
    intro i hi
    exact hM i (List.mem_range.1 hi)
  · refine hcomp (fun s => x ⬝ᵥ s.1 *ᵥ x) (by simp) (fun a b => by simp [add_mulVec, dotProduct_add]) _ fun i k f H' b' e' hi hfi hc hq => ?_
    exact (hget hi hfi hc hq).2.1 x
  · -- the gradient of each pair, by choice of any factor at that place
    have hb : b ⬝ᵥ x = ((List.range n).map (fun i => match fs[i]? with | none => 0 | some f => ((pf.linearize sc rej L i f).2.getD 0).2.1 ⬝ᵥ x)).sum := by
      have : b = ((fs.mapIdx (fun i f => (pf.linearize sc rej L i f).2.getD 0)).sum).2.1 := by rw [h2]
      rw [this, ← hl]
      refine mapIdx_sum (fun s : Sys ℝ => s.2.1 ⬝ᵥ x) (by simp) (fun a b => by simp [add_dotProduct]) fs _ _ fun i f hf => ?_
      rw [hf]
    rw [hb]
    unfold totalCost sourceSites partnersAt
    simp only [pairSum_map]
    refine hasDerivAt_list _ _ _ fun i hi => ?_
    have hi := List.mem_range.1 hi
    have hf : fs[i]? = some fs[i] := List.getElem?_eq_getElem (hl ▸ hi)
    obtain ⟨_, hfi⟩ := hlt hf
    rw [hf]
    cases hc : correspondence sc rej L i with
    | none =>
      simp only [Option.map_none, (factor_alone hsc hm hc fs[i]).1, Option.getD_none]
      simpa using hasDerivAt_const (0 : ℝ) (0 : ℝ)
    | some k =>
      obtain ⟨f', H', b', e', q1, _, _, _, _, q6⟩ := factor_pair (nrm := nrm) hsc hm hi hc hfi
      simp only [Option.map_some, q1, Option.getD_some]
      exact q6 x
  · exact hcomp (fun s => s.2.2) rfl (fun _ _ => rfl) _ fun i k f H' b' e' hi hfi hc hq => (hget hi hfi hc hq).1
  · unfold paired partnersAt
    have hmap : fs'.map pf.inlier = (List.range n).map (fun i => ((correspondence sc rej L i).map (targetSite sc)).isSome) := by
      apply List.ext_getElem
      · simp [hlen']
      · intro i a1 a2
        rw [List.length_map, hlen'] at a1
        have hf : fs[i]? = some fs[i] := List.getElem?_eq_getElem (hl ▸ a1)
        obtain ⟨_, hfi⟩ := hlt hf
        have hfs' : fs'[i]'(hlen' ▸ a1) = (pf.linearize sc rej L i fs[i]).1 := by
          subst h1
          rw [List.getElem_mapIdx]
        simp only [List.getElem_map, List.getElem_range, hfs']
        cases hc : correspondence sc rej L i with
        | none => exact (factor_alone hsc hm hc _).2.1
        | some k =>
          obtain ⟨f', H', b', e', q1, q2, _⟩ := factor_pair (nrm := nrm) hsc hm a1 hc hfi
          rw [q1]
          exact q2
    have hc : ∀ (l : List F), l.countP pf.inlier = (l.map pf.inlier).countP id := fun l => by rw [List.countP_map]; rfl
    rw [hc, hmap, List.countP_map, List.countP_map]
    rfl

end System

/-! ### the optimiser -/

/-- The trials of one iteration. -/
theorem inner_trials {F : Type} (P : Problem F ℝ) (hg : ∀ T e, P.general.updateError T e = e) (factor : ℝ) (T : Pose ℝ) (fs : List F) (c : Pose ℝ → ℝ) (hc : ∀ T', P.error T' fs = .ok (c T'))
    (H : Matrix (Fin 6) (Fin 6) ℝ) (b : Fin 6 → ℝ) (e : ℝ) : ∀ (fuel : Nat) (lam : ℝ) (o : Inner ℝ), lmInner P factor T fs H b fuel lam e = .ok o →
      (o.accepted = none ∧ o.e = e ∧ ∀ k < fuel, e < c (T.mul (P.exp (P.delta (lam * factor ^ k) H b)))) ∨
      ∃ k < fuel, (∀ j < k, e < c (T.mul (P.exp (P.delta (lam * factor ^ j) H b)))) ∧ c (T.mul (P.exp (P.delta (lam * factor ^ k) H b))) ≤ e ∧
        o.accepted = some (P.delta (lam * factor ^ k) H b, T.mul (P.exp (P.delta (lam * factor ^ k) H b))) ∧ o.lambda = lam * factor ^ k / factor ∧
        o.e = c (T.mul (P.exp (P.delta (lam * factor ^ k) H b))) := by
  intro fuel
  induction fuel with
  | zero =>
    intro lam o h
    cases h
    exact Or.inl ⟨rfl, rfl, fun k hk => absurd hk (Nat.not_lt_zero k)⟩
  | succ fuel ih =>
    intro lam o h
    have hu : ∀ T' : Pose ℝ, P.general.updateError T' e = e := fun T' => hg T' e
    simp only [lmInner, hc, ok_bind, hu] at h
    split at h
    · rename_i hle
      cases h
      refine Or.inr ⟨0, Nat.succ_pos _, fun j hj => absurd hj (Nat.not_lt_zero j), ?_⟩
      rw [pow_zero, mul_one]
      exact ⟨hle, rfl, rfl, rfl⟩
    · rename_i hgt
      obtain ⟨o', h1, h2⟩ := call_of_ok h
      cases h2
      have hp : ∀ k : Nat, lam * factor * factor ^ k = lam * factor ^ (k + 1) := fun k => by rw [pow_succ]; ring
      have h0 : e < c (T.mul (P.exp (P.delta (lam * factor ^ 0) H b))) := by rw [pow_zero, mul_one]; exact not_le.1 hgt
      rcases ih _ _ h1 with ⟨a1, a2, a3⟩ | ⟨k, hk, a1, a2, a3, a4, a5⟩
      · refine Or.inl ⟨a1, a2, fun k hk => ?_⟩
        cases k with
        | zero => exact h0
        | succ k => rw [← hp]; exact a3 k (by omega)
      · refine Or.inr ⟨k + 1, by omega, fun j hj => ?_, ?_⟩
        · cases j with
          | zero => exact h0
          | succ j => rw [← hp]; exact a1 j (by omega)
        · simp only [hp] at a2 a3 a4 a5
          exact ⟨a2, a3, a4, a5⟩

theorem small_step (re te : ℝ) (d : Fin 6 → ℝ) : open Classical in converged re te d = decide (SmallStep re te d) := by
  have h1 : rot d ⬝ᵥ rot d = d 0 ^ 2 + d 1 ^ 2 + d 2 ^ 2 := by simp [rot, dotProduct, Fin.sum_univ_three]; ring
  have h2 : tra d ⬝ᵥ tra d = d 3 ^ 2 + d 4 ^ 2 + d 5 ^ 2 := by simp [tra, dotProduct, Fin.sum_univ_three]; ring
  have h3 : converged re te d = true ↔ SmallStep re te d := by
    simp only [converged, h1, h2, Bool.and_eq_true, decide_eq_true_eq, SmallStep]
  classical
  by_cases h : SmallStep re te d
  · rw [h3.2 h, decide_eq_true h]
  · rw [decide_eq_false h, ← Bool.not_eq_true]
    exact fun h' => h (h3.1 h')

section Loop

variable {nrm : Nat → Fin 3 → ℝ} {sc : Scene ℝ} {n : Nat} (hsc : Homogeneous sc n) {m : Metric} {F : Type} {pf : PointFactor F ℝ} {Inv : F → Prop} (hm : Measures sc n m pf Inv) {rej : Rejector ℝ}
  {M : (Fin 3 → ℝ) → Option Site → Prop}
  {solve : Matrix (Fin 6) (Fin 6) ℝ → (Fin 6 → ℝ) → (Fin 6 → ℝ)} (hs : SolveContract solve) (re te : ℝ)

include hsc hm hs in
theorem loop_run {factor : ℝ} (hfac : 0 < factor) (inner : Nat) : ∀ (fuel i : Nat) (lam : ℝ) (r r' : Result ℝ) (fs fs' : List F) (log : List (Iteration F ℝ)), 0 < lam →
    (fs.length = n ∧ ∀ f ∈ fs, Inv f) →
    lmLoop (registrationProblem pf sc rej nullFactor solve se3Exp (converged re te)) factor inner fuel i lam r fs = .ok (r', fs', log) →
    (∀ it ∈ log, ∀ i < n, M (move it.T0 (head3 (sc.srcPoint i))) ((correspondence sc rej it.T0 i).map (targetSite sc))) →
    LMRun m M (sourceSites sc nrm n) inner factor re te fuel i lam { r with numInliers := fs.countP pf.inlier } { r' with numInliers := fs'.countP pf.inlier } := by
  intro fuel
  induction fuel with
  | zero =>
    intro i lam r r' fs fs' log _ _ h _
    cases h
    exact .budget _ _ _
  | succ fuel ih =>
    intro i lam r r' fs fs' log hlam hfs h hM
    rw [lmLoop] at h
    split at h
    · rename_i hc
      cases h
      exact .done _ _ _ _ hc
    · rename_i hc
      have hc : r.converged = false := by simpa using hc
      obtain ⟨⟨fs1, H, b, e⟩, h1, h⟩ := call_of_ok h
      have hMr : ∀ i < n, M (move r.T (head3 (sc.srcPoint i))) ((correspondence sc rej r.T i).map (targetSite sc)) := by
        obtain ⟨o, _, h'⟩ := call_of_ok h
        rcases hacc : o.accepted with _ | ⟨d, newT⟩
        · rw [hacc] at h'
          cases h'
          exact hM _ (List.mem_cons_self ..)
        · rw [hacc] at h'
          obtain ⟨⟨r2, fs2, log2⟩, _, h4⟩ := call_of_ok h'
          cases h4
          exact hM _ (List.mem_cons_self ..)
      obtain ⟨hlin, he, herr, hfs1, hcount⟩ := system_linearised hsc hm r.T hMr fs fs1 hfs H b e h1
      simp only [registrationProblem, nullFactor] at h
      obtain ⟨o, h2, h⟩ := call_of_ok h
      have hd : ∀ k : Nat, Damped H b (lam * factor ^ k) (solve (H + (lam * factor ^ k) • (1 : Matrix (Fin 6) (Fin 6) ℝ)) (-b)) := fun k =>
        hs _ (damped_symm hlin.psd _) (damped_pos hlin.psd (mul_pos hlam (pow_pos hfac k))) (-b)
      have ht := inner_trials (registrationProblem pf sc rej nullFactor solve se3Exp (converged re te)) (fun _ _ => rfl) factor r.T fs1 _ herr H b e _ _ _ h2
      rw [he] at ht
      rcases ht with ⟨a1, a2, a3⟩ | ⟨k, hk, a1, a2, a3, a4, a5⟩
      · rw [a1] at h
        cases h
        have := LMRun.stuck (rotEps := re) (traEps := te) fuel i lam { r with numInliers := fs.countP pf.inlier } _ H b (fun k => solve (H + (lam * factor ^ k) • (1 : Matrix (Fin 6) (Fin 6) ℝ)) (-b)) hc hlin
          (fun k hk => ⟨hd k, a3 k hk⟩)
        simp only [hc, a2, hcount] at this ⊢
        exact this
      · rw [a3] at h
        obtain ⟨⟨r2, fs2, log2⟩, h3, h4⟩ := call_of_ok h
        cases h4
        have hrec := ih _ _ _ _ _ _ _ (by rw [a4]; exact div_pos (mul_pos hlam (pow_pos hfac k)) hfac) hfs1 h3 (fun it hit => hM it (List.mem_cons_of_mem _ hit))
        refine LMRun.step fuel i lam _ _ _ H b k (fun k => solve (H + (lam * factor ^ k) • (1 : Matrix (Fin 6) (Fin 6) ℝ)) (-b)) hc hlin hk (fun j hj => ⟨hd j, a1 j hj⟩) (hd k) a2 ?_
        rw [a4] at hrec
        simp only [hcount, a5, small_step] at hrec
        exact hrec

include hsc hm hs in
/-- A registration run by the Levenberg–Marquardt optimiser is a descent in the sense of `LMRun`. -/
theorem registration_run {st : LMSetting ℝ} (hlam : 0 < st.initLambda) (hfac : 0 < st.lambdaFactor) (T0 : Pose ℝ) (r : Result ℝ) (fs' : List F) (log : List (Iteration F ℝ))
    (h : levenbergMarquardt (registrationProblem pf sc rej nullFactor solve se3Exp (converged re te)) st T0 (List.replicate n pf.init) = .ok (r, fs', log))
    (hM : ∀ it ∈ log, ∀ i < n, M (move it.T0 (head3 (sc.srcPoint i))) ((correspondence sc rej it.T0 i).map (targetSite sc))) :
    LMRun m M (sourceSites sc nrm n) st.maxInner.toNat st.lambdaFactor re te st.maxIterations.toNat 0 st.initLambda (Result.init T0) r := by
  obtain ⟨r0, rfl, hl⟩ := lm_unfold h
  have hinit : (List.replicate n pf.init).length = n ∧ ∀ f ∈ List.replicate n pf.init, Inv f :=
    ⟨by simp, fun f hf => by rw [List.eq_of_mem_replicate hf]; exact (hm.plain.sound rej T0).init⟩
  have h1 := loop_run (nrm := nrm) (M := M) hsc hm hs re te hfac _ _ _ _ _ _ _ _ _ hlam hinit hl hM
  have h0 : (List.replicate n pf.init).countP pf.inlier = 0 := by
    rw [List.countP_eq_zero]
    intro f hf
    rw [List.eq_of_mem_replicate hf]
    cases hm <;> simp [icpFactor, planeFactor, gicpFactor, ICP.init, ICP.inlier, GICP.init, GICP.inlier]
  rw [h0] at h1
  exact h1

end Loop

/-! ### clouds -/

/-- The points of a cloud with normals and covariances. -/
def cloudSites (c : RCloud) : List Site := (List.range c.size).map (fun i => ⟨head3 (okOr 0 (c.point i)), head3 (okOr 0 (c.normal i)), block33 (okOr 0 (c.cov i))⟩)

theorem features_at {out : List (Pt ℝ)} {maxD : ℝ} {k : Nat} {c : RCloud} (h : LocalFeatures out maxD k c) {i : Nat} {p : Pt ℝ} (hp : out[i]? = some p) :
    ∃ n C, c.point i = .ok ![p.x, p.y, p.z, p.w] ∧ c.normal i = .ok n ∧ c.cov i = .ok C ∧ (∀ a b : Fin 4, a = 3 ∨ b = 3 → C a b = 0) ∧
      ∃ nb, Neighbours out maxD k p nb ∧ (nb.length < 5 → head3 n = 0 ∧ block33 C = 1) ∧
        (5 ≤ nb.length → ∃ ps : List (Pt ℝ), nb.map (fun c => out[c.1]?) = ps.map some ∧ SurfaceNormal p (ps.map xyz) (head3 n) ∧
          block33 C = 1 - (999 / 1000 : ℝ) • vecMulVec (head3 n) (head3 n)) := by
  obtain ⟨h1, _, _, h4⟩ := h
  obtain ⟨nb, n, C, a1, a2, a3, a4, a5⟩ := h4 i p hp
  have hpt : c.points[i]? = some (some ![p.x, p.y, p.z, p.w]) := by rw [h1, List.getElem?_map, hp]; rfl
  refine ⟨n, C, by simp only [Cloud.point, getSlot, rd, hpt]; rfl, by simp only [Cloud.normal, getSlot, rd, a2]; rfl, by simp only [Cloud.cov, getSlot, rd, a3]; rfl, ?_, nb, a1, ?_, ?_⟩
  · rcases Nat.lt_or_ge nb.length 5 with hlt | hge
    · rw [(a4 hlt).2]
      intro a b hab
      rcases hab with rfl | rfl
      · by_cases hb : b = 3
        · subst hb; simp [diagonal]
        · rw [diagonal_apply_ne _ (Ne.symm hb)]
      · by_cases ha : a = 3
        · subst ha; simp [diagonal]
        · rw [diagonal_apply_ne _ ha]
    · obtain ⟨_, _, _, _, hd⟩ := a5 hge
      exact hd.2
  · intro hlt
    obtain ⟨rfl, rfl⟩ := a4 hlt
    refine ⟨by funext j; fin_cases j <;> rfl, ?_⟩
    ext a b
    fin_cases a <;> fin_cases b <;> simp [block33, diagonal]
  · intro hge
    obtain ⟨_, ps, b1, b2, b3⟩ := a5 hge
    exact ⟨ps, b1, b2, b3.1⟩

theorem cloud_sites {out : List (Pt ℝ)} {maxD : ℝ} {k : Nat} {c : RCloud} (h : LocalFeatures out maxD k c) : LocalSites out maxD k (cloudSites c) := by
  have hs := (features_points h).2
  have hsite : ∀ (i : Nat) (p : Pt ℝ), out[i]? = some p → (cloudSites c)[i]? = some ⟨head3 (okOr 0 (c.point i)), head3 (okOr 0 (c.normal i)), block33 (okOr 0 (c.cov i))⟩ := by
    intro i p hp
    have hi : i < c.size := hs ▸ (List.getElem?_eq_some_iff.1 hp).1
    unfold cloudSites
    rw [List.getElem?_map, List.getElem?_range hi]
    rfl
  refine ⟨?_, fun i p s hp hsi => ?_⟩
  · apply List.ext_getElem
    · simp [cloudSites, hs]
    · intro i a1 a2
      rw [List.length_map] at a2
      obtain ⟨n, C, b1, _⟩ := features_at h (List.getElem?_eq_getElem a2)
      simp only [cloudSites, List.getElem_map, List.getElem_range, b1, okOr]
      rfl
  · rw [hsite i p hp] at hsi
    cases hsi
    obtain ⟨n, C, _, b2, b3, _, nb, b4, b5, b6⟩ := features_at h hp
    rw [b2, b3]
    exact ⟨nb, b4, b5, b6⟩

/-- The cost measured by each of the three methods on point clouds. -/
inductive MethodMetric : RegType → Metric → Prop
  | icp : MethodMetric .icp .point
  | plane : MethodMetric .planeIcp .plane
  | gicp : MethodMetric .gicp .cov

/-- The factor of each metric. -/
inductive MetricFactor (inv : Matrix (Fin 3) (Fin 3) ℝ → Matrix (Fin 3) (Fin 3) ℝ) : Metric → Needs → {F : Type} → MemFactor F ℝ → PointFactor F ℝ → (F → Prop) → Prop
  | point : MetricFactor inv .point ⟨false, false⟩ icpMem icpFactor (fun _ => True)
  | plane : MetricFactor inv .plane ⟨true, false⟩ planeMem planeFactor (fun _ => True)
  | cov : MetricFactor inv .cov ⟨false, true⟩ (gicpMem inv) (gicpFactor inv) ZeroBorder

theorem MetricFactor.ships {inv : Matrix (Fin 3) (Fin 3) ℝ → Matrix (Fin 3) (Fin 3) ℝ} {m : Metric} {needs : Needs} {F : Type} {mf : MemFactor F ℝ} {pf : PointFactor F ℝ} {Inv : F → Prop}
    (h : MetricFactor inv m needs mf pf Inv) : Ships needs mf pf := by
  cases h with
  | point => exact .icp
  | plane => exact .plane
  | cov => exact .gicp inv

theorem dist_head (p q : Fin 4 → ℝ) (h : p 3 = q 3) : dist2 p q = (head3 p - head3 q) ⬝ᵥ (head3 p - head3 q) := by
  simp [dist2, head3, dotProduct, Fin.sum_univ_four, Fin.sum_univ_three, h]

/-- What the registration of a cloud needs: its points, normals where the factor reads them, and covariances that are symmetric, positive definite and zero in the last row and column. -/
structure CloudFeatures (needs : Needs) (out : List (Pt ℝ)) (c : RCloud) : Prop where
  points : c.points = out.map (fun p => some ![p.x, p.y, p.z, p.w])
  normals : needs.normals = true → NormalsSet c
  covs : CovsRegular c
  border : ∀ (i : Nat) A, c.covs[i]? = some (some A) → ∀ a b : Fin 4, a = 3 ∨ b = 3 → A a b = 0
  empty : out = [] → c = ⟨[], [], []⟩

theorem local_cloud {needs : Needs} {out : List (Pt ℝ)} {maxD : ℝ} {k : Nat} {c : RCloud} (h : LocalFeatures out maxD k c) : CloudFeatures needs out c := by
  obtain ⟨_, h2, h3⟩ := features_regular h
  refine ⟨h.1, fun _ => h2, h3, fun i A hA => ?_, fun ho => by subst ho; exact features_empty h⟩
  have hi : i < out.length := by rw [← h.2.2.1]; exact (List.getElem?_eq_some_iff.1 hA).1
  obtain ⟨n, C, _, _, b3, b4, _⟩ := features_at h (List.getElem?_eq_getElem hi)
  have : c.cov i = .ok A := by simp only [Cloud.cov, getSlot, rd, hA]; rfl
  rw [this] at b3
  cases b3
  exact b4

theorem CloudFeatures.size {needs : Needs} {out : List (Pt ℝ)} {c : RCloud} (h : CloudFeatures needs out c) : cloudPoints c = .ok out ∧ c.size = out.length := by
  refine ⟨cloudPoints_of c out h.points, ?_⟩
  show c.points.length = _
  rw [h.points, List.length_map]

theorem CloudFeatures.regular {needs : Needs} {out : List (Pt ℝ)} {c : RCloud} (h : CloudFeatures needs out c) :
    PointsSet c ∧ (needs.normals = true → NormalsSet c) ∧ CovsRegular c := by
  refine ⟨fun i hi => ?_, h.normals, h.covs⟩
  have hi : i < out.length := h.size.2 ▸ hi
  exact ⟨_, by rw [h.points, List.getElem?_map, List.getElem?_eq_getElem hi]; rfl⟩

theorem CloudFeatures.at {needs : Needs} {out : List (Pt ℝ)} {c : RCloud} (h : CloudFeatures needs out c) {i : Nat} {p : Pt ℝ} (hp : out[i]? = some p) :
    ∃ C, c.point i = .ok ![p.x, p.y, p.z, p.w] ∧ c.cov i = .ok C ∧ ∀ a b : Fin 4, a = 3 ∨ b = 3 → C a b = 0 := by
  have hi : i < c.points.length := by
    show i < c.size
    rw [h.size.2]
    exact (List.getElem?_eq_some_iff.1 hp).1
  obtain ⟨A, hA, _⟩ := h.covs.2 i hi
  have hpt : c.points[i]? = some (some ![p.x, p.y, p.z, p.w]) := by rw [h.points, List.getElem?_map, hp]; rfl
  exact ⟨A, by simp only [Cloud.point, getSlot, rd, hpt]; rfl, by simp only [Cloud.cov, getSlot, rd, hA]; rfl, h.border i A hA⟩

section Clouds

variable {e : Env} (he : EnvMeets e)

include he in
/-- Two clouds with features, the k-d tree of the target and a gate, as the factors see them: the factors measure the metric, and every source point has as partner a nearest
target point within the gate, if there is one. If the target has points, every access during the linearisation of a source point is valid. -/
theorem featured_scene {m : Metric} {needs : Needs} {F : Type} {mf : MemFactor F ℝ} {pf : PointFactor F ℝ} {Inv : F → Prop} (hmf : MetricFactor e.inv m needs mf pf Inv)
    {outT outS : List (Pt ℝ)} {ct cs : RCloud} {t : KdTree.Tree ℝ} {gate : ℝ} (hgate : gate < e.maxD)
    (hN : outT.length < 2 ^ 32) (hT : CloudFeatures needs outT ct) (hS : CloudFeatures needs outS cs)
    (hTw : ∀ p ∈ outT, p.w = 1) (hSw : ∀ p ∈ outS, p.w = 1)
    (ht : outT ≠ [] → TreeOf e.builder outT t) (ht0 : outT = [] → t = ⟨[], [], none⟩) (sc : Scene ℝ)
    (hsc : sc = scene (cloudWorld ct cs (kdNearest e.maxD outT t (outT.length + 1) e.junk))) :
    Homogeneous sc cs.size ∧ Measures sc cs.size m pf Inv ∧ sourceSites sc (fun i => head3 (okOr 0 (cs.normal i))) cs.size = cloudSites cs ∧
      (∀ (T : Pose ℝ), ∀ i < cs.size, NearestWithin (cloudSites ct) gate (move T (head3 (sc.srcPoint i))) ((correspondence sc (distanceRejector gate) T i).map (targetSite sc))) ∧
      (outT ≠ [] → Sound (fun _ => False) (cloudWorld ct cs (kdNearest e.maxD outT t (outT.length + 1) e.junk)) needs cs.size) := by
  subst hsc
  obtain ⟨hTp, hTn, hTc⟩ := CloudFeatures.regular hT
  obtain ⟨hSp, _, hSc⟩ := CloudFeatures.regular hS
  obtain ⟨hTpts, hTs⟩ := CloudFeatures.size hT
  obtain ⟨_, hSs⟩ := CloudFeatures.size hS
  let w : World ℝ := cloudWorld ct cs (kdNearest e.maxD outT t (outT.length + 1) e.junk)
  have hsrc : sourceSites (scene w) (fun i => head3 (okOr 0 (cs.normal i))) cs.size = cloudSites cs := rfl
  have hsrcw : ∀ i < cs.size, (scene w).srcPoint i 3 = 1 ∧ ∀ a b : Fin 4, a = 3 ∨ b = 3 → (scene w).srcCov i a b = 0 := by
    intro i hi
    have hg := List.getElem?_eq_getElem (hSs ▸ hi)
    obtain ⟨C, b1, b3, b4⟩ := CloudFeatures.at hS hg
    have e1 : (scene w).srcPoint i = _ := congrArg (okOr 0) b1
    have e2 : (scene w).srcCov i = _ := congrArg (okOr 0) b3
    rw [e1, e2]
    exact ⟨hSw _ (List.mem_of_getElem? hg), b4⟩
  have hpsd : ∀ (c : RCloud), CovsRegular c → ∀ i, SymPSD (okOr 0 (c.cov i)) := by
    intro c hc i
    by_cases hi : i < c.points.length
    · obtain ⟨A, hA, hA2, _⟩ := hc.2 i hi
      have : c.cov i = .ok A := by simp only [Cloud.cov, getSlot, rd, hA]; rfl
      rw [this]
      exact hA2
    · have : ∃ f, c.cov i = .error f := by
        have h0 : c.covs[i]? = none := List.getElem?_eq_none (by rw [hc.1]; omega)
        exact ⟨_, by simp only [Cloud.cov, getSlot, rd, h0]; rfl⟩
      obtain ⟨f, hf⟩ := this
      rw [hf]
      refine ⟨by simp [okOr], fun x => by simp [okOr]⟩
  -- what the search finds
  have hfound : ∀ q j d, (scene w).nn q = some (j, d) → outT ≠ [] → j < outT.length := by
    intro q j d hq hne
    obtain ⟨o, m1, _, m3⟩ := kdNearest_spec ct e.builder he.nth (builder_find he) builder_leaf hTp (by rw [hTs]; exact List.length_pos_of_ne_nil hne) (by rw [hTs]; exact hN)
      outT hTpts t (ht hne) e.maxD he.maxD (outT.length + 1) (by rw [hTs]; omega) e.junk q
    have : okOr none (kdNearest e.maxD outT t (outT.length + 1) e.junk q) = some (j, d) := hq
    rw [m1] at this
    obtain ⟨_, p, hp, _⟩ := m3 j d this
    rw [← hTs]
    exact (List.getElem?_eq_some_iff.1 hp).1
  have hempty : outT = [] → ∀ q, (scene w).nn q = none := by
    rintro rfl q
    show okOr none (kdNearest e.maxD [] t (([] : List (Pt ℝ)).length + 1) e.junk q) = none
    rw [ht0 rfl]
    rfl
  have hbound : ∀ q j d, (scene w).nn q = some (j, d) → j < outT.length := by
    intro q j d hq
    by_cases hne : outT = []
    · rw [hempty hne q] at hq; cases hq
    · exact hfound q j d hq hne
  have hhom : Homogeneous (scene w) cs.size := by
    refine ⟨fun q j d hq => ?_, fun i hi => (hsrcw i hi).1, fun q j d hq => ?_⟩
    · have := hbound q j d hq
      unfold npos
      omega
    · have hj := hbound q j d hq
      have hg := List.getElem?_eq_getElem hj
      obtain ⟨C, b1, _⟩ := CloudFeatures.at hT hg
      have e1 : (scene w).tgtPoint j = _ := congrArg (okOr 0) b1
      rw [e1]
      exact hTw _ (List.mem_of_getElem? hg)
  have hmeas : Measures (scene w) cs.size m pf Inv := by
    cases hmf with
    | point => exact .point
    | plane => exact .plane
    | cov =>
      refine .cov e.inv he.inv (fun j => hpsd ct hTc j) (fun i => hpsd cs hSc i) (fun q j d hq => ?_) (fun i hi => (hsrcw i hi).2)
      have hj := hbound q j d hq
      obtain ⟨A, hA, _, hA2⟩ := hTc.2 j (by show j < ct.size; rw [hTs]; exact hj)
      have e1 : (scene w).tgtCov j = A := by
        show okOr 0 (ct.cov j) = A
        have : ct.cov j = .ok A := by simp only [Cloud.cov, getSlot, rd, hA]; rfl
        rw [this]
        rfl
      rw [e1]
      exact hA2
  have hrule : ∀ (T : Pose ℝ), ∀ i < cs.size, NearestWithin (cloudSites ct) gate (move T (head3 ((scene w).srcPoint i)))
      ((correspondence (scene w) (distanceRejector gate) T i).map (targetSite (scene w))) := by
    intro T i hi
    have hw1 := (hsrcw i hi).1
    rw [← head3_apply T _ hw1]
    have hq3 : (T.apply ((scene w).srcPoint i)) 3 = 1 := by rw [apply_last, hw1]
    unfold correspondence
    generalize T.apply ((scene w).srcPoint i) = q at hq3 ⊢
    by_cases hne : outT = []
    · rw [hempty hne q]
      subst hne
      have : cloudSites ct = [] := by
        unfold cloudSites
        rw [hTs]
        rfl
      rw [this]
      intro s hs
      cases hs
    · obtain ⟨o, m1, m2, m3⟩ := kdNearest_spec ct e.builder he.nth (builder_find he) builder_leaf hTp (by rw [hTs]; exact List.length_pos_of_ne_nil hne) (by rw [hTs]; exact hN)
        outT hTpts t (ht hne) e.maxD he.maxD (outT.length + 1) (by rw [hTs]; omega) e.junk q
      have hnn : (scene w).nn q = o := by
        show okOr none (kdNearest e.maxD outT t (outT.length + 1) e.junk q) = o
        rw [m1]
        rfl
      rw [hnn]
      -- distances to the sites
      have hall : ∀ s ∈ cloudSites ct, ∃ (j : Nat) (p : Fin 4 → ℝ), ct.points[j]? = some (some p) ∧ dist2 p q = (s.pos - head3 q) ⬝ᵥ (s.pos - head3 q) := by
        intro s hs
        obtain ⟨j, hj, rfl⟩ := List.mem_map.1 hs
        have hj := List.mem_range.1 hj
        have hg := List.getElem?_eq_getElem (hTs ▸ hj : j < outT.length)
        obtain ⟨C, b1, _⟩ := CloudFeatures.at hT hg
        refine ⟨j, _, by rw [hT.points, List.getElem?_map, hg]; rfl, ?_⟩
        rw [dist_head _ _ (by rw [hq3]; exact hTw _ (List.mem_of_getElem? hg))]
        simp only [b1, okOr]
      rcases o with _ | ⟨j, d⟩
      · intro s hs
        obtain ⟨j, p, hp, hd⟩ := hall s hs
        rw [← hd]
        exact lt_of_lt_of_le hgate (m2 rfl j p hp)
      · obtain ⟨_, p, hp, hd, hmin⟩ := m3 j d rfl
        have hj : j < ct.size := (List.getElem?_eq_some_iff.1 hp).1
        have hsite : targetSite (scene w) j ∈ cloudSites ct := List.mem_map.2 ⟨j, List.mem_range.2 hj, rfl⟩
        have hdist : d = ((targetSite (scene w) j).pos - head3 q) ⬝ᵥ ((targetSite (scene w) j).pos - head3 q) := by
          have hg := List.getElem?_eq_getElem (hTs ▸ hj : j < outT.length)
          have hpe : p = ![outT[j].x, outT[j].y, outT[j].z, outT[j].w] := by
            rw [hT.points, List.getElem?_map, hg] at hp
            cases hp
            rfl
          obtain ⟨C, b1, _⟩ := CloudFeatures.at hT hg
          have e1 : (scene w).tgtPoint j = p := by
            rw [hpe]
            exact congrArg (okOr 0) b1
          rw [hd, dist_head _ _ (by rw [hq3, hpe]; exact hTw _ (List.mem_of_getElem? hg))]
          unfold targetSite
          rw [e1]
        simp only [distanceRejector]
        by_cases hg : gate < d
        · simp only [decide_eq_true_eq]
          rw [if_pos hg]
          intro s hs
          obtain ⟨j', p', hp', hd'⟩ := hall s hs
          rw [← hd']
          exact lt_of_lt_of_le hg (hmin j' p' hp')
        · simp only [decide_eq_true_eq]
          rw [if_neg hg]
          refine ⟨hsite, by rw [← hdist]; exact not_lt.1 hg, fun s hs => ?_⟩
          obtain ⟨j', p', hp', hd'⟩ := hall s hs
          rw [← hdist, ← hd']
          exact hmin j' p' hp'
  refine ⟨hhom, hmeas, hsrc, hrule, fun hne => ?_⟩
  exact kd_sound ct cs e.builder he.nth (builder_find he) builder_leaf hTp (by rw [hTs]; exact List.length_pos_of_ne_nil hne) (by rw [hTs]; exact hN) needs hSp hTn
    (fun _ => ⟨CovsRegular.set hTc, CovsRegular.set hSc⟩) outT hTpts t (ht hne) e.maxD he.maxD (outT.length + 1) (by rw [hTs]; omega) e.junk

include he in
/-- The registration of two clouds with features on the k-d tree of the target, with any general factor: its outcome is that of the optimiser on the total scene, the factors measure the
metric, and every source point has as partner a nearest target point within the gate, if there is one. -/
theorem featured_core {m : Metric} {needs : Needs} {F : Type} {mf : MemFactor F ℝ} {pf : PointFactor F ℝ} {Inv : F → Prop} (hmf : MetricFactor e.inv m needs mf pf Inv)
    {outT outS : List (Pt ℝ)} {ct cs : RCloud} {t : KdTree.Tree ℝ} (execL execE : Pose ℝ → List F → Exec)
    (hL : ∀ T fs, fs.length = cs.size → (execL T fs).Complete cs.size) (hE : ∀ T fs, fs.length = cs.size → (execE T fs).Complete cs.size)
    {gate : ℝ} (hgate : gate < e.maxD) (re te : ℝ) (g : General ℝ) (st : LMSetting ℝ)
    (hN : outT.length < 2 ^ 32) (hT : CloudFeatures needs outT ct) (hS : CloudFeatures needs outS cs)
    (hTw : ∀ p ∈ outT, p.w = 1) (hSw : ∀ p ∈ outS, p.w = 1)
    (ht : outT ≠ [] → TreeOf e.builder outT t) (ht0 : outT = [] → t = ⟨[], [], none⟩) (initT : Pose ℝ) (hn : ¬ (outT = [] ∧ outS ≠ [] ∧ 0 < st.maxIterations)) :
    ∃ out sc, RegMem.align mf (cloudWorld ct cs (kdNearest e.maxD outT t (outT.length + 1) e.junk)) ⟨distanceRejector gate, g, e.solve, se3Exp, converged re te⟩ execL execE (.lm st) initT
        cs.size = .ok out ∧
      levenbergMarquardt (registrationProblem pf sc (distanceRejector gate) g e.solve se3Exp (converged re te)) st initT (List.replicate cs.size pf.init) = .ok out ∧
      Homogeneous sc cs.size ∧ Measures sc cs.size m pf Inv ∧ sourceSites sc (fun i => head3 (okOr 0 (cs.normal i))) cs.size = cloudSites cs ∧
      (∀ (T : Pose ℝ), ∀ i < cs.size, NearestWithin (cloudSites ct) gate (move T (head3 (sc.srcPoint i))) ((correspondence sc (distanceRejector gate) T i).map (targetSite sc))) ∧
      sc = scene (cloudWorld ct cs (kdNearest e.maxD outT t (outT.length + 1) e.junk)) := by
  obtain ⟨hSp, _, hSc⟩ := CloudFeatures.regular hS
  obtain ⟨_, hSs⟩ := CloudFeatures.size hS
  let w : World ℝ := cloudWorld ct cs (kdNearest e.maxD outT t (outT.length + 1) e.junk)
  let cfg : Config ℝ := ⟨distanceRejector gate, g, e.solve, se3Exp, converged re te⟩
  obtain ⟨hhom, hmeas, hsrc, hrule, hsound⟩ := featured_scene he hmf hgate hN hT hS hTw hSw ht ht0 (scene w) rfl
  have hrun : ∃ out, RegMem.align mf w cfg execL execE (.lm st) initT cs.size = .ok out ∧
      (RegMem.Method.lm st).run (registrationProblem pf (scene w) cfg.rejector cfg.general cfg.solve cfg.exp cfg.converged) initT (List.replicate cs.size pf.init) = .ok out := by
    by_cases hne : outT = []
    · have hw : w = cloudWorld ⟨[], [], []⟩ cs (kdNearest e.maxD [] ⟨[], [], none⟩ (([] : List (Pt ℝ)).length + 1) e.junk) := by
        subst hne
        have h1 := hT.empty rfl
        subst h1
        have h2 := ht0 rfl
        subst h2
        rfl
      rw [hw]
      refine empty_idle hmf.ships cs hSp (fun _ => CovsRegular.set hSc) _ e.maxD e.junk cfg _ _ hL hE (.lm st) initT ?_
      by_cases h0 : outS = []
      · left; rw [hSs, h0]; rfl
      · right
        show st.maxIterations.toNat = 0
        by_contra hc
        exact hn ⟨hne, h0, by omega⟩
    · obtain ⟨out, ho, ho'⟩ := align_approx hmf.ships (hsound hne) cfg _ _ hL hE (.lm st) initT
      have ho' := ho'.resolve_right (by rintro ⟨_, hf, _⟩; exact hf)
      exact ⟨out, ho', ho⟩
  obtain ⟨out, h1, h2⟩ := hrun
  exact ⟨out, scene w, h1, h2, hhom, hmeas, hsrc, hrule, rfl⟩

include he in
theorem featured_align {m : Metric} {needs : Needs} {F : Type} {mf : MemFactor F ℝ} {pf : PointFactor F ℝ} {Inv : F → Prop} (hmf : MetricFactor e.inv m needs mf pf Inv)
    {outT outS : List (Pt ℝ)} {ct cs : RCloud} {t : KdTree.Tree ℝ} (execL execE : Pose ℝ → List F → Exec)
    (hL : ∀ T fs, fs.length = cs.size → (execL T fs).Complete cs.size) (hE : ∀ T fs, fs.length = cs.size → (execE T fs).Complete cs.size)
    {gate : ℝ} (hgate : gate < e.maxD) (re te : ℝ) {st : LMSetting ℝ} (hlam : 0 < st.initLambda) (hfac : 0 < st.lambdaFactor)
    (hN : outT.length < 2 ^ 32) (hT : CloudFeatures needs outT ct) (hS : CloudFeatures needs outS cs)
    (hTw : ∀ p ∈ outT, p.w = 1) (hSw : ∀ p ∈ outS, p.w = 1)
    (ht : outT ≠ [] → TreeOf e.builder outT t) (ht0 : outT = [] → t = ⟨[], [], none⟩) (initT : Pose ℝ) (hn : ¬ (outT = [] ∧ outS ≠ [] ∧ 0 < st.maxIterations)) :
    ∃ out, RegMem.align mf (cloudWorld ct cs (kdNearest e.maxD outT t (outT.length + 1) e.junk)) ⟨distanceRejector gate, nullFactor, e.solve, se3Exp, converged re te⟩ execL execE (.lm st) initT
        cs.size = .ok out ∧
      LMRun m (NearestWithin (cloudSites ct) gate) (cloudSites cs) st.maxInner.toNat st.lambdaFactor re te st.maxIterations.toNat 0 st.initLambda (Result.init initT) out.1 := by
  obtain ⟨⟨res, fs', log⟩, sc, h1, h2, hhom, hmeas, hsrc, hrule, _⟩ := featured_core he hmf execL execE hL hE hgate re te nullFactor st hN hT hS hTw hSw ht ht0 initT hn
  refine ⟨(res, fs', log), h1, ?_⟩
  rw [← hsrc]
  exact registration_run hhom hmeas he.solve re te hlam hfac initT res fs' log h2 (fun it _ => hrule it.T0)

include he in
theorem clouds_scene {m : Metric} {needs : Needs} {F : Type} {mf : MemFactor F ℝ} {pf : PointFactor F ℝ} {Inv : F → Prop} (hmf : MetricFactor e.inv m needs mf pf Inv)
    {outT outS : List (Pt ℝ)} {k : Nat} {ct cs : RCloud} {t : KdTree.Tree ℝ} {gate : ℝ} (hgate : gate < e.maxD)
    (hN : outT.length < 2 ^ 32) (hT : LocalFeatures outT e.maxD k ct) (hS : LocalFeatures outS e.maxD k cs)
    (hTw : ∀ p ∈ outT, p.w = 1) (hSw : ∀ p ∈ outS, p.w = 1)
    (ht : outT ≠ [] → TreeOf e.builder outT t) (ht0 : outT = [] → t = ⟨[], [], none⟩) (sc : Scene ℝ)
    (hsc : sc = scene (cloudWorld ct cs (kdNearest e.maxD outT t (outT.length + 1) e.junk))) :
    Homogeneous sc cs.size ∧ Measures sc cs.size m pf Inv ∧ sourceSites sc (fun i => head3 (okOr 0 (cs.normal i))) cs.size = cloudSites cs ∧
      (∀ (T : Pose ℝ), ∀ i < cs.size, NearestWithin (cloudSites ct) gate (move T (head3 (sc.srcPoint i))) ((correspondence sc (distanceRejector gate) T i).map (targetSite sc))) ∧
      (outT ≠ [] → Sound (fun _ => False) (cloudWorld ct cs (kdNearest e.maxD outT t (outT.length + 1) e.junk)) needs cs.size) :=
  featured_scene he hmf hgate hN (local_cloud hT) (local_cloud hS) hTw hSw ht ht0 sc hsc

include he in
theorem clouds_core {m : Metric} {needs : Needs} {F : Type} {mf : MemFactor F ℝ} {pf : PointFactor F ℝ} {Inv : F → Prop} (hmf : MetricFactor e.inv m needs mf pf Inv)
    {outT outS : List (Pt ℝ)} {k : Nat} {ct cs : RCloud} {t : KdTree.Tree ℝ} (execL execE : Pose ℝ → List F → Exec)
    (hL : ∀ T fs, fs.length = cs.size → (execL T fs).Complete cs.size) (hE : ∀ T fs, fs.length = cs.size → (execE T fs).Complete cs.size)
    {gate : ℝ} (hgate : gate < e.maxD) (re te : ℝ) (g : General ℝ) (st : LMSetting ℝ)
    (hN : outT.length < 2 ^ 32) (hT : LocalFeatures outT e.maxD k ct) (hS : LocalFeatures outS e.maxD k cs)
    (hTw : ∀ p ∈ outT, p.w = 1) (hSw : ∀ p ∈ outS, p.w = 1)
    (ht : outT ≠ [] → TreeOf e.builder outT t) (ht0 : outT = [] → t = ⟨[], [], none⟩) (initT : Pose ℝ) (hn : ¬ (outT = [] ∧ outS ≠ [] ∧ 0 < st.maxIterations)) :
    ∃ out sc, RegMem.align mf (cloudWorld ct cs (kdNearest e.maxD outT t (outT.length + 1) e.junk)) ⟨distanceRejector gate, g, e.solve, se3Exp, converged re te⟩ execL execE (.lm st) initT
        cs.size = .ok out ∧
      levenbergMarquardt (registrationProblem pf sc (distanceRejector gate) g e.solve se3Exp (converged re te)) st initT (List.replicate cs.size pf.init) = .ok out ∧
      Homogeneous sc cs.size ∧ Measures sc cs.size m pf Inv ∧ sourceSites sc (fun i => head3 (okOr 0 (cs.normal i))) cs.size = cloudSites cs ∧
      (∀ (T : Pose ℝ), ∀ i < cs.size, NearestWithin (cloudSites ct) gate (move T (head3 (sc.srcPoint i))) ((correspondence sc (distanceRejector gate) T i).map (targetSite sc))) ∧
      sc = scene (cloudWorld ct cs (kdNearest e.maxD outT t (outT.length + 1) e.junk)) :=
  featured_core he hmf execL execE hL hE hgate re te g st hN (local_cloud hT) (local_cloud hS) hTw hSw ht ht0 initT hn

include he in
theorem clouds_align {m : Metric} {needs : Needs} {F : Type} {mf : MemFactor F ℝ} {pf : PointFactor F ℝ} {Inv : F → Prop} (hmf : MetricFactor e.inv m needs mf pf Inv)
    {outT outS : List (Pt ℝ)} {k : Nat} {ct cs : RCloud} {t : KdTree.Tree ℝ} (execL execE : Pose ℝ → List F → Exec)
    (hL : ∀ T fs, fs.length = cs.size → (execL T fs).Complete cs.size) (hE : ∀ T fs, fs.length = cs.size → (execE T fs).Complete cs.size)
    {gate : ℝ} (hgate : gate < e.maxD) (re te : ℝ) {st : LMSetting ℝ} (hlam : 0 < st.initLambda) (hfac : 0 < st.lambdaFactor)
    (hN : outT.length < 2 ^ 32) (hT : LocalFeatures outT e.maxD k ct) (hS : LocalFeatures outS e.maxD k cs)
    (hTw : ∀ p ∈ outT, p.w = 1) (hSw : ∀ p ∈ outS, p.w = 1)
    (ht : outT ≠ [] → TreeOf e.builder outT t) (ht0 : outT = [] → t = ⟨[], [], none⟩) (initT : Pose ℝ) (hn : ¬ (outT = [] ∧ outS ≠ [] ∧ 0 < st.maxIterations)) :
    ∃ out, RegMem.align mf (cloudWorld ct cs (kdNearest e.maxD outT t (outT.length + 1) e.junk)) ⟨distanceRejector gate, nullFactor, e.solve, se3Exp, converged re te⟩ execL execE (.lm st) initT
        cs.size = .ok out ∧
      LMRun m (NearestWithin (cloudSites ct) gate) (cloudSites cs) st.maxInner.toNat st.lambdaFactor re te st.maxIterations.toNat 0 st.initLambda (Result.init initT) out.1 :=
  featured_align he hmf execL execE hL hE hgate re te hlam hfac hN (local_cloud hT) (local_cloud hS) hTw hSw ht ht0 initT hn

include he in
theorem clouds_descent {m : Metric} {needs : Needs} {F : Type} {mf : MemFactor F ℝ} {pf : PointFactor F ℝ} {Inv : F → Prop} (hmf : MetricFactor e.inv m needs mf pf Inv) (y : RegExec)
    (r : Registration) (hy : RunsToEnd y r.numThreads.toNat) (hgate : r.maxDistSq < e.maxD) (hlam : 0 < r.lm.initLambda) (hfac : 0 < r.lm.lambdaFactor)
    {outT outS : List (Pt ℝ)} {k : Nat} {ct cs : RCloud} {t : KdTree.Tree ℝ} (hN : outT.length < 2 ^ 32) (hT : LocalFeatures outT e.maxD k ct) (hS : LocalFeatures outS e.maxD k cs)
    (hTw : ∀ p ∈ outT, p.w = 1) (hSw : ∀ p ∈ outS, p.w = 1)
    (ht : outT ≠ [] → TreeOf e.builder outT t) (ht0 : outT = [] → t = ⟨[], [], none⟩) (initT : Pose ℝ) (hn : ¬ (outT = [] ∧ outS ≠ [] ∧ 0 < r.lm.maxIterations)) :
    ∃ res, runMethod e y mf (cloudWorld ct cs (kdNearest e.maxD outT t (outT.length + 1) e.junk)) r initT cs.size = .ok res ∧
      LMRun m (NearestWithin (cloudSites ct) r.maxDistSq) (cloudSites cs) r.lm.maxInner.toNat r.lm.lambdaFactor r.rotationEps r.translationEps r.lm.maxIterations.toNat 0 r.lm.initLambda
        (Result.init initT) res := by
  have hSs := (features_points hS).2
  have hL : ∀ (T : Pose ℝ) (fs : List F), fs.length = cs.size → (Exec.omp r.numThreads.toNat (y.lin T fs).assign (y.lin T fs).sched (y.lin T fs).comb).Complete cs.size :=
    fun T fs hl => hl ▸ (hy T fs).1
  have hE : ∀ (T : Pose ℝ) (fs : List F), fs.length = cs.size → (Exec.omp r.numThreads.toNat (y.err T fs).assign (y.err T fs).sched (y.err T fs).comb).Complete cs.size :=
    fun T fs hl => hl ▸ (hy T fs).2
  obtain ⟨out, h1, h2⟩ := clouds_align he hmf _ _ hL hE hgate r.rotationEps r.translationEps hlam hfac hN hT hS hTw hSw ht ht0 initT hn
  refine ⟨out.1, ?_, h2⟩
  unfold runMethod
  rw [h1]
  rfl

end Clouds

section Align

variable {e : Env} (he : EnvMeets e) {T : Type} {d : Nat} (cast : T → ℝ)

include he in
/-- `vector_core` with the homogeneous coordinate. -/
theorem vector_homogeneous {leaf : ℝ} (hleaf : leaf ≠ 0) {points : List (Fin (d + 3) → T)} (hfit : InputFits cast leaf points) {k : Int} (hk : 1 ≤ k) (threads : Int)
    {x : PrepExec} {r : Res (RCloud × KdTree.Tree ℝ)} (h : preprocessVector e x cast points leaf k threads = some r) :
    ∃ out c t, r = .ok (c, t) ∧ Sampled threads leaf (points.map (vecPoint cast)) out ∧ LocalFeatures out e.maxD k.toNat c ∧
      (out ≠ [] → TreeOf e.builder out t) ∧ (out = [] → t = ⟨[], [], none⟩) ∧ (out = [] ↔ points = []) ∧ out.length < 2 ^ 32 ∧ ∀ p ∈ out, p.w = 1 := by
  unfold preprocessVector at h
  rw [C50_constructor] at h
  simp only at h
  obtain ⟨out, c, t, h1, h2, h3, h4, h5, h6, h7, h8⟩ := C59_preprocess he (pts := points.map (vecPoint cast)) (by simp [homogeneous_eq, Function.comp_def])
    (by simp [vecPoint]) (by rw [List.length_map]; exact hfit.1) hleaf (by simpa using hfit.2) hk threads h
  refine ⟨out, c, t, h1, h2, h3, h4, h5, by rw [h6]; simp, ?_, h8⟩
  rw [List.length_map] at h7
  exact lt_of_le_of_lt h7 hfit.1

variable {target source : List (Fin (d + 3) → T)} {s : Setting} (hleaf : s.downsamplingResolution ≠ 0)
  (hT : InputFits cast s.downsamplingResolution target) (hS : InputFits cast s.downsamplingResolution source)

include he hleaf hT hS in
/-- C67. `align` on two vectors of points with ICP, point-to-plane ICP or GICP, any number of threads and every complete execution, a gate below the largest `double`, and not
the one undefined case (empty target, source not empty, iterations allowed): the result, in all its fields, is the outcome of Levenberg–Marquardt descent from the initial guess on the cost of nearest pairs
within the gate, of the sampled clouds with their local features, with 10 trials per iteration, damping from 0.001 and factor 10. -/
theorem C67_clouds {m : Metric} (htype : MethodMetric s.type m) (hgate : s.maxCorrespondenceDistance * s.maxCorrespondenceDistance < e.maxD) {xt xs : PrepExec} {y : RegExec}
    (hy : RunsToEnd y s.numThreads.toNat) {initT : Pose ℝ} {r : Res (Result ℝ)} (h : Pipeline.align e xt xs y cast target source initT s = some r)
    (hdef : ¬ (target = [] ∧ source ≠ [] ∧ 0 < s.maxIterations)) :
    ∃ res outT outS tgt src, r = .ok res ∧ Sampled s.numThreads s.downsamplingResolution (target.map (vecPoint cast)) outT ∧
      Sampled s.numThreads s.downsamplingResolution (source.map (vecPoint cast)) outS ∧ LocalSites outT e.maxD 10 tgt ∧ LocalSites outS e.maxD 10 src ∧
      LMRun m (NearestWithin tgt (s.maxCorrespondenceDistance * s.maxCorrespondenceDistance)) src 10 10 s.rotationEps s.translationEps s.maxIterations.toNat 0 (1 / 1000) (Result.init initT) res := by
  unfold Pipeline.align at h
  cases hpt : preprocessVector e xt cast target s.downsamplingResolution 10 s.numThreads with
  | none => rw [hpt] at h; cases h
  | some rt =>
    obtain ⟨outT, ct, t, rfl, a1, a2, a3, a4, a5, a6, a7⟩ := vector_homogeneous he cast hleaf hT (k := 10) (by norm_num) s.numThreads hpt
    rw [hpt] at h
    simp only at h
    cases hps : preprocessVector e xs cast source s.downsamplingResolution 10 s.numThreads with
    | none => rw [hps] at h; cases h
    | some rs =>
      obtain ⟨outS, cs, ts, rfl, b1, b2, _, _, b5, _, b7⟩ := vector_homogeneous he cast hleaf hS (k := 10) (by norm_num) s.numThreads hps
      rw [hps] at h
      simp only [Option.some.injEq] at h
      have hv : s.type ≠ .vgicp := by intro h0; rw [h0] at htype; cases htype
      rw [if_neg hv] at h
      unfold alignClouds at h
      rw [(features_points a2).1, ok_bind] at h
      have hdef' : ¬ (outT = [] ∧ outS ≠ [] ∧ 0 < s.maxIterations) := fun ⟨g1, g2, g3⟩ => hdef ⟨a5.1 g1, fun h0 => g2 (b5.2 h0), g3⟩
      have key : ∃ (F : Type) (needs : Needs) (mf : MemFactor F ℝ) (pf : PointFactor F ℝ) (Inv : F → Prop) (reg : Registration), MetricFactor e.inv m needs mf pf Inv ∧ reg.numThreads = s.numThreads ∧
          reg.lm = ⟨s.maxIterations, 10, 1 / 1000, 10⟩ ∧ reg.rotationEps = s.rotationEps ∧ reg.translationEps = s.translationEps ∧
          reg.maxDistSq = s.maxCorrespondenceDistance * s.maxCorrespondenceDistance ∧
          runMethod e y mf (cloudWorld ct cs (kdNearest e.maxD outT t (outT.length + 1) e.junk)) reg initT cs.size = r := by
        generalize hty : s.type = ty at htype
        cases htype with
        | icp =>
          simp only [alignCloud, hty, runRegistration, Registration.default] at h
          exact ⟨_, _, _, _, _, _, .point, rfl, rfl, rfl, rfl, rfl, h⟩
        | plane =>
          simp only [alignCloud, hty, runRegistration, Registration.default] at h
          exact ⟨_, _, _, _, _, _, .plane, rfl, rfl, rfl, rfl, rfl, h⟩
        | gicp =>
          simp only [alignCloud, hty, runRegistration, Registration.default] at h
          exact ⟨_, _, _, _, _, _, .cov, rfl, rfl, rfl, rfl, rfl, h⟩
      obtain ⟨F, needs, mf, pf, Inv, reg, k1, k2, k3, k4, k5, k6, rfl⟩ := key
      obtain ⟨res, c1, c2⟩ := clouds_descent he k1 y reg (k2 ▸ hy) (by rw [k6]; exact hgate) (by rw [k3]; norm_num) (by rw [k3]; norm_num) a6 a2 b2 a7 b7 a3 a4 initT (by rw [k3]; exact hdef')
      refine ⟨res, outT, outS, _, _, c1, a1, b1, cloud_sites a2, cloud_sites b2, ?_⟩
      rw [k3, k4, k5, k6] at c2
      exact c2

end Align

/-! ### the outcome is determined -/

theorem symm_quad_unique {H H' : Matrix (Fin 6) (Fin 6) ℝ} (h : ∀ i j, H i j = H j i) (h' : ∀ i j, H' i j = H' j i) (hq : ∀ x : Fin 6 → ℝ, x ⬝ᵥ H *ᵥ x = x ⬝ᵥ H' *ᵥ x) : H = H' := by
  have hb : ∀ (A : Matrix (Fin 6) (Fin 6) ℝ) (i j : Fin 6), (Pi.single i 1 : Fin 6 → ℝ) ⬝ᵥ A *ᵥ (Pi.single j 1) = A i j := by
    intro A i j
    simp
  have hexp : ∀ (A : Matrix (Fin 6) (Fin 6) ℝ) (i j : Fin 6), ((Pi.single i 1 : Fin 6 → ℝ) + Pi.single j 1) ⬝ᵥ A *ᵥ (Pi.single i 1 + Pi.single j 1) = A i i + A i j + (A j i + A j j) := by
    intro A i j
    rw [mulVec_add, dotProduct_add, add_dotProduct, add_dotProduct, hb, hb, hb, hb]
    ring
  ext i j
  have h1 := hq (Pi.single i 1 + Pi.single j 1)
  have h2 := hq (Pi.single i 1)
  have h3 := hq (Pi.single j 1)
  rw [hexp, hexp] at h1
  rw [hb, hb] at h2 h3
  rw [h j i, h' j i] at h1
  linarith

theorem linearised_same {m : Metric} {M M' : (Fin 3 → ℝ) → Option Site → Prop} {src : List Site} {L : Pose ℝ} {p : List (Option Site)} {H H' : Matrix (Fin 6) (Fin 6) ℝ} {b b' : Fin 6 → ℝ}
    (h : Linearised m M src L p H b) (h' : Linearised m M' src L p H' b') : H = H' ∧ b = b' := by
  refine ⟨symm_quad_unique (fun i j => congrFun (congrFun h.psd.symm j) i) (fun i j => congrFun (congrFun h'.psd.symm j) i) fun x => by rw [h.hess, h'.hess], ?_⟩
  funext i
  have := (h.grad (Pi.single i 1)).unique (h'.grad (Pi.single i 1))
  simpa using this

theorem linearised_unique {m : Metric} {M M' : (Fin 3 → ℝ) → Option Site → Prop} {src : List Site} {L : Pose ℝ} {p p' : List (Option Site)} {H H' : Matrix (Fin 6) (Fin 6) ℝ} {b b' : Fin 6 → ℝ}
    (hM : ∀ q o o', M q o → M' q o' → o = o') (h : Linearised m M src L p H b) (h' : Linearised m M' src L p' H' b') : p = p' ∧ H = H' ∧ b = b' := by
  have hp : p = p' := by
    have h1 := h.matched
    have h2 := h'.matched
    clear h h'
    induction src generalizing p p' with
    | nil => cases h1; cases h2; rfl
    | cons s src ih =>
      cases h1 with
      | cons a1 a2 => cases h2 with
        | cons b1 b2 => rw [hM _ _ _ a1 b1, ih a2 b2]
  subst hp
  exact ⟨rfl, linearised_same h h'⟩

theorem damped_unique {H : Matrix (Fin 6) (Fin 6) ℝ} (hH : SymPSD H) {b : Fin 6 → ℝ} {lam : ℝ} (hl : 0 < lam) {d d' : Fin 6 → ℝ} (h : Damped H b lam d) (h' : Damped H b lam d') : d = d' :=
  (posdef_exists_unique (damped_pos hH hl) (-b)).unique h h'

/-- The outcome of a descent is determined where the matching rules allow one and the same partner. With `M q o := M' q o ∧ ∀ o', M' q o' → o' = o`: a descent that meets no ties has the only outcome. -/
theorem C67_determined {m : Metric} {M M' : (Fin 3 → ℝ) → Option Site → Prop} {src : List Site} {inner : Nat} {factor re te : ℝ} (hf : 0 < factor) (hM : ∀ q o o', M q o → M' q o' → o = o') :
    ∀ {n i : Nat} {lam : ℝ} {r r1 r2 : Result ℝ}, 0 < lam → LMRun m M src inner factor re te n i lam r r1 → LMRun m M' src inner factor re te n i lam r r2 → r1 = r2 := by
  intro n i lam r r1 r2 hl h1
  induction h1 generalizing r2 with
  | budget i lam r => intro h2; cases h2 <;> rfl
  | done n i lam r hc =>
    intro h2
    cases h2 with
    | budget => rfl
    | done => rfl
    | stuck _ _ _ _ _ _ _ _ hc' => rw [hc] at hc'; cases hc'
    | step _ _ _ _ _ _ _ _ _ _ hc' => rw [hc] at hc'; cases hc'
  | stuck n i lam r p H b d hc hlin hd =>
    intro h2
    cases h2 with
    | done _ _ _ _ hc' => rw [hc] at hc'; cases hc'
    | stuck _ _ _ _ p' H' b' d' hc' hlin' hd' =>
      obtain ⟨rfl, rfl, rfl⟩ := linearised_unique hM hlin hlin'
      rfl
    | step _ _ _ _ _ p' H' b' k d' hc' hlin' hk hd' hdk hle =>
      obtain ⟨rfl, rfl, rfl⟩ := linearised_unique hM hlin hlin'
      have := damped_unique hlin.psd (mul_pos hl (pow_pos hf k)) (hd k hk).1 hdk
      rw [← this] at hle
      exact absurd hle (not_le.2 (hd k hk).2)
  | step n i lam r r' p H b k d hc hlin hk hd hdk hle _ ih =>
    intro h2
    cases h2 with
    | done _ _ _ _ hc' => rw [hc] at hc'; cases hc'
    | stuck _ _ _ _ p' H' b' d' hc' hlin' hd' =>
      obtain ⟨rfl, rfl, rfl⟩ := linearised_unique hM hlin hlin'
      have := damped_unique hlin.psd (mul_pos hl (pow_pos hf k)) (hd' k hk).1 hdk
      rw [← this] at hle
      exact absurd hle (not_le.2 (hd' k hk).2)
    | step _ _ _ _ _ p' H' b' k' d' hc' hlin' hk' hd' hdk' hle' hrun =>
      obtain ⟨rfl, rfl, rfl⟩ := linearised_unique hM hlin hlin'
      have hkk : k = k' := by
        rcases lt_trichotomy k k' with hlt | heq | hgt
        · have := damped_unique hlin.psd (mul_pos hl (pow_pos hf k)) (hd' k hlt).1 hdk
          rw [← this] at hle
          exact absurd hle (not_le.2 (hd' k hlt).2)
        · exact heq
        · have := damped_unique hlin.psd (mul_pos hl (pow_pos hf k')) (hd k' hgt).1 hdk'
          rw [← this] at hle'
          exact absurd hle' (not_le.2 (hd k' hgt).2)
      subst hkk
      rw [← damped_unique hlin.psd (mul_pos hl (pow_pos hf k)) hdk hdk'] at hrun
      exact ih (div_pos (mul_pos hl (pow_pos hf k)) hf) hrun

/-- What the fields of a result say, of any descent that makes an iteration: matrix, vector and number of inliers are those of the last linearisation, the error is the cost of its pairs at
the returned pose and not above their cost before, and the flag tells that the last step was small. -/
theorem C67_fields {m : Metric} {M : (Fin 3 → ℝ) → Option Site → Prop} {src : List Site} {inner : Nat} {factor re te : ℝ} {n i : Nat} {lam : ℝ} {r res : Result ℝ}
    (h : LMRun m M src inner factor re te n i lam r res) (hn : 0 < n) (hc : r.converged = false) :
    ∃ L partner, Linearised m M src L partner res.H res.b ∧ res.numInliers = paired partner ∧ res.error = totalCost m src partner L res.T ∧ res.error ≤ totalCost m src partner L L ∧
      i ≤ res.iterations ∧ res.iterations < i + n ∧
      (res.T = L ∧ res.converged = false ∨ ∃ d lam', Damped res.H res.b lam' d ∧ res.T = L.mul (se3Exp d) ∧ (res.converged = true ↔ SmallStep re te d)) := by
  induction h with
  | budget => omega
  | done n i lam r hc' => rw [hc] at hc'; cases hc'
  | stuck n i lam r p H b d _ hlin hd => exact ⟨r.T, p, hlin, rfl, rfl, le_refl _, le_refl _, by simp only; omega, Or.inl ⟨rfl, rfl⟩⟩
  | step n i lam r r' p H b k d _ hlin hk hd hdk hle hrun ih =>
    have hself : ∃ L partner, Linearised m M src L partner H b ∧ paired p = paired partner ∧ totalCost m src p r.T (r.T.mul (se3Exp (d k))) = totalCost m src partner L (r.T.mul (se3Exp (d k))) ∧
        totalCost m src p r.T (r.T.mul (se3Exp (d k))) ≤ totalCost m src partner L L ∧ r.T.mul (se3Exp (d k)) = L.mul (se3Exp (d k)) :=
      ⟨r.T, p, hlin, rfl, rfl, hle, rfl⟩
    obtain ⟨L, partner, a1, a2, a3, a4, a5⟩ := hself
    by_cases hs : SmallStep re te (d k)
    · have hcv : (open Classical in decide (SmallStep re te (d k))) = true := by simpa using hs
      generalize hr1 : (⟨r.T.mul (se3Exp (d k)), (open Classical in decide (SmallStep re te (d k))), i, paired p, H, b, totalCost m src p r.T (r.T.mul (se3Exp (d k)))⟩ : Result ℝ) = r1 at hrun
      have hstop : r' = r1 := by
        have hcv1 : r1.converged = true := by rw [← hr1]; exact hcv
        cases hrun with
        | budget => rfl
        | done => rfl
        | stuck _ _ _ _ _ _ _ _ hc' => rw [hcv1] at hc'; cases hc'
        | step _ _ _ _ _ _ _ _ _ _ hc' => rw [hcv1] at hc'; cases hc'
      subst hstop
      subst hr1
      exact ⟨L, partner, a1, a2, a3, a4, le_refl _, by simp only; omega, Or.inr ⟨d k, _, hdk, a5, by simp [hs]⟩⟩
    · have hcv : (open Classical in decide (SmallStep re te (d k))) = false := by simpa using hs
      rcases Nat.eq_zero_or_pos n with rfl | hn'
      · have hstop : r' = ⟨r.T.mul (se3Exp (d k)), (open Classical in decide (SmallStep re te (d k))), i, paired p, H, b, totalCost m src p r.T (r.T.mul (se3Exp (d k)))⟩ := by
          cases hrun <;> rfl
        subst hstop
        exact ⟨L, partner, a1, a2, a3, a4, le_refl _, by simp only; omega, Or.inr ⟨d k, _, hdk, a5, by simp [hs]⟩⟩
      · obtain ⟨L', p', b1, b2, b3, b4, b5, b6, b7⟩ := ih hn' hcv
        exact ⟨L', p', b1, b2, b3, b4, by omega, by omega, b7⟩

section Agrees

variable {nrm : Nat → Fin 3 → ℝ} {sc : Scene ℝ} {n : Nat} (hsc : Homogeneous sc n) {m : Metric} {F : Type} {pf : PointFactor F ℝ} {Inv : F → Prop} (hm : Measures sc n m pf Inv) {rej : Rejector ℝ}
  {M : (Fin 3 → ℝ) → Option Site → Prop} (hM : ∀ (T : Pose ℝ), ∀ i < n, ∀ o, M (move T (head3 (sc.srcPoint i))) o → o = (correspondence sc rej T i).map (targetSite sc))
  {solve : Matrix (Fin 6) (Fin 6) ℝ → (Fin 6 → ℝ) → (Fin 6 → ℝ)} (hs : SolveContract solve) (re te : ℝ)

include hsc hm hM hs in
/-- If there is a descent by a rule that allows only the partners of the scene, the optimiser linearises at poses where the rule allows partners. -/
theorem loop_agrees {factor : ℝ} (hfac : 0 < factor) (inner : Nat) : ∀ (fuel i : Nat) (lam : ℝ) (r r' r2 : Result ℝ) (fs fs' : List F) (log : List (Iteration F ℝ)), 0 < lam →
    (fs.length = n ∧ ∀ f ∈ fs, Inv f) →
    lmLoop (registrationProblem pf sc rej nullFactor solve se3Exp (converged re te)) factor inner fuel i lam r fs = .ok (r', fs', log) →
    LMRun m M (sourceSites sc nrm n) inner factor re te fuel i lam { r with numInliers := fs.countP pf.inlier } r2 →
    ∀ it ∈ log, ∀ i < n, ∃ o, M (move it.T0 (head3 (sc.srcPoint i))) o := by
  intro fuel
  induction fuel with
  | zero =>
    intro i lam r r' r2 fs fs' log _ _ h _
    cases h
    intro it hit
    cases hit
  | succ fuel ih =>
    intro i lam r r' r2 fs fs' log hlam hfs h hrun
    rw [lmLoop] at h
    split at h
    · cases h
      intro it hit
      cases hit
    · rename_i hc
      have hc : r.converged = false := by simpa using hc
      obtain ⟨⟨fs1, H, b, e⟩, h1, h⟩ := call_of_ok h
      obtain ⟨hlin, he, herr, hfs1, hcount⟩ := system_linearised (M := fun _ _ => True) (nrm := nrm) hsc hm r.T (fun _ _ => trivial) fs fs1 hfs H b e h1
      simp only [registrationProblem, nullFactor] at h
      obtain ⟨o, h2, h⟩ := call_of_ok h
      have hd : ∀ k : Nat, Damped H b (lam * factor ^ k) (solve (H + (lam * factor ^ k) • (1 : Matrix (Fin 6) (Fin 6) ℝ)) (-b)) := fun k =>
        hs _ (damped_symm hlin.psd _) (damped_pos hlin.psd (mul_pos hlam (pow_pos hfac k))) (-b)
      have hdu : ∀ k d, Damped H b (lam * factor ^ k) d → d = solve (H + (lam * factor ^ k) • (1 : Matrix (Fin 6) (Fin 6) ℝ)) (-b) := fun k d h =>
        damped_unique hlin.psd (mul_pos hlam (pow_pos hfac k)) h (hd k)
      have ht := inner_trials (registrationProblem pf sc rej nullFactor solve se3Exp (converged re te)) (fun _ _ => rfl) factor r.T fs1 _ herr H b e _ _ _ h2
      rw [he] at ht
      have hpart : ∀ p H' b', Linearised m M (sourceSites sc nrm n) r.T p H' b' → (∀ i < n, ∃ o, M (move r.T (head3 (sc.srcPoint i))) o) ∧ p = partnersAt sc rej n r.T ∧ H' = H ∧ b' = b := by
        intro p H' b' hl
        have hmt := hl.matched
        have hlen : p.length = n := by rw [← hmt.length_eq]; simp [sourceSites]
        have hall : ∀ i (hi : i < n), M (move r.T (head3 (sc.srcPoint i))) (p[i]'(by omega)) := by
          intro i hi
          have := (List.forall₂_iff_get.1 hmt).2 i (by simp [sourceSites]; exact hi) (by omega)
          simp only [List.get_eq_getElem, sourceSites, List.getElem_map, List.getElem_range] at this
          exact this
        have hp : p = partnersAt sc rej n r.T := by
          apply List.ext_getElem
          · simp [partnersAt, hlen]
          · intro i a1 a2
            simp only [partnersAt, List.getElem_map, List.getElem_range]
            exact hM r.T i (by omega) _ (hall i (by omega))
        subst hp
        obtain ⟨q1, q2⟩ := linearised_same hl hlin
        exact ⟨fun i hi => ⟨_, hall i hi⟩, rfl, q1, q2⟩
      cases hrun with
      | done _ _ _ _ hc' => simp only [hc] at hc'; cases hc'
      | stuck _ _ _ _ p H' b' d hc' hl hrej =>
        obtain ⟨q1, rfl, rfl, rfl⟩ := hpart _ _ _ hl
        rcases ht with ⟨a1, a2, a3⟩ | ⟨k, hk, a1, a2, a3, a4, a5⟩
        · rw [a1] at h
          cases h
          intro it hit
          rw [List.mem_singleton] at hit
          subst hit
          exact q1
        · obtain ⟨w1, w2⟩ := hrej k hk
          rw [hdu k _ w1] at w2
          exact absurd a2 (not_le.2 w2)
      | step _ _ _ _ _ p H' b' k' d hc' hl hk' hrej hdk hle hrec =>
        obtain ⟨q1, rfl, rfl, rfl⟩ := hpart _ _ _ hl
        rcases ht with ⟨a1, a2, a3⟩ | ⟨k, hk, a1, a2, a3, a4, a5⟩
        · have := a3 k' hk'
          rw [hdu k' _ hdk] at hle
          exact absurd hle (not_le.2 this)
        · have hkk : k = k' := by
            rcases lt_trichotomy k k' with hlt | heq | hgt
            · obtain ⟨w1, w2⟩ := hrej k hlt
              rw [hdu k _ w1] at w2
              exact absurd a2 (not_le.2 w2)
            · exact heq
            · have := a1 k' hgt
              rw [hdu k' _ hdk] at hle
              exact absurd hle (not_le.2 this)
          subst hkk
          rw [hdu k _ hdk] at hrec
          rw [a3] at h
          obtain ⟨⟨r3, fs2, log2⟩, h3, h4⟩ := call_of_ok h
          cases h4
          have hrest := ih _ _ _ _ r2 _ _ _ (by rw [a4]; exact div_pos (mul_pos hlam (pow_pos hfac k)) hfac) hfs1 h3 (by
            rw [a4]
            simp only [hcount, a5, small_step]
            exact hrec)
          intro it hit
          rcases List.mem_cons.1 hit with rfl | hit
          · exact q1
          · exact hrest it hit

include hsc hm hM hs in
theorem registration_agrees {st : LMSetting ℝ} (hlam : 0 < st.initLambda) (hfac : 0 < st.lambdaFactor) (T0 : Pose ℝ) (r r2 : Result ℝ) (fs' : List F) (log : List (Iteration F ℝ))
    (h : levenbergMarquardt (registrationProblem pf sc rej nullFactor solve se3Exp (converged re te)) st T0 (List.replicate n pf.init) = .ok (r, fs', log))
    (hrun : LMRun m M (sourceSites sc nrm n) st.maxInner.toNat st.lambdaFactor re te st.maxIterations.toNat 0 st.initLambda (Result.init T0) r2) :
    ∀ it ∈ log, ∀ i < n, ∃ o, M (move it.T0 (head3 (sc.srcPoint i))) o := by
  obtain ⟨r0, rfl, hl⟩ := lm_unfold h
  have hinit : (List.replicate n pf.init).length = n ∧ ∀ f ∈ List.replicate n pf.init, Inv f :=
    ⟨by simp, fun f hf => by rw [List.eq_of_mem_replicate hf]; exact (hm.plain.sound rej T0).init⟩
  refine loop_agrees (nrm := nrm) hsc hm hM hs re te hfac _ _ _ _ _ _ r2 _ _ _ hlam hinit hl ?_
  have h0 : (List.replicate n pf.init).countP pf.inlier = 0 := by
    rw [List.countP_eq_zero]
    intro f hf
    rw [List.eq_of_mem_replicate hf]
    cases hm <;> simp [icpFactor, planeFactor, gicpFactor, ICP.init, ICP.inlier, GICP.init, GICP.inlier]
  rw [h0]
  exact hrun

end Agrees

end Verif.Props
