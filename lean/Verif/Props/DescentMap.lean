import Verif.Props.Descent
import Verif.Props.RegistrationMap

/-!
C67: registration against a voxel map.
-/

set_option linter.unusedSectionVars false
set_option linter.unusedSimpArgs false
set_option linter.unnecessarySeqFocus false

namespace Verif.Spec

open Matrix Verif Verif.Voxel Verif.RegMem Verif.Factors

/-- The points that a voxel map stores in the searched cells around `q`, with their covariances. -/
def MapOffers {V : Type} (pts : V → List (Pt ℝ)) (a : Attrs ℝ V) (m : VoxelMap ℝ V) (q : Fin 3 → ℝ) (t : Site) : Prop :=
  ∃ v ∈ m.flat, (∃ o ∈ m.offsets, v.1.coord = shiftCell (cellOf m.invLeaf ⟨q 0, q 1, q 2, 1⟩) o) ∧
    ∃ (j : Nat) (p : Pt ℝ) (C : Mat4 ℝ), (pts v.2)[j]? = some p ∧ a.cov v.2 j = .ok C ∧ t = ⟨xyz p, 0, block33 C⟩

/-- All searched cells around `q` have coordinates that fit in an `int`. -/
def MapRange {V : Type} (m : VoxelMap ℝ V) (q : Fin 3 → ℝ) : Prop := QueryInRange m ⟨q 0, q 1, q 2, 1⟩

end Verif.Spec

namespace Verif.Props

open Matrix Verif Verif.Knn Verif.KdTree Verif.Proofs Verif.Proofs.RegMem Verif.Factors Verif.Reduction Verif.Optimizer Verif.PointCloud Verif.RegMem Verif.Spec Verif.Lie
open Verif.Pipeline Verif.Features Verif.Downsample Verif.Helper Verif.Voxel

/-- The points of a cloud with covariances, and normals given by `nrm`. -/
def sitesOf (c : RCloud) (nrm : Nat → Fin 3 → ℝ) : List Site := (List.range c.size).map (fun i => ⟨head3 (okOr 0 (c.point i)), nrm i, block33 (okOr 0 (c.cov i))⟩)

theorem regular_psd {c : RCloud} (hc : CovsRegular c) (i : Nat) : SymPSD (okOr 0 (c.cov i)) := by
  by_cases hi : i < c.points.length
  · obtain ⟨A, hA, hA2, _⟩ := hc.2 i hi
    have : c.cov i = .ok A := by simp only [Cloud.cov, getSlot, rd, hA]; rfl
    rw [this]
    exact hA2
  · have : ∃ f, c.cov i = .error f := by
      have h0 : c.covs[i]? = none := List.getElem?_eq_none (by rw [hc.1]; omega)
      exact ⟨_, by simp only [Cloud.cov, getSlot, rd, h0]; rfl⟩
    obtain ⟨f, hf⟩ := this
    rw [hf]
    refine ⟨by simp [okOr], fun x => by simp [okOr]⟩

section Map

variable {V : Type} {c : Contents ℝ V} {pts : V → List (Pt ℝ)} (hl : Lawful c pts) {a : Attrs ℝ V} (hno : ∀ v j, ∃ f, a.normal v j = .error f) {m : VoxelMap ℝ V} (hI : Indexed m.table m.flat)
  (hr : Readable pts a m ⟨false, true⟩) (hw : ∀ v ∈ m.flat, ∀ p ∈ pts v.2, p.w = 1)
  (hC : ∀ v ∈ m.flat, ∀ j C, a.cov v.2 j = .ok C → SymPSD C ∧ ∀ x, x ≠ 0 → 0 < x ⬝ᵥ block33 C *ᵥ x)
  {cs : RCloud} (hSp : PointsSet cs) (hSc : CovsRegular cs) (hS1 : ∀ (i : Nat) (p : Fin 4 → ℝ), cs.points[i]? = some (some p) → p 3 = 1)
  (hSb : ∀ (i : Nat) (C : Matrix (Fin 4) (Fin 4) ℝ), cs.covs[i]? = some (some C) → ∀ a b : Fin 4, a = 3 ∨ b = 3 → C a b = 0)

include hl hno hr hw in
/-- What the scene has at a held point. -/
theorem held_site (maxD : ℝ) (junk : Nat × ℝ) {q : Pt ℝ} {k : Nat} {p : Pt ℝ} (h : Held pts m q k p) :
    (scene (mapWorld c a maxD m cs junk)).tgtPoint k = ofPt p ∧ p.w = 1 ∧ ∃ v ∈ m.flat, ∃ (j : Nat) (C : Mat4 ℝ), (∃ o ∈ m.offsets, v.1.coord = shiftCell (cellOf m.invLeaf q) o) ∧
      (pts v.2)[j]? = some p ∧ a.cov v.2 j = .ok C ∧ (scene (mapWorld c a maxD m cs junk)).tgtCov k = C ∧ targetSite (scene (mapWorld c a maxD m cs junk)) k = ⟨xyz p, 0, block33 C⟩ := by
  obtain ⟨i, v, j, hv, hcell, hpj, rfl⟩ := h
  have hj := (List.getElem?_eq_some_iff.1 hpj).1
  have hm := List.mem_of_getElem? hv
  have hj' := hj.trans (hr.cell v hm)
  obtain ⟨C, hCj⟩ := hr.cov rfl v hm j hj
  obtain ⟨f, hf⟩ := hno v.2 j
  have e1 : (scene (mapWorld c a maxD m cs junk)).tgtPoint (i * 2 ^ 32 + j) = ofPt p := by
    simp only [scene, mapWorld, pointAt, voxelId_eq i j hj', pointId_eq i j hj', rd_of_getElem? hv, ok_bind, hl.point _ _ _ hpj]
    rfl
  have e2 : (scene (mapWorld c a maxD m cs junk)).tgtCov (i * 2 ^ 32 + j) = C := by
    simp only [scene, mapWorld, mapCov, voxelId_eq i j hj', pointId_eq i j hj', rd_of_getElem? hv, ok_bind, hCj]
    rfl
  have e3 : (scene (mapWorld c a maxD m cs junk)).tgtNormal (i * 2 ^ 32 + j) = 0 := by
    simp only [scene, mapWorld, mapNormal, voxelId_eq i j hj', pointId_eq i j hj', rd_of_getElem? hv, ok_bind, hf]
    rfl
  refine ⟨e1, hw v hm p (List.mem_of_getElem? hpj), v, hm, j, C, hcell, hpj, hCj, e2, ?_⟩
  unfold targetSite
  rw [e1, e2, e3]
  congr 1
  funext x
  fin_cases x <;> rfl

theorem sqd_head (p q : Pt ℝ) (h : p.w = q.w) : sqd p q = (xyz p - ![q.x, q.y, q.z]) ⬝ᵥ (xyz p - ![q.x, q.y, q.z]) := by
  simp [sqd, xyz, dotProduct, Fin.sum_univ_three, h]
  ring

include hl hno hI hr hw hC hSp hSc hS1 hSb in
/-- GICP against a voxel map: the scene, the measure, and the partner of a point in range. -/
theorem map_setup {inv : Matrix (Fin 3) (Fin 3) ℝ → Matrix (Fin 3) (Fin 3) ℝ} (hinv : InverseContract inv) {maxD gate : ℝ} (hgate : gate < maxD) (junk : Nat × ℝ) :
    Homogeneous (scene (mapWorld c a maxD m cs junk)) cs.size ∧ Measures (scene (mapWorld c a maxD m cs junk)) cs.size .cov (gicpFactor inv) ZeroBorder ∧
    ∀ (T : Pose ℝ), ∀ i < cs.size, (∀ p, cs.points[i]? = some (some p) → (QueryInRange m (toPt (T.apply p)) ↔ MapRange m (move T (head3 ((scene (mapWorld c a maxD m cs junk)).srcPoint i))))) ∧
      (MapRange m (move T (head3 ((scene (mapWorld c a maxD m cs junk)).srcPoint i))) →
        NearestOffered (MapOffers pts a m) gate (move T (head3 ((scene (mapWorld c a maxD m cs junk)).srcPoint i)))
          ((correspondence (scene (mapWorld c a maxD m cs junk)) (distanceRejector gate) T i).map (targetSite (scene (mapWorld c a maxD m cs junk))))) := by
  let w := mapWorld c a maxD m cs junk
  have hsrc : ∀ i < cs.size, ∃ p, cs.points[i]? = some (some p) ∧ (scene w).srcPoint i = p ∧ p 3 = 1 := by
    intro i hi
    obtain ⟨p, hp⟩ := hSp i hi
    exact ⟨p, hp, by simp only [w, scene, mapWorld, Cloud.point, getSlot, rd, hp]; rfl, hS1 i p hp⟩
  have hfound : ∀ q k d, (scene w).nn q = some (k, d) → QueryInRange m (toPt q) ∧ d < maxD ∧ ∃ p, Held pts m (toPt q) k p ∧ d = sqd p (toPt q) ∧
      ∀ i' p', Held pts m (toPt q) i' p' → d ≤ sqd p' (toPt q) := by
    intro q k d hq
    have hq : okOr none (w.nn q) = some (k, d) := hq
    obtain ⟨h1, h2⟩ := mapNearest_spec hl a m hI hr.fit maxD cs junk q
    by_cases hR : QueryInRange m (toPt q)
    · obtain ⟨o, ho, _, h3⟩ := h2 hR
      have ho : w.nn q = .ok o := ho
      rw [ho] at hq
      exact ⟨hR, h3 k d hq⟩
    · have h1 : w.nn q = _ := h1 hR
      rw [h1] at hq
      cases hq
  have hhom : Homogeneous (scene w) cs.size := by
    refine ⟨fun q k d hq => ?_, fun i hi => ?_, fun q k d hq => ?_⟩
    · obtain ⟨_, _, p, hp, _⟩ := hfound q k d hq
      exact held_id hr hp
    · obtain ⟨p, _, h1, h2⟩ := hsrc i hi
      rw [h1, h2]
    · obtain ⟨_, _, p, hp, _⟩ := hfound q k d hq
      obtain ⟨h1, h2, _⟩ := held_site hl hno hr hw maxD junk hp (cs := cs)
      have h1 : (scene w).tgtPoint k = _ := h1
      rw [h1]
      exact h2
  have hmeas : Measures (scene w) cs.size .cov (gicpFactor inv) ZeroBorder := by
    refine .cov inv hinv (fun k => ?_) (fun i => regular_psd hSc i) (fun q k d hq => ?_) (fun i hi => ?_)
    · show SymPSD (okOr 0 (mapCov a m k))
      cases hk : mapCov a m k with
      | error f => exact ⟨by simp [okOr], fun x => by simp [okOr]⟩
      | ok C =>
        unfold mapCov at hk
        obtain ⟨v, hv, hk⟩ := call_of_ok hk
        have hv : m.flat[voxelId k]? = some v := by
          unfold rd at hv
          cases hg : m.flat[voxelId k]? with
          | none => rw [hg] at hv; cases hv
          | some v' => rw [hg] at hv; cases hv; rfl
        exact (hC v (List.mem_of_getElem? hv) _ C hk).1
    · obtain ⟨_, _, p, hp, _⟩ := hfound q k d hq
      obtain ⟨_, _, v, hv, j, C, _, _, hCj, h1, _⟩ := held_site hl hno hr hw maxD junk hp (cs := cs)
      have h1 : (scene w).tgtCov k = _ := h1
      rw [h1]
      exact (hC v hv j C hCj).2
    · obtain ⟨C, hCi, _⟩ := hSc.2 i hi
      have e1 : (scene w).srcCov i = C := by simp only [w, scene, mapWorld, Cloud.cov, getSlot, rd, hCi]; rfl
      rw [e1]
      exact hSb i C hCi
  refine ⟨hhom, hmeas, fun T i hi => ?_⟩
  obtain ⟨p, hp, hpe, hp3⟩ := hsrc i hi
  have hpe' : (scene (mapWorld c a maxD m cs junk)).srcPoint i = p := hpe
  rw [hpe']
  rw [← head3_apply T _ hp3]
  have hq3 : (T.apply p) 3 = 1 := by rw [apply_last, hp3]
  have hqp0 : (⟨head3 (T.apply p) 0, head3 (T.apply p) 1, head3 (T.apply p) 2, 1⟩ : Pt ℝ) = toPt (T.apply p) := by
    unfold toPt
    rw [hq3]
    rfl
  refine ⟨fun p' hp' => ?_, fun hR => ?_⟩
  · rw [hp] at hp'
    cases hp'
    unfold MapRange
    rw [hqp0]
  unfold MapRange at hR
  rw [hqp0] at hR
  unfold correspondence
  rw [hpe']
  generalize T.apply p = q at hq3 hR ⊢
  have hqp : (⟨head3 q 0, head3 q 1, head3 q 2, 1⟩ : Pt ℝ) = toPt q := by
    unfold toPt
    rw [hq3]
    rfl
  have hqv : (![(toPt q).x, (toPt q).y, (toPt q).z] : Fin 3 → ℝ) = head3 q := by funext x; fin_cases x <;> rfl
  have hdist : ∀ {k p}, Held pts m (toPt q) k p → sqd p (toPt q) = (xyz p - head3 q) ⬝ᵥ (xyz p - head3 q) := by
    intro k p hk
    obtain ⟨_, h2, _⟩ := held_site hl hno hr hw maxD junk hk (cs := cs)
    rw [sqd_head _ _ (by rw [h2]; exact hq3.symm), hqv]
  have hoff : ∀ t, MapOffers pts a m (head3 q) t → ∃ k p, Held pts m (toPt q) k p ∧ t.pos = xyz p := by
    rintro t ⟨v, hv, hcell, j, p, C, hp, _, rfl⟩
    rw [hqp] at hcell
    obtain ⟨i', hi'⟩ := List.getElem?_of_mem hv
    exact ⟨_, p, ⟨i', v, j, hi', hcell, hp, rfl⟩, rfl⟩
  have hheld : ∀ {k p}, Held pts m (toPt q) k p → MapOffers pts a m (head3 q) (targetSite (scene (mapWorld c a maxD m cs junk)) k) ∧
      (targetSite (scene (mapWorld c a maxD m cs junk)) k).pos = xyz p := by
    intro k p hk
    obtain ⟨_, _, v, hv, j, C, hcell, hp, hCj, _, ht⟩ := held_site hl hno hr hw maxD junk hk (cs := cs)
    rw [ht]
    exact ⟨⟨v, hv, by rw [hqp]; exact hcell, j, p, C, hp, hCj, rfl⟩, rfl⟩
  obtain ⟨o, ho, hnone, hsome⟩ := (mapNearest_spec hl a m hI hr.fit maxD cs junk q).2 hR
  have hnn : (scene (mapWorld c a maxD m cs junk)).nn q = o := by
    show okOr none ((mapWorld c a maxD m cs junk).nn q) = o
    rw [ho]
    rfl
  rw [hnn]
  rcases o with _ | ⟨k, d⟩
  · intro t ht
    obtain ⟨k, p, hk, hpos⟩ := hoff t ht
    rw [hpos, ← hdist hk]
    exact lt_of_lt_of_le hgate (hnone rfl k p hk)
  · obtain ⟨_, p, hk, hd, hmin⟩ := hsome k d rfl
    obtain ⟨ho1, ho2⟩ := hheld hk
    simp only [distanceRejector, decide_eq_true_eq]
    by_cases hg : gate < d
    · rw [if_pos hg]
      intro t ht
      obtain ⟨k', p', hk', hpos⟩ := hoff t ht
      rw [hpos, ← hdist hk']
      exact lt_of_lt_of_le hg (hmin k' p' hk')
    · rw [if_neg hg]
      refine ⟨ho1, ?_, fun t ht => ?_⟩
      · rw [ho2, ← hdist hk, ← hd]
        exact not_lt.1 hg
      · obtain ⟨k', p', hk', hpos⟩ := hoff t ht
        rw [hpos, ← hdist hk', ho2, ← hdist hk, ← hd]
        exact hmin k' p' hk'

include hl hno hI hr hw hC hSp hSc hS1 hSb in
/-- A registration with GICP factors and the Levenberg–Marquardt optimiser against a voxel map, as far as all queries are in range, is a descent on the points of the map. -/
theorem map_descent {inv : Matrix (Fin 3) (Fin 3) ℝ → Matrix (Fin 3) (Fin 3) ℝ} (hinv : InverseContract inv) {solve : Matrix (Fin 6) (Fin 6) ℝ → (Fin 6 → ℝ) → (Fin 6 → ℝ)}
    (hs : SolveContract solve) {maxD gate : ℝ} (hgate : gate < maxD) (junk : Nat × ℝ) (re te : ℝ) {st : LMSetting ℝ} (hlam : 0 < st.initLambda) (hfac : 0 < st.lambdaFactor) (T0 : Pose ℝ)
    (r : Result ℝ) (fs' : List (GICP ℝ)) (log : List (Iteration (GICP ℝ) ℝ))
    (h : levenbergMarquardt (registrationProblem (gicpFactor inv) (scene (mapWorld c a maxD m cs junk)) (distanceRejector gate) nullFactor solve se3Exp (converged re te)) st T0
      (List.replicate cs.size (gicpFactor inv).init) = .ok (r, fs', log))
    (hrange : ∀ it ∈ log, ∀ (i : Nat) (p : Fin 4 → ℝ), cs.points[i]? = some (some p) → QueryInRange m (toPt (it.T0.apply p))) (nrm : Nat → Fin 3 → ℝ) :
    LMRun .cov (Where (MapRange m) (NearestOffered (MapOffers pts a m) gate)) (sitesOf cs nrm) st.maxInner.toNat st.lambdaFactor re te st.maxIterations.toNat 0 st.initLambda (Result.init T0) r := by
  obtain ⟨hhom, hmeas, hnear⟩ := map_setup hl hno hI hr hw hC hSp hSc hS1 hSb hinv hgate junk
  refine registration_run (nrm := nrm) hhom hmeas hs re te hlam hfac T0 r fs' log h (fun it hit i hi => ?_)
  obtain ⟨p, hp⟩ := hSp i hi
  obtain ⟨h1, h2⟩ := hnear it.T0 i hi
  have hR := (h1 p hp).1 (hrange it hit i p hp)
  exact ⟨hR, h2 hR⟩

include hl hno hI hr hw hC hSp hSc hS1 hSb in
/-- If a descent that stays in range exists, and no two offers are equally near, all queries of the registration are in range. -/
theorem map_in_range {inv : Matrix (Fin 3) (Fin 3) ℝ → Matrix (Fin 3) (Fin 3) ℝ} (hinv : InverseContract inv) {solve : Matrix (Fin 6) (Fin 6) ℝ → (Fin 6 → ℝ) → (Fin 6 → ℝ)}
    (hs : SolveContract solve) {maxD gate : ℝ} (hgate : gate < maxD) (junk : Nat × ℝ) (re te : ℝ) {st : LMSetting ℝ} (hlam : 0 < st.initLambda) (hfac : 0 < st.lambdaFactor) (T0 : Pose ℝ)
    (r r2 : Result ℝ) (fs' : List (GICP ℝ)) (log : List (Iteration (GICP ℝ) ℝ))
    (h : levenbergMarquardt (registrationProblem (gicpFactor inv) (scene (mapWorld c a maxD m cs junk)) (distanceRejector gate) nullFactor solve se3Exp (converged re te)) st T0
      (List.replicate cs.size (gicpFactor inv).init) = .ok (r, fs', log))
    (hone : ∀ q o o', NearestOffered (MapOffers pts a m) gate q o → NearestOffered (MapOffers pts a m) gate q o' → o = o') (nrm : Nat → Fin 3 → ℝ)
    (hrun : LMRun .cov (Where (MapRange m) (NearestOffered (MapOffers pts a m) gate)) (sitesOf cs nrm) st.maxInner.toNat st.lambdaFactor re te st.maxIterations.toNat 0 st.initLambda
      (Result.init T0) r2) :
    ∀ it ∈ log, ∀ (i : Nat) (p : Fin 4 → ℝ), cs.points[i]? = some (some p) → QueryInRange m (toPt (it.T0.apply p)) := by
  obtain ⟨hhom, hmeas, hnear⟩ := map_setup hl hno hI hr hw hC hSp hSc hS1 hSb hinv hgate junk
  have := registration_agrees (nrm := nrm) hhom hmeas (M := Where (MapRange m) (NearestOffered (MapOffers pts a m) gate)) (fun T i hi o ho => hone _ _ _ ho.2 ((hnear T i hi).2 ho.1)) hs re te hlam hfac
    T0 r r2 fs' log h hrun
  intro it hit i p hp
  have hi : i < cs.size := (List.getElem?_eq_some_iff.1 hp).1
  obtain ⟨o, ho⟩ := this it hit i hi
  exact ((hnear it.T0 i hi).1 p hp).2 ho.1

end Map

/-! ### contents of voxels -/

/-- A covariance that GICP can use. -/
def RegularCov (C : Matrix (Fin 4) (Fin 4) ℝ) : Prop := SymPSD C ∧ ∀ x, x ≠ 0 → 0 < x ⬝ᵥ block33 C *ᵥ x

theorem regular_sum : ∀ (l : List (Matrix (Fin 4) (Fin 4) ℝ)), l ≠ [] → (∀ C ∈ l, RegularCov C) → RegularCov l.sum
  | [], h, _ => absurd rfl h
  | [C], _, h => by simpa using h C (by simp)
  | C :: D :: l, _, h => by
    have h1 := h C (by simp)
    have h2 := regular_sum (D :: l) (by simp) (fun E hE => h E (by simp at hE ⊢; tauto))
    rw [List.sum_cons]
    generalize (D :: l).sum = S at h2
    have hb : block33 (C + S) = block33 C + block33 S := by ext i j; simp [block33]
    refine ⟨⟨by rw [transpose_add, h1.1.symm, h2.1.symm], fun x => ?_⟩, fun x hx => ?_⟩
    · rw [add_mulVec, dotProduct_add]
      exact add_nonneg (h1.1.psd x) (h2.1.psd x)
    · rw [hb, add_mulVec, dotProduct_add]
      exact add_pos (h1.2 x hx) (h2.2 x hx)

theorem regular_smul {C : Matrix (Fin 4) (Fin 4) ℝ} (h : RegularCov C) {a : ℝ} (ha : 0 < a) : RegularCov (a • C) := by
  have hb : block33 (a • C) = a • block33 C := by ext i j; simp [block33]
  refine ⟨⟨by rw [transpose_smul, h.1.symm], fun x => ?_⟩, fun x hx => ?_⟩
  · rw [smul_mulVec, dotProduct_smul, smul_eq_mul]
    exact mul_nonneg ha.le (h.1.psd x)
  · rw [hb, smul_mulVec, dotProduct_smul, smul_eq_mul]
    exact mul_pos ha (h.2 x hx)

/-- The Gaussian voxels of points and covariances in order are in order. -/
theorem gaussian_regular {resolution : ℝ} {calls : List (List (SrcPt ℝ) × Mat4 ℝ)} (hn : calls.length < 2 ^ 63)
    (hd : ∀ call ∈ calls, ∀ s ∈ call.1, CellDefined (1 / resolution) (mulPt call.2 s.pt)) {m : VoxelMap ℝ (GaussianVoxel ℝ)}
    (hm : insertCalls gaussianContents (VoxelMap.new resolution) calls = .ok m) (hw : ∀ call ∈ calls, ∀ s ∈ call.1, (mulPt call.2 s.pt).w = 1)
    (hC : ∀ call ∈ calls, ∀ s ∈ call.1, RegularCov (call.2 * s.cov * call.2.transpose)) : ∀ v ∈ m.flat, v.2.mean.w = 1 ∧ RegularCov v.2.cov := by
  have hnew : (VoxelMap.new resolution : VoxelMap ℝ (GaussianVoxel ℝ)) = userMap resolution 100 10 [(0, 0, 0)] := rfl
  obtain ⟨m', g1, g2⟩ := C18_gaussian_average resolution 100 10 [(0, 0, 0)] (by norm_num) calls (by omega) hd
  rw [hnew, g1] at hm
  cases hm
  intro v hv
  obtain ⟨L, hL, hne, _, hmean, hcov⟩ := g2 v hv
  have hlen : (0 : ℝ) < L.length := by exact_mod_cast List.length_pos_of_ne_nil hne
  rw [hmean, hcov]
  constructor
  · have : ∀ e ∈ L, e.1.w = 1 := by
      intro e he
      obtain ⟨call, h1, h2, h3, _⟩ := received_offered _ _ _ _ hL he
      rw [h3]
      exact hw call h1 _ h2
    show (L.map (fun e => e.1.w)).sum / (L.length : ℝ) = 1
    have : L.map (fun e => e.1.w) = List.replicate L.length 1 := by
      rw [List.eq_replicate_iff]
      exact ⟨by simp, fun b hb => by obtain ⟨e, he, rfl⟩ := List.mem_map.1 hb; exact this e he⟩
    rw [this]
    simpa using hne
  · refine regular_smul (regular_sum _ (by simpa using hne) ?_) (inv_pos.2 hlen)
    intro C hC'
    obtain ⟨e, he, rfl⟩ := List.mem_map.1 hC'
    obtain ⟨call, h1, h2, _, h4⟩ := received_offered _ _ _ _ hL he
    rw [h4]
    exact hC call h1 _ h2

theorem sum_apply3 (l : List (Fin 3 → ℝ)) (i : Fin 3) : l.sum i = (l.map (fun v => v i)).sum := by
  induction l with
  | nil => rfl
  | cons a l ih => rw [List.sum_cons, Pi.add_apply, ih, List.map_cons, List.sum_cons]

theorem block33_sum (l : List (Matrix (Fin 4) (Fin 4) ℝ)) : block33 l.sum = (l.map block33).sum := by
  induction l with
  | nil => ext i j; simp [block33]
  | cons a l ih => rw [List.sum_cons, List.map_cons, List.sum_cons, ← ih]; ext i j; simp [block33]

theorem average_bare (tgt : List Site) (resolution : ℝ) (q : Fin 3 → ℝ) (t : Site) : CellAverage tgt resolution q t ↔ CellAverage (tgt.map Site.bare) resolution q t := by
  have h : cellSites (tgt.map Site.bare) resolution q = (cellSites tgt resolution q).map Site.bare := by
    unfold cellSites
    rw [List.filter_map]
    rfl
  unfold CellAverage
  rw [h]
  simp only [List.map_map, List.length_map, ne_eq, List.map_eq_nil_iff]
  exact Iff.rfl

/-- The points of an insertion without normals. -/
def srcSites (src : List (SrcPt ℝ)) : List Site := src.map (fun s => ⟨xyz s.pt, 0, block33 s.cov⟩)

/-- What the voxel map of one insertion offers: the averages of the cells. -/
theorem insertion_offers {resolution : ℝ} {src : List (SrcPt ℝ)} (hd : ∀ s ∈ src, CellDefined (1 / resolution) s.pt) {m : VoxelMap ℝ (GaussianVoxel ℝ)}
    (hm : Voxel.insert gaussianContents (VoxelMap.new resolution) src 1 = .ok m) (q : Fin 3 → ℝ) (t : Site) :
    MapOffers (fun v => [v.mean]) gaussianAttrs m q t ↔ CellAverage (srcSites src) resolution q t := by
  classical
  have hd' : ∀ call ∈ [(src, (1 : Mat4 ℝ))], ∀ s ∈ call.1, CellDefined (1 / resolution) (mulPt call.2 s.pt) := by
    intro call hc s hs
    rw [List.mem_singleton] at hc
    subst hc
    rw [mulPt_one]
    exact hd s hs
  have hnew : (VoxelMap.new resolution : VoxelMap ℝ (GaussianVoxel ℝ)) = userMap resolution 100 10 [(0, 0, 0)] := rfl
  have hcalls : insertCalls gaussianContents (userMap resolution 100 10 [(0, 0, 0)]) [(src, (1 : Mat4 ℝ))] = .ok m := by
    rw [← hnew]
    unfold insertCalls
    rw [hm]
    rfl
  obtain ⟨m', g1, g2⟩ := C18_gaussian_average resolution 100 10 [(0, 0, 0)] (by norm_num) [(src, 1)] (by norm_num) hd'
  rw [hcalls] at g1
  cases g1
  obtain ⟨m', g1, g3⟩ := C12_eviction_closed_form gaussianContents resolution 100 10 [(0, 0, 0)] (by norm_num) [(src, 1)] (by norm_num) hd'
  rw [hcalls] at g1
  cases g1
  obtain ⟨m', g1, gI, gl, _, _, go, _⟩ := insertCalls_ok gaussianContents [(src, 1)] (userMap resolution 100 10 [(0, 0, 0)])
    (userMap_inv resolution 100 10 (by norm_num) [(0, 0, 0)]) (by simp [userMap, VoxelMap.new]) hd'
  rw [hcalls] at g1
  cases g1
  have hcell : ∀ p : Pt ℝ, cellOf (1 / resolution) p = spaceCell resolution (xyz p) := by
    intro p
    simp [cellOf, spaceCell, xyz, div_eq_mul_inv]
  have hq : cellOf (1 / resolution) ⟨q 0, q 1, q 2, 1⟩ = spaceCell resolution q := by
    simp [cellOf, spaceCell, div_eq_mul_inv]
  have hoff : ∀ (v : Info × GaussianVoxel ℝ), (∃ o ∈ m.offsets, v.1.coord = shiftCell (cellOf m.invLeaf ⟨q 0, q 1, q 2, 1⟩) o) ↔ v.1.coord = spaceCell resolution q := by
    intro v
    have gl : m.invLeaf = 1 / resolution := gl
    have go : m.offsets = [(0, 0, 0)] := go
    rw [gl, go, hq]
    simp [shiftCell]
  -- the points received by the cell of `q`
  have hfil : cellSites (srcSites src) resolution q = (src.filter (fun s => decide (cellOf (1 / resolution) s.pt = spaceCell resolution q))).map (fun s => ⟨xyz s.pt, 0, block33 s.cov⟩) := by
    unfold cellSites srcSites
    rw [List.filter_map]
    congr 1
    apply List.filter_congr
    intro s _
    simp only [hcell, Function.comp_apply]
  have hvox : ∀ v ∈ m.flat, v.1.coord = spaceCell resolution q → CellAverage (srcSites src) resolution q ⟨xyz v.2.mean, 0, block33 v.2.cov⟩ := by
    intro v hv hc
    obtain ⟨L, hL, hne, _, hmean, hcov⟩ := g2 v hv
    have hrec := received_no_eviction (invLeaf := 1 / resolution) 100 10 v.1.coord [(src, (1 : Mat4 ℝ))] (by norm_num)
    rw [hL] at hrec
    have hLe : L = (src.filter (fun s => decide (cellOf (1 / resolution) s.pt = spaceCell resolution q))).map (fun s => (s.pt, s, (1 : Mat4 ℝ))) := by
      have hrec : L = _ := hrec.2
      rw [hrec, hc]
      unfold offered
      simp only [List.flatMap_cons, List.flatMap_nil, List.append_nil, mulPt_one]
      rw [List.filter_map]
      congr 1
    unfold CellAverage
    rw [hfil, hmean, hcov, hLe]
    rw [hLe] at hne
    generalize src.filter (fun s => decide (cellOf (1 / resolution) s.pt = spaceCell resolution q)) = R at hne
    refine ⟨by simpa using hne, rfl, ?_, ?_⟩
    · funext i
      rw [Pi.smul_apply, sum_apply3, smul_eq_mul]
      simp only [List.map_map, List.length_map]
      fin_cases i
      · simp [avgPt, xyz, Function.comp_def, div_eq_inv_mul]
      · simp [avgPt, xyz, Function.comp_def, div_eq_inv_mul]
      · simp [avgPt, xyz, Function.comp_def, div_eq_inv_mul]
    · have hb : ∀ (a : ℝ) (C : Matrix (Fin 4) (Fin 4) ℝ), block33 (a • C) = a • block33 C := fun a C => by ext i j; simp [block33]
      unfold avgCov
      rw [hb, block33_sum]
      simp [Function.comp_def]
  constructor
  · rintro ⟨v, hv, hc, j, p, C, hp, hC, rfl⟩
    rw [hoff] at hc
    have hj : j = 0 := by
      have := (List.getElem?_eq_some_iff.1 hp).1
      simpa using this
    subst hj
    have hp : v.2.mean = p := by simpa using hp
    have hC : v.2.cov = C := Except.ok.inj hC
    subst hp hC
    exact hvox v hv hc
  · intro h
    have hne := h.1
    rw [hfil] at hne
    obtain ⟨s, hs⟩ := List.exists_mem_of_ne_nil _ (fun h0 => hne (by rw [h0]; rfl) : src.filter (fun s => decide (cellOf (1 / resolution) s.pt = spaceCell resolution q)) ≠ [])
    obtain ⟨hs1, hs2⟩ := List.mem_filter.1 hs
    obtain ⟨i, v, _, hv⟩ := (g3 (spaceCell resolution q) 0).2 ⟨⟨_, rfl, s, hs1, by rw [mulPt_one]; simpa using hs2⟩, by
      rintro l' hl' ⟨call, hcall, _⟩
      rw [List.getElem?_eq_none (by simp; omega)] at hcall
      exact absurd hcall (by simp), fun t _ ht _ => by simp at ht; omega⟩
    have hvm := List.mem_of_getElem? hv
    have hav := hvox _ hvm rfl
    have ht : t = ⟨xyz v.mean, 0, block33 v.cov⟩ := by
      obtain ⟨_, a1, a2, a3⟩ := h
      obtain ⟨_, _, b2, b3⟩ := hav
      obtain ⟨tp, tn, tc⟩ := t
      simp only at a1 a2 a3 b2 b3
      rw [a1, a2, a3, ← b2, ← b3]
    exact ⟨_, hvm, (hoff _).2 rfl, 0, v.mean, v.cov, rfl, rfl, ht⟩

/-! ### VGICP on vectors of points -/

theorem voxelSource_get {c : RCloud} {src : List (SrcPt ℝ)} (h : voxelSource c = .ok src) :
    src = (List.range c.size).map (fun i => ⟨toPt (okOr 0 (c.point i)), ⟨0, 0, 0, 0⟩, okOr 0 (c.cov i)⟩) := by
  unfold voxelSource at h
  generalize List.range c.size = l at h
  induction l generalizing src with
  | nil => cases h; rfl
  | cons i l ih =>
    rw [List.mapM_cons] at h
    obtain ⟨s, h1, h⟩ := call_of_ok h
    obtain ⟨p, hp, h1⟩ := call_of_ok h1
    obtain ⟨C, hC, h1⟩ := call_of_ok h1
    cases h1
    obtain ⟨src', h2, h⟩ := call_of_ok h
    cases h
    rw [ih h2, List.map_cons, hp, hC]
    rfl

theorem srcSites_bare {c : RCloud} {src : List (SrcPt ℝ)} (h : voxelSource c = .ok src) : (cloudSites c).map Site.bare = srcSites src := by
  rw [voxelSource_get h]
  unfold cloudSites srcSites
  rw [List.map_map, List.map_map]
  apply List.map_congr_left
  intro i _
  simp only [Function.comp_apply, Site.bare]
  congr 1

theorem voxelScene (maxD : ℝ) (m : VoxelMap ℝ (GaussianVoxel ℝ)) (cs : RCloud) (junk : Nat × ℝ) :
    scene (voxelWorld maxD m cs junk) = scene (mapWorld gaussianContents gaussianAttrs maxD m cs junk) := by
  unfold scene
  congr 1
  · funext i
    show (0 : Fin 4 → ℝ) = _
    simp only [mapWorld, mapNormal, gaussianAttrs]
    cases rd m.flat (voxelId i) <;> rfl

/-- The average of a cell is one site. -/
theorem average_partner {tgt : List Site} {resolution gate : ℝ} (q : Fin 3 → ℝ) (o o' : Option Site) (ho : NearestOffered (CellAverage tgt resolution) gate q o)
    (ho' : NearestOffered (CellAverage tgt resolution) gate q o') : o = o' := by
  have huniq : ∀ t t', CellAverage tgt resolution q t → CellAverage tgt resolution q t' → t = t' := by
    rintro ⟨p, n, c⟩ ⟨p', n', c'⟩ ⟨_, a1, a2, a3⟩ ⟨_, b1, b2, b3⟩
    simp only at a1 a2 a3 b1 b2 b3
    rw [a1, a2, a3, b1, b2, b3]
  rcases o with _ | t <;> rcases o' with _ | t'
  · rfl
  · exact absurd ho'.2.1 (not_le.2 (ho t' ho'.1))
  · exact absurd ho.2.1 (not_le.2 (ho' t ho.1))
  · rw [huniq t t' ho.1 ho'.1]

/-- The average of a cell is one site, so that a descent on averages has one outcome. -/
theorem C67_vgicp_determined {tgt src : List Site} {resolution gate factor re te lam : ℝ} {inner n i : Nat} {r r1 r2 : Result ℝ} {D : (Fin 3 → ℝ) → Prop} (hf : 0 < factor) (hl : 0 < lam)
    (h1 : LMRun .cov (Where D (NearestOffered (CellAverage tgt resolution) gate)) src inner factor re te n i lam r r1)
    (h2 : LMRun .cov (Where D (NearestOffered (CellAverage tgt resolution) gate)) src inner factor re te n i lam r r2) : r1 = r2 :=
  C67_determined hf (fun q o o' ho ho' => average_partner q o o' ho.2 ho'.2) hl h1 h2

theorem hasCell_iff (resolution : ℝ) (p : Pt ℝ) (hp : p.w = 1) : CellDefined (1 / resolution) p ↔ HasCell resolution (xyz p) := by
  unfold CellDefined HasCell
  have hI : ∀ z : Int, (INT_MIN ≤ z ∧ z ≤ INT_MAX) ↔ -2 ^ 31 ≤ z ∧ z < 2 ^ 31 := by
    intro z
    unfold INT_MIN INT_MAX
    omega
  simp only [hI, hp, mul_one_div]
  constructor
  · rintro ⟨h0, h1, h2, h3⟩
    refine ⟨fun i => ?_, h3⟩
    fin_cases i
    · exact h0
    · exact h1
    · exact h2
  · rintro ⟨h, h3⟩
    exact ⟨h 0, h 1, h 2, h3⟩

section MapRun

variable {e : Env} (he : EnvMeets e)

include he in
/-- The voxel map of a preprocessed cloud and the registration of another one on it: a result is the outcome of descent to the averages of the cells, and there is one exactly if all points that are looked
up have cells; otherwise the conversion of a coordinate overflows. -/
theorem map_run {outT outS : List (Pt ℝ)} {k : Nat} {ct cs : RCloud} (a2 : LocalFeatures outT e.maxD k ct) (b2 : LocalFeatures outS e.maxD k cs) (a6 : outT.length < 2 ^ 32)
    (a7 : ∀ p ∈ outT, p.w = 1) (b7 : ∀ p ∈ outS, p.w = 1) {resolution gate re te : ℝ} (hres : resolution ≠ 0) (hgate : gate < e.maxD) {st : LMSetting ℝ} (hlam : 0 < st.initLambda)
    (hfac : 0 < st.lambdaFactor) (execL execE : Pose ℝ → List (GICP ℝ) → Exec) (hL : ∀ T fs, fs.length = cs.size → (execL T fs).Complete cs.size)
    (hE : ∀ T fs, fs.length = cs.size → (execE T fs).Complete cs.size) {initT : Pose ℝ} {r : Res (Result ℝ)}
    (h : (do
      let m ← createVoxelmap ct resolution
      let (res, _, _) ← RegMem.align (gicpMem e.inv) (voxelWorld e.maxD m cs e.junk) ⟨distanceRejector gate, nullFactor, e.solve, se3Exp, converged re te⟩ execL execE (.lm st) initT cs.size
      return res) = r) :
    (∀ f, r = .error f → f = .intOverflow) ∧
      ∀ res, r = .ok res ↔ (∀ t ∈ cloudSites ct, HasCell resolution t.pos) ∧ LMRun .cov (Where (HasCell resolution) (NearestOffered (CellAverage (cloudSites ct) resolution) gate)) (cloudSites cs)
        st.maxInner.toNat st.lambdaFactor re te st.maxIterations.toNat 0 st.initLambda (Result.init initT) res := by
  classical
  obtain ⟨m1, m2⟩ := voxelmap_of a2 hres
  have hsites : (∀ t ∈ cloudSites ct, HasCell resolution t.pos) ↔ ∀ p ∈ outT, CellDefined (1 / resolution) p := by
    have hpos := (cloud_sites a2).1
    constructor
    · intro hh p hp
      rw [hasCell_iff _ _ (a7 p hp)]
      have : xyz p ∈ (cloudSites ct).map Site.pos := by rw [hpos]; exact List.mem_map_of_mem hp
      obtain ⟨t, ht, hte⟩ := List.mem_map.1 this
      rw [← hte]
      exact hh t ht
    · intro hh t ht
      have : t.pos ∈ outT.map xyz := by rw [← hpos]; exact List.mem_map_of_mem ht
      obtain ⟨p, hp, hpe⟩ := List.mem_map.1 this
      rw [← hpe, ← hasCell_iff _ _ (a7 p hp)]
      exact hh p hp
  by_cases hall : ∀ p ∈ outT, CellDefined (1 / resolution) p
  swap
  · have hno := hall
    push Not at hall
    rw [m1 hall] at h
    subst h
    refine ⟨fun f hf => by cases hf; rfl, fun res => ⟨fun h => (by cases h), fun h => absurd (hsites.1 h.1) hno⟩⟩
  · obtain ⟨src0, m, hm, hops, hl, hof, hlen, _⟩ := m2 hall
    -- the insertion
    obtain ⟨src, hsrc, hpts⟩ := voxelSource_ok a2
    have hins : Voxel.insert gaussianContents (VoxelMap.new resolution) src 1 = .ok m := by
      unfold createVoxelmap at hm
      rw [hsrc, ok_bind, if_neg (fun h => hres h.1)] at hm
      exact hm
    have hmem : ∀ x ∈ src, x.pt ∈ outT := fun x hx => hpts ▸ List.mem_map_of_mem hx
    have hcalls : insertCalls gaussianContents (VoxelMap.new resolution) [(src, (1 : Mat4 ℝ))] = .ok m := by
      unfold insertCalls
      rw [hins]
      rfl
    obtain ⟨_, _, hTc⟩ := features_regular a2
    have hreg := gaussian_regular (resolution := resolution) (calls := [(src, 1)]) (by norm_num) (by
        intro call hc x hx
        rw [List.mem_singleton] at hc
        subst hc
        rw [mulPt_one]
        exact hall _ (hmem x hx)) hcalls (by
        intro call hc x hx
        rw [List.mem_singleton] at hc
        subst hc
        rw [mulPt_one]
        exact a7 _ (hmem x hx)) (by
        intro call hc x hx
        rw [List.mem_singleton] at hc
        subst hc
        rw [one_mul, transpose_one, mul_one]
        rw [voxelSource_get hsrc] at hx
        obtain ⟨i, hi, rfl⟩ := List.mem_map.1 hx
        have hi := List.mem_range.1 hi
        obtain ⟨A, hA, hA2, hA3⟩ := hTc.2 i hi
        have : ct.cov i = .ok A := by simp only [Cloud.cov, getSlot, rd, hA]; rfl
        simp only [this, okOr]
        exact ⟨hA2, hA3⟩)
    rw [hm, ok_bind] at h
    obtain ⟨hSp, _, hSc⟩ := features_regular b2
    have hSs := (features_points b2).2
    have hsize : m.flat.length ≤ 2 ^ 32 := by omega
    obtain ⟨res', fs', log, g1, g2, _⟩ := C58_voxel_registration (.gicp e.inv) rfl resolution [.insert src0 1] m hops hsize cs hSp (fun _ => CovsRegular.set hSc) e.maxD e.junk
      ⟨distanceRejector gate, nullFactor, e.solve, se3Exp, converged re te⟩ _ _ hL hE (.lm st) initT
    rw [voxelScene] at g1
    have hfeat : ∀ i < cs.size, ∃ p C, outS[i]? = some p ∧ cs.points[i]? = some (some ![p.x, p.y, p.z, p.w]) ∧ cs.covs[i]? = some (some C) ∧ ∀ a b : Fin 4, a = 3 ∨ b = 3 → C a b = 0 := by
      intro i hi
      have hg := List.getElem?_eq_getElem (hSs ▸ hi : i < outS.length)
      obtain ⟨n, C, _, _, c3, c4, _⟩ := features_at b2 hg
      obtain ⟨A, hA, _⟩ := hSc.2 i hi
      have : cs.cov i = .ok A := by simp only [Cloud.cov, getSlot, rd, hA]; rfl
      rw [this] at c3
      cases c3
      exact ⟨_, _, hg, by rw [b2.1, List.getElem?_map, hg]; rfl, hA, c4⟩
    have hI := (C11_index_consistent gaussianContents resolution [.insert src0 1] m hops).1
    have hrd : Readable (fun v : GaussianVoxel ℝ => [v.mean]) gaussianAttrs m ⟨false, true⟩ := ⟨hsize, fun _ _ => by simp, fun h => (by cases h), fun _ v _ j _ => ⟨v.2.cov, rfl⟩⟩
    have hno : ∀ (v : GaussianVoxel ℝ) (j : Nat), ∃ f, (gaussianAttrs (K := ℝ)).normal v j = .error f := fun v j => ⟨_, rfl⟩
    have hwv : ∀ v ∈ m.flat, ∀ p ∈ (fun v : GaussianVoxel ℝ => [v.mean]) v.2, p.w = 1 := fun v hv p hp => by rw [List.mem_singleton] at hp; rw [hp]; exact (hreg v hv).1
    have hCv : ∀ v ∈ m.flat, ∀ j C, (gaussianAttrs (K := ℝ)).cov v.2 j = .ok C → SymPSD C ∧ ∀ x, x ≠ 0 → 0 < x ⬝ᵥ block33 C *ᵥ x := fun v hv j C hC => by cases hC; exact (hreg v hv).2
    have hS1 : ∀ (i : Nat) (p : Fin 4 → ℝ), cs.points[i]? = some (some p) → p 3 = 1 := by
      intro i p hp
      obtain ⟨p', C, c1, c2, _⟩ := hfeat i (List.getElem?_eq_some_iff.1 hp).1
      rw [c2] at hp
      cases hp
      exact b7 _ (List.mem_of_getElem? c1)
    have hSb : ∀ (i : Nat) (C : Matrix (Fin 4) (Fin 4) ℝ), cs.covs[i]? = some (some C) → ∀ a b : Fin 4, a = 3 ∨ b = 3 → C a b = 0 := by
      intro i C hC
      have hi : i < cs.size := by
        have := (List.getElem?_eq_some_iff.1 hC).1
        rw [hSc.1] at this
        exact this
      obtain ⟨p', C', _, _, c3, c4⟩ := hfeat i hi
      rw [c3] at hC
      cases hC
      exact c4
    have hfwd := map_descent gaussian_lawful hno hI hrd hwv hCv hSp hSc hS1 hSb he.inv he.solve hgate e.junk re te hlam hfac initT res' fs' log g1
    have hback := fun r2 => map_in_range gaussian_lawful hno hI hrd hwv hCv hSp hSc hS1 hSb he.inv he.solve hgate e.junk re te hlam hfac initT res' r2 fs' log g1
    have hS : MapOffers (fun v : GaussianVoxel ℝ => [v.mean]) gaussianAttrs m = CellAverage (cloudSites ct) resolution := by
      funext q t
      rw [eq_iff_iff, insertion_offers (fun x hx => hall _ (hmem x hx)) hins q t, average_bare (cloudSites ct), srcSites_bare hsrc]
    have hR : MapRange m = HasCell resolution := by
      funext q
      have hx : xyz (⟨q 0, q 1, q 2, 1⟩ : Pt ℝ) = q := by funext x; fin_cases x <;> rfl
      rw [eq_iff_iff, ← hx, ← hasCell_iff _ _ rfl, hx]
      unfold MapRange QueryInRange
      rw [hl, hof]
      refine ⟨fun hq => hq.1, fun hq => ⟨hq, fun o ho => ?_⟩⟩
      rw [List.mem_singleton] at ho
      subst ho
      simp only [CoordFits, shiftCell, add_zero]
      exact ⟨hq.1, hq.2.1, hq.2.2.1⟩
    rw [hS, hR] at hfwd hback
    rw [g2] at h
    split at h
    · rename_i hyes
      subst h
      have hrun := hfwd hyes (fun i => head3 (okOr 0 (cs.normal i)))
      refine ⟨fun f hf => (by cases hf), fun res => ⟨fun hr => ?_, fun hr => ?_⟩⟩
      · cases hr
        exact ⟨hsites.2 hall, hrun⟩
      · show Except.ok res' = Except.ok res
        rw [C67_vgicp_determined hfac hlam hrun hr.2]
    · rename_i hno'
      subst h
      refine ⟨fun f hf => by cases hf; rfl, fun res => ⟨fun hr => (by cases hr), fun hr => ?_⟩⟩
      exact absurd (hback res (fun q o o' => average_partner q o o') (fun i => head3 (okOr 0 (cs.normal i))) hr.2) hno'

end MapRun

section Vgicp

variable {e : Env} (he : EnvMeets e) {T : Type} {d : Nat} (cast : T → ℝ) {target source : List (Fin (d + 3) → T)} {s : Setting} (hleaf : s.downsamplingResolution ≠ 0)
  (hT : InputFits cast s.downsamplingResolution target) (hS : InputFits cast s.downsamplingResolution source)

include he hleaf hT hS in
/-- C67, voxel map. `align` on two vectors of points with VGICP and a voxel size other than zero, any number of threads and every complete execution. A result, in all its fields, is the
outcome of Levenberg–Marquardt descent from the initial guess, where the partner of a moved point is the average of the sampled target points in its cell, if that is within distance 1. There
is a result exactly if all sampled target points have cells with coordinates that fit in an `int` and so do all points at which the descent asks for a partner; otherwise the
conversion of a coordinate overflows. The maximum correspondence distance of the setting has no influence. -/
theorem C67_vgicp (htype : s.type = .vgicp) (hres : s.voxelResolution ≠ 0) (hmax : 1 < e.maxD) {xt xs : PrepExec} {y : RegExec} (hy : RunsToEnd y s.numThreads.toNat) {initT : Pose ℝ}
    {r : Res (Result ℝ)} (h : Pipeline.align e xt xs y cast target source initT s = some r) :
    ∃ outT outS tgt src, Sampled s.numThreads s.downsamplingResolution (target.map (vecPoint cast)) outT ∧
      Sampled s.numThreads s.downsamplingResolution (source.map (vecPoint cast)) outS ∧ LocalSites outT e.maxD 10 tgt ∧ LocalSites outS e.maxD 10 src ∧
      (∀ f, r = .error f → f = .intOverflow) ∧
      ∀ res, r = .ok res ↔ (∀ t ∈ tgt, HasCell s.voxelResolution t.pos) ∧ LMRun .cov (Where (HasCell s.voxelResolution) (NearestOffered (CellAverage tgt s.voxelResolution) 1)) src 10 10
        s.rotationEps s.translationEps s.maxIterations.toNat 0 (1 / 1000) (Result.init initT) res := by
  classical
  unfold Pipeline.align at h
  cases hpt : preprocessVector e xt cast target s.downsamplingResolution 10 s.numThreads with
  | none => rw [hpt] at h; cases h
  | some rt =>
    obtain ⟨outT, ct, t, rfl, a1, a2, _, _, _, a6, a7⟩ := vector_homogeneous he cast hleaf hT (k := 10) (by norm_num) s.numThreads hpt
    rw [hpt] at h
    simp only at h
    cases hps : preprocessVector e xs cast source s.downsamplingResolution 10 s.numThreads with
    | none => rw [hps] at h; cases h
    | some rs =>
      obtain ⟨outS, cs, ts, rfl, b1, b2, _, _, _, _, b7⟩ := vector_homogeneous he cast hleaf hS (k := 10) (by norm_num) s.numThreads hps
      rw [hps] at h
      simp only [Option.some.injEq] at h
      rw [if_pos htype] at h
      refine ⟨outT, outS, _, _, a1, b1, cloud_sites a2, cloud_sites b2, ?_⟩
      unfold alignMap at h
      simp only [alignVoxelmap, runRegistration, Registration.default, runMethod] at h
      exact map_run he a2 b2 a6 a7 b7 hres hmax (st := ⟨s.maxIterations, 10, 1 / 1000, 10⟩) (by norm_num) (by norm_num) _ _ (fun T fs hl => hl ▸ (hy T fs).1) (fun T fs hl => hl ▸ (hy T fs).2) h

end Vgicp

/-! ### examples -/

/-- The premises of C67 are met by the parabola and a guess that is off by a half, with each method on point clouds and two threads; at least one iteration is made. -/
example (type : RegType) (m : Metric) (htype : MethodMetric type m) : ∃ (e : Env) (xt xs : PrepExec) (y : RegExec) (res : Result ℝ), EnvMeets e ∧ RunsToEnd y 2 ∧
    Pipeline.align e xt xs y (fun x : ℝ => x) parabola3 parabola3 ⟨1, ![1 / 2, 0, 0]⟩ { Setting.default with type := type, downsamplingResolution := 1, numThreads := 2 } = some (.ok res) ∧
    ∃ tgt src L partner, Linearised m (NearestWithin tgt 1) src L partner res.H res.b ∧ res.error = totalCost m src partner L res.T ∧ res.error ≤ totalCost m src partner L L := by
  obtain ⟨e, he, hmax, _⟩ := env_exists 1000 (by norm_num) (0, 0)
  obtain ⟨xt, xs, y, r, hy, h⟩ := C61_executes he (fun x : ℝ => x) (s := { Setting.default with type := type, downsamplingResolution := 1, numThreads := 2 }) (by simp) parabola3_fits parabola3_fits
    (by simp) ⟨1, ![1 / 2, 0, 0]⟩
  obtain ⟨res, outT, outS, tgt, src, rfl, _, _, _, _, hrun⟩ := C67_clouds he (fun x : ℝ => x) (s := { Setting.default with type := type, downsamplingResolution := 1, numThreads := 2 }) (by simp)
    parabola3_fits parabola3_fits htype (by rw [hmax]; norm_num [Setting.default]) hy h (by simp [parabola3])
  obtain ⟨L, partner, h1, _, h3, h4, _⟩ := C67_fields hrun (by simp [Setting.default]) rfl
  refine ⟨e, xt, xs, y, res, he, hy, h, tgt, src, L, partner, ?_, h3, h4⟩
  simpa [Setting.default] using h1

/-- A descent without partners makes one step of zero. -/
theorem idle_descent {m : Metric} {M : (Fin 3 → ℝ) → Option Site → Prop} {src : List Site} {T0 : Pose ℝ} (h : ∀ s ∈ src, M (move T0 s.pos) none) {inner : Nat} (hin : 0 < inner)
    {factor re te lam : ℝ} (hre : 0 ≤ re) (hte : 0 ≤ te) (n : Nat) :
    LMRun m M src inner factor re te (n + 1) 0 lam (Result.init T0) ⟨T0.mul (se3Exp 0), true, 0, 0, 0, 0, 0⟩ := by
  have hsum : ∀ (l : List Site) f, pairSum l (l.map (fun _ => none)) f = 0 := by
    intro l f
    unfold pairSum
    induction l with
    | nil => rfl
    | cons s l ih => simpa using ih
  have hcost : ∀ T, totalCost m src (src.map (fun _ => none)) T0 T = 0 := fun T => hsum _ _
  have hpaired : paired (src.map (fun _ => (none : Option Site))) = 0 := by
    unfold paired
    rw [List.countP_eq_zero]
    simp
  refine LMRun.step n 0 lam _ _ (src.map (fun _ => none)) 0 0 0 (fun _ => 0) rfl ⟨?_, ⟨by simp, fun x => by simp⟩, fun x => ?_, fun x => ?_⟩ hin (fun j hj => by omega) ?_ ?_ ?_
  · rw [List.forall₂_map_right_iff, List.forall₂_same]
    exact fun s hs => h s hs
  · rw [hsum]
    simp
  · simp only [Result.init, hcost]
    simpa using hasDerivAt_const (0 : ℝ) (0 : ℝ)
  · simp [Damped]
  · simp only [Result.init, hcost, le_refl]
  · simp only [Result.init, hcost, hpaired]
    have : SmallStep re te 0 := by simp [SmallStep, hre, hte]
    simp only [this, decide_true]
    exact LMRun.done _ _ _ _ rfl

/-- VGICP on a point at the origin and a point at a distance of 100: the premises of C67 are met, and there is a result, with zero inliers. -/
example : ∃ (e : Env) (xt xs : PrepExec) (y : RegExec) (res : Result ℝ), EnvMeets e ∧ RunsToEnd y 1 ∧
    Pipeline.align e xt xs y (fun x : ℝ => x) ([![0, 0, 0]] : List (Fin (0 + 3) → ℝ)) [![100, 0, 0]] Pose.one
      { Setting.default with type := .vgicp, voxelResolution := 1, downsamplingResolution := 1, numThreads := 1 } = some (.ok res) ∧ res.converged = true ∧ res.numInliers = 0 := by
  obtain ⟨e, he, hmax, _⟩ := env_exists 1000 (by norm_num) (0, 0)
  have h1 : InputFits (fun x : ℝ => x) 1 ([![0, 0, 0]] : List (Fin (0 + 3) → ℝ)) := ⟨by simp, by simp [vecPoint, KeyDefined, KeyFits, INT_MIN, INT_MAX]⟩
  have h2 : InputFits (fun x : ℝ => x) 1 ([![100, 0, 0]] : List (Fin (0 + 3) → ℝ)) := ⟨by simp, by simp [vecPoint, KeyDefined, KeyFits, INT_MIN, INT_MAX]⟩
  obtain ⟨xt, xs, y, r, hy, h⟩ := C61_executes he (fun x : ℝ => x) (s := { Setting.default with type := .vgicp, voxelResolution := 1, downsamplingResolution := 1, numThreads := 1 }) (by simp) h1 h2
    (by simp) Pose.one
  obtain ⟨outT, outS, tgt, src, s1, s2, s3, s4, _, hiff⟩ := C67_vgicp he (fun x : ℝ => x)
    (s := { Setting.default with type := .vgicp, voxelResolution := 1, downsamplingResolution := 1, numThreads := 1 }) (by simp) h1 h2 rfl (by simp) (by rw [hmax]; norm_num) hy h
  have hone : ∀ (x : ℝ) (out : List (Pt ℝ)), GridInRange 1 ⟨x, 0, 0, 1⟩ → Sampled 1 1 (([![x, 0, 0]] : List (Fin (0 + 3) → ℝ)).map (vecPoint (fun x : ℝ => x))) out → ∀ p ∈ out, p = ⟨x, 0, 0, 1⟩ := by
    intro x out hg hs p hp
    unfold Sampled at hs
    rw [if_pos rfl] at hs
    have hv : ([![x, 0, 0]] : List (Fin (0 + 3) → ℝ)).map (vecPoint (fun x : ℝ => x)) = [⟨x, 0, 0, 1⟩] := by simp [vecPoint]
    rw [hv] at hs
    obtain ⟨cells, _, hc, rfl⟩ := hs.2.1 ⟨_, List.mem_singleton_self _, hg⟩
    obtain ⟨c, hcm, rfl⟩ := List.mem_map.1 hp
    obtain ⟨q, hq, hg', rfl⟩ := (hc c).1 hcm
    rw [List.mem_singleton] at hq
    subst hq
    simp [cellPoints, hg', centroid]
  have t1 : ∀ t ∈ tgt, t.pos = ![0, 0, 0] := by
    intro t ht
    have : t.pos ∈ outT.map xyz := s3.1 ▸ List.mem_map_of_mem ht
    obtain ⟨p, hp, hpe⟩ := List.mem_map.1 this
    rw [← hpe, hone 0 outT (by simp [GridInRange, In21]) s1 p hp]
    rfl
  have t2 : ∀ t ∈ src, t.pos = ![100, 0, 0] := by
    intro t ht
    have : t.pos ∈ outS.map xyz := s4.1 ▸ List.mem_map_of_mem ht
    obtain ⟨p, hp, hpe⟩ := List.mem_map.1 this
    rw [← hpe, hone 100 outS (by simp [GridInRange, In21]) s2 p hp]
    rfl
  have hcell : ∀ x : ℝ, x = 0 ∨ x = 100 → HasCell 1 ![x, 0, 0] := by
    rintro x (rfl | rfl)
    · refine ⟨fun i => ?_, by norm_num, by norm_num⟩
      fin_cases i <;> norm_num
    · refine ⟨fun i => ?_, by norm_num, by norm_num⟩
      fin_cases i <;> norm_num
  have hrun := idle_descent (m := .cov) (M := Where (HasCell 1) (NearestOffered (CellAverage tgt 1) 1)) (src := src) (T0 := Pose.one) (by
    intro t ht
    have hmv : move Pose.one t.pos = ![100, 0, 0] := by
      rw [t2 t ht]
      simp [move, Pose.one]
    rw [hmv]
    refine ⟨hcell 100 (Or.inr rfl), fun u hu => absurd ?_ hu.1⟩
    unfold cellSites
    rw [List.filter_eq_nil_iff]
    intro s hs
    rw [t1 s hs]
    simp [spaceCell]) (inner := 10) (by norm_num) (factor := 10) (re := Setting.default.rotationEps) (te := Setting.default.translationEps) (lam := 1 / 1000)
    (by simp only [Setting.default]; have := Real.pi_pos; positivity) (by norm_num [Setting.default]) 19
  exact ⟨e, xt, xs, y, _, he, hy, by rw [h, (hiff _).2 ⟨fun t ht => by rw [t1 t ht]; exact hcell 0 (Or.inl rfl), hrun⟩], rfl, rfl⟩

end Verif.Props
