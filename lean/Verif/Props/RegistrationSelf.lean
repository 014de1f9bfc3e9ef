import Verif.Props.RegistrationMemory
import Verif.Props.Registration

/-!
C43 on real containers: a cloud registered with itself on its own kd-tree.
-/

set_option linter.unusedSectionVars false
set_option linter.unusedSimpArgs false

namespace Verif.Spec

open Matrix Verif.PointCloud Verif.Factors

/-- Every point, and nothing else, has a covariance; it is symmetric, positive semi-definite and positive definite on its upper 3x3 block. -/
def CovsRegular (c : RegMem.PCloud ℝ) : Prop :=
  c.covs.length = c.points.length ∧ ∀ i < c.points.length, ∃ A, c.covs[i]? = some (some A) ∧ SymPSD A ∧ ∀ x, x ≠ 0 → 0 < x ⬝ᵥ block33 A *ᵥ x

end Verif.Spec

namespace Verif.Props

open Matrix Verif Verif.Knn Verif.KdTree Verif.Proofs Verif.Proofs.RegMem Verif.Factors Verif.Reduction Verif.Optimizer Verif.PointCloud Verif.RegMem Verif.Spec Verif.Lie

/-- The factor types of the library with a true matrix inverse and robust weights that are not negative, with the invariant of the data
they store. -/
inductive Usual : Needs → {F : Type} → MemFactor F ℝ → PointFactor F ℝ → (F → Prop) → Prop where
  | icp : Usual ⟨false, false⟩ icpMem icpFactor (fun _ => True)
  | plane : Usual ⟨true, false⟩ planeMem planeFactor (fun _ => True)
  | gicp (inv : Matrix (Fin 3) (Fin 3) ℝ → Matrix (Fin 3) (Fin 3) ℝ) : InverseContract inv → Usual ⟨false, true⟩ (gicpMem inv) (gicpFactor inv) ZeroBorder
  | robust {needs : Needs} {F : Type} (wt sqrt : ℝ → ℝ) {mf : MemFactor F ℝ} {pf : PointFactor F ℝ} {Inv : F → Prop} : (∀ x, 0 ≤ wt x) →
      Usual needs mf pf Inv → Usual needs (robustMem wt sqrt mf) (robustFactor wt sqrt pf) Inv

theorem Usual.ships {needs : Needs} {F : Type} {mf : MemFactor F ℝ} {pf : PointFactor F ℝ} {Inv : F → Prop} (h : Usual needs mf pf Inv) : Ships needs mf pf := by
  induction h with
  | icp => exact .icp
  | plane => exact .plane
  | gicp inv _ => exact .gicp inv
  | robust wt sqrt _ _ ih => exact .robust wt sqrt ih

theorem Usual.sound {needs : Needs} {F : Type} {mf : MemFactor F ℝ} {pf : PointFactor F ℝ} {Inv : F → Prop} (h : Usual needs mf pf Inv) (sc : Scene ℝ) (gate : ℝ)
    (hcov : needs.covs = true → (∀ k, SymPSD (sc.tgtCov k)) ∧ (∀ q k d, sc.nn q = some (k, d) → ∀ x, x ≠ 0 → 0 < x ⬝ᵥ block33 (sc.tgtCov k) *ᵥ x) ∧
      ∀ i, SymPSD (sc.srcCov i)) : SoundAt pf sc (distanceRejector gate) Pose.one Inv := by
  induction h with
  | icp => exact C43_icp sc gate
  | plane => exact C43_plane sc gate
  | gicp inv hinv =>
    obtain ⟨h1, h2, h3⟩ := hcov rfl
    exact C43_gicp inv hinv sc gate h1 h2 h3
  | robust wt sqrt hw _ ih => exact C33_robust wt sqrt hw _ sc _ _ _ (ih hcov)

/-- C43 for the optimisers of the complete model. -/
theorem C43_run {F : Type} {pf : PointFactor F ℝ} (hpf : Shipped pf) (sc : Scene ℝ) (n : Nat) (hidx : SearchIndices sc) (hmatch : Matched sc n) (gate : ℝ) (hgate : 0 ≤ gate)
    (Inv : F → Prop) (hsound : SoundAt pf sc (distanceRejector gate) Pose.one Inv) (g : General ℝ) (hg : ShippedGeneral g)
    (solve : Matrix (Fin 6) (Fin 6) ℝ → (Fin 6 → ℝ) → (Fin 6 → ℝ)) (hs : SolveContract solve) (rotationEps translationEps : ℝ) (hre : 0 ≤ rotationEps) (hte : 0 ≤ translationEps)
    (meth : Method ℝ) (hmeth : match meth with
      | .lm st => 0 < st.initLambda ∧ 0 < st.lambdaFactor ∧ 0 < st.maxInner ∧ 0 < st.maxIterations
      | .gn lambda m => 0 < lambda ∧ 0 < m) :
    ∃ r fs' log, meth.run (registrationProblem pf sc (distanceRejector gate) g solve se3Exp (converged rotationEps translationEps)) Pose.one (List.replicate n pf.init) = .ok (r, fs', log) ∧
      r.T = Pose.one ∧ r.converged = true ∧ r.error = 0 ∧ r.numInliers = n ∧ log.length = 1 := by
  obtain ⟨h1, h2⟩ := C43_matched hpf sc n hidx hmatch gate hgate Inv hsound g hg solve hs rotationEps translationEps hre hte
  cases meth with
  | lm st => exact h1 st hmeth.1 hmeth.2.1 hmeth.2.2.1 hmeth.2.2.2
  | gn lambda m => exact h2 lambda m hmeth.1 hmeth.2

/-- The covariances of a regular cloud, read by total functions. -/
theorem CovsRegular.read {c : PCloud ℝ} (h : Spec.CovsRegular c) (i : Nat) : Spec.SymPSD (okOr 0 (c.cov i)) ∧
    (i < c.size → ∀ x, x ≠ 0 → 0 < x ⬝ᵥ block33 (okOr 0 (c.cov i)) *ᵥ x) := by
  by_cases hi : i < c.size
  · obtain ⟨A, h1, h2, h3⟩ := h.2 i hi
    have : okOr 0 (c.cov i) = A := by
      simp only [Cloud.cov, getSlot, rd, h1]
      rfl
    rw [this]
    exact ⟨h2, fun _ => h3⟩
  · refine ⟨?_, fun h => absurd h hi⟩
    have : c.covs[i]? = none := List.getElem?_eq_none (by rw [h.1]; exact not_lt.1 hi)
    have : okOr 0 (c.cov i) = 0 := by
      simp only [Cloud.cov, getSlot, rd, this]
      rfl
    rw [this]
    exact ⟨by simp, by simp⟩

theorem CovsRegular.set {c : PCloud ℝ} (h : Spec.CovsRegular c) : Spec.CovsSet c := fun i hi => by
  obtain ⟨A, hA, _⟩ := h.2 i hi
  exact ⟨A, hA⟩

variable (target source : PCloud ℝ) (b : KdTree.Builder ℝ)

/-- C43 on real containers. A source all of whose points are points of the target (such as the target itself in any order), registered
on a kd-tree of the target (from any builder), from the identity, with any shipped factor (robust or not), reduction, execution and
optimiser: the run is defined, makes one iteration, and reports the identity, convergence, zero error and every point as inlier. -/
theorem C43_kdtree (hnth : NthElementSpec b.nthElement) (hfind : FindAxisSpec KdTree.Proj.UnitBounded b.findAxis)
    (hm : SafeLeafSize b.maxLeafSize) (hp : Spec.PointsSet target) (hne : 0 < target.size) (hN : target.size < 2 ^ 32) (hsp : Spec.PointsSet source)
    (hsub : ∀ (i : Nat) (p : Fin 4 → ℝ), source.points[i]? = some (some p) → ∃ j : Nat, target.points[j]? = some (some p))
    {F : Type} {needs : Needs} {mf : MemFactor F ℝ} {pf : PointFactor F ℝ} {Inv : F → Prop} (h : Usual needs mf pf Inv)
    (hnorm : needs.normals = true → Spec.NormalsSet target) (hcov : needs.covs = true → Spec.CovsRegular target ∧ Spec.CovsRegular source)
    (pts : List (Pt ℝ)) (hpts : cloudPoints target = .ok pts) (t : KdTree.Tree ℝ) (ht : TreeOf b pts t) (maxD gate : ℝ) (hgate : 0 ≤ gate) (hmax : gate < maxD)
    (fuel : Nat) (hf : target.size < fuel) (junk : Nat × ℝ) (g : General ℝ) (hg : ShippedGeneral g)
    (solve : Matrix (Fin 6) (Fin 6) ℝ → (Fin 6 → ℝ) → (Fin 6 → ℝ)) (hs : SolveContract solve) (rotationEps translationEps : ℝ) (hre : 0 ≤ rotationEps) (hte : 0 ≤ translationEps)
    (execL execE : Pose ℝ → List F → Exec) (hL : ∀ T fs, fs.length = source.size → (execL T fs).Complete source.size)
    (hE : ∀ T fs, fs.length = source.size → (execE T fs).Complete source.size) (meth : Method ℝ) (hmeth : match meth with
      | .lm st => 0 < st.initLambda ∧ 0 < st.lambdaFactor ∧ 0 < st.maxInner ∧ 0 < st.maxIterations
      | .gn lambda m => 0 < lambda ∧ 0 < m) :
    ∃ r fs' log, RegMem.align mf (cloudWorld target source (kdNearest maxD pts t fuel junk)) ⟨distanceRejector gate, g, solve, se3Exp, converged rotationEps translationEps⟩ execL execE
        meth Pose.one source.size = .ok (r, fs', log) ∧
      r.T = Pose.one ∧ r.converged = true ∧ r.error = 0 ∧ r.numInliers = source.size ∧ log.length = 1 := by
  have hmax0 : 0 ≤ maxD := hgate.trans hmax.le
  have hw := kd_sound target source b hnth hfind hm hp hne hN needs hsp hnorm (fun hc => ⟨CovsRegular.set (hcov hc).1, CovsRegular.set (hcov hc).2⟩)
    pts hpts t ht maxD hmax0 fuel hf junk
  have hspec := kdNearest_spec target b hnth hfind hm hp hne hN pts hpts t ht maxD hmax0 fuel hf junk
  have hpoint : ∀ (i : Nat) (p : Fin 4 → ℝ), target.points[i]? = some (some p) → (scene (cloudWorld target source (kdNearest maxD pts t fuel junk))).tgtPoint i = p := by
    intro i p hp
    simp only [scene, cloudWorld, Cloud.point, getSlot, rd, hp]
    rfl
  have hspoint : ∀ (i : Nat) (p : Fin 4 → ℝ), source.points[i]? = some (some p) → (scene (cloudWorld target source (kdNearest maxD pts t fuel junk))).srcPoint i = p := by
    intro i p hp
    simp only [scene, cloudWorld, Cloud.point, getSlot, rd, hp]
    rfl
  have hnn : ∀ q o, kdNearest maxD pts t fuel junk q = .ok o → (scene (cloudWorld target source (kdNearest maxD pts t fuel junk))).nn q = o := by
    intro q o h
    show okOr none (kdNearest maxD pts t fuel junk q) = o
    rw [h]; rfl
  have hfound : ∀ q k d, (scene (cloudWorld target source (kdNearest maxD pts t fuel junk))).nn q = some (k, d) → k < target.size := by
    intro q k d hq
    obtain ⟨o, h1, _, h2⟩ := hspec q
    rw [hnn q o h1] at hq
    obtain ⟨_, p, hp, _⟩ := h2 k d hq
    exact (List.getElem?_eq_some_iff.1 hp).1
  have hmatch : Matched (scene (cloudWorld target source (kdNearest maxD pts t fuel junk))) source.size := by
    intro i hi
    obtain ⟨p, hpi⟩ := hsp i hi
    obtain ⟨j, hj⟩ := hsub i p hpi
    rw [hspoint i p hpi]
    obtain ⟨o, h1, h2, h3⟩ := hspec p
    rcases o with _ | ⟨k, d⟩
    · have := h2 rfl j p hj
      simp only [Spec.dist2, sub_self, dotProduct_zero] at this
      exact absurd this (not_le.2 (hgate.trans_lt hmax))
    · obtain ⟨_, p', h4, h5, h6⟩ := h3 k d rfl
      have h7 := h6 j p hj
      simp only [Spec.dist2, sub_self, dotProduct_zero] at h7 h5
      have h8 : d = 0 := le_antisymm h7 (by rw [h5]; exact dot_self_nonneg _)
      subst h8
      refine ⟨k, hnn p _ h1, ?_⟩
      rw [hpoint k p' h4]
      exact sub_eq_zero.1 (dot_self_eq_zero _ h5.symm)
  have hsound := h.sound (scene (cloudWorld target source (kdNearest maxD pts t fuel junk))) gate (fun hc =>
    ⟨fun k => (CovsRegular.read (hcov hc).1 k).1, fun q k d hq => (CovsRegular.read (hcov hc).1 k).2 (hfound q k d hq), fun i => (CovsRegular.read (hcov hc).2 i).1⟩)
  obtain ⟨out, h1, h2⟩ := align_approx h.ships hw ⟨distanceRejector gate, g, solve, se3Exp, converged rotationEps translationEps⟩ execL execE hL hE meth Pose.one
  have h2 := h2.resolve_right (by rintro ⟨_, hf, _⟩; exact hf)
  obtain ⟨r, fs', log, h3, h4⟩ := C43_run h.ships.shipped (scene (cloudWorld target source (kdNearest maxD pts t fuel junk))) source.size
    (fun q k d hq => by have := hfound q k d hq; unfold npos; omega) hmatch gate hgate Inv hsound g hg solve hs rotationEps translationEps hre hte meth hmeth
  rw [h3] at h1
  simp only [Except.ok.injEq] at h1
  subst h1
  exact ⟨r, fs', log, h2, h4⟩

/-- A cloud of two points with a tree built on it meets the hypotheses on clouds; a gate of 1 and a search radius of 2 those on distances. -/
example : let c : PCloud ℝ := ⟨[some ![0, 0, 0, 1], some ![1, 0, 0, 1]], [some ![0, 0, 1, 0], some ![0, 0, 1, 0]], [some (diagonal ![1, 1, 1, 0]), some (diagonal ![1, 1, 1, 0])]⟩
    Spec.PointsSet c ∧ Spec.NormalsSet c ∧ Spec.CovsRegular c ∧ 0 < c.size ∧ c.size < 2 ^ 32 := by
  intro c
  have two : ∀ i, i < c.points.length → i = 0 ∨ i = 1 := fun i hi => by
    have : i < 2 := hi
    omega
  have hreg : Spec.SymPSD (diagonal ![1, 1, 1, 0] : Matrix (Fin 4) (Fin 4) ℝ) ∧ ∀ x : Fin 3 → ℝ, x ≠ 0 → 0 < x ⬝ᵥ block33 (diagonal ![1, 1, 1, 0] : Matrix (Fin 4) (Fin 4) ℝ) *ᵥ x := by
    refine ⟨⟨by simp, fun x => ?_⟩, fun x hx => ?_⟩
    · simp only [mulVec_diagonal, dotProduct, Fin.sum_univ_four]
      simp
      nlinarith [mul_self_nonneg (x 0), mul_self_nonneg (x 1), mul_self_nonneg (x 2)]
    · have : block33 (diagonal ![1, 1, 1, 0] : Matrix (Fin 4) (Fin 4) ℝ) = 1 := by
        ext i j
        fin_cases i <;> fin_cases j <;> simp [block33, diagonal]
      rw [this, one_mulVec]
      exact lt_of_le_of_ne (dot_self_nonneg x) (fun h => hx (dot_self_eq_zero x h.symm))
  refine ⟨fun i hi => ?_, fun i hi => ?_, ⟨rfl, fun i hi => ?_⟩, by decide, by decide⟩
  · rcases two i hi with rfl | rfl <;> exact ⟨_, rfl⟩
  · rcases two i hi with rfl | rfl <;> exact ⟨_, rfl⟩
  · rcases two i hi with rfl | rfl <;> exact ⟨_, rfl, hreg⟩

end Verif.Props
