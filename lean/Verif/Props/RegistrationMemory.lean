import Verif.Proofs.RegistrationScene
import Verif.Proofs.KdAny
import Verif.Spec.RegistrationMemory

/-!
C57, C58: registration on real containers never leaves them, and its correspondences are the true nearest points.
-/

set_option linter.unusedSectionVars false
set_option linter.unusedSimpArgs false

namespace Verif.Props

open Matrix Verif Verif.Knn Verif.KdTree Verif.Proofs Verif.Proofs.RegMem Verif.Factors Verif.Reduction Verif.Optimizer Verif.PointCloud Verif.RegMem

variable {K : Type} [Field K] [LinearOrder K] [IsStrictOrderedRing K]

/-! ### correspondences of a whole run -/

/-- Every iteration of a run holds the factors linearised at its pose, and the final count is that of the last iteration. -/
theorem run_factors {F : Type} {needs : Needs} {mf : MemFactor F K} {pf : PointFactor F K} (h : Ships needs mf pf) {E : Fault → Prop} {w : World K} {n : Nat}
    (hw : Sound E w needs n) (cfg : Config K) (meth : Method K) (T0 : Pose K) (r : Result K) (fs' : List F) (log : List (Iteration F K))
    (hrun : meth.run (registrationProblem pf (scene w) cfg.rejector cfg.general cfg.solve cfg.exp cfg.converged) T0 (List.replicate n pf.init) = .ok (r, fs', log)) :
    r.numInliers = fs'.countP mf.inlier ∧ (∀ it, log.getLast? = some it → fs' = it.factors) ∧
    ∀ it ∈ log, it.factors.length = n ∧ ∀ i f, it.factors[i]? = some f → mf.source f = i ∧
      mf.target f = (match correspondence (scene w) cfg.rejector it.T0 i with | none => npos | some k => k) := by
  obtain ⟨_, hin, _⟩ := h.same
  have hQ : ∀ (T : Pose K) (l l' : List F) (s : Sys K), l.length = n →
      (registrationProblem pf (scene w) cfg.rejector cfg.general cfg.solve cfg.exp cfg.converged).linearize T l = .ok (l', s) → l'.length = n :=
    fun T l l' s hl hlin => (length_linearize hlin).trans hl
  have key : r.numInliers = fs'.countP pf.inlier ∧ (∀ it, log.getLast? = some it → fs' = it.factors) ∧
      ∀ it ∈ log, ∃ fs0 s, fs0.length = n ∧ serialLinearize (pf.linearize (scene w) cfg.rejector it.T0) fs0 = .ok (it.factors, s) := by
    cases meth with
    | lm st =>
      obtain ⟨r0, rfl, hr⟩ := lm_unfold hrun
      obtain ⟨ok, _⟩ := lmLoop_spec hr
      refine ⟨rfl, fun it hl => (ok.last it hl).1, fun it hit => ?_⟩
      obtain ⟨_, fs0, s, hq, hlin, _⟩ := (lmLoop_keep hQ hr (by simp)).2 it hit
      exact ⟨fs0, s, hq, hlin⟩
    | gn lambda m =>
      obtain ⟨r0, rfl, hr⟩ := gn_unfold hrun
      obtain ⟨_, _, _, h4, _⟩ := gnLoop_spec hr
      refine ⟨rfl, fun it hl => (h4 it hl).1, fun it hit => ?_⟩
      obtain ⟨_, fs0, s, hq, hlin, _⟩ := (gnLoop_keep hQ hr (by simp)).2 it hit
      exact ⟨fs0, s, hq, hlin⟩
  refine ⟨by rw [hin]; exact key.1, key.2.1, fun it hit => ?_⟩
  obtain ⟨fs0, s, hl, hlin⟩ := key.2.2 it hit
  rw [serial_ok] at hlin
  simp only [Spec.reduceSpec, Except.ok.injEq, Prod.mk.injEq] at hlin
  rw [← hlin.1]
  refine ⟨by simp [hl], fun i f hf => ?_⟩
  rw [List.getElem?_mapIdx] at hf
  rcases hg : fs0[i]? with _ | g
  · rw [hg] at hf; cases hf
  · rw [hg] at hf
    simp only [Option.map_some, Option.some.injEq] at hf
    rw [← hf]
    exact ((ships_sim h hw).1 cfg.rejector it.T0 i g (by have := (List.getElem?_eq_some_iff.1 hg).1; omega)).2

omit [IsStrictOrderedRing K] in
theorem ships_inlier {F : Type} {needs : Needs} {mf : MemFactor F K} {pf : PointFactor F K} (h : Ships needs mf pf) (f : F) :
    mf.inlier f = true ↔ mf.target f ≠ npos := by
  induction h with
  | icp => simp [icpMem, ICP.inlier]
  | plane => simp [planeMem, ICP.inlier]
  | gicp inv => simp [gicpMem, GICP.inlier]
  | robust wt sqrt _ ih => exact ih f

/-! ### C57 -/

omit [IsStrictOrderedRing K] in
theorem sqd_toPt (p q : Fin 4 → K) : Spec.sqd (toPt p) (toPt q) = Spec.dist2 p q := by
  simp only [Spec.sqd, Spec.dist2, toPt, dotProduct, Fin.sum_univ_four, Pi.sub_apply]
  ring

omit [IsStrictOrderedRing K] in
theorem cloudPoints_ok (c : PCloud K) (h : Spec.PointsSet c) :
    ∃ pts, cloudPoints c = .ok pts ∧ pts.length = c.size ∧ ∀ (i : Nat) (p : Pt K), pts[i]? = some p ↔ ∃ v, c.points[i]? = some (some v) ∧ p = toPt v := by
  have hv : ∀ i ∈ List.range c.size, (do let p ← c.point i; return toPt p : Res (Pt K)) = .ok (match c.points[i]? with | some (some v) => toPt v | _ => toPt 0) := by
    intro i hi
    obtain ⟨v, hv⟩ := h i (List.mem_range.1 hi)
    simp only [Cloud.point, getSlot, rd, hv]
    rfl
  refine ⟨_, mapM_ok _ _ _ hv, by simp, fun i p => ?_⟩
  rw [List.getElem?_map]
  constructor
  · intro hp
    rcases hr : (List.range c.size)[i]? with _ | j
    · rw [hr] at hp; cases hp
    · rw [hr] at hp
      simp only [Option.map_some, Option.some.injEq] at hp
      obtain ⟨h1, h2⟩ := List.getElem?_eq_some_iff.1 hr
      simp only [List.length_range] at h1
      rw [List.getElem_range] at h2
      subst h2
      obtain ⟨v, hv⟩ := h i h1
      rw [hv] at hp
      exact ⟨v, hv, hp.symm⟩
  · rintro ⟨v, hv, rfl⟩
    have hi : i < c.size := (List.getElem?_eq_some_iff.1 hv).1
    rw [List.getElem?_range hi]
    simp [hv]

section KdTree

variable (target source : PCloud K) (b : KdTree.Builder K) (hnth : NthElementSpec b.nthElement) (hfind : FindAxisSpec KdTree.Proj.UnitBounded b.findAxis)
  (hm : SafeLeafSize b.maxLeafSize) (htp : Spec.PointsSet target) (hne : 0 < target.size) (hN : target.size < 2 ^ 32)

include hnth hfind hm htp hne hN in
/-- The search of a factor on the kd-tree of the target: defined for every query; it finds nothing only if no target point is closer than
`maxD`, and what it finds is a nearest target point with its squared distance. -/
theorem kdNearest_spec (pts : List (Pt K)) (hpts : cloudPoints target = .ok pts) (t : KdTree.Tree K) (ht : TreeOf b pts t) (maxD : K) (hmax : 0 ≤ maxD)
    (fuel : Nat) (hf : target.size < fuel) (junk : Nat × K) (q : Fin 4 → K) :
    ∃ o, kdNearest maxD pts t fuel junk q = .ok o ∧
      (o = none → ∀ (j : Nat) (p : Fin 4 → K), target.points[j]? = some (some p) → maxD ≤ Spec.dist2 p q) ∧
      ∀ k d, o = some (k, d) → d < maxD ∧ ∃ p, target.points[k]? = some (some p) ∧ d = Spec.dist2 p q ∧
        ∀ (j : Nat) (p' : Fin 4 → K), target.points[j]? = some (some p') → d ≤ Spec.dist2 p' q := by
  obtain ⟨pts', h1, h2, h3⟩ := cloudPoints_ok target htp
  rw [hpts] at h1
  cases h1
  obtain ⟨r, h4, h5, _⟩ := knn_any b hnth hfind hm pts (by intro h0; rw [h0] at h2; simp at h2; omega) (by omega) t ht maxD hmax (toPt q) 1 (-1) 1 (by simp)
    (by omega) (by omega) [junk.1] [junk.2] (by simp) (by simp) fuel (by omega)
  refine ⟨r.found.head?, ?_, ?_, ?_⟩
  · unfold kdNearest KdTree.nearestNeighborSearch
    rw [h4]
    rfl
  · intro hnone j p hj
    rw [List.head?_eq_none_iff] at hnone
    by_contra hlt
    rw [not_le, ← sqd_toPt] at hlt
    have := h5.complete (by rw [hnone]; simp) j _ ⟨⟨toPt p, (h3 j _).2 ⟨p, hj, rfl⟩, rfl⟩, hlt⟩
    rw [hnone] at this
    simp at this
  · intro k d hkd
    have hmem : (k, d) ∈ r.found := List.mem_of_mem_head? hkd
    obtain ⟨⟨p, hp, hd⟩, hlt⟩ := h5.genuine _ hmem
    obtain ⟨v, hv, rfl⟩ := (h3 k p).1 hp
    simp only [sqd_toPt] at hd
    refine ⟨hlt, v, hv, hd, fun j p' hj => ?_⟩
    by_cases hjk : j = k
    · subst hjk
      rw [hv] at hj
      simp only [Option.some.injEq] at hj
      rw [← hj, hd]
    · by_cases hfar : Spec.dist2 p' q < maxD
      · refine h5.best j (Spec.dist2 p' q) ⟨⟨toPt p', (h3 j _).2 ⟨p', hj, rfl⟩, (sqd_toPt _ _).symm⟩, hfar⟩ ?_ _ hmem
        have hl := h5.length_le
        intro hin
        rcases hfd : r.found with _ | ⟨a, _ | ⟨a', l⟩⟩
        · rw [hfd] at hmem; cases hmem
        · rw [hfd] at hin hmem
          simp only [List.map_cons, List.map_nil, List.mem_singleton] at hin hmem
          rw [← hmem] at hin
          exact hjk hin
        · rw [hfd] at hl; simp at hl
      · exact (hlt.trans_le (not_lt.1 hfar)).le

include hnth hfind hm htp hne hN in
/-- The clouds with their kd-tree can be read wherever a factor reads them. -/
theorem kd_sound (needs : Needs) (hsp : Spec.PointsSet source) (hnorm : needs.normals = true → Spec.NormalsSet target)
    (hcov : needs.covs = true → Spec.CovsSet target ∧ Spec.CovsSet source) (pts : List (Pt K)) (hpts : cloudPoints target = .ok pts) (t : KdTree.Tree K)
    (ht : TreeOf b pts t) (maxD : K) (hmax : 0 ≤ maxD) (fuel : Nat) (hf : target.size < fuel) (junk : Nat × K) :
    Sound (fun _ => False) (cloudWorld target source (kdNearest maxD pts t fuel junk)) needs source.size where
  srcPoint i hi := by
    obtain ⟨p, hp⟩ := hsp i hi
    exact ⟨p, by simp only [cloudWorld, Cloud.point, getSlot, rd, hp]; rfl⟩
  srcCov hc i hi := by
    obtain ⟨p, hp⟩ := (hcov hc).2 i hi
    exact ⟨p, by simp only [cloudWorld, Cloud.cov, getSlot, rd, hp]; rfl⟩
  nn q := by
    obtain ⟨o, h, _⟩ := kdNearest_spec target b hnth hfind hm htp hne hN pts hpts t ht maxD hmax fuel hf junk q
    exact Or.inl ⟨o, h⟩
  found q k d h := by
    obtain ⟨o, h1, _, h2⟩ := kdNearest_spec target b hnth hfind hm htp hne hN pts hpts t ht maxD hmax fuel hf junk q
    have h' : kdNearest maxD pts t fuel junk q = .ok (some (k, d)) := h
    rw [h1] at h'
    simp only [Except.ok.injEq] at h'
    obtain ⟨_, p, hp, _⟩ := h2 k d h'
    have hk : k < target.size := (List.getElem?_eq_some_iff.1 hp).1
    refine ⟨by unfold npos; omega, ⟨p, by simp only [cloudWorld, Cloud.point, getSlot, rd, hp]; rfl⟩, fun hc => ?_, fun hc => ?_⟩
    · obtain ⟨v, hv⟩ := hnorm hc k hk
      exact ⟨v, by simp only [cloudWorld, Cloud.normal, getSlot, rd, hv]; rfl⟩
    · obtain ⟨v, hv⟩ := (hcov hc).1 k hk
      exact ⟨v, by simp only [cloudWorld, Cloud.cov, getSlot, rd, hv]; rfl⟩

include hnth hfind hm htp hne hN in
open Classical in
/-- C57. Registration of point clouds on a kd-tree (built by any of the builders) with any shipped factor, any reduction under any
execution, either optimiser, any rejector, general factor, linear solver and exponential map: no access outside a cloud, of an unset
attribute or of the tree ever happens, whatever the initial guess and however far it puts the source. With a distance rejector the
correspondences of every iteration are exactly the source points with a target point within the gate, each paired with a nearest
target point, and the reported number of inliers is their number at the pose of the last linearisation. -/
theorem C57_kdtree_registration {F : Type} {needs : Needs} {mf : MemFactor F K} {pf : PointFactor F K} (h : Ships needs mf pf)
    (hsp : Spec.PointsSet source) (hnorm : needs.normals = true → Spec.NormalsSet target)
    (hcov : needs.covs = true → Spec.CovsSet target ∧ Spec.CovsSet source) :
    ∃ pts, cloudPoints target = .ok pts ∧ (∃ t, TreeOf b pts t) ∧ ∀ (t : KdTree.Tree K) (_ : TreeOf b pts t) (maxD : K) (_ : 0 ≤ maxD) (fuel : Nat) (_ : target.size < fuel) (junk : Nat × K)
      (cfg : Config K) (execL execE : Pose K → List F → Exec) (_ : ∀ T fs, fs.length = source.size → (execL T fs).Complete source.size)
      (_ : ∀ T fs, fs.length = source.size → (execE T fs).Complete source.size) (meth : Method K) (T0 : Pose K),
      ∃ r fs' log, RegMem.align mf (cloudWorld target source (kdNearest maxD pts t fuel junk)) cfg execL execE meth T0 source.size = .ok (r, fs', log) ∧
        ∀ gate, cfg.rejector = distanceRejector gate → gate < maxD →
          (∀ it ∈ log, it.factors.length = source.size ∧ ∀ i f p, it.factors[i]? = some f → source.points[i]? = some (some p) → mf.source f = i ∧
            (mf.inlier f = true ↔ Spec.Within target gate (it.T0.apply p)) ∧ (mf.inlier f = true → Spec.Closest target (it.T0.apply p) (mf.target f))) ∧
          ∀ it, log.getLast? = some it → r.numInliers =
            (List.range source.size).countP (fun i => decide (∃ p, source.points[i]? = some (some p) ∧ Spec.Within target gate (it.T0.apply p))) := by
  obtain ⟨pts, hpts, hlen, _⟩ := cloudPoints_ok target htp
  refine ⟨pts, hpts, ?_, ?_⟩
  · obtain ⟨t, kt, h1, _⟩ := construct_built (exactOps K) b KdTree.Proj.UnitBounded pts (by intro h0; rw [h0] at hlen; simp at hlen; omega) (by omega) hnth hfind hm
      (pts.length + 1) (by omega)
    exact ⟨t, .sequential _ (by omega) h1⟩
  intro t ht maxD hmax fuel hfu junk cfg execL execE hL hE meth T0
  have hw := kd_sound target source b hnth hfind hm htp hne hN needs hsp hnorm hcov pts hpts t ht maxD hmax fuel hfu junk
  obtain ⟨⟨r, fs', log⟩, h1, h2⟩ := align_approx h hw cfg execL execE hL hE meth T0
  have h2 := h2.resolve_right (by rintro ⟨_, hf, _⟩; exact hf)
  refine ⟨r, fs', log, h2, fun gate hgate hgm => ?_⟩
  obtain ⟨g1, g2, g3⟩ := run_factors h hw cfg meth T0 r fs' log h1
  have each : ∀ it ∈ log, it.factors.length = source.size ∧ ∀ i f p, it.factors[i]? = some f → source.points[i]? = some (some p) → mf.source f = i ∧
      (mf.inlier f = true ↔ Spec.Within target gate (it.T0.apply p)) ∧ (mf.inlier f = true → Spec.Closest target (it.T0.apply p) (mf.target f)) := by
    intro it hit
    obtain ⟨k1, k2⟩ := g3 it hit
    refine ⟨k1, fun i f p hf hp => ?_⟩
    obtain ⟨k3, k4⟩ := k2 i f hf
    refine ⟨k3, ?_⟩
    rw [ships_inlier h, k4]
    have hsrc : (scene (cloudWorld target source (kdNearest maxD pts t fuel junk))).srcPoint i = p := by
      simp only [scene, cloudWorld, Cloud.point, getSlot, rd, hp]
      rfl
    obtain ⟨o, m1, m2, m3⟩ := kdNearest_spec target b hnth hfind hm htp hne hN pts hpts t ht maxD hmax fuel hfu junk (it.T0.apply p)
    have hnn : (scene (cloudWorld target source (kdNearest maxD pts t fuel junk))).nn (it.T0.apply p) = o := by
      show okOr none (kdNearest maxD pts t fuel junk (it.T0.apply p)) = o
      rw [m1]; rfl
    have hcorr : correspondence (scene (cloudWorld target source (kdNearest maxD pts t fuel junk))) cfg.rejector it.T0 i =
        o.bind (fun kd => if gate < kd.2 then none else some kd.1) := by
      unfold correspondence
      rw [hsrc, hnn, hgate]
      rcases o with _ | ⟨k, d⟩
      · rfl
      · simp [distanceRejector]
    rw [hcorr]
    rcases o with _ | ⟨k, d⟩
    · simp only [Option.bind_none, ne_eq, not_true_eq_false, false_iff, false_implies, and_true]
      rintro ⟨j, p', hj, hd⟩
      exact absurd (m2 rfl j p' hj) (not_le.2 (hd.trans_lt hgm))
    · obtain ⟨n1, p', n2, n3, n4⟩ := m3 k d rfl
      have hk : k ≠ npos := by
        have : k < target.size := (List.getElem?_eq_some_iff.1 n2).1
        unfold npos; omega
      simp only [Option.bind_some]
      by_cases hg : gate < d
      · rw [if_pos hg]
        simp only [ne_eq, not_true_eq_false, false_iff, false_implies, and_true]
        rintro ⟨j, p'', hj, hd⟩
        exact absurd ((n4 j p'' hj).trans hd) (not_le.2 hg)
      · rw [if_neg hg]
        simp only [ne_eq, hk, not_false_eq_true, true_iff, true_implies]
        refine ⟨⟨k, p', n2, by rw [← n3]; exact not_lt.1 hg⟩, p', n2, fun j p'' hj => ?_⟩
        rw [← n3]
        exact n4 j p'' hj
  refine ⟨each, fun it hit => ?_⟩
  obtain ⟨e1, e2⟩ := each it (List.mem_of_getLast? hit)
  rw [g1, g2 it hit]
  have : it.factors.map mf.inlier = (List.range source.size).map (fun i => decide (∃ p, source.points[i]? = some (some p) ∧ Spec.Within target gate (it.T0.apply p))) := by
    apply List.ext_getElem
    · simp [e1]
    · intro i h1 h2
      simp only [List.length_map] at h1
      simp only [List.getElem_map, List.getElem_range]
      obtain ⟨p, hp⟩ := hsp i (e1 ▸ h1 : i < source.size)
      have := (e2 i it.factors[i] p (List.getElem?_eq_getElem h1) hp).2.1
      by_cases hwi : Spec.Within target gate (it.T0.apply p)
      · rw [this.2 hwi]
        symm
        rw [decide_eq_true_iff]
        exact ⟨p, hp, hwi⟩
      · have hf : mf.inlier it.factors[i] = false := by
          rw [← Bool.not_eq_true]
          exact fun h => hwi (this.1 h)
        rw [hf]
        symm
        rw [decide_eq_false_iff_not]
        rintro ⟨p', hp', hw'⟩
        rw [hp] at hp'
        simp only [Option.some.injEq] at hp'
        rw [← hp'] at hw'
        exact hwi hw'
  have hc : ∀ (l : List F), l.countP mf.inlier = (l.map mf.inlier).countP id := fun l => by rw [List.countP_map]; rfl
  rw [hc, this, List.countP_map]
  rfl

end KdTree

end Verif.Props
