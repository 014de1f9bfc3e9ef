import Verif.Model.BasicExamplesPcl
import Verif.Props.BasicExamples
import Verif.Props.OdometryPcl

/-! C95: what the example program with PCL interfaces computes. -/

set_option linter.unusedSectionVars false
set_option linter.unusedSimpArgs false
set_option linter.unnecessarySeqFocus false

namespace Verif.Spec

open Matrix Verif Verif.Factors Verif.KdTree Verif.Optimizer

/-- Rounding that keeps zero and one, and numbers up to 1 up to `δ`, less than a third of a thousandth. -/
structure FloatRounding (rnd : ℝ → ℝ) (δ : ℝ) : Prop where
  zero : rnd 0 = 0
  one : rnd 1 = 1
  near : ∀ x, |x| ≤ 1 → |rnd x - x| ≤ δ
  small : δ < 1 / 3000

/-- A site with its covariance rounded. -/
def roundedSite (rnd : ℝ → ℝ) (s : Site) : Site := ⟨s.pos, s.normal, fun i j => rnd (s.cov i j)⟩

/-- The block-wise sample with cells of 0.25, rounded. -/
def RoundedSample (rnd : ℝ → ℝ) (pts out : List (Pt ℝ)) : Prop := ∃ raw, BlockSample (1 / 4) pts raw ∧ out = roundedPoints rnd raw

/-- The outcome of a voxelised GICP registration with the defaults of the PCL interface, voxels of 1 and at most `n` iterations, from the identity: a partner is the average of the target sites in the same cell, within distance 1. -/
def PclVgicp (n : Nat) (tgt src : List Site) (res : Result ℝ) : Prop :=
  LMRun .cov (Where (HasCell 1) (NearestOffered (CellAverage tgt 1) 1)) src 10 10 (2 / 1000) (5 / 10000) n 0 (1 / 1000) (Result.init Pose.one) res

/-- The outcome of a GICP registration with the default settings from the identity, a partner being a nearest site within distance 1. -/
def PlainGicp (tgt src : List Site) (res : Result ℝ) : Prop :=
  LMRun .cov (NearestWithin tgt 1) src 10 10 (1 / 10 * Real.pi / 180) (1 / 1000) 20 0 (1 / 1000) (Result.init Pose.one) res

end Verif.Spec

namespace Verif.Props

open Matrix Verif Verif.Knn Verif.KdTree Verif.Proofs Verif.Proofs.RegMem Verif.Factors Verif.Reduction Verif.Optimizer Verif.PointCloud Verif.RegMem Verif.Spec Verif.Lie
open Verif.Pipeline Verif.Features Verif.Downsample Verif.Helper Verif.OdometryPipeline Verif.Odometry Verif.OdometryPcl Verif.BasicExamples Verif.Voxel

/-! ### `example1` -/

section Example1

variable {e : Env} (he : EnvMeets e) {x : PclExec}

/-- The voxel map of a cloud. -/
noncomputable def pclMap (e : Env) (x : PclExec) (f : List (Pt ℝ)) : BasicExamplesPcl.MapSlot := createVoxelmap (proxyCloud f (pclCovs e x 20 f)) 1

/-- The registration that is run of `s` to `t`. -/
noncomputable def pclMapCall (e : Env) (x : PclExec) (n0 : Int) (t s : List (Pt ℝ)) : Pcl.Call (Pt ℝ) (KdTree.Tree ℝ) CovSlot BasicExamplesPcl.MapSlot ℝ (Pose ℝ) :=
  ⟨2 / 1000, 5 / 10000, 4, 1 * 1, false, n0, .voxelmap (pclMap e x t), s, pclCovs e x 20 s, Pose.one⟩

include he in
/-- The two registrations of the object. -/
theorem example1_calls (n0 : Int) {t s : List (Pt ℝ)} (ht : PclFrame e x t) (hs : PclFrame e x s) :
    ∃ g, Pcl.run (BasicExamplesPcl.mapEnv e x [t, s]) (Pcl.State.init n0) BasicExamplesPcl.example1Calls =
      .ok (g, [none, none, none, none, none, none, none, some (pclMapCall e x n0 t s), none, some (pclMapCall e x n0 s t)]) ∧
      g.targetMap = some (pclMap e x s) ∧ g.sourceMap = some (pclMap e x t) := by
  have htl : t.length ≠ 0 := fun h => ht.nonempty (List.length_eq_zero_iff.1 h)
  have hsl : s.length ≠ 0 := fun h => hs.nonempty (List.length_eq_zero_iff.1 h)
  have lt : (pclCovs e x 20 t).length = t.length := (pcl_features he (by norm_num) ht).2.1
  have ls : (pclCovs e x 20 s).length = s.length := (pcl_features he (by norm_num) hs).2.1
  have h0 : (BasicExamplesPcl.mapEnv e x [t, s]).heap 0 = t := rfl
  have h1 : (BasicExamplesPcl.mapEnv e x [t, s]).heap 1 = s := rfl
  have a0 : (BasicExamplesPcl.mapEnv e x [t, s]).accepts 0 = true := by
    show (!(t.isEmpty)) = true
    simpa using ht.nonempty
  have a1 : (BasicExamplesPcl.mapEnv e x [t, s]).accepts 1 = true := by
    show (!(s.isEmpty)) = true
    simpa using hs.nonempty
  have m1 : ∀ f, (BasicExamplesPcl.mapEnv e x [t, s]).mkTree f = pclTree e x f := fun f => rfl
  have m2 : ∀ f, (BasicExamplesPcl.mapEnv e x [t, s]).estimate f (pclTree e x f) 20 = pclCovs e x 20 f := fun f => rfl
  have m3 : ∀ f, (BasicExamplesPcl.mapEnv e x [t, s]).mkMap 1 f (pclCovs e x 20 f) = pclMap e x f := fun f => rfl
  generalize BasicExamplesPcl.mapEnv e x [t, s] = E at *
  refine ⟨⟨⟨4, 20, 2 / 1000, 1, "VGICP", false, 1, 5 / 10000, n0⟩, some 0, some 1, some (pclTree e x t), some (pclTree e x s), pclCovs e x 20 t, pclCovs e x 20 s, some (pclMap e x t), some (pclMap e x s)⟩,
    ?h, rfl, rfl⟩
  case h =>
    simp [BasicExamplesPcl.example1Calls, Pcl.run, Pcl.step, Pcl.setNumThreads, Pcl.setNumNeighborsForCovariance, Pcl.setVoxelResolution, Pcl.setRegistrationType, Pcl.setInputTarget,
      Pcl.setInputSource, Pcl.State.init, Pcl.baseSetInput, Pcl.buildTree, Except.map, Pcl.computeTransformation, Pcl.deref, Pcl.ensureSourceCovs, Pcl.ensureTargetCovs, Pcl.register,
      Pcl.swapSourceAndTarget, h0, h1, a0, a1, m1, m2, m3, htl, hsl, lt, ls, Ne.symm htl, Ne.symm hsl, bind, Except.bind]
    simp [pclMapCall]

theorem proxy_map {f : List (Pt ℝ)} {covs : List CovSlot} {c : RCloud} {k : Nat} {maxD : ℝ} (h : LocalFeatures f maxD k c) (hc : c.covs = covs) (resolution : ℝ) :
    createVoxelmap (proxyCloud f covs) resolution = createVoxelmap c resolution := by
  have hp : c.points = (proxyCloud f covs).points := by rw [h.1]; rfl
  unfold createVoxelmap voxelSource Cloud.size Cloud.point Cloud.cov
  rw [hp, hc]
  rfl

/-- A map is built exactly if all points have cells. -/
theorem map_built {out : List (Pt ℝ)} {maxD : ℝ} {k : Nat} {c : RCloud} (h : LocalFeatures out maxD k c) (hw : ∀ p ∈ out, p.w = 1) {resolution : ℝ} (hres : resolution ≠ 0) :
    ((∀ s ∈ cloudSites c, HasCell resolution s.pos) → ∃ m, createVoxelmap c resolution = .ok m) ∧
    (¬ (∀ s ∈ cloudSites c, HasCell resolution s.pos) → createVoxelmap c resolution = .error .intOverflow) := by
  obtain ⟨m1, m2⟩ := voxelmap_of h hres
  have hpos := (cloud_sites h).1
  have hsites : (∀ t ∈ cloudSites c, HasCell resolution t.pos) ↔ ∀ p ∈ out, CellDefined (1 / resolution) p := by
    constructor
    · intro hh p hp
      rw [hasCell_iff _ _ (hw p hp)]
      have : xyz p ∈ (cloudSites c).map Site.pos := by rw [hpos]; exact List.mem_map_of_mem hp
      obtain ⟨t, ht, hte⟩ := List.mem_map.1 this
      rw [← hte]
      exact hh t ht
    · intro hh t ht
      have : t.pos ∈ out.map xyz := by rw [← hpos]; exact List.mem_map_of_mem ht
      obtain ⟨p, hp, hpe⟩ := List.mem_map.1 this
      rw [← hpe, ← hasCell_iff _ _ (hw p hp)]
      exact hh p hp
  rw [hsites]
  refine ⟨fun hh => ?_, fun hh => ?_⟩
  · obtain ⟨_, m, hm, _⟩ := m2 hh
    exact ⟨m, hm⟩
  · push Not at hh
    exact m1 hh

include he in
/-- One registration of the object. -/
theorem mapAlign_run (hmax : 1 < e.maxD) (n0 : Int) {t s : List (Pt ℝ)} (ht : PclFrame e x t) (hs : PclFrame e x s) {ct cs : RCloud} (ft : LocalFeatures t e.maxD 20 ct) (et : ct.covs = pclCovs e x 20 t)
    (fs : LocalFeatures s e.maxD 20 cs) (es : cs.covs = pclCovs e x 20 s) :
    (∀ f, BasicExamplesPcl.mapAlign e x (pclMapCall e x n0 t s) = .error f → f = .intOverflow) ∧
      ∀ res, BasicExamplesPcl.mapAlign e x (pclMapCall e x n0 t s) = .ok res ↔ (∀ a ∈ cloudSites ct, HasCell 1 a.pos) ∧ PclVgicp n0.toNat (cloudSites ct) (cloudSites cs) res := by
  have hsz : cs.size = s.length := (features_points fs).2
  have hsz' : (proxyCloud s (pclCovs e x 20 s)).size = cs.size := by
    rw [hsz]
    simp [proxyCloud, Cloud.size]
  have hw : ∀ m, voxelWorld e.maxD m (proxyCloud s (pclCovs e x 20 s)) e.junk = voxelWorld e.maxD m cs e.junk := by
    intro m
    have hp : (proxyCloud s (pclCovs e x 20 s)).point = cs.point := by
      funext i
      unfold Cloud.point
      rw [fs.1]
      rfl
    have hc : (proxyCloud s (pclCovs e x 20 s)).cov = cs.cov := by
      funext i
      unfold Cloud.cov
      rw [es]
      rfl
    unfold voxelWorld
    rw [hp, hc]
  refine map_run he ft fs ht.small ht.weight hs.weight one_ne_zero (by simpa using hmax : (1 : ℝ) < e.maxD) (re := 2 / 1000) (te := 5 / 10000) (st := ⟨n0, 10, 1 / 1000, 10⟩) (by norm_num) (by norm_num)
    (x.lin s) (x.err s) (fun T fs hl => by rw [hsz] at hl ⊢; exact (hs.runs.2.2 T fs hl).1) (fun T fs hl => by rw [hsz] at hl ⊢; exact (hs.runs.2.2 T fs hl).2) (initT := Pose.one) ?_
  unfold BasicExamplesPcl.mapAlign
  simp only [pclMapCall, pclMap, Registration.default, proxy_map ft et, hw, hsz', mul_one]

include he in
/-- **C95, `example1`.** On sampled clouds with points, for every complete execution: the object makes two registrations, of the source to the target and, after the swap, of the target to the source, each the
descent to averages over cells of side 1 with covariances of twenty neighbours. There are results exactly if all points of both clouds and all points looked up have cells; otherwise a coordinate
overflows. -/
theorem C95_example1 (hmax : 1 < e.maxD) (n0 : Int) {t s : List (Pt ℝ)} (ht : PclFrame e x t) (hs : PclFrame e x s) :
    ∃ tgt src, LocalSites t e.maxD 20 tgt ∧ LocalSites s e.maxD 20 src ∧ (∀ f, BasicExamplesPcl.example1 e x n0 t s = .error f → f = .intOverflow) ∧
      ∀ rs, BasicExamplesPcl.example1 e x n0 t s = .ok rs ↔ (∀ a ∈ tgt ++ src, HasCell 1 a.pos) ∧ ∃ r1 r2, rs = [r1, r2] ∧ PclVgicp n0.toNat tgt src r1 ∧ PclVgicp n0.toNat src tgt r2 := by
  obtain ⟨_, _, ct, ft, et⟩ := pcl_features he (k := 20) (by norm_num) ht
  obtain ⟨_, _, cs, fs, es⟩ := pcl_features he (k := 20) (by norm_num) hs
  refine ⟨cloudSites ct, cloudSites cs, cloud_sites ft, cloud_sites fs, ?_⟩
  obtain ⟨g, g1, g2, g3⟩ := example1_calls he n0 ht hs
  obtain ⟨a1, a2⟩ := mapAlign_run he hmax n0 ht hs ft et fs es
  obtain ⟨b1, b2⟩ := mapAlign_run he hmax n0 hs ht fs es ft et
  obtain ⟨mt1, mt2⟩ := map_built ft ht.weight (resolution := 1) one_ne_zero
  obtain ⟨ms1, ms2⟩ := map_built fs hs.weight (resolution := 1) one_ne_zero
  have et' : pclMap e x t = createVoxelmap ct 1 := proxy_map ft et 1
  have es' : pclMap e x s = createVoxelmap cs 1 := proxy_map fs es 1
  have hex : BasicExamplesPcl.example1 e x n0 t s = (do
      let _ ← BasicExamplesPcl.built (some (createVoxelmap cs 1))
      let _ ← BasicExamplesPcl.built (some (createVoxelmap ct 1))
      let r1 ← BasicExamplesPcl.mapAlign e x (pclMapCall e x n0 t s)
      let r2 ← BasicExamplesPcl.mapAlign e x (pclMapCall e x n0 s t)
      return [r1, r2]) := by
    unfold BasicExamplesPcl.example1
    rw [g1, ok_bind]
    simp only [g2, g3, et', es', List.filterMap_cons, List.filterMap_nil, id, List.mapM_cons, List.mapM_nil, bind_assoc, pure_bind]
  rw [hex]
  have hcells : (∀ a ∈ cloudSites ct ++ cloudSites cs, HasCell 1 a.pos) ↔ (∀ a ∈ cloudSites ct, HasCell 1 a.pos) ∧ ∀ a ∈ cloudSites cs, HasCell 1 a.pos := by
    simp only [List.mem_append]
    exact ⟨fun h => ⟨fun a ha => h a (.inl ha), fun a ha => h a (.inr ha)⟩, fun h a ha => ha.elim (h.1 a) (h.2 a)⟩
  rw [hcells]
  by_cases hcs : ∀ a ∈ cloudSites cs, HasCell 1 a.pos
  swap
  · rw [ms2 hcs]
    exact ⟨fun f hf => (by cases hf; rfl), fun rs => ⟨fun h => (by cases h), fun h => absurd h.1.2 hcs⟩⟩
  by_cases hct : ∀ a ∈ cloudSites ct, HasCell 1 a.pos
  swap
  · obtain ⟨m, hm⟩ := ms1 hcs
    rw [mt2 hct, hm]
    exact ⟨fun f hf => (by cases hf; rfl), fun rs => ⟨fun h => (by cases h), fun h => absurd h.1.1 hct⟩⟩
  obtain ⟨m, hm⟩ := ms1 hcs
  obtain ⟨m', hm'⟩ := mt1 hct
  rw [hm, hm']
  cases hA : BasicExamplesPcl.mapAlign e x (pclMapCall e x n0 t s) with
  | error f =>
    refine ⟨fun f' hf => (by cases hf; exact a1 f hA), fun rs => ⟨fun h => (by cases h), ?_⟩⟩
    rintro ⟨_, r1, r2, _, h1, _⟩
    rw [(a2 r1).2 ⟨hct, h1⟩] at hA
    cases hA
  | ok r1 =>
    cases hB : BasicExamplesPcl.mapAlign e x (pclMapCall e x n0 s t) with
    | error f =>
      refine ⟨fun f' hf => (by cases hf; exact b1 f hB), fun rs => ⟨fun h => (by cases h), ?_⟩⟩
      rintro ⟨_, _, r2, _, _, h2⟩
      rw [(b2 r2).2 ⟨hcs, h2⟩] at hB
      cases hB
    | ok r2 =>
      refine ⟨fun f hf => (by cases hf), fun rs => ⟨fun h => ?_, ?_⟩⟩
      · cases h
        exact ⟨⟨hct, hcs⟩, r1, r2, rfl, ((a2 r1).1 hA).2, ((b2 r2).1 hB).2⟩
      · rintro ⟨_, r1', r2', rfl, h1, h2⟩
        have e1 := (a2 r1').2 ⟨hct, h1⟩
        have e2 := (b2 r2').2 ⟨hcs, h2⟩
        rw [hA] at e1
        rw [hB] at e2
        cases e1
        cases e2
        rfl

include he in
/-- **C95, exchange.** On the clouds exchanged, `example1` gives the same two results, exchanged. -/
theorem C95_exchange (n0 : Int) {t s : List (Pt ℝ)} (ht : PclFrame e x t) (hs : PclFrame e x s) {r1 r2 : Result ℝ} (h : BasicExamplesPcl.example1 e x n0 t s = .ok [r1, r2]) :
    BasicExamplesPcl.example1 e x n0 s t = .ok [r2, r1] := by
  have key : ∀ {t s : List (Pt ℝ)}, PclFrame e x t → PclFrame e x s → BasicExamplesPcl.example1 e x n0 t s = (do
      let _ ← BasicExamplesPcl.built (some (pclMap e x s))
      let _ ← BasicExamplesPcl.built (some (pclMap e x t))
      let r1 ← BasicExamplesPcl.mapAlign e x (pclMapCall e x n0 t s)
      let r2 ← BasicExamplesPcl.mapAlign e x (pclMapCall e x n0 s t)
      return [r1, r2]) := by
    intro t s ht hs
    obtain ⟨g, g1, g2, g3⟩ := example1_calls he n0 ht hs
    unfold BasicExamplesPcl.example1
    rw [g1, ok_bind]
    simp only [g2, g3, List.filterMap_cons, List.filterMap_nil, id, List.mapM_cons, List.mapM_nil, bind_assoc, pure_bind]
  rw [key ht hs] at h
  rw [key hs ht]
  obtain ⟨_, h1, h⟩ := call_of_ok h
  obtain ⟨_, h2, h⟩ := call_of_ok h
  obtain ⟨_, h3, h⟩ := call_of_ok h
  obtain ⟨_, h4, h⟩ := call_of_ok h
  cases h
  rw [h1, h2, h3, h4]
  rfl

end Example1

/-! ### `example2` -/

theorem pair_bound {E δ : ℝ} (a b : ℝ) (h : |E| ≤ δ) : -(δ * ((a ^ 2 + b ^ 2) / 2)) ≤ E * (a * b) := by
  have h1 : |E * (a * b)| ≤ δ * ((a ^ 2 + b ^ 2) / 2) := by
    rw [abs_mul]
    refine mul_le_mul h ?_ (abs_nonneg _) ((abs_nonneg _).trans h)
    rw [abs_le]
    constructor <;> nlinarith [sq_nonneg (a + b), sq_nonneg (a - b)]
  linarith [(abs_le.1 h1).1]

/-- The covariance of a disc remains symmetric and positive definite when it is rounded. -/
theorem rounded_disc {rnd : ℝ → ℝ} {δ : ℝ} (hr : FloatRounding rnd δ) {C : Matrix (Fin 4) (Fin 4) ℝ} {m : Fin 3 → ℝ} (hm : m ⬝ᵥ m ≤ 1) (hC : DiscCov m C) :
    SymPSD (fun i j => rnd (C i j) : Matrix (Fin 4) (Fin 4) ℝ) ∧ (∀ x, x ≠ 0 → 0 < x ⬝ᵥ block33 (fun i j => rnd (C i j)) *ᵥ x) ∧ ∀ a b : Fin 4, a = 3 ∨ b = 3 → rnd (C a b) = 0 := by
  obtain ⟨hb, hz⟩ := hC
  have hz' : ∀ a b : Fin 4, a = 3 ∨ b = 3 → rnd (C a b) = 0 := fun a b h => by rw [hz a b h, hr.zero]
  have hent : ∀ i j : Fin 3, C i.castSucc j.castSucc = (if i = j then 1 else 0) - 999 / 1000 * (m i * m j) := by
    intro i j
    have := congrFun (congrFun hb i) j
    simpa [block33, Matrix.sub_apply, Matrix.smul_apply, vecMulVec_apply, Matrix.one_apply] using this
  have hm' : m 0 ^ 2 + m 1 ^ 2 + m 2 ^ 2 ≤ 1 := by
    simp only [dotProduct, Fin.sum_univ_three] at hm
    nlinarith
  have hsym : ∀ a b, C a b = C b a := by
    intro a b
    by_cases ha : a = 3
    · rw [hz b a (.inr ha), hz a b (.inl ha)]
    · by_cases hb' : b = 3
      · rw [hz b a (.inl hb'), hz a b (.inr hb')]
      · have e1 := hent ⟨a.val, by omega⟩ ⟨b.val, by omega⟩
        have e2 := hent ⟨b.val, by omega⟩ ⟨a.val, by omega⟩
        have e3 : C a b = C (Fin.castSucc ⟨a.val, by omega⟩) (Fin.castSucc ⟨b.val, by omega⟩) := rfl
        have e4 : C b a = C (Fin.castSucc ⟨b.val, by omega⟩) (Fin.castSucc ⟨a.val, by omega⟩) := rfl
        rw [e3, e4, e1, e2]
        simp only [eq_comm]
        ring_nf
  have hsmall : ∀ i j : Fin 3, |C i.castSucc j.castSucc| ≤ 1 := by
    intro i j
    rw [hent, abs_le]
    have h0 := sq_nonneg (m 0)
    have h1 := sq_nonneg (m 1)
    have h2 := sq_nonneg (m 2)
    fin_cases i <;> fin_cases j <;> simp <;> constructor <;>
      nlinarith [sq_nonneg (m 0 + m 1), sq_nonneg (m 0 - m 1), sq_nonneg (m 0 + m 2), sq_nonneg (m 0 - m 2), sq_nonneg (m 1 + m 2), sq_nonneg (m 1 - m 2)]
  have hδ : 0 ≤ δ := (abs_nonneg _).trans (hr.near 0 (by norm_num))
  have hform : ∀ x : Fin 3 → ℝ, (1 / 1000 - 3 * δ) * (x 0 ^ 2 + x 1 ^ 2 + x 2 ^ 2) ≤ x ⬝ᵥ block33 (fun i j => rnd (C i j)) *ᵥ x := by
    intro x
    have hE : ∀ i j : Fin 3, -(δ * ((x i ^ 2 + x j ^ 2) / 2)) ≤ (rnd (C i.castSucc j.castSucc) - C i.castSucc j.castSucc) * (x i * x j) := fun i j => pair_bound _ _ (hr.near _ (hsmall i j))
    have hexp : x ⬝ᵥ block33 (fun i j => rnd (C i j)) *ᵥ x = (x 0 ^ 2 + x 1 ^ 2 + x 2 ^ 2) - 999 / 1000 * (m 0 * x 0 + m 1 * x 1 + m 2 * x 2) ^ 2 +
        ∑ i : Fin 3, ∑ j : Fin 3, (rnd (C i.castSucc j.castSucc) - C i.castSucc j.castSucc) * (x i * x j) := by
      simp only [dotProduct, mulVec, block33, Fin.sum_univ_three]
      have e := hent
      have e00 := e 0 0
      have e01 := e 0 1
      have e02 := e 0 2
      have e10 := e 1 0
      have e11 := e 1 1
      have e12 := e 1 2
      have e20 := e 2 0
      have e21 := e 2 1
      have e22 := e 2 2
      simp at e00 e01 e02 e10 e11 e12 e20 e21 e22
      simp [e00, e01, e02, e10, e11, e12, e20, e21, e22]
      ring
    have hcs : (m 0 * x 0 + m 1 * x 1 + m 2 * x 2) ^ 2 ≤ x 0 ^ 2 + x 1 ^ 2 + x 2 ^ 2 := by
      nlinarith [sq_nonneg (m 0 * x 1 - m 1 * x 0), sq_nonneg (m 0 * x 2 - m 2 * x 0), sq_nonneg (m 1 * x 2 - m 2 * x 1),
        mul_nonneg (sub_nonneg.2 hm') (add_nonneg (add_nonneg (sq_nonneg (x 0)) (sq_nonneg (x 1))) (sq_nonneg (x 2)))]
    rw [hexp]
    simp only [Fin.sum_univ_three]
    have := hE 0 0
    have := hE 0 1
    have := hE 0 2
    have := hE 1 0
    have := hE 1 1
    have := hE 1 2
    have := hE 2 0
    have := hE 2 1
    have := hE 2 2
    linarith
  have hpos : 0 < 1 / 1000 - 3 * δ := by linarith [hr.small]
  refine ⟨⟨?_, fun x => ?_⟩, fun x hx => ?_, hz'⟩
  · ext a b
    show rnd (C b a) = rnd (C a b)
    rw [hsym]
  · rw [form_border (C := fun i j => rnd (C i j)) hz']
    have := hform (head3 x)
    have h2 : 0 ≤ head3 x 0 ^ 2 + head3 x 1 ^ 2 + head3 x 2 ^ 2 := by positivity
    nlinarith
  · have := hform x
    have h2 : 0 < x 0 ^ 2 + x 1 ^ 2 + x 2 ^ 2 := by
      by_contra hn
      apply hx
      have h0 := sq_nonneg (x 0)
      have h1 := sq_nonneg (x 1)
      have h2 := sq_nonneg (x 2)
      funext i
      fin_cases i
      · exact pow_eq_zero_iff two_ne_zero |>.1 (by show x 0 ^ 2 = 0; linarith)
      · exact pow_eq_zero_iff two_ne_zero |>.1 (by show x 1 ^ 2 = 0; linarith)
      · exact pow_eq_zero_iff two_ne_zero |>.1 (by show x 2 ^ 2 = 0; linarith)
    nlinarith [mul_pos hpos h2]

/-- Every covariance of a cloud with local features is that of a disc. -/
theorem features_disc {out : List (Pt ℝ)} {maxD : ℝ} {k : Nat} {c : RCloud} (h : LocalFeatures out maxD k c) {i : Nat} (hi : i < out.length) :
    ∃ n C m, c.normals[i]? = some (some n) ∧ c.covs[i]? = some (some C) ∧ m ⬝ᵥ m ≤ 1 ∧ DiscCov m C := by
  obtain ⟨h1, h2, h3, h4⟩ := h
  obtain ⟨nb, n, C, a1, a2, a3, a4, a5⟩ := h4 i _ (List.getElem?_eq_getElem hi)
  refine ⟨n, C, head3 n, a2, a3, ?_⟩
  rcases Nat.lt_or_ge nb.length 5 with hlt | hge
  · obtain ⟨rfl, rfl⟩ := a4 hlt
    refine ⟨by simp [head3, dotProduct, Fin.sum_univ_three], ?_, fun a b hab => ?_⟩
    · ext a b
      fin_cases a <;> fin_cases b <;> simp [block33, head3, diagonal]
    · rcases hab with rfl | rfl
      · fin_cases b <;> simp [diagonal]
      · fin_cases a <;> simp [diagonal]
  · obtain ⟨_, ps, _, hs, hd⟩ := a5 hge
    exact ⟨le_of_eq hs.1, hd⟩

theorem rounded_cloud {rnd : ℝ → ℝ} {δ : ℝ} (hr : FloatRounding rnd δ) {needs : Needs} {out : List (Pt ℝ)} {maxD : ℝ} {k : Nat} {c : RCloud} (h : LocalFeatures out maxD k c) :
    CloudFeatures needs out (BasicExamplesPcl.roundCovs rnd c) ∧ cloudSites (BasicExamplesPcl.roundCovs rnd c) = (cloudSites c).map (roundedSite rnd) := by
  have hlen : c.points.length = out.length := by rw [h.1, List.length_map]
  refine ⟨⟨h.1, fun _ => (features_regular h).2.1, ⟨?_, fun i hi => ?_⟩, fun i A hA => ?_, fun ho => ?_⟩, ?_⟩
  · simp [BasicExamplesPcl.roundCovs, h.2.2.1, hlen]
  · have hi : i < out.length := hlen ▸ hi
    obtain ⟨n, C, m, _, a2, a3, a4⟩ := features_disc h hi
    obtain ⟨d1, d2, _⟩ := rounded_disc hr a3 a4
    exact ⟨_, by simp only [BasicExamplesPcl.roundCovs, List.getElem?_map, a2]; rfl, d1, d2⟩
  · simp only [BasicExamplesPcl.roundCovs, List.getElem?_map] at hA
    have hi : i < out.length := by
      rw [← h.2.2.1]
      by_contra hn
      rw [List.getElem?_eq_none (by omega)] at hA
      cases hA
    obtain ⟨n, C, m, _, a2, a3, a4⟩ := features_disc h hi
    rw [a2] at hA
    cases hA
    exact (rounded_disc hr a3 a4).2.2
  · subst ho
    rw [features_empty h]
    rfl
  · unfold cloudSites
    rw [List.map_map]
    apply List.map_congr_left
    intro i hi
    have hi : i < out.length := by
      rw [← hlen]
      exact List.mem_range.1 hi
    obtain ⟨n, C, m, a1, a2, a3, a4⟩ := features_disc h hi
    have hc : c.cov i = .ok C := by simp only [Cloud.cov, getSlot, rd, a2]; rfl
    have hc' : (BasicExamplesPcl.roundCovs rnd c).cov i = .ok fun a b => rnd (C a b) := by
      simp only [Cloud.cov, getSlot, rd, BasicExamplesPcl.roundCovs, List.getElem?_map, a2]
      rfl
    simp only [Function.comp, roundedSite, hc, hc', okOr]
    rfl

section Example2

variable {e : Env} (he : EnvMeets e) (hmax : 1 < e.maxD) {rnd : ℝ → ℝ} {δ : ℝ} (hr : FloatRounding rnd δ)

include he hmax hr in
/-- One registration of `example2`. -/
theorem pcl_gicp {y : RegExec} (hy : RunsToEnd y 4) {outT outS : List (Pt ℝ)} {ct cs ct' cs' : RCloud} {t : KdTree.Tree ℝ} (hN : outT.length < 2 ^ 32) (hT : LocalFeatures outT e.maxD 20 ct')
    (hS : LocalFeatures outS e.maxD 20 cs') (t1 : ct.points = ct'.points) (t2 : ct.covs = ct'.covs) (s1 : cs.points = cs'.points) (s2 : cs.covs = cs'.covs) (hTw : ∀ p ∈ outT, p.w = 1) (hSw : ∀ p ∈ outS, p.w = 1)
    (ht : outT ≠ [] → TreeOf e.builder outT t) (hne : outT ≠ []) :
    ∃ res, BasicExamplesPcl.gicp e y (BasicExamplesPcl.roundCovs rnd ct) (BasicExamplesPcl.roundCovs rnd cs) t = .ok res ∧
      PlainGicp ((cloudSites ct').map (roundedSite rnd)) ((cloudSites cs').map (roundedSite rnd)) res := by
  obtain ⟨fT, eT⟩ := rounded_cloud (needs := ⟨false, true⟩) hr hT
  obtain ⟨fS, eS⟩ := rounded_cloud (needs := ⟨false, true⟩) hr hS
  have hsz : (BasicExamplesPcl.roundCovs rnd cs).size = (BasicExamplesPcl.roundCovs rnd cs').size := by
    show cs.points.length = cs'.points.length
    rw [s1]
  obtain ⟨out, h1, h2⟩ := featured_align he (MetricFactor.cov (inv := e.inv)) (t := t) (fun T fs => Exec.omp 4 (y.lin T fs).assign (y.lin T fs).sched (y.lin T fs).comb)
    (fun T fs => Exec.omp 4 (y.err T fs).assign (y.err T fs).sched (y.err T fs).comb) (fun T fs hl => hl ▸ (hy T fs).1) (fun T fs hl => hl ▸ (hy T fs).2) hmax (1 / 10 * Real.pi / 180) (1 / 1000)
    (st := ⟨20, 10, 1 / 1000, 10⟩) (by norm_num) (by norm_num) hN fT fS hTw hSw ht (fun h => absurd h hne) Pose.one (fun h => hne h.1)
  refine ⟨out.1, ?_, ?_⟩
  · have hp : cloudPoints (BasicExamplesPcl.roundCovs rnd ct) = .ok outT := cloudPoints_of _ _ (t1.trans hT.1)
    unfold BasicExamplesPcl.gicp
    rw [hp, ok_bind]
    unfold runMethod
    rw [hsz, gicp_no_normals e.inv (BasicExamplesPcl.roundCovs rnd ct) (BasicExamplesPcl.roundCovs rnd cs) (BasicExamplesPcl.roundCovs rnd ct') (BasicExamplesPcl.roundCovs rnd cs') t1 (by simp only [BasicExamplesPcl.roundCovs, t2]) s1 (by simp only [BasicExamplesPcl.roundCovs, s2])]
    have h1' := h1
    simp only [Registration.default] at h1' ⊢
    rw [show (4 : Int).toNat = 4 from rfl, h1']
    rfl
  · rw [eT, eS] at h2
    exact h2

include he in
/-- The sampled cloud of one file. -/
theorem pcl_block {value : Files.F32 → ℝ} (hone : rnd 1 = 1) {f : List Files.V4} (hf : FileFits value f) (hne : f ≠ []) {blocks : List Nat} {r : Res (List (Pt ℝ))}
    (h : BasicExamplesPcl.sample e rnd blocks (filePoints value f) = some r) :
    ∃ out, r = .ok out ∧ RoundedSample rnd (filePoints value f) out ∧ out ≠ [] ∧ out.length < 2 ^ 32 ∧ ∀ p ∈ out, p.w = 1 := by
  unfold BasicExamplesPcl.sample at h
  obtain ⟨r', h1, rfl⟩ := Option.map_eq_some_iff.1 h
  obtain ⟨raw, rfl, s1, s2⟩ := block_sample he (by simp [filePoints]) (by norm_num) hf.2 h1
  obtain ⟨l1, l2⟩ := block_length s1
  have hfl : (filePoints value f).length = f.length := by simp [filePoints]
  have := hf.1
  refine ⟨roundedPoints rnd raw, rfl, ⟨raw, s1, rfl⟩, ?_, by simp only [roundedPoints, List.length_map]; omega, ?_⟩
  · have := l2 (by simpa [filePoints] using hne)
    simpa [roundedPoints] using this
  · intro p hp
    obtain ⟨q, hq, rfl⟩ := List.mem_map.1 hp
    simp only [s2 q hq, hone]

include he in
/-- The covariances of one cloud. -/
theorem pcl_covariances {x : BasicExamplesPcl.CloudExec} {out : List (Pt ℝ)} (hN : out.length < 2 ^ 32) {r : Res RCloud} (h : BasicExamplesPcl.estimateCovariances e rnd x out = some r) :
    ∃ c c', r = .ok (BasicExamplesPcl.roundCovs rnd c) ∧ LocalFeatures out e.maxD 20 c' ∧ c.points = c'.points ∧ c.covs = c'.covs := by
  unfold BasicExamplesPcl.estimateCovariances at h
  obtain ⟨t, t1, t2, _⟩ := frameTree_ok he hN (x := .sequential) (by simp [frameTree])
  rw [t1, andThen_ok] at h
  obtain ⟨r', h1, rfl⟩ := Option.map_eq_some_iff.1 h
  obtain ⟨c, c1, _, c', c2, c3, c4⟩ := covariances_ok he (x := .sequential) hN t2 (k := 20) (by norm_num) (fun _ _ h => by cases h)
  simp only [covariances] at h1 c1
  split at h1
  · rename_i hch
    have h3 := C49_parallel _ _ _ _ _ _ _ hch _ h1
    rw [Option.some.inj c1] at h3
    cases r' with
    | error f => cases h3
    | ok b =>
      cases h3
      exact ⟨_, c', rfl, c2, c3, c4⟩
  · cases h1

include he hmax hr in
/-- **C95, `example2`.** For every complete execution on clouds with points, the two results are the GICP registrations, in both directions, of the block-wise samples of which the points and the covariances of twenty neighbours
are rounded. -/
theorem C95_example2 {value : Files.F32 → ℝ} {f g : List Files.V4} (hf : FileFits value f) (hg : FileFits value g) (hfn : f ≠ []) (hgn : g ≠ []) {xt xs : BasicExamplesPcl.CloudExec} {y y2 : RegExec}
    (hy : RunsToEnd y 4) (hy2 : RunsToEnd y2 4) {r : Res (Result ℝ × Result ℝ)} (h : BasicExamplesPcl.example2 e rnd xt xs y y2 (filePoints value f) (filePoints value g) = some r) :
    ∃ r1 r2 outT outS tgt src, r = .ok (r1, r2) ∧ RoundedSample rnd (filePoints value f) outT ∧ RoundedSample rnd (filePoints value g) outS ∧ LocalSites outT e.maxD 20 tgt ∧ LocalSites outS e.maxD 20 src ∧
      PlainGicp (tgt.map (roundedSite rnd)) (src.map (roundedSite rnd)) r1 ∧ PlainGicp (src.map (roundedSite rnd)) (tgt.map (roundedSite rnd)) r2 := by
  have step : ∀ {A B : Type} {q : Option (Res A)} {f : A → Option (Res B)} {r : Res B} {P : A → Prop}, (∀ r', q = some r' → ∃ v, r' = .ok v ∧ P v) → andThen q f = some r → ∃ v, P v ∧ f v = some r := by
    intro A B q f r P hq h
    obtain ⟨_, h1, _⟩ | ⟨v, h1, h2⟩ := andThen_some h
    · obtain ⟨_, h0, _⟩ := hq _ h1
      cases h0
    · obtain ⟨_, h0, hp⟩ := hq _ h1
      cases h0
      exact ⟨v, hp, h2⟩
  unfold BasicExamplesPcl.example2 at h
  obtain ⟨outT, ⟨a1, a2, a3, a4⟩, h⟩ := step (fun _ h => pcl_block he hr.one hf hfn h) h
  obtain ⟨outS, ⟨b1, b2, b3, b4⟩, h⟩ := step (fun _ h => pcl_block he hr.one hg hgn h) h
  obtain ⟨ct, ⟨ct0, ct', rfl, c1, c2, c3⟩, h⟩ := step (P := fun v => ∃ c c', v = BasicExamplesPcl.roundCovs rnd c ∧ LocalFeatures outT e.maxD 20 c' ∧ c.points = c'.points ∧ c.covs = c'.covs)
    (fun _ h => by obtain ⟨c, c', h1, h2⟩ := pcl_covariances he a3 h; exact ⟨_, h1, c, c', rfl, h2⟩) h
  obtain ⟨cs, ⟨cs0, cs', rfl, d1, d2, d3⟩, h⟩ := step (P := fun v => ∃ c c', v = BasicExamplesPcl.roundCovs rnd c ∧ LocalFeatures outS e.maxD 20 c' ∧ c.points = c'.points ∧ c.covs = c'.covs)
    (fun _ h => by obtain ⟨c, c', h1, h2⟩ := pcl_covariances he b3 h; exact ⟨_, h1, c, c', rfl, h2⟩) h
  obtain ⟨tt, p1, h⟩ := step (P := fun t => outT ≠ [] → TreeOf e.builder outT t) (fun r' h => by
    obtain ⟨t, t1, t2, _⟩ := frameTree_ok he a3 (x := .parallel xt.tree) (by rw [h]; simp)
    rw [h] at t1
    exact ⟨t, Option.some.inj t1, t2⟩) h
  obtain ⟨ts, p2, h⟩ := step (P := fun t => outS ≠ [] → TreeOf e.builder outS t) (fun r' h => by
    obtain ⟨t, t1, t2, _⟩ := frameTree_ok he b3 (x := .parallel xs.tree) (by rw [h]; simp)
    rw [h] at t1
    exact ⟨t, Option.some.inj t1, t2⟩) h
  obtain ⟨r1, g1, g2⟩ := pcl_gicp he hmax hr hy a3 c1 d1 c2 c3 d2 d3 a4 b4 p1 a2
  obtain ⟨r2, g3, g4⟩ := pcl_gicp he hmax hr hy2 b3 d1 c1 d2 d3 c2 c3 b4 a4 p2 b2
  rw [g1, ok_bind, g3, ok_bind] at h
  exact ⟨r1, r2, outT, outS, _, _, (Option.some.inj h).symm, a1, b1, cloud_sites c1, cloud_sites d1, g2, g4⟩

end Example2

/-! ### the program -/

/-- Points of a file have weight 1. -/
theorem readPly_weight {file : Option (List Files.Byte)} {pts : List Files.V4} (h : Files.readPly file = .ok pts) : ∀ v ∈ pts, v.w = Files.F32.one := by
  unfold Files.readPly at h
  split at h
  · cases h
    simp
  · obtain ⟨a, _, h⟩ := call_of_ok h
    split at h
    · cases h
      simp
    · obtain ⟨_, _, h⟩ := call_of_ok h
      obtain ⟨mem, _, h⟩ := call_of_ok h
      have key : ∀ (l : List Nat) (ps : List Files.V4) (g : Nat → Res Files.V4), (∀ i v, g i = .ok v → v.w = Files.F32.one) → l.mapM g = .ok ps → ∀ v ∈ ps, v.w = Files.F32.one := by
        intro l
        induction l with
        | nil =>
          intro ps g _ h
          cases h
          simp
        | cons i l ih =>
          intro ps g hg h
          rw [List.mapM_cons] at h
          obtain ⟨v, hv, h⟩ := call_of_ok h
          obtain ⟨vs, hvs, h⟩ := call_of_ok h
          cases h
          intro w hw
          rcases List.mem_cons.1 hw with rfl | hw
          · exact hg i _ hv
          · exact ih vs g hg hvs w hw
      refine key _ _ _ (fun i v hv => ?_) h
      obtain ⟨_, _, hv⟩ := call_of_ok hv
      obtain ⟨_, _, hv⟩ := call_of_ok hv
      obtain ⟨_, _, hv⟩ := call_of_ok hv
      cases hv
      rfl

theorem convert_points {value : Files.F32 → ℝ} (hone : value Files.F32.one = 1) {file : Option (List Files.Byte)} {pts : List Files.V4} (h : Files.readPly file = .ok pts) :
    BasicExamplesPcl.convertToPcl value pts = filePoints value pts := by
  unfold BasicExamplesPcl.convertToPcl filePoints
  apply List.map_congr_left
  intro v hv
  rw [readPly_weight h v hv, hone]

/-- **C95, files without points.** The program ends with status 1 if a file yields no point. -/
theorem C95_no_points (e : Env) (value : Files.F32 → ℝ) (rnd : ℝ → ℝ) (n0 : Int) (x : BasicExamplesPcl.Runs) {target source : Option (List Files.Byte)} {t s : List Files.V4} (ht : Files.readPly target = .ok t)
    (hs : Files.readPly source = .ok s) (h : t = [] ∨ s = []) : BasicExamplesPcl.main e value rnd n0 x target source = some (.ok ⟨1, []⟩) := by
  unfold BasicExamplesPcl.main
  rw [ht, hs, andThen_ok, andThen_ok, if_pos (by rcases h with rfl | rfl <;> simp)]

/-- The functions run to their ends on the sampled clouds. -/
def PclProgramRuns (e : Env) (x : BasicExamplesPcl.Runs) : Prop :=
  RunsToEnd x.y 4 ∧ RunsToEnd x.y2 4 ∧ ∀ out : List (Pt ℝ), out.length < 2 ^ 32 → PclRuns e x.pcl out

/-- **C95, the program.** For every complete execution on files with points: if all points of the clouds that `example1` registers have cells of side 1 and the registrations of `example1` stay within the cells, the program ends with
status 0 and four results, of the two registrations of `example1` and the two of `example2`; otherwise a coordinate overflows. -/
theorem C95_program {e : Env} (he : EnvMeets e) (hmax : 1 < e.maxD) {rnd : ℝ → ℝ} {δ : ℝ} (hr : FloatRounding rnd δ) {value : Files.F32 → ℝ} (hone : value Files.F32.one = 1) (n0 : Int) {x : BasicExamplesPcl.Runs}
    (hx : PclProgramRuns e x) {target source : Option (List Files.Byte)} {t s : List Files.V4} (ht : Files.readPly target = .ok t) (hs : Files.readPly source = .ok s) (htn : t ≠ []) (hsn : s ≠ [])
    (hT : FileFits value t) (hS : FileFits value s) {r : Res Ended} (h : BasicExamplesPcl.main e value rnd n0 x target source = some r) :
    ∃ outT outS tgt src, RoundedSample rnd (filePoints value t) outT ∧ RoundedSample rnd (filePoints value s) outS ∧ LocalSites outT e.maxD 20 tgt ∧ LocalSites outS e.maxD 20 src ∧
      (∀ f, r = .error f → f = .intOverflow ∧ ¬ ((∀ a ∈ tgt ++ src, HasCell 1 a.pos) ∧ ∃ r1 r2, PclVgicp n0.toNat tgt src r1 ∧ PclVgicp n0.toNat src tgt r2)) ∧
      ∀ v, r = .ok v → v.code = 0 ∧ (∀ a ∈ tgt ++ src, HasCell 1 a.pos) ∧ ∃ r1 r2 r3 r4, v.results = [r1, r2, r3, r4] ∧ PclVgicp n0.toNat tgt src r1 ∧ PclVgicp n0.toNat src tgt r2 ∧
        ∃ outT' outS' tgt' src', RoundedSample rnd (filePoints value t) outT' ∧ RoundedSample rnd (filePoints value s) outS' ∧ LocalSites outT' e.maxD 20 tgt' ∧ LocalSites outS' e.maxD 20 src' ∧
          PlainGicp (tgt'.map (roundedSite rnd)) (src'.map (roundedSite rnd)) r3 ∧ PlainGicp (src'.map (roundedSite rnd)) (tgt'.map (roundedSite rnd)) r4 := by
  obtain ⟨hy, hy2, hp⟩ := hx
  unfold BasicExamplesPcl.main at h
  rw [ht, hs, andThen_ok, andThen_ok, if_neg (by simp [htn, hsn]), convert_points hone ht, convert_points hone hs] at h
  obtain ⟨_, h1, _⟩ | ⟨outT, h1, h⟩ := andThen_some h
  · obtain ⟨_, h0, _⟩ := pcl_block he hr.one hT htn h1
    cases h0
  obtain ⟨_, h2, _⟩ | ⟨outS, h2, h⟩ := andThen_some h
  · obtain ⟨_, h0, _⟩ := pcl_block he hr.one hS hsn h2
    cases h0
  obtain ⟨_, h0, a1, a2, a3, a4⟩ := pcl_block he hr.one hT htn h1
  cases h0
  obtain ⟨_, h0, b1, b2, b3, b4⟩ := pcl_block he hr.one hS hsn h2
  cases h0
  obtain ⟨tgt, src, c1, c2, c3, c4⟩ := C95_example1 he hmax n0 (x := x.pcl) ⟨a2, a3, a4, hp _ a3⟩ ⟨b2, b3, b4, hp _ b3⟩
  refine ⟨outT, outS, tgt, src, a1, b1, c1, c2, ?_⟩
  obtain ⟨f, h3, rfl⟩ | ⟨rs, h3, h⟩ := andThen_some h
  · rw [Option.some.injEq] at h3
    refine ⟨fun f' hf => ?_, fun v hv => (by cases hv)⟩
    cases hf
    refine ⟨c3 f h3, ?_⟩
    rintro ⟨d1, r1, r2, d2, d3⟩
    rw [(c4 _).2 ⟨d1, r1, r2, rfl, d2, d3⟩] at h3
    cases h3
  · rw [Option.some.injEq] at h3
    obtain ⟨d1, r1, r2, rfl, d2, d3⟩ := (c4 rs).1 h3
    obtain ⟨f, h4, _⟩ | ⟨q, h4, h⟩ := andThen_some h
    · obtain ⟨_, _, _, _, _, _, h0, _⟩ := C95_example2 he hmax hr hT hS htn hsn hy hy2 h4
      cases h0
    · obtain ⟨r3, r4, oT, oS, tg, sr, h0, g1, g2, g3, g4, g5, g6⟩ := C95_example2 he hmax hr hT hS htn hsn hy hy2 h4
      cases h0
      cases h
      refine ⟨fun f hf => (by cases hf), fun v hv => ?_⟩
      cases hv
      exact ⟨rfl, d1, r1, r2, r3, r4, rfl, d2, d3, oT, oS, tg, sr, g1, g2, g3, g4, g5, g6⟩

/-! ### complete executions exist -/

/-- Rounding to multiples of `2 ^ -24` as float does between 1/2 and 1, ties upwards. -/
theorem grid_rounding : FloatRounding (fun x => (⌊x * 2 ^ 24 + 1 / 2⌋ : ℝ) / 2 ^ 24) (1 / 2 ^ 25) := by
  refine ⟨?_, ?_, fun x _ => ?_, by norm_num⟩
  · have : ⌊(0 : ℝ) * 2 ^ 24 + 1 / 2⌋ = 0 := by rw [Int.floor_eq_iff]; norm_num
    simp only [this]
    norm_num
  · have : ⌊(1 : ℝ) * 2 ^ 24 + 1 / 2⌋ = 2 ^ 24 := by rw [Int.floor_eq_iff]; norm_num
    simp only [this]
    norm_num
  · have h1 := Int.floor_le (x * 2 ^ 24 + 1 / 2)
    have h2 := Int.lt_floor_add_one (x * 2 ^ 24 + 1 / 2)
    rw [abs_le]
    constructor
    · rw [le_sub_iff_add_le, le_div_iff₀ (by norm_num)]
      nlinarith
    · rw [sub_le_iff_le_add, div_le_iff₀ (by norm_num)]
      nlinarith

/-- **C95 is not vacuous**: the program has complete executions on files with points. -/
theorem C95_executes {e : Env} (he : EnvMeets e) {rnd : ℝ → ℝ} (hr1 : rnd 1 = 1) {value : Files.F32 → ℝ} (hone : value Files.F32.one = 1) (n0 : Int) {target source : Option (List Files.Byte)} {t s : List Files.V4}
    (ht : Files.readPly target = .ok t) (hs : Files.readPly source = .ok s) (htn : t ≠ []) (hsn : s ≠ []) (hT : FileFits value t) (hS : FileFits value s) :
    ∃ x r, PclProgramRuns e x ∧ BasicExamplesPcl.main e value rnd n0 x target source = some r := by
  obtain ⟨y, hy⟩ := regExec_exists 4 (by norm_num)
  have key : ∀ {f : List Files.V4}, FileFits value f → f ≠ [] → ∃ blocks out, BasicExamplesPcl.sample e rnd blocks (filePoints value f) = some (.ok out) ∧ out.length < 2 ^ 32 := by
    intro f hf hne
    have hw : ∀ p ∈ filePoints value f, p.w = 1 := by simp [filePoints]
    have hne' : filePoints value f ≠ [] := by simpa [filePoints] using hne
    have hs : ∃ sched r, voxelgridSamplingPar e.sortOmp ompCut sched (filePoints value f) (1 / 4) = some r := by
      obtain ⟨hp, hs⟩ := he.sortOmp (cpOf (1 / 4) (filePoints value f))
      obtain ⟨hf', hb⟩ := ompCut_isCut (e.sortOmp (cpOf (1 / 4) (filePoints value f)))
      obtain ⟨subs, h2, _⟩ := parStart_eq hf' hb hp hs hw
      obtain ⟨js, out, h⟩ := C24_every_schedule_finishes he.sortOmp ompCut_isCut (by norm_num) hf.2 hw hne' [] (coordPt_eq hf.2) h2 rfl
      exact ⟨_, _, h⟩
    obtain ⟨sched, r, hs⟩ := hs
    have h : BasicExamplesPcl.sample e rnd sched (filePoints value f) = some (r.map (List.map (roundPt rnd))) := by
      unfold BasicExamplesPcl.sample
      rw [hs]
      rfl
    obtain ⟨out, h0, _, _, h1, _⟩ := pcl_block he hr1 hf hne h
    exact ⟨sched, out, by rw [h, h0], h1⟩
  obtain ⟨bt, outT, t1, t2⟩ := key hT htn
  obtain ⟨bs, outS, s1, s2⟩ := key hS hsn
  obtain ⟨schedT, chT, fT, lT, eT, ⟨gT1, gT2, _⟩, _⟩ := frameRuns_exists he t2
  obtain ⟨schedS, chS, fS, lS, eS, ⟨gS1, gS2, _⟩, _⟩ := frameRuns_exists he s2
  refine ⟨⟨bt, bs, pclSerial, ⟨bt, chT, fT, schedT⟩, ⟨bs, chS, fS, schedS⟩, y, y⟩, ?_⟩
  suffices h : ∃ r, BasicExamplesPcl.main e value rnd n0 ⟨bt, bs, pclSerial, ⟨bt, chT, fT, schedT⟩, ⟨bs, chS, fS, schedS⟩, y, y⟩ target source = some r by
    obtain ⟨r, h⟩ := h
    exact ⟨r, ⟨hy, hy, fun _ _ => ⟨by simp [pclSerial, frameTree], fun _ _ h => (by cases h), fun _ _ _ => ⟨trivial, trivial⟩⟩⟩, h⟩
  have hcov : ∀ {x : BasicExamplesPcl.CloudExec} {out : List (Pt ℝ)}, out.length < 2 ^ 32 → (∀ chunks sched, LoopExec.parallel x.chunks x.sched = .parallel chunks sched →
      chunks.flatten.Perm (List.range out.length) ∧ parOrder sched (chunks.map (fun c => c.flatMap covarianceSetter.acts)) ≠ none) → ∃ r, BasicExamplesPcl.estimateCovariances e rnd x out = some r := by
    intro x out hN hx
    obtain ⟨t, t1, t2, _⟩ := frameTree_ok he hN (x := .sequential) (by simp [frameTree])
    obtain ⟨c, c1, _⟩ := covariances_ok he hN t2 (k := 20) (by norm_num) hx
    unfold BasicExamplesPcl.estimateCovariances
    rw [t1, andThen_ok, c1]
    exact ⟨_, rfl⟩
  have hex : ∃ r, BasicExamplesPcl.example2 e rnd ⟨bt, chT, fT, schedT⟩ ⟨bs, chS, fS, schedS⟩ y y (filePoints value t) (filePoints value s) = some r := by
    unfold BasicExamplesPcl.example2
    obtain ⟨_, hc1⟩ := hcov (x := ⟨bt, chT, fT, schedT⟩) t2 gT2
    obtain ⟨_, hc2⟩ := hcov (x := ⟨bs, chS, fS, schedS⟩) s2 gS2
    obtain ⟨tt, ht1⟩ := Option.ne_none_iff_exists'.1 gT1
    obtain ⟨ts, hs1⟩ := Option.ne_none_iff_exists'.1 gS1
    rw [t1, s1, andThen_ok, andThen_ok]
    exact andThen_defined hc1 fun _ _ => andThen_defined hc2 fun _ _ => andThen_defined ht1 fun _ _ => andThen_defined hs1 fun _ _ => ⟨_, rfl⟩
  obtain ⟨r2, hr2⟩ := hex
  unfold BasicExamplesPcl.main
  rw [ht, hs, andThen_ok, andThen_ok, if_neg (by simp [htn, hsn]), convert_points hone ht, convert_points hone hs]
  simp only [t1, s1, andThen_ok]
  exact andThen_defined rfl fun _ _ => andThen_defined hr2 fun _ _ => ⟨_, rfl⟩

/-- `example1` on a point at the origin and a point at a distance of 100: there are two results. -/
example : ∃ (e : Env) (r1 r2 : Result ℝ), EnvMeets e ∧ BasicExamplesPcl.example1 e pclSerial 10 [⟨0, 0, 0, 1⟩] [⟨100, 0, 0, 1⟩] = .ok [r1, r2] ∧ r1.converged = true ∧ r1.numInliers = 0 := by
  obtain ⟨e, he, hm, _⟩ := env_exists 1000 (by norm_num) (0, 0)
  have hframe : ∀ p : Pt ℝ, p.w = 1 → PclFrame e pclSerial [p] := fun p hp =>
    ⟨by simp, by simp, by simpa using hp, ⟨by simp [pclSerial, frameTree], fun _ _ h => (by cases h), fun _ _ _ => ⟨trivial, trivial⟩⟩⟩
  obtain ⟨tgt, src, s1, s2, _, hiff⟩ := C95_example1 he (by rw [hm]; norm_num) 10 (hframe ⟨0, 0, 0, 1⟩ rfl) (hframe ⟨100, 0, 0, 1⟩ rfl)
  have t1 : ∀ t ∈ tgt, t.pos = ![0, 0, 0] := by
    intro t ht
    have : t.pos ∈ [(⟨0, 0, 0, 1⟩ : Pt ℝ)].map xyz := s1.1 ▸ List.mem_map_of_mem ht
    simpa [xyz] using this
  have t2 : ∀ t ∈ src, t.pos = ![100, 0, 0] := by
    intro t ht
    have : t.pos ∈ [(⟨100, 0, 0, 1⟩ : Pt ℝ)].map xyz := s2.1 ▸ List.mem_map_of_mem ht
    simpa [xyz] using this
  have hcell : ∀ x : ℝ, x = 0 ∨ x = 100 → HasCell 1 ![x, 0, 0] := by
    rintro x (rfl | rfl)
    · refine ⟨fun i => ?_, by norm_num, by norm_num⟩
      fin_cases i <;> norm_num
    · refine ⟨fun i => ?_, by norm_num, by norm_num⟩
      fin_cases i <;> norm_num
  have idle : ∀ (a b : ℝ) (A B : List Site), (∀ t ∈ A, t.pos = ![a, 0, 0]) → (∀ t ∈ B, t.pos = ![b, 0, 0]) → (a = 0 ∧ b = 100 ∨ a = 100 ∧ b = 0) →
      PclVgicp 10 A B ⟨Pose.one.mul (se3Exp 0), true, 0, 0, 0, 0, 0⟩ := by
    intro a b A B hA hB hab
    refine idle_descent ?_ (by norm_num) (by norm_num) (by norm_num) 9
    intro t ht
    have hmv : move Pose.one t.pos = ![b, 0, 0] := by
      rw [hB t ht]
      simp [move, Pose.one]
    rw [hmv]
    refine ⟨hcell b (by rcases hab with ⟨_, h⟩ | ⟨_, h⟩ <;> simp [h]), fun u hu => absurd ?_ hu.1⟩
    unfold cellSites
    rw [List.filter_eq_nil_iff]
    intro s hs
    rw [hA s hs]
    rcases hab with ⟨rfl, rfl⟩ | ⟨rfl, rfl⟩ <;> simp [spaceCell]
  refine ⟨e, _, _, he, (hiff _).2 ⟨fun a ha => ?_, _, _, rfl, idle 0 100 tgt src t1 t2 (.inl ⟨rfl, rfl⟩), idle 100 0 src tgt t2 t1 (.inr ⟨rfl, rfl⟩)⟩, rfl, rfl⟩
  rcases List.mem_append.1 ha with ha | ha
  · rw [t1 a ha]
    exact hcell 0 (.inl rfl)
  · rw [t2 a ha]
    exact hcell 100 (.inr rfl)

end Verif.Props
