import Verif.Proofs.Pipeline
import Verif.Props.Downsampling
import Verif.Props.Optimizer
import Verif.Proofs.NthInstance

/-! C59: the preprocessing of `registration_helper.cpp`, from points to a cloud with features and a tree. -/

set_option linter.unusedSectionVars false
set_option linter.unusedSimpArgs false

namespace Verif.Props

open Matrix Verif Verif.KdTree Verif.PointCloud Verif.Features Verif.RegMem Verif.Pipeline Verif.Spec Verif.Factors Verif.Proofs Verif.Downsample

section Prep

variable {e : Env} (he : EnvMeets e)

theorem resize_points (c : RCloud) : (c.resize c.size).points = c.points := (resize_self c).1

include he in
/-- The feature estimation on a down-sampled cloud is defined. -/
theorem features_defined {out : List (Pt ℝ)} (hN : out.length < 2 ^ 32) {t : KdTree.Tree ℝ} (ht : out ≠ [] → TreeOf e.builder out t) {k : Int} (hk : 1 ≤ k) :
    ∃ c, estimate normalCovarianceSetter e.eig (fun _ => .ok (kdKnn e t)) k (sampledCloud out) = .ok c := by
  apply estimate_defined (knn := kdKnn e t) rfl
  intro i hi
  rw [sampled_size] at hi
  have hne : out ≠ [] := by rintro rfl; simp at hi
  have hp : ((sampledCloud out).resize (sampledCloud out).size).points[i]? = some (some (ofPt out[i])) := by
    rw [resize_points, sampled_get, List.getElem?_eq_getElem hi]
    rfl
  obtain ⟨nb, h1, h2, _⟩ := kdKnn_ok he hne hN (ht hne) (k := k.toNat) (by omega) (ofPt out[i])
  refine localFrame_defined (by omega) hp (by rw [resize_points]; exact h1) ?_
  intro j hj
  obtain ⟨c, hc, rfl⟩ := List.mem_map.1 hj
  obtain ⟨⟨p, hp, _⟩, _⟩ := h2.genuine c hc
  exact ⟨ofPt p, by rw [resize_points, sampled_get, hp]; rfl⟩

theorem map_some_inj {α : Type} {a b : List α} (h : a.map (fun q => some (some q)) = b.map (fun q => some (some q))) : a = b :=
  List.map_injective_iff.2 (fun x y hxy => by simpa using hxy) h

include he in
/-- What the estimation writes. -/
theorem features_values {out : List (Pt ℝ)} (hN : out.length < 2 ^ 32) {t : KdTree.Tree ℝ} (ht : out ≠ [] → TreeOf e.builder out t) {k : Int} (hk : 1 ≤ k) {c : RCloud}
    (h : estimate normalCovarianceSetter e.eig (fun _ => .ok (kdKnn e t)) k (sampledCloud out) = .ok c) : LocalFeatures out e.maxD k.toNat c := by
  have hpts := (C49_points normalCovarianceSetter e.eig _ k _ c).1 h
  obtain ⟨hnl, knn, hk1, hn⟩ := C47_normals normalCovarianceSetter rfl e.eig _ k _ c h
  obtain ⟨knn', hk2, hc⟩ := C48_covariances normalCovarianceSetter rfl e.eig _ k _ c h
  cases hk1
  cases hk2
  rw [sampled_size] at hnl hn hc
  have hcl : c.covs.length = out.length := by
    obtain ⟨_, _, _, h3⟩ := estimate_values _ _ _ _ _ _ h
    rw [sampled_size] at h3
    apply le_antisymm
    · have := h3 out.length
      rw [if_neg (lt_irrefl _)] at this
      exact List.getElem?_eq_none_iff.1 this.2
    · by_contra hlt
      have := h3 c.covs.length
      rw [if_pos (by omega)] at this
      obtain ⟨_, _, _, _, _, h4⟩ := this
      rw [List.getElem?_eq_none (le_refl _)] at h4
      simp [normalCovarianceSetter] at h4
  refine ⟨hpts, hnl, hcl, fun i p hp => ?_⟩
  have hi : i < out.length := (List.getElem?_eq_some_iff.1 hp).1
  have hne : out ≠ [] := by rintro rfl; simp at hi
  obtain ⟨v, idx, nrm, n1, n2, n3, n4, n5⟩ := hn i hi
  obtain ⟨v', idx', C, c1, c2, c3, c4, c5⟩ := hc i hi
  have hv : v = ofPt p := by
    rw [sampled_get, hp] at n1
    simpa using n1.symm
  have hv' : v' = ofPt p := by
    rw [sampled_get, hp] at c1
    simpa using c1.symm
  subst hv hv'
  rw [n2] at c2
  cases c2
  obtain ⟨nb, h1, h2, h3⟩ := kdKnn_ok he hne hN (ht hne) (k := k.toNat) (by omega) (ofPt p)
  rw [n2] at h1
  cases h1
  rw [toPt_ofPt] at h2
  simp only [List.length_map] at n4 n5 c4 c5
  refine ⟨nb, nrm, C, ⟨h2, h3⟩, n3, c3, fun hl => ⟨n4 hl, c4 hl⟩, fun hl => ?_⟩
  obtain ⟨ps, e1, hE⟩ := n5 hl
  obtain ⟨ps', e1', hpsd, hC⟩ := c5 hl
  rw [e1] at e1'
  have := map_some_inj e1'
  subst this
  obtain ⟨g1, g2, g3, g4, g5⟩ := hE (he.eig _ hpsd)
  obtain ⟨_, b2, b3⟩ := hC _ rfl
  obtain ⟨_, _, b4, _⟩ := b3 (he.eig _ hpsd).1
  refine ⟨g1, ps.map toPt, ?_, ?_, ?_, b2⟩
  · have := congrArg (List.map (fun o : Option (Option V4) => o.bind (fun o => o.map toPt))) e1
    rw [List.map_map, List.map_map, List.map_map] at this
    rw [List.map_map]
    refine Eq.trans ?_ (this.trans ?_)
    · apply List.map_congr_left
      intro a _
      simp only [Function.comp, sampled_get]
      cases out[a.1]? <;> simp [toPt_ofPt]
    · rfl
  · have hps : (ps.map toPt).map xyz = ps.map head3 := by
      rw [List.map_map]
      apply List.map_congr_left
      intro a _
      funext j
      fin_cases j <;> rfl
    have hx : xyz p = head3 (ofPt p) := by
      funext j
      fin_cases j <;> rfl
    rw [hps]
    refine ⟨?_, ?_, g5⟩
    · simp only [dotProduct, Fin.sum_univ_four, Fin.sum_univ_three, g1] at g2 ⊢
      simpa [head3] using g2
    · rw [hx]
      simp only [dotProduct, Fin.sum_univ_four, Fin.sum_univ_three, g1] at g3 ⊢
      simpa [head3] using g3
  · rw [b4]
    rcases g4 with g4 | g4 <;> rw [g4]
    congr 2
    ext a b
    simp [vecMulVec_apply]

/-- The normals and covariances are all set, and the covariances are those a GICP factor needs. -/
theorem features_regular {out : List (Pt ℝ)} {maxD : ℝ} {k : Nat} {c : RCloud} (h : LocalFeatures out maxD k c) : PointsSet c ∧ NormalsSet c ∧ CovsRegular c := by
  obtain ⟨h1, h2, h3, h4⟩ := h
  have hl : c.points.length = out.length := by rw [h1, List.length_map]
  refine ⟨?_, ?_, by rw [h3, hl], ?_⟩
  · intro i hi
    rw [hl] at hi
    exact ⟨_, by rw [h1, List.getElem?_map, List.getElem?_eq_getElem hi]; rfl⟩
  · intro i hi
    rw [hl] at hi
    obtain ⟨_, n, _, _, hn, _⟩ := h4 i _ (List.getElem?_eq_getElem hi)
    exact ⟨n, hn⟩
  · intro i hi
    rw [hl] at hi
    obtain ⟨nb, n, C, _, _, hC, hlt, hge⟩ := h4 i _ (List.getElem?_eq_getElem hi)
    refine ⟨C, hC, ?_⟩
    have key : ∀ n3 : Fin 3 → ℝ, n3 ⬝ᵥ n3 ≤ 1 → DiscCov n3 C → SymPSD C ∧ ∀ x, x ≠ 0 → 0 < x ⬝ᵥ block33 C *ᵥ x := by
      intro m hm ⟨hb, hz⟩
      have hform : ∀ x : Fin 3 → ℝ, x ⬝ᵥ block33 C *ᵥ x = x ⬝ᵥ x - 999 / 1000 * (m ⬝ᵥ x) ^ 2 := by
        intro x
        rw [hb]
        simp only [sub_mulVec, one_mulVec, smul_mulVec, dotProduct_sub, dotProduct_smul, smul_eq_mul]
        congr 2
        simp only [dotProduct, mulVec, vecMulVec_apply, Fin.sum_univ_three]
        ring
      have hcs : ∀ x : Fin 3 → ℝ, (m ⬝ᵥ x) ^ 2 ≤ x ⬝ᵥ x := by
        intro x
        simp only [dotProduct, Fin.sum_univ_three] at hm ⊢
        nlinarith [sq_nonneg (m 0 * x 1 - m 1 * x 0), sq_nonneg (m 0 * x 2 - m 2 * x 0), sq_nonneg (m 1 * x 2 - m 2 * x 1),
          mul_nonneg (sub_nonneg.2 hm) (add_nonneg (add_nonneg (mul_self_nonneg (x 0)) (mul_self_nonneg (x 1))) (mul_self_nonneg (x 2)))]
      have hnn : ∀ x : Fin 3 → ℝ, 0 ≤ x ⬝ᵥ x := by
        intro x
        simp only [dotProduct, Fin.sum_univ_three]
        nlinarith [mul_self_nonneg (x 0), mul_self_nonneg (x 1), mul_self_nonneg (x 2)]
      refine ⟨⟨?_, fun x => ?_⟩, fun x hx => ?_⟩
      · ext a b
        rw [transpose_apply]
        by_cases ha : a = 3
        · rw [hz b a (.inr ha), hz a b (.inl ha)]
        · by_cases hb' : b = 3
          · rw [hz b a (.inl hb'), hz a b (.inr hb')]
          · have e1 := congrFun (congrFun hb ⟨a.val, by omega⟩) ⟨b.val, by omega⟩
            have e2 := congrFun (congrFun hb ⟨b.val, by omega⟩) ⟨a.val, by omega⟩
            have e3 : C a b = block33 C ⟨a.val, by omega⟩ ⟨b.val, by omega⟩ := rfl
            have e4 : C b a = block33 C ⟨b.val, by omega⟩ ⟨a.val, by omega⟩ := rfl
            rw [e3, e4, e1, e2]
            simp only [Matrix.sub_apply, Matrix.smul_apply, vecMulVec_apply, Matrix.one_apply, smul_eq_mul, eq_comm]
            ring_nf
      · rw [form_border hz, hform]
        have := hcs (head3 x)
        have := hnn (head3 x)
        linarith
      · rw [hform]
        have h1 := hcs x
        have h2 : 0 < x ⬝ᵥ x := by
          rcases (hnn x).lt_or_eq with h | h
          · exact h
          · exact absurd (dotProduct_self_eq_zero.1 h.symm) hx
        linarith
    by_cases hnb : nb.length < 5
    · obtain ⟨_, rfl⟩ := hlt hnb
      refine key 0 (by simp) ⟨?_, ?_⟩
      · ext a b
        fin_cases a <;> fin_cases b <;> simp [block33, diagonal, Matrix.one_apply]
      · intro a b hab
        fin_cases a <;> fin_cases b <;> simp_all [diagonal]
    · obtain ⟨_, ps, _, ⟨hu, _⟩, hd⟩ := hge (by omega)
      exact key _ hu.le hd

theorem length_le_flatten {α : Type} : ∀ G : List (List α), (∀ g ∈ G, g ≠ []) → G.length ≤ G.flatten.length
  | [], _ => by simp
  | g :: G, h => by
    have h1 := length_le_flatten G (fun g hg => h g (by simp [hg]))
    have h2 := List.length_pos_of_ne_nil (h g (by simp))
    simp only [List.flatten_cons, List.length_append, List.length_cons]
    omega

/-- Both samplers give at most as many points as they get, and at least one if they get one. -/
theorem block_length {leaf : ℝ} {pts out : List (Pt ℝ)} (h : BlockSample leaf pts out) : out.length ≤ pts.length ∧ (pts ≠ [] → out ≠ []) := by
  classical
  by_cases hne : pts = []
  · rw [h.1 hne, hne]
    simp
  · obtain ⟨G, E, hp, hG, hg, hE, hc⟩ := h.2 hne
    have h1 := length_le_flatten G (fun g hgG => (hg g hgG).1)
    have h2 := hG.length_eq
    have h3 := hp.length_eq
    have h4 := List.length_filter_le (fun p => decide (GridInRange leaf p)) pts
    have h5 := List.length_pos_of_ne_nil hne
    simp only [List.length_append, List.length_map] at h3
    refine ⟨by omega, fun _ h0 => ?_⟩
    rw [h0] at h3
    simp only [List.length_nil] at h3
    have hG0 : G = [] := List.length_eq_zero_iff.1 (by omega)
    rw [hG0] at h2
    simp only [List.flatten_nil, List.length_nil] at h2
    omega

theorem centroid_w {ps : List (Pt ℝ)} (hne : ps ≠ []) (h : ∀ p ∈ ps, p.w = 1) : (centroid ps).w = 1 := by
  have hl : (ps.length : ℝ) ≠ 0 := by exact_mod_cast (List.length_pos_of_ne_nil hne).ne'
  have hs : ∀ l : List (Pt ℝ), (∀ p ∈ l, p.w = 1) → (l.map Pt.w).sum = l.length := by
    intro l
    induction l with
    | nil => intro _; simp
    | cons a l ih =>
      intro h
      rw [List.map_cons, List.sum_cons, ih (fun p hp => h p (by simp [hp])), h a (by simp)]
      push_cast [List.length_cons]
      ring
  simp [centroid, hs ps h, hl]

variable {points : RCloud} {pts : List (Pt ℝ)} (hpts : points.points = pts.map (fun p => some (ofPt p))) (hw : ∀ p ∈ pts, p.w = 1) (hN : pts.length < 2 ^ 32) {leaf : ℝ} (hleaf : leaf ≠ 0)
  (hkey : ∀ p ∈ pts, KeyDefined leaf p) {k : Int} (hk : 1 ≤ k) (threads : Int)

include he in
theorem tree_defined {out : List (Pt ℝ)} (hN : out.length < 2 ^ 32) :
    ∃ t, KdTree.construct (exactOps ℝ) e.builder (out.length + 1) out = .ok t ∧ (out ≠ [] → TreeOf e.builder out t) ∧ (out = [] → t = ⟨[], [], none⟩) := by
  by_cases hne : out = []
  · subst hne
    exact ⟨_, rfl, fun h => absurd rfl h, fun _ => rfl⟩
  · obtain ⟨t, kt, h1, _⟩ := construct_built (exactOps ℝ) e.builder KdTree.Proj.UnitBounded out hne hN he.nth (builder_find he) builder_leaf (out.length + 1) (by omega)
    exact ⟨t, h1, fun _ => .sequential _ (by omega) h1, fun h => absurd h hne⟩

include he hw hleaf hkey in
theorem serial_sample : ∃ out, voxelgridSampling e.sort pts leaf = .ok out ∧ SerialSample leaf pts out ∧ out.length ≤ pts.length ∧ (pts ≠ [] → out ≠ []) ∧ ∀ p ∈ out, p.w = 1 := by
  classical
  by_cases hne : pts = []
  · subst hne
    exact ⟨[], rfl, ⟨fun _ => rfl, by rintro ⟨p, h, _⟩; simp at h, fun h => absurd rfl h⟩, le_refl _, fun h => absurd rfl h, by simp⟩
  · have hlen : ∀ out, voxelgridSampling e.sort pts leaf = .ok out → out.length ≤ pts.length := by
      intro out h
      unfold voxelgridSampling at h
      rw [if_neg (fun h0 => hne (List.length_eq_zero_iff.1 h0)), if_neg hleaf] at h
      cases h1 : coordPt (1 / leaf) pts with
      | error f => rw [h1, err_bind] at h; cases h
      | ok cp =>
        rw [h1, ok_bind] at h
        cases h2 : blockPoints pts (e.sort cp) with
        | error f => rw [h2, err_bind] at h; cases h
        | ok o =>
          rw [h2, ok_bind] at h
          split at h
          · cases h; assumption
          · cases h
    by_cases hr : ∃ p ∈ pts, GridInRange leaf p
    · obtain ⟨cells, h1, h2, h3⟩ := C22_one_centroid_per_cell_partial he.sort hleaf hkey hw hr
      refine ⟨_, h3, ⟨fun h => absurd h hne, fun _ => ⟨cells, h1, h2, rfl⟩, fun _ h => ?_⟩, hlen _ h3, fun _ h0 => ?_, ?_⟩
      · obtain ⟨p, hp, hpr⟩ := hr
        exact absurd hpr (h p hp)
      · obtain ⟨p, hp, hpr⟩ := hr
        have := (h2 _).2 ⟨p, hp, hpr, rfl⟩
        rw [List.map_eq_nil_iff.1 h0] at this
        simp at this
      · intro p hp
        obtain ⟨c, hc, rfl⟩ := List.mem_map.1 hp
        obtain ⟨q, hq, hqr, hqc⟩ := (h2 c).1 hc
        refine centroid_w (List.ne_nil_of_mem (a := q) (List.mem_filter.2 ⟨hq, by simp [hqr, hqc]⟩)) fun p hp => hw p (List.mem_filter.1 hp).1
    · have hr' : ∀ p ∈ pts, ¬ GridInRange leaf p := fun p hp h => hr ⟨p, hp, h⟩
      obtain ⟨p, hp, _, h3⟩ := C22_all_out_of_range_emits_point he.sort hleaf hkey hw hne hr'
      refine ⟨_, h3, ⟨fun h => absurd h hne, fun h => absurd h hr, fun _ _ => ⟨p, hp, rfl⟩⟩, hlen _ h3, fun _ h0 => by simp at h0, ?_⟩
      intro q hq
      rw [List.mem_singleton.1 hq]
      exact hw p hp

include he hw hleaf hkey in
theorem block_sample {sched : List Nat} {r : Res (List (Pt ℝ))} (h : voxelgridSamplingPar e.sortOmp ompCut sched pts leaf = some r) :
    ∃ out, r = .ok out ∧ BlockSample leaf pts out ∧ ∀ p ∈ out, p.w = 1 := by
  classical
  by_cases hne : pts = []
  · subst hne
    simp only [voxelgridSamplingPar, List.length_nil, if_true, Option.some.injEq] at h
    exact ⟨[], h.symm, ⟨fun _ => rfl, fun h => absurd rfl h⟩, by simp⟩
  · obtain ⟨G, E, out, h1, h2, h3, h4, h5, h6⟩ := C25_omp_stray_points he.sortOmp hleaf hkey hw hne h
    have hd : (fun p => decide (GridInRange leaf p)) = (fun p => @decide (GridInRange leaf p) (Classical.propDecidable _)) := by
      funext p
      congr
    refine ⟨out, h1, ⟨fun h => absurd h hne, fun _ => ⟨G, E, h2, ?_, h4, h5, ?_⟩⟩, ?_⟩
    · convert h3
    · convert h6
    · intro p hp
      rcases List.mem_append.1 (h2.mem_iff.1 hp) with hp | hp
      · obtain ⟨g, hg, rfl⟩ := List.mem_map.1 hp
        refine centroid_w (h4 g hg).1 fun q hq => hw q ?_
        exact (List.mem_filter.1 (h3.mem_iff.1 (List.mem_flatten.2 ⟨g, hg, hq⟩))).1
      · exact hw p (h5 p hp).1

include he hpts hw hN hleaf hkey hk in
/-- `C59_preprocess` with the call of the sampler that emitted the points. -/
theorem preprocess_core {x : PrepExec} {r : Res (RCloud × KdTree.Tree ℝ)} (h : preprocess e x points leaf k threads = some r) :
    ∃ out c t, r = .ok (c, t) ∧ (if threads = 1 then SerialSample leaf pts out else BlockSample leaf pts out) ∧ LocalFeatures out e.maxD k.toNat c ∧
      (out ≠ [] → TreeOf e.builder out t) ∧ (out = [] → t = ⟨[], [], none⟩) ∧ (out = [] ↔ pts = []) ∧ out.length ≤ pts.length ∧ (∀ p ∈ out, p.w = 1) ∧
      (threads = 1 → voxelgridSampling e.sort pts leaf = .ok out) ∧ (threads ≠ 1 → voxelgridSamplingPar e.sortOmp ompCut x.blocks pts leaf = some (.ok out)) := by
  unfold preprocess at h
  rw [cloudPoints_of points pts hpts] at h
  simp only at h
  split at h
  · rename_i h1
    obtain ⟨out, s1, s2, s3, s4, s5⟩ := serial_sample he hw hleaf hkey
    obtain ⟨t, t1, t2, t3⟩ := tree_defined he (out := out) (by omega)
    obtain ⟨c, c1⟩ := features_defined he (by omega) t2 hk
    rw [s1, ok_bind, t1, ok_bind, c1, ok_bind] at h
    cases h
    refine ⟨out, c, t, rfl, by rw [if_pos h1]; exact s2, features_values he (by omega) t2 hk c1, t2, t3, ⟨fun h => ?_, s2.1⟩, s3, s5, fun _ => s1, fun h => absurd h1 h⟩
    by_contra hne
    exact s4 hne h
  · rename_i h1
    cases hs : voxelgridSamplingPar e.sortOmp ompCut x.blocks pts leaf with
    | none => rw [hs] at h; cases h
    | some r1 =>
      obtain ⟨out, rfl, s2, s5⟩ := block_sample he hw hleaf hkey hs
      obtain ⟨s3, s4⟩ := block_length s2
      rw [hs] at h
      simp only at h
      split at h
      · rename_i hch
        obtain ⟨t, t1, t2, t3⟩ := tree_defined he (out := out) (by omega)
        obtain ⟨c, c1⟩ := features_defined he (by omega) t2 hk
        rw [t1] at h
        simp only at h
        obtain ⟨r2, h2, rfl⟩ := Option.map_eq_some_iff.1 h
        have h3 := C49_parallel _ _ _ _ _ _ _ (by rw [sampled_size]; exact hch) _ h2
        rw [c1] at h3
        cases r2 with
        | error f => cases h3
        | ok c' =>
          cases h3
          refine ⟨out, c, t, rfl, by rw [if_neg h1]; exact s2, features_values he (by omega) t2 hk c1, t2, t3, ⟨fun h => ?_, s2.1⟩, s3, s5, fun h => absurd h h1, fun _ => rfl⟩
          by_contra hne
          exact s4 hne h
      · cases h

include he hpts hw hN hleaf hkey hk in
/-- C59. `preprocess_points`, for any number of threads and every complete execution: it is defined; the cloud it returns holds the
down-sampled points (one centroid per cell, serially; block-wise centroids in parallel), each with the normal and covariance given by its nearest
neighbours among them, and the returned tree is a kd-tree of these points. -/
theorem C59_preprocess {x : PrepExec} {r : Res (RCloud × KdTree.Tree ℝ)} (h : preprocess e x points leaf k threads = some r) :
    ∃ out c t, r = .ok (c, t) ∧ (if threads = 1 then SerialSample leaf pts out else BlockSample leaf pts out) ∧ LocalFeatures out e.maxD k.toNat c ∧
      (out ≠ [] → TreeOf e.builder out t) ∧ (out = [] → t = ⟨[], [], none⟩) ∧ (out = [] ↔ pts = []) ∧ out.length ≤ pts.length ∧ ∀ p ∈ out, p.w = 1 := by
  obtain ⟨out, c, t, h1, h2, h3, h4, h5, h6, h7, h8, _⟩ := preprocess_core he hpts hw hN hleaf hkey hk threads h
  exact ⟨out, c, t, h1, h2, h3, h4, h5, h6, h7, h8⟩

include he hpts hw hN hleaf hkey hk in
/-- Two executions of `preprocess_points` on the same points with the same number of threads return the same points, in any order. -/
theorem C59_same_points {x x' : PrepExec} {r r' : Res (RCloud × KdTree.Tree ℝ)} (h : preprocess e x points leaf k threads = some r)
    (h' : preprocess e x' points leaf k threads = some r') : ∃ c t c' t', r = .ok (c, t) ∧ r' = .ok (c', t') ∧ c.points.Perm c'.points := by
  obtain ⟨out, c, t, h1, _, h3, _, _, h6, _, _, h9, h10⟩ := preprocess_core he hpts hw hN hleaf hkey hk threads h
  obtain ⟨out', c', t', h1', _, h3', _, _, h6', _, _, h9', h10'⟩ := preprocess_core he hpts hw hN hleaf hkey hk threads h'
  refine ⟨c, t, c', t', h1, h1', ?_⟩
  rw [h3.1, h3'.1]
  refine List.Perm.map _ ?_
  by_cases hth : threads = 1
  · have := h9 hth
    rw [h9' hth] at this
    cases this
    exact List.Perm.refl _
  · by_cases hne : pts = []
    · rw [h6.2 hne, h6'.2 hne]
    · obtain ⟨G, E, _, _, _, hall⟩ := C25_out_of_range_points_partial he.sortOmp ompCut_isCut hleaf hkey hw hne
      obtain ⟨o, ho, hp⟩ := hall _ _ (h10 hth)
      obtain ⟨o', ho', hp'⟩ := hall _ _ (h10' hth)
      cases ho
      cases ho'
      exact hp.trans hp'.symm

include he hpts hw hN hleaf hkey hk in
/-- C59 is not vacuous: there is a complete execution. -/
theorem C59_executes : ∃ x r, preprocess e x points leaf k threads = some r := by
  by_cases h1 : threads = 1
  · refine ⟨⟨[], [], []⟩, ?_⟩
    unfold preprocess
    rw [cloudPoints_of points pts hpts]
    simp only
    rw [if_pos h1]
    exact ⟨_, rfl⟩
  · have hs : ∃ sched r, voxelgridSamplingPar e.sortOmp ompCut sched pts leaf = some r := by
      by_cases hne : pts = []
      · subst hne
        exact ⟨[], _, rfl⟩
      · obtain ⟨hp, hs⟩ := he.sortOmp (cpOf leaf pts)
        obtain ⟨hf, hb⟩ := ompCut_isCut (e.sortOmp (cpOf leaf pts))
        obtain ⟨subs, h2, _⟩ := parStart_eq hf hb hp hs hw
        obtain ⟨js, out, h⟩ := C24_every_schedule_finishes he.sortOmp ompCut_isCut hleaf hkey hw hne [] (coordPt_eq hkey) h2 rfl
        exact ⟨_, _, h⟩
    obtain ⟨sched, r, hs⟩ := hs
    obtain ⟨out, rfl, s2, _⟩ := block_sample he hw hleaf hkey hs
    obtain ⟨s3, _⟩ := block_length s2
    obtain ⟨t, t1, _⟩ := tree_defined he (out := out) (by omega)
    obtain ⟨fs, hfs⟩ := parOrder_seq ([List.range out.length].map (fun c => c.flatMap normalCovarianceSetter.acts))
    refine ⟨⟨sched, [List.range out.length], fs⟩, ?_⟩
    unfold preprocess
    rw [cloudPoints_of points pts hpts]
    simp only
    rw [if_neg h1, hs]
    simp only
    rw [if_pos (by simp), t1]
    simp only [estimatePar, hfs]
    exact ⟨_, rfl⟩

end Prep

/-! ### concrete cases -/

/-- The contracts of all external functions can be met together. -/
theorem env_exists (maxD : ℝ) (h : 0 ≤ maxD) (junk : Nat × ℝ) : ∃ e : Env, EnvMeets e ∧ e.maxD = maxD ∧ e.junk = junk := by
  classical
  obtain ⟨solve, hsolve⟩ := solver_exists
  refine ⟨⟨maxD, fun l _ => isort l, keySort, keySort, fun A => if h : Aᵀ = A then (exists_eigenBasis A h).choose else 0, fun A => A⁻¹, solve, junk⟩,
    ⟨h, isort_nthElementSpec, keySort_spec, keySort_spec, ?_, ?_, hsolve⟩, rfl, rfl⟩
  · intro A hA
    simp only
    rw [dif_pos hA.1]
    exact (exists_eigenBasis A hA.1).choose_spec
  · rintro A ⟨B, hB⟩
    have : IsUnit A.det := by
      apply (Matrix.isUnit_iff_isUnit_det A).1
      exact ⟨⟨A, B, hB, _root_.mul_eq_one_comm.1 hB⟩, rfl⟩
    exact Matrix.mul_nonsing_inv A this

/-- Six points on a parabola in the plane `z = 0`. -/
def parabola : List (Pt ℝ) := [⟨0, 0, 0, 1⟩, ⟨1, 1, 0, 1⟩, ⟨2, 4, 0, 1⟩, ⟨3, 9, 0, 1⟩, ⟨4, 16, 0, 1⟩, ⟨5, 25, 0, 1⟩]

theorem parabola_ok : (∀ p ∈ parabola, p.w = 1) ∧ (∀ p ∈ parabola, KeyDefined 1 p) ∧ ∀ p ∈ parabola, GridInRange 1 p := by
  refine ⟨?_, ?_, ?_⟩ <;> simp [parabola, KeyDefined, KeyFits, GridInRange, In21, INT_MIN, INT_MAX]

/-- The premises of C59 are met by six points, for one thread and for several; the result is not empty. -/
example (threads : Int) : ∃ (e : Env) (x : PrepExec) (c : RCloud) (t : KdTree.Tree ℝ),
    EnvMeets e ∧ preprocess e x ⟨parabola.map (fun p => some (ofPt p)), [], []⟩ 1 10 threads = some (.ok (c, t)) ∧ c.points ≠ [] := by
  obtain ⟨e, he, _⟩ := env_exists 1000 (by norm_num) (0, 0)
  obtain ⟨x, r, h⟩ := C59_executes he (points := ⟨parabola.map (fun p => some (ofPt p)), [], []⟩) rfl parabola_ok.1 (by simp [parabola]) one_ne_zero parabola_ok.2.1
    (k := 10) (by norm_num) threads
  obtain ⟨out, c, t, rfl, _, hl, _, _, hne, _⟩ := C59_preprocess he rfl parabola_ok.1 (by simp [parabola]) one_ne_zero parabola_ok.2.1 (k := 10) (by norm_num) threads h
  refine ⟨e, x, c, t, he, h, ?_⟩
  rw [hl.1]
  simp [hne, parabola]

end Verif.Props
