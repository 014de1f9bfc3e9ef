import Verif.Props.PipelineAlign
import Verif.Props.VoxelContents

/-!
C61: `align` on vectors of points with VGICP.
-/

set_option linter.unusedSectionVars false
set_option linter.unusedSimpArgs false
set_option linter.unnecessarySeqFocus false

namespace Verif.Spec

open Verif Verif.Factors

/-- Where a pose puts a point. -/
noncomputable def moved (T : Pose ℝ) (p : Pt ℝ) : Pt ℝ := RegMem.toPt (T.apply ![p.x, p.y, p.z, p.w])

open Classical in
/-- The points of `out` that share a cell of side `resolution` with `q`. -/
noncomputable def cellMates (out : List (Pt ℝ)) (resolution : ℝ) (q : Pt ℝ) : List (Pt ℝ) :=
  out.filter (fun p => decide (cellOf (1 / resolution) p = cellOf (1 / resolution) q))

/-- The cell of `T p` holds points of `out`, and their mean is within the squared distance `gate` of `T p`. -/
def NearMean (out : List (Pt ℝ)) (resolution gate : ℝ) (T : Pose ℝ) (p : Pt ℝ) : Prop :=
  cellMates out resolution (moved T p) ≠ [] ∧ sqd (centroid (cellMates out resolution (moved T p))) (moved T p) ≤ gate

end Verif.Spec

namespace Verif.Props

open Matrix Verif Verif.Knn Verif.KdTree Verif.Proofs Verif.Proofs.RegMem Verif.Factors Verif.Reduction Verif.Optimizer Verif.PointCloud Verif.RegMem Verif.Spec Verif.Lie
open Verif.Pipeline Verif.Features Verif.Downsample Verif.Helper Verif.Voxel

theorem mulPt_one (p : Pt ℝ) : mulPt (1 : Mat4 ℝ) p = p := by
  obtain ⟨a, b, c, d⟩ := p
  simp [mulPt, Matrix.one_apply]

theorem mapM_points {α β : Type} (f : α → Res β) (P : α → β → Prop) : ∀ (l : List α), (∀ a ∈ l, ∃ b, f a = .ok b ∧ P a b) →
    ∃ r, l.mapM f = .ok r ∧ List.Forall₂ P l r
  | [], _ => ⟨[], rfl, .nil⟩
  | a :: l, h => by
    obtain ⟨b, h1, h2⟩ := h a (by simp)
    obtain ⟨r, h3, h4⟩ := mapM_points f P l (fun a ha => h a (by simp [ha]))
    exact ⟨b :: r, by rw [List.mapM_cons, h1, ok_bind, h3]; rfl, .cons h2 h4⟩

theorem voxelSource_ok {out : List (Pt ℝ)} {maxD : ℝ} {k : Nat} {c : RCloud} (h : LocalFeatures out maxD k c) : ∃ src, voxelSource c = .ok src ∧ src.map SrcPt.pt = out := by
  obtain ⟨_, _, hc⟩ := features_regular h
  have hcs := CovsRegular.set hc
  have hsz := (features_points h).2
  obtain ⟨src, h1, h2⟩ := mapM_points (fun i => do
    let p ← c.point i
    let C ← c.cov i
    return (⟨toPt p, ⟨0, 0, 0, 0⟩, C⟩ : SrcPt ℝ)) (fun i s => out[i]? = some s.pt) (List.range c.size) (by
      intro i hi
      have hi := List.mem_range.1 hi
      obtain ⟨C, hC⟩ := hcs i hi
      rw [hsz] at hi
      have hp : c.points[i]? = some (some ![out[i].x, out[i].y, out[i].z, out[i].w]) := by
        rw [h.1, List.getElem?_map, List.getElem?_eq_getElem hi]; rfl
      refine ⟨⟨out[i], ⟨0, 0, 0, 0⟩, C⟩, ?_, List.getElem?_eq_getElem hi⟩
      simp only [Cloud.point, Cloud.cov, getSlot, rd, hp, hC]
      rfl)
  refine ⟨src, h1, ?_⟩
  have hl := h2.length_eq
  rw [List.length_range, hsz] at hl
  apply List.ext_getElem?
  intro i
  by_cases hi : i < out.length
  · have := List.forall₂_iff_get.1 h2
    have := this.2 i (by rw [List.length_range, hsz]; exact hi) (by omega)
    simp only [List.get_eq_getElem, List.getElem_range] at this
    rw [this, List.getElem?_map, List.getElem?_eq_getElem (by omega : i < src.length)]
    rfl
  · rw [List.getElem?_eq_none (by rw [List.length_map]; omega), List.getElem?_eq_none (by omega)]

theorem insertLoop_undefined {V : Type} (c : Contents ℝ V) (T : Mat4 ℝ) : ∀ (ss : List (SrcPt ℝ)) (m : VoxelMap ℝ V), Indexed m.table m.flat →
    (∃ s ∈ ss, ¬ CellDefined m.invLeaf (mulPt T s.pt)) → insertLoop c T m ss = .error .intOverflow
  | [], _, _, h => by obtain ⟨_, h, _⟩ := h; cases h
  | s :: ss, m, hI, h => by
    unfold insertLoop
    by_cases hs : CellDefined m.invLeaf (mulPt T s.pt)
    · obtain ⟨t1, h1, h2⟩ := insertOne_ok c T m hI s hs
      rw [h1, ok_bind]
      refine insertLoop_undefined c T ss _ h2 ?_
      obtain ⟨s', h3, h4⟩ := h
      rcases List.mem_cons.1 h3 with rfl | h3
      · exact absurd hs h4
      · exact ⟨s', h3, h4⟩
    · unfold insertOne
      simp only
      rw [coordOf_undefined hs]
      rfl

/-- The voxel map of a preprocessed cloud: undefined iff a point has no cell; otherwise its voxels are the cells with points, each with the mean of its points. -/
theorem voxelmap_of {out : List (Pt ℝ)} {maxD : ℝ} {k : Nat} {c : RCloud} (h : LocalFeatures out maxD k c) {resolution : ℝ} (hres : resolution ≠ 0) :
    ((∃ p ∈ out, ¬ CellDefined (1 / resolution) p) → createVoxelmap c resolution = .error .intOverflow) ∧
    ((∀ p ∈ out, CellDefined (1 / resolution) p) → ∃ src m, createVoxelmap c resolution = .ok m ∧ runOps gaussianContents (VoxelMap.new resolution) [.insert src 1] = .ok m ∧
      m.invLeaf = 1 / resolution ∧ m.offsets = [(0, 0, 0)] ∧ m.flat.length ≤ out.length ∧
      ∀ q p, (∃ i, Searched m q i p) ↔ cellMates out resolution q ≠ [] ∧ p = centroid (cellMates out resolution q)) := by
  classical
  obtain ⟨src, h1, h2⟩ := voxelSource_ok h
  have hmem : ∀ s ∈ src, s.pt ∈ out := fun s hs => h2 ▸ List.mem_map_of_mem hs
  unfold createVoxelmap
  rw [h1, ok_bind, if_neg (fun h => hres h.1)]
  constructor
  · rintro ⟨p, hp, hnp⟩
    rw [← h2] at hp
    obtain ⟨s, hs, rfl⟩ := List.mem_map.1 hp
    unfold Voxel.insert
    rw [insertLoop_undefined gaussianContents 1 src (VoxelMap.new resolution) (userMap_inv (V := GaussianVoxel ℝ) resolution 100 10 (by norm_num) [(0, 0, 0)]).idx ⟨s, hs, by rw [mulPt_one]; exact hnp⟩]
    rfl
  · intro hd
    have hd' : ∀ call ∈ [(src, (1 : Mat4 ℝ))], ∀ s ∈ call.1, CellDefined (1 / resolution) (mulPt call.2 s.pt) := by
      intro call hc s hs
      rw [List.mem_singleton] at hc
      subst hc
      rw [mulPt_one]
      exact hd _ (hmem s hs)
    have hnew : (VoxelMap.new resolution : VoxelMap ℝ (GaussianVoxel ℝ)) = userMap resolution 100 10 [(0, 0, 0)] := rfl
    obtain ⟨m, g1, g2⟩ := C18_gaussian_average resolution 100 10 [(0, 0, 0)] (by norm_num) [(src, 1)] (by norm_num) hd'
    obtain ⟨m', g1', g3⟩ := C12_eviction_closed_form gaussianContents resolution 100 10 [(0, 0, 0)] (by norm_num) [(src, 1)] (by norm_num) hd'
    rw [g1] at g1'
    cases g1'
    obtain ⟨m', g1', gI, gl, _, _, go, _⟩ := insertCalls_ok gaussianContents [(src, 1)] (userMap resolution 100 10 [(0, 0, 0)])
      (userMap_inv resolution 100 10 (by norm_num) [(0, 0, 0)]) (by simp [userMap, VoxelMap.new]) hd'
    rw [g1] at g1'
    cases g1'
    have hins : Voxel.insert gaussianContents (VoxelMap.new resolution) src 1 = .ok m := by
      rw [hnew]
      unfold insertCalls at g1
      simp only at g1
      cases hq : Voxel.insert gaussianContents (userMap resolution 100 10 [(0, 0, 0)]) src (1 : Mat4 ℝ) with
      | error f => rw [hq] at g1; cases g1
      | ok m' => rw [hq] at g1; exact g1
    have hoff : ∀ cell, (offered (1 / resolution) [(src, (1 : Mat4 ℝ))] cell).map (fun e => e.1) = out.filter (fun p => decide (cellOf (1 / resolution) p = cell)) := by
      intro cell
      rw [← h2]
      unfold offered
      simp only [List.flatMap_cons, List.flatMap_nil, List.append_nil, mulPt_one]
      rw [List.filter_map, List.filter_map, List.map_map]
      rfl
    have hmean : ∀ e ∈ m.flat, out.filter (fun p => decide (cellOf (1 / resolution) p = e.1.coord)) ≠ [] ∧
        e.2.mean = centroid (out.filter (fun p => decide (cellOf (1 / resolution) p = e.1.coord))) := by
      intro e he
      obtain ⟨L, hL, hne, _, hm, _⟩ := g2 e he
      have hr := received_no_eviction (invLeaf := 1 / resolution) 100 10 e.1.coord [(src, (1 : Mat4 ℝ))] (by norm_num)
      rw [hL] at hr
      have hr : L = _ := hr.2
      rw [← hoff, hm, ← hr]
      refine ⟨by simpa using hne, ?_⟩
      unfold avgPt centroid
      simp only [List.map_map, List.length_map, Function.comp_def]
    refine ⟨src, m, hins, ?_, gl, go, ?_, ?_⟩
    · unfold runOps
      simp only [applyOp]
      rw [hins]
      rfl
    · have hsub : coords m.flat ⊆ out.map (cellOf (1 / resolution)) := by
        intro cell hcell
        obtain ⟨e, he, rfl⟩ := List.mem_map.1 hcell
        obtain ⟨p, hp⟩ := List.exists_mem_of_ne_nil _ (hmean e he).1
        obtain ⟨hp1, hp2⟩ := List.mem_filter.1 hp
        exact List.mem_map.2 ⟨p, hp1, by simpa using hp2⟩
      have := (gI.idx.nodup.subperm hsub).length_le
      simpa [coords] using this
    · intro q p
      have hshift : shiftCell (cellOf m.invLeaf q) (0, 0, 0) = cellOf (1 / resolution) q := by
        rw [gl]
        simp only [shiftCell, add_zero]
        rfl
      constructor
      · rintro ⟨i, v, hv, rfl, o, ho, hco⟩
        rw [go] at ho
        have ho : o = (0, 0, 0) := by simpa [userMap] using ho
        subst ho
        rw [hshift] at hco
        have := hmean v (List.mem_of_getElem? hv)
        rw [hco] at this
        exact this
      · rintro ⟨hne, rfl⟩
        obtain ⟨p, hp⟩ := List.exists_mem_of_ne_nil _ hne
        obtain ⟨hp1, hp2⟩ := List.mem_filter.1 hp
        rw [← h2] at hp1
        obtain ⟨s, hs, rfl⟩ := List.mem_map.1 hp1
        obtain ⟨i, v, _, hv⟩ := (g3 (cellOf (1 / resolution) q) 0).2 ⟨⟨_, rfl, s, hs, by rw [mulPt_one]; simpa using hp2⟩, by
          rintro l' hl' ⟨call, hcall, _⟩
          rw [List.getElem?_eq_none (by simp; omega)] at hcall
          exact absurd hcall (by simp), fun t _ ht _ => by simp at ht; omega⟩
        exact ⟨i, _, hv, (hmean _ (List.mem_of_getElem? hv)).2, (0, 0, 0), by rw [go]; simp [userMap], hshift.symm⟩

theorem countP_pointwise {α β : Type} (f : α → Bool) (g : β → Bool) : ∀ (l : List α) (l' : List β), l.length = l'.length →
    (∀ (i : Nat) (a : α) (b : β), l[i]? = some a → l'[i]? = some b → (f a = true ↔ g b = true)) → l.countP f = l'.countP g
  | [], [], _, _ => rfl
  | [], _ :: _, h, _ => by cases h
  | _ :: _, [], h, _ => by cases h
  | a :: l, b :: l', h, hp => by
    have h0 := hp 0 a b rfl rfl
    rw [List.countP_cons, List.countP_cons, countP_pointwise f g l l' (by simpa using h) (fun i a b ha hb => hp (i + 1) a b (by simpa using ha) (by simpa using hb))]
    by_cases hf : f a = true
    · rw [if_pos hf, if_pos (h0.1 hf)]
    · rw [if_neg hf, if_neg (fun hg => hf (h0.2 hg))]

section Vgicp

variable {e : Env} (he : EnvMeets e) {T : Type} {d : Nat} (cast : T → ℝ) {target source : List (Fin (d + 3) → T)} {s : Setting} (hleaf : s.downsamplingResolution ≠ 0)
  (hT : InputFits cast s.downsamplingResolution target) (hS : InputFits cast s.downsamplingResolution source)

include he hleaf hT hS in
/-- C61, voxel map. `align` on two vectors of points with VGICP and a voxel size other than zero, any number of threads and every complete execution. The only fault is the
overflow of a cell coordinate. It happens if a sampled target point has no cell, or if the initial guess puts a sampled source point where there is no cell (and an iteration is allowed), and
only if a sampled target point, or a sampled source point at a pose that comes from the initial guess by steps, has no cell. Otherwise the pose of the result is the initial guess
moved by at most as many steps as iterations are allowed, and the reported number of inliers is the number of sampled source points that the pose of the last linearisation puts into a
cell of the map, within distance 1 of the mean of the sampled target points of that cell. -/
theorem C61_vgicp (htype : s.type = .vgicp) (hres : s.voxelResolution ≠ 0) {xt xs : PrepExec} {y : RegExec} (hy : RunsToEnd y s.numThreads.toNat) {initT : Pose ℝ} {r : Res (Result ℝ)}
    (h : Pipeline.align e xt xs y cast target source initT s = some r) :
    ∃ outT outS, Sampled s.numThreads s.downsamplingResolution (target.map (vecPoint cast)) outT ∧ Sampled s.numThreads s.downsamplingResolution (source.map (vecPoint cast)) outS ∧
      ((∃ p ∈ outT, ¬ CellDefined (1 / s.voxelResolution) p) → r = .error .intOverflow) ∧
      (0 < s.maxIterations → (∃ p ∈ outS, ¬ CellDefined (1 / s.voxelResolution) (moved initT p)) → r = .error .intOverflow) ∧
      (∀ f, r = .error f → f = .intOverflow ∧ ((∃ p ∈ outT, ¬ CellDefined (1 / s.voxelResolution) p) ∨ ∃ T, Visited initT s.maxIterations T ∧ ∃ p ∈ outS, ¬ CellDefined (1 / s.voxelResolution) (moved T p))) ∧
      (∀ res, r = .ok res → ∃ L, EndsAt initT s.maxIterations res.T L ∧ (0 < s.maxIterations → 1 < e.maxD →
        open Classical in res.numInliers = outS.countP (fun p => decide (NearMean outT s.voxelResolution 1 L p)))) := by
  classical
  unfold Pipeline.align at h
  cases hpt : preprocessVector e xt cast target s.downsamplingResolution 10 s.numThreads with
  | none => rw [hpt] at h; cases h
  | some rt =>
    obtain ⟨outT, ct, t, rfl, a1, a2, _, _, _, a6⟩ := vector_core he cast hleaf hT (k := 10) (by norm_num) s.numThreads hpt
    rw [hpt] at h
    simp only at h
    cases hps : preprocessVector e xs cast source s.downsamplingResolution 10 s.numThreads with
    | none => rw [hps] at h; cases h
    | some rs =>
      obtain ⟨outS, cs, ts, rfl, b1, b2, _, _, _, _⟩ := vector_core he cast hleaf hS (k := 10) (by norm_num) s.numThreads hps
      rw [hps] at h
      simp only [Option.some.injEq] at h
      rw [if_pos htype] at h
      refine ⟨outT, outS, a1, b1, ?_⟩
      obtain ⟨m1, m2⟩ := voxelmap_of a2 hres
      by_cases hall : ∀ p ∈ outT, CellDefined (1 / s.voxelResolution) p
      · obtain ⟨src, m, hm, hops, hl, hof, hlen, hmean⟩ := m2 hall
        rw [hm, ok_bind] at h
        obtain ⟨hSp, _, hSc⟩ := features_regular b2
        have hSs := (features_points b2).2
        have hrange : ∀ q, QueryInRange m q ↔ CellDefined (1 / s.voxelResolution) q := by
          intro q
          unfold QueryInRange
          rw [hl, hof]
          refine ⟨fun hq => hq.1, fun hq => ⟨hq, fun o ho => ?_⟩⟩
          rw [List.mem_singleton] at ho
          subst ho
          simp only [CoordFits, shiftCell, add_zero]
          exact ⟨hq.1, hq.2.1, hq.2.2.1⟩
        unfold alignMap at h
        simp only [alignVoxelmap, runRegistration, Registration.default] at h
        have key : ∃ reg : Registration, reg.numThreads = s.numThreads ∧ reg.lm.maxIterations = s.maxIterations ∧ reg.maxDistSq = 1 ∧
            runMethod e y (gicpMem e.inv) (voxelWorld e.maxD m cs e.junk) reg initT cs.size = r := ⟨_, rfl, rfl, rfl, h⟩
        obtain ⟨reg, e1, e2, e3, rfl⟩ := key
        have hL : ∀ (T : Pose ℝ) (fs : List (GICP ℝ)), fs.length = cs.size → (Exec.omp reg.numThreads.toNat (y.lin T fs).assign (y.lin T fs).sched (y.lin T fs).comb).Complete cs.size :=
          fun T fs hl => hl ▸ e1 ▸ (hy T fs).1
        have hE : ∀ (T : Pose ℝ) (fs : List (GICP ℝ)), fs.length = cs.size → (Exec.omp reg.numThreads.toNat (y.err T fs).assign (y.err T fs).sched (y.err T fs).comb).Complete cs.size :=
          fun T fs hl => hl ▸ e1 ▸ (hy T fs).2
        have hsize : m.flat.length ≤ 2 ^ 32 := by omega
        have hget : ∀ (i : Nat) (q : Pt ℝ), outS[i]? = some q → cs.points[i]? = some (some ![q.x, q.y, q.z, q.w]) := by
          intro i q hq
          rw [b2.1, List.getElem?_map, hq]
          rfl
        have hget' : ∀ (i : Nat) (p : Fin 4 → ℝ), cs.points[i]? = some (some p) → ∃ q : Pt ℝ, q ∈ outS ∧ p = ![q.x, q.y, q.z, q.w] := by
          intro i p hp
          rw [b2.1, List.getElem?_map] at hp
          obtain ⟨q, hq, hqe⟩ := Option.map_eq_some_iff.1 hp
          cases hqe
          exact ⟨q, List.mem_of_getElem? hq, rfl⟩
        obtain ⟨res, fs', log, g1, g2, g3⟩ := C58_voxel_registration (.gicp e.inv) rfl s.voxelResolution [.insert src 1] m hops hsize cs hSp (fun _ => CovsRegular.set hSc) e.maxD e.junk
          ⟨distanceRejector reg.maxDistSq, nullFactor, e.solve, se3Exp, converged reg.rotationEps reg.translationEps⟩ _ _ hL hE (.lm reg.lm) initT
        obtain ⟨hvis, _⟩ := run_poses _ _ _ _ _ _ _ _ _ _ g1
        obtain ⟨L, hends, hlast⟩ := run_ends _ _ _ _ _ _ _ _ _ _ g1
        rw [e2] at hvis hends
        refine ⟨fun ⟨p, hp, hn⟩ => absurd (hall p hp) hn, fun hit ⟨p, hp, hn⟩ => ?_, fun f hf => ?_, fun res' hr => ?_⟩
        · obtain ⟨i, hi⟩ := List.getElem?_of_mem hp
          unfold runMethod
          rw [C58_far_guess (.gicp e.inv) rfl s.voxelResolution [.insert src 1] m hops hsize cs hSp (fun _ => CovsRegular.set hSc) e.maxD e.junk
            ⟨distanceRejector reg.maxDistSq, nullFactor, e.solve, se3Exp, converged reg.rotationEps reg.translationEps⟩ _ _ hL hE (.lm reg.lm)
            (by show 0 < reg.lm.maxIterations.toNat; omega) initT i _ (hget i p hi) (fun hq => hn ((hrange _).1 hq))]
          rfl
        · unfold runMethod at hf
          rw [g2] at hf
          split at hf
          · cases hf
          · rename_i hno
            cases hf
            refine ⟨rfl, Or.inr ?_⟩
            push Not at hno
            obtain ⟨it, hit, i, p, hp, hq⟩ := hno
            obtain ⟨q, hq1, rfl⟩ := hget' i p hp
            exact ⟨it.T0, hvis it hit, q, hq1, fun hc => hq ((hrange _).2 hc)⟩
        · unfold runMethod at hr
          rw [g2] at hr
          split at hr
          swap
          · cases hr
          · rename_i hyes
            cases hr
            refine ⟨L, hends, fun hit hmax => ?_⟩
            have hw := voxel_sound m (C11_index_consistent gaussianContents s.voxelResolution [.insert src 1] m hops).1 hsize ⟨false, true⟩ rfl cs hSp (fun _ => CovsRegular.set hSc) e.maxD e.junk
            obtain ⟨k1, k2, _⟩ := run_factors (.gicp e.inv) hw _ _ _ _ _ _ g1
            obtain ⟨it0, hm0, _⟩ := run_first _ _ _ _ _ g1 (by show 0 < reg.lm.maxIterations.toNat; omega)
            have hlog : log ≠ [] := List.ne_nil_of_mem hm0
            have hlm : log.getLast hlog ∈ log := List.getLast_mem hlog
            obtain ⟨n1, n2⟩ := g3 reg.maxDistSq rfl (by rw [e3]; exact hmax) _ hlm
            rw [← hlast _ (List.getLast?_eq_some_getLast hlog)]
            rw [k1, k2 _ (List.getLast?_eq_some_getLast hlog)]
            refine countP_pointwise _ _ _ _ (by rw [n1, hSs]) fun i f p hf hp => ?_
            obtain ⟨_, n3, _⟩ := n2 i f _ hf (hget i p hp) (hyes _ hlm i _ (hget i p hp))
            rw [n3, decide_eq_true_eq, e3]
            constructor
            · rintro ⟨j, c, hj, hd⟩
              obtain ⟨o1, rfl⟩ := (hmean _ _).1 ⟨j, hj⟩
              exact ⟨o1, hd⟩
            · rintro ⟨o1, o2⟩
              obtain ⟨j, hj⟩ := (hmean _ _).2 ⟨o1, rfl⟩
              exact ⟨j, _, hj, o2⟩
      · push Not at hall
        rw [m1 hall] at h
        subst h
        refine ⟨fun _ => rfl, fun _ _ => rfl, fun f hf => ?_, fun res hr => by cases hr⟩
        cases hf
        exact ⟨rfl, Or.inl hall⟩

include he hleaf hT hS in
/-- C61: complete executions exist, for every positive number of threads. -/
theorem C61_executes (hthreads : 1 ≤ s.numThreads) (initT : Pose ℝ) :
    ∃ xt xs y r, RunsToEnd y s.numThreads.toNat ∧ Pipeline.align e xt xs y cast target source initT s = some r := by
  have hprep : ∀ (l : List (Fin (d + 3) → T)), InputFits cast s.downsamplingResolution l → ∃ x r, preprocessVector e x cast l s.downsamplingResolution 10 s.numThreads = some r := by
    intro l hl
    unfold preprocessVector
    rw [C50_constructor]
    exact C59_executes he (pts := l.map (vecPoint cast)) (by simp [homogeneous_eq, Function.comp_def]) (by simp [vecPoint]) (by rw [List.length_map]; exact hl.1) hleaf (by simpa using hl.2)
      (by norm_num) s.numThreads
  obtain ⟨xt, rt, ht⟩ := hprep target hT
  obtain ⟨xs, rs, hs⟩ := hprep source hS
  have hseq : ∀ n : Nat, ∃ sched, (Exec.omp s.numThreads.toNat [List.range n] sched [0]).Complete n := by
    intro n
    obtain ⟨sched, h⟩ := parOrder_seq ([List.range n].mapIdx ompThread)
    exact ⟨sched, by omega, by simp; omega, by simp, ⟨_, h⟩, by simp⟩
  choose sched hsched using hseq
  refine ⟨xt, xs, ⟨fun _ fs => ⟨[List.range fs.length], sched fs.length, [0]⟩, fun _ fs => ⟨[List.range fs.length], sched fs.length, [0]⟩⟩, ?_⟩
  unfold Pipeline.align
  obtain ⟨oT, ct, t, rfl, _⟩ := vector_core he cast hleaf hT (k := 10) (by norm_num) s.numThreads ht
  obtain ⟨oS, cs, t', rfl, _⟩ := vector_core he cast hleaf hS (k := 10) (by norm_num) s.numThreads hs
  rw [ht]
  simp only
  rw [hs]
  exact ⟨_, fun _ fs => ⟨hsched _, hsched _⟩, rfl⟩

end Vgicp

/-! ### examples -/

/-- Six points on a parabola, as a vector of three-dimensional points. -/
def parabola3 : List (Fin (0 + 3) → ℝ) := [![0, 0, 0], ![1, 1, 0], ![2, 4, 0], ![3, 9, 0], ![4, 16, 0], ![5, 25, 0]]

theorem parabola3_fits : InputFits (fun x : ℝ => x) 1 parabola3 := by
  refine ⟨by simp [parabola3], ?_⟩
  simp [parabola3, vecPoint, KeyDefined, KeyFits, INT_MIN, INT_MAX]

/-- The parabola aligned with itself by GICP on two threads: the premises of C61 are met and the result is the identity with at least one inlier. -/
example : ∃ (e : Env) (xt xs : PrepExec) (y : RegExec) (res : Result ℝ), EnvMeets e ∧ RunsToEnd y 2 ∧
    Pipeline.align e xt xs y (fun x : ℝ => x) parabola3 parabola3 Pose.one { Setting.default with downsamplingResolution := 1, numThreads := 2 } = some (.ok res) ∧
    res.T = Pose.one ∧ res.converged = true ∧ res.error = 0 ∧ 0 < res.numInliers := by
  obtain ⟨e, he, hmax, _⟩ := env_exists 1000 (by norm_num) (0, 0)
  obtain ⟨xt, xs, y, r, hy, h⟩ := C61_executes he (fun x : ℝ => x) (s := { Setting.default with downsamplingResolution := 1, numThreads := 2 }) (by simp) parabola3_fits parabola3_fits
    (by simp) Pose.one
  obtain ⟨res, out, rfl, _, g1, g2, g3, g4, g5⟩ := C61_self he (fun x : ℝ => x) (s := { Setting.default with downsamplingResolution := 1, numThreads := 2 }) (by simp) parabola3_fits
    (Or.inr (Or.inr rfl)) (by simp [parabola3]) (by simp [Setting.default]) (by rw [hmax]; norm_num [Setting.default])
    (by simp only [Setting.default]; have := Real.pi_pos; positivity) (by norm_num [Setting.default]) hy h
  exact ⟨e, xt, xs, y, res, he, hy, h, g2, g3, g4, by rw [g5]; exact List.length_pos_of_ne_nil g1⟩

/-- An empty target with the same source is undefined. -/
example : ∃ (e : Env) (xt xs : PrepExec) (y : RegExec), EnvMeets e ∧ RunsToEnd y 2 ∧
    Pipeline.align e xt xs y (fun x : ℝ => x) [] parabola3 Pose.one { Setting.default with downsamplingResolution := 1, numThreads := 2 } = some (.error .uninit) := by
  obtain ⟨e, he, hmax, _⟩ := env_exists 1000 (by norm_num) (0, 0)
  have h0 : InputFits (fun x : ℝ => x) 1 ([] : List (Fin (0 + 3) → ℝ)) := ⟨by simp, by simp⟩
  obtain ⟨xt, xs, y, r, hy, h⟩ := C61_executes he (fun x : ℝ => x) (s := { Setting.default with downsamplingResolution := 1, numThreads := 2 }) (by simp) h0 parabola3_fits (by simp) Pose.one
  have hr := (C61_clouds he (fun x : ℝ => x) (s := { Setting.default with downsamplingResolution := 1, numThreads := 2 }) (by simp) h0 parabola3_fits (Or.inr (Or.inr rfl)) hy h).1
    ⟨rfl, by simp [parabola3], by simp [Setting.default]⟩
  exact ⟨e, xt, xs, y, he, hy, by rw [h, hr]⟩

/-- VGICP on the parabola: a voxel size of 10⁻¹² has no cell for the fourth coordinate, and the whole call is undefined. -/
example : ∃ (e : Env) (xt xs : PrepExec) (y : RegExec), EnvMeets e ∧ RunsToEnd y 1 ∧
    Pipeline.align e xt xs y (fun x : ℝ => x) parabola3 parabola3 Pose.one { Setting.default with type := .vgicp, voxelResolution := 1 / 10 ^ 12, downsamplingResolution := 1, numThreads := 1 } =
      some (.error .intOverflow) := by
  obtain ⟨e, he, hmax, _⟩ := env_exists 1000 (by norm_num) (0, 0)
  obtain ⟨xt, xs, y, r, hy, h⟩ := C61_executes he (fun x : ℝ => x) (s := { Setting.default with type := .vgicp, voxelResolution := 1 / 10 ^ 12, downsamplingResolution := 1, numThreads := 1 }) (by simp)
    parabola3_fits parabola3_fits (by simp) Pose.one
  obtain ⟨outT, outS, h1, _, h2, _⟩ := C61_vgicp he (fun x : ℝ => x) (s := { Setting.default with type := .vgicp, voxelResolution := 1 / 10 ^ 12, downsamplingResolution := 1, numThreads := 1 }) (by simp)
    parabola3_fits parabola3_fits rfl (by simp) hy h
  refine ⟨e, xt, xs, y, he, hy, ?_⟩
  rw [h, h2 ?_]
  have h1 : SerialSample 1 (parabola3.map (vecPoint (fun x : ℝ => x))) outT := by
    unfold Sampled at h1
    rwa [if_pos rfl] at h1
  have hin : ∃ p ∈ parabola3.map (vecPoint (fun x : ℝ => x)), GridInRange 1 p :=
    ⟨⟨0, 0, 0, 1⟩, by simp [parabola3, vecPoint], by simp [GridInRange, In21]⟩
  obtain ⟨cells, _, hc, rfl⟩ := h1.2.1 hin
  obtain ⟨p, hp, hg⟩ := hin
  refine ⟨_, List.mem_map_of_mem ((hc _).2 ⟨p, hp, hg, rfl⟩), fun hcd => ?_⟩
  have hw : (centroid (cellPoints 1 (parabola3.map (vecPoint (fun x : ℝ => x))) (gridCell 1 p))).w = 1 :=
    centroid_w (List.ne_nil_of_mem (List.mem_filter.2 ⟨hp, by simpa using hg⟩)) (by
      intro q hq
      obtain ⟨v, _, rfl⟩ := List.mem_map.1 (List.mem_filter.1 hq).1
      rfl)
  have := hcd.2.2.2.2
  rw [hw] at this
  norm_num [INT_MAX] at this

end Verif.Props
