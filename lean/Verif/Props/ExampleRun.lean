import Verif.Spec.ExampleRun
import Verif.Props.ExamplePipeline
import Verif.Props.StiffHeld

/-!
C76: the registration of the template example and the run of the whole.
-/

set_option linter.unusedSectionVars false
set_option linter.unusedSimpArgs false
set_option linter.unnecessarySeqFocus false

namespace Verif.Props

open Matrix Verif Verif.Knn Verif.KdTree Verif.Proofs Verif.Proofs.RegMem Verif.Factors Verif.Reduction Verif.Optimizer Verif.PointCloud Verif.RegMem Verif.Spec Verif.Lie
open Verif.Pipeline Verif.Features Verif.Downsample Verif.Helper Verif.Example Verif.Proofs.Example

theorem viewed_point {T : MyCloud ℝ} {c : RCloud} (h : c.points = (view T).points) {k : Nat} {p : MyPoint ℝ} (hp : T[k]? = some p) :
    c.point k = .ok ![p.point 0, p.point 1, p.point 2, 1] := by
  have h1 : c.points[k]? = some (some ![p.point 0, p.point 1, p.point 2, 1]) := by rw [h, view_get, hp]; rfl
  simp only [Cloud.point, getSlot, rd, h1]
  rfl

theorem viewed_size {T : MyCloud ℝ} {c : RCloud} (h : c.points = (view T).points) : c.size = T.length := by
  unfold Cloud.size
  rw [h]
  simp [view]

theorem filled_points (T : MyCloud ℝ) : (fillFeatures T).map MyPoint.point = T.map MyPoint.point := by simp [fillFeatures]

theorem filled_length (T : MyCloud ℝ) : (fillFeatures T).length = T.length := by simp [fillFeatures]

/-- On filled clouds the rejector is the distance gate. -/
theorem filled_rejector (T S : MyCloud ℝ) {i k : Nat} {L : Pose ℝ} {d : ℝ} (hk : k < T.length) :
    myRejector (1 * 1) (9 / 10) (fillFeatures T) (fillFeatures S) L k i d = distanceRejector 1 L k i d := by
  unfold myRejector distanceRejector fillFeatures
  have : ((fun _ => 1 : Fin 36 → ℝ) ⬝ᵥ fun _ => 1) = 36 := by simp [dotProduct]
  simp only [List.getElem?_map, List.getElem?_eq_getElem hk, Option.map_some, Option.getD_some, this, one_mul]
  by_cases h : d > 1
  · rw [if_pos h]; simp [h]
  · rw [if_neg h, if_neg (by norm_num)]; simp [not_lt.1 h]

section Scene

variable {top : List (Nat × ℝ) → Nat} (htop : TopSpec top) {T S : MyCloud ℝ} {ct cs : RCloud} (hT : TargetReady T ct) (hS : cs.points = (view S).points) (hN : T.length < 2 ^ 32) (junk : Nat × ℝ)

include htop hT hS hN in
theorem brute_sound : Sound (fun _ => False) (cloudWorld ct cs (nearestSearch top (fillFeatures T) junk)) ⟨true, false⟩ cs.size where
  srcPoint i hi := ⟨_, viewed_point hS (List.getElem?_eq_getElem (viewed_size hS ▸ hi))⟩
  srcCov h := by cases h
  nn q := by
    rcases C75_nearest htop (fillFeatures T) junk q with ⟨_, h⟩ | ⟨i, d, h, _⟩
    · exact Or.inl ⟨_, h⟩
    · exact Or.inl ⟨_, h⟩
  found q k d h := by
    have h : nearestSearch top (fillFeatures T) junk q = .ok (some (k, d)) := h
    rcases C75_nearest htop (fillFeatures T) junk q with ⟨_, h'⟩ | ⟨i, d', h', hi, _⟩
    · rw [h'] at h; cases h
    · rw [h'] at h
      cases h
      rw [filled_length] at hi
      refine ⟨by unfold npos; omega, ⟨_, viewed_point hT.points (List.getElem?_eq_getElem hi)⟩, fun _ => ?_, fun h => by cases h⟩
      obtain ⟨n, hn, _⟩ := hT.normals k hi
      exact ⟨n, by simp only [cloudWorld, Cloud.normal, getSlot, rd, hn]; rfl⟩

include htop hT hS hN in
/-- The registration of the prepared clouds: it ends without fault, with the result of the descent. -/
theorem brute_align {e : Env} (he : EnvMeets e) (_hj : e.junk = junk) {y : RegExec} (hy : RunsToEnd y 4) :
    ∃ out, align2 e top y (fillFeatures T) (fillFeatures S) ct cs = .ok out ∧
      StiffRun (stiffness (10 ^ 8) ![0, 0, 1, 1, 1, 1]) .plane (NearestWithin (cloudSites ct) 1) (cloudSites cs) 10 10 (1 / 10 * Real.pi / 180) (1 / 1000) 20 0 (1 / 1000) (Result.init Pose.one) out.1 := by
  subst _hj
  have hw := brute_sound htop hT hS hN e.junk
  obtain ⟨⟨res, fs', log⟩, ho, ho'⟩ := align_approx Ships.plane hw (registration2 e (fillFeatures T) (fillFeatures S))
    (fun L fs => .omp 4 (y.lin L fs).assign (y.lin L fs).sched (y.lin L fs).comb) (fun L fs => .omp 4 (y.err L fs).assign (y.err L fs).sched (y.err L fs).comb)
    (fun L fs hl => hl ▸ (hy L fs).1) (fun L fs hl => hl ▸ (hy L fs).2) (.lm (Registration.default .planeIcp).lm) Pose.one
  have ho' := ho'.resolve_right (by rintro ⟨_, hf, _⟩; exact hf)
  refine ⟨_, ho', ?_⟩
  let w := cloudWorld ct cs (nearestSearch top (fillFeatures T) e.junk)
  have hfound : ∀ q k d, (scene w).nn q = some (k, d) → k < T.length := by
    intro q k d h
    have h : okOr none (nearestSearch top (fillFeatures T) e.junk q) = some (k, d) := h
    rcases C75_nearest htop (fillFeatures T) e.junk q with ⟨_, h'⟩ | ⟨i, d', h', hi, _⟩
    · rw [h'] at h; cases h
    · rw [h'] at h
      cases h
      rwa [filled_length] at hi
  have htgt : ∀ k p, T[k]? = some p → (scene w).tgtPoint k = ![p.point 0, p.point 1, p.point 2, 1] := fun k p h => congrArg (okOr 0) (viewed_point hT.points h)
  have hsrc : ∀ k p, S[k]? = some p → (scene w).srcPoint k = ![p.point 0, p.point 1, p.point 2, 1] := fun k p h => congrArg (okOr 0) (viewed_point hS h)
  have hhom : Homogeneous (scene w) cs.size := by
    refine ⟨fun q k d h => ?_, fun i hi => ?_, fun q k d h => ?_⟩
    · have := hfound q k d h
      unfold npos
      omega
    · rw [hsrc i _ (List.getElem?_eq_getElem (viewed_size hS ▸ hi))]; rfl
    · rw [htgt k _ (List.getElem?_eq_getElem (hfound q k d h))]; rfl
  have hrule : ∀ (L : Pose ℝ), ∀ i < cs.size, NearestWithin (cloudSites ct) 1 (move L (head3 ((scene w).srcPoint i)))
      ((correspondence (scene w) (registration2 e (fillFeatures T) (fillFeatures S)).rejector L i).map (targetSite (scene w))) := by
    intro L i hi
    have hw1 := hhom.source i hi
    rw [← head3_apply L _ hw1]
    unfold correspondence
    generalize L.apply ((scene w).srcPoint i) = q
    have hall : ∀ s ∈ cloudSites ct, ∃ j < T.length, (s.pos - head3 q) ⬝ᵥ (s.pos - head3 q) = spaceDist ((fillFeatures T).map MyPoint.point) q j := by
      intro s hs
      obtain ⟨j, hj, rfl⟩ := List.mem_map.1 hs
      have hj := List.mem_range.1 hj
      rw [viewed_size hT.points] at hj
      refine ⟨j, hj, ?_⟩
      rw [viewed_point hT.points (List.getElem?_eq_getElem hj)]
      unfold spaceDist
      rw [filled_points, List.getElem?_map, List.getElem?_eq_getElem hj]
      simp only [okOr, Option.map_some, head3, dotProduct, Fin.sum_univ_three, Pi.sub_apply, ← sq]
      rfl
    rcases C75_nearest htop (fillFeatures T) e.junk q with ⟨h0, h'⟩ | ⟨k, d, h', hk, hd, hmin⟩
    · have hnn : (scene w).nn q = none := congrArg (okOr none) h'
      rw [hnn]
      intro s hs
      obtain ⟨j, hj, _⟩ := hall s hs
      rw [← filled_length, h0] at hj
      simp at hj
    · have hnn : (scene w).nn q = some (k, d) := congrArg (okOr none) h'
      rw [hnn]
      rw [filled_length] at hk hmin
      simp only [registration2, filled_rejector T S hk, distanceRejector, decide_eq_true_eq]
      have hdist : d = ((targetSite (scene w) k).pos - head3 q) ⬝ᵥ ((targetSite (scene w) k).pos - head3 q) := by
        rw [hd]
        unfold spaceDist targetSite
        rw [filled_points, List.getElem?_map, htgt k _ (List.getElem?_eq_getElem hk), List.getElem?_eq_getElem hk]
        simp only [okOr, Option.map_some, head3, dotProduct, Fin.sum_univ_three, Pi.sub_apply, ← sq]
        rfl
      by_cases hg : 1 < d
      · rw [if_pos hg]
        intro s hs
        obtain ⟨j, hj, hjd⟩ := hall s hs
        rw [hjd]
        exact lt_of_lt_of_le hg (hmin j hj)
      · rw [if_neg hg]
        refine ⟨List.mem_map.2 ⟨k, List.mem_range.2 (by rw [viewed_size hT.points]; exact hk), rfl⟩, by rw [← hdist]; exact not_lt.1 hg, fun s hs => ?_⟩
        obtain ⟨j, hj, hjd⟩ := hall s hs
        rw [← hdist, hjd]
        exact hmin j hj
  have hadd : AddsStiffness (myGeneral (10 ^ 8)) (stiffness (10 ^ 8) ![0, 0, 1, 1, 1, 1]) := by
    rw [C76_general]
    exact restrict_adds ⟨10 ^ 8, ![0, 0, 1, 1, 1, 1]⟩
  exact registration_stiff (nrm := fun i => head3 (okOr 0 (cs.normal i))) hhom (Measures.plane) hadd (stiffness_psd (by norm_num) _) he.solve _ _ (by norm_num [Registration.default]) (by norm_num [Registration.default]) Pose.one res fs' log ho
    (fun it _ => hrule it.T0)

end Scene

theorem sampled_points (out : List (Pt ℝ)) : (sampled out).map MyPoint.point = out.map xyz := by
  unfold sampled xyz
  simp [Function.comp_def]

theorem viewed_sites {T : MyCloud ℝ} {c : RCloud} (h : c.points = (view T).points) : (cloudSites c).map Site.pos = T.map MyPoint.point := by
  apply List.ext_getElem
  · simp [cloudSites, viewed_size h]
  · intro i h1 h2
    rw [List.length_map] at h2
    simp only [cloudSites, List.getElem_map, List.getElem_range, viewed_point h (List.getElem?_eq_getElem h2), okOr]
    funext b
    fin_cases b <;> rfl

theorem surface_sites {e : Env} (he : EnvMeets e) {top : List (Nat × ℝ) → Nat} (htop : TopSpec top) {T : MyCloud ℝ} {ct : RCloud}
    (h : estimate normalSetter e.eig (fun _ => .ok (bruteKnn top T)) 10 (view T) = .ok ct) : SurfaceSites (T.map MyPoint.point) (cloudSites ct) := by
  have hr := target_ready htop he T h
  refine ⟨viewed_sites hr.points, fun i p s hp hs => ?_⟩
  rw [List.getElem?_map] at hp
  obtain ⟨q, hq, rfl⟩ := Option.map_eq_some_iff.1 hp
  have hi : i < T.length := (List.getElem?_eq_some_iff.1 hq).1
  obtain ⟨nb, n, h1, h2, h3, h4⟩ := C76_target_normals htop he T h hq
  have hs' : s.normal = head3 n := by
    unfold cloudSites at hs
    rw [List.getElem?_map, List.getElem?_range (by rw [viewed_size hr.points]; exact hi)] at hs
    cases hs
    have : ct.normal i = .ok n := by simp only [Cloud.normal, getSlot, rd, h2]; rfl
    simp only [this, okOr]
  rw [hs', List.length_map]
  refine ⟨nb, h1, fun h5 => ?_, fun h5 => ?_⟩
  · rw [h3 h5]
    funext b
    fin_cases b <;> rfl
  · obtain ⟨_, ps, g1, g2, g3, g4⟩ := h4 h5
    exact ⟨ps, g1, g2, g3, g4⟩

section Whole

variable {e : Env} (he : EnvMeets e) {top : List (Nat × ℝ) → Nat} (htop : TopSpec top) {targetPoints sourcePoints : List (Fin 3 → ℝ)}
  (hTf : InputFits (d := 0) (fun x : ℝ => x) (1 / 4) targetPoints) (hSf : InputFits (d := 0) (fun x : ℝ => x) (1 / 4) sourcePoints)

theorem input_points (l : List (Fin 3 → ℝ)) : inputPoints l = l.map (vecPoint (d := 0) (fun x : ℝ => x)) := rfl

include htop in
theorem fits_of_usable {T S : MyCloud ℝ} (h : AllUsable (T.map MyPoint.point) (S.map MyPoint.point)) {p : MyPoint ℝ} (hp : p ∈ S) : IndicesFit top T S.length p := by
  intro idx hidx
  obtain ⟨nb, h1, h2⟩ := bruteKnn_ok htop T [] ![p.point 0, p.point 1, p.point 2, 1]
  rw [h1] at hidx
  cases hidx
  have := h _ (List.mem_map.2 ⟨p, hp, rfl⟩) nb (by rw [List.length_map]; exact h2)
  rcases this with h' | h'
  · exact Or.inl (by simpa using h')
  · refine Or.inr fun j hj => ?_
    obtain ⟨c, hc, rfl⟩ := List.mem_map.1 hj
    simpa using h' c hc

include htop in
theorem not_fits_of_unusable {T S : MyCloud ℝ} (h : SomeUnusable (T.map MyPoint.point) (S.map MyPoint.point)) : ∃ p ∈ S, ¬ IndicesFit top T S.length p := by
  obtain ⟨_, hq, h⟩ := h
  obtain ⟨p, hp, rfl⟩ := List.mem_map.1 hq
  refine ⟨p, hp, fun hfit => ?_⟩
  obtain ⟨nb, h1, h2⟩ := bruteKnn_ok htop T [] ![p.point 0, p.point 1, p.point 2, 1]
  refine h nb (by rw [List.length_map]; exact h2) ?_
  rcases hfit _ h1 with h' | h'
  · exact Or.inl (by simpa using h')
  · exact Or.inr fun c hc => by simpa using h' _ (List.mem_map.2 ⟨c, hc, rfl⟩)

include he htop hTf hSf in
/-- C76. A complete execution of the template example. If the indices of the target points nearest to the source points can be used in the source: there is no fault, and all fields of the result are
those of point-to-plane descent from the identity between the sampled clouds, to nearest points within 1 m, with stiffness 10⁸ in roll and pitch. If for some source point they cannot: the execution has a fault; if the
target has at least five points and the source fewer than that and than ten, this is a read outside the source, in every execution. Missing: that the first case is the only one (`C76_violated`). -/
theorem C76_run_partial {x : PrepExec2} {y : RegExec} (hy : RunsToEnd y 4) {r : Res (Result ℝ × List PlaneICP × List (Iteration PlaneICP ℝ))} (h : example2 e top x y targetPoints sourcePoints = some r) :
    ∃ outT outS, BlockSample (1 / 4) (inputPoints targetPoints) outT ∧ BlockSample (1 / 4) (inputPoints sourcePoints) outS ∧
      (AllUsable (outT.map xyz) (outS.map xyz) → ∃ res fs log tgt src, r = .ok (res, fs, log) ∧ SurfaceSites (outT.map xyz) tgt ∧ src.map Site.pos = outS.map xyz ∧
        StiffRun (stiffness (10 ^ 8) ![0, 0, 1, 1, 1, 1]) .plane (NearestWithin tgt 1) src 10 10 (1 / 10 * Real.pi / 180) (1 / 1000) 20 0 (1 / 1000) (Result.init Pose.one) res) ∧
      (SomeUnusable (outT.map xyz) (outS.map xyz) → ∃ f, r = .error f) ∧
      (5 ≤ outT.length → outS ≠ [] → outS.length < 10 → outS.length < outT.length → r = .error .oob) := by
  unfold example2 at h
  rw [input_points] at h ⊢
  cases hvt : voxelgridSamplingPar e.sortOmp ompCut x.targetBlocks (targetPoints.map (vecPoint (d := 0) (fun x : ℝ => x))) (1 / 4) with
  | none => rw [hvt] at h; cases h
  | some rt =>
    obtain ⟨outT, rfl, t1, _⟩ := block_sample he (by simp [vecPoint]) (by norm_num) (by simpa using hTf.2) hvt
    rw [hvt] at h
    dsimp only at h
    rw [input_points] at h ⊢
    cases hvs : voxelgridSamplingPar e.sortOmp ompCut x.sourceBlocks (sourcePoints.map (vecPoint (d := 0) (fun x : ℝ => x))) (1 / 4) with
    | none => rw [hvs] at h; cases h
    | some rs =>
      obtain ⟨outS, rfl, s1, _⟩ := block_sample he (by simp [vecPoint]) (by norm_num) (by simpa using hSf.2) hvs
      rw [hvs] at h
      dsimp only at h
      refine ⟨outT, outS, t1, s1, ?_⟩
      have hlT : (sampled outT).length = outT.length := by simp [sampled]
      have hlS : (sampled outS).length = outS.length := by simp [sampled]
      have hN : outT.length < 2 ^ 32 := by
        have := (block_length t1).1
        rw [List.length_map] at this
        exact lt_of_le_of_lt this hTf.1
      cases hnt : normals2 e top (sampled outT) (sampled outT) x.targetChunks x.targetSched with
      | none => rw [hnt] at h; cases h
      | some rt =>
        obtain ⟨ct, rfl, hct⟩ := (normals2_iff htop e (sampled outT) (sampled outT) hnt).2 (fun p _ => indicesFit_self htop p (Or.inr (le_refl _)))
        rw [hnt] at h
        dsimp only at h
        cases hns : normals2 e top (sampled outT) (sampled outS) x.sourceChunks x.sourceSched with
        | none => rw [hns] at h; cases h
        | some rs =>
          rw [hns] at h
          refine ⟨?_, ?_, ?_⟩
          · intro hok
            obtain ⟨cs, rfl, hcs⟩ := (normals2_iff htop e (sampled outT) (sampled outS) hns).2 (fun p hp => fits_of_usable htop (by rw [sampled_points, sampled_points]; exact hok) hp)
            dsimp only at h
            cases h
            have hr := target_ready htop he _ hct
            have hcp : cs.points = (view (sampled outS)).points := (C49_points normalSetter e.eig _ 10 _ cs).1 hcs
            obtain ⟨⟨res, fs, log⟩, a1, a2⟩ := brute_align htop hr hcp (by rw [hlT]; exact hN) e.junk he rfl hy
            refine ⟨res, fs, log, _, _, a1, ?_, ?_, a2⟩
            · rw [← sampled_points]
              exact surface_sites he htop hct
            · rw [← sampled_points]
              exact viewed_sites hcp
          · intro hbad
            obtain ⟨p, hp, hno⟩ := not_fits_of_unusable htop (T := sampled outT) (S := sampled outS) (by rw [sampled_points, sampled_points]; exact hbad)
            have hiff := normals2_iff htop e (sampled outT) (sampled outS) hns
            cases rs with
            | error f => exact ⟨f, by dsimp only at h; cases h; rfl⟩
            | ok cs =>
              refine absurd (hiff.1 ⟨cs, rfl, ?_⟩ p hp) hno
              unfold normals2 at hns
              split at hns
              swap
              · cases hns
              rename_i hch
              have hpar := C49_parallel _ _ _ _ _ _ _ (by rw [view_size]; exact hch) _ hns
              cases hest : estimate normalSetter e.eig (fun _ => .ok (bruteKnn top (sampled outT))) 10 (view (sampled outS)) with
              | error f => rw [hest] at hpar; cases hpar
              | ok c2 => rw [hest] at hpar; cases hpar; rfl
          · intro h5 hne h10 hlt
            have hoob := normals2_oob htop e (sampled outT) (sampled outS) hns (by intro h0; apply hne; simpa [sampled] using h0)
              (fun p _ => by rw [hlS]; exact indicesFit_small htop p (by rw [hlT]; exact h5) h10 (by rw [hlT]; exact hlt))
            subst hoob
            dsimp only at h
            cases h
            rfl

include he htop hTf hSf in
/-- There is a complete execution of the preparations, whatever the executions of the registration. -/
theorem C76_executes (y : RegExec) : ∃ x r, example2 e top x y targetPoints sourcePoints = some r := by
  have hsamp : ∀ l : List (Fin 3 → ℝ), InputFits (d := 0) (fun x : ℝ => x) (1 / 4) l → ∃ sched out, voxelgridSamplingPar e.sortOmp ompCut sched (inputPoints l) (1 / 4) = some (.ok out) := by
    intro l hl
    rw [input_points]
    have hw : ∀ p ∈ l.map (vecPoint (d := 0) (fun x : ℝ => x)), p.w = 1 := by simp [vecPoint]
    have hkey : ∀ p ∈ l.map (vecPoint (d := 0) (fun x : ℝ => x)), KeyDefined (1 / 4 : ℝ) p := by simpa using hl.2
    by_cases hne : l.map (vecPoint (d := 0) (fun x : ℝ => x)) = []
    · rw [hne]
      exact ⟨[], _, rfl⟩
    · obtain ⟨hp, hs⟩ := he.sortOmp (cpOf (1 / 4 : ℝ) (l.map (vecPoint (d := 0) (fun x : ℝ => x))))
      obtain ⟨hf, hb⟩ := ompCut_isCut (e.sortOmp (cpOf (1 / 4 : ℝ) (l.map (vecPoint (d := 0) (fun x : ℝ => x)))))
      obtain ⟨subs, h2, _⟩ := parStart_eq hf hb hp hs hw
      obtain ⟨js, out, h⟩ := C24_every_schedule_finishes he.sortOmp ompCut_isCut (by norm_num) hkey hw hne [] (coordPt_eq hkey) h2 rfl
      exact ⟨_, _, h⟩
  obtain ⟨bt, outT, hbt⟩ := hsamp _ hTf
  obtain ⟨bs, outS, hbs⟩ := hsamp _ hSf
  have hnorm : ∀ T c : MyCloud ℝ, ∃ chunks sched r, normals2 e top T c chunks sched = some r := by
    intro T c
    obtain ⟨fs, hfs⟩ := parOrder_seq ([List.range c.length].map (fun c => c.flatMap normalSetter.acts))
    refine ⟨[List.range c.length], fs, ?_⟩
    unfold normals2
    rw [if_pos (by simp)]
    simp only [estimatePar, hfs]
    exact ⟨_, rfl⟩
  obtain ⟨tc, ts, rt, hnt⟩ := hnorm (sampled outT) (sampled outT)
  obtain ⟨sc, ss, rs, hns⟩ := hnorm (sampled outT) (sampled outS)
  refine ⟨⟨bt, bs, tc, ts, sc, ss⟩, ?_⟩
  unfold example2
  simp only [hbt, hbs, hnt, hns]
  cases rt with
  | error f => exact ⟨_, rfl⟩
  | ok ct =>
    cases rs with
    | error f => exact ⟨_, rfl⟩
    | ok cs => exact ⟨_, rfl⟩

end Whole

/-- C76. In the descent of the example roll and pitch are held: the result is reached from the identity by at most 20 steps, and in each the squares of the two rotations sum to at most
0.5 · 10⁻⁸ per source point. -/
theorem C76_held {pts : List (Fin 3 → ℝ)} {tgt src : List Site} (ht : SurfaceSites pts tgt) {res : Result ℝ}
    (h : StiffRun (stiffness (10 ^ 8) ![0, 0, 1, 1, 1, 1]) .plane (NearestWithin tgt 1) src 10 10 (1 / 10 * Real.pi / 180) (1 / 1000) 20 0 (1 / 1000) (Result.init Pose.one) res) :
    ∃ steps : List (Fin 6 → ℝ), res.T = follow Pose.one steps ∧ steps.length ≤ 20 ∧ ∀ d ∈ steps, d 0 ^ 2 + d 1 ^ 2 ≤ src.length * (1 / 2) / 10 ^ 8 := by
  have hn : ∀ t ∈ tgt, t.normal ⬝ᵥ t.normal ≤ 1 := by
    intro t htm
    obtain ⟨i, hi, rfl⟩ := List.mem_iff_getElem.1 htm
    have hl : tgt.length = pts.length := by simpa using congrArg List.length ht.1
    obtain ⟨nb, _, h1, h2⟩ := ht.2 i _ _ (List.getElem?_eq_getElem (hl ▸ hi)) (List.getElem?_eq_getElem hi)
    rcases Nat.lt_or_ge pts.length 5 with h5 | h5
    · rw [h1 h5]; simp
    · obtain ⟨_, _, h3, _⟩ := h2 h5
      exact h3.le
  obtain ⟨steps, h1, h2, h3⟩ := C77_held (by norm_num) (by intro i; fin_cases i <;> simp) (by norm_num) (fun hm => by cases hm) (C := src.length * (1 / 2)) (fun L p hp => by
    have h0 : totalCost .plane src p L L ≤ paired p * (1 / 2) := by
      rw [← pairSum_const src p hp.length_eq]
      refine pairSum_le hp fun s t _ hm => ?_
      have h2 : pairDiff L t s ⬝ᵥ pairDiff L t s ≤ 1 := hm.2.1
      have hq := hn t hm.1
      unfold pairCost
      simp only [pairWeight, dotProduct, mulVec_diagonal, Fin.sum_univ_three] at hq h2 ⊢
      generalize pairDiff L t s = x at *
      nlinarith [mul_self_nonneg (t.normal 0), mul_self_nonneg (t.normal 1), mul_self_nonneg (t.normal 2), mul_nonneg (mul_self_nonneg (t.normal 0)) (mul_self_nonneg (x 1)),
        mul_nonneg (mul_self_nonneg (t.normal 0)) (mul_self_nonneg (x 2)), mul_nonneg (mul_self_nonneg (t.normal 1)) (mul_self_nonneg (x 0)),
        mul_nonneg (mul_self_nonneg (t.normal 1)) (mul_self_nonneg (x 2)), mul_nonneg (mul_self_nonneg (t.normal 2)) (mul_self_nonneg (x 0)),
        mul_nonneg (mul_self_nonneg (t.normal 2)) (mul_self_nonneg (x 1)), mul_nonneg (sub_nonneg.2 hq) (add_nonneg (add_nonneg (mul_self_nonneg (x 0)) (mul_self_nonneg (x 1))) (mul_self_nonneg (x 2)))]
    have : (paired p : ℝ) ≤ src.length := by
      have : paired p ≤ src.length := by rw [hp.length_eq]; exact List.countP_le_length
      exact_mod_cast this
    linarith) (by norm_num) h
  refine ⟨steps, h1, h2, fun d hd => ?_⟩
  have := h3 d hd
  simp [maskedPart, Fin.sum_univ_six] at this
  linarith

/-- With fewer than five target points, or no more of them than source points, all indices can be used. -/
theorem C76_usable {tgt src : List (Fin 3 → ℝ)} (h : tgt.length < 5 ∨ tgt.length ≤ src.length) : AllUsable tgt src := by
  intro p _ nb hnb
  have hl := hnb.length_eq
  rcases h with h | h
  · exact Or.inl (by omega)
  · exact Or.inr fun c hc => lt_of_lt_of_le (hnb.valid c hc) h

/-- With fewer than ten source points and more (at least five) target points there is an index that cannot be used. -/
theorem C76_unusable {tgt src : List (Fin 3 → ℝ)} (h5 : 5 ≤ tgt.length) (hne : src ≠ []) (h10 : src.length < 10) (hlt : src.length < tgt.length) : SomeUnusable tgt src := by
  obtain ⟨p, hp⟩ := List.exists_mem_of_ne_nil _ hne
  refine ⟨p, hp, fun nb hnb hu => ?_⟩
  have hl := hnb.length_eq
  rcases hu with h | h
  · omega
  · have hsub : (nb.map Prod.fst).Subperm (List.range src.length) := List.Nodup.subperm hnb.nodup (fun j hj => by
      obtain ⟨c, hc, rfl⟩ := List.mem_map.1 hj
      exact List.mem_range.2 (h c hc))
    have := hsub.length_le
    simp at this
    omega

/-- Points in distinct cells all survive. -/
theorem block_distinct {leaf : ℝ} {pts out : List (Pt ℝ)} (h : BlockSample leaf pts out) (hr : ∀ p ∈ pts, GridInRange leaf p) (hd : (pts.map (gridCell leaf)).Nodup) : out.length = pts.length := by
  classical
  refine le_antisymm (block_length h).1 ?_
  by_cases hne : pts = []
  · rw [hne]; simp
  · obtain ⟨G, E, hp, hG, hg, hE, hc⟩ := h.2 hne
    rw [List.filter_eq_self.2 (fun p hp => by simpa using hr p hp)] at hG hc
    have hsub : pts.map (gridCell leaf) ⊆ G.map (fun g => gridCell leaf (g.headD ⟨0, 0, 0, 0⟩)) := by
      intro c hcm
      obtain ⟨p, hpm, rfl⟩ := List.mem_map.1 hcm
      obtain ⟨g, hgG, hpg⟩ := List.mem_flatten.1 (hG.mem_iff.2 hpm)
      obtain ⟨hne', c, hcell⟩ := hg g hgG
      refine List.mem_map.2 ⟨g, hgG, ?_⟩
      rw [hcell p hpg]
      cases g with
      | nil => exact absurd rfl hne'
      | cons a g => exact hcell a (by simp)
    have h1 := (hd.subperm hsub).length_le
    have h2 := hp.length_eq
    simp at h1 h2
    omega

/-- C76 is violated. A target of six points on a parabola and a source of one point: every complete execution reads outside the source cloud, and there are such executions. -/
theorem C76_violated {e : Env} (he : EnvMeets e) {top : List (Nat × ℝ) → Nat} (htop : TopSpec top) (y : RegExec) (hy : RunsToEnd y 4) :
    (∃ x r, example2 e top x y parabola3 [![0, 0, 0]] = some r) ∧ ∀ x r, example2 e top x y parabola3 [![0, 0, 0]] = some r → r = .error .oob := by
  have hT : InputFits (d := 0) (fun x : ℝ => x) (1 / 4) parabola3 := by
    refine ⟨by simp [parabola3], ?_⟩
    simp [parabola3, vecPoint, KeyDefined, KeyFits, INT_MIN, INT_MAX]
    norm_num
  have hS : InputFits (d := 0) (fun x : ℝ => x) (1 / 4) [![0, 0, 0]] := by
    refine ⟨by simp, ?_⟩
    simp [vecPoint, KeyDefined, KeyFits, INT_MIN, INT_MAX]
  refine ⟨C76_executes he htop hT hS y, fun x r h => ?_⟩
  obtain ⟨outT, outS, t1, s1, _, _, h3⟩ := C76_run_partial he htop hT hS hy h
  have hlT : outT.length = 6 := by
    rw [block_distinct t1]
    · rfl
    · simp [inputPoints, parabola3, GridInRange, In21]
      norm_num
    · simp [inputPoints, parabola3, gridCell]
      norm_num
  have hlS : outS.length ≤ 1 := (block_length s1).1
  exact h3 (by omega) ((block_length s1).2 (by simp [inputPoints])) (by omega) (by omega)

/-- C76 is violated. Orthogonal features are no reason for rejection. -/
theorem C76_rejector_violated : ∃ target source : MyCloud ℝ, (∀ t ∈ target, ∀ s ∈ source, t.features ⬝ᵥ s.features = 0) ∧ myRejector 1 (9 / 10) target source Pose.one 0 0 0 = false := by
  refine ⟨[⟨0, 0, fun i => if i = 0 then 1 else 0⟩], [⟨0, 0, fun i => if i = 1 then 1 else 0⟩], ?_, ?_⟩
  · simp [dotProduct]
  · unfold myRejector
    simp [dotProduct]
    norm_num

/-- The parabola registered to itself: a complete execution without fault, in which roll and pitch are held. -/
example : ∃ (e : Env) (x : PrepExec2) (y : RegExec) (res : Result ℝ) (fs : List PlaneICP) (log : List (Iteration PlaneICP ℝ)) (steps : List (Fin 6 → ℝ)), EnvMeets e ∧ RunsToEnd y 4 ∧
    example2 e frontTop x y parabola3 parabola3 = some (.ok (res, fs, log)) ∧ res.T = follow Pose.one steps ∧ ∀ d ∈ steps, d 0 ^ 2 + d 1 ^ 2 ≤ 1 / 10 ^ 7 := by
  obtain ⟨e, he, _⟩ := env_exists 1000 (by norm_num) (0, 0)
  have hT : InputFits (d := 0) (fun x : ℝ => x) (1 / 4) parabola3 := by
    refine ⟨by simp [parabola3], ?_⟩
    simp [parabola3, vecPoint, KeyDefined, KeyFits, INT_MIN, INT_MAX]
    norm_num
  have hseq : ∀ n : Nat, ∃ sched, (Exec.omp 4 [List.range n] sched [0]).Complete n := by
    intro n
    obtain ⟨sched, h⟩ := parOrder_seq ([List.range n].mapIdx ompThread)
    exact ⟨sched, by omega, by simp, by simp, ⟨_, h⟩, by simp⟩
  choose sched hsched using hseq
  let y : RegExec := ⟨fun _ fs => ⟨[List.range fs.length], sched fs.length, [0]⟩, fun _ fs => ⟨[List.range fs.length], sched fs.length, [0]⟩⟩
  have hy : RunsToEnd y 4 := fun _ fs => ⟨hsched _, hsched _⟩
  obtain ⟨x, r, h⟩ := C76_executes he frontTop_meets hT hT y
  obtain ⟨outT, outS, t1, s1, h1, _, _⟩ := C76_run_partial he frontTop_meets hT hT hy h
  have hlen : ∀ out, BlockSample (1 / 4) (inputPoints parabola3) out → out.length = 6 := by
    intro out ho
    rw [block_distinct ho]
    · rfl
    · simp [inputPoints, parabola3, GridInRange, In21]
      norm_num
    · simp [inputPoints, parabola3, gridCell]
      norm_num
  obtain ⟨res, fs, log, tgt, src, rfl, a1, a2, a3⟩ := h1 (C76_usable (Or.inr (by simp [hlen _ t1, hlen _ s1])))
  obtain ⟨steps, b1, _, b3⟩ := C76_held a1 a3
  refine ⟨e, x, y, res, fs, log, steps, he, hy, h, b1, fun d hd => ?_⟩
  have hl : src.length = 6 := by
    have := congrArg List.length a2
    simpa [hlen _ s1] using this
  have := b3 d hd
  rw [hl] at this
  norm_num at this ⊢
  linarith

end Verif.Props
