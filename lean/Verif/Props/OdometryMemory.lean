import Verif.Props.OdometryDescent

/-!
C68: odometry against a map that accumulates the frames, as a sequence of descents on what the cells remember.
-/

set_option linter.unusedSectionVars false
set_option linter.unusedSimpArgs false
set_option linter.unnecessarySeqFocus false

namespace Verif.Spec

open Matrix Verif Verif.Factors Verif.Voxel Verif.Lie

/-- A site moved by a pose, without normal. -/
def movedSite (T : Pose ℝ) (s : Site) : Site := ⟨move T s.pos, 0, T.R * s.cov * T.Rᵀ⟩

open Classical in
/-- What a cell remembers after scan number `n`, with the number of the last scan that had a point in it: the new points come after the older ones, and at every tenth scan the cell is
forgotten if the last 100 scans had no point in it. -/
noncomputable def remember (resolution : ℝ) (cell : Int × Int × Int) (n : Nat) (old : Option (Nat × List Site)) (scan : List Site) : Option (Nat × List Site) :=
  let new := scan.filter (fun s => decide (spaceCell resolution s.pos = cell))
  let all := if new = [] then old else some (n, (old.elim [] Prod.snd) ++ new)
  if 10 ∣ n + 1 then all.filter (fun e => decide (n + 1 ≤ e.1 + 100)) else all

/-- What a cell remembers after some scans. -/
noncomputable def memory (resolution : ℝ) (cell : Int × Int × Int) (scans : List (List Site)) : Option (Nat × List Site) :=
  scans.zipIdx.foldl (fun old x => remember resolution cell x.2 old x.1) none

/-- The average of some sites. -/
def AverageOf (L : List Site) (t : Site) : Prop :=
  L ≠ [] ∧ t.normal = 0 ∧ t.pos = ((L.length : ℝ)⁻¹) • (L.map Site.pos).sum ∧ t.cov = ((L.length : ℝ)⁻¹) • (L.map Site.cov).sum

open Classical in
/-- The first ten sites that are no closer than 0.1 to one taken before. -/
noncomputable def thin (L : List Site) : List Site :=
  L.foldl (fun kept s => if kept.length < 10 ∧ ∀ t ∈ kept, (1 / 100 : ℝ) ≤ (t.pos - s.pos) ⬝ᵥ (t.pos - s.pos) then kept ++ [s] else kept) []

/-- One of the sites that are left after thinning. -/
def ThinOf (L : List Site) (t : Site) : Prop := t ∈ thin L

/-- The sites that the cell of `q` shows after some scans, if `Q` says which sites are shown for what is remembered. -/
def Shown (Q : List Site → Site → Prop) (resolution : ℝ) (scans : List (List Site)) (q : Fin 3 → ℝ) (t : Site) : Prop :=
  ∃ n L, memory resolution (spaceCell resolution q) scans = some (n, L) ∧ Q L t

/-- Odometry against a map of the earlier frames: the first pose is the identity, and each following one is the end of a descent from the one before. The partner of a point is the nearest of the
sites shown by its cell after the earlier scans, each moved by its own pose, if within distance 1. `scans` are the sampled points of the frames with covariances of their neighbourhoods. -/
structure ModelDescent (Q : List Site → Site → Prop) (leaf resolution maxD : ℝ) (k : Nat) (ptss : List (List (Pt ℝ))) (scans : List (List Site)) (tr : List (Pose ℝ)) : Prop where
  poses : tr.length = ptss.length
  length : scans.length = ptss.length
  sampled : ∀ (i : Nat) ps l, ptss[i]? = some ps → scans[i]? = some l → ∃ out, SerialSample leaf ps out ∧ LocalSites out maxD k l
  first : ∀ T, tr[0]? = some T → T = Pose.one
  next : ∀ (i : Nat) l T T', scans[i + 1]? = some l → tr[i]? = some T → tr[i + 1]? = some T' →
    Descends (Where (HasCell resolution) (NearestOffered (Shown Q resolution ((List.zipWith (fun T l => l.map (movedSite T)) tr scans).take (i + 1))) 1)) l T T'

end Verif.Spec

namespace Verif.Props

open Matrix Verif Verif.Knn Verif.KdTree Verif.Proofs Verif.Proofs.RegMem Verif.Factors Verif.Reduction Verif.Optimizer Verif.PointCloud Verif.RegMem Verif.Spec Verif.Lie
open Verif.Pipeline Verif.Features Verif.Downsample Verif.Helper Verif.OdometryPipeline Verif.Odometry Verif.Voxel Verif.OdometryModel

/-! ### what cells receive and what they remember -/

/-- A received point as a site. -/
def sampleSite (e : Sample ℝ) : Site := ⟨xyz e.1, 0, block33 (e.2.2 * e.2.1.cov * e.2.2ᵀ)⟩

theorem cell_space (resolution : ℝ) (p : Pt ℝ) : cellOf (1 / resolution) p = spaceCell resolution (xyz p) := by
  simp [cellOf, spaceCell, xyz, div_eq_mul_inv]

/-- The points of a call that fall in a cell. -/
noncomputable def callSamples (resolution : ℝ) (cell : Coord) (call : List (SrcPt ℝ) × Mat4 ℝ) : List (Sample ℝ) :=
  (call.1.map (fun s => ((mulPt call.2 s.pt, s, call.2) : Sample ℝ))).filter (fun e => decide (cellOf (1 / resolution) e.1 = cell))

theorem foldl_samples (resolution : ℝ) (cell : Coord) (n : Nat) (T : Mat4 ℝ) : ∀ (ps : List (SrcPt ℝ)) (A : AMap (List (Sample ℝ))),
    ps.foldl (AMap.addPt sampleContents (1 / resolution) n T) A cell =
      if callSamples resolution cell (ps, T) = [] then A cell else some (n, ((A cell).elim [] Prod.snd) ++ callSamples resolution cell (ps, T))
  | [], A => by simp [callSamples]
  | s :: ps, A => by
    rw [List.foldl_cons, foldl_samples resolution cell n T ps]
    by_cases h : cell = cellOf (1 / resolution) (mulPt T s.pt)
    · have e1 : callSamples resolution cell (s :: ps, T) = (mulPt T s.pt, s, T) :: callSamples resolution cell (ps, T) := by
        unfold callSamples
        rw [List.map_cons, List.filter_cons_of_pos (p := fun e : Sample ℝ => decide (cellOf (1 / resolution) e.1 = cell)) (decide_eq_true h.symm)]
      have e2 : AMap.addPt sampleContents (1 / resolution) n T A s cell = some (n, ((A cell).elim [] Prod.snd) ++ [(mulPt T s.pt, s, T)]) := by
        unfold AMap.addPt
        rw [if_pos h]
        cases A cell <;> rfl
      rw [e1, e2, if_neg (List.cons_ne_nil _ _)]
      by_cases h0 : callSamples resolution cell (ps, T) = []
      · rw [if_pos h0, h0]
      · rw [if_neg h0, Option.elim_some, List.append_assoc]
        rfl
    · have e1 : callSamples resolution cell (s :: ps, T) = callSamples resolution cell (ps, T) := by
        unfold callSamples
        rw [List.map_cons, List.filter_cons_of_neg (fun h' => h (of_decide_eq_true h').symm)]
      have e2 : AMap.addPt sampleContents (1 / resolution) n T A s cell = A cell := by
        unfold AMap.addPt
        rw [if_neg h]
      rw [e1, e2]

/-- The scan of a call. -/
noncomputable def callScan (call : List (SrcPt ℝ) × Mat4 ℝ) : List Site := call.1.map (fun s => sampleSite (mulPt call.2 s.pt, s, call.2))

theorem callScan_filter (resolution : ℝ) (cell : Coord) (call : List (SrcPt ℝ) × Mat4 ℝ) [DecidablePred fun s : Site => spaceCell resolution s.pos = cell] :
    (callScan call).filter (fun s => decide (spaceCell resolution s.pos = cell)) = (callSamples resolution cell call).map sampleSite := by
  unfold callScan callSamples
  rw [List.filter_map, List.filter_map, List.map_map]
  congr 1
  apply List.filter_congr
  intro s _
  simp only [cell_space, sampleSite, Function.comp_apply]
  congr

theorem memory_snoc (resolution : ℝ) (cell : Int × Int × Int) (scans : List (List Site)) (scan : List Site) :
    memory resolution cell (scans ++ [scan]) = remember resolution cell scans.length (memory resolution cell scans) scan := by
  unfold memory
  rw [List.zipIdx_append, List.foldl_append]
  simp

/-- Cells remember what the voxel map receives. -/
theorem received_memory (resolution : ℝ) (cell : Coord) (calls : List (List (SrcPt ℝ) × Mat4 ℝ)) :
    (received (1 / resolution) 100 10 calls cell).map (fun e => (e.1, e.2.map sampleSite)) = memory resolution cell (calls.map callScan) := by
  classical
  induction calls using List.reverseRecOn with
  | nil => rfl
  | append_singleton calls call ih =>
    rw [List.map_append, List.map_singleton, memory_snoc, ← ih]
    unfold received
    rw [run_append]
    unfold AMap.call
    rw [foldl_samples, Nat.zero_add, List.length_map]
    generalize AMap.run sampleContents (1 / resolution) 100 10 0 (fun _ => none) calls cell = A
    unfold remember
    simp only [callScan_filter, List.map_eq_nil_iff]
    have hall : ∀ B : Option (Nat × List (Sample ℝ)), ((B.filter (fun e => !(decide (10 ∣ calls.length + 1) && decide (e.1 + 100 < calls.length + 1)))).map
        (fun e => (e.1, sampleContents.finalize e.2))).map (fun e => (e.1, e.2.map sampleSite)) =
        if 10 ∣ calls.length + 1 then (B.map (fun e => (e.1, e.2.map sampleSite))).filter (fun e => decide (calls.length + 1 ≤ e.1 + 100)) else B.map (fun e => (e.1, e.2.map sampleSite)) := by
      intro B
      cases B with
      | none => split <;> rfl
      | some b =>
        by_cases h10 : 10 ∣ calls.length + 1
        · by_cases hb : b.1 + 100 < calls.length + 1
          · have e1 : ¬ (calls.length + 1 ≤ b.1 + 100) := not_le.2 hb
            simp only [h10, hb, Option.filter_some, Option.map_some, decide_true, Bool.and_self, Bool.not_true, Bool.false_eq_true, if_false, if_true, e1, decide_false, Option.map_none]
          · have e1 : calls.length + 1 ≤ b.1 + 100 := not_lt.1 hb
            simp only [h10, hb, Option.filter_some, Option.map_some, decide_true, Bool.and_false, Bool.not_false, if_true, e1, decide_false]
            rfl
        · simp [h10, Option.filter_some, sampleContents]
    rw [hall]
    have hif : (if callSamples resolution cell (call.1, call.2) = [] then A else some (calls.length, A.elim [] Prod.snd ++ callSamples resolution cell (call.1, call.2))).map (fun e => (e.1, e.2.map sampleSite)) =
        if callSamples resolution cell call = [] then A.map (fun e => (e.1, e.2.map sampleSite)) else
          some (calls.length, (A.map (fun e => (e.1, e.2.map sampleSite))).elim [] Prod.snd ++ (callSamples resolution cell call).map sampleSite) := by
      have : (call.1, call.2) = call := rfl
      rw [this]
      split
      · rfl
      · cases A <;> simp
    rw [hif]

section Shown

variable {V : Type} {c : Contents ℝ V} {pts : V → List (Pt ℝ)} {a : Attrs ℝ V} {R : Coord → V → List (Sample ℝ) → Prop} {Q : List Site → Site → Prop}

/-- What a map shows is determined by what the cells remember. -/
theorem offers_shown {resolution : ℝ} (hR : RelOK c sampleContents (1 / resolution) R)
    (hQ : ∀ co v L, R co (c.finalize v) L → (∀ e ∈ L, e.1.w = 1) →
      ∀ t, (∃ (j : Nat) (p : Pt ℝ) (C : Mat4 ℝ), (pts (c.finalize v))[j]? = some p ∧ a.cov (c.finalize v) j = .ok C ∧ t = ⟨xyz p, 0, block33 C⟩) ↔ Q (L.map sampleSite) t)
    {calls : List (List (SrcPt ℝ) × Mat4 ℝ)} (hn : calls.length < 2 ^ 63) (hd : ∀ call ∈ calls, ∀ s ∈ call.1, CellDefined (1 / resolution) (mulPt call.2 s.pt))
    (hw : ∀ call ∈ calls, ∀ s ∈ call.1, (mulPt call.2 s.pt).w = 1) {m : VoxelMap ℝ V} (hm : insertCalls c (VoxelMap.new resolution) calls = .ok m) :
    MapOffers pts a m = Shown Q resolution (calls.map callScan) := by
  have hnew : (VoxelMap.new resolution : VoxelMap ℝ V) = userMap resolution 100 10 [(0, 0, 0)] := rfl
  rw [hnew] at hm
  obtain ⟨m', g1, _, gl, go, g2⟩ := voxel_received resolution hR 100 10 [(0, 0, 0)] (by norm_num) calls (by omega) hd
  rw [hm] at g1
  cases g1
  obtain ⟨m', g1, _, _, _, _, _, _, g3⟩ := insertCalls_ok c calls (userMap resolution 100 10 [(0, 0, 0)]) (userMap_inv resolution 100 10 (by norm_num) [(0, 0, 0)])
    (by simp [userMap, VoxelMap.new]; omega) hd
  rw [hm] at g1
  cases g1
  funext q t
  rw [eq_iff_iff]
  have hq : cellOf (1 / resolution) ⟨q 0, q 1, q 2, 1⟩ = spaceCell resolution q := by
    simp [cellOf, spaceCell, div_eq_mul_inv]
  have hoff : ∀ v : Info × V, (∃ o ∈ m.offsets, v.1.coord = shiftCell (cellOf m.invLeaf ⟨q 0, q 1, q 2, 1⟩) o) ↔ v.1.coord = spaceCell resolution q := by
    intro v
    rw [gl, go, hq]
    simp [shiftCell]
  have hmem : ∀ n L, received (1 / resolution) 100 10 calls (spaceCell resolution q) = some (n, L) →
      memory resolution (spaceCell resolution q) (calls.map callScan) = some (n, L.map sampleSite) := by
    intro n L h
    rw [← received_memory, h]
    rfl
  have hwL : ∀ {co : Coord} {l L}, received (1 / resolution) 100 10 calls co = some (l, L) → ∀ e ∈ L, e.1.w = 1 := by
    intro co l L hL e he
    obtain ⟨call, h1, h2, h3, _⟩ := received_offered _ _ _ _ hL he
    rw [h3]
    exact hw call h1 _ h2
  constructor
  · rintro ⟨v, hv, hc, j, p, C, hp, hC, rfl⟩
    rw [hoff] at hc
    obtain ⟨L, hL, hRL, v', hv'⟩ := g2 v hv
    have hw' := hwL hL
    rw [hc] at hL
    rw [hv'] at hRL hp hC
    exact ⟨_, _, hmem _ _ hL, (hQ _ _ _ hRL hw' _).1 ⟨j, p, C, hp, hC, rfl⟩⟩
  · rintro ⟨n, L', hL', hQL⟩
    rw [← received_memory, Option.map_eq_some_iff] at hL'
    obtain ⟨⟨l, L⟩, hL, he⟩ := hL'
    cases he
    have hrel := relMap_run hR 100 10 calls 0 (fun _ => none) (fun _ => none) (fun _ => trivial) (spaceCell resolution q)
    have hB : AMap.run sampleContents (1 / resolution) 100 10 0 (fun _ => none) calls (spaceCell resolution q) = some (l, L) := hL
    rw [hB] at hrel
    have h3 := g3 (spaceCell resolution q)
    simp only [userMap, VoxelMap.new] at h3
    have hempty : absFlat ([] : List (Info × V)) = fun _ => none := rfl
    rw [hempty] at h3
    rw [← h3] at hrel
    cases hA : absFlat m.flat (spaceCell resolution q) with
    | none => rw [hA] at hrel; exact hrel.elim
    | some x =>
      unfold absFlat at hA
      rw [Option.map_eq_some_iff] at hA
      obtain ⟨v, hv, _⟩ := hA
      have hvm := List.mem_of_find?_eq_some hv
      have hvc : v.1.coord = spaceCell resolution q := by simpa using List.find?_some hv
      obtain ⟨L'', hL'', hRL, v', hv'⟩ := g2 v hvm
      have hw' := hwL hL''
      rw [hvc, hL] at hL''
      cases hL''
      rw [hv'] at hRL
      obtain ⟨j, p, C, h1, h2, h3⟩ := (hQ _ _ _ hRL hw' t).2 hQL
      rw [← hv'] at h1 h2
      exact ⟨v, hvm, (hoff v).2 hvc, j, p, C, h1, h2, h3⟩

end Shown

/-! ### the two kinds of maps -/

theorem gauss_shown (invLeaf : ℝ) (co : Coord) (v : GaussianVoxel ℝ) (L : List (Sample ℝ)) (h : GaussOK invLeaf co (gaussianContents.finalize v) L ∧ L ≠ []) (t : Site) :
    (∃ (j : Nat) (p : Pt ℝ) (C : Mat4 ℝ), [(gaussianContents.finalize v).mean][j]? = some p ∧ gaussianAttrs.cov (gaussianContents.finalize v) j = .ok C ∧ t = ⟨xyz p, 0, block33 C⟩) ↔
      AverageOf (L.map sampleSite) t := by
  have hf : (gaussianContents.finalize v).finalized = true := by
    show v.finalize.finalized = true
    unfold GaussianVoxel.finalize
    split
    · assumption
    · rfl
  generalize gaussianContents.finalize v = w at h hf
  obtain ⟨h, hne⟩ := h
  have hm := h.mean
  have hcv := h.cov
  rw [if_pos hf] at hm hcv
  have hpos : xyz w.mean = ((L.map sampleSite).length : ℝ)⁻¹ • ((L.map sampleSite).map Site.pos).sum := by
    funext i
    rw [Pi.smul_apply, sum_apply3, smul_eq_mul, hm]
    simp only [List.map_map, List.length_map]
    fin_cases i <;> simp [avgPt, xyz, sampleSite, Function.comp_def, div_eq_inv_mul]
  have hcov : block33 w.cov = ((L.map sampleSite).length : ℝ)⁻¹ • ((L.map sampleSite).map Site.cov).sum := by
    have hb : ∀ (a : ℝ) (C : Matrix (Fin 4) (Fin 4) ℝ), block33 (a • C) = a • block33 C := fun a C => by ext i j; simp [block33]
    rw [hcv]
    unfold avgCov
    rw [hb, block33_sum]
    simp [Function.comp_def, sampleSite]
  constructor
  · rintro ⟨j, p, C, hp, hC, rfl⟩
    have hj : j = 0 := by
      have := (List.getElem?_eq_some_iff.1 hp).1
      simpa using this
    subst hj
    have hp : w.mean = p := by simpa using hp
    have hC : w.cov = C := Except.ok.inj hC
    subst hp hC
    exact ⟨by simpa using hne, rfl, hpos, hcov⟩
  · rintro ⟨_, h1, h2, h3⟩
    refine ⟨0, w.mean, w.cov, rfl, rfl, ?_⟩
    obtain ⟨tp, tn, tc⟩ := t
    simp only at h1 h2 h3
    rw [h1, h2, h3, hpos, hcov]

/-- A flat voxel holds what is left after thinning. -/
def ThinOK (v : FlatVoxel ℝ) (L : List (Sample ℝ)) : Prop :=
  (∀ e ∈ L, e.1.w = 1) → ∃ K : List (Sample ℝ), K.Sublist L ∧ v.points = K.map (fun e => e.1) ∧ v.covs = K.map (fun e => e.2.2 * e.2.1.cov * e.2.2ᵀ) ∧ K.map sampleSite = thin (L.map sampleSite)

theorem sqDist_sites (p q : Pt ℝ) (h : p.w = q.w) : Pt.sqDist (exactOps ℝ) p q = (xyz p - xyz q) ⬝ᵥ (xyz p - xyz q) := by
  rw [sqDist_eq, sqd_head p q h]
  rfl

theorem thinOK_add (v : FlatVoxel ℝ) (L : List (Sample ℝ)) (h : ThinOK v L) (tp : Pt ℝ) (src : SrcPt ℝ) (T : Mat4 ℝ) : ThinOK (v.add covSetting tp src T) (L ++ [(tp, src, T)]) := by
  classical
  intro hw
  obtain ⟨K, h1, h2, h3, h4⟩ := h (fun e he => hw e (by simp [he]))
  have htp : tp.w = 1 := hw (tp, src, T) (by simp)
  have hK : ∀ e ∈ K, e.1.w = 1 := fun e he => hw e (by simp [h1.subset he])
  have hthin : thin ((L ++ [(tp, src, T)]).map sampleSite) =
      if (K.map sampleSite).length < 10 ∧ ∀ t ∈ K.map sampleSite, (1 / 100 : ℝ) ≤ (t.pos - xyz tp) ⬝ᵥ (t.pos - xyz tp) then K.map sampleSite ++ [sampleSite (tp, src, T)] else K.map sampleSite := by
    rw [h4]
    unfold thin
    rw [List.map_append, List.foldl_append, List.map_singleton, List.foldl_cons, List.foldl_nil]
    rfl
  have hcond : (covSetting.maxNum ≤ v.points.length ∨ v.points.any (fun p => decide (Pt.sqDist (exactOps ℝ) p tp < covSetting.minSqDist)) = true) ↔
      ¬ ((K.map sampleSite).length < 10 ∧ ∀ t ∈ K.map sampleSite, (1 / 100 : ℝ) ≤ (t.pos - xyz tp) ⬝ᵥ (t.pos - xyz tp)) := by
    rw [not_and_or, h2, List.length_map, List.length_map]
    refine or_congr (by simp [covSetting]) ?_
    rw [List.any_eq_true]
    push Not
    constructor
    · rintro ⟨p, hp, hlt⟩
      obtain ⟨e, he, rfl⟩ := List.mem_map.1 hp
      refine ⟨sampleSite e, List.mem_map_of_mem he, ?_⟩
      have hlt : Pt.sqDist (exactOps ℝ) e.1 tp < covSetting.minSqDist := by simpa using hlt
      rw [sqDist_sites _ _ (by rw [hK e he, htp])] at hlt
      refine hlt.trans_le (le_of_eq ?_)
      norm_num [covSetting]
    · rintro ⟨t, ht, hlt⟩
      obtain ⟨e, he, rfl⟩ := List.mem_map.1 ht
      refine ⟨e.1, List.mem_map_of_mem he, ?_⟩
      rw [decide_eq_true_eq, sqDist_sites _ _ (by rw [hK e he, htp])]
      refine lt_of_lt_of_eq hlt ?_
      norm_num [covSetting]
  unfold FlatVoxel.add
  by_cases hc : covSetting.maxNum ≤ v.points.length ∨ v.points.any (fun p => decide (Pt.sqDist (exactOps ℝ) p tp < covSetting.minSqDist)) = true
  · rw [if_pos hc]
    refine ⟨K, h1.trans (List.sublist_append_left _ _), h2, h3, ?_⟩
    rw [hthin, if_neg (hcond.1 hc)]
  · rw [if_neg hc]
    refine ⟨K ++ [(tp, src, T)], h1.append (List.Sublist.refl _), by simp [h2], by simp [h3, covSetting], ?_⟩
    rw [hthin, if_pos (not_not.1 (fun h => hc (hcond.2 h)))]
    simp

theorem thin_relOK (invLeaf : ℝ) : RelOK (flatContents covSetting) sampleContents invLeaf (fun _ v L => ThinOK v L) where
  fresh cell tp src T hc := thinOK_add _ [] (fun _ => ⟨[], List.Sublist.refl _, rfl, rfl, by simp [thin]⟩) tp src T
  add cell v L tp src T hc h := thinOK_add v L h tp src T
  fin _ _ _ h := h

theorem flat_shown (v : FlatVoxel ℝ) (L : List (Sample ℝ)) (h : ThinOK v L) (hw : ∀ e ∈ L, e.1.w = 1) (t : Site) :
    (∃ (j : Nat) (p : Pt ℝ) (C : Mat4 ℝ), v.points[j]? = some p ∧ (flatAttrs covSetting).cov v j = .ok C ∧ t = ⟨xyz p, 0, block33 C⟩) ↔ ThinOf (L.map sampleSite) t := by
  obtain ⟨K, _, h2, h3, h4⟩ := h hw
  unfold ThinOf
  rw [← h4, List.mem_iff_getElem?, h2]
  have hcov : ∀ (j : Nat) (C : Mat4 ℝ), (flatAttrs covSetting).cov v j = .ok C ↔ v.covs[j]? = some C := by
    intro j C
    show (if covSetting.hasCovs then rd v.covs j else .error .exception) = .ok C ↔ _
    rw [if_pos (show covSetting.hasCovs = true from rfl)]
    unfold rd
    cases v.covs[j]? with
    | none => constructor <;> intro h <;> cases h
    | some D => exact ⟨fun h => congrArg some (Except.ok.inj h), fun h => congrArg Except.ok (Option.some.inj h)⟩
  constructor
  · rintro ⟨j, p, C, hp, hC, rfl⟩
    rw [hcov, h3, List.getElem?_map] at hC
    rw [List.getElem?_map] at hp
    refine ⟨j, ?_⟩
    rw [List.getElem?_map]
    cases hK : K[j]? with
    | none => rw [hK] at hp; cases hp
    | some e =>
      rw [hK] at hp hC
      cases hp
      cases hC
      rfl
  · rintro ⟨j, hj⟩
    rw [List.getElem?_map, Option.map_eq_some_iff] at hj
    obtain ⟨e, he, rfl⟩ := hj
    refine ⟨j, e.1, e.2.2 * e.2.1.cov * e.2.2ᵀ, ?_, ?_, rfl⟩
    · rw [List.getElem?_map, he]
      rfl
    · rw [hcov, h3, List.getElem?_map, he]
      rfl

/-- The points of linear voxels are in order if the inserted ones are. -/
theorem flat_regular {resolution : ℝ} {calls : List (List (SrcPt ℝ) × Mat4 ℝ)} (hn : calls.length < 2 ^ 63)
    (hd : ∀ call ∈ calls, ∀ s ∈ call.1, CellDefined (1 / resolution) (mulPt call.2 s.pt)) {m : VoxelMap ℝ (FlatVoxel ℝ)}
    (hm : insertCalls (flatContents covSetting) (VoxelMap.new resolution) calls = .ok m) (hw : ∀ call ∈ calls, ∀ s ∈ call.1, (mulPt call.2 s.pt).w = 1)
    (hC : ∀ call ∈ calls, ∀ s ∈ call.1, RegularCov (call.2 * s.cov * call.2.transpose)) :
    ∀ v ∈ m.flat, (∀ p ∈ v.2.points, p.w = 1) ∧ ∀ j C, (flatAttrs covSetting).cov v.2 j = .ok C → RegularCov C := by
  have hnew : (VoxelMap.new resolution : VoxelMap ℝ (FlatVoxel ℝ)) = userMap resolution 100 10 [(0, 0, 0)] := rfl
  obtain ⟨m', g1, g2⟩ := C17_flat_voxels covSetting resolution 100 10 [(0, 0, 0)] (by norm_num) calls (by omega) hd
  rw [hnew, g1] at hm
  cases hm
  intro v hv
  obtain ⟨L, hL, ⟨K, k1, k2, _, k4⟩, _⟩ := g2 v hv
  have k4 := k4 rfl
  constructor
  · intro p hp
    rw [k2] at hp
    obtain ⟨e, he, rfl⟩ := List.mem_map.1 hp
    obtain ⟨call, h1, h2, h3, _⟩ := received_offered _ _ _ _ hL (k1.subset he)
    rw [h3]
    exact hw call h1 _ h2
  · intro j C hCj
    have hCj : rd v.2.covs j = .ok C := hCj
    unfold rd at hCj
    cases hj : v.2.covs[j]? with
    | none => rw [hj] at hCj; cases hCj
    | some D =>
      rw [hj] at hCj
      cases hCj
      have := List.mem_of_getElem? hj
      rw [k4] at this
      obtain ⟨e, he, rfl⟩ := List.mem_map.1 this
      obtain ⟨call, h1, h2, _, h4⟩ := received_offered _ _ _ _ hL (k1.subset he)
      rw [h4]
      exact hC call h1 _ h2

/-! ### moved covariances -/

theorem block33_moved (T : Pose ℝ) {C : Matrix (Fin 4) (Fin 4) ℝ} (hb : ∀ a b : Fin 4, a = 3 ∨ b = 3 → C a b = 0) :
    block33 (T.matrix * C * T.matrixᵀ) = T.R * block33 C * T.Rᵀ := by
  have h1 := hb 0 3 (by simp)
  have h2 := hb 1 3 (by simp)
  have h3 := hb 2 3 (by simp)
  have h4 := hb 3 3 (by simp)
  have h5 := hb 3 0 (by simp)
  have h6 := hb 3 1 (by simp)
  have h7 := hb 3 2 (by simp)
  ext i j
  fin_cases i <;> fin_cases j <;> simp [block33, Matrix.mul_apply, Fin.sum_univ_four, Fin.sum_univ_three, Pose.matrix, vecMul, dotProduct, h1, h2, h3, h4, h5, h6, h7]

theorem congr_form {n : Type} [Fintype n] (M C : Matrix n n ℝ) (x : n → ℝ) : x ⬝ᵥ (M * C * Mᵀ) *ᵥ x = (Mᵀ *ᵥ x) ⬝ᵥ C *ᵥ (Mᵀ *ᵥ x) := by
  rw [← mulVec_mulVec, ← mulVec_mulVec, dotProduct_mulVec, ← mulVec_transpose]

theorem regular_moved {T : Pose ℝ} (hT : T.R.det ≠ 0) {C : Matrix (Fin 4) (Fin 4) ℝ} (h : RegularCov C) (hb : ∀ a b : Fin 4, a = 3 ∨ b = 3 → C a b = 0) :
    RegularCov (T.matrix * C * T.matrixᵀ) := by
  refine ⟨⟨?_, fun x => ?_⟩, fun x hx => ?_⟩
  · rw [transpose_mul, transpose_mul, transpose_transpose, h.1.symm, Matrix.mul_assoc]
  · rw [congr_form]
    exact h.1.psd _
  · rw [block33_moved T hb, congr_form]
    refine h.2 _ (fun h0 => hx ?_)
    exact eq_zero_of_mulVec_eq_zero (M := T.Rᵀ) (by rwa [det_transpose]) h0

/-! ### the trajectory -/

theorem list_of {α : Type} {n : Nat} {P : Nat → α → Prop} (h : ∀ i < n, ∃ x, P i x) : ∃ l : List α, l.length = n ∧ ∀ i x, l[i]? = some x → P i x := by
  choose f hf using h
  refine ⟨List.ofFn (fun i : Fin n => f i i.2), by simp, fun i x hx => ?_⟩
  obtain ⟨hi, rfl⟩ := List.getElem?_eq_some_iff.1 hx
  rw [List.getElem_ofFn]
  exact hf _ _

/-- The points of a frame, moved by its pose, as they are inserted. -/
theorem callScan_moved {out : List (Pt ℝ)} {maxD : ℝ} {nb : Nat} {c c' : RCloud} (hc : LocalCovs out maxD nb c) (hw : ∀ p ∈ out, p.w = 1) (h1 : c.points = c'.points) (h2 : c.covs = c'.covs)
    {src : List (SrcPt ℝ)} (hsrc : voxelSource c = .ok src) (T : Pose ℝ) : callScan (src, T.matrix) = (cloudSites c').map (movedSite T) := by
  obtain ⟨b1, b2⟩ := localCovs_border hc hw
  obtain ⟨r1, r2, _, _⟩ := localCovs_regular hc
  have hsz : c.size = c'.size := by unfold Cloud.size; rw [h1]
  rw [voxelSource_get hsrc]
  unfold callScan cloudSites
  rw [List.map_map, List.map_map, hsz]
  apply List.map_congr_left
  intro i hi
  have hi := List.mem_range.1 hi
  rw [← hsz] at hi
  have hp' : c'.point i = c.point i := by unfold Cloud.point; rw [h1]
  have hc' : c'.cov i = c.cov i := by unfold Cloud.cov; rw [h2]
  simp only [Function.comp_apply]
  rw [hp', hc']
  obtain ⟨C, hC, _⟩ := r2.2 i hi
  have hC' : c.cov i = .ok C := by simp only [Cloud.cov, getSlot, rd, hC]; rfl
  obtain ⟨p, hp⟩ := r1 i hi
  have hp' : c.point i = .ok p := by simp only [Cloud.point, getSlot, rd, hp]; rfl
  have hp3 := b1 i p hp
  rw [hp', hC']
  simp only [okOr, sampleSite, movedSite]
  congr 1
  · rw [mulPt_matrix]
    funext a
    fin_cases a <;> simp [xyz, moved, toPt, ofPt, Pose.apply, Pose.matrix, move, head3, mulVec, dotProduct, Fin.sum_univ_four, Fin.sum_univ_three, hp3]
  · exact block33_moved T (b2 i C hC)

section Model

variable {V : Type} {e : Env} (he : EnvMeets e) {o : Params} (hleaf : o.downsamplingResolution ≠ 0) (hnb : 1 ≤ o.numNeighbors) (hres : o.voxelResolution ≠ 0)
variable {k : MapKind V} {pts : V → List (Pt ℝ)} (hk : KindOK k pts) {frames : List Frame} {ptss : List (List (Pt ℝ))} {Q : List Site → Site → Prop}

include he hleaf hnb hres hk in
theorem model_descent (hno : ∀ v j, ∃ f, k.attrs.normal v j = .error f)
    (hshow : ∀ (calls : List (List (SrcPt ℝ) × Mat4 ℝ)) m, calls.length < 2 ^ 63 → (∀ call ∈ calls, ∀ s ∈ call.1, CellDefined (1 / o.voxelResolution) (mulPt call.2 s.pt)) →
      (∀ call ∈ calls, ∀ s ∈ call.1, (mulPt call.2 s.pt).w = 1) → (∀ call ∈ calls, ∀ s ∈ call.1, RegularCov (call.2 * s.cov * call.2.transpose)) →
      insertCalls k.contents (VoxelMap.new o.voxelResolution) calls = .ok m →
      MapOffers pts k.attrs m = Shown Q o.voxelResolution (calls.map callScan) ∧ ∀ v ∈ m.flat, (∀ p ∈ pts v.2, p.w = 1) ∧ ∀ j C, k.attrs.cov v.2 j = .ok C → RegularCov C)
    (hlen : frames.length = ptss.length) (hn : frames.length < 2 ^ 62)
    (hcl : ∀ (i : Nat) f ps, frames[i]? = some f → ptss[i]? = some ps → CloudOf o.downsamplingResolution f.cloud ps ∧ ps.length ≤ 2 ^ 25 ∧
      ∀ out, voxelgridSampling e.sort ps o.downsamplingResolution = .ok out → FrameRuns e { f.exec with tree := .sequential } out) (hmax : 1 < e.maxD) :
    (∃ s scans tr, modelOnline k e o .init (frames.map some) = .ok (s, List.replicate frames.length none, tr) ∧
      ModelDescent Q o.downsamplingResolution o.voxelResolution e.maxD o.numNeighbors.toNat ptss scans tr) ∨
    (modelOnline k e o .init (frames.map some) = .error .intOverflow ∧
      LeavesRange k.contents pts o.downsamplingResolution o.voxelResolution e.maxD o.numNeighbors.toNat ptss) := by
  unfold modelOnline
  rw [online_walk]
  rcases model_walk he hleaf hnb hres hk _ frames ptss rfl hlen hn hcl with ⟨s, calls, tr, w1, w2, _, _, w5⟩ | ⟨w1, w2⟩
  swap
  · right
    rw [w1]
    exact ⟨rfl, w2⟩
  left
  rw [w1]
  have l1 := w2.poses
  have l2 := w2.insertions
  obtain ⟨scans, l3, hscan⟩ := list_of (n := calls.length) (P := fun i (l : List Site) => ∃ call f ps out c c', calls[i]? = some call ∧ frames[i]? = some f ∧ ptss[i]? = some ps ∧
      voxelgridSampling e.sort ps o.downsamplingResolution = .ok out ∧ SerialSample o.downsamplingResolution ps out ∧ LocalCovs out e.maxD o.numNeighbors.toNat c ∧
      LocalFeatures out e.maxD o.numNeighbors.toNat c' ∧ c.points = c'.points ∧ c.covs = c'.covs ∧ voxelSource c = .ok call.1 ∧ l = cloudSites c' ∧
      ∀ j T T', i = j + 1 → tr[j]? = some T → tr[i]? = some T' →
        ∃ m, insertCalls k.contents (VoxelMap.new o.voxelResolution) (calls.take i) = .ok m ∧ m.flat.length ≤ 2 ^ 32 ∧ alignToMap k e f.exec 1 m c T = .ok T') (by
    intro i hi
    have hcall : calls[i]? = some calls[i] := List.getElem?_eq_getElem hi
    obtain ⟨f, ps, out, c, a1, a2, a3, a4, a5, a6, a7⟩ := w5 i _ hcall
    obtain ⟨b0, c', b1, b2, b3⟩ := a5
    exact ⟨cloudSites c', calls[i], f, ps, out, c, c', hcall, a1, a2, a3, a4, ⟨b0, c', b1, b2, b3⟩, b1, b2, b3, a6, rfl, a7⟩)
  -- poses
  have hpose : ∀ (i : Nat) T, tr[i]? = some T → T.R.det ≠ 0 := by
    have hall : ∀ (i : Nat) T, tr[i]? = some T → ∃ steps : List (Fin 6 → ℝ), T = posesAfter Pose.one steps := by
      intro i
      induction i with
      | zero => exact fun T hT => ⟨[], w2.first T hT⟩
      | succ i ih =>
        intro T' hT'
        have hi := (List.getElem?_eq_some_iff.1 hT').1
        have e1 : tr[i]? = some tr[i] := List.getElem?_eq_getElem (by omega)
        obtain ⟨s1, hs1⟩ := ih _ e1
        obtain ⟨s2, _, hs2⟩ := w2.next i _ T' e1 hT'
        refine ⟨s1 ++ s2, ?_⟩
        rw [posesAfter_append, ← hs1, hs2]
    intro i T hT
    obtain ⟨steps, rfl⟩ := hall i T hT
    have := (C41_drift Pose.one ⟨by simp [Pose.one], by simp [Pose.one]⟩ steps).2.1
    intro h0
    rw [h0] at this
    norm_num at this
  -- what is known of an insertion
  have hcalls : ∀ call ∈ calls, ∃ (i : Nat) (T : Pose ℝ) (out : List (Pt ℝ)) (c : RCloud), tr[i]? = some T ∧ call.2 = T.matrix ∧ (∀ s ∈ call.1, CellDefined (1 / o.voxelResolution) (moved T s.pt)) ∧
      LocalCovs out e.maxD o.numNeighbors.toNat c ∧ (∀ p ∈ out, p.w = 1) ∧ voxelSource c = .ok call.1 := by
    intro call hcall
    obtain ⟨i, hi⟩ := List.getElem?_of_mem hcall
    have hil := (List.getElem?_eq_some_iff.1 hi).1
    have hT : tr[i]? = some (tr[i]'(by omega)) := List.getElem?_eq_getElem _
    obtain ⟨f, ps, out, c, a1, a2, a3, a4, a5, a6, _⟩ := w5 i _ hi
    obtain ⟨b1, b2, _⟩ := w2.inserted i ps call _ a2 hi hT
    exact ⟨i, _, out, c, hT, b1, b2, a5, sample_weights he hleaf (hcl i f ps a1 a2).1 a3, a6⟩
  have hd : ∀ call ∈ calls, ∀ s ∈ call.1, CellDefined (1 / o.voxelResolution) (mulPt call.2 s.pt) := by
    intro call hcall s hs
    obtain ⟨_, T, _, _, _, b1, b2, _⟩ := hcalls call hcall
    rw [b1, mulPt_matrix]
    exact b2 s hs
  have hpt : ∀ call ∈ calls, ∀ s ∈ call.1, (mulPt call.2 s.pt).w = 1 ∧ RegularCov (call.2 * s.cov * call.2.transpose) := by
    intro call hcall s hs
    obtain ⟨i, T, out, c, hT, b1, _, b3, b4, b5⟩ := hcalls call hcall
    obtain ⟨q1, q2⟩ := localCovs_border b3 b4
    obtain ⟨r1, r2, _, _⟩ := localCovs_regular b3
    rw [voxelSource_get b5] at hs
    obtain ⟨j, hj, rfl⟩ := List.mem_map.1 hs
    have hj := List.mem_range.1 hj
    obtain ⟨C, hC, hC2, hC3⟩ := r2.2 j hj
    have hC' : c.cov j = .ok C := by simp only [Cloud.cov, getSlot, rd, hC]; rfl
    obtain ⟨p, hp⟩ := r1 j hj
    have hp' : c.point j = .ok p := by simp only [Cloud.point, getSlot, rd, hp]; rfl
    rw [b1, mulPt_matrix]
    simp only [hC', hp', okOr]
    refine ⟨?_, regular_moved (hpose i T hT) ⟨hC2, hC3⟩ (q2 j C hC)⟩
    show T.apply (ofPt (toPt p)) 3 = 1
    rw [apply_last]
    exact q1 j p hp
  -- the scans
  have hworld : List.zipWith (fun T l => l.map (movedSite T)) tr scans = calls.map callScan := by
    refine List.ext_getElem (by simp; omega) (fun i h1 h2 => ?_)
    rw [List.getElem_zipWith, List.getElem_map]
    have hi1 : i < tr.length := by simp at h1; omega
    have hi2 : i < scans.length := by simp at h1; omega
    obtain ⟨call, f, ps, out, c, c', a0, a1, a2, a3, _, a5, a6, a7, a8, a9, a10, _⟩ := hscan i _ (List.getElem?_eq_getElem hi2)
    have hcall : calls[i]'(by omega) = call := by
      have := List.getElem?_eq_getElem (l := calls) (i := i) (by omega)
      rw [this] at a0
      exact Option.some.inj a0
    obtain ⟨b1, _⟩ := w2.inserted i ps call _ a2 a0 (List.getElem?_eq_getElem hi1)
    rw [hcall, a10, ← callScan_moved a5 (sample_weights he hleaf (hcl i f ps a1 a2).1 a3) a7 a8 a9 tr[i], ← b1]
  refine ⟨s, scans, tr, by rw [ok_bind, List.length_map], l1, by omega, ?_, w2.first, ?_⟩
  · intro i ps l hps hl
    obtain ⟨call, f, ps', out, c, c', _, _, a2, _, a4, _, a6, _, _, _, rfl, _⟩ := hscan i l hl
    rw [hps] at a2
    cases a2
    exact ⟨out, a4, cloud_sites a6⟩
  · intro i l T T' hl hT hT'
    obtain ⟨call, f, ps, out, c, c', a0, a1, a2, a3, _, a5, a6, a7, a8, a9, rfl, a11⟩ := hscan (i + 1) l hl
    obtain ⟨m, m1, m2, m3⟩ := a11 i T T' rfl hT hT'
    have hsub : ∀ call ∈ calls.take (i + 1), call ∈ calls := fun call h => List.mem_of_mem_take h
    have hlt : (calls.take (i + 1)).length < 2 ^ 63 := by rw [List.length_take]; omega
    obtain ⟨m', g1, _, g3, g4, _⟩ := map_after k.contents o.voxelResolution (calls.take (i + 1)) hlt (fun call h => hd call (hsub call h))
    rw [m1] at g1
    cases g1
    obtain ⟨z1, z2⟩ := hshow (calls.take (i + 1)) m hlt (fun call h => hd call (hsub call h)) (fun call h s hs => (hpt call (hsub call h) s hs).1) (fun call h s hs => (hpt call (hsub call h) s hs).2) m1
    have hx := (hcl (i + 1) f ps a1 a2).2.2 out a3
    have := alignToMap_descends he hk hno (by rw [← insertCalls_ops]; exact m1) m2 g3 g4 (fun v hv => (z2 v hv).1) (fun v hv => (z2 v hv).2) a5
      (sample_weights he hleaf (hcl (i + 1) f ps a1 a2).1 a3) hx.2.2 hmax m3 (fun i => head3 (okOr 0 (c'.normal i)))
    have hsites : sitesOf c (fun i => head3 (okOr 0 (c'.normal i))) = cloudSites c' := by
      unfold sitesOf cloudSites Cloud.size Cloud.point Cloud.cov
      rw [a7, a8]
    rw [hsites, z1, List.map_take, ← hworld] at this
    exact this

end Model

section Engines

variable {e : Env} (he : EnvMeets e) {o : Params} (hleaf : o.downsamplingResolution ≠ 0) (hnb : 1 ≤ o.numNeighbors) (hres : o.voxelResolution ≠ 0)
variable {frames : List Frame} {ptss : List (List (Pt ℝ))} (hlen : frames.length = ptss.length) (hn : frames.length < 2 ^ 62)
    (hcl : ∀ (i : Nat) f ps, frames[i]? = some f → ptss[i]? = some ps → CloudOf o.downsamplingResolution f.cloud ps ∧ ps.length ≤ 2 ^ 25 ∧
      ∀ out, voxelgridSampling e.sort ps o.downsamplingResolution = .ok out → FrameRuns e { f.exec with tree := .sequential } out) (hmax : 1 < e.maxD)

include he hleaf hnb hres hlen hn hcl hmax in
/-- **C68, Gaussian voxel map of the earlier frames** (`small_vgicp_model_omp`, `small_vgicp_model_tbb`). The poses are a sequence of descents in which the partner of a point is the average of
all sampled points of earlier frames, each moved by the pose of its frame, that its cell remembers. Otherwise a cell coordinate overflows. -/
theorem C68_vgicp_model :
    (∃ s scans tr, modelOnline gaussianKind e o .init (frames.map some) = .ok (s, List.replicate frames.length none, tr) ∧
      ModelDescent AverageOf o.downsamplingResolution o.voxelResolution e.maxD o.numNeighbors.toNat ptss scans tr) ∨
    (modelOnline gaussianKind e o .init (frames.map some) = .error .intOverflow ∧
      LeavesRange gaussianContents (fun v => [v.mean]) o.downsamplingResolution o.voxelResolution e.maxD o.numNeighbors.toNat ptss) := by
  refine model_descent he hleaf hnb hres gaussianKind_ok (fun v j => ⟨_, rfl⟩) ?_ hlen hn hcl hmax
  intro calls m h1 h2 h3 h4 h5
  refine ⟨offers_shown (gauss_relOK _) (fun co v L h _ t => gauss_shown _ co v L h t) h1 h2 h3 h5, fun v hv => ?_⟩
  obtain ⟨a, b⟩ := gaussian_regular h1 h2 h5 h3 h4 v hv
  exact ⟨fun p hp => by rw [List.mem_singleton] at hp; rw [hp]; exact a, fun j C hC => by cases hC; exact b⟩

include he hleaf hnb hres hlen hn hcl hmax in
/-- **C68, linear voxel map of the earlier frames** (`small_gicp_model_omp`, `small_gicp_model_tbb`). The poses are a sequence of descents in which the partner of a point is the nearest of the
points which its cell keeps of all sampled points of earlier frames, each moved by the pose of its frame, that it remembers: the first ten that are not closer than 0.1 to one kept before.
Otherwise a cell coordinate overflows. -/
theorem C68_gicp_model :
    (∃ s scans tr, modelOnline linearKind e o .init (frames.map some) = .ok (s, List.replicate frames.length none, tr) ∧
      ModelDescent ThinOf o.downsamplingResolution o.voxelResolution e.maxD o.numNeighbors.toNat ptss scans tr) ∨
    (modelOnline linearKind e o .init (frames.map some) = .error .intOverflow ∧
      LeavesRange (flatContents covSetting) FlatVoxel.points o.downsamplingResolution o.voxelResolution e.maxD o.numNeighbors.toNat ptss) := by
  refine model_descent he hleaf hnb hres linearKind_ok (fun v j => ⟨.exception, rfl⟩) ?_ hlen hn hcl hmax
  intro calls m h1 h2 h3 h4 h5
  exact ⟨offers_shown (thin_relOK _) (fun co v L h hw t => flat_shown v L h hw t) h1 h2 h3 h5, flat_regular h1 h2 h5 h3 h4⟩

end Engines

/-! ### concrete cases -/

/-- The frame-to-frame chain for two equal frames. -/
example : ∃ e : Env, EnvMeets e ∧ ∃ s ps, gicpOnline e ⟨20, 1, 1, 1⟩ .init ([plainFrame parabola, plainFrame parabola].map some) = .ok (s, ps, [Pose.one, Pose.one]) ∧
    DescentChain (fun tgt => NearestWithin tgt 1) 1 1000 20 [parabola, parabola] [Pose.one, Pose.one] := by
  obtain ⟨e, he, hm, _⟩ := env_exists 1000 (by norm_num) (0, 0)
  have hok := plainFrame_ok e (leaf := 1) parabola_ok.1 (by simp [parabola]) parabola_ok.2.1
  have hcl : ∀ (i : Nat) f pts, [plainFrame parabola, plainFrame parabola][i]? = some f → [parabola, parabola][i]? = some pts → CloudOf 1 f.cloud pts ∧
      ∀ out, voxelgridSampling e.sort pts 1 = .ok out → FrameRuns e f.exec out := by
    intro i f pts hf hp
    match i with
    | 0 | 1 => cases hf; cases hp; exact ⟨hok.1, fun out _ => hok.2 out⟩
    | i + 2 => cases hf
  have hne : ¬ EmptyBefore [parabola, parabola] := by
    rintro ⟨i, ps, e1, _⟩
    match i with
    | 0 | 1 => cases e1
    | i + 2 => cases e1
  obtain ⟨_, h⟩ := C63_online he (o := ⟨20, 1, 1, 1⟩) one_ne_zero (by norm_num) (frames := [plainFrame parabola, plainFrame parabola]) (ptss := [parabola, parabola]) rfl hcl (by rw [hm]; norm_num)
  obtain ⟨s, ps, tr, h1, _, h2⟩ := h hne
  have h3 := C68_online he (o := ⟨20, 1, 1, 1⟩) one_ne_zero (by norm_num) (frames := [plainFrame parabola, plainFrame parabola]) (ptss := [parabola, parabola]) rfl hcl (by rw [hm]; norm_num) hne
  obtain ⟨s', ps', tr', h4, h5⟩ := h3
  rw [h1] at h4
  cases h4
  refine ⟨e, he, s, ps, ?_⟩
  obtain ⟨hl, h0, _, hsame, _⟩ := h2
  match tr, hl with
  | [a, b], _ =>
    have ha := h0 a rfl
    have hb := hsame 0 parabola a b rfl rfl rfl rfl
    rw [hb, ha] at h1 h5
    exact ⟨h1, by simpa [hm] using h5⟩

/-- The premises for maps of earlier frames are met. -/
example : ∃ e : Env, EnvMeets e ∧ ∃ scans, ModelDescent ThinOf 1 1 1000 20 [[⟨5, 6, 7, 1⟩]] scans [Pose.one] ∧ ∃ m, modelOnline linearKind e ⟨20, 1, 1, 1⟩ .init [some (plainFrame [⟨5, 6, 7, 1⟩])] = .ok (⟨some m, Pose.one⟩, [none], [Pose.one]) := by
  obtain ⟨e, he, hm, _⟩ := env_exists 1000 (by norm_num) (0, 0)
  have hk : KeyDefined (1 : ℝ) ⟨5, 6, 7, 1⟩ := by simp [KeyDefined, KeyFits, INT_MIN, INT_MAX]
  have hd : CellDefined (1 : ℝ) ⟨5, 6, 7, 1⟩ := by simp [CellDefined, INT_MIN, INT_MAX]
  obtain ⟨m, hrun, _⟩ := (single_frame he linearKind_ok one_ne_zero rfl hk).1 hd
  have hok := plainFrame_ok e (leaf := 1) (pts := [⟨5, 6, 7, 1⟩]) (by simp) (by simp) (by simpa using hk)
  rcases C68_gicp_model he (o := ⟨20, 1, 1, 1⟩) one_ne_zero (by norm_num) one_ne_zero (frames := [plainFrame [⟨5, 6, 7, 1⟩]]) (ptss := [[⟨5, 6, 7, 1⟩]]) rfl (by simp) (by
    intro i f ps hf hp
    match i with
    | 0 => cases hf; cases hp; exact ⟨hok.1, by simp, fun out _ => hok.2 out⟩
    | i + 1 => cases hf) (by rw [hm]; norm_num) with ⟨s, scans, tr, h1, h2⟩ | ⟨h1, _⟩
  · have h1 : modelOnline linearKind e ⟨20, 1, 1, 1⟩ .init [some (plainFrame [⟨5, 6, 7, 1⟩])] = .ok (s, [none], tr) := h1
    rw [hrun] at h1
    cases h1
    exact ⟨e, he, scans, by simpa [hm] using h2, m, hrun⟩
  · have h1 : modelOnline linearKind e ⟨20, 1, 1, 1⟩ .init [some (plainFrame [⟨5, 6, 7, 1⟩])] = .error .intOverflow := h1
    rw [hrun] at h1
    cases h1

/-- A cell remembers the points of several scans, in order. -/
example (a b : Site) (ha : spaceCell 1 a.pos = (0, 0, 0)) (hb : spaceCell 1 b.pos = (0, 0, 0)) : memory 1 (0, 0, 0) [[a], [], [b]] = some (2, [a, b]) := by
  simp [memory, remember, List.zipIdx, ha, hb]

/-- It forgets what it has not seen for more than 100 scans, at the next multiple of ten. -/
example (a : Site) (ha : spaceCell 1 a.pos = (0, 0, 0)) : memory 1 (0, 0, 0) ([a] :: List.replicate 108 []) = some (0, [a]) ∧ memory 1 (0, 0, 0) ([a] :: List.replicate 109 []) = none := by
  have h : ∀ n, n ≤ 108 → memory 1 (0, 0, 0) ([a] :: List.replicate n []) = some (0, [a]) := by
    intro n
    induction n with
    | zero => intro _; simp [memory, remember, List.zipIdx, ha]
    | succ n ih =>
      intro hn
      rw [List.replicate_succ', ← List.cons_append, memory_snoc, ih (by omega)]
      simp only [remember, List.filter_nil, if_true, List.length_cons, List.length_replicate]
      split
      · rename_i h10
        have : n ≤ 98 := by omega
        simp [this]
      · rfl
  refine ⟨h 108 le_rfl, ?_⟩
  rw [List.replicate_succ' (n := 108), ← List.cons_append, memory_snoc, h 108 le_rfl]
  simp [remember]

/-- Of two equal points one is kept. -/
example (a : Site) : thin [a, a] = [a] := by
  simp [thin]

end Verif.Props
