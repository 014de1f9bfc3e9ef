import Verif.Model.RegistrationMap
import Verif.Props.RegistrationVoxel
import Verif.Props.VoxelContents
import Verif.Props.VoxelExamples

/-! C64: registration against a voxel map with any contents, in particular one of flat containers. -/

set_option linter.unusedSectionVars false
set_option linter.unusedSimpArgs false

namespace Verif.Spec

open Verif Verif.Voxel

variable {K : Type} [Field K] [LinearOrder K] [FloorRing K]

/-- Point `p` is stored with id `k` in one of the cells searched for `q`. -/
def Held {V : Type} (pts : V → List (Pt K)) (m : VoxelMap K V) (q : Pt K) (k : Nat) (p : Pt K) : Prop :=
  StoredIn pts m.flat (fun cell => ∃ o ∈ m.offsets, cell = shiftCell (cellOf m.invLeaf q) o) k p

end Verif.Spec

namespace Verif.Props

open Matrix Verif Verif.Knn Verif.Voxel Verif.Proofs Verif.Proofs.RegMem Verif.Factors Verif.Reduction Verif.Optimizer Verif.PointCloud Verif.RegMem

variable {K : Type} [Field K] [LinearOrder K] [IsStrictOrderedRing K] [FloorRing K] {V : Type}

section Map

variable {c : Contents K V} {pts : V → List (Pt K)} (hl : Lawful c pts) (a : Attrs K V) (m : VoxelMap K V) (hI : Indexed m.table m.flat) (hb : IdsFit pts m)

include hb in
/-- An id belongs to one point. -/
theorem held_unique {q : Pt K} {k : Nat} {p p' : Pt K} (h : Spec.Held pts m q k p) (h' : Spec.Held pts m q k p') : p = p' := by
  obtain ⟨i, v, j, hv, _, hp, rfl⟩ := h
  obtain ⟨i', v', j', hv', _, hp', hid⟩ := h'
  have h1 : j < 2 ^ 32 := ((List.getElem?_eq_some_iff.1 hp).1).trans_le (hb.2 v (List.mem_of_getElem? hv))
  have h2 : j' < 2 ^ 32 := ((List.getElem?_eq_some_iff.1 hp').1).trans_le (hb.2 v' (List.mem_of_getElem? hv'))
  have : i = i' ∧ j = j' := by omega
  obtain ⟨rfl, rfl⟩ := this
  rw [hv] at hv'
  cases hv'
  rw [hp] at hp'
  exact Option.some.inj hp'

include hl hI hb in
/-- The search of a factor on a voxel map. -/
theorem mapNearest_spec (maxD : K) (source : PCloud K) (junk : Nat × K) (q : Fin 4 → K) :
    (¬ Spec.QueryInRange m (toPt q) → (mapWorld c a maxD m source junk).nn q = .error .intOverflow) ∧
    (Spec.QueryInRange m (toPt q) → ∃ o, (mapWorld c a maxD m source junk).nn q = .ok o ∧
      (o = none → ∀ i p, Spec.Held pts m (toPt q) i p → maxD ≤ Spec.sqd p (toPt q)) ∧
      ∀ k d, o = some (k, d) → d < maxD ∧ ∃ p, Spec.Held pts m (toPt q) k p ∧ d = Spec.sqd p (toPt q) ∧
        ∀ i' p', Spec.Held pts m (toPt q) i' p' → d ≤ Spec.sqd p' (toPt q)) := by
  constructor
  · intro hq
    show (Voxel.search c maxD m (toPt q) 1 (-1) [junk.1] [junk.2] >>= _) = _
    rw [search_undefined hl m hI _ hq maxD 1 (-1) 1 (by simp) (by omega) (by omega) _ _ (by simp) (by simp)]
    rfl
  · intro hq
    obtain ⟨r, h1, h2, _⟩ := C14_search_exact hl m hI hb (toPt q) hq.1 hq.2 maxD 1 (-1) 1 (by simp) (by omega) (by omega) [junk.1] [junk.2]
      (by simp) (by simp)
    refine ⟨r.found.head?, ?_, ?_, ?_⟩
    · show (Voxel.search c maxD m (toPt q) 1 (-1) [junk.1] [junk.2] >>= _) = _
      rw [h1]
      rfl
    · intro hnone i p hs
      rw [List.head?_eq_none_iff] at hnone
      by_contra hlt
      have := h2.complete (by rw [hnone]; simp) _ _ ⟨⟨p, hs, rfl⟩, not_le.1 hlt⟩
      rw [hnone] at this
      simp at this
    · intro k d hkd
      have hmem : (k, d) ∈ r.found := List.mem_of_mem_head? hkd
      obtain ⟨⟨p, hp, hd⟩, hlt⟩ := h2.genuine _ hmem
      refine ⟨hlt, p, hp, hd, fun i' p' hs => ?_⟩
      by_cases hik : i' = k
      · subst hik
        rw [held_unique m hb hs hp]
        exact hd.le
      · by_cases hfar : Spec.sqd p' (toPt q) < maxD
        · refine h2.best _ _ ⟨⟨p', hs, rfl⟩, hfar⟩ ?_ _ hmem
          have hl := h2.length_le
          intro hin
          rcases hfd : r.found with _ | ⟨b, _ | ⟨b', l⟩⟩
          · rw [hfd] at hmem; cases hmem
          · rw [hfd] at hin hmem
            simp only [List.map_cons, List.map_nil, List.mem_singleton] at hin hmem
            rw [← hmem] at hin
            exact hik hin
          · rw [hfd] at hl; simp at hl
        · exact (hlt.trans_le (not_lt.1 hfar)).le

/-- Ids are valid, and the attributes a factor needs can be read for every stored point. -/
structure Readable (pts : V → List (Pt K)) (a : Attrs K V) (m : VoxelMap K V) (needs : Needs) : Prop where
  size : m.flat.length ≤ 2 ^ 32
  cell : ∀ v ∈ m.flat, (pts v.2).length < 2 ^ 32
  normal : needs.normals = true → ∀ v ∈ m.flat, ∀ j < (pts v.2).length, ∃ n, a.normal v.2 j = .ok n
  cov : needs.covs = true → ∀ v ∈ m.flat, ∀ j < (pts v.2).length, ∃ n, a.cov v.2 j = .ok n

theorem Readable.fit {a : Attrs K V} {m : VoxelMap K V} {needs : Needs} (h : Readable pts a m needs) : IdsFit pts m := ⟨h.size, fun v hv => (h.cell v hv).le⟩

theorem held_id {a : Attrs K V} {m : VoxelMap K V} {needs : Needs} (h : Readable pts a m needs) {q : Pt K} {k : Nat} {p : Pt K} (hk : Spec.Held pts m q k p) : k ≠ npos := by
  obtain ⟨i, v, j, hv, _, hp, rfl⟩ := hk
  have h1 : j < 2 ^ 32 - 1 := by
    have := (List.getElem?_eq_some_iff.1 hp).1
    have := h.cell v (List.mem_of_getElem? hv)
    omega
  have h2 : i < 2 ^ 32 := ((List.getElem?_eq_some_iff.1 hv).1).trans_le h.size
  unfold npos
  omega

include hl hI in
theorem map_sound {needs : Needs} (hr : Readable pts a m needs) (source : PCloud K) (hsp : Spec.PointsSet source)
    (hcov : needs.covs = true → Spec.CovsSet source) (maxD : K) (junk : Nat × K) :
    Sound (· = .intOverflow) (mapWorld c a maxD m source junk) needs source.size where
  srcPoint i hi := by
    obtain ⟨p, hp⟩ := hsp i hi
    exact ⟨p, by simp only [mapWorld, Cloud.point, getSlot, rd, hp]; rfl⟩
  srcCov hc i hi := by
    obtain ⟨p, hp⟩ := hcov hc i hi
    exact ⟨p, by simp only [mapWorld, Cloud.cov, getSlot, rd, hp]; rfl⟩
  nn q := by
    obtain ⟨h1, h2⟩ := mapNearest_spec hl a m hI hr.fit maxD source junk q
    by_cases hq : Spec.QueryInRange m (toPt q)
    · obtain ⟨o, ho, _⟩ := h2 hq
      exact Or.inl ⟨o, ho⟩
    · exact Or.inr ⟨_, rfl, h1 hq⟩
  found q k d h := by
    obtain ⟨h1, h2⟩ := mapNearest_spec hl a m hI hr.fit maxD source junk q
    by_cases hq : Spec.QueryInRange m (toPt q)
    · obtain ⟨o, ho, _, h3⟩ := h2 hq
      rw [h] at ho
      simp only [Except.ok.injEq] at ho
      obtain ⟨_, p, hp, _⟩ := h3 k d ho.symm
      refine ⟨held_id hr hp, ?_⟩
      obtain ⟨i, v, j, hv, _, hpj, rfl⟩ := hp
      have hj := (List.getElem?_eq_some_iff.1 hpj).1
      have hm := List.mem_of_getElem? hv
      have hj' := hj.trans (hr.cell v hm)
      refine ⟨⟨ofPt p, ?_⟩, fun hc => ?_, fun hc => ?_⟩
      · simp only [mapWorld, pointAt, voxelId_eq i j hj', pointId_eq i j hj', rd_of_getElem? hv, ok_bind, hl.point _ _ _ hpj]
        rfl
      · obtain ⟨n, hn⟩ := hr.normal hc v hm j hj
        exact ⟨ofPt n, by simp only [mapWorld, mapNormal, voxelId_eq i j hj', pointId_eq i j hj', rd_of_getElem? hv, ok_bind, hn]; rfl⟩
      · obtain ⟨n, hn⟩ := hr.cov hc v hm j hj
        exact ⟨n, by simp only [mapWorld, mapCov, voxelId_eq i j hj', pointId_eq i j hj', rd_of_getElem? hv, ok_bind, hn]⟩
    · rw [h1 hq] at h; cases h

end Map

/-- Registration against a voxel map with consistent table and readable attributes: definedness and correspondences. -/
theorem map_registration {F : Type} {needs : Needs} {mf : MemFactor F K} {pf : PointFactor F K} (h : Ships needs mf pf) {c : Contents K V} {pts : V → List (Pt K)} (hl : Lawful c pts) (a : Attrs K V)
    (m : VoxelMap K V) (hI : Indexed m.table m.flat) (hr : Readable pts a m needs) (source : PCloud K) (hsp : Spec.PointsSet source) (hcov : needs.covs = true → Spec.CovsSet source)
    (maxD : K) (junk : Nat × K) (cfg : Config K) (execL execE : Pose K → List F → Exec)
    (hL : ∀ T fs, fs.length = source.size → (execL T fs).Complete source.size) (hE : ∀ T fs, fs.length = source.size → (execE T fs).Complete source.size)
    (meth : Method K) (T0 : Pose K) :
    ∃ r fs' log, meth.run (registrationProblem pf (scene (mapWorld c a maxD m source junk)) cfg.rejector cfg.general cfg.solve cfg.exp cfg.converged) T0
        (List.replicate source.size pf.init) = .ok (r, fs', log) ∧
      (RegMem.align mf (mapWorld c a maxD m source junk) cfg execL execE meth T0 source.size =
        open Classical in if ∀ it ∈ log, ∀ (i : Nat) (p : Fin 4 → K), source.points[i]? = some (some p) → Spec.QueryInRange m (toPt (it.T0.apply p))
          then .ok (r, fs', log) else .error .intOverflow) ∧
      ∀ gate, cfg.rejector = distanceRejector gate → gate < maxD → ∀ it ∈ log, it.factors.length = source.size ∧
        ∀ (i : Nat) (f : F) (p : Fin 4 → K), it.factors[i]? = some f → source.points[i]? = some (some p) → Spec.QueryInRange m (toPt (it.T0.apply p)) → mf.source f = i ∧
          (mf.inlier f = true ↔ ∃ j x, Spec.Held pts m (toPt (it.T0.apply p)) j x ∧ Spec.sqd x (toPt (it.T0.apply p)) ≤ gate) ∧
          (mf.inlier f = true → ∃ x, Spec.Held pts m (toPt (it.T0.apply p)) (mf.target f) x ∧
            ∀ j' x', Spec.Held pts m (toPt (it.T0.apply p)) j' x' → Spec.sqd x (toPt (it.T0.apply p)) ≤ Spec.sqd x' (toPt (it.T0.apply p))) := by
  have hw := map_sound hl a m hI hr source hsp hcov maxD junk
  obtain ⟨⟨r, fs', log⟩, h1, h2⟩ := align_approx h hw cfg execL execE hL hE meth T0
  have hiff := align_ok_iff h hw cfg execL execE hL hE meth T0 _ h1
  have hsrc : ∀ i p, source.points[i]? = some (some p) → (scene (mapWorld c a maxD m source junk)).srcPoint i = p := by
    intro i p hp
    simp only [scene, mapWorld, Cloud.point, getSlot, rd, hp]
    rfl
  refine ⟨r, fs', log, h1, ?_, ?_⟩
  · have heq : (∀ it ∈ log, ∀ i < source.size, ∃ o, (mapWorld c a maxD m source junk).nn (it.T0.apply ((scene (mapWorld c a maxD m source junk)).srcPoint i)) = .ok o) ↔
        ∀ it ∈ log, ∀ (i : Nat) (p : Fin 4 → K), source.points[i]? = some (some p) → Spec.QueryInRange m (toPt (it.T0.apply p)) := by
      constructor
      · intro hd it hit i p hp
        have hi : i < source.size := (List.getElem?_eq_some_iff.1 hp).1
        obtain ⟨o, ho⟩ := hd it hit i hi
        rw [hsrc i p hp] at ho
        by_contra hq
        rw [(mapNearest_spec hl a m hI hr.fit maxD source junk _).1 hq] at ho
        cases ho
      · intro hd it hit i hi
        obtain ⟨p, hp⟩ := hsp i hi
        rw [hsrc i p hp]
        obtain ⟨o, ho, _⟩ := (mapNearest_spec hl a m hI hr.fit maxD source junk _).2 (hd it hit i p hp)
        exact ⟨o, ho⟩
    split
    · rename_i hd
      exact hiff.2 (heq.2 hd)
    · rename_i hd
      rcases h2 with h2 | ⟨e, rfl, h2⟩
      · exact absurd (heq.1 (hiff.1 h2)) hd
      · exact h2
  · intro gate hgate hgm it hit
    obtain ⟨_, _, g3⟩ := run_factors h hw cfg meth T0 r fs' log h1
    obtain ⟨k1, k2⟩ := g3 it hit
    refine ⟨k1, fun i f p hf hp hq => ?_⟩
    obtain ⟨k3, k4⟩ := k2 i f hf
    refine ⟨k3, ?_⟩
    rw [ships_inlier h, k4]
    obtain ⟨o, m1, m2, m3⟩ := (mapNearest_spec hl a m hI hr.fit maxD source junk (it.T0.apply p)).2 hq
    have hnn : (scene (mapWorld c a maxD m source junk)).nn (it.T0.apply p) = o := by
      show okOr none ((mapWorld c a maxD m source junk).nn (it.T0.apply p)) = o
      rw [m1]; rfl
    have hcorr : correspondence (scene (mapWorld c a maxD m source junk)) cfg.rejector it.T0 i = o.bind (fun kd => if gate < kd.2 then none else some kd.1) := by
      unfold correspondence
      rw [hsrc i p hp, hnn, hgate]
      rcases o with _ | ⟨k, d⟩
      · rfl
      · simp [distanceRejector]
    rw [hcorr]
    rcases o with _ | ⟨k, d⟩
    · simp only [Option.bind_none, ne_eq, not_true_eq_false, false_iff, false_implies, and_true]
      rintro ⟨j, c, hj, hd⟩
      exact absurd (m2 rfl j c hj) (not_le.2 (hd.trans_lt hgm))
    · obtain ⟨n1, c, n2, n4, n5⟩ := m3 k d rfl
      have hk : k ≠ npos := held_id hr n2
      simp only [Option.bind_some]
      by_cases hg : gate < d
      · rw [if_pos hg]
        simp only [ne_eq, not_true_eq_false, false_iff, false_implies, and_true]
        rintro ⟨j', c', hj', hd⟩
        exact absurd ((n5 j' c' hj').trans hd) (not_le.2 hg)
      · rw [if_neg hg]
        simp only [ne_eq, hk, not_false_eq_true, true_iff, true_implies]
        refine ⟨⟨k, c, n2, by rw [← n4]; exact not_lt.1 hg⟩, c, n2, fun j' c' hj' => ?_⟩
        rw [← n4]
        exact n5 j' c' hj'

/-! ### what every voxel of a map satisfies -/

/-- A property that new contents have and that `add` and `finalize` keep holds for every voxel of every map. -/
theorem runOps_all {c : Contents K V} {P : V → Prop} (h0 : P c.fresh) (hadd : ∀ v p s T, P v → P (c.add v p s T)) (hfin : ∀ v, P v → P (c.finalize v)) :
    ∀ (ops : List (MapOp K)) (m m' : VoxelMap K V), (∀ v ∈ m.flat, P v.2) → runOps c m ops = .ok m' → ∀ v ∈ m'.flat, P v.2 := by
  have hone : ∀ (T : Mat4 K) (s : SrcPt K) (m m' : VoxelMap K V), (∀ v ∈ m.flat, P v.2) → insertOne c T m s = .ok m' → ∀ v ∈ m'.flat, P v.2 := by
    intro T s m m' hm h
    unfold insertOne at h
    extract_lets at h
    cases hc : coordOf m.invLeaf (mulPt T s.pt) with
    | error e => rw [hc] at h; cases h
    | ok co =>
      rw [hc, ok_bind] at h
      -- the voxel array in which the voxel is looked up
      have key : ∀ (m1 : VoxelMap K V) (idx : Nat), (∀ v ∈ m1.flat, P v.2) →
          (rd m1.flat idx >>= fun x => wr m1.flat idx ({ x.1 with lru := m1.lruCounter }, c.add x.2 (mulPt T s.pt) s T) >>= fun flat => pure { m1 with flat := flat }) =
            (.ok m' : Res (VoxelMap K V)) → ∀ v ∈ m'.flat, P v.2 := by
        intro m1 idx hm1 h
        cases hr : rd m1.flat idx with
        | error e => rw [hr] at h; cases h
        | ok x =>
          rw [hr, ok_bind] at h
          have hx : x ∈ m1.flat := by
            unfold rd at hr
            cases hg : m1.flat[idx]? with
            | none => rw [hg] at hr; cases hr
            | some y => rw [hg] at hr; cases hr; exact List.mem_of_getElem? hg
          unfold wr at h
          by_cases hlt : idx < m1.flat.length
          · rw [if_pos hlt, ok_bind] at h
            cases h
            intro v hv
            rcases List.mem_or_eq_of_mem_set hv with hv | rfl
            · exact hm1 v hv
            · exact hadd _ _ _ _ (hm1 x hx)
          · rw [if_neg hlt] at h
            cases h
      cases hf : find m.table co with
      | some i =>
        rw [hf] at h
        exact key m i hm h
      | none =>
        rw [hf] at h
        refine key { m with table := (co, m.flat.length) :: m.table, flat := m.flat ++ [((⟨m.lruCounter, co⟩ : Info), c.fresh)] } m.flat.length ?_ h
        intro v hv
        rcases List.mem_append.1 hv with hv | hv
        · exact hm v hv
        · rw [List.mem_singleton.1 hv]
          exact h0
  have hloop : ∀ (T : Mat4 K) (ss : List (SrcPt K)) (m m' : VoxelMap K V), (∀ v ∈ m.flat, P v.2) → insertLoop c T m ss = .ok m' → ∀ v ∈ m'.flat, P v.2 := by
    intro T ss
    induction ss with
    | nil => intro m m' hm h; cases h; exact hm
    | cons s ss ih =>
      intro m m' hm h
      unfold insertLoop at h
      cases h1 : insertOne c T m s with
      | error e => rw [h1] at h; cases h
      | ok m1 =>
        rw [h1] at h
        exact ih m1 m' (hone T s m m1 hm h1) h
  have hins : ∀ (T : Mat4 K) (ss : List (SrcPt K)) (m m' : VoxelMap K V), (∀ v ∈ m.flat, P v.2) → Voxel.insert c m ss T = .ok m' → ∀ v ∈ m'.flat, P v.2 := by
    intro T ss m m' hm h
    unfold Voxel.insert at h
    cases h1 : insertLoop c T m ss with
    | error e => rw [h1] at h; cases h
    | ok m1 =>
      rw [h1, ok_bind] at h
      have hm1 := hloop T ss m m1 hm h1
      cases h2 : evict m1 with
      | error e => rw [h2] at h; cases h
      | ok m2 =>
        rw [h2, ok_bind] at h
        cases h
        have hm2 : ∀ v ∈ m2.flat, P v.2 := by
          unfold evict at h2
          simp only at h2
          split at h2
          · cases h2
          · split at h2
            · cases h2
              exact fun v hv => hm1 v (List.mem_filter.1 hv).1
            · cases h2; exact hm1
        intro v hv
        obtain ⟨w, hw, rfl⟩ := List.mem_map.1 hv
        exact hfin _ (hm2 w hw)
  intro ops
  induction ops with
  | nil => intro m m' hm h; cases h; exact hm
  | cons op ops ih =>
    intro m m' hm h
    unfold runOps at h
    cases h1 : applyOp c m op with
    | error e => rw [h1] at h; cases h
    | ok m1 =>
      rw [h1, ok_bind] at h
      refine ih m1 m' ?_ h
      cases op with
      | insert ps T => exact hins T ps m m1 hm h1
      | setHorizon x => cases h1; exact hm
      | setCycle x => cases h1; exact hm
      | setOffsets x => cases h1; exact hm

/-- The attributes of a flat voxel belong to its points. -/
theorem flat_parallel (s : FlatSetting K) (leaf : K) (ops : List (MapOp K)) (m : VoxelMap K (FlatVoxel K)) (hm : runOps (flatContents s) (VoxelMap.new leaf) ops = .ok m) :
    ∀ v ∈ m.flat, v.2.points.length ≤ s.maxNum ∧ (s.hasNormals = true → v.2.normals.length = v.2.points.length) ∧ (s.hasCovs = true → v.2.covs.length = v.2.points.length) := by
  refine runOps_all (c := flatContents s) (P := fun v => v.points.length ≤ s.maxNum ∧ (s.hasNormals = true → v.normals.length = v.points.length) ∧
    (s.hasCovs = true → v.covs.length = v.points.length)) ⟨Nat.zero_le _, fun _ => rfl, fun _ => rfl⟩ ?_ (fun v h => h) ops _ m (by intro v hv; cases hv) hm
  intro v p src T ⟨h1, h2, h3⟩
  show (FlatVoxel.add s v p src T).points.length ≤ _ ∧ _
  simp only [flatContents]
  unfold FlatVoxel.add
  by_cases hr : s.maxNum ≤ v.points.length ∨ v.points.any (fun q => decide (Pt.sqDist (exactOps K) q p < s.minSqDist))
  · rw [if_pos hr]
    exact ⟨h1, h2, h3⟩
  · rw [if_neg hr]
    rw [not_or] at hr
    refine ⟨by simp; omega, fun hn => ?_, fun hn => ?_⟩
    · simp [hn, h2 hn]
    · simp [hn, h3 hn]

/-- The attributes a factor needs of its target are stored. -/
def Stores (s : FlatSetting K) (needs : Needs) : Prop := (needs.normals = true → s.hasNormals = true) ∧ (needs.covs = true → s.hasCovs = true)

theorem flat_readable (s : FlatSetting K) (hs : s.maxNum < 2 ^ 32) {needs : Needs} (hst : Stores s needs) (leaf : K) (ops : List (MapOp K)) (m : VoxelMap K (FlatVoxel K))
    (hm : runOps (flatContents s) (VoxelMap.new leaf) ops = .ok m) (hsize : m.flat.length ≤ 2 ^ 32) : Readable FlatVoxel.points (flatAttrs s) m needs := by
  have h := flat_parallel s leaf ops m hm
  refine ⟨hsize, fun v hv => (h v hv).1.trans_lt hs, fun hn v hv j hj => ?_, fun hn v hv j hj => ?_⟩
  · have h1 := hst.1 hn
    have h2 := (h v hv).2.1 h1
    refine ⟨v.2.normals[j]'(by omega), ?_⟩
    simp only [flatAttrs, h1, if_true]
    exact rd_of_getElem? (List.getElem?_eq_getElem (by omega))
  · have h1 := hst.2 hn
    have h2 := (h v hv).2.2 h1
    refine ⟨v.2.covs[j]'(by omega), ?_⟩
    simp only [flatAttrs, h1, if_true]
    exact rd_of_getElem? (List.getElem?_eq_getElem (by omega))

/-- **C64.** Registration against a linear voxel map (flat containers) reached by any public operations, with a factor whose attributes the containers store, any reduction
under any execution, either optimiser, any rejector and so on. The only fault is the overflow of a cell coordinate, exactly when some pose at which the run linearises puts a source
point so far away that its cell or a searched neighbour is no `int` triple. Otherwise, with a distance rejector, the correspondences of every iteration are exactly the source points with
a stored point of a searched cell within the gate, each paired with a nearest such point. -/
theorem C64_linear_voxelmap_registration {F : Type} {needs : Needs} {mf : MemFactor F K} {pf : PointFactor F K} (h : Ships needs mf pf) (s : FlatSetting K) (hs : s.maxNum < 2 ^ 32)
    (hst : Stores s needs) (leaf : K) (ops : List (MapOp K)) (m : VoxelMap K (FlatVoxel K)) (hm : runOps (flatContents s) (VoxelMap.new leaf) ops = .ok m)
    (hsize : m.flat.length ≤ 2 ^ 32) (source : PCloud K) (hsp : Spec.PointsSet source) (hcov : needs.covs = true → Spec.CovsSet source)
    (maxD : K) (junk : Nat × K) (cfg : Config K) (execL execE : Pose K → List F → Exec)
    (hL : ∀ T fs, fs.length = source.size → (execL T fs).Complete source.size) (hE : ∀ T fs, fs.length = source.size → (execE T fs).Complete source.size)
    (meth : Method K) (T0 : Pose K) :
    ∃ r fs' log, meth.run (registrationProblem pf (scene (mapWorld (flatContents s) (flatAttrs s) maxD m source junk)) cfg.rejector cfg.general cfg.solve cfg.exp cfg.converged) T0
        (List.replicate source.size pf.init) = .ok (r, fs', log) ∧
      (RegMem.align mf (mapWorld (flatContents s) (flatAttrs s) maxD m source junk) cfg execL execE meth T0 source.size =
        open Classical in if ∀ it ∈ log, ∀ (i : Nat) (p : Fin 4 → K), source.points[i]? = some (some p) → Spec.QueryInRange m (toPt (it.T0.apply p))
          then .ok (r, fs', log) else .error .intOverflow) ∧
      ∀ gate, cfg.rejector = distanceRejector gate → gate < maxD → ∀ it ∈ log, it.factors.length = source.size ∧
        ∀ (i : Nat) (f : F) (p : Fin 4 → K), it.factors[i]? = some f → source.points[i]? = some (some p) → Spec.QueryInRange m (toPt (it.T0.apply p)) → mf.source f = i ∧
          (mf.inlier f = true ↔ ∃ j x, Spec.Held FlatVoxel.points m (toPt (it.T0.apply p)) j x ∧ Spec.sqd x (toPt (it.T0.apply p)) ≤ gate) ∧
          (mf.inlier f = true → ∃ x, Spec.Held FlatVoxel.points m (toPt (it.T0.apply p)) (mf.target f) x ∧
            ∀ j' x', Spec.Held FlatVoxel.points m (toPt (it.T0.apply p)) j' x' → Spec.sqd x (toPt (it.T0.apply p)) ≤ Spec.sqd x' (toPt (it.T0.apply p))) :=
  map_registration h (flat_lawful s) (flatAttrs s) m (C11_index_consistent (flatContents s) leaf ops m hm).1 (flat_readable s hs hst leaf ops m hm hsize) source hsp hcov maxD junk cfg
    execL execE hL hE meth T0

/-- What a cell received was offered by one of the calls. -/
theorem received_offered (invLeaf : K) (horizon cycle : Nat) (calls : List (List (SrcPt K) × Mat4 K)) {cell : Coord} {l : Nat} {L : List (Spec.Sample K)}
    (h : Spec.received invLeaf horizon cycle calls cell = some (l, L)) {e : Spec.Sample K} (he : e ∈ L) :
    ∃ call ∈ calls, e.2.1 ∈ call.1 ∧ e.1 = mulPt call.2 e.2.1.pt ∧ e.2.2 = call.2 := by
  induction calls using List.reverseRecOn generalizing l L e with
  | nil => cases h
  | append_singleton calls call ih =>
    unfold Spec.received at h ih
    rw [run_append] at h
    have hfold : ∀ (n : Nat) (ps : List (SrcPt K)) (A : Spec.AMap (List (Spec.Sample K))), (∀ s ∈ ps, s ∈ call.1) →
        (∀ l L, A cell = some (l, L) → ∀ e ∈ L, ∃ c ∈ calls ++ [call], e.2.1 ∈ c.1 ∧ e.1 = mulPt c.2 e.2.1.pt ∧ e.2.2 = c.2) →
        ∀ l L, ps.foldl (Spec.AMap.addPt Spec.sampleContents invLeaf n call.2) A cell = some (l, L) → ∀ e ∈ L, ∃ c ∈ calls ++ [call], e.2.1 ∈ c.1 ∧ e.1 = mulPt c.2 e.2.1.pt ∧ e.2.2 = c.2 := by
      intro n ps
      induction ps with
      | nil => intro A _ hA; exact hA
      | cons s ps ih2 =>
        intro A hps hA
        refine ih2 _ (fun s hs => hps s (List.mem_cons_of_mem _ hs)) ?_
        intro l L hl e he
        have hnew : ∃ c ∈ calls ++ [call], s ∈ c.1 ∧ mulPt call.2 s.pt = mulPt c.2 s.pt ∧ call.2 = c.2 := ⟨call, by simp, hps s List.mem_cons_self, rfl, rfl⟩
        unfold Spec.AMap.addPt at hl
        split at hl
        · cases ha : A cell with
          | none =>
            rw [ha] at hl
            simp only [Spec.sampleContents, List.nil_append, Option.some.injEq, Prod.mk.injEq] at hl
            rw [← hl.2, List.mem_singleton] at he
            subst he
            exact hnew
          | some x =>
            rw [ha] at hl
            simp only [Spec.sampleContents, Option.some.injEq, Prod.mk.injEq] at hl
            rw [← hl.2, List.mem_append, List.mem_singleton] at he
            rcases he with he | rfl
            · exact hA x.1 x.2 ha e he
            · exact hnew
        · exact hA l L hl e he
    unfold Spec.AMap.call at h
    rw [Option.map_eq_some_iff] at h
    obtain ⟨x, hx, hxl⟩ := h
    have hx' := (Option.filter_eq_some_iff.1 hx).1
    have hL : x.2 = L := congrArg Prod.snd hxl
    refine hfold _ call.1 _ (fun s hs => hs) ?_ x.1 x.2 hx' e (by rw [hL]; exact he)
    intro l' L' hA e' he'
    obtain ⟨c, hc, h1⟩ := ih hA he'
    exact ⟨c, by simp [hc], h1⟩

/-- **C64, attributes.** In a map filled by any insertions, every stored point was offered to its cell, and what the factors read at its id is that point, moved by the transform it was inserted with,
and its own normal and covariance, moved by the same transform. -/
theorem C64_attributes (s : FlatSetting K) (hs : s.maxNum < 2 ^ 32) (leaf : K) (horizon cycle : Nat) (offsets : List Coord) (hc : cycle ≠ 0)
    (calls : List (List (SrcPt K) × Mat4 K)) (hw : horizon + calls.length < 2 ^ 64) (hd : ∀ call ∈ calls, ∀ s ∈ call.1, Spec.CellDefined (1 / leaf) (mulPt call.2 s.pt))
    (source : PCloud K) (maxD : K) (junk : Nat × K) :
    ∃ m, insertCalls (flatContents s) (userMap leaf horizon cycle offsets) calls = .ok m ∧
      ∀ cells k p, Spec.StoredIn FlatVoxel.points m.flat cells k p → ∃ call ∈ calls, ∃ x ∈ call.1, p = mulPt call.2 x.pt ∧ cells (Spec.cellOf (1 / leaf) p) ∧
        (mapWorld (flatContents s) (flatAttrs s) maxD m source junk).tgtPoint k = .ok (ofPt p) ∧
        (s.hasNormals = true → (mapWorld (flatContents s) (flatAttrs s) maxD m source junk).tgtNormal k = .ok (ofPt (mulPt call.2 x.normal))) ∧
        (s.hasCovs = true → (mapWorld (flatContents s) (flatAttrs s) maxD m source junk).tgtCov k = .ok (call.2 * x.cov * call.2.transpose)) := by
  obtain ⟨m, h1, h2⟩ := C17_flat_voxels s leaf horizon cycle offsets hc calls hw hd
  refine ⟨m, h1, ?_⟩
  rintro cells k p ⟨i, v, j, hv, hcell, hp, rfl⟩
  have hm := List.mem_of_getElem? hv
  obtain ⟨L, hL, ⟨L', k1, k2, k3, k4⟩, hcap, _, hin, _⟩ := h2 v hm
  have hj : j < L'.length := by
    have := (List.getElem?_eq_some_iff.1 hp).1
    rw [k2] at this
    simpa using this
  have hj' : j < 2 ^ 32 := by
    have := (List.getElem?_eq_some_iff.1 hp).1
    omega
  have hpj : p = L'[j].1 := by
    rw [k2, List.getElem?_map, List.getElem?_eq_getElem hj] at hp
    exact (Option.some.inj hp).symm
  obtain ⟨call, hcall, hx, hpx, hTx⟩ := received_offered (1 / leaf) horizon cycle calls hL (k1.subset (List.getElem_mem hj))
  refine ⟨call, hcall, L'[j].2.1, hx, by rw [hpj, hpx], by rw [hin p (List.mem_of_getElem? hp)]; exact hcell, ?_, fun hn => ?_, fun hn => ?_⟩
  · simp only [mapWorld, pointAt, voxelId_eq i j hj', pointId_eq i j hj', rd_of_getElem? hv, ok_bind, (flat_lawful s).point _ _ _ hp]
    rfl
  · simp only [mapWorld, mapNormal, voxelId_eq i j hj', pointId_eq i j hj', rd_of_getElem? hv, ok_bind, flatAttrs, hn, if_true]
    rw [rd_of_getElem? (x := mulPt L'[j].2.2 L'[j].2.1.normal) (by rw [k3 hn, List.getElem?_map, List.getElem?_eq_getElem hj]; rfl), ok_bind, hTx]
    rfl
  · simp only [mapWorld, mapCov, voxelId_eq i j hj', pointId_eq i j hj', rd_of_getElem? hv, ok_bind, flatAttrs, hn, if_true]
    rw [rd_of_getElem? (x := L'[j].2.2 * L'[j].2.1.cov * L'[j].2.2.transpose) (by rw [k4 hn, List.getElem?_map, List.getElem?_eq_getElem hj]; rfl), hTx]

/-! ### concrete cases -/

/-- A container with everything. -/
def fullSetting : FlatSetting ℚ := ⟨1 / 100, 10, true, true⟩

/-- Three operations: neighbours are searched, two frames are inserted. -/
def fullOps : List (MapOp ℚ) := [.setOffsets 7, .insert [mkSrc (1/2) (1/2) (1/2), mkSrc (3/4) (1/2) (1/2)] idMat, .insert [mkSrc (3/2) (1/2) (1/2)] idMat]

/-- Some readings of that map. -/
def fullProbe : Option (Nat × Option (Option (Nat × ℚ)) × Option (Option (Nat × ℚ)) × Option ℚ × Option (Option (Nat × ℚ))) :=
  match runOps (flatContents fullSetting) (VoxelMap.new 1) fullOps with
  | .error _ => none
  | .ok m =>
    let w := mapWorld (flatContents fullSetting) (flatAttrs fullSetting) 100 m ⟨[], [], []⟩ (0, 0)
    some (m.flat.length, (w.nn ![7/8, 1/2, 1/2, 1]).toOption, (w.nn ![5/4, 1/2, 1/2, 1]).toOption, (w.tgtNormal (2 ^ 32)).toOption.map (fun n => n 2), (w.nn ![3000000000, 0, 0, 1]).toOption)

set_option synthInstance.maxSize 2000 in
/-- The premises on the map are met for every factor; the search finds the second point of the first voxel for a query near it, the point of the second voxel for another
query, and the target normal is read there. Far away the search is undefined. -/
example : Stores fullSetting ⟨true, true⟩ ∧ fullSetting.maxNum < 2 ^ 32 ∧ fullProbe = some (2, some (some (1, 1/64)), some (some (2 ^ 32, 1/16)), some 1, none) :=
  ⟨⟨fun _ => rfl, fun _ => rfl⟩, by decide, by decide +kernel⟩

end Verif.Props
