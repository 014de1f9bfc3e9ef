import Verif.Proofs.RegistrationRange
import Verif.Props.RegistrationMemory
import Verif.Props.VoxelMap

/-! C58: registration against a Gaussian voxel map. -/

set_option linter.unusedSectionVars false
set_option linter.unusedSimpArgs false

namespace Verif.Spec

open Verif Verif.Voxel

variable {K : Type} [Field K] [LinearOrder K] [FloorRing K]

/-- The cell of the query and the cells searched around it have `int` coordinates. -/
def QueryInRange {V : Type} (m : VoxelMap K V) (q : Pt K) : Prop :=
  CellDefined m.invLeaf q ∧ ∀ o ∈ m.offsets, CoordFits (shiftCell (cellOf m.invLeaf q) o)

/-- Voxel number `i` with mean `p` is among the cells searched for `q`. -/
def Searched (m : VoxelMap K (GaussianVoxel K)) (q : Pt K) (i : Nat) (p : Pt K) : Prop :=
  ∃ v, m.flat[i]? = some v ∧ v.2.mean = p ∧ ∃ o ∈ m.offsets, v.1.coord = shiftCell (cellOf m.invLeaf q) o

end Verif.Spec

namespace Verif.Proofs

open Verif Verif.Voxel Verif.Knn

variable {K : Type} [Field K] [LinearOrder K] [IsStrictOrderedRing K] [FloorRing K] {V : Type}

theorem coordOf_undefined {invLeaf : K} {p : Pt K} (h : ¬ Spec.CellDefined invLeaf p) : coordOf invLeaf p = .error .intOverflow := by
  unfold coordOf fastFloor4 Pt.smul
  simp only [fastFloor_eq]
  unfold Spec.CellDefined at h
  by_cases hx : INT_MIN ≤ ⌊p.x * invLeaf⌋ ∧ ⌊p.x * invLeaf⌋ ≤ INT_MAX
  swap; · rw [if_neg hx]; rfl
  by_cases hy : INT_MIN ≤ ⌊p.y * invLeaf⌋ ∧ ⌊p.y * invLeaf⌋ ≤ INT_MAX
  swap; · rw [if_pos hx, if_neg hy]; rfl
  by_cases hz : INT_MIN ≤ ⌊p.z * invLeaf⌋ ∧ ⌊p.z * invLeaf⌋ ≤ INT_MAX
  swap; · rw [if_pos hx, if_pos hy, if_neg hz]; rfl
  have hw : ¬ (INT_MIN ≤ ⌊p.w * invLeaf⌋ ∧ ⌊p.w * invLeaf⌋ ≤ INT_MAX) := fun hw => h ⟨hx, hy, hz, hw⟩
  rw [if_pos hx, if_pos hy, if_pos hz, if_neg hw]
  rfl

omit [Field K] [LinearOrder K] [IsStrictOrderedRing K] [FloorRing K] in
theorem addCoord_undefined {a b : Coord} (h : ¬ Spec.CoordFits (Spec.shiftCell a b)) : addCoord a b = .error .intOverflow := by
  unfold addCoord int32
  unfold Spec.CoordFits Spec.shiftCell at h
  simp only at h
  by_cases hx : INT_MIN ≤ a.1 + b.1 ∧ a.1 + b.1 ≤ INT_MAX
  swap; · rw [if_neg hx]; rfl
  by_cases hy : INT_MIN ≤ a.2.1 + b.2.1 ∧ a.2.1 + b.2.1 ≤ INT_MAX
  swap; · rw [if_pos hx, if_neg hy]; rfl
  have hz : ¬ (INT_MIN ≤ a.2.2 + b.2.2 ∧ a.2.2 + b.2.2 ≤ INT_MAX) := fun hz => h ⟨hx, hy, hz⟩
  rw [if_pos hx, if_pos hy, if_neg hz]
  rfl

omit [IsStrictOrderedRing K] [FloorRing K] in
theorem searchOffsets_undefined {c : Contents K V} {pts : V → List (Pt K)} (hl : Lawful c pts) (m : VoxelMap K V) (hI : Indexed m.table m.flat)
    (q : Pt K) (center : Coord) {maxD : K} {cap ti td} : ∀ (os : List Coord) {r : KnnResult K} {L}, Holds maxD cap ti td r L →
      (∃ o ∈ os, ¬ Spec.CoordFits (Spec.shiftCell center o)) → searchOffsets c m q center os r = .error .intOverflow
  | [], _, _, _, h => by obtain ⟨o, ho, _⟩ := h; cases ho
  | o :: os, r, L, h, hd => by
    by_cases ho : Spec.CoordFits (Spec.shiftCell center o)
    · have hd' : ∃ o ∈ os, ¬ Spec.CoordFits (Spec.shiftCell center o) := by
        obtain ⟨o', h1, h2⟩ := hd
        rcases List.mem_cons.1 h1 with rfl | h1
        · exact absurd ho h2
        · exact ⟨o', h1, h2⟩
      unfold searchOffsets
      rw [addCoord_eq ho, ok_bind]
      cases hf : find m.table (Spec.shiftCell center o) with
      | none => exact searchOffsets_undefined hl m hI q center os h hd'
      | some i =>
        obtain ⟨v, hv, _⟩ := (hI _ _).1 hf
        show (rd m.flat i >>= fun x => c.search x.2 q (calcIndex i) r >>= fun r => searchOffsets c m q center os r) = _
        rw [rd_of_getElem? hv, ok_bind, hl.search]
        obtain ⟨r1, h1, h2⟩ := pushAll_holds (calcIndex i) ((pts v.2).zipIdx.map (fun e => (e.2, Pt.sqDist (exactOps K) e.1 q))) h
        rw [h1, ok_bind]
        exact searchOffsets_undefined hl m hI q center os h2 hd'
    · unfold searchOffsets
      rw [addCoord_undefined ho]
      rfl

/-- Outside the range the search is undefined, and that is the only fault. -/
theorem search_undefined {c : Contents K V} {pts : V → List (Pt K)} (hl : Lawful c pts) (m : VoxelMap K V) (hI : Indexed m.table m.flat) (q : Pt K)
    (hq : ¬ Spec.QueryInRange m q) (maxD : K) (N k : Int) (cap : Nat) (hcap : cap = if 0 < N then N.toNat else k.toNat) (hpos : 0 < cap) (hk : 0 < N → k < 0)
    (indices : List Nat) (dists : List K) (hi : cap ≤ indices.length) (hdl : cap ≤ dists.length) :
    Voxel.search c maxD m q N k indices dists = .error .intOverflow := by
  unfold Voxel.search
  by_cases hc : Spec.CellDefined m.invLeaf q
  · obtain ⟨r0, h1, h2⟩ := construct_holds maxD N indices dists k cap hcap hpos hk hi hdl
    rw [coordOf_eq hc, ok_bind, h1, ok_bind]
    refine searchOffsets_undefined hl m hI q _ _ h2 ?_
    by_contra hn
    push Not at hn
    exact hq ⟨hc, hn⟩
  · rw [coordOf_undefined hc]
    rfl

end Verif.Proofs

namespace Verif.Props

open Matrix Verif Verif.Knn Verif.Voxel Verif.Proofs Verif.Proofs.RegMem Verif.Factors Verif.Reduction Verif.Optimizer Verif.PointCloud Verif.RegMem

variable {K : Type} [Field K] [LinearOrder K] [IsStrictOrderedRing K] [FloorRing K]

section Map

variable (m : VoxelMap K (GaussianVoxel K)) (hI : Indexed m.table m.flat) (hsize : m.flat.length ≤ 2 ^ 32)

include hI hsize in
/-- The search of a factor on a Gaussian voxel map. -/
theorem voxelNearest_spec (maxD : K) (source : PCloud K) (junk : Nat × K) (q : Fin 4 → K) :
    (¬ Spec.QueryInRange m (toPt q) → (voxelWorld maxD m source junk).nn q = .error .intOverflow) ∧
    (Spec.QueryInRange m (toPt q) → ∃ o, (voxelWorld maxD m source junk).nn q = .ok o ∧
      (o = none → ∀ i p, Spec.Searched m (toPt q) i p → maxD ≤ Spec.sqd p (toPt q)) ∧
      ∀ k d, o = some (k, d) → d < maxD ∧ ∃ i p, Spec.Searched m (toPt q) i p ∧ k = i * 2 ^ 32 ∧ d = Spec.sqd p (toPt q) ∧
        ∀ i' p', Spec.Searched m (toPt q) i' p' → d ≤ Spec.sqd p' (toPt q)) := by
  have hb : IdsFit (fun v : GaussianVoxel K => [v.mean]) m := ⟨hsize, fun v _ => by simp⟩
  constructor
  · intro hq
    show (Voxel.search gaussianContents maxD m (toPt q) 1 (-1) [junk.1] [junk.2] >>= _) = _
    rw [search_undefined gaussian_lawful m hI _ hq maxD 1 (-1) 1 (by simp) (by omega) (by omega) _ _ (by simp) (by simp)]
    rfl
  · intro hq
    obtain ⟨r, h1, h2, _⟩ := C14_search_exact gaussian_lawful m hI hb (toPt q) hq.1 hq.2 maxD 1 (-1) 1 (by simp) (by omega) (by omega) [junk.1] [junk.2]
      (by simp) (by simp)
    have hst : ∀ i p, Spec.Searched m (toPt q) i p ↔ Spec.StoredIn (fun v : GaussianVoxel K => [v.mean]) m.flat
        (fun cell => ∃ o ∈ m.offsets, cell = Spec.shiftCell (Spec.cellOf m.invLeaf (toPt q)) o) (i * 2 ^ 32) p := by
      intro i p
      constructor
      · rintro ⟨v, hv, hp, o, ho, hc⟩
        exact ⟨i, v, 0, hv, ⟨o, ho, hc⟩, by rw [← hp]; rfl, (Nat.add_zero _).symm⟩
      · rintro ⟨i', v, j, hv, ⟨o, ho, hc⟩, hp, hid⟩
        have hj : j = 0 := by
          have := (List.getElem?_eq_some_iff.1 hp).1
          simpa using this
        subst hj
        have : i = i' := by omega
        subst this
        exact ⟨v, hv, by simpa using hp, o, ho, hc⟩
    refine ⟨r.found.head?, ?_, ?_, ?_⟩
    · show (Voxel.search gaussianContents maxD m (toPt q) 1 (-1) [junk.1] [junk.2] >>= _) = _
      rw [h1]
      rfl
    · intro hnone i p hs
      rw [List.head?_eq_none_iff] at hnone
      by_contra hlt
      have := h2.complete (by rw [hnone]; simp) _ _ ⟨⟨p, (hst i p).1 hs, rfl⟩, not_le.1 hlt⟩
      rw [hnone] at this
      simp at this
    · intro k d hkd
      have hmem : (k, d) ∈ r.found := List.mem_of_mem_head? hkd
      obtain ⟨⟨p, hp, hd⟩, hlt⟩ := h2.genuine _ hmem
      have hp' := hp
      obtain ⟨i, v, j, hv, _, hpj, hid⟩ := hp'
      have hj : j = 0 := by
        have := (List.getElem?_eq_some_iff.1 hpj).1
        simpa using this
      subst hj
      simp only [Nat.add_zero] at hid
      refine ⟨hlt, i, p, (hst i p).2 (by rw [← hid]; exact hp), hid, hd, fun i' p' hs => ?_⟩
      by_cases hik : i' * 2 ^ 32 = k
      · obtain ⟨i2, v2, j2, hv2, _, hpj2, hid2⟩ := (hst i' p').1 hs
        have hj2 : j2 = 0 := by
          have := (List.getElem?_eq_some_iff.1 hpj2).1
          simpa using this
        subst hj2
        have : i2 = i := by omega
        subst this
        rw [hv] at hv2
        cases hv2
        rw [hpj] at hpj2
        simp only [Option.some.injEq] at hpj2
        rw [← hpj2]
        exact hd.le
      · by_cases hfar : Spec.sqd p' (toPt q) < maxD
        · refine h2.best _ _ ⟨⟨p', (hst i' p').1 hs, rfl⟩, hfar⟩ ?_ _ hmem
          have hl := h2.length_le
          intro hin
          rcases hfd : r.found with _ | ⟨a, _ | ⟨a', l⟩⟩
          · rw [hfd] at hmem; cases hmem
          · rw [hfd] at hin hmem
            simp only [List.map_cons, List.map_nil, List.mem_singleton] at hin hmem
            rw [← hmem] at hin
            exact hik hin
          · rw [hfd] at hl; simp at hl
        · exact (hlt.trans_le (not_lt.1 hfar)).le

include hI hsize in
theorem voxel_sound (needs : Needs) (hn : needs.normals = false) (source : PCloud K) (hsp : Spec.PointsSet source)
    (hcov : needs.covs = true → Spec.CovsSet source) (maxD : K) (junk : Nat × K) :
    Sound (· = .intOverflow) (voxelWorld maxD m source junk) needs source.size where
  srcPoint i hi := by
    obtain ⟨p, hp⟩ := hsp i hi
    exact ⟨p, by simp only [voxelWorld, Cloud.point, getSlot, rd, hp]; rfl⟩
  srcCov hc i hi := by
    obtain ⟨p, hp⟩ := hcov hc i hi
    exact ⟨p, by simp only [voxelWorld, Cloud.cov, getSlot, rd, hp]; rfl⟩
  nn q := by
    obtain ⟨h1, h2⟩ := voxelNearest_spec m hI hsize maxD source junk q
    by_cases hq : Spec.QueryInRange m (toPt q)
    · obtain ⟨o, ho, _⟩ := h2 hq
      exact Or.inl ⟨o, ho⟩
    · exact Or.inr ⟨_, rfl, h1 hq⟩
  found q k d h := by
    obtain ⟨h1, h2⟩ := voxelNearest_spec m hI hsize maxD source junk q
    by_cases hq : Spec.QueryInRange m (toPt q)
    · obtain ⟨o, ho, _, h3⟩ := h2 hq
      rw [h] at ho
      simp only [Except.ok.injEq] at ho
      obtain ⟨_, i, p, ⟨v, hv, _⟩, rfl, _⟩ := h3 k d ho.symm
      have hi : i < m.flat.length := (List.getElem?_eq_some_iff.1 hv).1
      have hvid : voxelId (i * 2 ^ 32) = i := by
        have := voxelId_eq i 0 (by norm_num)
        rwa [Nat.add_zero] at this
      refine ⟨by unfold npos; omega, ⟨ofPt v.2.mean, ?_⟩, fun hc => ?_, fun _ => ⟨v.2.cov, ?_⟩⟩
      · simp only [voxelWorld, pointAt, hvid, rd_of_getElem? hv, ok_bind]
        rfl
      · rw [hn] at hc; cases hc
      · simp only [voxelWorld, voxelCov, hvid, rd_of_getElem? hv, ok_bind]
        rfl
    · rw [h1 hq] at h; cases h

end Map

/-- C58. Registration against a Gaussian voxel map reached by any public operations, with a factor that needs no normals, any reduction
under any execution, either optimiser, any rejector and so on. The only fault is the overflow of a cell coordinate, and it happens
exactly when some pose at which the run linearises puts a source point so far away that its cell or a searched neighbour is no `int`
triple. Otherwise, with a distance rejector, the correspondences of every iteration are exactly the source points with the mean of a
searched voxel within the gate, each paired with a nearest such mean. -/
theorem C58_voxel_registration {F : Type} {needs : Needs} {mf : MemFactor F K} {pf : PointFactor F K} (h : Ships needs mf pf) (hn : needs.normals = false)
    (leaf : K) (ops : List (MapOp K)) (m : VoxelMap K (GaussianVoxel K)) (hm : runOps gaussianContents (VoxelMap.new leaf) ops = .ok m)
    (hsize : m.flat.length ≤ 2 ^ 32) (source : PCloud K) (hsp : Spec.PointsSet source) (hcov : needs.covs = true → Spec.CovsSet source)
    (maxD : K) (junk : Nat × K) (cfg : Config K) (execL execE : Pose K → List F → Exec)
    (hL : ∀ T fs, fs.length = source.size → (execL T fs).Complete source.size) (hE : ∀ T fs, fs.length = source.size → (execE T fs).Complete source.size)
    (meth : Method K) (T0 : Pose K) :
    ∃ r fs' log, meth.run (registrationProblem pf (scene (voxelWorld maxD m source junk)) cfg.rejector cfg.general cfg.solve cfg.exp cfg.converged) T0
        (List.replicate source.size pf.init) = .ok (r, fs', log) ∧
      (RegMem.align mf (voxelWorld maxD m source junk) cfg execL execE meth T0 source.size =
        open Classical in if ∀ it ∈ log, ∀ (i : Nat) (p : Fin 4 → K), source.points[i]? = some (some p) → Spec.QueryInRange m (toPt (it.T0.apply p))
          then .ok (r, fs', log) else .error .intOverflow) ∧
      ∀ gate, cfg.rejector = distanceRejector gate → gate < maxD → ∀ it ∈ log, it.factors.length = source.size ∧
        ∀ (i : Nat) (f : F) (p : Fin 4 → K), it.factors[i]? = some f → source.points[i]? = some (some p) → Spec.QueryInRange m (toPt (it.T0.apply p)) → mf.source f = i ∧
          (mf.inlier f = true ↔ ∃ j c, Spec.Searched m (toPt (it.T0.apply p)) j c ∧ Spec.sqd c (toPt (it.T0.apply p)) ≤ gate) ∧
          (mf.inlier f = true → ∃ j c, mf.target f = calcIndex j 0 ∧ Spec.Searched m (toPt (it.T0.apply p)) j c ∧
            ∀ j' c', Spec.Searched m (toPt (it.T0.apply p)) j' c' → Spec.sqd c (toPt (it.T0.apply p)) ≤ Spec.sqd c' (toPt (it.T0.apply p))) := by
  have hI : Indexed m.table m.flat := (C11_index_consistent gaussianContents leaf ops m hm).1
  have hw := voxel_sound m hI hsize needs hn source hsp hcov maxD junk
  obtain ⟨⟨r, fs', log⟩, h1, h2⟩ := align_approx h hw cfg execL execE hL hE meth T0
  have hiff := align_ok_iff h hw cfg execL execE hL hE meth T0 _ h1
  have hsrc : ∀ i p, source.points[i]? = some (some p) → (scene (voxelWorld maxD m source junk)).srcPoint i = p := by
    intro i p hp
    simp only [scene, voxelWorld, Cloud.point, getSlot, rd, hp]
    rfl
  refine ⟨r, fs', log, h1, ?_, ?_⟩
  · have heq : (∀ it ∈ log, ∀ i < source.size, ∃ o, (voxelWorld maxD m source junk).nn (it.T0.apply ((scene (voxelWorld maxD m source junk)).srcPoint i)) = .ok o) ↔
        ∀ it ∈ log, ∀ (i : Nat) (p : Fin 4 → K), source.points[i]? = some (some p) → Spec.QueryInRange m (toPt (it.T0.apply p)) := by
      constructor
      · intro hd it hit i p hp
        have hi : i < source.size := (List.getElem?_eq_some_iff.1 hp).1
        obtain ⟨o, ho⟩ := hd it hit i hi
        rw [hsrc i p hp] at ho
        by_contra hq
        rw [(voxelNearest_spec m hI hsize maxD source junk _).1 hq] at ho
        cases ho
      · intro hd it hit i hi
        obtain ⟨p, hp⟩ := hsp i hi
        rw [hsrc i p hp]
        obtain ⟨o, ho, _⟩ := (voxelNearest_spec m hI hsize maxD source junk _).2 (hd it hit i p hp)
        exact ⟨o, ho⟩
    split
    · rename_i hd
      exact hiff.2 (heq.2 hd)
    · rename_i hd
      rcases h2 with h2 | ⟨e, rfl, h2⟩
      · exact absurd (heq.1 (hiff.1 h2)) hd
      · exact h2
  · intro gate hgate hgm it hit
    obtain ⟨_, _, g3⟩ := run_factors h hw cfg meth T0 r fs' log h1
    obtain ⟨k1, k2⟩ := g3 it hit
    refine ⟨k1, fun i f p hf hp hq => ?_⟩
    obtain ⟨k3, k4⟩ := k2 i f hf
    refine ⟨k3, ?_⟩
    rw [ships_inlier h, k4]
    obtain ⟨o, m1, m2, m3⟩ := (voxelNearest_spec m hI hsize maxD source junk (it.T0.apply p)).2 hq
    have hnn : (scene (voxelWorld maxD m source junk)).nn (it.T0.apply p) = o := by
      show okOr none ((voxelWorld maxD m source junk).nn (it.T0.apply p)) = o
      rw [m1]; rfl
    have hcorr : correspondence (scene (voxelWorld maxD m source junk)) cfg.rejector it.T0 i = o.bind (fun kd => if gate < kd.2 then none else some kd.1) := by
      unfold correspondence
      rw [hsrc i p hp, hnn, hgate]
      rcases o with _ | ⟨k, d⟩
      · rfl
      · simp [distanceRejector]
    rw [hcorr]
    rcases o with _ | ⟨k, d⟩
    · simp only [Option.bind_none, ne_eq, not_true_eq_false, false_iff, false_implies, and_true]
      rintro ⟨j, c, hj, hd⟩
      exact absurd (m2 rfl j c hj) (not_le.2 (hd.trans_lt hgm))
    · obtain ⟨n1, j, c, n2, n3, n4, n5⟩ := m3 k d rfl
      have hj : j < m.flat.length := by
        obtain ⟨v, hv, _⟩ := n2
        exact (List.getElem?_eq_some_iff.1 hv).1
      have hk : k ≠ npos := by unfold npos; omega
      simp only [Option.bind_some]
      by_cases hg : gate < d
      · rw [if_pos hg]
        simp only [ne_eq, not_true_eq_false, false_iff, false_implies, and_true]
        rintro ⟨j', c', hj', hd⟩
        exact absurd ((n5 j' c' hj').trans hd) (not_le.2 hg)
      · rw [if_neg hg]
        simp only [ne_eq, hk, not_false_eq_true, true_iff, true_implies]
        refine ⟨⟨j, c, n2, by rw [← n4]; exact not_lt.1 hg⟩, j, c, ?_, n2, fun j' c' hj' => ?_⟩
        · rw [n3, calcIndex_eq (by omega) (by norm_num), Nat.add_zero]
        · rw [← n4]
          exact n5 j' c' hj'

end Verif.Props
