import Verif.Props.VoxelMap

/-!
C15, C17, C18 over arbitrary insertion histories, and the concrete witnesses for C12, C16.
-/

namespace Verif.Props

open Verif Verif.Voxel Verif.Knn Verif.Proofs

variable {K : Type} [Field K] [LinearOrder K] [IsStrictOrderedRing K] [FloorRing K] {V : Type}

/-- Every stored voxel is related to what its cell received. -/
theorem voxel_received {c : Contents K V} {R : Coord → V → List (Spec.Sample K) → Prop} (leaf : K)
    (hR : RelOK c Spec.sampleContents (1 / leaf) R) (horizon cycle : Nat) (offsets : List Coord) (hc : cycle ≠ 0)
    (calls : List (List (SrcPt K) × Mat4 K)) (hw : horizon + calls.length < 2 ^ 64)
    (hd : ∀ call ∈ calls, ∀ s ∈ call.1, Spec.CellDefined (1 / leaf) (mulPt call.2 s.pt)) :
    ∃ m, insertCalls c (userMap leaf horizon cycle offsets) calls = .ok m ∧ MapInv m ∧ m.invLeaf = 1 / leaf ∧ m.offsets = offsets ∧
      ∀ e ∈ m.flat, ∃ L, Spec.received (1 / leaf) horizon cycle calls e.1.coord = some (e.1.lru, L) ∧ R e.1.coord e.2 L ∧
        ∃ v, e.2 = c.finalize v := by
  obtain ⟨m, h1, h2, g1, _, _, g4, _, h3⟩ := insertCalls_ok c calls (userMap leaf horizon cycle offsets)
    (userMap_inv leaf horizon cycle hc offsets) (by simpa [userMap, VoxelMap.new] using hw) hd
  refine ⟨m, h1, h2, g1, g4, ?_⟩
  intro e he
  have h3 := h3 e.1.coord
  simp only [userMap, VoxelMap.new] at h3
  have hempty : absFlat ([] : List (Info × V)) = fun _ => none := rfl
  rw [hempty] at h3
  have ha : absFlat m.flat e.1.coord = some (e.1.lru, e.2) := by
    unfold absFlat
    obtain ⟨i, hi, hie⟩ := List.mem_iff_getElem.1 he
    cases hq : m.flat.find? (fun v => decide (v.1.coord = e.1.coord)) with
    | none =>
      have := List.find?_eq_none.1 hq _ he
      simp at this
    | some w =>
      have hm := List.mem_of_find?_eq_some hq
      have hp := List.find?_some hq
      simp only [decide_eq_true_eq] at hp
      obtain ⟨j, hj, hjw⟩ := List.mem_iff_getElem.1 hm
      have e1 : find m.table e.1.coord = some j := (h2.idx _ _).2 ⟨w, by rw [List.getElem?_eq_getElem hj, hjw], hp⟩
      have e2 : find m.table e.1.coord = some i := (h2.idx _ _).2 ⟨e, by rw [List.getElem?_eq_getElem hi, hie], rfl⟩
      rw [e1] at e2
      cases e2
      rw [hjw] at hie
      subst hie
      rfl
  rw [ha] at h3
  have hrel := relMap_run hR horizon cycle calls 0 (fun _ => none) (fun _ => none) (fun _ => trivial) e.1.coord
  rw [← h3] at hrel
  unfold Spec.received
  cases hB : Spec.AMap.run Spec.sampleContents (1 / leaf) horizon cycle 0 (fun _ => none) calls e.1.coord with
  | none => rw [hB] at hrel; exact hrel.elim
  | some b =>
    rw [hB] at hrel
    refine ⟨b.2, ?_, hrel.2, ?_⟩
    · have h : e.1.lru = b.1 := hrel.1
      rw [h]
    · rcases List.eq_nil_or_concat calls with rfl | ⟨cs, call, rfl⟩
      · simp [Spec.AMap.run] at h3
      · rw [List.concat_eq_append, run_append] at h3
        unfold Spec.AMap.call at h3
        rw [eq_comm, Option.map_eq_some_iff] at h3
        obtain ⟨w, _, hw⟩ := h3
        exact ⟨w.2, (congrArg Prod.snd hw).symm⟩

/-! ### C17 -/

/-- Relation between a flat voxel and what its cell received. -/
structure FlatOK (s : FlatSetting K) (invLeaf : K) (cell : Coord) (v : FlatVoxel K) (L : List (Spec.Sample K)) : Prop where
  kept : ∃ L' : List (Spec.Sample K), L'.Sublist L ∧ v.points = L'.map (fun e => e.1) ∧
    (s.hasNormals = true → v.normals = L'.map (fun e => mulPt e.2.2 e.2.1.normal)) ∧
    (s.hasCovs = true → v.covs = L'.map (fun e => e.2.2 * e.2.1.cov * e.2.2.transpose))
  capacity : v.points.length ≤ s.maxNum
  spacing : v.points.Pairwise (fun a b => s.minSqDist ≤ Spec.sqd a b)
  inCell : ∀ e ∈ L, Spec.cellOf invLeaf e.1 = cell
  rejected : ∀ e ∈ L, e.1 ∈ v.points ∨ v.points.length = s.maxNum ∨ ∃ p ∈ v.points, Spec.sqd p e.1 < s.minSqDist

omit [LinearOrder K] [IsStrictOrderedRing K] [FloorRing K] in
theorem sqDist_eq (p q : Pt K) : Pt.sqDist (exactOps K) p q = Spec.sqd p q := by
  simp only [Pt.sqDist, exactOps, Spec.sqd]; ring

omit [IsStrictOrderedRing K] in
theorem flatOK_add (s : FlatSetting K) (invLeaf : K) (cell : Coord) (v : FlatVoxel K) (L : List (Spec.Sample K))
    (h : FlatOK s invLeaf cell v L) (tp : Pt K) (src : SrcPt K) (T : Mat4 K) (hc : Spec.cellOf invLeaf tp = cell) :
    FlatOK s invLeaf cell (v.add s tp src T) (L ++ [(tp, src, T)]) := by
  have hin : ∀ e ∈ L ++ [(tp, src, T)], Spec.cellOf invLeaf e.1 = cell := by
    intro e he
    rcases List.mem_append.1 he with he | he
    · exact h.inCell e he
    · rw [List.mem_singleton.1 he]; exact hc
  obtain ⟨L', k1, k2, k3, k4⟩ := h.kept
  unfold FlatVoxel.add
  by_cases hr : s.maxNum ≤ v.points.length ∨ v.points.any (fun p => decide (Pt.sqDist (exactOps K) p tp < s.minSqDist))
  · rw [if_pos hr]
    refine ⟨⟨L', k1.trans (List.sublist_append_left _ _), k2, k3, k4⟩, h.capacity, h.spacing, hin, ?_⟩
    intro e he
    rcases List.mem_append.1 he with he | he
    · exact h.rejected e he
    · rw [List.mem_singleton.1 he]
      rcases hr with hr | hr
      · right; left; exact le_antisymm h.capacity hr
      · right; right
        obtain ⟨p, hp, hlt⟩ := List.any_eq_true.1 hr
        exact ⟨p, hp, by rw [← sqDist_eq]; simpa using hlt⟩
  · rw [if_neg hr]
    rw [not_or] at hr
    refine ⟨⟨L' ++ [(tp, src, T)], k1.append (List.Sublist.refl _), by simp [k2], ?_, ?_⟩, ?_, ?_, hin, ?_⟩
    · intro hn; simp [hn, k3 hn]
    · intro hn; simp [hn, k4 hn]
    · simp only [List.length_append, List.length_cons, List.length_nil]; omega
    · simp only
      rw [List.pairwise_append]
      refine ⟨h.spacing, List.pairwise_singleton _ _, ?_⟩
      intro a ha b hb
      rw [List.mem_singleton.1 hb]
      by_contra hlt
      apply hr.2
      rw [List.any_eq_true]
      exact ⟨a, ha, by rw [sqDist_eq]; simpa using hlt⟩
    · intro e he
      simp only [List.mem_append, List.mem_singleton, List.length_append, List.length_cons, List.length_nil]
      rcases List.mem_append.1 he with he | he
      · rcases h.rejected e he with h1 | h1 | ⟨p, hp, h1⟩
        · left; left; exact h1
        · exact absurd (le_of_eq h1.symm) hr.1
        · right; right; exact ⟨p, Or.inl hp, h1⟩
      · rw [List.mem_singleton.1 he]; left; right; rfl

omit [IsStrictOrderedRing K] in
theorem flat_relOK (s : FlatSetting K) (invLeaf : K) :
    RelOK (flatContents s) Spec.sampleContents invLeaf (fun cell v L => FlatOK s invLeaf cell v L) where
  fresh cell tp src T hc := by
    have h0 : FlatOK s invLeaf cell (flatContents s).fresh ([] : List (Spec.Sample K)) :=
      ⟨⟨[], List.Sublist.refl _, rfl, fun _ => rfl, fun _ => rfl⟩, Nat.zero_le _, List.Pairwise.nil, by simp, by simp⟩
    exact flatOK_add s invLeaf cell _ _ h0 tp src T hc
  add cell v L tp src T hc h := flatOK_add s invLeaf cell v L h tp src T hc
  fin _ _ _ h := h

/-- C17. After any history of insert calls every linear voxel holds at most `max_num_points_in_cell` points, pairwise at
squared distance at least `min_sq_dist_in_cell`, all in the voxel's own cell; they are a subsequence (with their rotated
normals and covariances aligned) of the points `L` offered to the cell since it was created, and every offered point
missing from the voxel was dropped because the voxel is full or because a stored point is too close to it. -/
theorem C17_flat_voxels (s : FlatSetting K) (leaf : K) (horizon cycle : Nat) (offsets : List Coord) (hc : cycle ≠ 0)
    (calls : List (List (SrcPt K) × Mat4 K)) (hw : horizon + calls.length < 2 ^ 64)
    (hd : ∀ call ∈ calls, ∀ s ∈ call.1, Spec.CellDefined (1 / leaf) (mulPt call.2 s.pt)) :
    ∃ m, insertCalls (flatContents s) (userMap leaf horizon cycle offsets) calls = .ok m ∧
      ∀ e ∈ m.flat, ∃ L, Spec.received (1 / leaf) horizon cycle calls e.1.coord = some (e.1.lru, L) ∧
        (∃ L' : List (Spec.Sample K), L'.Sublist L ∧ e.2.points = L'.map (fun x => x.1) ∧
          (s.hasNormals = true → e.2.normals = L'.map (fun x => mulPt x.2.2 x.2.1.normal)) ∧
          (s.hasCovs = true → e.2.covs = L'.map (fun x => x.2.2 * x.2.1.cov * x.2.2.transpose))) ∧
        e.2.points.length ≤ s.maxNum ∧ e.2.points.Pairwise (fun a b => s.minSqDist ≤ Spec.sqd a b) ∧
        (∀ p ∈ e.2.points, Spec.cellOf (1 / leaf) p = e.1.coord) ∧
        (∀ x ∈ L, x.1 ∉ e.2.points → e.2.points.length = s.maxNum ∨ ∃ p ∈ e.2.points, Spec.sqd p x.1 < s.minSqDist) := by
  obtain ⟨m, h1, _, _, _, h2⟩ := voxel_received leaf (flat_relOK s (1 / leaf)) horizon cycle offsets hc calls hw hd
  refine ⟨m, h1, ?_⟩
  intro e he
  obtain ⟨L, hL, hR, _⟩ := h2 e he
  refine ⟨L, hL, hR.kept, hR.capacity, hR.spacing, ?_, ?_⟩
  · intro p hp
    obtain ⟨L', k1, k2, _⟩ := hR.kept
    rw [k2] at hp
    obtain ⟨x, hx, rfl⟩ := List.mem_map.1 hp
    exact hR.inCell x (k1.subset hx)
  · intro x hx hn
    exact (hR.rejected x hx).resolve_left hn

/-! ### C18 -/

/-- Arithmetic mean of the received points. -/
def avgPt (L : List (Spec.Sample K)) : Pt K where
  x := (L.map (fun e => e.1.x)).sum / (L.length : K)
  y := (L.map (fun e => e.1.y)).sum / (L.length : K)
  z := (L.map (fun e => e.1.z)).sum / (L.length : K)
  w := (L.map (fun e => e.1.w)).sum / (L.length : K)

/-- Arithmetic mean of the received (rotated) covariances. -/
def avgCov (L : List (Spec.Sample K)) : Mat4 K :=
  (L.length : K)⁻¹ • (L.map (fun e => e.2.2 * e.2.1.cov * e.2.2.transpose)).sum

def sumPt (L : List (Spec.Sample K)) : Pt K :=
  ⟨(L.map (fun e => e.1.x)).sum, (L.map (fun e => e.1.y)).sum, (L.map (fun e => e.1.z)).sum, (L.map (fun e => e.1.w)).sum⟩

def sumCov (L : List (Spec.Sample K)) : Mat4 K := (L.map (fun e => e.2.2 * e.2.1.cov * e.2.2.transpose)).sum

structure GaussOK (invLeaf : K) (cell : Coord) (v : GaussianVoxel K) (L : List (Spec.Sample K)) : Prop where
  num : v.numPoints = L.length
  nonempty : v.finalized = true → L ≠ []
  inCell : ∀ e ∈ L, Spec.cellOf invLeaf e.1 = cell
  mean : v.mean = if v.finalized then avgPt L else sumPt L
  cov : v.cov = if v.finalized then avgCov L else sumCov L

omit [IsStrictOrderedRing K] in
theorem gaussOK_add (invLeaf : K) (cell : Coord) (v : GaussianVoxel K) (L : List (Spec.Sample K)) (h : GaussOK invLeaf cell v L)
    (tp : Pt K) (src : SrcPt K) (T : Mat4 K) (hc : Spec.cellOf invLeaf tp = cell) :
    GaussOK invLeaf cell (v.add tp src T) (L ++ [(tp, src, T)]) := by
  have hin : ∀ e ∈ L ++ [(tp, src, T)], Spec.cellOf invLeaf e.1 = cell := by
    intro e he
    rcases List.mem_append.1 he with he | he
    · exact h.inCell e he
    · rw [List.mem_singleton.1 he]; exact hc
  have hs1 : sumPt (L ++ [(tp, src, T)]) = Voxel.Pt.plus (sumPt L) tp := by simp [sumPt, Voxel.Pt.plus]
  have hs2 : sumCov (L ++ [(tp, src, T)]) = sumCov L + T * src.cov * T.transpose := by simp [sumCov]
  by_cases hf : v.finalized = true
  · have hne := h.nonempty hf
    have hn : (L.length : K) ≠ 0 := by
      have : L.length ≠ 0 := fun e => hne (List.length_eq_zero_iff.1 e)
      exact_mod_cast this
    have hm := h.mean
    have hcv := h.cov
    rw [if_pos hf] at hm hcv
    unfold GaussianVoxel.add
    simp only [hf, if_true]
    refine ⟨by simp [h.num], by simp, hin, ?_, ?_⟩
    · simp only [Bool.false_eq_true, if_false]
      rw [hs1, hm, h.num]
      simp only [avgPt, sumPt, Pt.smul, div_mul_cancel₀ _ hn]
    · simp only [Bool.false_eq_true, if_false]
      rw [hs2, hcv, h.num]
      unfold avgCov sumCov
      rw [smul_smul, mul_inv_cancel₀ hn, one_smul]
  · have hf' : v.finalized = false := by simpa using hf
    have hm := h.mean
    have hcv := h.cov
    rw [if_neg hf] at hm hcv
    unfold GaussianVoxel.add
    simp only [hf', Bool.false_eq_true, if_false]
    refine ⟨by simp [h.num], by simp, hin, ?_, ?_⟩
    · simp only [Bool.false_eq_true, if_false]; rw [hs1, hm]
    · simp only [Bool.false_eq_true, if_false]; rw [hs2, hcv]

omit [IsStrictOrderedRing K] in
theorem gauss_relOK (invLeaf : K) :
    RelOK (gaussianContents (K := K)) Spec.sampleContents invLeaf (fun cell v L => GaussOK invLeaf cell v L ∧ L ≠ []) where
  fresh cell tp src T hc := by
    have h0 : GaussOK invLeaf cell (gaussianContents (K := K)).fresh ([] : List (Spec.Sample K)) :=
      ⟨rfl, by simp [gaussianContents, GaussianVoxel.fresh], by simp, by simp [gaussianContents, GaussianVoxel.fresh, sumPt],
        by simp [gaussianContents, GaussianVoxel.fresh, sumCov]⟩
    exact ⟨gaussOK_add invLeaf cell _ _ h0 tp src T hc, by simp [Spec.sampleContents]⟩
  add cell v L tp src T hc h := ⟨gaussOK_add invLeaf cell v L h.1 tp src T hc, by simp [Spec.sampleContents]⟩
  fin cell v L h := by
    refine ⟨?_, h.2⟩
    show GaussOK invLeaf cell v.finalize L
    unfold GaussianVoxel.finalize
    by_cases hf : v.finalized = true
    · rw [if_pos hf]; exact h.1
    · rw [if_neg hf]
      have hm := h.1.mean
      have hcv := h.1.cov
      rw [if_neg hf] at hm hcv
      refine ⟨h.1.num, fun _ => h.2, h.1.inCell, ?_, ?_⟩
      · simp only [if_true]; rw [hm, h.1.num]; rfl
      · simp only [if_true]; rw [hcv, h.1.num]; rfl

/-- C18. After any history of insert calls every Gaussian voxel is finalized and holds the number, the arithmetic mean of
the transformed points and of the transformed covariances of everything its cell received since it was created. -/
theorem C18_gaussian_average (leaf : K) (horizon cycle : Nat) (offsets : List Coord) (hc : cycle ≠ 0)
    (calls : List (List (SrcPt K) × Mat4 K)) (hw : horizon + calls.length < 2 ^ 64)
    (hd : ∀ call ∈ calls, ∀ s ∈ call.1, Spec.CellDefined (1 / leaf) (mulPt call.2 s.pt)) :
    ∃ m, insertCalls gaussianContents (userMap leaf horizon cycle offsets) calls = .ok m ∧
      ∀ e ∈ m.flat, ∃ L, Spec.received (1 / leaf) horizon cycle calls e.1.coord = some (e.1.lru, L) ∧ L ≠ [] ∧
        e.2.numPoints = L.length ∧ e.2.mean = avgPt L ∧ e.2.cov = avgCov L := by
  obtain ⟨m, h1, _, _, _, h2⟩ := voxel_received leaf (gauss_relOK (1 / leaf)) horizon cycle offsets hc calls hw hd
  refine ⟨m, h1, ?_⟩
  intro e he
  obtain ⟨L, hL, hR, v, hv⟩ := h2 e he
  have hf : e.2.finalized = true := by
    rw [hv]
    show v.finalize.finalized = true
    unfold GaussianVoxel.finalize
    split
    · assumption
    · rfl
  have hm := hR.1.mean
  have hcv := hR.1.cov
  rw [if_pos hf] at hm hcv
  exact ⟨L, hL, hR.2, hR.1.num, hm, hcv⟩

omit [LinearOrder K] [IsStrictOrderedRing K] [FloorRing K] in
/-- C18, order independence: the averages only depend on the multiset of received points. -/
theorem C18_order_independent (L L' : List (Spec.Sample K)) (h : L.Perm L') : avgPt L = avgPt L' ∧ avgCov L = avgCov L' := by
  unfold avgPt avgCov
  rw [h.length_eq, (h.map _).sum_eq, (h.map _).sum_eq, (h.map _).sum_eq, (h.map _).sum_eq, (h.map _).sum_eq]
  exact ⟨rfl, rfl⟩

/-- C18, batching independence: as long as nothing is evicted (the history is not longer than the horizon), the cell has
received exactly all points of the history that fall in it; so two histories that offer the cell the same points, in
whatever order and whatever batches, give the same Gaussian. -/
theorem C18_batching_independent (leaf : K) (horizon cycle : Nat) (offsets : List Coord) (hc : cycle ≠ 0)
    (calls calls' : List (List (SrcPt K) × Mat4 K)) (hw : horizon < 2 ^ 63) (hl : calls.length ≤ horizon) (hl' : calls'.length ≤ horizon)
    (hd : ∀ call ∈ calls, ∀ s ∈ call.1, Spec.CellDefined (1 / leaf) (mulPt call.2 s.pt))
    (hd' : ∀ call ∈ calls', ∀ s ∈ call.1, Spec.CellDefined (1 / leaf) (mulPt call.2 s.pt)) :
    ∃ m m', insertCalls gaussianContents (userMap leaf horizon cycle offsets) calls = .ok m ∧
      insertCalls gaussianContents (userMap leaf horizon cycle offsets) calls' = .ok m' ∧
      ∀ e ∈ m.flat, ∀ e' ∈ m'.flat, e.1.coord = e'.1.coord →
        (Spec.offered (1 / leaf) calls e.1.coord).Perm (Spec.offered (1 / leaf) calls' e.1.coord) →
        e.2.mean = e'.2.mean ∧ e.2.cov = e'.2.cov ∧ e.2.numPoints = e'.2.numPoints := by
  obtain ⟨m, h1, h2⟩ := C18_gaussian_average leaf horizon cycle offsets hc calls (by omega) hd
  obtain ⟨m', h1', h2'⟩ := C18_gaussian_average leaf horizon cycle offsets hc calls' (by omega) hd'
  refine ⟨m, m', h1, h1', ?_⟩
  intro e he e' he' hcc hp
  obtain ⟨L, hL, _, hn, hm, hcv⟩ := h2 e he
  obtain ⟨L', hL', _, hn', hm', hcv'⟩ := h2' e' he'
  have hr := received_no_eviction (invLeaf := 1 / leaf) horizon cycle e.1.coord calls hl
  have hr' := received_no_eviction (invLeaf := 1 / leaf) horizon cycle e'.1.coord calls' hl'
  rw [hL] at hr
  rw [hL'] at hr'
  have hLL : L.Perm L' := by
    have a : L = _ := hr.2
    have b : L' = _ := hr'.2
    rw [a, b, ← hcc]; exact hp
  obtain ⟨a, b⟩ := C18_order_independent L L' hLL
  exact ⟨by rw [hm, hm', a], by rw [hcv, hcv', b], by rw [hn, hn', hLL.length_eq]⟩

/-! ### C15 -/

/-- Coordinates closer than one leaf have neighbouring cells. -/
theorem floor_close {leaf : K} (hpos : 0 < leaf) {a b : K} (h : (a - b) ^ 2 < leaf ^ 2) : |⌊a * (1 / leaf)⌋ - ⌊b * (1 / leaf)⌋| ≤ 1 := by
  have habs : |a - b| < leaf := abs_lt_of_sq_lt_sq h hpos.le
  rw [abs_lt] at habs
  have e1 : a * (1 / leaf) - b * (1 / leaf) < 1 := by
    rw [← sub_mul, mul_one_div, div_lt_one hpos]; exact habs.2
  have e2 : -1 < a * (1 / leaf) - b * (1 / leaf) := by
    rw [← sub_mul, mul_one_div, lt_div_iff₀ hpos]; linarith [habs.1]
  have f1 := Int.floor_le (a * (1 / leaf))
  have f2 := Int.lt_floor_add_one (a * (1 / leaf))
  have f3 := Int.floor_le (b * (1 / leaf))
  have f4 := Int.lt_floor_add_one (b * (1 / leaf))
  rw [abs_le]
  constructor
  · have : (⌊b * (1 / leaf)⌋ : K) < ⌊a * (1 / leaf)⌋ + 2 := by linarith
    have : ⌊b * (1 / leaf)⌋ < ⌊a * (1 / leaf)⌋ + 2 := by exact_mod_cast this
    omega
  · have : (⌊a * (1 / leaf)⌋ : K) < ⌊b * (1 / leaf)⌋ + 2 := by linarith
    have : ⌊a * (1 / leaf)⌋ < ⌊b * (1 / leaf)⌋ + 2 := by exact_mod_cast this
    omega

/-- C15, core: any consistent map whose points lie in their own cells and whose offsets contain the 3x3x3 block. Every
stored point closer than one leaf is considered; and if there is such a point the search returns a global nearest
neighbour first. -/
theorem C15_block_search {c : Contents K V} {pts : V → List (Pt K)} (hl : Lawful c pts) (m : VoxelMap K V)
    (hI : Indexed m.table m.flat) (hb : IdsFit pts m) (leaf : K) (hleaf : 0 < leaf) (hinv : m.invLeaf = 1 / leaf)
    (hcell : ∀ v ∈ m.flat, ∀ p ∈ pts v.2, Spec.cellOf (1 / leaf) p = v.1.coord)
    (q : Pt K) (hq : Spec.CellDefined (1 / leaf) q)
    (hoff : ∀ o ∈ offsets27, o ∈ m.offsets)
    (hd : ∀ o ∈ m.offsets, Spec.CoordFits (Spec.shiftCell (Spec.cellOf (1 / leaf) q) o))
    (maxD : K) (hmax : leaf ^ 2 ≤ maxD)
    (N k : Int) (cap : Nat) (hcap : cap = if 0 < N then N.toNat else k.toNat) (hpos : 0 < cap) (hk : 0 < N → k < 0)
    (indices : List Nat) (dists : List K) (hi : cap ≤ indices.length) (hdl : cap ≤ dists.length) :
    ∃ r, Voxel.search c maxD m q N k indices dists = .ok r ∧
      (∀ id p, Spec.StoredIn pts m.flat (fun _ => True) id p → Spec.sqd p q < leaf ^ 2 → id ∉ r.found.map Prod.fst →
        r.found.length = cap ∧ ∀ e ∈ r.found, e.2 ≤ Spec.sqd p q) ∧
      ((∃ id p, Spec.StoredIn pts m.flat (fun _ => True) id p ∧ Spec.sqd p q < leaf ^ 2) →
        ∃ e rest p, r.found = e :: rest ∧ Spec.StoredIn pts m.flat (fun _ => True) e.1 p ∧ e.2 = Spec.sqd p q ∧
          ∀ id' p', Spec.StoredIn pts m.flat (fun _ => True) id' p' → e.2 ≤ Spec.sqd p' q) := by
  rw [← hinv] at hq hd hcell
  obtain ⟨r, h1, h2, _⟩ := C14_search_exact hl m hI hb q hq hd maxD N k cap hcap hpos hk indices dists hi hdl
  refine ⟨r, h1, ?_⟩
  have hcand : ∀ id p, Spec.StoredIn pts m.flat (fun _ => True) id p → Spec.sqd p q < leaf ^ 2 →
      (∃ p, Spec.StoredIn pts m.flat (fun cell => ∃ o ∈ m.offsets, cell = Spec.shiftCell (Spec.cellOf m.invLeaf q) o) id p ∧
        Spec.sqd p q = Spec.sqd p q) ∧ Spec.sqd p q < maxD ∧
      Spec.StoredIn pts m.flat (fun cell => ∃ o ∈ m.offsets, cell = Spec.shiftCell (Spec.cellOf m.invLeaf q) o) id p := by
    rintro id p ⟨i, v, j, a1, _, a3, a4⟩ hlt
    have hc := hcell v (List.mem_of_getElem? a1) p (List.mem_of_getElem? a3)
    have hs : ∀ a b c d : K, a ^ 2 + b ^ 2 + c ^ 2 + d ^ 2 < leaf ^ 2 → a ^ 2 < leaf ^ 2 ∧ b ^ 2 < leaf ^ 2 ∧ c ^ 2 < leaf ^ 2 := by
      intro a b c d h
      have := sq_nonneg a; have := sq_nonneg b; have := sq_nonneg c; have := sq_nonneg d
      exact ⟨by linarith, by linarith, by linarith⟩
    obtain ⟨x1, x2, x3⟩ := hs _ _ _ _ (by simpa [Spec.sqd] using hlt)
    have b1 := floor_close hleaf x1
    have b2 := floor_close hleaf x2
    have b3 := floor_close hleaf x3
    have hst : Spec.StoredIn pts m.flat (fun cell => ∃ o ∈ m.offsets, cell = Spec.shiftCell (Spec.cellOf m.invLeaf q) o) id p := by
      refine ⟨i, v, j, a1, ?_, a3, a4⟩
      refine ⟨(⌊p.x * (1 / leaf)⌋ - ⌊q.x * (1 / leaf)⌋, ⌊p.y * (1 / leaf)⌋ - ⌊q.y * (1 / leaf)⌋, ⌊p.z * (1 / leaf)⌋ - ⌊q.z * (1 / leaf)⌋),
        hoff _ ((mem_offsets27 _).2 ⟨b1, b2, b3⟩), ?_⟩
      rw [← hc, hinv]
      simp [Spec.cellOf, Spec.shiftCell]
    exact ⟨⟨p, hst, rfl⟩, lt_of_lt_of_le hlt hmax, hst⟩
  have hA : ∀ id p, Spec.StoredIn pts m.flat (fun _ => True) id p → Spec.sqd p q < leaf ^ 2 → id ∉ r.found.map Prod.fst →
        r.found.length = cap ∧ ∀ e ∈ r.found, e.2 ≤ Spec.sqd p q := by
    intro id p hs hlt hn
    obtain ⟨_, hm, hst⟩ := hcand id p hs hlt
    refine ⟨?_, h2.best id _ ⟨⟨p, hst, rfl⟩, hm⟩ hn⟩
    by_contra hne
    have := h2.length_le
    exact hn (h2.complete (by omega) id _ ⟨⟨p, hst, rfl⟩, hm⟩)
  refine ⟨hA, ?_⟩
  have huniq : ∀ id p p', Spec.StoredIn pts m.flat (fun _ => True) id p → Spec.StoredIn pts m.flat (fun _ => True) id p' → p = p' := by
    rintro id p p' ⟨i, v, j, a1, _, a3, a4⟩ ⟨i', v', j', b1, _, b3, b4⟩
    have hj : j < (pts v.2).length := (List.getElem?_eq_some_iff.1 a3).1
    have hj' : j' < (pts v'.2).length := (List.getElem?_eq_some_iff.1 b3).1
    have := hb.2 v (List.mem_of_getElem? a1)
    have := hb.2 v' (List.mem_of_getElem? b1)
    have hii : i = i' := by omega
    have hjj : j = j' := by omega
    subst hii; subst hjj
    rw [a1] at b1; cases b1
    rw [a3] at b3; cases b3; rfl
  have hweak : ∀ id p (C : Coord → Prop), Spec.StoredIn pts m.flat C id p → Spec.StoredIn pts m.flat (fun _ => True) id p := by
    rintro id p C ⟨i, v, j, a1, _, a3, a4⟩; exact ⟨i, v, j, a1, trivial, a3, a4⟩
  rintro ⟨id0, p0, hs0, hlt0⟩
  cases hfound : r.found with
  | nil =>
    have := (hA id0 p0 hs0 hlt0 (by rw [hfound]; simp)).1
    rw [hfound] at this; simp at this; omega
  | cons e rest =>
    have hsorted := h2.sorted
    rw [hfound, List.pairwise_cons] at hsorted
    obtain ⟨⟨p, hst, hpd⟩, _⟩ := h2.genuine e (by rw [hfound]; simp)
    have hclose : ∀ id' p', Spec.StoredIn pts m.flat (fun _ => True) id' p' → Spec.sqd p' q < leaf ^ 2 → e.2 ≤ Spec.sqd p' q := by
      intro id' p' hs' hlt'
      by_cases hin : id' ∈ r.found.map Prod.fst
      · obtain ⟨x, hx, hxe⟩ := List.mem_map.1 hin
        obtain ⟨⟨px, hpx, hpxd⟩, _⟩ := h2.genuine x hx
        rw [hxe] at hpx
        have := huniq id' px p' (hweak _ _ _ hpx) hs'
        subst this
        rw [← hpxd]
        rw [hfound] at hx
        rcases List.mem_cons.1 hx with rfl | hx
        · exact le_refl _
        · exact hsorted.1 x hx
      · exact (hA id' p' hs' hlt' hin).2 e (by rw [hfound]; simp)
    refine ⟨e, rest, p, rfl, hweak _ _ _ hst, hpd, ?_⟩
    intro id' p' hs'
    by_cases hlt' : Spec.sqd p' q < leaf ^ 2
    · exact hclose id' p' hs' hlt'
    · exact ((hclose id0 p0 hs0 hlt0).trans hlt0.le).trans (not_lt.1 hlt')

/-- The mean of numbers with a common floor (after scaling) has the same floor. -/
theorem floor_avg {α : Type} (inv : K) (f : α → K) (n : Int) : ∀ (L : List α), L ≠ [] → (∀ e ∈ L, ⌊f e * inv⌋ = n) →
    ⌊(L.map f).sum / (L.length : K) * inv⌋ = n := by
  intro L hne h
  have hlen : (0 : K) < L.length := by
    have : 0 < L.length := List.length_pos_of_ne_nil hne
    exact_mod_cast this
  have key : ∀ L : List α, (∀ e ∈ L, ⌊f e * inv⌋ = n) →
      (n : K) * L.length ≤ (L.map f).sum * inv ∧ (L ≠ [] → (L.map f).sum * inv < (n + 1 : K) * L.length) := by
    intro L
    induction L with
    | nil => intro _; simp
    | cons a L ih =>
      intro h
      obtain ⟨h1, h2⟩ := ih (fun e he => h e (by simp [he]))
      have ha := (Int.floor_eq_iff).1 (h a (by simp))
      simp only [List.map_cons, List.sum_cons, List.length_cons, Nat.cast_add, Nat.cast_one]
      refine ⟨by linarith [add_mul (f a) ((L.map f).sum) inv], fun _ => ?_⟩
      by_cases hL : L = []
      · subst hL; simp; linarith [ha.2]
      · have := h2 hL
        nlinarith [ha.2, this]
  obtain ⟨h1, h2⟩ := key L h
  have h2 := h2 hne
  rw [Int.floor_eq_iff, div_mul_eq_mul_div, le_div_iff₀ hlen, div_lt_iff₀ hlen]
  exact ⟨h1, h2⟩

/-- C15 for linear voxel maps over any insertion history: with the 27-cell pattern (set through `set_search_offsets(27)`,
whatever was set before), if some stored point is closer than the leaf size, the nearest-neighbour search returns a
nearest point of the whole map; and `knn_search` never leaves out a point closer than the leaf size in favour of a
farther one. -/
theorem C15_linear_voxelmap (s : FlatSetting K) (hs : s.maxNum ≤ 2 ^ 32) (leaf : K) (hleaf : 0 < leaf) (horizon cycle : Nat)
    (hc : cycle ≠ 0) (earlier : List Int) (calls : List (List (SrcPt K) × Mat4 K)) (hw : horizon + calls.length < 2 ^ 64)
    (hd : ∀ call ∈ calls, ∀ s ∈ call.1, Spec.CellDefined (1 / leaf) (mulPt call.2 s.pt))
    (q : Pt K) (hq : Spec.CellDefined (1 / leaf) q)
    (hqn : ∀ o, InPattern 27 o → Spec.CoordFits (Spec.shiftCell (Spec.cellOf (1 / leaf) q) o))
    (maxD : K) (hmax : leaf ^ 2 ≤ maxD)
    (N k : Int) (cap : Nat) (hcap : cap = if 0 < N then N.toNat else k.toNat) (hpos : 0 < cap) (hk : 0 < N → k < 0)
    (indices : List Nat) (dists : List K) (hi : cap ≤ indices.length) (hdl : cap ≤ dists.length) :
    ∃ m, insertCalls (flatContents s) (userMap leaf horizon cycle
        (setSearchOffsets (earlier.foldl setSearchOffsets (setSearchOffsets [] 1)) 27)) calls = .ok m ∧
      (m.flat.length ≤ 2 ^ 32 →
        ∃ r, Voxel.search (flatContents s) maxD m q N k indices dists = .ok r ∧
          (∀ id p, Spec.StoredIn FlatVoxel.points m.flat (fun _ => True) id p → Spec.sqd p q < leaf ^ 2 → id ∉ r.found.map Prod.fst →
            r.found.length = cap ∧ ∀ e ∈ r.found, e.2 ≤ Spec.sqd p q) ∧
          ((∃ id p, Spec.StoredIn FlatVoxel.points m.flat (fun _ => True) id p ∧ Spec.sqd p q < leaf ^ 2) →
            ∃ e rest p, r.found = e :: rest ∧ Spec.StoredIn FlatVoxel.points m.flat (fun _ => True) e.1 p ∧ e.2 = Spec.sqd p q ∧
              ∀ id' p', Spec.StoredIn FlatVoxel.points m.flat (fun _ => True) id' p' → e.2 ≤ Spec.sqd p' q)) := by
  obtain ⟨m, h1, hI, g1, g4, h2⟩ := voxel_received leaf (flat_relOK s (1 / leaf)) horizon cycle
    (setSearchOffsets (earlier.foldl setSearchOffsets (setSearchOffsets [] 1)) 27) hc calls hw hd
  refine ⟨m, h1, fun hlen => ?_⟩
  have hb : IdsFit FlatVoxel.points m := by
    refine ⟨hlen, fun v hv => ?_⟩
    obtain ⟨L, _, hR, _⟩ := h2 v hv
    exact hR.capacity.trans hs
  refine C15_block_search (flat_lawful s) m hI.idx hb leaf hleaf g1 ?_ q hq ?_ ?_ maxD hmax N k cap hcap hpos hk indices dists hi hdl
  · intro v hv p hp
    obtain ⟨L, _, hR, _⟩ := h2 v hv
    obtain ⟨L', k1, k2, _⟩ := hR.kept
    rw [k2] at hp
    obtain ⟨x, hx, rfl⟩ := List.mem_map.1 hp
    exact hR.inCell x (k1.subset hx)
  · intro o ho
    rw [g4, C20_pattern_27_cells_partial]
    exact Or.inr (Or.inr ⟨rfl, (mem_offsets27 o).1 ho⟩)
  · intro o ho
    rw [g4, C20_pattern_27_cells_partial] at ho
    exact hqn o ho

/-- C15 for Gaussian voxel maps: the searched points are the voxel means, which lie in their cells by convexity. -/
theorem C15_gaussian_voxelmap (leaf : K) (hleaf : 0 < leaf) (horizon cycle : Nat)
    (hc : cycle ≠ 0) (earlier : List Int) (calls : List (List (SrcPt K) × Mat4 K)) (hw : horizon + calls.length < 2 ^ 64)
    (hd : ∀ call ∈ calls, ∀ s ∈ call.1, Spec.CellDefined (1 / leaf) (mulPt call.2 s.pt))
    (q : Pt K) (hq : Spec.CellDefined (1 / leaf) q)
    (hqn : ∀ o, InPattern 27 o → Spec.CoordFits (Spec.shiftCell (Spec.cellOf (1 / leaf) q) o))
    (maxD : K) (hmax : leaf ^ 2 ≤ maxD)
    (N k : Int) (cap : Nat) (hcap : cap = if 0 < N then N.toNat else k.toNat) (hpos : 0 < cap) (hk : 0 < N → k < 0)
    (indices : List Nat) (dists : List K) (hi : cap ≤ indices.length) (hdl : cap ≤ dists.length) :
    ∃ m, insertCalls gaussianContents (userMap leaf horizon cycle
        (setSearchOffsets (earlier.foldl setSearchOffsets (setSearchOffsets [] 1)) 27)) calls = .ok m ∧
      (m.flat.length ≤ 2 ^ 32 →
        ∃ r, Voxel.search gaussianContents maxD m q N k indices dists = .ok r ∧
          (∀ id p, Spec.StoredIn (fun v => [v.mean]) m.flat (fun _ => True) id p → Spec.sqd p q < leaf ^ 2 → id ∉ r.found.map Prod.fst →
            r.found.length = cap ∧ ∀ e ∈ r.found, e.2 ≤ Spec.sqd p q) ∧
          ((∃ id p, Spec.StoredIn (fun v => [v.mean]) m.flat (fun _ => True) id p ∧ Spec.sqd p q < leaf ^ 2) →
            ∃ e rest p, r.found = e :: rest ∧ Spec.StoredIn (fun v => [v.mean]) m.flat (fun _ => True) e.1 p ∧ e.2 = Spec.sqd p q ∧
              ∀ id' p', Spec.StoredIn (fun v => [v.mean]) m.flat (fun _ => True) id' p' → e.2 ≤ Spec.sqd p' q)) := by
  obtain ⟨m, h1, hI, g1, g4, h2⟩ := voxel_received leaf (gauss_relOK (1 / leaf)) horizon cycle
    (setSearchOffsets (earlier.foldl setSearchOffsets (setSearchOffsets [] 1)) 27) hc calls hw hd
  refine ⟨m, h1, fun hlen => ?_⟩
  have hb : IdsFit (fun v : GaussianVoxel K => [v.mean]) m := ⟨hlen, fun v _ => by simp⟩
  refine C15_block_search gaussian_lawful m hI.idx hb leaf hleaf g1 ?_ q hq ?_ ?_ maxD hmax N k cap hcap hpos hk indices dists hi hdl
  · intro e he p hp
    obtain ⟨L, _, hR, v, hv⟩ := h2 e he
    have hf : e.2.finalized = true := by
      rw [hv]
      show v.finalize.finalized = true
      unfold GaussianVoxel.finalize
      split
      · assumption
      · rfl
    have hm := hR.1.mean
    rw [if_pos hf] at hm
    rw [List.mem_singleton.1 hp, hm]
    have hin := hR.1.inCell
    have hx : ∀ x ∈ L, ⌊x.1.x * (1 / leaf)⌋ = e.1.coord.1 := fun x hx => by rw [← hin x hx]; rfl
    have hy : ∀ x ∈ L, ⌊x.1.y * (1 / leaf)⌋ = e.1.coord.2.1 := fun x hx => by rw [← hin x hx]; rfl
    have hz : ∀ x ∈ L, ⌊x.1.z * (1 / leaf)⌋ = e.1.coord.2.2 := fun x hx => by rw [← hin x hx]; rfl
    unfold Spec.cellOf avgPt
    simp only
    rw [floor_avg (1 / leaf) (fun x : Spec.Sample K => x.1.x) _ L hR.2 hx, floor_avg (1 / leaf) (fun x : Spec.Sample K => x.1.y) _ L hR.2 hy,
      floor_avg (1 / leaf) (fun x : Spec.Sample K => x.1.z) _ L hR.2 hz]
  · intro o ho
    rw [g4, C20_pattern_27_cells_partial]
    exact Or.inr (Or.inr ⟨rfl, (mem_offsets27 o).1 ho⟩)
  · intro o ho
    rw [g4, C20_pattern_27_cells_partial] at ho
    exact hqn o ho

end Verif.Props
