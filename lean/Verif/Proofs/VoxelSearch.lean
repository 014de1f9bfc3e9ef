import Verif.Proofs.Voxel
import Verif.Proofs.KdExact
import Verif.Spec.Geometry

/-!
Voxel-map search: the buffer ends up with the k best of the candidates of the searched cells.
-/

namespace Verif.Proofs

open Verif Verif.Voxel Verif.Knn

section Order
variable {D : Type} [LinearOrder D]

/-- The k best of a list of candidates is a nearest answer for the relation the list enumerates. -/
theorem kBest_isNearest (maxD : D) (k : Nat) (cs : List (Nat × D)) (S : Nat → D → Prop) (hS : ∀ i d, (i, d) ∈ cs ↔ S i d) :
    Spec.IsNearest (fun i d => S i d ∧ d < maxD) k (Spec.kBest maxD k cs) := by
  obtain ⟨rest, h1, h2⟩ := kBest_split maxD k cs
  have hmem : ∀ i d, S i d → d < maxD → (i, d) ∈ Spec.kBest maxD k cs ++ rest := by
    intro i d hs hd
    rw [h1.mem_iff, List.mem_filter]
    exact ⟨(hS i d).2 hs, by simpa using hd⟩
  refine ⟨?_, ?_, kBest_sorted _ _ _, ?_, ?_⟩
  · rw [kBest_length]; exact Nat.min_le_left _ _
  · intro c hc
    have := h1.mem_iff.1 (List.mem_append_left _ hc)
    rw [List.mem_filter] at this
    exact ⟨(hS _ _).1 this.1, by simpa using this.2⟩
  · rintro i d ⟨hs, hd⟩ hn c hc
    rcases List.mem_append.1 (hmem i d hs hd) with e | e
    · exact absurd (List.mem_map.2 ⟨_, e, rfl⟩) hn
    · exact h2 c hc _ e
  · rintro hlt i d ⟨hs, hd⟩
    have hl := h1.length_eq
    rw [List.length_append] at hl
    have hk := kBest_length maxD k cs
    have : rest = [] := List.length_eq_zero_iff.1 (by omega)
    subst this
    have := hmem i d hs hd
    rw [List.append_nil] at this
    exact List.mem_map.2 ⟨_, this, rfl⟩

theorem kBest_nodup (maxD : D) (k : Nat) (cs : List (Nat × D)) (h : (cs.map Prod.fst).Nodup) :
    ((Spec.kBest maxD k cs).map Prod.fst).Nodup := by
  obtain ⟨rest, h1, _⟩ := kBest_split maxD k cs
  have h2 : ((cs.filter (fun c => decide (c.2 < maxD))).map Prod.fst).Nodup := h.sublist ((List.filter_sublist).map _)
  have h3 := (h1.map Prod.fst).nodup_iff.2 h2
  rw [List.map_append, List.nodup_append] at h3
  exact h3.1

end Order

/-! ### ids -/

theorem calcIndex_eq {v p : Nat} (hv : v < 2 ^ 32) (hp : p < 2 ^ 32) : calcIndex v p = v * 2 ^ 32 + p := by
  unfold calcIndex
  rw [Nat.shiftLeft_eq, Nat.mod_eq_of_lt (by omega), ← Nat.shiftLeft_eq, Nat.shiftLeft_add_eq_or_of_lt hp]

theorem voxelId_eq (v p : Nat) (hp : p < 2 ^ 32) : voxelId (v * 2 ^ 32 + p) = v := by
  unfold voxelId
  rw [Nat.shiftRight_eq_div_pow]; omega

theorem pointId_eq (v p : Nat) (hp : p < 2 ^ 32) : pointId (v * 2 ^ 32 + p) = p := by
  unfold pointId
  rw [Nat.and_two_pow_sub_one_eq_mod]; omega

section Search
variable {K : Type} [Field K] [LinearOrder K] [IsStrictOrderedRing K] [FloorRing K] {V : Type}

/-- What a voxel content type must satisfy: `pts` lists its points, `search` offers each of them. -/
structure Lawful (c : Contents K V) (pts : V → List (Pt K)) : Prop where
  size : ∀ v, c.size v = (pts v).length
  point : ∀ v j p, (pts v)[j]? = some p → c.point v j = .ok p
  search : ∀ v q tr r, c.search v q tr r = r.pushAll tr ((pts v).zipIdx.map (fun e => (e.2, Pt.sqDist (exactOps K) e.1 q)))

omit [FloorRing K] [IsStrictOrderedRing K] in
theorem flatSearchFrom_eq (q : Pt K) (tr : Nat → Nat) : ∀ (ps : List (Pt K)) (i : Nat) (r : KnnResult K),
    flatSearchFrom q tr i ps r = r.pushAll tr ((ps.zipIdx i).map (fun e => (e.2, Pt.sqDist (exactOps K) e.1 q)))
  | [], _, _ => rfl
  | p :: ps, i, r => by
    unfold flatSearchFrom
    rw [List.zipIdx_cons, List.map_cons]
    unfold KnnResult.pushAll
    cases h : r.push tr i (Pt.sqDist (exactOps K) p q) with
    | error e => rfl
    | ok r' => exact flatSearchFrom_eq q tr ps (i + 1) r'

omit [FloorRing K] [IsStrictOrderedRing K] in
theorem flat_lawful (s : FlatSetting K) : Lawful (flatContents s) FlatVoxel.points where
  size _ := rfl
  point _ _ _ h := rd_of_getElem? h
  search v q tr r := flatSearchFrom_eq q tr v.points 0 r

omit [FloorRing K] [IsStrictOrderedRing K] in
theorem gaussian_lawful : Lawful (gaussianContents (K := K)) (fun v => [v.mean]) where
  size _ := rfl
  point v j p h := by
    cases j with
    | zero => simp only [List.getElem?_cons_zero, Option.some.injEq] at h; rw [← h]; rfl
    | succ j => simp at h
  search v q tr r := by
    simp only [List.zipIdx_cons, List.zipIdx_nil, List.map_cons, List.map_nil]
    unfold KnnResult.pushAll KnnResult.pushAll
    show r.push tr 0 _ = _
    cases r.push tr 0 (Pt.sqDist (exactOps K) v.mean q) <;> rfl

/-- Candidates contributed by voxel number `i`. -/
def voxCands (pts : V → List (Pt K)) (q : Pt K) (i : Nat) (v : V) : List (Nat × K) :=
  (pts v).zipIdx.map (fun e => (calcIndex i e.2, Pt.sqDist (exactOps K) e.1 q))

/-- Candidates contributed by one searched cell. -/
def cellCands (pts : V → List (Pt K)) (m : VoxelMap K V) (q : Pt K) (cell : Coord) : List (Nat × K) :=
  match find m.table cell with
  | none => []
  | some i => match m.flat[i]? with
    | none => []
    | some v => voxCands pts q i v.2

omit [Field K] [LinearOrder K] [IsStrictOrderedRing K] [FloorRing K] in
theorem addCoord_eq {a b : Coord} (h : Spec.CoordFits (Spec.shiftCell a b)) : addCoord a b = .ok (Spec.shiftCell a b) := by
  obtain ⟨h1, h2, h3⟩ := h
  unfold addCoord int32
  simp only [Spec.shiftCell] at h1 h2 h3
  rw [if_pos h1, if_pos h2, if_pos h3]
  rfl

omit [IsStrictOrderedRing K] [FloorRing K] in
theorem searchOffsets_holds {c : Contents K V} {pts : V → List (Pt K)} (hl : Lawful c pts) (m : VoxelMap K V)
    (hI : Indexed m.table m.flat) (q : Pt K) (center : Coord) {maxD : K} {cap ti td} :
    ∀ (os : List Coord) {r : KnnResult K} {L}, Holds maxD cap ti td r L →
      (∀ o ∈ os, Spec.CoordFits (Spec.shiftCell center o)) →
      ∃ r', searchOffsets c m q center os r = .ok r' ∧
        Holds maxD cap ti td r' ((os.flatMap (fun o => cellCands pts m q (Spec.shiftCell center o))).foldl (pushSpec maxD cap) L)
  | [], r, L, h, _ => ⟨r, rfl, h⟩
  | o :: os, r, L, h, hd => by
    have hd' : ∀ o ∈ os, Spec.CoordFits (Spec.shiftCell center o) := fun x hx => hd x (by simp [hx])
    rw [List.flatMap_cons, List.foldl_append]
    unfold searchOffsets
    rw [addCoord_eq (hd o (by simp))]
    simp only [bind, Except.bind]
    cases hf : find m.table (Spec.shiftCell center o) with
    | none =>
      have : cellCands pts m q (Spec.shiftCell center o) = [] := by unfold cellCands; rw [hf]
      rw [this, List.foldl_nil]
      exact searchOffsets_holds hl m hI q center os h hd'
    | some i =>
      obtain ⟨v, hv, _⟩ := (hI _ _).1 hf
      have : cellCands pts m q (Spec.shiftCell center o) = voxCands pts q i v.2 := by unfold cellCands; simp only [hf, hv]
      rw [this]
      simp only
      rw [rd_of_getElem? hv]
      simp only
      rw [hl.search]
      obtain ⟨r1, h1, h2⟩ := pushAll_holds (calcIndex i) ((pts v.2).zipIdx.map (fun e => (e.2, Pt.sqDist (exactOps K) e.1 q))) h
      rw [h1]
      simp only
      rw [List.map_map] at h2
      exact searchOffsets_holds hl m hI q center os h2 hd'

/-- `search` leaves the k best of all candidates in the buffer. -/
theorem search_eq {c : Contents K V} {pts : V → List (Pt K)} (hl : Lawful c pts) (m : VoxelMap K V)
    (hI : Indexed m.table m.flat) (q : Pt K) (hq : Spec.CellDefined m.invLeaf q)
    (hd : ∀ o ∈ m.offsets, Spec.CoordFits (Spec.shiftCell (Spec.cellOf m.invLeaf q) o))
    (maxD : K) (N k : Int) (cap : Nat) (hcap : cap = if 0 < N then N.toNat else k.toNat) (hpos : 0 < cap) (hk : 0 < N → k < 0)
    (indices : List Nat) (dists : List K) (hi : cap ≤ indices.length) (hdl : cap ≤ dists.length) :
    ∃ r, Voxel.search c maxD m q N k indices dists = .ok r ∧
      r.found = Spec.kBest maxD cap (m.offsets.flatMap (fun o => cellCands pts m q (Spec.shiftCell (Spec.cellOf m.invLeaf q) o))) := by
  obtain ⟨r0, h1, h2⟩ := construct_holds maxD N indices dists k cap hcap hpos hk hi hdl
  obtain ⟨r, h3, h4⟩ := searchOffsets_holds hl m hI q (Spec.cellOf m.invLeaf q) m.offsets h2 hd
  refine ⟨r, ?_, ?_⟩
  · unfold Voxel.search
    rw [coordOf_eq hq]
    simp only [bind, Except.bind]
    rw [h1]
    exact h3
  · rw [h4.found_eq, foldl_pushSpec]

omit [LinearOrder K] [IsStrictOrderedRing K] [FloorRing K] in
theorem mem_voxCands {pts : V → List (Pt K)} {q : Pt K} {i : Nat} {v : V} (hi : i < 2 ^ 32) (hs : (pts v).length ≤ 2 ^ 32)
    (id : Nat) (d : K) :
    (id, d) ∈ voxCands pts q i v ↔ ∃ j p, (pts v)[j]? = some p ∧ id = i * 2 ^ 32 + j ∧ d = Spec.sqd p q := by
  have hdist : ∀ p, Pt.sqDist (exactOps K) p q = Spec.sqd p q := by
    intro p; simp only [Pt.sqDist, exactOps, Spec.sqd]; ring
  unfold voxCands
  rw [List.mem_map]
  constructor
  · rintro ⟨⟨p, j⟩, hm, he⟩
    rw [List.mem_zipIdx_iff_getElem?] at hm
    simp only [Prod.mk.injEq] at he
    have hj : j < (pts v).length := (List.getElem?_eq_some_iff.1 hm).1
    exact ⟨j, p, hm, by rw [← he.1, calcIndex_eq hi (by omega)], by rw [← he.2, hdist]⟩
  · rintro ⟨j, p, hm, rfl, rfl⟩
    have hj : j < (pts v).length := (List.getElem?_eq_some_iff.1 hm).1
    exact ⟨(p, j), by rw [List.mem_zipIdx_iff_getElem?]; exact hm, by simp only [Prod.mk.injEq]; exact ⟨calcIndex_eq hi (by omega), hdist p⟩⟩

/-- Voxel and point numbers fit in 32 bits. -/
def IdsFit (pts : V → List (Pt K)) (m : VoxelMap K V) : Prop :=
  m.flat.length ≤ 2 ^ 32 ∧ ∀ v ∈ m.flat, (pts v.2).length ≤ 2 ^ 32

omit [LinearOrder K] [IsStrictOrderedRing K] [FloorRing K] in
theorem mem_cellCands {pts : V → List (Pt K)} {m : VoxelMap K V} (hI : Indexed m.table m.flat) (hb : IdsFit pts m) {q : Pt K}
    (cell : Coord) (id : Nat) (d : K) :
    (id, d) ∈ cellCands pts m q cell ↔ ∃ p, Spec.StoredIn pts m.flat (· = cell) id p ∧ d = Spec.sqd p q := by
  unfold cellCands Spec.StoredIn
  cases hf : find m.table cell with
  | none =>
    simp only [List.not_mem_nil, false_iff]
    rintro ⟨p, ⟨i, v, j, hv, hc, _⟩, _⟩
    rw [(hI cell i).2 ⟨v, hv, hc⟩] at hf; cases hf
  | some i =>
    obtain ⟨v, hv, hvc⟩ := (hI _ _).1 hf
    have hil : i < m.flat.length := (List.getElem?_eq_some_iff.1 hv).1
    simp only [hv]
    rw [mem_voxCands (by have := hb.1; omega) (hb.2 v (List.mem_of_getElem? hv))]
    constructor
    · rintro ⟨j, p, h1, h2, h3⟩; exact ⟨p, ⟨i, v, j, hv, hvc, h1, h2⟩, h3⟩
    · rintro ⟨p, ⟨i', v', j, hv', hc', h1, h2⟩, h3⟩
      have : find m.table cell = some i' := (hI cell i').2 ⟨v', hv', hc'⟩
      rw [hf] at this
      cases this
      rw [hv] at hv'; cases hv'
      exact ⟨j, p, h1, h2, h3⟩

omit [LinearOrder K] [IsStrictOrderedRing K] [FloorRing K] in
theorem mem_allCands {pts : V → List (Pt K)} {m : VoxelMap K V} (hI : Indexed m.table m.flat) (hb : IdsFit pts m) {q : Pt K}
    (cells : List Coord) (id : Nat) (d : K) :
    (id, d) ∈ cells.flatMap (cellCands pts m q) ↔ ∃ p, Spec.StoredIn pts m.flat (· ∈ cells) id p ∧ d = Spec.sqd p q := by
  rw [List.mem_flatMap]
  constructor
  · rintro ⟨cell, hc, h⟩
    obtain ⟨p, ⟨i, v, j, a, b, c, e⟩, h2⟩ := (mem_cellCands hI hb cell id d).1 h
    exact ⟨p, ⟨i, v, j, a, by rw [b]; exact hc, c, e⟩, h2⟩
  · rintro ⟨p, ⟨i, v, j, a, b, c, e⟩, h2⟩
    exact ⟨v.1.coord, b, (mem_cellCands hI hb _ id d).2 ⟨p, ⟨i, v, j, a, rfl, c, e⟩, h2⟩⟩

omit [LinearOrder K] [IsStrictOrderedRing K] [FloorRing K] in
theorem cellCands_nodup {pts : V → List (Pt K)} {m : VoxelMap K V} (hI : Indexed m.table m.flat) (hb : IdsFit pts m) {q : Pt K}
    (cell : Coord) : ((cellCands pts m q cell).map Prod.fst).Nodup := by
  unfold cellCands
  cases hf : find m.table cell with
  | none => simp
  | some i =>
    obtain ⟨v, hv, hvc⟩ := (hI _ _).1 hf
    have hil : i < m.flat.length := (List.getElem?_eq_some_iff.1 hv).1
    simp only [hv]
    unfold voxCands
    rw [List.map_map, List.nodup_iff_injective_getElem]
    rintro ⟨a, ha⟩ ⟨b, hb'⟩ hab
    simp only [List.length_map, List.length_zipIdx] at ha hb'
    simp only [List.getElem_map, List.getElem_zipIdx, Function.comp_apply] at hab
    have hlen := hb.2 v (List.mem_of_getElem? hv)
    have := hb.1
    rw [calcIndex_eq (by omega) (by omega), calcIndex_eq (by omega) (by omega)] at hab
    simp only [Fin.mk.injEq]; omega

omit [LinearOrder K] [IsStrictOrderedRing K] [FloorRing K] in
/-- Distinct cells give distinct candidate ids. -/
theorem allCands_nodup {pts : V → List (Pt K)} {m : VoxelMap K V} (hI : Indexed m.table m.flat) (hb : IdsFit pts m) {q : Pt K}
    (cells : List Coord) (hn : cells.Nodup) : ((cells.flatMap (cellCands pts m q)).map Prod.fst).Nodup := by
  induction cells with
  | nil => simp
  | cons cell cells ih =>
    rw [List.nodup_cons] at hn
    rw [List.flatMap_cons, List.map_append, List.nodup_append]
    refine ⟨cellCands_nodup hI hb cell, ih hn.2, ?_⟩
    rintro a ha b hb' rfl
    obtain ⟨⟨x, d⟩, hx, rfl⟩ := List.mem_map.1 ha
    obtain ⟨⟨y, e⟩, hy, hxy⟩ := List.mem_map.1 hb'
    simp only at hxy
    subst hxy
    obtain ⟨p, ⟨i, v, j, a1, a2, a3, a4⟩, _⟩ := (mem_cellCands hI hb _ _ _).1 hx
    obtain ⟨p', ⟨i', v', j', b1, b2, b3, b4⟩, _⟩ := (mem_allCands hI hb _ _ _).1 hy
    have hj : j < (pts v.2).length := (List.getElem?_eq_some_iff.1 a3).1
    have hj' : j' < (pts v'.2).length := (List.getElem?_eq_some_iff.1 b3).1
    have := hb.2 v (List.mem_of_getElem? a1)
    have := hb.2 v' (List.mem_of_getElem? b1)
    have : i = i' := by omega
    subst this
    rw [a1] at b1
    cases b1
    exact hn.1 (a2 ▸ b2)

end Search

end Verif.Proofs
