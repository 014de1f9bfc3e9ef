import Verif.Proofs.VoxelHistory
import Mathlib.Algebra.BigOperators.Group.List.Basic
import Mathlib.Data.Rat.Floor
import Mathlib.Tactic.NormNum
import Mathlib.Tactic.FieldSimp
import Mathlib.Tactic.FinCases

/-!
C11 - C20: incremental voxel map in exact arithmetic (`K` any Archimedean-floor ordered field, e.g. ℚ or ℝ).
-/

namespace Verif.Props

open Verif Verif.Voxel Verif.Knn Verif.Proofs

/-! ### C19 -/

/-- C19. `fast_floor` returns the mathematical floor exactly when that floor fits in an `int`, and is undefined
otherwise (either the conversion or the final subtraction overflows). -/
theorem C19_fast_floor {K : Type} [Field K] [LinearOrder K] [IsStrictOrderedRing K] [FloorRing K] (x : K) :
    ((INT_MIN ≤ ⌊x⌋ ∧ ⌊x⌋ ≤ INT_MAX) → fastFloor x = .ok ⌊x⌋) ∧
    (¬ (INT_MIN ≤ ⌊x⌋ ∧ ⌊x⌋ ≤ INT_MAX) → fastFloor x = .error .intOverflow) := by
  rw [fastFloor_eq]
  exact ⟨fun h => if_pos h, fun h => if_neg h⟩

/-- C19, vector form: all four coordinates at once. -/
theorem C19_fast_floor_vec {K : Type} [Field K] [LinearOrder K] [IsStrictOrderedRing K] [FloorRing K] (p : Pt K)
    (c : Int × Int × Int × Int) :
    fastFloor4 p = .ok c ↔ c = (⌊p.x⌋, ⌊p.y⌋, ⌊p.z⌋, ⌊p.w⌋) ∧
      (∀ f ∈ [⌊p.x⌋, ⌊p.y⌋, ⌊p.z⌋, ⌊p.w⌋], INT_MIN ≤ f ∧ f ≤ INT_MAX) := by
  unfold fastFloor4
  simp only [fastFloor_eq, bind, Except.bind, pure, Except.pure, List.forall_mem_cons, List.not_mem_nil, false_implies,
    implies_true, and_true]
  by_cases hx : INT_MIN ≤ ⌊p.x⌋ ∧ ⌊p.x⌋ ≤ INT_MAX
  swap; · simp [hx]
  by_cases hy : INT_MIN ≤ ⌊p.y⌋ ∧ ⌊p.y⌋ ≤ INT_MAX
  swap; · simp [if_pos hx, hy]
  by_cases hz : INT_MIN ≤ ⌊p.z⌋ ∧ ⌊p.z⌋ ≤ INT_MAX
  swap; · simp [if_pos hx, if_pos hy, hz]
  by_cases hw : INT_MIN ≤ ⌊p.w⌋ ∧ ⌊p.w⌋ ≤ INT_MAX
  swap; · simp [if_pos hx, if_pos hy, if_pos hz, hw]
  rw [if_pos hx, if_pos hy, if_pos hz, if_pos hw]
  simp only [Except.ok.injEq, hx, hy, hz, hw, and_self, and_true]
  exact eq_comm

/-- Premises are satisfiable, and both branches occur (`-2^31 - 1/2` truncates to a valid `int` but its floor does
not fit). -/
example : fastFloor (-(5 : ℚ) / 2) = .ok (-3) ∧ fastFloor (-(2 ^ 31) - (1 : ℚ) / 2) = .error .intOverflow := by
  constructor
  · rw [(C19_fast_floor (-(5 : ℚ) / 2)).1 (by norm_num [INT_MIN, INT_MAX])]
    norm_num
  · exact (C19_fast_floor _).2 (by norm_num [INT_MIN, INT_MAX])

/-! ### C11 -/

variable {K : Type} [Field K] [LinearOrder K] [IsStrictOrderedRing K] [FloorRing K] {V : Type}

/-- Public operations that change a voxel map: `insert` and assignments to the public members
(incremental_voxelmap.hpp:186-201). -/
inductive MapOp (K : Type) where
  | insert (pts : List (SrcPt K)) (T : Mat4 K)
  | setHorizon (h : Nat)
  | setCycle (n : Nat)
  | setOffsets (n : Int)

def applyOp (c : Contents K V) (m : VoxelMap K V) : MapOp K → Res (VoxelMap K V)
  | .insert pts T => Voxel.insert c m pts T
  | .setHorizon h => .ok { m with lruHorizon := h }
  | .setCycle n => .ok { m with lruClearCycle := n }
  | .setOffsets n => .ok { m with offsets := setSearchOffsets m.offsets n }

def runOps (c : Contents K V) : VoxelMap K V → List (MapOp K) → Res (VoxelMap K V)
  | m, [] => .ok m
  | m, op :: ops => do
    let m ← applyOp c m op
    runOps c m ops

theorem insertLoop_indexed (c : Contents K V) (T : Mat4 K) : ∀ (ss : List (SrcPt K)) (m m' : VoxelMap K V), Indexed m.table m.flat →
    insertLoop c T m ss = .ok m' → Indexed m'.table m'.flat
  | [], m, m', h, he => by cases he; exact h
  | s :: ss, m, m', h, he => by
    unfold insertLoop at he
    cases h1 : insertOne c T m s with
    | error e => rw [h1] at he; cases he
    | ok m1 =>
      rw [h1] at he
      have hd : Spec.CellDefined m.invLeaf (mulPt T s.pt) := by
        unfold insertOne at h1
        simp only [bind, Except.bind] at h1
        cases hc : coordOf m.invLeaf (mulPt T s.pt) with
        | error e => rw [hc] at h1; cases h1
        | ok co => exact (coordOf_ok hc).1
      obtain ⟨t', e1, e2⟩ := insertOne_ok c T m h s hd
      rw [e1] at h1
      cases h1
      exact insertLoop_indexed c T ss _ m' e2 he

theorem insert_indexed (c : Contents K V) (m m' : VoxelMap K V) (pts : List (SrcPt K)) (T : Mat4 K) (h : Indexed m.table m.flat)
    (he : Voxel.insert c m pts T = .ok m') : Indexed m'.table m'.flat := by
  unfold Voxel.insert at he
  simp only [bind, Except.bind, pure, Except.pure] at he
  cases h1 : insertLoop c T m pts with
  | error e => rw [h1] at he; cases he
  | ok m1 =>
    rw [h1] at he
    have hI := insertLoop_indexed c T pts m m1 h h1
    have coords_fin : ∀ l : List (Info × V), coords (l.map (fun v => (v.1, c.finalize v.2))) = coords l := by
      intro l; simp [coords, Function.comp_def]
    simp only at he
    unfold evict at he
    simp only at he
    split at he
    · cases he
    · rename_i m2 h2
      cases he
      simp only [finalizeAll]
      refine Indexed.congr ?_ (coords_fin _)
      split at h2
      · cases h2
      · split at h2
        · cases h2
          exact rehash_indexed _ (hI.nodup.sublist ((List.filter_sublist).map _))
        · cases h2; exact hI

/-- C11. After any history of insertions and setting changes that does not hit undefined behaviour (whatever the LRU
settings, even ones that wrap around), the hash table and the voxel array agree: a cell is looked up to position `i`
iff the voxel at position `i` has that cell; hence no two voxels share a cell and every voxel is found. -/
theorem C11_index_consistent (c : Contents K V) (leaf : K) (ops : List (MapOp K)) (m : VoxelMap K V)
    (h : runOps c (VoxelMap.new leaf) ops = .ok m) :
    (∀ cell i, find m.table cell = some i ↔ ∃ v, m.flat[i]? = some v ∧ v.1.coord = cell) ∧
    (m.flat.map (fun v => v.1.coord)).Nodup ∧
    (∀ v ∈ m.flat, ∃ i, find m.table v.1.coord = some i ∧ m.flat[i]? = some v) := by
  have key : ∀ (ops : List (MapOp K)) (m m' : VoxelMap K V), Indexed m.table m.flat → runOps c m ops = .ok m' →
      Indexed m'.table m'.flat := by
    intro ops
    induction ops with
    | nil => intro m m' hI he; cases he; exact hI
    | cons op ops ih =>
      intro m m' hI he
      unfold runOps at he
      simp only [bind, Except.bind] at he
      cases op with
      | insert pts T =>
        simp only [applyOp] at he
        cases h1 : Voxel.insert c m pts T with
        | error e => rw [h1] at he; cases he
        | ok m1 => rw [h1] at he; exact ih m1 m' (insert_indexed c m m1 pts T hI h1) he
      | setHorizon x => exact ih { m with lruHorizon := x } m' hI he
      | setCycle x => exact ih { m with lruClearCycle := x } m' hI he
      | setOffsets x => exact ih { m with offsets := setSearchOffsets m.offsets x } m' hI he
  have hI := key ops (VoxelMap.new leaf) m (by intro a b; simp [VoxelMap.new, find]) h
  refine ⟨hI, hI.nodup, ?_⟩
  intro v hv
  obtain ⟨i, hi, rfl⟩ := List.mem_iff_getElem.1 hv
  exact ⟨i, (hI _ _).2 ⟨_, List.getElem?_eq_getElem hi, rfl⟩, List.getElem?_eq_getElem hi⟩

/-- A new map with the public settings chosen by the user. -/
def userMap (leaf : K) (horizon cycle : Nat) (offsets : List Coord) : VoxelMap K V :=
  { VoxelMap.new leaf with lruHorizon := horizon, lruClearCycle := cycle, offsets := offsets }

omit [LinearOrder K] [IsStrictOrderedRing K] [FloorRing K] in
theorem userMap_inv (leaf : K) (horizon cycle : Nat) (hc : cycle ≠ 0) (offsets : List Coord) :
    MapInv (userMap (V := V) leaf horizon cycle offsets) :=
  ⟨by intro a b; simp [userMap, VoxelMap.new, find], by simp [userMap, VoxelMap.new], hc⟩

/-- C11, definedness: with a positive clear cycle and cells that fit in an `int`, no insertion faults. -/
theorem C11_insert_defined (c : Contents K V) (leaf : K) (horizon cycle : Nat) (offsets : List Coord) (hc : cycle ≠ 0)
    (calls : List (List (SrcPt K) × Mat4 K)) (hw : horizon + calls.length < 2 ^ 64)
    (hd : ∀ call ∈ calls, ∀ s ∈ call.1, Spec.CellDefined (1 / leaf) (mulPt call.2 s.pt)) :
    ∃ m, insertCalls c (userMap leaf horizon cycle offsets) calls = .ok m := by
  obtain ⟨m, h, _⟩ := insertCalls_ok c calls (userMap leaf horizon cycle offsets) (userMap_inv leaf horizon cycle hc offsets)
    (by simpa [userMap, VoxelMap.new] using hw) hd
  exact ⟨m, h⟩

/-! ### C12 -/

/-- C12, refinement: after any history the map is exactly the abstract map of `Spec/Voxel.lean`; in particular only the
cells dropped by the specification disappear, and the others keep their contents. -/
theorem C12_refines_abstract_map (c : Contents K V) (leaf : K) (horizon cycle : Nat) (offsets : List Coord) (hc : cycle ≠ 0)
    (calls : List (List (SrcPt K) × Mat4 K)) (hw : horizon + calls.length < 2 ^ 64)
    (hd : ∀ call ∈ calls, ∀ s ∈ call.1, Spec.CellDefined (1 / leaf) (mulPt call.2 s.pt)) :
    ∃ m, insertCalls c (userMap leaf horizon cycle offsets) calls = .ok m ∧
      ∀ cell l v, Spec.AMap.run c (1 / leaf) horizon cycle 0 (fun _ => none) calls cell = some (l, v) ↔
        ∃ i, find m.table cell = some i ∧ m.flat[i]? = some (⟨l, cell⟩, v) := by
  obtain ⟨m, h1, h2, _, _, _, _, _, h3⟩ := insertCalls_ok c calls (userMap leaf horizon cycle offsets)
    (userMap_inv leaf horizon cycle hc offsets) (by simpa [userMap, VoxelMap.new] using hw) hd
  refine ⟨m, h1, ?_⟩
  intro cell l v
  have h3 := h3 cell
  simp only [userMap, VoxelMap.new] at h3
  have hempty : absFlat ([] : List (Info × V)) = fun _ => none := rfl
  rw [hempty] at h3
  rw [← h3]
  unfold absFlat
  rw [Option.map_eq_some_iff]
  constructor
  · rintro ⟨w, hw1, hw2⟩
    have hm := List.mem_of_find?_eq_some hw1
    have hp := List.find?_some hw1
    simp only [decide_eq_true_eq] at hp
    obtain ⟨i, hi, hiw⟩ := List.mem_iff_getElem.1 hm
    refine ⟨i, (h2.idx _ _).2 ⟨w, by rw [List.getElem?_eq_getElem hi, hiw], hp⟩, ?_⟩
    rw [List.getElem?_eq_getElem hi, hiw]
    obtain ⟨⟨a, b⟩, d⟩ := w
    simp only [Prod.mk.injEq] at hw2 hp
    rw [hw2.1, hw2.2, ← hp]
  · rintro ⟨i, hf, hi⟩
    refine ⟨(⟨l, cell⟩, v), ?_, rfl⟩
    have hlt := (List.getElem?_eq_some_iff.1 hi).1
    cases hq : m.flat.find? (fun v => decide (v.1.coord = cell)) with
    | none =>
      have := List.find?_eq_none.1 hq _ (List.mem_of_getElem? hi)
      simp at this
    | some w =>
      have hm := List.mem_of_find?_eq_some hq
      have hp := List.find?_some hq
      simp only [decide_eq_true_eq] at hp
      obtain ⟨j, hj, hjw⟩ := List.mem_iff_getElem.1 hm
      have : find m.table cell = some j := (h2.idx _ _).2 ⟨w, by rw [List.getElem?_eq_getElem hj, hjw], hp⟩
      rw [hf] at this
      cases this
      rw [List.getElem?_eq_getElem hj, hjw] at hi
      exact hi

/-- C12, closed form. After `n` insert calls a cell is present iff it was used at all and, `l` being the last call that
used it, there was no clearing time `t` (a multiple of the clear cycle, `l < t ≤ n`) more than `horizon` calls after
it. The voxel then records `l`. -/
theorem C12_eviction_closed_form (c : Contents K V) (leaf : K) (horizon cycle : Nat) (offsets : List Coord) (hc : cycle ≠ 0)
    (calls : List (List (SrcPt K) × Mat4 K)) (hw : horizon + calls.length < 2 ^ 64)
    (hd : ∀ call ∈ calls, ∀ s ∈ call.1, Spec.CellDefined (1 / leaf) (mulPt call.2 s.pt)) :
    ∃ m, insertCalls c (userMap leaf horizon cycle offsets) calls = .ok m ∧
      ∀ cell l, (∃ i v, find m.table cell = some i ∧ m.flat[i]? = some (⟨l, cell⟩, v)) ↔
        (Spec.Touched (1 / leaf) calls cell l ∧ (∀ l', l < l' → ¬ Spec.Touched (1 / leaf) calls cell l') ∧
          ∀ t, l < t → t ≤ calls.length → cycle ∣ t → t ≤ l + horizon) := by
  obtain ⟨m, h1, h2⟩ := C12_refines_abstract_map c leaf horizon cycle offsets hc calls hw hd
  refine ⟨m, h1, ?_⟩
  intro cell l
  rw [← run_alive c horizon cycle cell l calls]
  constructor
  · rintro ⟨i, v, hi, hv⟩; exact ⟨v, (h2 cell l v).2 ⟨i, hi, hv⟩⟩
  · rintro ⟨v, hv⟩; obtain ⟨i, hi, hv⟩ := (h2 cell l v).1 hv; exact ⟨i, v, hi, hv⟩

/-- C12, one call: a voxel that receives no point in this call is removed iff the call is a clearing one and its last use
lies more than `lru_horizon` calls back; if it stays, its contents are only finalized; and the surviving voxels keep
their order (new voxels come behind). -/
theorem C12_one_call (c : Contents K V) (m : VoxelMap K V) (hI : MapInv m) (pts : List (SrcPt K)) (T : Mat4 K)
    (hwrap : m.lruCounter + m.lruHorizon + 1 < 2 ^ 64) (hd : ∀ s ∈ pts, Spec.CellDefined m.invLeaf (mulPt T s.pt)) :
    ∃ m', Voxel.insert c m pts T = .ok m' ∧
      (∃ new, (m'.flat.map (fun v => v.1.coord)).Sublist (m.flat.map (fun v => v.1.coord) ++ new)) ∧
      ∀ (i : Nat) (info : Info) (v : V), m.flat[i]? = some (info, v) → (∀ s ∈ pts, Spec.cellOf m.invLeaf (mulPt T s.pt) ≠ info.coord) →
        (if m.lruClearCycle ∣ m.lruCounter + 1 ∧ info.lru + m.lruHorizon < m.lruCounter + 1
         then ∀ w ∈ m'.flat, w.1.coord ≠ info.coord
         else (info, c.finalize v) ∈ m'.flat) := by
  obtain ⟨m', h1, h2, _, _, _, _, _, h3, h4⟩ := insert_ok c m hI pts T hwrap hd
  refine ⟨m', h1, h4, ?_⟩
  intro i info v hv hno
  have ha : absFlat m.flat info.coord = some (info.lru, v) := by
    unfold absFlat
    cases hq : m.flat.find? (fun v => decide (v.1.coord = info.coord)) with
    | none =>
      have := List.find?_eq_none.1 hq _ (List.mem_of_getElem? hv)
      simp at this
    | some w =>
      have hm := List.mem_of_find?_eq_some hq
      have hp := List.find?_some hq
      simp only [decide_eq_true_eq] at hp
      obtain ⟨j, hj, hjw⟩ := List.mem_iff_getElem.1 hm
      have e1 : find m.table info.coord = some j := (hI.idx _ _).2 ⟨w, by rw [List.getElem?_eq_getElem hj, hjw], hp⟩
      have e2 : find m.table info.coord = some i := (hI.idx _ _).2 ⟨_, hv, rfl⟩
      rw [e1] at e2
      cases e2
      rw [List.getElem?_eq_getElem hj, hjw] at hv
      cases hv
      rfl
  have h3 := h3 info.coord
  unfold Spec.AMap.call at h3
  rw [(foldl_addPt_lru c m.lruCounter T info.coord pts (absFlat m.flat)).2 hno, ha, Option.filter_some] at h3
  by_cases hst : m.lruClearCycle ∣ m.lruCounter + 1 ∧ info.lru + m.lruHorizon < m.lruCounter + 1
  · rw [if_pos hst]
    simp only [hst.1, hst.2, decide_true, Bool.and_self, Bool.not_true, Bool.false_eq_true, if_false, Option.map_none] at h3
    intro w hw he
    unfold absFlat at h3
    simp only [Option.map_eq_none_iff, List.find?_eq_none, decide_eq_true_eq] at h3
    exact h3 w hw he
  · rw [if_neg hst]
    rw [if_pos] at h3
    · simp only [Option.map_some, absFlat, Option.map_eq_some_iff] at h3
      obtain ⟨w, hw1, hw2⟩ := h3
      have hm := List.mem_of_find?_eq_some hw1
      have hp := List.find?_some hw1
      simp only [decide_eq_true_eq] at hp
      obtain ⟨⟨a, b⟩, d⟩ := w
      obtain ⟨a', b'⟩ := info
      simp only [Prod.mk.injEq] at hw2 hp
      rw [hw2.1, hw2.2, hp] at hm
      exact hm
    · simp only [Bool.not_eq_true', Bool.and_eq_false_iff, decide_eq_false_iff_not]
      by_cases hh : m.lruClearCycle ∣ m.lruCounter + 1
      · right; exact fun h => hst ⟨hh, h⟩
      · left; exact hh

/-- C12, excluded setting: a clear cycle of zero makes every `insert` divide by zero. -/
theorem C12_zero_cycle_faults (c : Contents K V) (m : VoxelMap K V) (pts : List (SrcPt K)) (T : Mat4 K)
    (hI : Indexed m.table m.flat) (hd : ∀ s ∈ pts, Spec.CellDefined m.invLeaf (mulPt T s.pt)) (h0 : m.lruClearCycle = 0) :
    Voxel.insert c m pts T = .error .divByZero := by
  obtain ⟨m1, h1, _, h3, _⟩ := insertLoop_ok c T pts m hI hd
  unfold Voxel.insert evict
  rw [h1]
  simp only [bind, Except.bind]
  rw [if_pos (by rw [h3]; exact h0)]

/-! ### C13 -/

/-- C13. Packing and unpacking of ids: round trip and injectivity for numbers below 2^32. -/
theorem C13_id_round_trip (v p : Nat) (hv : v < 2 ^ 32) (hp : p < 2 ^ 32) :
    voxelId (calcIndex v p) = v ∧ pointId (calcIndex v p) = p ∧ calcIndex v p < 2 ^ 64 := by
  rw [calcIndex_eq hv hp]
  exact ⟨voxelId_eq v p hp, pointId_eq v p hp, by omega⟩

theorem C13_id_injective (v p v' p' : Nat) (hv : v < 2 ^ 32) (hp : p < 2 ^ 32) (hv' : v' < 2 ^ 32) (hp' : p' < 2 ^ 32)
    (h : calcIndex v p = calcIndex v' p') : v = v' ∧ p = p' := by
  obtain ⟨a, b, _⟩ := C13_id_round_trip v p hv hp
  obtain ⟨a', b', _⟩ := C13_id_round_trip v' p' hv' hp'
  rw [h] at a b
  exact ⟨a.symm.trans a', b.symm.trans b'⟩

/-- Beyond 2^32 points in a voxel ids collide: the hypothesis is needed. -/
example : calcIndex 0 (2 ^ 32) = calcIndex 1 0 := by decide

/-! ### C14, C16 -/

/-- C14. For any consistent map (C11) and any offsets, `knn_search`/`nearest_neighbor_search` returns the nearest among
exactly the points stored in the cells `center + offset`: genuine ids with their true squared distances, ascending,
nothing closer left out, all of them if there are fewer than `k`. (Distances at or above `maxD` = `DBL_MAX` are
ignored.) -/
theorem C14_search_exact {c : Contents K V} {pts : V → List (Pt K)} (hl : Lawful c pts) (m : VoxelMap K V)
    (hI : Indexed m.table m.flat) (hb : IdsFit pts m) (q : Pt K) (hq : Spec.CellDefined m.invLeaf q)
    (hd : ∀ o ∈ m.offsets, Spec.CoordFits (Spec.shiftCell (Spec.cellOf m.invLeaf q) o))
    (maxD : K) (N k : Int) (cap : Nat) (hcap : cap = if 0 < N then N.toNat else k.toNat) (hpos : 0 < cap) (hk : 0 < N → k < 0)
    (indices : List Nat) (dists : List K) (hi : cap ≤ indices.length) (hdl : cap ≤ dists.length) :
    ∃ r, Voxel.search c maxD m q N k indices dists = .ok r ∧
      Spec.IsNearest (fun id d => (∃ p, Spec.StoredIn pts m.flat
          (fun cell => ∃ o ∈ m.offsets, cell = Spec.shiftCell (Spec.cellOf m.invLeaf q) o) id p ∧ d = Spec.sqd p q) ∧ d < maxD)
        cap r.found ∧
      (m.offsets.Nodup → (r.found.map Prod.fst).Nodup) := by
  obtain ⟨r, h1, h2⟩ := search_eq hl m hI q hq hd maxD N k cap hcap hpos hk indices dists hi hdl
  refine ⟨r, h1, ?_, ?_⟩
  · rw [h2]
    apply kBest_isNearest maxD cap _ (fun id d => ∃ p, Spec.StoredIn pts m.flat
          (fun cell => ∃ o ∈ m.offsets, cell = Spec.shiftCell (Spec.cellOf m.invLeaf q) o) id p ∧ d = Spec.sqd p q)
    intro id d
    have := mem_allCands (pts := pts) hI hb (q := q) (m.offsets.map (Spec.shiftCell (Spec.cellOf m.invLeaf q))) id d
    rw [List.flatMap_map] at this
    rw [this]
    unfold Spec.StoredIn
    simp only [List.mem_map]
    constructor
    · rintro ⟨p, ⟨i, v, j, a, ⟨o, ho, hoc⟩, b⟩, hd⟩; exact ⟨p, ⟨i, v, j, a, ⟨o, ho, hoc.symm⟩, b⟩, hd⟩
    · rintro ⟨p, ⟨i, v, j, a, ⟨o, ho, hoc⟩, b⟩, hd⟩; exact ⟨p, ⟨i, v, j, a, ⟨o, ho, hoc.symm⟩, b⟩, hd⟩
  · intro hn
    rw [h2]
    apply kBest_nodup
    have := allCands_nodup (pts := pts) hI hb (q := q) (m.offsets.map (Spec.shiftCell (Spec.cellOf m.invLeaf q))) (by
      refine hn.map ?_
      rintro ⟨a, b, e⟩ ⟨a', b', e'⟩ h
      simp only [Spec.shiftCell, Prod.mk.injEq] at h
      simp only [Prod.mk.injEq]; omega)
    rw [List.flatMap_map] at this
    exact this

/-- C13, second half: every id returned by a search resolves, through `traits::point`, to a stored point whose squared
distance to the query is the reported one. -/
theorem C13_returned_ids_resolve {c : Contents K V} {pts : V → List (Pt K)} (hl : Lawful c pts) (m : VoxelMap K V)
    (hI : Indexed m.table m.flat) (hb : IdsFit pts m) (q : Pt K) (hq : Spec.CellDefined m.invLeaf q)
    (hd : ∀ o ∈ m.offsets, Spec.CoordFits (Spec.shiftCell (Spec.cellOf m.invLeaf q) o))
    (maxD : K) (N k : Int) (cap : Nat) (hcap : cap = if 0 < N then N.toNat else k.toNat) (hpos : 0 < cap) (hk : 0 < N → k < 0)
    (indices : List Nat) (dists : List K) (hi : cap ≤ indices.length) (hdl : cap ≤ dists.length) :
    ∃ r, Voxel.search c maxD m q N k indices dists = .ok r ∧
      ∀ e ∈ r.found, ∃ p, pointAt c m e.1 = .ok p ∧ e.2 = Spec.sqd p q := by
  obtain ⟨r, h1, h2, _⟩ := C14_search_exact hl m hI hb q hq hd maxD N k cap hcap hpos hk indices dists hi hdl
  refine ⟨r, h1, ?_⟩
  intro e he
  obtain ⟨⟨p, ⟨i, v, j, a1, _, a3, a4⟩, hdist⟩, _⟩ := h2.genuine e he
  have hj : j < (pts v.2).length := (List.getElem?_eq_some_iff.1 a3).1
  have hb2 := hb.2 v (List.mem_of_getElem? a1)
  refine ⟨p, ?_, hdist⟩
  unfold pointAt
  rw [a4, voxelId_eq i j (by omega), pointId_eq i j (by omega), rd_of_getElem? a1]
  exact hl.point _ _ _ a3

omit [IsStrictOrderedRing K] [FloorRing K] in
/-- `point_indices` lists exactly the ids of the stored points. -/
theorem C13_point_indices {c : Contents K V} {pts : V → List (Pt K)} (hl : Lawful c pts) (m : VoxelMap K V) (hb : IdsFit pts m)
    (id : Nat) : id ∈ pointIndices c m ↔ ∃ p, Spec.StoredIn pts m.flat (fun _ => True) id p := by
  unfold pointIndices Spec.StoredIn
  simp only [List.mem_flatMap, List.mem_map, List.mem_range, hl.size]
  constructor
  · rintro ⟨⟨v, i⟩, hv, j, hj, rfl⟩
    rw [List.mem_zipIdx_iff_getElem?] at hv
    have hil := (List.getElem?_eq_some_iff.1 hv).1
    have h2 := hb.2 v (List.mem_of_getElem? hv)
    have h1 := hb.1
    simp only at hv hj hil ⊢
    exact ⟨(pts v.2)[j], i, v, j, hv, trivial, List.getElem?_eq_getElem hj, calcIndex_eq (by omega) (by omega)⟩
  · rintro ⟨p, i, v, j, hv, _, hp, rfl⟩
    have hil := (List.getElem?_eq_some_iff.1 hv).1
    have hj := (List.getElem?_eq_some_iff.1 hp).1
    have h2 := hb.2 v (List.mem_of_getElem? hv)
    have h1 := hb.1
    exact ⟨(v, i), by rw [List.mem_zipIdx_iff_getElem?]; exact hv, j, hj, calcIndex_eq (by omega) (by omega)⟩

/-- C16 (partial): ids are distinct whenever the offsets are distinct, i.e. for the patterns 1 and 7. Missing: the
27 pattern as set by `set_search_offsets(27)` contains the centre twice, see `C16_duplicate_neighbors`. -/
theorem C16_distinct_ids_partial {c : Contents K V} {pts : V → List (Pt K)} (hl : Lawful c pts) (m : VoxelMap K V)
    (hI : Indexed m.table m.flat) (hb : IdsFit pts m) (q : Pt K) (hq : Spec.CellDefined m.invLeaf q)
    (n : Int) (hn : n ≠ 27) (old : List Coord) (ho : m.offsets = setSearchOffsets old n)
    (hd : ∀ o ∈ m.offsets, Spec.CoordFits (Spec.shiftCell (Spec.cellOf m.invLeaf q) o))
    (maxD : K) (N k : Int) (cap : Nat) (hcap : cap = if 0 < N then N.toNat else k.toNat) (hpos : 0 < cap) (hk : 0 < N → k < 0)
    (indices : List Nat) (dists : List K) (hi : cap ≤ indices.length) (hdl : cap ≤ dists.length) :
    ∃ r, Voxel.search c maxD m q N k indices dists = .ok r ∧ (r.found.map Prod.fst).Nodup := by
  obtain ⟨r, h1, _, h3⟩ := C14_search_exact hl m hI hb q hq hd maxD N k cap hcap hpos hk indices dists hi hdl
  refine ⟨r, h1, h3 ?_⟩
  rw [ho]
  unfold setSearchOffsets
  split
  · decide
  · simp

/-! ### C20 -/

/-- Cells of the documented patterns. -/
def InPattern (n : Int) (o : Coord) : Prop :=
  (n = 1 ∧ o = (0, 0, 0)) ∨
  (n = 7 ∧ |o.1| + |o.2.1| + |o.2.2| ≤ 1) ∨
  (n = 27 ∧ |o.1| ≤ 1 ∧ |o.2.1| ≤ 1 ∧ |o.2.2| ≤ 1)

theorem mem_offsets27 (o : Coord) : o ∈ offsets27 ↔ |o.1| ≤ 1 ∧ |o.2.1| ≤ 1 ∧ |o.2.2| ≤ 1 := by
  obtain ⟨a, b, c⟩ := o
  have e : ∀ x : Int, x ∈ ([-1, 0, 1] : List Int) ↔ |x| ≤ 1 := by
    intro x
    simp only [List.mem_cons, List.not_mem_nil, or_false, abs_le]
    omega
  simp only [offsets27, List.mem_flatMap, List.mem_map, e, Prod.mk.injEq]
  constructor
  · rintro ⟨i, hi, j, hj, k, hk, rfl, rfl, rfl⟩; exact ⟨hi, hj, hk⟩
  · rintro ⟨h1, h2, h3⟩; exact ⟨a, h1, b, h2, c, h3, rfl, rfl, rfl⟩

theorem mem_offsets7 (o : Coord) : o ∈ offsets7 ↔ |o.1| + |o.2.1| + |o.2.2| ≤ 1 := by
  obtain ⟨a, b, c⟩ := o
  simp only [offsets7, List.mem_cons, List.not_mem_nil, or_false, Prod.mk.injEq]
  constructor
  · rintro (h | h | h | h | h | h | h) <;> (obtain ⟨rfl, rfl, rfl⟩ := h; decide)
  · intro h
    have ha := abs_nonneg a
    have hb := abs_nonneg b
    have hc := abs_nonneg c
    rcases abs_cases a with ⟨e1, _⟩ | ⟨e1, _⟩ <;> rcases abs_cases b with ⟨e2, _⟩ | ⟨e2, _⟩ <;>
      rcases abs_cases c with ⟨e3, _⟩ | ⟨e3, _⟩ <;> omega

/-- C20 for the patterns 1 and 7, regardless of earlier settings: exactly the documented cells, each once. -/
theorem C20_patterns_1_7 (old : List Coord) (n : Int) (hn : n = 1 ∨ n = 7) :
    (setSearchOffsets old n).Nodup ∧ ∀ o, o ∈ setSearchOffsets old n ↔ InPattern n o := by
  rcases hn with rfl | rfl
  · refine ⟨by simp [setSearchOffsets], fun o => ?_⟩
    simp [setSearchOffsets, InPattern]
  · refine ⟨(by decide : offsets7.Nodup), fun o => ?_⟩
    simp [setSearchOffsets, InPattern, mem_offsets7]

/-- C20 fails for 27: constructor (offset list `[centre]`) followed by `set_search_offsets(27)` lists the centre twice. -/
theorem C20_pattern_27_duplicates_centre :
    ¬ (setSearchOffsets (setSearchOffsets [] 1) 27).Nodup ∧ (setSearchOffsets (setSearchOffsets [] 1) 27).length = 28 ∧
    (setSearchOffsets (setSearchOffsets (setSearchOffsets [] 1) 27) 27).length = 55 := by
  refine ⟨by decide, by decide, by decide⟩

/-- C20 for 27 (partial): after any earlier sequence of `set_search_offsets` calls on a new map, the *set* of searched
cells is the full block. Missing: multiplicity one (see `C20_pattern_27_duplicates_centre`). -/
theorem C20_pattern_27_cells_partial (earlier : List Int) (o : Coord) :
    o ∈ setSearchOffsets (earlier.foldl setSearchOffsets (setSearchOffsets [] 1)) 27 ↔ InPattern 27 o := by
  have hsub : ∀ (ns : List Int) (old : List Coord), (∀ o ∈ old, o ∈ offsets27) → ∀ o ∈ ns.foldl setSearchOffsets old, o ∈ offsets27 := by
    intro ns
    induction ns with
    | nil => intro old h; exact h
    | cons n ns ih =>
      intro old h
      apply ih
      intro o ho
      unfold setSearchOffsets at ho
      split at ho
      · rw [mem_offsets7] at ho
        rw [mem_offsets27]
        have := abs_nonneg o.1; have := abs_nonneg o.2.1; have := abs_nonneg o.2.2
        exact ⟨by omega, by omega, by omega⟩
      · split at ho
        · rcases List.mem_append.1 ho with e | e
          · exact h o e
          · exact e
        · rw [List.mem_singleton] at ho; subst ho; decide
  have h0 : ∀ o ∈ setSearchOffsets [] 1, o ∈ offsets27 := by decide
  have : setSearchOffsets (earlier.foldl setSearchOffsets (setSearchOffsets [] 1)) 27 =
      earlier.foldl setSearchOffsets (setSearchOffsets [] 1) ++ offsets27 := by
    unfold setSearchOffsets; rfl
  rw [this, List.mem_append]
  simp only [InPattern, show ¬ ((27 : Int) = 1) by decide, show ¬ ((27 : Int) = 7) by decide, false_and, false_or, true_and]
  rw [← mem_offsets27]
  exact ⟨fun h => h.elim (hsub earlier _ h0 o) id, Or.inr⟩

end Verif.Props
