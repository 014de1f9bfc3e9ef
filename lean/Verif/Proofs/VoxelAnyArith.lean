import Verif.Model.VoxelMapMachine
import Verif.Proofs.PreprocessAnyArith
import Verif.Proofs.VoxelSearch
import Verif.Props.KnnAnyArith

/-! Voxel maps in any arithmetic: which cells are touched, what their voxels hold, what a search finds. -/

set_option linter.unusedSectionVars false
set_option linter.unusedSimpArgs false
set_option linter.unnecessarySeqFocus false

namespace Verif.Spec

open Verif Verif.Machine Verif.PointCloud Verif.Knn

/-- The number of the cell that holds `x` can be computed: the truncation is defined, and it and the number stay in the range of `int`. -/
def FloorDefined {V : Type} [LT V] [DecidableLT V] (s : Scalars V) (x : V) : Prop :=
  ∃ n, s.trunc x = some n ∧ -2 ^ 31 ≤ (if x < s.ofInt n then n - 1 else n) ∧ n ≤ 2 ^ 31 - 1

/-- The number of the cell. -/
def floorOf {V : Type} [LT V] [DecidableLT V] (s : Scalars V) (x : V) : Int :=
  match s.trunc x with
  | some n => if x < s.ofInt n then n - 1 else n
  | none => 0

/-- All four scaled coordinates of `p` can be converted. -/
def VoxelDefined {V : Type} [LT V] [DecidableLT V] (o : Ops V) (s : Scalars V) (inv : V) (p : Pt V) : Prop :=
  FloorDefined s (o.mul p.x inv) ∧ FloorDefined s (o.mul p.y inv) ∧ FloorDefined s (o.mul p.z inv) ∧ FloorDefined s (o.mul p.w inv)

/-- The cell of `p`. -/
def voxelOf {V : Type} [LT V] [DecidableLT V] (o : Ops V) (s : Scalars V) (inv : V) (p : Pt V) : Voxel.Coord :=
  (floorOf s (o.mul p.x inv), floorOf s (o.mul p.y inv), floorOf s (o.mul p.z inv))

/-- The voxel of cell `c` in a flat array: its last use and its content. -/
def contentAt {C : Type} (flat : List (Voxel.Info × C)) (c : Voxel.Coord) : Option (Nat × C) := (flat.find? (fun v => decide (v.1.coord = c))).map (fun v => (v.1.lru, v.2))

/-- The table and the flat array describe the same map: looking up a cell gives the position of its voxel. -/
def MapConsistent {V C : Type} (m : Voxel.VoxelMap V C) : Prop := ∀ c i, m.table.lookup c = some i ↔ ∃ v, m.flat[i]? = some v ∧ v.1.coord = c

/-- The voxel of cell `c` after the insertion of points `0, ..., n - 1`, where point `i` goes to `cell i` and is added by `step`. -/
def touched {C : Type} (cell : Nat → Voxel.Coord) (n : Nat) (step : C → Nat → C) (fresh : C) (counter : Nat) (old : Option (Nat × C)) (c : Voxel.Coord) : Option (Nat × C) :=
  match (List.range n).filter (fun i => decide (cell i = c)) with
  | [] => old
  | i :: is => some (counter, (i :: is).foldl step (old.elim fresh Prod.snd))

/-- A voxel last used in call `lru` is removed by the present call. -/
def stale {V C : Type} (m : Voxel.VoxelMap V C) (lru : Nat) : Bool :=
  decide ((m.lruCounter + 1) % 2 ^ 64 % m.lruClearCycle = 0) && decide ((lru + m.lruHorizon) % 2 ^ 64 < (m.lruCounter + 1) % 2 ^ 64)

/-- What one call of `insert` makes of a map. Point `i < n` goes to `cell i`, where it is added by `step`. -/
structure Inserted {V C : Type} (cell : Nat → Voxel.Coord) (n : Nat) (step : C → Nat → C) (fresh : C) (finalize : C → C) (m m' : Voxel.VoxelMap V C) : Prop where
  settings : m'.invLeaf = m.invLeaf ∧ m'.lruHorizon = m.lruHorizon ∧ m'.lruClearCycle = m.lruClearCycle ∧ m'.offsets = m.offsets
  counter : m'.lruCounter = (m.lruCounter + 1) % 2 ^ 64
  consistent : MapConsistent m'
  /-- The points of a cell are added in order to the voxel it had or to a new one, which is marked as used; every `lruClearCycle` calls, what was not used for long is removed; what is left is finalised. -/
  content : ∀ c, contentAt m'.flat c = (((touched cell n step fresh m.lruCounter (contentAt m.flat c) c).filter (fun v => !stale m v.1)).map (fun v => (v.1, finalize v.2)))

/-- Adding point `i` of the cloud, transformed by `T`, does `step`. -/
def Adds {V P M C : Type} (apply : P → (Fin 4 → V) → (Fin 4 → V)) (c : Cells V P M C) (T : P) (points : Cloud (Fin 4 → V) M) (step : C → Nat → C) : Prop :=
  ∀ i p v, i < points.size → points.point i = .ok p → c.add T points v (toPt (apply T p)) i = .ok (step v i)

/-- `pts v` are the points of a voxel; a search offers each of them. -/
structure Offers {V P M C : Type} [LT V] [LE V] [DecidableLT V] [DecidableLE V] (o : Ops V) (c : Cells V P M C) (pts : C → List (Pt V)) : Prop where
  point : ∀ v j p, (pts v)[j]? = some p → c.point v j = .ok p
  search : ∀ v q tr r, c.search v q tr r = r.pushAll tr ((pts v).zipIdx.map (fun e => (e.2, Pt.sqDist o e.1 q)))

/-- The points stored for cell `c`, with their numbers (voxel number times 2³² plus position). -/
def storedAt {C V : Type} (pts : C → List (Pt V)) (flat : List (Voxel.Info × C)) (c : Voxel.Coord) : List (Nat × Pt V) :=
  match flat.zipIdx.find? (fun v => decide (v.1.1.coord = c)) with
  | none => []
  | some v => (pts v.1.2).zipIdx.map (fun e => (v.2 * 2 ^ 32 + e.2, e.1))

/-- The query cell and all cells around it that are searched have numbers in the range of `int`. -/
def QueryDefined {V C : Type} [LT V] [DecidableLT V] (o : Ops V) (s : Scalars V) (m : Voxel.VoxelMap V C) (q : Pt V) : Prop :=
  VoxelDefined o s m.invLeaf q ∧ ∀ off ∈ m.offsets, CoordFits (shiftCell (voxelOf o s m.invLeaf q) off)

/-- What the search of a voxel map looks at. -/
def candidates {V C : Type} [LT V] [DecidableLT V] (o : Ops V) (s : Scalars V) (pts : C → List (Pt V)) (m : Voxel.VoxelMap V C) (q : Pt V) : List (Nat × V) :=
  m.offsets.flatMap (fun off => (storedAt pts m.flat (shiftCell (voxelOf o s m.invLeaf q) off)).map (fun e => (e.1, Pt.sqDist o e.2 q)))

/-- Voxel and point numbers fit in 32 bits, and not both are the largest: the number 2⁶⁴ - 1 stands for "none". -/
def IdsFitAny {V C : Type} (pts : C → List (Pt V)) (m : Voxel.VoxelMap V C) : Prop := m.flat.length < 2 ^ 32 ∧ ∀ v ∈ m.flat, (pts v.2).length ≤ 2 ^ 32

end Verif.Spec

namespace Verif.Proofs.Any

open Verif Verif.PointCloud Verif.Spec Verif.Proofs Verif.Knn Verif.Machine

section Cells

variable {V : Type} [LT V] [DecidableLT V]

theorem floor_any (s : Scalars V) (x : V) : (FloorDefined s x → Machine.fastFloor s x = .ok (floorOf s x)) ∧ (¬ FloorDefined s x → Machine.fastFloor s x = .error .intOverflow) := by
  unfold FloorDefined floorOf Machine.fastFloor
  rcases ht : s.trunc x with _ | n
  · simp
  · have e1 : INT_MIN = -2 ^ 31 := rfl
    have e2 : INT_MAX = 2 ^ 31 - 1 := rfl
    by_cases hlt : x < s.ofInt n
    · constructor
      · rintro ⟨m, hm, h1, h2⟩
        cases hm
        rw [if_pos hlt] at h1
        simp only [if_pos hlt]
        rw [int32_eq (by omega), ok_bind, if_pos hlt, int32_eq (by omega)]
      · intro h
        simp only [if_pos hlt]
        by_cases ha : INT_MIN ≤ n ∧ n ≤ INT_MAX
        · rw [int32_eq ha, ok_bind, if_pos hlt]
          refine int32_err fun hb => h ⟨n, rfl, ?_⟩
          rw [if_pos hlt]
          omega
        · rw [int32_err ha]; rfl
    · constructor
      · rintro ⟨m, hm, h1, h2⟩
        cases hm
        rw [if_neg hlt] at h1
        simp only [if_neg hlt]
        rw [int32_eq (by omega), ok_bind, if_neg hlt, int32_eq (by omega)]
        simp
      · intro h
        simp only [if_neg hlt]
        by_cases ha : INT_MIN ≤ n ∧ n ≤ INT_MAX
        · exfalso
          refine h ⟨n, rfl, ?_⟩
          rw [if_neg hlt]
          omega
        · rw [int32_err ha]; rfl

theorem cellOf_any (o : Ops V) (s : Scalars V) (inv : V) (p : Pt V) :
    (VoxelDefined o s inv p → Machine.cellOf o s inv p = .ok (voxelOf o s inv p)) ∧ (¬ VoxelDefined o s inv p → Machine.cellOf o s inv p = .error .intOverflow) := by
  have hx := floor_any s (o.mul p.x inv)
  have hy := floor_any s (o.mul p.y inv)
  have hz := floor_any s (o.mul p.z inv)
  have hw := floor_any s (o.mul p.w inv)
  unfold Machine.cellOf VoxelDefined voxelOf
  simp only [Downsample.Machine.scaled]
  constructor
  · rintro ⟨h1, h2, h3, h4⟩
    rw [hx.1 h1, ok_bind, hy.1 h2, ok_bind, hz.1 h3, ok_bind, hw.1 h4, ok_bind]
    rfl
  · intro h
    by_cases h1 : FloorDefined s (o.mul p.x inv)
    · rw [hx.1 h1, ok_bind]
      by_cases h2 : FloorDefined s (o.mul p.y inv)
      · rw [hy.1 h2, ok_bind]
        by_cases h3 : FloorDefined s (o.mul p.z inv)
        · rw [hz.1 h3, ok_bind]
          by_cases h4 : FloorDefined s (o.mul p.w inv)
          · exact absurd ⟨h1, h2, h3, h4⟩ h
          · rw [hw.2 h4]; rfl
        · rw [hz.2 h3]; rfl
      · rw [hy.2 h2]; rfl
    · rw [hx.2 h1]; rfl

end Cells

section Insert

variable {V P M C : Type} [LT V] [DecidableLT V] {o : Ops V} {s : Scalars V} {apply : P → (Fin 4 → V) → (Fin 4 → V)} {c : Cells V P M C} {T : P} {points : Cloud (Fin 4 → V) M} {step : C → Nat → C}

theorem insertOne_any (hadd : Adds apply c T points step) (m : Voxel.VoxelMap V C) (hI : Indexed m.table m.flat) {i : Nat} (hi : i < points.size) {p : Fin 4 → V} (hp : points.point i = .ok p) :
    (VoxelDefined o s m.invLeaf (toPt (apply T p)) → ∃ table', Machine.insertOne o s apply c T points m i = .ok { m with
        flat := touchFlat (fun v => step v i) c.fresh m.lruCounter (voxelOf o s m.invLeaf (toPt (apply T p))) m.flat, table := table' } ∧
      Indexed table' (touchFlat (fun v => step v i) c.fresh m.lruCounter (voxelOf o s m.invLeaf (toPt (apply T p))) m.flat)) ∧
    (¬ VoxelDefined o s m.invLeaf (toPt (apply T p)) → Machine.insertOne o s apply c T points m i = .error .intOverflow) := by
  obtain ⟨h1, h2⟩ := cellOf_any o s m.invLeaf (toPt (apply T p))
  constructor
  · intro hd
    have hcell := h1 hd
    unfold Machine.insertOne
    rw [hp, ok_bind]
    simp only [hcell, bind, Except.bind, pure, Except.pure]
    cases hf : Voxel.find m.table (voxelOf o s m.invLeaf (toPt (apply T p))) with
    | some j =>
      obtain ⟨v, hv, hvc⟩ := (hI _ _).1 hf
      refine ⟨m.table, ?_, ?_⟩
      · simp only
        rw [rd_of_getElem? hv]
        simp only
        rw [hadd i p v.2 hi hp]
        simp only
        rw [wr_of_lt _ (List.getElem?_eq_some_iff.1 hv).1]
        simp only
        rw [set_eq_touchFlat (fun v => step v i) c.fresh m.lruCounter _ m.flat hI.nodup j v hv hvc]
      · apply hI.congr
        rw [coords_touchFlat, if_pos]
        exact List.mem_map.2 ⟨v, List.mem_of_getElem? hv, hvc⟩
    | none =>
      have hn := (hI.none_iff _).1 hf
      refine ⟨(voxelOf o s m.invLeaf (toPt (apply T p)), m.flat.length) :: m.table, ?_, ?_⟩
      · simp only
        rw [rd_append]
        simp only
        rw [hadd i p _ hi hp]
        simp only
        rw [wr_append]
        simp only
        rw [touchFlat_of_not_mem _ _ _ _ _ hn]
      · rw [touchFlat_of_not_mem _ _ _ _ _ hn]
        exact hI.append (⟨m.lruCounter, _⟩, _) hn
  · intro hd
    have hcell := h2 hd
    unfold Machine.insertOne
    rw [hp, ok_bind]
    simp only [hcell, bind, Except.bind, pure, Except.pure]

/-- The state of cell `c` after the points `is`. -/
def loopState (cell : Nat → Voxel.Coord) (step : C → Nat → C) (fresh : C) (cnt : Nat) (old : Option (Nat × C)) (is : List Nat) (c : Voxel.Coord) : Option (Nat × C) :=
  match is.filter (fun i => decide (cell i = c)) with
  | [] => old
  | i :: is => some (cnt, (i :: is).foldl step (old.elim fresh Prod.snd))

theorem loopState_cons (cell : Nat → Voxel.Coord) (step : C → Nat → C) (fresh : C) (cnt : Nat) (old : Option (Nat × C)) (i : Nat) (is : List Nat) (c : Voxel.Coord) :
    loopState cell step fresh cnt old (i :: is) c = loopState cell step fresh cnt (if c = cell i then some (cnt, step (old.elim fresh Prod.snd) i) else old) is c := by
  unfold loopState
  by_cases h : cell i = c
  · rw [List.filter_cons_of_pos (by simpa using h), if_pos h.symm]
    rcases is.filter (fun i => decide (cell i = c)) with _ | ⟨j, js⟩
    · rfl
    · rfl
  · rw [List.filter_cons_of_neg (by simpa using h), if_neg (fun e => h e.symm)]

theorem insertLoop_any (hadd : Adds apply c T points step) (pt : Nat → (Fin 4 → V)) (hpt : ∀ i < points.size, points.point i = .ok (pt i)) :
    ∀ (is : List Nat) (m : Voxel.VoxelMap V C), Indexed m.table m.flat → (∀ i ∈ is, i < points.size) →
    ((∀ i ∈ is, VoxelDefined o s m.invLeaf (toPt (apply T (pt i)))) → ∃ m', Machine.insertLoop o s apply c T points m is = .ok m' ∧ Indexed m'.table m'.flat ∧ m' = { m with flat := m'.flat, table := m'.table } ∧
      (∀ c', absFlat m'.flat c' = loopState (fun i => voxelOf o s m.invLeaf (toPt (apply T (pt i)))) step c.fresh m.lruCounter (absFlat m.flat c') is c') ∧
      m'.flat.length ≤ m.flat.length + is.length ∧ (∀ cc ∈ coords m'.flat, cc ∈ coords m.flat ∨ ∃ i ∈ is, cc = voxelOf o s m.invLeaf (toPt (apply T (pt i))))) ∧
    ((∃ i ∈ is, ¬ VoxelDefined o s m.invLeaf (toPt (apply T (pt i)))) → Machine.insertLoop o s apply c T points m is = .error .intOverflow)
  | [], m, hI, _ => ⟨fun _ => ⟨m, rfl, hI, rfl, fun _ => rfl, by simp, fun _ h => .inl h⟩, by simp⟩
  | i :: is, m, hI, hlt => by
    obtain ⟨h1, h2⟩ := insertOne_any (o := o) (s := s) hadd m hI (hlt i (by simp)) (hpt i (hlt i (by simp)))
    by_cases hd : VoxelDefined o s m.invLeaf (toPt (apply T (pt i)))
    · obtain ⟨t1, e1, e2⟩ := h1 hd
      obtain ⟨g1, g2⟩ := insertLoop_any hadd pt hpt is { m with
          flat := touchFlat (fun v => step v i) c.fresh m.lruCounter (voxelOf o s m.invLeaf (toPt (apply T (pt i)))) m.flat, table := t1 } e2 (fun j hj => hlt j (by simp [hj]))
      constructor
      · intro hall
        obtain ⟨m', a1, a2, a3, a4, a5, a6⟩ := g1 (fun j hj => hall j (by simp [hj]))
        refine ⟨m', ?_, a2, ?_, ?_, ?_, ?_⟩
        · unfold Machine.insertLoop
          rw [e1]
          exact a1
        · rw [a3]
        · intro c'
          rw [a4, loopState_cons]
          simp only
          rw [absFlat_touchFlat]
          congr 1
          split
          · cases absFlat m.flat c' <;> rfl
          · rfl
        · refine a5.trans ?_
          have : (touchFlat (fun v => step v i) c.fresh m.lruCounter (voxelOf o s m.invLeaf (toPt (apply T (pt i)))) m.flat).length ≤ m.flat.length + 1 := by
            have := congrArg List.length (coords_touchFlat (fun v => step v i) c.fresh m.lruCounter (voxelOf o s m.invLeaf (toPt (apply T (pt i)))) m.flat)
            split at this <;> simp [coords] at this <;> omega
          simp only [List.length_cons]
          omega
        · intro cc hcc
          rcases a6 cc hcc with h | ⟨j, hj, h⟩
          · simp only at h
            rw [coords_touchFlat] at h
            split at h
            · exact .inl h
            · rcases List.mem_append.1 h with h | h
              · exact .inl h
              · exact .inr ⟨i, by simp, by simpa using h⟩
          · exact .inr ⟨j, by simp [hj], h⟩
      · rintro ⟨j, hj, hbad⟩
        have : ∃ j ∈ is, ¬ VoxelDefined o s m.invLeaf (toPt (apply T (pt j))) := by
          rcases List.mem_cons.1 hj with rfl | hj
          · exact absurd hd hbad
          · exact ⟨j, hj, hbad⟩
        unfold Machine.insertLoop
        rw [e1]
        exact g2 this
    · constructor
      · intro hall
        exact absurd (hall i (by simp)) hd
      · intro _
        unfold Machine.insertLoop
        rw [h2 hd]
        rfl

theorem insert_any (hadd : Adds apply c T points step) (pt : Nat → (Fin 4 → V)) (hpt : ∀ i < points.size, points.point i = .ok (pt i)) (m : Voxel.VoxelMap V C) (hI : MapConsistent m) (hcyc : m.lruClearCycle ≠ 0) :
    ((∀ i < points.size, VoxelDefined o s m.invLeaf (toPt (apply T (pt i)))) → ∃ m', Machine.insertCloud o s apply c m points T = .ok m' ∧
      Inserted (fun i => voxelOf o s m.invLeaf (toPt (apply T (pt i)))) points.size step c.fresh c.finalize m m' ∧ m'.flat.length ≤ m.flat.length + points.size) ∧
    ((∃ i < points.size, ¬ VoxelDefined o s m.invLeaf (toPt (apply T (pt i)))) → Machine.insertCloud o s apply c m points T = .error .intOverflow) := by
  have hI' : Indexed m.table m.flat := hI
  obtain ⟨h1, h2⟩ := insertLoop_any (o := o) (s := s) hadd pt hpt (List.range points.size) m hI' (fun i hi => List.mem_range.1 hi)
  constructor
  · intro hall
    obtain ⟨m1, a1, a2, a3, a4, a5, -⟩ := h1 (fun i hi => hall i (List.mem_range.1 hi))
    have k1 : m1.invLeaf = m.invLeaf := by rw [a3]
    have k2 : m1.lruHorizon = m.lruHorizon := by rw [a3]
    have k3 : m1.lruClearCycle = m.lruClearCycle := by rw [a3]
    have k4 : m1.offsets = m.offsets := by rw [a3]
    have k5 : m1.lruCounter = m.lruCounter := by rw [a3]
    have hlen : m1.flat.length ≤ m.flat.length + points.size := by simpa using a5
    unfold Machine.insertCloud
    rw [a1, ok_bind]
    unfold Machine.evictStale
    simp only [k3, if_neg hcyc, k5, k2]
    have hcontent : ∀ c', contentAt m1.flat c' = loopState (fun i => voxelOf o s m.invLeaf (toPt (apply T (pt i)))) step c.fresh m.lruCounter (contentAt m.flat c') (List.range points.size) c' := a4
    by_cases hc : (m.lruCounter + 1) % 2 ^ 64 % m.lruClearCycle = 0
    · rw [if_pos hc, ok_bind]
      refine ⟨_, rfl, ⟨⟨k1, rfl, rfl, k4⟩, rfl, ?_, ?_⟩, ?_⟩
      · show Indexed (Voxel.rehashFrom 0 (m1.flat.filter (fun v => !Voxel.isStale m.lruHorizon ((m.lruCounter + 1) % 2 ^ 64) v.1)) []) _
        refine (rehash_indexed _ ?_).congr ?_
        · exact a2.nodup.sublist (List.filter_sublist.map _)
        · simp [coords, Function.comp_def]
      · intro c'
        show absFlat _ c' = _
        simp only
        rw [absFlat_map, absFlat_filter (fun v => !Voxel.isStale m.lruHorizon ((m.lruCounter + 1) % 2 ^ 64) v.1) _ a2.nodup c' (fun e => !decide ((e.1 + m.lruHorizon) % 2 ^ 64 < (m.lruCounter + 1) % 2 ^ 64)) (fun v _ => rfl)]
        rw [a4]
        simp only [stale, hc, decide_true, Bool.true_and]
        rfl
      · simp only [List.length_map]
        exact (List.length_filter_le _ _).trans hlen
    · rw [if_neg hc, ok_bind]
      refine ⟨_, rfl, ⟨⟨k1, rfl, rfl, k4⟩, rfl, ?_, ?_⟩, by simpa using hlen⟩
      · exact a2.congr (by simp [coords, Function.comp_def])
      · intro c'
        show absFlat _ c' = _
        simp only
        rw [absFlat_map, a4]
        simp only [stale, hc, decide_false, Bool.false_and, Bool.not_false]
        rw [show ∀ x : Option (Nat × C), x.filter (fun _ => true) = x from fun x => by cases x <;> rfl]
        rfl
  · rintro ⟨i, hi, hbad⟩
    unfold Machine.insertCloud
    rw [h2 ⟨i, List.mem_range.2 hi, hbad⟩]
    rfl

end Insert

section Search

variable {V P M C : Type} [LT V] [LE V] [DecidableLT V] [DecidableLE V] {o : Ops V} {s : Scalars V} {c : Cells V P M C} {pts : C → List (Pt V)}

theorem push_tr (r : KnnResult V) (tr : Nat → Nat) (i : Nat) (d : V) : r.push tr i d = r.push id (tr i) d := rfl

theorem pushAll_tr (tr : Nat → Nat) : ∀ (l : List (Nat × V)) (r : KnnResult V), r.pushAll tr l = r.pushAll id (l.map (fun e => (tr e.1, e.2)))
  | [], _ => rfl
  | e :: l, r => by
    unfold KnnResult.pushAll
    rw [push_tr, List.map_cons]
    simp only
    rw [show ((r.push id (tr e.1) e.2 >>= fun r => r.pushAll tr l) = (r.push id (tr e.1) e.2 >>= fun r => r.pushAll id (l.map (fun e => (tr e.1, e.2))))) from by
      congr 1; funext r'; exact pushAll_tr tr l r']

theorem pushAll_append : ∀ (l l' : List (Nat × V)) (r : KnnResult V), r.pushAll id (l ++ l') = r.pushAll id l >>= fun r => r.pushAll id l'
  | [], _, _ => rfl
  | e :: l, l', r => by
    rw [List.cons_append, KnnResult.pushAll, KnnResult.pushAll]
    rcases hr : r.push id e.1 e.2 with f | r1
    · rfl
    · rw [ok_bind, ok_bind]
      exact pushAll_append l l' r1

/-- Offering candidates: what is kept is among them or was there before, and there is room for all that compare as below the initial worst distance. -/
theorem pushAll_any {maxD : V} {cap ti td} : ∀ (l : List (Nat × V)) (r : KnnResult V) (L : List (Nat × V)), Props.HoldsAny maxD cap ti td r L →
    ∃ r' L', r.pushAll id l = .ok r' ∧ Props.HoldsAny maxD cap ti td r' L' ∧ (∃ drop, (L' ++ drop).Perm (l ++ L)) ∧ min cap (L.length + l.countP (fun e => decide (¬ maxD ≤ e.2))) ≤ L'.length
  | [], r, L, h => ⟨r, L, rfl, h, ⟨[], by simp⟩, by simp⟩
  | e :: l, r, L, h => by
    obtain ⟨r1, L1, a1, a2, a3, a4, drop1, a5⟩ := Props.push_any h e.1 e.2
    obtain ⟨r2, L2, b1, b2, ⟨drop2, b3⟩, b4⟩ := pushAll_any l r1 L1 a2
    have hp1 : ∃ drop, (L1 ++ drop).Perm (e :: L) := by
      rcases a5 with h | rfl
      · exact ⟨drop1, h⟩
      · exact ⟨[e], List.perm_append_comm⟩
    obtain ⟨drop1', hp1⟩ := hp1
    refine ⟨r2, L2, ?_, b2, ⟨drop2 ++ drop1', ?_⟩, ?_⟩
    · unfold KnnResult.pushAll
      rw [a1]; exact b1
    · rw [← List.append_assoc]
      refine (b3.append_right drop1').trans ?_
      rw [List.append_assoc]
      refine (hp1.append_left l).trans ?_
      exact List.perm_middle
    · rw [List.countP_cons]
      by_cases hd : maxD ≤ e.2
      · simp only [hd, not_true_eq_false, decide_false, Bool.false_eq_true, if_false] at b4 ⊢
        omega
      · simp only [hd, not_false_eq_true, decide_true, if_true]
        rcases Nat.lt_or_ge L.length cap with hlt | hge
        · have := a4 hlt hd
          omega
        · omega

theorem storedAt_eq {m : Voxel.VoxelMap V C} (hI : Indexed m.table m.flat) (c' : Voxel.Coord) :
    (Voxel.find m.table c' = none ∧ storedAt pts m.flat c' = []) ∨
      ∃ i v, Voxel.find m.table c' = some i ∧ m.flat[i]? = some v ∧ storedAt pts m.flat c' = (pts v.2).zipIdx.map (fun e => (i * 2 ^ 32 + e.2, e.1)) := by
  unfold storedAt
  rcases hf : m.flat.zipIdx.find? (fun v => decide (v.1.1.coord = c')) with _ | ⟨v, i⟩
  · refine .inl ⟨(hI.none_iff _).2 ?_, by rw [hf]⟩
    intro hc
    obtain ⟨v, hv, hvc⟩ := List.mem_map.1 hc
    obtain ⟨i, hi, rfl⟩ := List.mem_iff_getElem.1 hv
    have := List.find?_eq_none.1 hf (m.flat[i], i) (by rw [List.mem_zipIdx_iff_getElem?]; exact List.getElem?_eq_getElem hi)
    simp [hvc] at this
  · have h1 := List.find?_some hf
    have h2 := List.mem_of_find?_eq_some hf
    rw [List.mem_zipIdx_iff_getElem?] at h2
    exact .inr ⟨i, v, (hI _ _).2 ⟨v, h2, by simpa using h1⟩, h2, by rw [hf]⟩

theorem searchCells_any (ho : Offers o c pts) {m : Voxel.VoxelMap V C} (hI : Indexed m.table m.flat) (hid : IdsFitAny pts m) (q : Pt V) (center : Voxel.Coord) {maxD : V} {cap ti td} :
    ∀ (offs : List Voxel.Coord) (r : KnnResult V) (L : List (Nat × V)), Props.HoldsAny maxD cap ti td r L →
    ((∀ off ∈ offs, CoordFits (shiftCell center off)) →
      Machine.searchCells c m q center offs r = r.pushAll id (offs.flatMap (fun off => (storedAt pts m.flat (shiftCell center off)).map (fun e => (e.1, Pt.sqDist o e.2 q))))) ∧
    ((∃ off ∈ offs, ¬ CoordFits (shiftCell center off)) → Machine.searchCells c m q center offs r = .error .intOverflow)
  | [], r, L, _ => ⟨fun _ => rfl, by simp⟩
  | off :: offs, r, L, h => by
    by_cases hfit : CoordFits (shiftCell center off)
    · have hadd : Voxel.addCoord center off = .ok (shiftCell center off) := addCoord_eq hfit
      have hcell : ∃ r' L', Props.HoldsAny maxD cap ti td r' L' ∧
          r.pushAll id ((storedAt pts m.flat (shiftCell center off)).map (fun e => (e.1, Pt.sqDist o e.2 q))) = .ok r' ∧
          Machine.searchCells c m q center (off :: offs) r = Machine.searchCells c m q center offs r' := by
        obtain ⟨r', L', b1, b2, -⟩ := pushAll_any ((storedAt pts m.flat (shiftCell center off)).map (fun e => (e.1, Pt.sqDist o e.2 q))) r L h
        refine ⟨r', L', b2, b1, ?_⟩
        rw [Machine.searchCells, hadd, ok_bind]
        rcases storedAt_eq (pts := pts) hI (shiftCell center off) with ⟨h1, h2⟩ | ⟨i, v, h1, h2, h3⟩
        · rw [h2] at b1
          cases b1
          simp only [h1]
        · simp only [h1]
          rw [rd_of_getElem? h2, ok_bind]
          rw [ho.search, pushAll_tr]
          have hi : i < 2 ^ 32 := lt_trans (List.getElem?_eq_some_iff.1 h2).1 hid.1
          have hl := hid.2 v (List.mem_of_getElem? h2)
          have e : (((pts v.2).zipIdx.map (fun e => (e.2, Pt.sqDist o e.1 q))).map (fun e => (Voxel.calcIndex i e.1, e.2))) =
              (storedAt pts m.flat (shiftCell center off)).map (fun e => (e.1, Pt.sqDist o e.2 q)) := by
            rw [h3, List.map_map, List.map_map]
            refine List.map_congr_left fun e he => ?_
            have : e.2 < 2 ^ 32 := by
              have := (List.mem_zipIdx_iff_getElem?.1 he)
              exact lt_of_lt_of_le (List.getElem?_eq_some_iff.1 this).1 hl
            simp only [Function.comp_apply, calcIndex_eq hi this]
          rw [e, b1, ok_bind]
      obtain ⟨r', L', b2, b1, b3⟩ := hcell
      obtain ⟨g1, g2⟩ := searchCells_any ho hI hid q center offs r' L' b2
      constructor
      · intro hall
        rw [b3, g1 (fun x hx => hall x (by simp [hx])), List.flatMap_cons, pushAll_append, b1, ok_bind]
      · rintro ⟨x, hx, hbad⟩
        rw [b3]
        rcases List.mem_cons.1 hx with rfl | hx
        · exact absurd hfit hbad
        · exact g2 ⟨x, hx, hbad⟩
    · constructor
      · intro hall
        exact absurd (hall off (by simp)) hfit
      · intro _
        rw [Machine.searchCells]
        have : Voxel.addCoord center off = .error .intOverflow := by
          unfold Voxel.addCoord
          by_cases h1 : INT_MIN ≤ center.1 + off.1 ∧ center.1 + off.1 ≤ INT_MAX
          · rw [int32_eq h1, ok_bind]
            by_cases h2 : INT_MIN ≤ center.2.1 + off.2.1 ∧ center.2.1 + off.2.1 ≤ INT_MAX
            · rw [int32_eq h2, ok_bind]
              rw [int32_err (i := center.2.2 + off.2.2) (fun h3 => hfit ⟨h1, h2, h3⟩)]
              rfl
            · rw [int32_err h2]; rfl
          · rw [int32_err h1]; rfl
        rw [this]
        rfl

end Search

end Verif.Proofs.Any
