import Verif.Spec.Voxel
import Verif.Proofs.KdBuild
import Mathlib.Tactic.Linarith

/-!
Invariant and refinement lemmas for the incremental voxel map.
-/

namespace Verif.Proofs

open Verif Verif.Voxel Verif.Knn

section FastFloor
variable {K : Type} [Field K] [LinearOrder K] [IsStrictOrderedRing K] [FloorRing K]

/-- Complete characterisation of `fast_floor`: the floor if it fits, undefined otherwise. -/
theorem fastFloor_eq (x : K) :
    fastFloor x = if INT_MIN ≤ ⌊x⌋ ∧ ⌊x⌋ ≤ INT_MAX then .ok ⌊x⌋ else .error .intOverflow := by
  unfold fastFloor truncToInt
  by_cases hx : 0 ≤ x
  · rw [if_pos hx]
    by_cases hr : INT_MIN ≤ ⌊x⌋ ∧ ⌊x⌋ ≤ INT_MAX
    · have h1 : ¬ x < (⌊x⌋ : K) := not_lt.2 (Int.floor_le x)
      simp [int32, hr, h1, bind, Except.bind]
    · simp [int32, hr, bind, Except.bind]
  · rw [if_neg hx]
    have hneg : x < 0 := not_le.1 hx
    have hf0 : ⌊x⌋ < 0 := Int.floor_lt.2 (by exact_mod_cast hneg)
    have hmax : (0 : Int) ≤ INT_MAX := by unfold INT_MAX; omega
    rcases eq_or_lt_of_le (Int.floor_le x) with he | hlt
    · have hc : ⌈x⌉ = ⌊x⌋ := by rw [← he]; simp
      rw [hc]
      by_cases hr : INT_MIN ≤ ⌊x⌋ ∧ ⌊x⌋ ≤ INT_MAX
      · have h1 : ¬ x < (⌊x⌋ : K) := not_lt.2 (Int.floor_le x)
        simp [int32, hr, h1, bind, Except.bind]
      · simp [int32, hr, bind, Except.bind]
    · have hc : ⌈x⌉ = ⌊x⌋ + 1 := by
        rw [Int.ceil_eq_iff]
        push_cast
        refine ⟨by linarith, ?_⟩
        exact (Int.lt_floor_add_one x).le
      have h1 : x < ((⌊x⌋ + 1 : Int) : K) := by push_cast; exact Int.lt_floor_add_one x
      rw [hc]
      by_cases hr : INT_MIN ≤ ⌊x⌋ ∧ ⌊x⌋ ≤ INT_MAX
      · have h2 : INT_MIN ≤ ⌊x⌋ + 1 ∧ ⌊x⌋ + 1 ≤ INT_MAX := by omega
        have : int32 (⌊x⌋ + 1) = .ok (⌊x⌋ + 1) := by unfold int32; rw [if_pos h2]
        rw [this]
        simp only [bind, Except.bind, if_pos h1]
        unfold int32
        rw [show ⌊x⌋ + 1 - 1 = ⌊x⌋ by omega]
      · rw [if_neg hr]
        unfold int32
        split
        · simp only [bind, Except.bind, if_pos h1]
          rw [show ⌊x⌋ + 1 - 1 = ⌊x⌋ by omega, if_neg hr]
        · rfl

theorem coordOf_eq {invLeaf : K} {p : Pt K} (h : Spec.CellDefined invLeaf p) :
    coordOf invLeaf p = .ok (Spec.cellOf invLeaf p) := by
  obtain ⟨hx, hy, hz, hw⟩ := h
  unfold coordOf fastFloor4 Pt.smul
  simp only [fastFloor_eq, if_pos hx, if_pos hy, if_pos hz, if_pos hw]
  rfl

/-- Where `coordOf` is defined, it is the cell. -/
theorem coordOf_ok {invLeaf : K} {p : Pt K} {c : Coord} (h : coordOf invLeaf p = .ok c) :
    Spec.CellDefined invLeaf p ∧ c = Spec.cellOf invLeaf p := by
  unfold coordOf fastFloor4 Pt.smul at h
  simp only [fastFloor_eq, bind, Except.bind, pure, Except.pure] at h
  by_cases hx : INT_MIN ≤ ⌊p.x * invLeaf⌋ ∧ ⌊p.x * invLeaf⌋ ≤ INT_MAX
  swap; · simp [if_neg hx] at h
  by_cases hy : INT_MIN ≤ ⌊p.y * invLeaf⌋ ∧ ⌊p.y * invLeaf⌋ ≤ INT_MAX
  swap; · simp [if_pos hx, if_neg hy] at h
  by_cases hz : INT_MIN ≤ ⌊p.z * invLeaf⌋ ∧ ⌊p.z * invLeaf⌋ ≤ INT_MAX
  swap; · simp [if_pos hx, if_pos hy, if_neg hz] at h
  by_cases hw : INT_MIN ≤ ⌊p.w * invLeaf⌋ ∧ ⌊p.w * invLeaf⌋ ≤ INT_MAX
  swap; · simp [if_pos hx, if_pos hy, if_pos hz, if_neg hw] at h
  rw [if_pos hx, if_pos hy, if_pos hz, if_pos hw] at h
  exact ⟨⟨hx, hy, hz, hw⟩, (Except.ok.inj h).symm⟩

end FastFloor

section Flat
variable {V : Type}

/-- Coordinates of the stored voxels, in order. -/
def coords (flat : List (Info × V)) : List Coord := flat.map (fun v => v.1.coord)

/-- Abstract content of the flat array. -/
def absFlat (flat : List (Info × V)) : Spec.AMap V := fun c =>
  (flat.find? (fun v => decide (v.1.coord = c))).map (fun v => (v.1.lru, v.2))

/-- Effect of inserting into cell `c` on the flat array. -/
def touchFlat (f : V → V) (fresh : V) (cnt : Nat) (c : Coord) : List (Info × V) → List (Info × V)
  | [] => [(⟨cnt, c⟩, f fresh)]
  | v :: l => if v.1.coord = c then ({ v.1 with lru := cnt }, f v.2) :: l else v :: touchFlat f fresh cnt c l

theorem coords_touchFlat (f : V → V) (fresh : V) (cnt : Nat) (c : Coord) (l : List (Info × V)) :
    coords (touchFlat f fresh cnt c l) = if c ∈ coords l then coords l else coords l ++ [c] := by
  induction l with
  | nil => simp [touchFlat, coords]
  | cons v l ih =>
    unfold touchFlat
    by_cases h : v.1.coord = c
    · rw [if_pos h]
      simp [coords, h]
    · rw [if_neg h]
      have h' : ¬ c = v.1.coord := fun e => h e.symm
      have e1 : coords (v :: touchFlat f fresh cnt c l) = v.1.coord :: coords (touchFlat f fresh cnt c l) := rfl
      have e2 : coords (v :: l) = v.1.coord :: coords l := rfl
      rw [e1, e2, ih]
      by_cases hm : c ∈ coords l
      · rw [if_pos hm, if_pos (List.mem_cons_of_mem _ hm)]
      · rw [if_neg hm, if_neg (by simp [h', hm])]; rfl

theorem absFlat_touchFlat (f : V → V) (fresh : V) (cnt : Nat) (c : Coord) (l : List (Info × V)) (c' : Coord) :
    absFlat (touchFlat f fresh cnt c l) c' =
      if c' = c then (match absFlat l c' with | some e => some (cnt, f e.2) | none => some (cnt, f fresh)) else absFlat l c' := by
  induction l with
  | nil =>
    simp only [touchFlat, absFlat, List.find?_nil, Option.map_none]
    by_cases h : c' = c
    · subst h; simp
    · have : ¬ c = c' := fun e => h e.symm
      simp [h, this]
  | cons v l ih =>
    unfold touchFlat
    by_cases h : v.1.coord = c
    · rw [if_pos h]
      by_cases h2 : c' = c
      · subst h2; simp [absFlat, h]
      · have h3 : ¬ v.1.coord = c' := fun e => h2 (e.symm.trans h)
        simp [absFlat, h2, h3]
    · rw [if_neg h]
      by_cases h2 : v.1.coord = c'
      · have h3 : ¬ c' = c := fun e => h (h2.trans e)
        simp [absFlat, h2, h3]
      · have e1 : absFlat (v :: touchFlat f fresh cnt c l) c' = absFlat (touchFlat f fresh cnt c l) c' := by
          simp [absFlat, h2]
        have e2 : absFlat (v :: l) c' = absFlat l c' := by simp [absFlat, h2]
        rw [e1, e2, ih]

/-- With distinct coordinates, filtering the array filters the abstract map. -/
theorem absFlat_filter (p : Info × V → Bool) (l : List (Info × V)) (hnd : (coords l).Nodup) (c : Coord) (q : Nat × V → Bool)
    (hq : ∀ v ∈ l, q (v.1.lru, v.2) = p v) :
    absFlat (l.filter p) c = (absFlat l c).filter q := by
  induction l with
  | nil => rfl
  | cons v l ih =>
    rw [coords, List.map_cons, List.nodup_cons] at hnd
    have ih := ih hnd.2 (fun w hw => hq w (by simp [hw]))
    by_cases h : v.1.coord = c
    · have e2 : absFlat (v :: l) c = some (v.1.lru, v.2) := by simp [absFlat, h]
      rw [e2]
      by_cases hp : p v = true
      · have : absFlat ((v :: l).filter p) c = some (v.1.lru, v.2) := by
          simp [absFlat, hp, h]
        rw [this, Option.filter_some, hq v (by simp), hp]; rfl
      · have hnone : absFlat (l.filter p) c = none := by
          simp only [absFlat, Option.map_eq_none_iff, List.find?_eq_none, decide_eq_true_eq]
          intro w hw e
          exact hnd.1 (List.mem_map.2 ⟨w, (List.mem_filter.1 hw).1, e.trans h.symm⟩)
        rw [List.filter_cons_of_neg hp, hnone, Option.filter_some, hq v (by simp)]
        simp [hp]
    · have e2 : absFlat (v :: l) c = absFlat l c := by simp [absFlat, h]
      rw [e2, ← ih]
      by_cases hp : p v = true
      · rw [List.filter_cons_of_pos hp]; simp [absFlat, h]
      · rw [List.filter_cons_of_neg hp]

theorem absFlat_map (f : V → V) (l : List (Info × V)) (c : Coord) :
    absFlat (l.map (fun v => (v.1, f v.2))) c = (absFlat l c).map (fun e => (e.1, f e.2)) := by
  induction l with
  | nil => rfl
  | cons v l ih =>
    by_cases h : v.1.coord = c
    · simp [absFlat, h]
    · have e1 : absFlat (v :: l) c = absFlat l c := by simp [absFlat, h]
      have e2 : absFlat ((v :: l).map (fun v => (v.1, f v.2))) c = absFlat (l.map (fun v => (v.1, f v.2))) c := by
        simp [absFlat, h]
      rw [e1, e2, ih]

/-- The table indexes the flat array: lookups give exactly the positions of the voxels. -/
def Indexed (table : List (Coord × Nat)) (flat : List (Info × V)) : Prop :=
  ∀ c i, find table c = some i ↔ ∃ v, flat[i]? = some v ∧ v.1.coord = c

theorem Indexed.nodup {table : List (Coord × Nat)} {flat : List (Info × V)} (h : Indexed table flat) : (coords flat).Nodup := by
  unfold coords
  rw [List.nodup_iff_injective_getElem]
  intro a b hab
  obtain ⟨i, hi⟩ := a
  obtain ⟨j, hj⟩ := b
  simp only [List.getElem_map] at hab
  rw [List.length_map] at hi hj
  have h1 := (h (flat[i].1.coord) i).2 ⟨_, List.getElem?_eq_getElem hi, rfl⟩
  have h2 := (h (flat[i].1.coord) j).2 ⟨_, List.getElem?_eq_getElem hj, hab.symm⟩
  rw [h1] at h2
  simpa using h2

theorem Indexed.none_iff {table : List (Coord × Nat)} {flat : List (Info × V)} (h : Indexed table flat) (c : Coord) :
    find table c = none ↔ c ∉ coords flat := by
  constructor
  · intro hn hc
    obtain ⟨v, hv, rfl⟩ := List.mem_map.1 hc
    obtain ⟨i, hi, rfl⟩ := List.mem_iff_getElem.1 hv
    rw [(h _ i).2 ⟨_, List.getElem?_eq_getElem hi, rfl⟩] at hn
    cases hn
  · intro hc
    cases hf : find table c with
    | none => rfl
    | some i =>
      obtain ⟨v, hv, hvc⟩ := (h c i).1 hf
      exact absurd (List.mem_map.2 ⟨v, List.mem_of_getElem? hv, hvc⟩) hc

theorem find_cons (t : List (Coord × Nat)) (a c : Coord) (i : Nat) :
    find ((a, i) :: t) c = if c = a then some i else find t c := by
  unfold find
  rw [List.lookup_cons]
  by_cases h : c = a
  · subst h; simp
  · have : (c == a) = false := by simpa using h
    rw [this, if_neg h]

/-- Writing back an updated voxel at the position of its cell. -/
theorem set_eq_touchFlat (f : V → V) (fresh : V) (cnt : Nat) (c : Coord) (l : List (Info × V)) (hnd : (coords l).Nodup)
    (i : Nat) (v : Info × V) (hv : l[i]? = some v) (hc : v.1.coord = c) :
    l.set i ({ v.1 with lru := cnt }, f v.2) = touchFlat f fresh cnt c l := by
  induction l generalizing i with
  | nil => simp at hv
  | cons w l ih =>
    rw [coords, List.map_cons, List.nodup_cons] at hnd
    unfold touchFlat
    cases i with
    | zero =>
      simp only [List.getElem?_cons_zero, Option.some.injEq] at hv
      subst hv
      rw [if_pos hc]; rfl
    | succ i =>
      simp only [List.getElem?_cons_succ] at hv
      have : ¬ w.1.coord = c := by
        intro e
        exact hnd.1 (List.mem_map.2 ⟨v, List.mem_of_getElem? hv, hc.trans e.symm⟩)
      rw [if_neg this, List.set_cons_succ, ih hnd.2 i hv]

theorem touchFlat_of_not_mem (f : V → V) (fresh : V) (cnt : Nat) (c : Coord) (l : List (Info × V)) (h : c ∉ coords l) :
    touchFlat f fresh cnt c l = l ++ [(⟨cnt, c⟩, f fresh)] := by
  induction l with
  | nil => rfl
  | cons v l ih =>
    simp only [coords, List.map_cons, List.mem_cons, not_or] at h
    unfold touchFlat
    rw [if_neg (fun e => h.1 e.symm), ih h.2]; rfl

/-- `Indexed` only depends on the coordinates. -/
theorem Indexed.congr {table : List (Coord × Nat)} {V W : Type} {flat : List (Info × V)} {flat' : List (Info × W)}
    (h : Indexed table flat) (hc : coords flat' = coords flat) : Indexed table flat' := by
  intro c i
  rw [h c i]
  have e : ∀ {V : Type} (l : List (Info × V)), (∃ v, l[i]? = some v ∧ v.1.coord = c) ↔ (coords l)[i]? = some c := by
    intro V l
    simp only [coords, List.getElem?_map, Option.map_eq_some_iff]
  rw [e, e, hc]

theorem Indexed.append {table : List (Coord × Nat)} {flat : List (Info × V)} (h : Indexed table flat) (v : Info × V)
    (hn : v.1.coord ∉ coords flat) : Indexed ((v.1.coord, flat.length) :: table) (flat ++ [v]) := by
  intro c i
  rw [find_cons]
  split
  · rename_i hc
    subst hc
    constructor
    · intro h'; cases h'; exact ⟨v, by simp, rfl⟩
    · rintro ⟨w, hw, hwc⟩
      rcases Nat.lt_trichotomy i flat.length with hi | hi | hi
      · rw [List.getElem?_append_left hi] at hw
        exact absurd (List.mem_map.2 ⟨w, List.mem_of_getElem? hw, hwc⟩) hn
      · rw [hi]
      · rw [List.getElem?_eq_none (by simp; omega)] at hw; cases hw
  · rename_i hc
    rw [h c i]
    constructor
    · rintro ⟨w, hw, hwc⟩
      refine ⟨w, ?_, hwc⟩
      have hi : i < flat.length := (List.getElem?_eq_some_iff.1 hw).1
      rw [List.getElem?_append_left hi]; exact hw
    · rintro ⟨w, hw, hwc⟩
      rcases Nat.lt_trichotomy i flat.length with hi | hi | hi
      · rw [List.getElem?_append_left hi] at hw; exact ⟨w, hw, hwc⟩
      · subst hi; simp at hw; subst hw; exact absurd hwc.symm hc
      · rw [List.getElem?_eq_none (by simp; omega)] at hw; cases hw

/-- Rehashing an array of voxels with distinct cells. -/
theorem rehash_indexed (flat : List (Info × V)) (hnd : (coords flat).Nodup) : Indexed (rehashFrom 0 flat []) flat := by
  have key : ∀ (l pre : List (Info × V)) (t : List (Coord × Nat)), (coords (pre ++ l)).Nodup → Indexed t pre →
      Indexed (rehashFrom pre.length l t) (pre ++ l) := by
    intro l
    induction l with
    | nil => intro pre t _ h; simpa [rehashFrom] using h
    | cons v l ih =>
      intro pre t hn h
      have hn' : (coords ((pre ++ [v]) ++ l)).Nodup := by simpa using hn
      have hv : v.1.coord ∉ coords pre := by
        unfold coords at hn ⊢
        rw [List.map_append, List.nodup_append] at hn
        intro hm
        exact hn.2.2 _ hm _ (by simp) rfl
      have := ih (pre ++ [v]) ((v.1.coord, pre.length) :: t) hn' (h.append v hv)
      unfold rehashFrom
      simpa using this
  have := key flat [] [] (by simpa using hnd) (by intro c i; simp [find])
  simpa using this

end Flat

section Map
variable {K : Type} [Field K] [LinearOrder K] [IsStrictOrderedRing K] [FloorRing K] {V : Type}

/-- `insertOne` on a consistent map. -/
theorem insertOne_ok (c : Contents K V) (T : Mat4 K) (m : VoxelMap K V) (hI : Indexed m.table m.flat) (s : SrcPt K)
    (hd : Spec.CellDefined m.invLeaf (mulPt T s.pt)) :
    ∃ table', insertOne c T m s = .ok { m with
        flat := touchFlat (fun v => c.add v (mulPt T s.pt) s T) c.fresh m.lruCounter (Spec.cellOf m.invLeaf (mulPt T s.pt)) m.flat,
        table := table' } ∧
      Indexed table' (touchFlat (fun v => c.add v (mulPt T s.pt) s T) c.fresh m.lruCounter
        (Spec.cellOf m.invLeaf (mulPt T s.pt)) m.flat) := by
  unfold insertOne
  simp only [coordOf_eq hd, bind, Except.bind, pure, Except.pure]
  cases hf : find m.table (Spec.cellOf m.invLeaf (mulPt T s.pt)) with
  | some i =>
    obtain ⟨v, hv, hvc⟩ := (hI _ _).1 hf
    refine ⟨m.table, ?_, ?_⟩
    · simp only
      rw [rd_of_getElem? hv]
      simp only
      rw [wr_of_lt _ (List.getElem?_eq_some_iff.1 hv).1]
      simp only
      rw [set_eq_touchFlat (fun v => c.add v (mulPt T s.pt) s T) c.fresh m.lruCounter _ m.flat hI.nodup i v hv hvc]
    · apply hI.congr
      rw [coords_touchFlat, if_pos]
      exact List.mem_map.2 ⟨v, List.mem_of_getElem? hv, hvc⟩
  | none =>
    have hn := (hI.none_iff _).1 hf
    refine ⟨(Spec.cellOf m.invLeaf (mulPt T s.pt), m.flat.length) :: m.table, ?_, ?_⟩
    · simp only
      rw [rd_append]
      simp only
      rw [wr_append]
      simp only
      rw [touchFlat_of_not_mem _ _ _ _ _ hn]
    · rw [touchFlat_of_not_mem _ _ _ _ _ hn]
      exact hI.append (⟨m.lruCounter, _⟩, _) hn

theorem insertLoop_ok (c : Contents K V) (T : Mat4 K) : ∀ (ss : List (SrcPt K)) (m : VoxelMap K V), Indexed m.table m.flat →
    (∀ s ∈ ss, Spec.CellDefined m.invLeaf (mulPt T s.pt)) →
    ∃ m', insertLoop c T m ss = .ok m' ∧ Indexed m'.table m'.flat ∧ m' = { m with flat := m'.flat, table := m'.table } ∧
      (∀ c', absFlat m'.flat c' = ss.foldl (Spec.AMap.addPt c m.invLeaf m.lruCounter T) (absFlat m.flat) c') ∧
      (∃ new, coords m'.flat = coords m.flat ++ new) ∧
      ((∀ v ∈ m.flat, v.1.lru ≤ m.lruCounter) → ∀ v ∈ m'.flat, v.1.lru ≤ m.lruCounter)
  | [], m, hI, _ => ⟨m, rfl, hI, rfl, fun _ => rfl, ⟨[], by simp⟩, fun h => h⟩
  | s :: ss, m, hI, hd => by
    obtain ⟨t1, h1, h2⟩ := insertOne_ok c T m hI s (hd s (by simp))
    obtain ⟨m', g1, g2, g3, g4, g5, g6⟩ := insertLoop_ok c T ss { m with
        flat := touchFlat (fun v => c.add v (mulPt T s.pt) s T) c.fresh m.lruCounter (Spec.cellOf m.invLeaf (mulPt T s.pt)) m.flat,
        table := t1 } h2 (fun x hx => hd x (by simp [hx]))
    refine ⟨m', ?_, g2, ?_, ?_, ?_, ?_⟩
    · unfold insertLoop
      rw [h1]
      exact g1
    · rw [g3]
    · intro c'
      rw [g4, List.foldl_cons]
      have : absFlat (touchFlat (fun v => c.add v (mulPt T s.pt) s T) c.fresh m.lruCounter (Spec.cellOf m.invLeaf (mulPt T s.pt)) m.flat)
          = Spec.AMap.addPt c m.invLeaf m.lruCounter T (absFlat m.flat) s := by
        funext c''
        rw [absFlat_touchFlat]
        unfold Spec.AMap.addPt
        rfl
      rw [this]
    · obtain ⟨new, hn⟩ := g5
      simp only at hn
      rw [coords_touchFlat] at hn
      split at hn
      · exact ⟨new, hn⟩
      · exact ⟨_, by rw [hn, List.append_assoc]⟩
    · intro hl
      apply g6
      simp only
      intro v hv
      clear g1 g2 g3 g4 g5 g6 h1 h2 hI
      generalize m.flat = l at hv hl
      induction l with
      | nil => simp only [touchFlat, List.mem_singleton] at hv; subst hv; exact le_refl _
      | cons w l ih =>
        unfold touchFlat at hv
        split at hv
        · rcases List.mem_cons.1 hv with e | e
          · subst e; exact le_refl _
          · exact hl v (by simp [e])
        · rcases List.mem_cons.1 hv with e | e
          · exact hl v (by simp [e])
          · exact ih e (fun w hw => hl w (by simp [hw]))

/-- Invariant of a voxel map: consistent index, no voxel used in the future, counters far from wrapping. -/
structure MapInv (m : VoxelMap K V) : Prop where
  idx : Indexed m.table m.flat
  lru : ∀ v ∈ m.flat, v.1.lru ≤ m.lruCounter
  cyc : m.lruClearCycle ≠ 0

/-- One `insert` call refines one abstract call. -/
theorem insert_ok (c : Contents K V) (m : VoxelMap K V) (hI : MapInv m) (pts : List (SrcPt K)) (T : Mat4 K)
    (hwrap : m.lruCounter + m.lruHorizon + 1 < 2 ^ 64)
    (hd : ∀ s ∈ pts, Spec.CellDefined m.invLeaf (mulPt T s.pt)) :
    ∃ m', Voxel.insert c m pts T = .ok m' ∧ MapInv m' ∧
      m'.invLeaf = m.invLeaf ∧ m'.lruHorizon = m.lruHorizon ∧ m'.lruClearCycle = m.lruClearCycle ∧ m'.offsets = m.offsets ∧
      m'.lruCounter = m.lruCounter + 1 ∧
      (∀ c', absFlat m'.flat c' = Spec.AMap.call c m.invLeaf m.lruHorizon m.lruClearCycle m.lruCounter (absFlat m.flat) pts T c') ∧
      (∃ new, (coords m'.flat).Sublist (coords m.flat ++ new)) := by
  obtain ⟨m1, h1, h2, h3, h4, ⟨new, h5⟩, h6⟩ := insertLoop_ok c T pts m hI.idx hd
  have h6 := h6 hI.lru
  have hcnt : (m.lruCounter + 1) % 2 ^ 64 = m.lruCounter + 1 := Nat.mod_eq_of_lt (by omega)
  have e1 : m1.lruCounter = m.lruCounter := by rw [h3]
  have e2 : m1.lruHorizon = m.lruHorizon := by rw [h3]
  have e3 : m1.lruClearCycle = m.lruClearCycle := by rw [h3]
  have e4 : m1.invLeaf = m.invLeaf := by rw [h3]
  have e5 : m1.offsets = m.offsets := by rw [h3]
  have coords_fin : ∀ l : List (Info × V), coords (l.map (fun v => (v.1, c.finalize v.2))) = coords l := by
    intro l; simp [coords, Function.comp_def]
  unfold Voxel.insert
  rw [h1]
  simp only [bind, Except.bind, pure, Except.pure]
  unfold evict
  simp only [e1, e2, e3, hcnt]
  rw [if_neg hI.cyc]
  by_cases hcyc : (m.lruCounter + 1) % m.lruClearCycle = 0
  · rw [if_pos hcyc]
    have hfil : (coords (m1.flat.filter (fun v => !isStale m.lruHorizon (m.lruCounter + 1) v.1))).Sublist (coords m1.flat) :=
      (List.filter_sublist).map _
    have hnd := h2.nodup.sublist hfil
    refine ⟨_, rfl, ⟨?_, ?_, ?_⟩, e4, rfl, rfl, e5, rfl, ?_, ?_⟩
    · simp only [finalizeAll]
      exact (rehash_indexed _ hnd).congr (coords_fin _)
    · simp only [finalizeAll]
      intro v hv
      obtain ⟨w, hw, rfl⟩ := List.mem_map.1 hv
      have := h6 w (List.mem_filter.1 hw).1
      simp only; omega
    · exact hI.cyc
    · intro c'
      simp only [finalizeAll]
      rw [absFlat_map, absFlat_filter _ _ h2.nodup c' (fun e => !(decide (m.lruClearCycle ∣ m.lruCounter + 1) && decide (e.1 + m.lruHorizon < m.lruCounter + 1)))]
      · rw [h4]; rfl
      · intro v hv
        have := h6 v hv
        unfold isStale
        rw [Nat.mod_eq_of_lt (by omega : v.1.lru + m.lruHorizon < 2 ^ 64)]
        simp [Nat.dvd_of_mod_eq_zero hcyc]
    · refine ⟨new, ?_⟩
      simp only [finalizeAll, coords_fin]
      rw [← h5]; exact hfil
  · rw [if_neg hcyc]
    refine ⟨_, rfl, ⟨?_, ?_, ?_⟩, e4, ?_, ?_, e5, rfl, ?_, ?_⟩
    · simp only [finalizeAll]
      exact h2.congr (coords_fin _)
    · simp only [finalizeAll]
      intro v hv
      obtain ⟨w, hw, rfl⟩ := List.mem_map.1 hv
      have := h6 w hw
      simp only; omega
    · exact hI.cyc
    · rfl
    · rfl
    · intro c'
      simp only [finalizeAll]
      rw [absFlat_map, h4]
      unfold Spec.AMap.call
      have : ¬ m.lruClearCycle ∣ m.lruCounter + 1 := fun h => hcyc (Nat.mod_eq_zero_of_dvd h)
      simp only [this, decide_false, Bool.false_and, Bool.not_false]
      cases List.foldl (Spec.AMap.addPt c m.invLeaf m.lruCounter T) (absFlat m.flat) pts c' <;> rfl
    · refine ⟨new, ?_⟩
      simp only [finalizeAll, coords_fin]
      rw [← h5]

/-- A history of `insert` calls. -/
def insertCalls (c : Contents K V) : VoxelMap K V → List (List (SrcPt K) × Mat4 K) → Res (VoxelMap K V)
  | m, [] => .ok m
  | m, call :: calls => do
    let m ← Voxel.insert c m call.1 call.2
    insertCalls c m calls

theorem insertCalls_ok (c : Contents K V) : ∀ (calls : List (List (SrcPt K) × Mat4 K)) (m : VoxelMap K V), MapInv m →
    m.lruCounter + m.lruHorizon + calls.length < 2 ^ 64 →
    (∀ call ∈ calls, ∀ s ∈ call.1, Spec.CellDefined m.invLeaf (mulPt call.2 s.pt)) →
    ∃ m', insertCalls c m calls = .ok m' ∧ MapInv m' ∧
      m'.invLeaf = m.invLeaf ∧ m'.lruHorizon = m.lruHorizon ∧ m'.lruClearCycle = m.lruClearCycle ∧ m'.offsets = m.offsets ∧
      m'.lruCounter = m.lruCounter + calls.length ∧
      (∀ c', absFlat m'.flat c' =
        Spec.AMap.run c m.invLeaf m.lruHorizon m.lruClearCycle m.lruCounter (absFlat m.flat) calls c')
  | [], m, hI, _, _ => ⟨m, rfl, hI, rfl, rfl, rfl, rfl, rfl, fun _ => rfl⟩
  | call :: calls, m, hI, hw, hd => by
    simp only [List.length_cons] at hw
    obtain ⟨m1, h1, h2, a1, a2, a3, a4, a5, h3, _⟩ := insert_ok c m hI call.1 call.2 (by omega) (hd call (by simp))
    obtain ⟨m2, g1, g2, b1, b2, b3, b4, b5, g3⟩ := insertCalls_ok c calls m1 h2 (by rw [a5, a2]; omega)
      (by rw [a1]; exact fun x hx => hd x (by simp [hx]))
    refine ⟨m2, ?_, g2, b1.trans a1, b2.trans a2, b3.trans a3, b4.trans a4, ?_, ?_⟩
    · unfold insertCalls; rw [h1]; exact g1
    · rw [b5, a5, List.length_cons]; omega
    · intro c'
      rw [g3, a1, a2, a3, a5]
      have : absFlat m1.flat = Spec.AMap.call c m.invLeaf m.lruHorizon m.lruClearCycle m.lruCounter (absFlat m.flat) call.1 call.2 :=
        funext h3
      rw [this]
      rfl

end Map

end Verif.Proofs
