import Verif.Model.PythonVoxelMaps
import Verif.Props.PythonModel
import Verif.Props.VoxelContents

/-! C93: the voxel-map classes of the Python module, over all sequences of `insert` and `set_lru`. -/

set_option linter.unusedSectionVars false
set_option linter.unusedSimpArgs false
set_option linter.unnecessarySeqFocus false

namespace Verif.Spec

open Matrix Verif Verif.Voxel Verif.Features Verif.PointCloud Verif.Python Verif.RegMem

/-- One insertion with the LRU setting in force. -/
structure Insertion where
  horizon : Nat
  cycle : Nat
  pts : List (SrcPt ℝ)
  T : Mat4 ℝ

/-- The points of a cloud with their attributes; an attribute that is not set is given as zero. -/
noncomputable def attributed (c : RCloud) : List (SrcPt ℝ) :=
  (List.range c.size).map (fun i => ⟨toPt ((c.points[i]?.join).getD 0), toPt ((c.normals[i]?.join).getD 0), (c.covs[i]?.join).getD 0⟩)

/-- The insertions among the calls: `set_lru` applies to those after it. -/
noncomputable def insertions : Nat → Nat → List MapCall → List Insertion
  | _, _, [] => []
  | h, k, .insert c T :: calls => ⟨h, k, attributed c, T.matrix⟩ :: insertions h k calls
  | _, _, .setLru h k :: calls => insertions h k calls

/-- The points of the insertion that fall in the cell. -/
noncomputable def Insertion.hits (leaf : ℝ) (cell : Coord) (e : Insertion) : List (Sample ℝ) :=
  (e.pts.map (fun s => ((mulPt e.T s.pt, s, e.T) : Sample ℝ))).filter (fun x => decide (cellOf (1 / leaf) x.1 = cell))

/-- `l` is the last insertion with a point in the cell, and no clearing has happened since that was more than the horizon in force after it. (Insertion `j` ends with a clearing at time `j + 1` if
its clear cycle divides `j + 1`.) -/
def LastUse (leaf : ℝ) (es : List Insertion) (cell : Coord) (l : Nat) : Prop :=
  (∃ e, es[l]? = some e ∧ e.hits leaf cell ≠ []) ∧ (∀ j e, l < j → es[j]? = some e → e.hits leaf cell = []) ∧
    ∀ j e, l ≤ j → es[j]? = some e → e.cycle ∣ j + 1 → j + 1 ≤ l + e.horizon

/-- `L` is what the cell has got since insertion `b`, before which it was unused or forgotten, and since which it has not been forgotten. -/
def Gathered (leaf : ℝ) (es : List Insertion) (cell : Coord) (b : Nat) (L : List (Sample ℝ)) : Prop :=
  b < es.length ∧ (∀ l, ¬ LastUse leaf (es.take b) cell l) ∧ (∀ n, b < n → n ≤ es.length → ∃ l, LastUse leaf (es.take n) cell l) ∧
    L = (es.drop b).flatMap (Insertion.hits leaf cell)

/-- All points of the cloud are set, and the attributes named. -/
def Complete (normals covs : Bool) (c : RCloud) : Prop :=
  ∀ i < c.size, (∃ p, c.points[i]? = some (some p)) ∧ (normals = true → ∃ n, c.normals[i]? = some (some n)) ∧ (covs = true → ∃ C, c.covs[i]? = some (some C))

/-- The insertions meet the limits of the machine: no clear cycle of zero, no counter overflow, every point has a cell of `int` coordinates. -/
def Usable (leaf : ℝ) (es : List Insertion) : Prop :=
  ∀ j e, es[j]? = some e → e.cycle ≠ 0 ∧ e.horizon + j + 1 < 2 ^ 64 ∧ ∀ s ∈ e.pts, CellDefined (1 / leaf) (mulPt e.T s.pt)

/-- Rows of an `n × 4` array. -/
def IsRows (a : NumpyArray) (ps : List (Pt ℝ)) : Prop :=
  a.rows = ps.length ∧ a.cols = 4 ∧ ∀ i p, ps[i]? = some p → a.entry i 0 = p.x ∧ a.entry i 1 = p.y ∧ a.entry i 2 = p.z ∧ a.entry i 3 = p.w

/-- Rows of an `n × 16` array: the entry in row `r` and column `c` of a matrix is number `4 c + r` of its row. -/
def IsCovRows (a : NumpyArray) (Cs : List (Mat4 ℝ)) : Prop :=
  a.rows = Cs.length ∧ a.cols = 16 ∧ ∀ i C, Cs[i]? = some C → ∀ r c : Fin 4, a.entry i (4 * c.val + r.val) = C r c

end Verif.Spec

namespace Verif.Proofs

open Matrix Verif Verif.Voxel Verif.Features Verif.PointCloud Verif.Python Verif.RegMem Verif.Spec Verif.Factors

/-- The abstract map after insertions with changing settings. -/
noncomputable def recall {V : Type} (c : Contents ℝ V) (invLeaf : ℝ) : Nat → AMap V → List Insertion → AMap V
  | _, A, [] => A
  | n, A, e :: es => recall c invLeaf (n + 1) (AMap.call c invLeaf e.horizon e.cycle n A e.pts e.T) es

theorem recall_append {V : Type} (c : Contents ℝ V) (invLeaf : ℝ) (e : Insertion) : ∀ (es : List Insertion) (n : Nat) (A : AMap V),
    recall c invLeaf n A (es ++ [e]) = AMap.call c invLeaf e.horizon e.cycle (n + es.length) (recall c invLeaf n A es) e.pts e.T
  | [], n, A => rfl
  | x :: es, n, A => by
    rw [List.cons_append, recall, recall_append c invLeaf e es (n + 1), recall, List.length_cons]
    rw [show n + 1 + es.length = n + (es.length + 1) by omega]

theorem relMap_recall {V W : Type} {cv : Contents ℝ V} {cw : Contents ℝ W} {invLeaf : ℝ} {R : Coord → V → W → Prop} (h : RelOK cv cw invLeaf R) :
    ∀ (es : List Insertion) (n : Nat) (A : AMap V) (B : AMap W), RelMap R A B → RelMap R (recall cv invLeaf n A es) (recall cw invLeaf n B es)
  | [], _, _, _, h' => h'
  | e :: es, n, A, B, h' => relMap_recall h es (n + 1) _ _ (relMap_call h e.horizon e.cycle n A B h' e.pts e.T)

/-- `add` reads the attributes of a complete cloud. -/
structure ClassLaw {V : Type} (k : VoxelClass V) (normals covs : Bool) : Prop where
  add : ∀ v tp (c : RCloud) i T s, Complete normals covs c → (attributed c)[i]? = some s → k.addFrom v tp c i T = .ok (k.contents.add v tp s T)

theorem getSlot_ok {α : Type} {l : List (Option α)} {i : Nat} {a : α} (h : l[i]? = some (some a)) : getSlot l i = .ok a := by
  unfold getSlot rd
  rw [h]
  rfl

theorem attributed_get {c : RCloud} {i : Nat} {s : SrcPt ℝ} (h : (attributed c)[i]? = some s) :
    i < c.size ∧ s = ⟨toPt ((c.points[i]?.join).getD 0), toPt ((c.normals[i]?.join).getD 0), (c.covs[i]?.join).getD 0⟩ := by
  unfold attributed at h
  rw [List.getElem?_map] at h
  by_cases hi : i < c.size
  · rw [List.getElem?_range hi] at h
    exact ⟨hi, (Option.some.inj h).symm⟩
  · rw [List.getElem?_eq_none (by rw [List.length_range]; omega)] at h
    cases h

theorem flat_law (n c : Bool) : ClassLaw (flatClass n c) n c where
  add v tp cl i T s hc hs := by
    obtain ⟨hi, rfl⟩ := attributed_get hs
    obtain ⟨⟨p, hp⟩, hn, hC⟩ := hc i hi
    show flatAddFrom (flatDefault n c) v tp cl i T = .ok (v.add (flatDefault n c) tp _ T)
    unfold flatAddFrom FlatVoxel.add
    split
    · rfl
    · cases n <;> cases c
      · rfl
      · obtain ⟨C, hC⟩ := hC rfl
        simp only [flatDefault, Cloud.cov, getSlot_ok hC, hC]
        rfl
      · obtain ⟨nn, hn⟩ := hn rfl
        simp only [flatDefault, Cloud.normal, getSlot_ok hn, hn]
        rfl
      · obtain ⟨nn, hn⟩ := hn rfl
        obtain ⟨C, hC⟩ := hC rfl
        simp only [flatDefault, Cloud.normal, Cloud.cov, getSlot_ok hn, hn, getSlot_ok hC, hC]
        rfl

theorem gaussian_law : ClassLaw gaussianClass false true where
  add v tp cl i T s hc hs := by
    obtain ⟨hi, rfl⟩ := attributed_get hs
    obtain ⟨⟨p, hp⟩, _, hC⟩ := hc i hi
    obtain ⟨C, hC⟩ := hC rfl
    show gaussianAddFrom v tp cl i T = .ok (v.add tp _ T)
    unfold gaussianAddFrom GaussianVoxel.add
    simp only [Cloud.cov, getSlot_ok hC, hC]
    rfl

section
variable {V : Type} {k : VoxelClass V} {normals covs : Bool}

theorem insertPoint_eq (law : ClassLaw k normals covs) (T : Mat4 ℝ) {c : RCloud} (hc : Complete normals covs c) (m : VoxelMap ℝ V) {i : Nat} {s : SrcPt ℝ} (hs : (attributed c)[i]? = some s) :
    insertPoint k T c m i = insertOne k.contents T m s := by
  have hs' := hs
  obtain ⟨hi, rfl⟩ := attributed_get hs
  obtain ⟨⟨p, hp⟩, _⟩ := hc i hi
  unfold insertPoint insertOne Cloud.point
  rw [getSlot_ok hp, ok_bind]
  rw [hp] at hs' ⊢
  have e0 : ((some (some p) : Option (Option V4)).join).getD 0 = p := rfl
  rw [e0] at hs' ⊢
  simp only [law.add _ _ c i T _ hc hs', ok_bind]
  rfl

theorem insertPoints_eq (law : ClassLaw k normals covs) (T : Mat4 ℝ) {c : RCloud} (hc : Complete normals covs c) : ∀ (l : List Nat) (ss : List (SrcPt ℝ)) (m : VoxelMap ℝ V),
    l.map (fun i => (attributed c)[i]?) = ss.map some → l.foldlM (insertPoint k T c) m = insertLoop k.contents T m ss
  | [], [], m, _ => rfl
  | [], s :: ss, _, h => by simp at h
  | i :: l, [], _, h => by simp at h
  | i :: l, s :: ss, m, h => by
    simp only [List.map_cons, List.cons.injEq] at h
    rw [List.foldlM_cons, insertPoint_eq law T hc m h.1]
    unfold insertLoop
    congr 1
    funext m'
    exact insertPoints_eq law T hc l ss m' h.2

theorem mapInsert_eq (law : ClassLaw k normals covs) (m : VoxelMap ℝ V) {c : RCloud} (hc : Complete normals covs c) (T : Pose ℝ) :
    mapInsert k m c T = Voxel.insert k.contents m (attributed c) T.matrix := by
  unfold mapInsert Voxel.insert
  rw [insertPoints_eq law T.matrix hc (List.range c.size) (attributed c) m]
  apply List.ext_getElem?
  intro i
  simp only [List.getElem?_map]
  by_cases hi : i < c.size
  · rw [List.getElem?_range hi]
    have : i < (attributed c).length := by unfold attributed; simpa using hi
    rw [List.getElem?_eq_getElem this]
    simp [List.getElem?_eq_getElem this]
  · rw [List.getElem?_eq_none (by rw [List.length_range]; omega), List.getElem?_eq_none (by unfold attributed; simp; omega)]
    rfl

/-- A sequence of calls refines the abstract insertions. -/
theorem mapCalls_ok (law : ClassLaw k normals covs) : ∀ (calls : List MapCall) (m : VoxelMap ℝ V), Indexed m.table m.flat → (∀ v ∈ m.flat, v.1.lru ≤ m.lruCounter) →
    (∀ c T, MapCall.insert c T ∈ calls → Complete normals covs c) →
    (∀ j e, (insertions m.lruHorizon m.lruClearCycle calls)[j]? = some e →
      e.cycle ≠ 0 ∧ e.horizon + (m.lruCounter + j) + 1 < 2 ^ 64 ∧ ∀ s ∈ e.pts, CellDefined m.invLeaf (mulPt e.T s.pt)) →
    ∃ m', mapCalls k m calls = .ok m' ∧ Indexed m'.table m'.flat ∧
      absFlat m'.flat = recall k.contents m.invLeaf m.lruCounter (absFlat m.flat) (insertions m.lruHorizon m.lruClearCycle calls)
  | [], m, hI, _, _, _ => ⟨m, rfl, hI, rfl⟩
  | .insert c T :: calls, m, hI, hl, hc, hu => by
    obtain ⟨u1, u2, u3⟩ := hu 0 _ rfl
    obtain ⟨m1, h1, h2, a1, a2, a3, _, a5, h3, _⟩ := insert_ok k.contents m ⟨hI, hl, u1⟩ (attributed c) T.matrix (by simp only at u2; omega) u3
    obtain ⟨m2, g1, g2, g3⟩ := mapCalls_ok law calls m1 h2.idx h2.lru (fun c' T' h => hc c' T' (by simp [h])) (by
      intro j e he
      rw [a2, a3] at he
      obtain ⟨b1, b2, b3⟩ := hu (j + 1) e he
      exact ⟨b1, by rw [a5]; omega, by rw [a1]; exact b3⟩)
    refine ⟨m2, ?_, g2, ?_⟩
    · unfold mapCalls
      rw [mapInsert_eq law m (hc c T (by simp)) T, h1, ok_bind]
      exact g1
    · rw [g3, a1, a2, a3, a5, funext h3]
      rfl
  | .setLru h cy :: calls, m, hI, hl, hc, hu => by
    exact mapCalls_ok law calls (setLru m h cy) hI hl (fun c' T' h => hc c' T' (by simp [h])) hu

end

theorem hits_ne {leaf : ℝ} {cell : Coord} {e : Insertion} : e.hits leaf cell ≠ [] ↔ ∃ s ∈ e.pts, cellOf (1 / leaf) (mulPt e.T s.pt) = cell := by
  unfold Insertion.hits
  rw [ne_eq, List.filter_eq_nil_iff, not_forall]
  constructor
  · rintro ⟨x, hx⟩
    rw [Classical.not_imp] at hx
    obtain ⟨s, hs, rfl⟩ := List.mem_map.1 hx.1
    exact ⟨s, hs, by simpa using hx.2⟩
  · rintro ⟨s, hs, h⟩
    refine ⟨(mulPt e.T s.pt, s, e.T), ?_⟩
    rw [Classical.not_imp]
    exact ⟨List.mem_map_of_mem hs, by simpa using h⟩

theorem lastUse_lt {leaf : ℝ} {es : List Insertion} {cell : Coord} {l : Nat} (h : LastUse leaf es cell l) : l < es.length := by
  obtain ⟨⟨e, he, _⟩, _⟩ := h
  exact (List.getElem?_eq_some_iff.1 he).1

theorem lastUse_append {leaf : ℝ} {es : List Insertion} {e : Insertion} {cell : Coord} {l : Nat} :
    LastUse leaf (es ++ [e]) cell l ↔ (e.cycle ∣ es.length + 1 → es.length + 1 ≤ l + e.horizon) ∧
      ((e.hits leaf cell ≠ [] ∧ l = es.length) ∨ (e.hits leaf cell = [] ∧ LastUse leaf es cell l)) := by
  have hlast : (es ++ [e])[es.length]? = some e := by simp
  have hold : ∀ j, j < es.length → (es ++ [e])[j]? = es[j]? := fun j hj => List.getElem?_append_left hj
  have hlt : ∀ j x, (es ++ [e])[j]? = some x → j ≤ es.length := by
    intro j x hx
    have := (List.getElem?_eq_some_iff.1 hx).1
    simp at this
    omega
  constructor
  · rintro ⟨⟨x, hx, hh⟩, h2, h3⟩
    have hl := hlt _ _ hx
    refine ⟨h3 es.length e hl hlast, ?_⟩
    rcases Nat.lt_or_ge l es.length with h | h
    · right
      refine ⟨h2 es.length e h hlast, ⟨x, by rw [← hold l h]; exact hx, hh⟩, ?_, ?_⟩
      · intro j y hj hy
        exact h2 j y hj (by rw [hold j (List.getElem?_eq_some_iff.1 hy).1]; exact hy)
      · intro j y hj hy
        exact h3 j y hj (by rw [hold j (List.getElem?_eq_some_iff.1 hy).1]; exact hy)
    · left
      have : l = es.length := by omega
      subst this
      rw [hlast] at hx
      cases hx
      exact ⟨hh, rfl⟩
  · rintro ⟨h1, ⟨h2, rfl⟩ | ⟨h2, ⟨x, hx, hh⟩, h3, h4⟩⟩
    · refine ⟨⟨e, hlast, h2⟩, ?_, ?_⟩
      · intro j y hj hy
        have := hlt j y hy
        omega
      · intro j y hj hy hd
        have : j = es.length := by have := hlt j y hy; omega
        subst this
        rw [hlast] at hy
        cases hy
        exact h1 hd
    · have hl := (List.getElem?_eq_some_iff.1 hx).1
      refine ⟨⟨x, by rw [hold l hl]; exact hx, hh⟩, ?_, ?_⟩
      · intro j y hj hy
        rcases Nat.lt_or_ge j es.length with h | h
        · exact h3 j y hj (by rw [← hold j h]; exact hy)
        · have : j = es.length := by have := hlt j y hy; omega
          subst this
          rw [hlast] at hy
          cases hy
          exact h2
      · intro j y hj hy hd
        rcases Nat.lt_or_ge j es.length with h | h
        · exact h4 j y hj (by rw [← hold j h]; exact hy) hd
        · have : j = es.length := by have := hlt j y hy; omega
          subst this
          rw [hlast] at hy
          cases hy
          exact h1 hd

/-- Closed form of the cells that have a voxel. -/
theorem recall_alive {V : Type} (c : Contents ℝ V) (leaf : ℝ) (cell : Coord) (l : Nat) (es : List Insertion) :
    (∃ v, recall c (1 / leaf) 0 (fun _ => none) es cell = some (l, v)) ↔ LastUse leaf es cell l := by
  induction es using List.reverseRecOn generalizing l with
  | nil =>
    constructor
    · rintro ⟨v, hv⟩; cases hv
    · rintro ⟨⟨e, he, _⟩, _⟩; simp at he
  | append_singleton es e ih =>
    rw [recall_append, Nat.zero_add, lastUse_append]
    obtain ⟨f1, f2⟩ := foldl_addPt_lru (invLeaf := 1 / leaf) c es.length e.T cell e.pts (recall c (1 / leaf) 0 (fun _ => none) es)
    have key : ∀ o : Option (Nat × V), (∃ v, ((o.filter (fun e' => !(decide (e.cycle ∣ es.length + 1) && decide (e'.1 + e.horizon < es.length + 1)))).map
        (fun e' => (e'.1, c.finalize e'.2))) = some (l, v)) ↔ (e.cycle ∣ es.length + 1 → es.length + 1 ≤ l + e.horizon) ∧ ∃ v, o = some (l, v) := by
      intro o
      cases o with
      | none => simp
      | some a =>
        obtain ⟨la, va⟩ := a
        rw [Option.filter_some]
        by_cases hd : e.cycle ∣ es.length + 1
        · by_cases hs : la + e.horizon < es.length + 1
          · simp only [hd, hs, decide_true, Bool.and_self, Bool.not_true, Bool.false_eq_true, if_false, Option.map_none]
            constructor
            · rintro ⟨v, hv⟩; cases hv
            · rintro ⟨h, ⟨v, hv⟩⟩
              simp only [Option.some.injEq, Prod.mk.injEq] at hv
              have := h trivial
              omega
          · simp only [hd, hs, decide_true, decide_false, Bool.and_false, Bool.not_false, if_true, Option.map_some, Option.some.injEq, Prod.mk.injEq]
            constructor
            · rintro ⟨v, rfl, hv⟩; exact ⟨fun _ => by omega, va, rfl, rfl⟩
            · rintro ⟨_, v, rfl, hv⟩; exact ⟨_, rfl, rfl⟩
        · simp [hd]
    unfold AMap.call
    rw [key]
    refine and_congr_right (fun _ => ?_)
    by_cases hh : e.hits leaf cell = []
    · rw [f2 (fun s hs he => hits_ne.2 ⟨s, hs, he⟩ hh), ih]
      simp [hh]
    · obtain ⟨v, hv⟩ := f1 (hits_ne.1 hh)
      rw [hv]
      simp only [hh, ne_eq, not_false_eq_true, true_and, false_and, or_false, Option.some.injEq, Prod.mk.injEq]
      constructor
      · rintro ⟨_, h, _⟩; exact h.symm
      · rintro rfl; exact ⟨v, rfl, rfl⟩

/-- Closed form of what the cells have received. -/
theorem recall_gathered (leaf : ℝ) (cell : Coord) (es : List Insertion) : ∀ l L, recall sampleContents (1 / leaf) 0 (fun _ => none) es cell = some (l, L) → ∃ b, Gathered leaf es cell b L := by
  induction es using List.reverseRecOn with
  | nil => intro l L h; cases h
  | append_singleton es e ih =>
    intro l L h
    have halive := (recall_alive sampleContents leaf cell l (es ++ [e])).1 ⟨L, h⟩
    rw [recall_append, Nat.zero_add] at h
    unfold AMap.call at h
    have hs := foldl_addPt_samples (invLeaf := 1 / leaf) es.length e.T cell e.pts (recall sampleContents (1 / leaf) 0 (fun _ => none) es) (by
      intro x hx
      have := lastUse_lt ((recall_alive sampleContents leaf cell x.1 es).1 ⟨x.2, hx⟩)
      omega)
    simp only at hs
    rw [Option.map_eq_some_iff] at h
    obtain ⟨x, hx, hxl⟩ := h
    have hx := (Option.filter_eq_some_iff.1 hx).1
    rw [hx] at hs
    have hL : L = ((Option.map Prod.snd (recall sampleContents (1 / leaf) 0 (fun _ => none) es cell)).getD []) ++ e.hits leaf cell := by
      have h2 := congrArg Prod.snd hxl
      simp only at h2
      rw [← h2]
      exact hs.2
    have hdrop : ∀ b, b < es.length → ((es ++ [e]).drop b).flatMap (Insertion.hits leaf cell) = (es.drop b).flatMap (Insertion.hits leaf cell) ++ e.hits leaf cell := by
      intro b hb
      rw [List.drop_append_of_le_length (by omega)]
      simp
    cases ho : recall sampleContents (1 / leaf) 0 (fun _ => none) es cell with
    | none =>
      rw [ho] at hL
      refine ⟨es.length, by simp, ?_, ?_, ?_⟩
      · intro l' hl'
        rw [List.take_left'  rfl] at hl'
        obtain ⟨v, hv⟩ := (recall_alive sampleContents leaf cell l' es).2 hl'
        rw [ho] at hv
        cases hv
      · intro n h1 h2
        refine ⟨l, ?_⟩
        rw [List.take_of_length_le (by simp at h2 ⊢; omega)]
        exact halive
      · rw [List.drop_left' rfl, hL]
        simp
    | some y =>
      rw [ho] at hL
      obtain ⟨b, h1, h2, h3, h4⟩ := ih y.1 y.2 ho
      refine ⟨b, by simp; omega, ?_, ?_, ?_⟩
      · rw [List.take_append_of_le_length (by omega)]
        exact h2
      · intro n g1 g2
        rcases Nat.lt_or_ge es.length n with h | h
        · refine ⟨l, ?_⟩
          rw [List.take_of_length_le (by simp; omega)]
          exact halive
        · rw [List.take_append_of_le_length h]
          exact h3 n g1 h
      · rw [hdrop b h1, hL, ← h4]
        rfl

end Verif.Proofs

namespace Verif.Props

open Matrix Verif Verif.Voxel Verif.Features Verif.PointCloud Verif.Python Verif.RegMem Verif.Spec Verif.Factors Verif.Proofs

theorem exists_forall₂ {α β : Type} (P : α → β → Prop) : ∀ l : List α, (∀ a ∈ l, ∃ b, P a b) → ∃ r, List.Forall₂ P l r
  | [], _ => ⟨[], .nil⟩
  | a :: l, h => by
    obtain ⟨b, h1⟩ := h a (by simp)
    obtain ⟨r, h2⟩ := exists_forall₂ P l (fun a ha => h a (by simp [ha]))
    exact ⟨b :: r, .cons h1 h2⟩

theorem forall₂_mem_right {α β : Type} {P : α → β → Prop} : ∀ {l : List α} {r : List β}, List.Forall₂ P l r → ∀ b ∈ r, ∃ a ∈ l, P a b
  | _, _, .nil, _, h => by cases h
  | _, _, .cons (a := a) h1 h2, b, h => by
    rcases List.mem_cons.1 h with rfl | h
    · exact ⟨a, by simp, h1⟩
    · obtain ⟨a', h3, h4⟩ := forall₂_mem_right h2 b h
      exact ⟨a', by simp [h3], h4⟩

theorem forall₂_map_eq {α β γ : Type} {P : α → β → Prop} (f : α → γ) (g : β → γ) (h : ∀ a b, P a b → f a = g b) : ∀ {l : List α} {r : List β}, List.Forall₂ P l r → l.map f = r.map g
  | _, _, .nil => rfl
  | _, _, .cons h1 h2 => by rw [List.map_cons, List.map_cons, h _ _ h1, forall₂_map_eq f g h h2]

section
variable {V : Type} {k : VoxelClass V} {normals covs : Bool}

/-- The voxels of a map after a sequence of calls, each with what its cell has gathered. -/
theorem map_voxels (law : ClassLaw k normals covs) {R : Coord → V → List (Sample ℝ) → Prop} (leaf : ℝ) (hR : RelOK k.contents sampleContents (1 / leaf) R)
    (calls : List MapCall) (hc : ∀ c T, MapCall.insert c T ∈ calls → Complete normals covs c) (hu : Usable leaf (insertions 100 10 calls)) :
    ∃ m, mapCalls k (VoxelMap.new leaf) calls = .ok m ∧ (coords m.flat).Nodup ∧ (∀ cell, cell ∈ coords m.flat ↔ ∃ l, LastUse leaf (insertions 100 10 calls) cell l) ∧
      ∀ e ∈ m.flat, ∃ b L, Gathered leaf (insertions 100 10 calls) e.1.coord b L ∧ R e.1.coord e.2 L ∧ ∃ v, e.2 = k.contents.finalize v := by
  obtain ⟨m, h1, h2, h3⟩ := mapCalls_ok law calls (VoxelMap.new leaf) (userMap_inv (V := V) leaf 100 10 (by norm_num) [(0, 0, 0)]).idx (by simp [VoxelMap.new]) hc (by
    intro j e he
    obtain ⟨a1, a2, a3⟩ := hu j e he
    exact ⟨a1, by simp only [VoxelMap.new]; omega, a3⟩)
  have h3 : absFlat m.flat = recall k.contents (1 / leaf) 0 (fun _ => none) (insertions 100 10 calls) := h3
  have habs : ∀ cell, (∃ e, absFlat m.flat cell = some e) ↔ cell ∈ coords m.flat := by
    intro cell
    unfold absFlat coords
    constructor
    · rintro ⟨e, he⟩
      rw [Option.map_eq_some_iff] at he
      obtain ⟨a, ha, _⟩ := he
      have := List.find?_some ha
      simp only [decide_eq_true_eq] at this
      exact List.mem_map.2 ⟨a, List.mem_of_find?_eq_some ha, this⟩
    · intro h
      obtain ⟨a, ha, hac⟩ := List.mem_map.1 h
      cases hf : m.flat.find? (fun v => decide (v.1.coord = cell)) with
      | none =>
        have := List.find?_eq_none.1 hf a ha
        simp [hac] at this
      | some w => exact ⟨_, rfl⟩
  refine ⟨m, h1, h2.nodup, ?_, ?_⟩
  · intro cell
    rw [← habs, h3]
    constructor
    · rintro ⟨⟨l, v⟩, h⟩
      exact ⟨l, (recall_alive k.contents leaf cell l _).1 ⟨v, h⟩⟩
    · rintro ⟨l, h⟩
      obtain ⟨v, h⟩ := (recall_alive k.contents leaf cell l _).2 h
      exact ⟨_, h⟩
  · intro e he
    have ha : absFlat m.flat e.1.coord = some (e.1.lru, e.2) := by
      unfold absFlat
      obtain ⟨i, hi, hie⟩ := List.mem_iff_getElem.1 he
      cases hq : m.flat.find? (fun v => decide (v.1.coord = e.1.coord)) with
      | none =>
        have := List.find?_eq_none.1 hq _ he
        simp at this
      | some w =>
        have hm := List.mem_of_find?_eq_some hq
        have hp := List.find?_some hq
        simp only [decide_eq_true_eq] at hp
        obtain ⟨j, hj, hjw⟩ := List.mem_iff_getElem.1 hm
        have e1 : find m.table e.1.coord = some j := (h2 _ _).2 ⟨w, by rw [List.getElem?_eq_getElem hj, hjw], hp⟩
        have e2 : find m.table e.1.coord = some i := (h2 _ _).2 ⟨e, by rw [List.getElem?_eq_getElem hi, hie], rfl⟩
        rw [e1] at e2
        cases e2
        rw [hjw] at hie
        subst hie
        rfl
    rw [h3] at ha
    have hrel := relMap_recall hR (insertions 100 10 calls) 0 (fun _ => none) (fun _ => none) (fun _ => trivial) e.1.coord
    rw [ha] at hrel
    cases hB : recall sampleContents (1 / leaf) 0 (fun _ => none) (insertions 100 10 calls) e.1.coord with
    | none => rw [hB] at hrel; exact hrel.elim
    | some b =>
      rw [hB] at hrel
      obtain ⟨bb, hg⟩ := recall_gathered leaf e.1.coord _ b.1 b.2 hB
      refine ⟨bb, b.2, hg, hrel.2, ?_⟩
      rcases List.eq_nil_or_concat (insertions 100 10 calls) with h | ⟨cs, call, h⟩
      · rw [h] at ha
        cases ha
      · rw [h, List.concat_eq_append, recall_append] at ha
        unfold AMap.call at ha
        rw [Option.map_eq_some_iff] at ha
        obtain ⟨w, _, hw⟩ := ha
        exact ⟨w.2, (congrArg Prod.snd hw).symm⟩

end

/-- Elements of all voxels, one after the other. -/
theorem mapM_flatten {α β : Type} (f : α → Res (List β)) (g : α → List β) (l : List α) (h : ∀ a ∈ l, f a = .ok (g a)) :
    (do let rows ← l.mapM f; return rows.flatten : Res (List β)) = .ok (l.flatMap g) := by
  rw [mapM_ok f g l h, ok_bind, List.flatMap_def]
  rfl

theorem mapM_rd {α : Type} (l : List α) : (List.range l.length).mapM (rd l) = (.ok l : Res (List α)) := by
  have h := mapM_points (rd l) (fun i a => l[i]? = some a) (List.range l.length) (by
    intro i hi
    have hi := List.mem_range.1 hi
    exact ⟨l[i], rd_of_getElem? (List.getElem?_eq_getElem hi), List.getElem?_eq_getElem hi⟩)
  obtain ⟨r, h1, h2⟩ := h
  rw [h1]
  congr 1
  apply List.ext_getElem?
  intro i
  have hl := h2.length_eq
  rw [List.length_range] at hl
  by_cases hi : i < l.length
  · have := (List.forall₂_iff_get.1 h2).2 i (by simpa using hi) (by omega)
    simp only [List.get_eq_getElem, List.getElem_range] at this
    rw [this, List.getElem?_eq_getElem (by omega : i < r.length)]
  · rw [List.getElem?_eq_none (by omega), List.getElem?_eq_none (by omega)]

/-- What `voxel_points` returns for the rows `ps`, without rows it is undefined. -/
theorem pointsArray_of {V : Type} (c : Contents ℝ V) (m : VoxelMap ℝ V) {ps : List (Pt ℝ)} (h : voxelPoints c m = .ok ps) :
    (ps ≠ [] → ∃ a, voxelPointsArray c m = .ok a ∧ IsRows a ps) ∧ (ps = [] → voxelPointsArray c m = .error .oob) := by
  unfold voxelPointsArray
  rw [h, ok_bind]
  constructor
  · intro hne
    rw [if_neg hne]
    refine ⟨_, rfl, rfl, rfl, ?_⟩
    intro i p hp
    simp only [hp]
    exact ⟨rfl, rfl, rfl, rfl⟩
  · intro he
    rw [if_pos he]

theorem normalsArray_of {V : Type} (k : VoxelClass V) (hk : k.hasNormals = true) (m : VoxelMap ℝ V) {ps : List (Pt ℝ)} (h : voxelNormals k m = .ok ps) :
    (ps ≠ [] → ∃ a, voxelNormalsArray k m = .ok a ∧ IsRows a ps) ∧ (ps = [] → voxelNormalsArray k m = .error .oob) := by
  unfold voxelNormalsArray
  rw [if_pos hk, h, ok_bind]
  constructor
  · intro hne
    rw [if_neg hne]
    refine ⟨_, rfl, rfl, rfl, ?_⟩
    intro i p hp
    simp only [hp]
    exact ⟨rfl, rfl, rfl, rfl⟩
  · intro he
    rw [if_pos he]

theorem covsArray_of {V : Type} (k : VoxelClass V) (hk : k.hasCovs = true) (m : VoxelMap ℝ V) {Cs : List (Mat4 ℝ)} (h : voxelCovs k m = .ok Cs) :
    (Cs ≠ [] → ∃ a, voxelCovsArray k m = .ok a ∧ IsCovRows a Cs) ∧ (Cs = [] → voxelCovsArray k m = .error .oob) := by
  unfold voxelCovsArray
  rw [if_pos hk, h, ok_bind]
  constructor
  · intro hne
    rw [if_neg hne]
    refine ⟨_, rfl, rfl, rfl, ?_⟩
    intro i C hC r c
    have h16 : 4 * c.val + r.val < 16 := by omega
    simp only [hC, Option.getD_some, dif_pos h16]
    congr 1 <;>
    · rw [Fin.ext_iff]
      simp only
      omega
  · intro he
    rw [if_pos he]

/-- C93, `IncrementalVoxelMap`, `-Normal`, `-Cov`, `-NormalCov`. After any calls of `insert` and `set_lru`, `len` is the number of cells in use; `kept` lists them with the points they keep: at most
ten, at distances of at least 0.1 of each other, of those which the cell has got since it came into use, a point left out being one for which the cell was full or which came too close. Row `i` of the
points, the normals and the covariances belong to one and the same inserted point, moved by the transformation it was inserted with. -/
theorem C93_flat (normals covs : Bool) (leaf : ℝ) (calls : List MapCall) (hc : ∀ c T, MapCall.insert c T ∈ calls → Complete normals covs c) (hu : Usable leaf (insertions 100 10 calls)) :
    ∃ m, mapCalls (flatClass normals covs) (VoxelMap.new leaf) calls = .ok m ∧ ∃ kept : List (Coord × List (Sample ℝ)),
      (kept.map Prod.fst).Nodup ∧ (∀ cell, cell ∈ kept.map Prod.fst ↔ ∃ l, LastUse leaf (insertions 100 10 calls) cell l) ∧
      (∀ e ∈ kept, ∃ b L, Gathered leaf (insertions 100 10 calls) e.1 b L ∧ e.2.Sublist L ∧ e.2 ≠ [] ∧ e.2.length ≤ 10 ∧ e.2.Pairwise (fun x y => 1 / 100 ≤ sqd x.1 y.1) ∧
        ∀ x ∈ L, x.1 ∉ e.2.map Prod.fst → e.2.length = 10 ∨ ∃ y ∈ e.2, sqd y.1 x.1 < 1 / 100) ∧
      mapSize m = kept.length ∧
      (kept ≠ [] →
        (∃ a, voxelPointsArray (flatClass normals covs).contents m = .ok a ∧ IsRows a ((kept.flatMap Prod.snd).map (fun x => x.1))) ∧
        (normals = true → ∃ a, voxelNormalsArray (flatClass normals covs) m = .ok a ∧ IsRows a ((kept.flatMap Prod.snd).map (fun x => mulPt x.2.2 x.2.1.normal))) ∧
        (covs = true → ∃ a, voxelCovsArray (flatClass normals covs) m = .ok a ∧ IsCovRows a ((kept.flatMap Prod.snd).map (fun x => x.2.2 * x.2.1.cov * x.2.2.transpose)))) := by
  have hR : RelOK (flatClass normals covs).contents sampleContents (1 / leaf) (fun cell v L => FlatOK (flatDefault normals covs) (1 / leaf) cell v L ∧ L ≠ []) := by
    have h := flat_relOK (flatDefault normals covs) (1 / leaf)
    exact ⟨fun c tp s T hc => ⟨h.fresh c tp s T hc, by simp [sampleContents]⟩, fun c v w tp s T hc hv => ⟨h.add c v w tp s T hc hv.1, by simp [sampleContents]⟩,
      fun c v w hv => ⟨h.fin c v w hv.1, hv.2⟩⟩
  obtain ⟨m, h1, h2, h3, h4⟩ := map_voxels (flat_law normals covs) leaf hR calls hc hu
  obtain ⟨kept, hk⟩ := exists_forall₂ (fun (e : Info × FlatVoxel ℝ) (q : Coord × List (Sample ℝ)) => q.1 = e.1.coord ∧ e.2.points = q.2.map (fun x => x.1) ∧
      (normals = true → e.2.normals = q.2.map (fun x => mulPt x.2.2 x.2.1.normal)) ∧ (covs = true → e.2.covs = q.2.map (fun x => x.2.2 * x.2.1.cov * x.2.2.transpose)) ∧
      ∃ b L, Gathered leaf (insertions 100 10 calls) q.1 b L ∧ q.2.Sublist L ∧ FlatOK (flatDefault normals covs) (1 / leaf) e.1.coord e.2 L ∧ L ≠ []) m.flat (by
    intro e he
    obtain ⟨b, L, g1, g2, _⟩ := h4 e he
    obtain ⟨L', k1, k2, k3, k4⟩ := g2.1.kept
    exact ⟨(e.1.coord, L'), rfl, k2, k3, k4, b, L, g1, k1, g2⟩)
  have hcoords : coords m.flat = kept.map Prod.fst := forall₂_map_eq _ _ (fun a b h => h.1.symm) hk
  have hne : ∀ e ∈ kept, e.2 ≠ [] := by
    intro q hq
    obtain ⟨e, _, _, g2, _, _, b, L, _, _, g6, g7⟩ := forall₂_mem_right hk q hq
    intro h0
    rw [h0, List.map_nil] at g2
    obtain ⟨x, hx⟩ := List.exists_mem_of_ne_nil L g7
    rcases g6.rejected x hx with h | h | ⟨p, h, _⟩
    · rw [g2] at h; cases h
    · rw [g2] at h; simp [flatDefault] at h
    · rw [g2] at h; cases h
  have hrows : ∀ {γ : Type} (f : FlatVoxel ℝ → List γ) (g : Sample ℝ → γ) (_ : ∀ e q, (e.2.points = q.2.map (fun x => x.1) ∧
      (normals = true → e.2.normals = q.2.map (fun x => mulPt x.2.2 x.2.1.normal)) ∧ (covs = true → e.2.covs = q.2.map (fun x => x.2.2 * x.2.1.cov * x.2.2.transpose)) : Prop) →
      f (e : Info × FlatVoxel ℝ).2 = (q : Coord × List (Sample ℝ)).2.map g), m.flat.flatMap (fun v => f v.2) = (kept.flatMap Prod.snd).map g := by
    intro γ f g hfg
    rw [List.flatMap_def, forall₂_map_eq (fun v : Info × FlatVoxel ℝ => f v.2) (fun q => q.2.map g) (fun e q h => hfg e q ⟨h.2.1, h.2.2.1, h.2.2.2.1⟩) hk]
    rw [← List.flatMap_def, List.map_flatMap]
  have hlen : ∀ e ∈ m.flat, (normals = true → e.2.normals.length = e.2.points.length) ∧ (covs = true → e.2.covs.length = e.2.points.length) := by
    intro e he
    obtain ⟨b, L, _, g2, _⟩ := h4 e he
    obtain ⟨L', _, k2, k3, k4⟩ := g2.1.kept
    exact ⟨fun h => by rw [k2, k3 h]; simp, fun h => by rw [k2, k4 h]; simp⟩
  have hfm : kept ≠ [] → ∀ {γ : Type} (g : Sample ℝ → γ), (kept.flatMap Prod.snd).map g ≠ [] := by
    intro hk0 γ g h0
    obtain ⟨q, hq⟩ := List.exists_mem_of_ne_nil kept hk0
    rw [List.map_eq_nil_iff, List.flatMap_eq_nil_iff] at h0
    exact hne q hq (h0 q hq)
  refine ⟨m, h1, kept, hcoords ▸ h2, fun cell => by rw [← hcoords]; exact h3 cell, ?_, hk.length_eq, ?_⟩
  · intro q hq
    obtain ⟨e, he, g1, g2, g3, g4, b, L, g5, g6, g7, g8⟩ := forall₂_mem_right hk q hq
    refine ⟨b, L, g5, g6, hne q hq, ?_, ?_, ?_⟩
    · have := g7.capacity
      rw [g2, List.length_map] at this
      exact this
    · have := g7.spacing
      rw [g2, List.pairwise_map] at this
      refine this.imp (fun h => ?_)
      simp only [flatDefault] at h
      linarith
    · intro x hx hn
      rcases g7.rejected x hx with h | h | ⟨p, h, hp⟩
      · rw [g2] at h
        exact absurd h hn
      · left
        rw [g2, List.length_map] at h
        exact h
      · right
        rw [g2] at h
        obtain ⟨y, hy, rfl⟩ := List.mem_map.1 h
        refine ⟨y, hy, ?_⟩
        simp only [flatDefault] at hp
        linarith
  · intro hk0
    refine ⟨?_, ?_, ?_⟩
    · refine (pointsArray_of _ m (ps := (kept.flatMap Prod.snd).map (fun x => x.1)) ?_).1 (hfm hk0 _)
      rw [← hrows FlatVoxel.points (fun x => x.1) (fun e q h => h.1)]
      exact mapM_flatten _ (fun v : Info × FlatVoxel ℝ => v.2.points) _ (fun e _ => mapM_rd e.2.points)
    · intro hn
      refine (normalsArray_of (flatClass normals covs) hn m (ps := (kept.flatMap Prod.snd).map (fun x => mulPt x.2.2 x.2.1.normal)) ?_).1 (hfm hk0 _)
      rw [← hrows FlatVoxel.normals _ (fun e q h => h.2.1 hn)]
      refine mapM_flatten _ (fun v : Info × FlatVoxel ℝ => v.2.normals) _ (fun e he => ?_)
      have : (flatClass normals covs).contents.size e.2 = e.2.normals.length := ((hlen e he).1 hn).symm
      rw [this]
      exact mapM_rd e.2.normals
    · intro hn
      refine (covsArray_of (flatClass normals covs) hn m (Cs := (kept.flatMap Prod.snd).map (fun x => x.2.2 * x.2.1.cov * x.2.2.transpose)) ?_).1 (hfm hk0 _)
      rw [← hrows FlatVoxel.covs _ (fun e q h => h.2.2 hn)]
      refine mapM_flatten _ (fun v : Info × FlatVoxel ℝ => v.2.covs) _ (fun e he => ?_)
      have : (flatClass normals covs).contents.size e.2 = e.2.covs.length := ((hlen e he).2 hn).symm
      rw [this]
      exact mapM_rd e.2.covs

/-- C93, `GaussianVoxelMap`. After any calls of `insert` and `set_lru` there is one row for each cell in use: the averages of the points, and of the covariances, which the cell has got since it
came into use. -/
theorem C93_gaussian (leaf : ℝ) (calls : List MapCall) (hc : ∀ c T, MapCall.insert c T ∈ calls → Complete false true c) (hu : Usable leaf (insertions 100 10 calls)) :
    ∃ m, mapCalls gaussianClass (VoxelMap.new leaf) calls = .ok m ∧ ∃ kept : List (Coord × List (Sample ℝ)),
      (kept.map Prod.fst).Nodup ∧ (∀ cell, cell ∈ kept.map Prod.fst ↔ ∃ l, LastUse leaf (insertions 100 10 calls) cell l) ∧
      (∀ e ∈ kept, e.2 ≠ [] ∧ ∃ b, Gathered leaf (insertions 100 10 calls) e.1 b e.2) ∧ mapSize m = kept.length ∧
      (kept ≠ [] →
        (∃ a, voxelPointsArray gaussianClass.contents m = .ok a ∧ IsRows a (kept.map (fun e => avgPt e.2))) ∧
        (∃ a, voxelCovsArray gaussianClass m = .ok a ∧ IsCovRows a (kept.map (fun e => avgCov e.2)))) := by
  obtain ⟨m, h1, h2, h3, h4⟩ := map_voxels gaussian_law leaf (gauss_relOK (1 / leaf)) calls hc hu
  obtain ⟨kept, hk⟩ := exists_forall₂ (fun (e : Info × GaussianVoxel ℝ) (q : Coord × List (Sample ℝ)) => q.1 = e.1.coord ∧ q.2 ≠ [] ∧ e.2.mean = avgPt q.2 ∧ e.2.cov = avgCov q.2 ∧
      ∃ b, Gathered leaf (insertions 100 10 calls) q.1 b q.2) m.flat (by
    intro e he
    obtain ⟨b, L, g1, g2, v, hv⟩ := h4 e he
    have hf : e.2.finalized = true := by
      rw [hv]
      show v.finalize.finalized = true
      unfold GaussianVoxel.finalize
      split
      · assumption
      · rfl
    have hm := g2.1.mean
    have hcv := g2.1.cov
    rw [if_pos hf] at hm hcv
    exact ⟨(e.1.coord, L), rfl, g2.2, hm, hcv, b, g1⟩)
  have hcoords : coords m.flat = kept.map Prod.fst := forall₂_map_eq _ _ (fun a b h => h.1.symm) hk
  refine ⟨m, h1, kept, hcoords ▸ h2, fun cell => by rw [← hcoords]; exact h3 cell, ?_, hk.length_eq, ?_⟩
  · intro q hq
    obtain ⟨e, _, _, g2, _, _, g5⟩ := forall₂_mem_right hk q hq
    exact ⟨g2, g5⟩
  · intro hk0
    constructor
    · refine (pointsArray_of _ m (ps := kept.map (fun e => avgPt e.2)) ?_).1 (by simpa using hk0)
      rw [← forall₂_map_eq (fun v : Info × GaussianVoxel ℝ => v.2.mean) (fun q => avgPt q.2) (fun e q h => h.2.2.1) hk]
      exact voxelPoints_gaussian m
    · refine (covsArray_of gaussianClass rfl m (Cs := kept.map (fun e => avgCov e.2)) ?_).1 (by simpa using hk0)
      rw [← forall₂_map_eq (fun v : Info × GaussianVoxel ℝ => v.2.cov) (fun q => avgCov q.2) (fun e q h => h.2.2.2.1) hk]
      rw [← List.flatMap_pure_eq_map]
      exact mapM_flatten _ (fun v : Info × GaussianVoxel ℝ => [v.2.cov]) _ (fun e _ => rfl)

/-- C93. If the inserted covariances are symmetric, so are the rows, and reading a row by rows of four gives the matrix (as `reshape(4, 4)` of numpy does); otherwise its transpose. -/
theorem C93_reshape {a : NumpyArray} {Cs : List (Mat4 ℝ)} (h : IsCovRows a Cs) :
    (∀ i C, Cs[i]? = some C → ∀ r c : Fin 4, a.entry i (4 * r.val + c.val) = C.transpose r c) ∧
    ((∀ C ∈ Cs, C.transpose = C) → ∀ i C, Cs[i]? = some C → ∀ r c : Fin 4, a.entry i (4 * r.val + c.val) = C r c) := by
  have h1 : ∀ i C, Cs[i]? = some C → ∀ r c : Fin 4, a.entry i (4 * r.val + c.val) = C.transpose r c := fun i C hC r c => h.2.2 i C hC c r
  refine ⟨h1, fun hs i C hC r c => ?_⟩
  rw [h1 i C hC, hs C (List.mem_of_getElem? hC)]

/-- C93. Averages and transforms of symmetric covariances are symmetric. -/
theorem C93_symmetric (L : List (Sample ℝ)) (hs : ∀ x ∈ L, x.2.1.cov.transpose = x.2.1.cov) :
    (∀ x ∈ L, (x.2.2 * x.2.1.cov * x.2.2.transpose).transpose = x.2.2 * x.2.1.cov * x.2.2.transpose) ∧ (avgCov L).transpose = avgCov L := by
  have h1 : ∀ x ∈ L, (x.2.2 * x.2.1.cov * x.2.2.transpose).transpose = x.2.2 * x.2.1.cov * x.2.2.transpose := by
    intro x hx
    rw [Matrix.transpose_mul, Matrix.transpose_mul, Matrix.transpose_transpose, hs x hx, Matrix.mul_assoc]
  refine ⟨h1, ?_⟩
  unfold avgCov
  rw [Matrix.transpose_smul, Matrix.transpose_list_sum, List.map_map]
  congr 2
  exact List.map_congr_left h1

/-- C93. The insertion that the scan-to-model odometry of C72 uses is the one of the class. -/
theorem C93_scan_to_model (m : VoxelMap ℝ (GaussianVoxel ℝ)) {c : RCloud} (hc : Complete false true c) (T : Pose ℝ) : mapInsert gaussianClass m c T = insertCloud m c T := by
  rw [mapInsert_eq gaussian_law m hc T]
  unfold insertCloud Pipeline.voxelSource
  rw [mapM_ok _ (fun i => (⟨toPt ((c.points[i]?.join).getD 0), ⟨0, 0, 0, 0⟩, (c.covs[i]?.join).getD 0⟩ : SrcPt ℝ)) (List.range c.size) (by
    intro i hi
    obtain ⟨⟨p, hp⟩, _, hC⟩ := hc i (List.mem_range.1 hi)
    obtain ⟨C, hC⟩ := hC rfl
    simp only [Cloud.point, Cloud.cov, getSlot_ok hp, getSlot_ok hC, hp, hC]
    rfl), ok_bind]
  unfold Voxel.insert attributed
  have key : ∀ (l : List Nat) (m : VoxelMap ℝ (GaussianVoxel ℝ)),
      insertLoop gaussianContents T.matrix m (l.map (fun i => (⟨toPt ((c.points[i]?.join).getD 0), toPt ((c.normals[i]?.join).getD 0), (c.covs[i]?.join).getD 0⟩ : SrcPt ℝ))) =
      insertLoop gaussianContents T.matrix m (l.map (fun i => (⟨toPt ((c.points[i]?.join).getD 0), ⟨0, 0, 0, 0⟩, (c.covs[i]?.join).getD 0⟩ : SrcPt ℝ))) := by
    intro l
    induction l with
    | nil => intro m; rfl
    | cons i l ih =>
      intro m
      rw [List.map_cons, List.map_cons]
      unfold insertLoop
      congr 1
      funext m'
      exact ih m'
  show (insertLoop gaussianContents T.matrix m _ >>= _) = _
  rw [key]
  rfl

/-- C93, violated: on a map without voxels each of the three accessors reads element 0 of an empty vector. -/
theorem C93_empty_violated {V : Type} (k : VoxelClass V) (m : VoxelMap ℝ V) (h : mapSize m = 0) :
    voxelPointsArray k.contents m = .error .oob ∧ (k.hasNormals = true → voxelNormalsArray k m = .error .oob) ∧ (k.hasCovs = true → voxelCovsArray k m = .error .oob) := by
  have hf : m.flat = [] := List.length_eq_zero_iff.1 h
  refine ⟨(pointsArray_of k.contents m (ps := []) ?_).2 rfl, fun hn => (normalsArray_of k hn m (ps := []) ?_).2 rfl, fun hn => (covsArray_of k hn m (Cs := []) ?_).2 rfl⟩
  · unfold voxelPoints; rw [hf]; rfl
  · unfold voxelNormals; rw [hf]; rfl
  · unfold voxelCovs; rw [hf]; rfl

/-- C93, violated: a cloud made of an array has neither normals nor covariances; inserting it into any class other than `IncrementalVoxelMap` reads memory that was never set. -/
theorem C93_unset_violated {a : NumpyArray} (ha : PointArray a) (h0 : 0 < a.rows) (leaf : ℝ) (T : Pose ℝ) (calls : List MapCall) :
    ∃ c p, pointCloud a = .ok c ∧ RowIs a 0 p ∧ (CellDefined (1 / leaf) (mulPt T.matrix p) →
      (∀ normals covs, (normals || covs) = true → mapCalls (flatClass normals covs) (VoxelMap.new leaf) (.insert c T :: calls) = .error .uninit) ∧
      mapCalls gaussianClass (VoxelMap.new leaf) (.insert c T :: calls) = .error .uninit) := by
  obtain ⟨c, h1, h2, h3⟩ := (C70_constructor a).1 ha
  obtain ⟨⟨p, hp, hrow⟩, hn, hC⟩ := h3 0 h0
  refine ⟨c, p, h1, hrow, fun hd => ?_⟩
  have hr : List.range c.size = 0 :: (List.range (a.rows - 1)).map Nat.succ := by
    rw [h2]
    obtain ⟨n, hn⟩ : ∃ n, a.rows = n + 1 := ⟨a.rows - 1, by omega⟩
    rw [hn, List.range_succ_eq_map]
    rfl
  have hpt : toPt ![p.x, p.y, p.z, p.w] = p := rfl
  have key : ∀ {V : Type} (k : VoxelClass V), (∀ tp, k.addFrom k.contents.fresh tp c 0 T.matrix = .error .uninit) → mapCalls k (VoxelMap.new leaf) (.insert c T :: calls) = .error .uninit := by
    intro V k hk
    unfold mapCalls mapInsert
    rw [hr, List.foldlM_cons]
    have : insertPoint k T.matrix c (VoxelMap.new leaf) 0 = .error .uninit := by
      unfold insertPoint
      rw [hp, ok_bind, hpt]
      simp only
      rw [coordOf_eq (invLeaf := (VoxelMap.new leaf : VoxelMap ℝ V).invLeaf) hd, ok_bind]
      simp only [VoxelMap.new, find, List.lookup_nil, List.nil_append, List.length_nil]
      rw [rd_of_getElem? (l := [((⟨0, cellOf (1 / leaf) (mulPt T.matrix p)⟩ : Info), k.contents.fresh)]) (i := 0) rfl, ok_bind]
      simp only [hk]
      rfl
    rw [this]
    rfl
  constructor
  · intro n cv hnc
    apply key
    intro tp
    show flatAddFrom (flatDefault n cv) ⟨[], [], []⟩ tp c 0 T.matrix = _
    unfold flatAddFrom
    rw [if_neg (by simp [flatDefault])]
    cases n <;> cases cv
    · cases hnc
    · simp only [flatDefault, hC]; rfl
    · simp only [flatDefault, hn]; rfl
    · simp only [flatDefault, hn]; rfl
  · apply key
    intro tp
    show gaussianAddFrom _ tp c 0 T.matrix = _
    unfold gaussianAddFrom
    simp only [hC]
    rfl

/-! ### Cases that meet the hypotheses -/

/-- One point with normal and covariance. -/
noncomputable def onePoint : RCloud := ⟨[some ![1 / 2, 1 / 2, 1 / 2, 1]], [some ![0, 0, 1, 0]], [some 1]⟩

/-- A point is inserted, the setting changed, and two empty clouds inserted. -/
noncomputable def threeInsertions : List MapCall := [.insert onePoint Pose.one, .setLru 1 1, .insert Cloud.empty Pose.one, .insert Cloud.empty Pose.one]

theorem onePoint_complete (n c : Bool) : Complete n c onePoint := by
  intro i hi
  have : i = 0 := by simpa [onePoint, Cloud.size] using hi
  subst this
  exact ⟨⟨_, rfl⟩, fun _ => ⟨_, rfl⟩, fun _ => ⟨_, rfl⟩⟩

theorem threeInsertions_complete (n c : Bool) : ∀ cl T, MapCall.insert cl T ∈ threeInsertions → Complete n c cl := by
  intro cl T h
  simp only [threeInsertions, List.mem_cons, MapCall.insert.injEq, reduceCtorEq, List.not_mem_nil, or_false, false_or] at h
  rcases h with ⟨rfl, _⟩ | ⟨rfl, _⟩ | ⟨rfl, _⟩
  · exact onePoint_complete n c
  · intro i hi; exact absurd hi (by simp [Cloud.empty, Cloud.size])
  · intro i hi; exact absurd hi (by simp [Cloud.empty, Cloud.size])

theorem onePoint_attributed : attributed onePoint = [⟨⟨1 / 2, 1 / 2, 1 / 2, 1⟩, ⟨0, 0, 1, 0⟩, 1⟩] := rfl

theorem onePoint_moved : mulPt (Pose.one : Pose ℝ).matrix ⟨1 / 2, 1 / 2, 1 / 2, 1⟩ = ⟨1 / 2, 1 / 2, 1 / 2, 1⟩ := by
  have : (Pose.one : Pose ℝ).matrix = 1 := by
    ext i j
    fin_cases i <;> fin_cases j <;> simp [Pose.matrix, Pose.one, Matrix.one_apply]
  rw [this, mulPt_one]

theorem half_floor : ⌊(1 / 2 : ℝ) * (1 / 1)⌋ = 0 := by norm_num

theorem threeInsertions_usable : Usable 1 (insertions 100 10 threeInsertions) := by
  have hempty : attributed Cloud.empty = [] := rfl
  intro j e he
  match j with
  | 0 =>
    cases he
    refine ⟨by norm_num, by norm_num, ?_⟩
    intro s hs
    rw [onePoint_attributed, List.mem_singleton] at hs
    subst hs
    rw [onePoint_moved]
    simp only [CellDefined, half_floor]
    norm_num [INT_MIN, INT_MAX]
  | 1 =>
    cases he
    refine ⟨by norm_num, by norm_num, ?_⟩
    intro s hs
    rw [hempty] at hs
    cases hs
  | 2 =>
    cases he
    refine ⟨by norm_num, by norm_num, ?_⟩
    intro s hs
    rw [hempty] at hs
    cases hs
  | j + 3 => cases he

/-- The hypotheses hold of these calls; the cell is forgotten at the third insertion because of the new setting, so that the map is empty and its accessors are undefined. -/
example : ∃ m, mapCalls (flatClass true true) (VoxelMap.new 1) threeInsertions = .ok m ∧ mapSize m = 0 ∧ voxelPointsArray (flatClass true true).contents m = .error .oob := by
  obtain ⟨m, h1, kept, _, h3, _, h5, _⟩ := C93_flat true true 1 threeInsertions (threeInsertions_complete true true) threeInsertions_usable
  have hk : kept = [] := by
    cases hkk : kept with
    | nil => rfl
    | cons q rest =>
      rw [hkk] at h3
      obtain ⟨l, h⟩ := (h3 q.1).1 (by simp)
      have hl := lastUse_lt h
      obtain ⟨⟨e, he, hh⟩, _, h6⟩ := h
      have hl0 : l = 0 := by
        match l with
        | 0 => rfl
        | 1 => cases he; exact absurd rfl hh
        | 2 => cases he; exact absurd rfl hh
        | l + 3 => cases he
      subst hl0
      have := h6 2 _ (by omega) rfl (by simp)
      simp at this
  rw [hk] at h5
  exact ⟨m, h1, h5, (C93_empty_violated (flatClass true true) m h5).1⟩

/-- After the first insertion the map has one voxel, whose row is the point. -/
example : ∃ m a, mapCalls gaussianClass (VoxelMap.new 1) [.insert onePoint Pose.one] = .ok m ∧ mapSize m = 1 ∧ voxelPointsArray gaussianClass.contents m = .ok a ∧ a.rows = 1 ∧ a.cols = 4 := by
  obtain ⟨m, h1, kept, h2, h3, h4, h5, h6⟩ := C93_gaussian 1 [.insert onePoint Pose.one] (by
      intro c T h
      rw [List.mem_singleton, MapCall.insert.injEq] at h
      rw [h.1]
      exact onePoint_complete _ _) (by
      intro j e he
      match j with
      | 0 => exact threeInsertions_usable 0 e he
      | j + 1 => cases he)
  have hhit : ∀ cell, Insertion.hits 1 cell ⟨100, 10, attributed onePoint, (Pose.one : Pose ℝ).matrix⟩ ≠ [] ↔ cell = (0, 0, 0) := by
    intro cell
    rw [hits_ne]
    constructor
    · rintro ⟨s, hs, h⟩
      rw [onePoint_attributed, List.mem_singleton] at hs
      subst hs
      rw [onePoint_moved] at h
      simp only [cellOf, half_floor] at h
      exact h.symm
    · rintro rfl
      refine ⟨_, by rw [onePoint_attributed]; exact List.mem_singleton_self _, ?_⟩
      rw [onePoint_moved]
      simp only [cellOf, half_floor]
  have huse : ∀ cell, (∃ l, LastUse 1 (insertions 100 10 [.insert onePoint Pose.one]) cell l) ↔ cell = (0, 0, 0) := by
    intro cell
    constructor
    · rintro ⟨l, ⟨⟨e, he, hh⟩, _⟩⟩
      match l with
      | 0 => cases he; exact (hhit cell).1 hh
      | l + 1 => cases he
    · rintro rfl
      refine ⟨0, ⟨_, rfl, (hhit _).2 rfl⟩, ?_, ?_⟩
      · intro j e hj he
        match j with
        | 0 => omega
        | j + 1 => cases he
      · intro j e hj he hd
        match j with
        | 0 => cases he; simp at hd
        | j + 1 => cases he
  have hkeys : kept.map Prod.fst = [(0, 0, 0)] := by
    refine List.perm_singleton.1 ((List.perm_ext_iff_of_nodup h2 (List.nodup_singleton _)).2 (fun cell => ?_))
    rw [h3, huse, List.mem_singleton]
  have hlen : kept.length = 1 := by rw [← List.length_map (f := Prod.fst), hkeys]; rfl
  obtain ⟨⟨a, ha, hr⟩, _⟩ := h6 (by intro h; rw [h] at hlen; cases hlen)
  exact ⟨m, a, h1, by rw [h5, hlen], ha, by rw [hr.1, List.length_map, hlen], hr.2.1⟩

end Verif.Props
