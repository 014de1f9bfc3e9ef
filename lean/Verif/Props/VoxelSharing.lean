import Verif.Model.VoxelHeap
import Mathlib.Data.List.Forall2
import Mathlib.Data.Rat.Floor
import Mathlib.Tactic.Linarith

/-!
C83: voxel maps in memory. Maps that share no voxels behave as the independent values of `Model/VoxelMap.lean`; a copy of a map shares the voxels of the original.
-/

set_option linter.unusedSectionVars false
set_option linter.unusedSimpArgs false
set_option linter.unnecessarySeqFocus false

namespace Verif.Spec

open Verif Verif.Voxel

variable {K : Type} [Field K] [LinearOrder K] [FloorRing K] {V : Type}

/-- The object `o` in the memory `h` stands for the map `m`: same members, and the `i`-th pointer leads to the `i`-th voxel. No two pointers are equal. -/
structure StandsFor (h : List (Info × V)) (o : VoxelHeap.Obj K) (m : VoxelMap K V) : Prop where
  invLeaf : o.invLeaf = m.invLeaf
  lruHorizon : o.lruHorizon = m.lruHorizon
  lruClearCycle : o.lruClearCycle = m.lruClearCycle
  lruCounter : o.lruCounter = m.lruCounter
  offsets : o.offsets = m.offsets
  table : o.table = m.table
  cells : List.Forall₂ (fun a x => h[a]? = some x) o.flat m.flat
  distinct : o.flat.Nodup

/-- What a user of value semantics expects of a variable holding a map: its value, or nothing once another variable that came from the same construction by copying has been changed.
The number names the construction. -/
abbrev MapVar (K V : Type) := Nat × Option (VoxelMap K V)

/-- Operations on variables. Inserting into a variable gives up what is known of all others of the same construction. -/
def varStep (c : Contents K V) (vs : List (MapVar K V)) : VoxelHeap.Op K → Res (List (MapVar K V))
  | .construct leafSize => .ok (vs ++ [(vs.length, some (VoxelMap.new leafSize))])
  | .copy i => match vs[i]? with
    | some v => .ok (vs ++ [v])
    | none => .error .oob
  | .insert i points T => match vs[i]? with
    | some (n, some m) => match Voxel.insert c m points T with
      | .ok m => .ok ((vs.map fun v => if v.1 = n then (v.1, none) else v).set i (n, some m))
      | .error f => .error f
    | some (n, none) => .ok (vs.map fun v => if v.1 = n then (v.1, none) else v)
    | none => .error .oob

/-- The same, every variable having a value of its own. -/
def valueStep (c : Contents K V) (ms : List (VoxelMap K V)) : VoxelHeap.Op K → Res (List (VoxelMap K V))
  | .construct leafSize => .ok (ms ++ [VoxelMap.new leafSize])
  | .copy i => match ms[i]? with
    | some m => .ok (ms ++ [m])
    | none => .error .oob
  | .insert i points T => match ms[i]? with
    | some m => match Voxel.insert c m points T with
      | .ok m => .ok (ms.set i m)
      | .error f => .error f
    | none => .error .oob

end Verif.Spec

namespace Verif.Props

open Verif Verif.Knn Verif.Voxel Verif.Spec

variable {K : Type} [Field K] [LinearOrder K] [FloorRing K] {V : Type}

theorem share_rd {α : Type} {l : List α} {i : Nat} {x : α} (h : l[i]? = some x) : rd l i = .ok x := by
  simp [rd, h]

theorem share_wr {α : Type} {l : List α} {i : Nat} {x : α} (y : α) (h : l[i]? = some x) : wr l i y = .ok (l.set i y) := by
  obtain ⟨hi, -⟩ := List.getElem?_eq_some_iff.1 h
  simp [wr, hi]

theorem share_rd_none {α : Type} {l : List α} {i : Nat} (h : l[i]? = none) : rd l i = .error .oob := by
  simp [rd, h]

theorem share_get {h : List (Info × V)} {as : List Nat} {xs : List (Info × V)} (hf : List.Forall₂ (fun a x => h[a]? = some x) as xs) (i : Nat) :
    (as[i]? = none ∧ xs[i]? = none) ∨ ∃ a x, as[i]? = some a ∧ xs[i]? = some x ∧ h[a]? = some x := by
  induction hf generalizing i with
  | nil => left; simp
  | @cons a x as xs h1 _ ih =>
    cases i with
    | zero => right; exact ⟨a, x, by simp, by simp, h1⟩
    | succ i => simpa using ih i

theorem share_set {h : List (Info × V)} {as : List Nat} {xs : List (Info × V)} (hf : List.Forall₂ (fun a x => h[a]? = some x) as xs) (nd : as.Nodup)
    {i b : Nat} (hb : as[i]? = some b) (y : Info × V) : List.Forall₂ (fun a x => (h.set b y)[a]? = some x) as (xs.set i y) := by
  induction hf generalizing i with
  | nil => simp at hb
  | @cons a x as xs h1 h2 ih =>
    obtain ⟨n1, n2⟩ := List.nodup_cons.1 nd
    cases i with
    | zero =>
      simp only [List.getElem?_cons_zero, Option.some.injEq] at hb
      subst hb
      refine List.Forall₂.cons ?_ ?_
      · obtain ⟨hi, -⟩ := List.getElem?_eq_some_iff.1 h1
        simp [hi]
      · clear ih
        induction h2 with
        | nil => exact .nil
        | @cons a' x' as xs h1' h2' ih' =>
          simp only [List.mem_cons, not_or] at n1
          refine .cons ?_ (ih' ?_ n1.2 (List.nodup_cons.1 n2).2)
          · rw [List.getElem?_set_ne (by exact n1.1)]; exact h1'
          · exact List.nodup_cons.2 ⟨n1.2, (List.nodup_cons.1 n2).2⟩
    | succ i =>
      simp only [List.getElem?_cons_succ] at hb
      refine .cons ?_ (ih n2 hb)
      have : b ∈ as := List.mem_of_getElem? hb
      rw [List.getElem?_set_ne (by rintro rfl; exact n1 this)]; exact h1

theorem share_mono {h h' : List (Info × V)} {as : List Nat} {xs : List (Info × V)} (hf : List.Forall₂ (fun a x => h[a]? = some x) as xs)
    (hh : ∀ a ∈ as, h'[a]? = h[a]?) : List.Forall₂ (fun a x => h'[a]? = some x) as xs := by
  induction hf with
  | nil => exact .nil
  | @cons a x as xs h1 h2 ih => exact .cons ((hh a (by simp)).trans h1) (ih fun b hb => hh b (by simp [hb]))

theorem share_lt {h : List (Info × V)} {as : List Nat} {xs : List (Info × V)} (hf : List.Forall₂ (fun a x => h[a]? = some x) as xs) :
    ∀ a ∈ as, a < h.length := by
  induction hf with
  | nil => simp
  | @cons a x as xs h1 h2 ih =>
    intro b hb
    rcases List.mem_cons.1 hb with rfl | hb
    · exact (List.getElem?_eq_some_iff.1 h1).1
    · exact ih b hb

/-- Both computations fail alike, or both succeed with related results. -/
def Alike {α β : Type} (R : α → β → Prop) (x : Res α) (y : Res β) : Prop :=
  match x, y with
  | .ok a, .ok b => R a b
  | .error f, .error g => f = g
  | _, _ => False

theorem Alike.bind {α β γ δ : Type} {R : α → β → Prop} {S : γ → δ → Prop} {x : Res α} {y : Res β} {f : α → Res γ} {g : β → Res δ}
    (h : Alike R x y) (hf : ∀ a b, x = .ok a → y = .ok b → R a b → Alike S (f a) (g b)) : Alike S (x >>= f) (y >>= g) := by
  cases x <;> cases y
  · exact h
  · exact h.elim
  · exact h.elim
  · exact hf _ _ rfl rfl h

theorem Alike.refl {α : Type} (x : Res α) : Alike (· = ·) x x := by cases x <;> rfl

/-- Reading through the pointers is reading the voxel. -/
theorem share_read {h : List (Info × V)} {as : List Nat} {xs : List (Info × V)} (hf : List.Forall₂ (fun a x => h[a]? = some x) as xs) (i : Nat) :
    Alike (fun a x => as[i]? = some a ∧ h[a]? = some x ∧ xs[i]? = some x) (rd as i) (rd xs i) := by
  rcases share_get hf i with ⟨h1, h2⟩ | ⟨a, x, h1, h2, h3⟩
  · rw [share_rd_none h1, share_rd_none h2]; rfl
  · rw [share_rd h1, share_rd h2]; exact ⟨h1, h3, h2⟩

theorem share_insertOne (c : Contents K V) (T : Mat4 K) {h : List (Info × V)} {o : VoxelHeap.Obj K} {m : VoxelMap K V} (S : StandsFor h o m) (p : SrcPt K) :
    Alike (fun s m => StandsFor s.1 s.2 m) (VoxelHeap.insertOne c T (h, o) p) (Voxel.insertOne c T m p) := by
  unfold VoxelHeap.insertOne Voxel.insertOne
  rw [S.invLeaf]
  refine (Alike.refl _).bind ?_
  rintro coord _ - - rfl
  have hl : o.flat.length = m.flat.length := S.cells.length_eq
  simp only [S.table]
  cases hfd : find m.table coord with
  | some i =>
    simp only []
    have R := share_read S.cells i
    cases h1 : rd o.flat i <;> cases h2 : rd m.flat i <;> rw [h1, h2] at R
    · exact R
    · exact R.elim
    · exact R.elim
    · rename_i a x
      obtain ⟨R1, R2, R3⟩ := R
      show Alike _ (rd h a >>= _) _
      rw [share_rd R2]
      show Alike _ (wr h a _ >>= _) (wr m.flat i _ >>= _)
      rw [share_wr _ R2, share_wr _ R3]
      refine ⟨S.invLeaf, S.lruHorizon, S.lruClearCycle, S.lruCounter, S.offsets, S.table, ?_, S.distinct⟩
      have := share_set S.cells S.distinct R1 ({ x.1 with lru := m.lruCounter }, c.add x.2 (mulPt T p.pt) p T)
      simpa [S.lruCounter] using this
  | none =>
    simp only []
    have hc : List.Forall₂ (fun a x => (h ++ [((⟨o.lruCounter, coord⟩ : Info), c.fresh)])[a]? = some x) (o.flat ++ [h.length])
        (m.flat ++ [((⟨m.lruCounter, coord⟩ : Info), c.fresh)]) := by
      refine List.rel_append (share_mono S.cells ?_) (.cons ?_ .nil)
      · intro a ha
        rw [List.getElem?_append_left (share_lt S.cells a ha)]
      · simp [S.lruCounter]
    have nd : (o.flat ++ [h.length]).Nodup := by
      refine List.nodup_append'.2 ⟨S.distinct, by simp, ?_⟩
      intro a ha hb
      simp only [List.mem_singleton] at hb
      exact absurd (share_lt S.cells a ha) (by omega)
    rw [hl]
    have R := share_read hc m.flat.length
    have e1 : (o.flat ++ [h.length])[m.flat.length]? = some h.length := by rw [← hl]; simp
    have e2 : (m.flat ++ [((⟨m.lruCounter, coord⟩ : Info), c.fresh)])[m.flat.length]? = some (⟨m.lruCounter, coord⟩, c.fresh) := by simp
    have e3 : (h ++ [((⟨o.lruCounter, coord⟩ : Info), c.fresh)])[h.length]? = some (⟨o.lruCounter, coord⟩, c.fresh) := by simp
    rw [share_rd e1, share_rd e2]
    show Alike _ (rd (h ++ [((⟨o.lruCounter, coord⟩ : Info), c.fresh)]) h.length >>= _) _
    rw [share_rd e3]
    show Alike _ (wr _ _ _ >>= _) (wr _ _ _ >>= _)
    rw [share_wr _ e3, share_wr _ e2]
    refine ⟨S.invLeaf, S.lruHorizon, S.lruClearCycle, S.lruCounter, S.offsets, by simp [S.table, hl], ?_, nd⟩
    have := share_set hc nd e1 (({ lru := m.lruCounter, coord := coord } : Info), c.add c.fresh (mulPt T p.pt) p T)
    simpa [S.lruCounter] using this

theorem share_insertLoop (c : Contents K V) (T : Mat4 K) (ps : List (SrcPt K)) {h : List (Info × V)} {o : VoxelHeap.Obj K} {m : VoxelMap K V} (S : StandsFor h o m) :
    Alike (fun s m => StandsFor s.1 s.2 m) (VoxelHeap.insertLoop c T (h, o) ps) (Voxel.insertLoop c T m ps) := by
  induction ps generalizing h o m with
  | nil => exact S
  | cons p ps ih =>
    refine (share_insertOne c T S p).bind ?_
    rintro ⟨h', o'⟩ m' - - S'
    exact ih S'

theorem share_removeStale {h : List (Info × V)} {as : List Nat} {xs : List (Info × V)} (hf : List.Forall₂ (fun a x => h[a]? = some x) as xs) (horizon counter : Nat) :
    ∃ as', VoxelHeap.removeStale h horizon counter as = .ok as' ∧ as'.Sublist as ∧
      List.Forall₂ (fun a x => h[a]? = some x) as' (xs.filter (fun v => !isStale horizon counter v.1)) := by
  induction hf with
  | nil => exact ⟨[], rfl, by simp, by simp⟩
  | @cons a x as xs h1 h2 ih =>
    obtain ⟨as', e, s, f⟩ := ih
    unfold VoxelHeap.removeStale
    rw [share_rd h1]
    by_cases hs : isStale horizon counter x.1 = true
    · refine ⟨as', ?_, s.cons _, by simpa [hs] using f⟩
      show (VoxelHeap.removeStale h horizon counter as >>= _) = _
      rw [e]; simp [bind, Except.bind, hs]; rfl
    · refine ⟨a :: as', ?_, s.cons_cons _, ?_⟩
      · show (VoxelHeap.removeStale h horizon counter as >>= _) = _
        rw [e]; simp [bind, Except.bind, hs]; rfl
      · simp only [Bool.not_eq_true] at hs
        simp only [List.filter_cons, hs, Bool.not_false, if_true]
        exact .cons h1 f

theorem share_rehash {h : List (Info × V)} {as : List Nat} {xs : List (Info × V)} (hf : List.Forall₂ (fun a x => h[a]? = some x) as xs) (i : Nat) (t : List (Coord × Nat)) :
    VoxelHeap.rehashFrom h i as t = .ok (Voxel.rehashFrom i xs t) := by
  induction hf generalizing i t with
  | nil => rfl
  | @cons a x as xs h1 h2 ih =>
    unfold VoxelHeap.rehashFrom
    rw [share_rd h1]
    exact ih _ _

theorem share_evict {h : List (Info × V)} {o : VoxelHeap.Obj K} {m : VoxelMap K V} (S : StandsFor h o m) :
    Alike (fun o m => StandsFor h o m) (VoxelHeap.evict h o) (Voxel.evict m) := by
  unfold VoxelHeap.evict Voxel.evict
  simp only [S.lruClearCycle, S.lruCounter, S.lruHorizon]
  by_cases h0 : m.lruClearCycle = 0
  · simp [h0, Alike]
  · rw [if_neg h0, if_neg h0]
    by_cases h1 : (m.lruCounter + 1) % 2 ^ 64 % m.lruClearCycle = 0
    · rw [if_pos h1, if_pos h1]
      obtain ⟨as', e, s, f⟩ := share_removeStale S.cells m.lruHorizon ((m.lruCounter + 1) % 2 ^ 64)
      rw [e]
      show Alike _ (VoxelHeap.rehashFrom h 0 as' [] >>= _) _
      rw [share_rehash f]
      exact ⟨S.invLeaf, rfl, rfl, rfl, S.offsets, rfl, f, S.distinct.sublist s⟩
    · rw [if_neg h1, if_neg h1]
      exact ⟨S.invLeaf, rfl, rfl, rfl, S.offsets, S.table, S.cells, S.distinct⟩

theorem share_finalize (c : Contents K V) {h : List (Info × V)} {as : List Nat} {xs : List (Info × V)} (hf : List.Forall₂ (fun a x => h[a]? = some x) as xs) (nd : as.Nodup) :
    ∃ h', VoxelHeap.finalizeAll c h as = .ok h' ∧ List.Forall₂ (fun a x => h'[a]? = some x) as (xs.map fun v => (v.1, c.finalize v.2)) ∧
      ∀ a, a ∉ as → h'[a]? = h[a]? := by
  induction as generalizing h xs with
  | nil => cases hf; exact ⟨h, rfl, .nil, fun _ _ => rfl⟩
  | cons a as ih =>
    cases hf with
    | @cons _ x _ xs h1 h2 =>
      obtain ⟨n1, n2⟩ := List.nodup_cons.1 nd
      have h2' : List.Forall₂ (fun b z => (h.set a (x.1, c.finalize x.2))[b]? = some z) as xs :=
        share_mono h2 fun b hb => List.getElem?_set_ne (by rintro rfl; exact n1 hb)
      obtain ⟨h', e, f, k⟩ := ih h2' n2
      refine ⟨h', ?_, .cons ?_ f, ?_⟩
      · unfold VoxelHeap.finalizeAll
        rw [share_rd h1]
        show (wr h a _ >>= _) = _
        rw [share_wr _ h1]
        exact e
      · rw [k a n1]
        obtain ⟨hi, -⟩ := List.getElem?_eq_some_iff.1 h1
        simp [hi]
      · intro b hb
        simp only [List.mem_cons, not_or] at hb
        rw [k b hb.2, List.getElem?_set_ne (fun e => hb.1 e.symm)]

/-- Insertion through the pointers is insertion into the map. -/
theorem share_insert (c : Contents K V) {h : List (Info × V)} {o : VoxelHeap.Obj K} {m : VoxelMap K V} (S : StandsFor h o m) (ps : List (SrcPt K)) (T : Mat4 K) :
    Alike (fun s m => StandsFor s.1 s.2 m) (VoxelHeap.insert c (h, o) ps T) (Voxel.insert c m ps T) := by
  refine (share_insertLoop c T ps S).bind ?_
  rintro ⟨h1, o1⟩ m1 - - S1
  refine (share_evict S1).bind ?_
  rintro o2 m2 - - S2
  obtain ⟨h', e, f, -⟩ := share_finalize c S2.cells S2.distinct
  show Alike _ (VoxelHeap.finalizeAll c h1 o2.flat >>= _) _
  rw [e]
  exact ⟨S2.invLeaf, S2.lruHorizon, S2.lruClearCycle, S2.lruCounter, S2.offsets, S2.table, f, S2.distinct⟩

theorem share_search (c : Contents K V) (maxD : K) {h : List (Info × V)} {o : VoxelHeap.Obj K} {m : VoxelMap K V} (S : StandsFor h o m) (q : Pt K) (N k : Int)
    (indices : List Nat) (dists : List K) :
    VoxelHeap.search c maxD h o q N k indices dists = Voxel.search c maxD m q N k indices dists := by
  have loop : ∀ center os r, VoxelHeap.searchOffsets c h o q center os r = Voxel.searchOffsets c m q center os r := by
    intro center os
    induction os with
    | nil => intro r; rfl
    | cons x os ih =>
      intro r
      unfold VoxelHeap.searchOffsets Voxel.searchOffsets
      cases addCoord center x with
      | error f => rfl
      | ok coord =>
        show (match find o.table coord with | none => _ | some idx => _) = (match find m.table coord with | none => _ | some idx => _)
        rw [S.table]
        cases find m.table coord with
        | none => exact ih r
        | some idx =>
          show (rd o.flat idx >>= _) = (rd m.flat idx >>= _)
          rcases share_get S.cells idx with ⟨h1, h2⟩ | ⟨a, v, h1, h2, h3⟩
          · rw [share_rd_none h1, share_rd_none h2]; rfl
          · rw [share_rd h1, share_rd h2]
            show (rd h a >>= _) = _
            rw [share_rd h3]
            show (c.search v.2 q (calcIndex idx) r >>= _) = (c.search v.2 q (calcIndex idx) r >>= _)
            cases c.search v.2 q (calcIndex idx) r with
            | error f => rfl
            | ok r' => exact ih r'
  unfold VoxelHeap.search Voxel.search
  rw [S.invLeaf, S.offsets]
  simp only [loop]

/-- What an insertion through the object with the pointers `as` does to the memory `h`: cells only of these pointers are changed, the new pointers are old ones or lead to new cells. -/
def Confined (as : List Nat) (h : List (Info × V)) (as' : List Nat) (h' : List (Info × V)) : Prop :=
  h.length ≤ h'.length ∧ (∀ a, a < h.length → a ∉ as → h'[a]? = h[a]?) ∧ ∀ a ∈ as', a < h'.length ∧ (a ∈ as ∨ h.length ≤ a)

theorem Confined.trans {as as' as'' : List Nat} {h h' h'' : List (Info × V)} (c1 : Confined as h as' h') (c2 : Confined as' h' as'' h'') : Confined as h as'' h'' := by
  refine ⟨c1.1.trans c2.1, fun a ha hn => ?_, fun a ha => ⟨(c2.2.2 a ha).1, ?_⟩⟩
  · rw [c2.2.1 a (by have := c1.1; omega) ?_, c1.2.1 a ha hn]
    intro hm
    rcases (c1.2.2 a hm).2 with h1 | h1
    · exact hn h1
    · omega
  · rcases (c2.2.2 a ha).2 with h1 | h1
    · exact (c1.2.2 a h1).2
    · right; have := c1.1; omega

theorem confined_refl {as : List Nat} {h : List (Info × V)} (hv : ∀ a ∈ as, a < h.length) : Confined as h as h :=
  ⟨le_rfl, fun _ _ _ => rfl, fun a ha => ⟨hv a ha, .inl ha⟩⟩

theorem rd_ok_get {α : Type} {l : List α} {i : Nat} {x : α} (h : rd l i = .ok x) : l[i]? = some x := by
  unfold rd at h
  cases e : l[i]? with
  | none => rw [e] at h; cases h
  | some y => rw [e] at h; injection h with h; rw [h]

theorem res_bind_ok {α β : Type} {x : Res α} {f : α → Res β} {b : β} (h : (x >>= f) = .ok b) : ∃ a, x = .ok a ∧ f a = .ok b := by
  cases x with
  | error e => cases h
  | ok a => exact ⟨a, rfl, h⟩

theorem confined_write {as : List Nat} {h h' : List (Info × V)} {i a : Nat} {y : Info × V} (hv : ∀ a ∈ as, a < h.length) (ha : as[i]? = some a)
    (hw : wr h a y = .ok h') : Confined as h as h' := by
  have hm := List.mem_of_getElem? ha
  have hl := hv a hm
  simp only [wr, hl, if_true] at hw
  injection hw with hw
  subst hw
  refine ⟨by simp, fun b _ hn => List.getElem?_set_ne (by rintro rfl; exact hn hm), fun b hb => ⟨by simpa using hv b hb, .inl hb⟩⟩

theorem confined_insertOne (c : Contents K V) (T : Mat4 K) {h h' : List (Info × V)} {o o' : VoxelHeap.Obj K} (hv : ∀ a ∈ o.flat, a < h.length) {p : SrcPt K}
    (e : VoxelHeap.insertOne c T (h, o) p = .ok (h', o')) : Confined o.flat h o'.flat h' := by
  unfold VoxelHeap.insertOne at e
  obtain ⟨coord, -, e⟩ := res_bind_ok e
  simp only [] at e
  cases hf : find o.table coord with
  | some i =>
    rw [hf] at e
    simp only [] at e
    obtain ⟨a, e1, e⟩ := res_bind_ok e
    obtain ⟨x, e2, e⟩ := res_bind_ok e
    obtain ⟨h1, e3, e⟩ := res_bind_ok e
    injection e with e
    obtain ⟨rfl, rfl⟩ := Prod.mk.inj e
    exact confined_write hv (rd_ok_get e1) e3
  | none =>
    rw [hf] at e
    simp only [] at e
    obtain ⟨a, e1, e⟩ := res_bind_ok e
    obtain ⟨x, e2, e⟩ := res_bind_ok e
    obtain ⟨h1, e3, e⟩ := res_bind_ok e
    injection e with e
    obtain ⟨rfl, rfl⟩ := Prod.mk.inj e
    have grow : Confined o.flat h (o.flat ++ [h.length]) (h ++ [((⟨o.lruCounter, coord⟩ : Info), c.fresh)]) := by
      refine ⟨by simp, fun b hb _ => List.getElem?_append_left hb, fun b hb => ?_⟩
      rcases List.mem_append.1 hb with hb | hb
      · exact ⟨by have := hv b hb; simp; omega, .inl hb⟩
      · simp only [List.mem_singleton] at hb
        subst hb
        exact ⟨by simp, .inr le_rfl⟩
    exact grow.trans (confined_write (fun b hb => (grow.2.2 b hb).1) (rd_ok_get e1) e3)

theorem confined_insertLoop (c : Contents K V) (T : Mat4 K) (ps : List (SrcPt K)) {h h' : List (Info × V)} {o o' : VoxelHeap.Obj K} (hv : ∀ a ∈ o.flat, a < h.length)
    (e : VoxelHeap.insertLoop c T (h, o) ps = .ok (h', o')) : Confined o.flat h o'.flat h' := by
  induction ps generalizing h o with
  | nil =>
    injection e with e
    obtain ⟨rfl, rfl⟩ := Prod.mk.inj e
    exact confined_refl hv
  | cons p ps ih =>
    obtain ⟨⟨h1, o1⟩, e1, e⟩ := res_bind_ok e
    have c1 := confined_insertOne c T hv e1
    exact c1.trans (ih (fun a ha => (c1.2.2 a ha).1) e)

theorem removeStale_sublist (h : List (Info × V)) (horizon counter : Nat) (as : List Nat) {as' : List Nat}
    (e : VoxelHeap.removeStale h horizon counter as = .ok as') : as'.Sublist as := by
  induction as generalizing as' with
  | nil => injection e with e; subst e; simp
  | cons a as ih =>
    obtain ⟨x, -, e⟩ := res_bind_ok e
    obtain ⟨r, e1, e⟩ := res_bind_ok e
    injection e with e
    subst e
    split
    · exact (ih e1).cons _
    · exact (ih e1).cons_cons _

theorem evict_sublist {h : List (Info × V)} {o o' : VoxelHeap.Obj K} (e : VoxelHeap.evict h o = .ok o') : o'.flat.Sublist o.flat := by
  unfold VoxelHeap.evict at e
  simp only [] at e
  split at e
  · cases e
  · split at e
    · obtain ⟨as', e1, e⟩ := res_bind_ok e
      obtain ⟨t, -, e⟩ := res_bind_ok e
      injection e with e
      subst e
      exact removeStale_sublist _ _ _ _ e1
    · injection e with e
      subst e
      exact List.Sublist.refl _

theorem confined_finalize (c : Contents K V) (bs as : List Nat) (hs : ∀ a ∈ as, a ∈ bs) {h h' : List (Info × V)} (hv : ∀ a ∈ bs, a < h.length)
    (e : VoxelHeap.finalizeAll c h as = .ok h') : Confined bs h bs h' := by
  induction as generalizing h with
  | nil => injection e with e; subst e; exact confined_refl hv
  | cons a as ih =>
    obtain ⟨x, -, e⟩ := res_bind_ok e
    obtain ⟨h1, e1, e⟩ := res_bind_ok e
    obtain ⟨i, hi⟩ := List.getElem?_of_mem (hs a (by simp))
    have c1 := confined_write hv hi e1
    exact c1.trans (ih (fun b hb => hs b (by simp [hb])) (fun b hb => (c1.2.2 b hb).1) e)

/-- An insertion, by whichever object, is confined to the voxels this object points to. -/
theorem confined_insert (c : Contents K V) {h h' : List (Info × V)} {o o' : VoxelHeap.Obj K} (hv : ∀ a ∈ o.flat, a < h.length) {ps : List (SrcPt K)} {T : Mat4 K}
    (e : VoxelHeap.insert c (h, o) ps T = .ok (h', o')) : Confined o.flat h o'.flat h' := by
  obtain ⟨⟨h1, o1⟩, e1, e⟩ := res_bind_ok e
  obtain ⟨o2, e2, e⟩ := res_bind_ok e
  obtain ⟨h3, e3, e⟩ := res_bind_ok e
  injection e with e
  obtain ⟨rfl, rfl⟩ := Prod.mk.inj e
  have c1 := confined_insertLoop c T ps hv e1
  have c2 : Confined o1.flat h1 o2.flat h1 :=
    ⟨le_rfl, fun _ _ _ => rfl, fun a ha => ⟨(c1.2.2 a ((evict_sublist e2).subset ha)).1, .inl ((evict_sublist e2).subset ha)⟩⟩
  exact (c1.trans c2).trans (confined_finalize c _ _ (fun _ h => h) (fun a ha => (c2.2.2 a ha).1) e3)

theorem standsFor_frame {h h' : List (Info × V)} {o : VoxelHeap.Obj K} {m : VoxelMap K V} (S : StandsFor h o m) (hh : ∀ a ∈ o.flat, h'[a]? = h[a]?) : StandsFor h' o m :=
  { S with cells := share_mono S.cells hh }

theorem standsFor_new (h : List (Info × V)) (leafSize : K) : StandsFor h (VoxelHeap.Obj.new leafSize) (VoxelMap.new leafSize) :=
  ⟨rfl, rfl, rfl, rfl, rfl, rfl, .nil, List.nodup_nil⟩

/-- Invariant of the memory with several maps, some of them copies. -/
structure MemInv (h : List (Info × V)) (os : List (VoxelHeap.Obj K)) (vs : List (MapVar K V)) : Prop where
  len : os.length = vs.length
  valid : ∀ (j : Nat) (o : VoxelHeap.Obj K), os[j]? = some o → ∀ a ∈ o.flat, a < h.length
  fams : ∀ (j : Nat) (v : MapVar K V), vs[j]? = some v → v.1 < vs.length
  sep : ∀ (i j : Nat) (o o' : VoxelHeap.Obj K) (v v' : MapVar K V), os[i]? = some o → os[j]? = some o' → vs[i]? = some v → vs[j]? = some v' → v.1 ≠ v'.1 → ∀ a ∈ o.flat, a ∉ o'.flat
  good : ∀ (j : Nat) (o : VoxelHeap.Obj K) (n : Nat) (m : VoxelMap K V), os[j]? = some o → vs[j]? = some (n, some m) → StandsFor h o m

theorem getElem?_snoc_some {α : Type} {l : List α} {y x : α} {i : Nat} (h : (l ++ [y])[i]? = some x) : l[i]? = some x ∨ (i = l.length ∧ x = y) := by
  rw [List.getElem?_append] at h
  split at h
  · exact .inl h
  · right
    rw [List.getElem?_singleton] at h
    split at h
    · exact ⟨by omega, by injection h with h; exact h.symm⟩
    · cases h

theorem memInv_construct {h : List (Info × V)} {os : List (VoxelHeap.Obj K)} {vs : List (MapVar K V)} (I : MemInv h os vs) (leafSize : K) :
    MemInv h (os ++ [VoxelHeap.Obj.new leafSize]) (vs ++ [(vs.length, some (VoxelMap.new leafSize))]) := by
  have bound : ∀ {i} {v : MapVar K V}, vs[i]? = some v → i < vs.length := fun hv => (List.getElem?_eq_some_iff.1 hv).1
  have bound' : ∀ {i} {o : VoxelHeap.Obj K}, os[i]? = some o → i < os.length := fun hv => (List.getElem?_eq_some_iff.1 hv).1
  refine ⟨by simp [I.len], ?_, ?_, ?_, ?_⟩
  · intro j o ho
    rcases getElem?_snoc_some ho with ho | ⟨-, rfl⟩
    · exact I.valid j o ho
    · simp [VoxelHeap.Obj.new]
  · intro j v hv
    rcases getElem?_snoc_some hv with hv | ⟨-, rfl⟩
    · have := I.fams j v hv; simp; omega
    · simp
  · intro i j o o' v v' ho ho' hv hv' hne
    rcases getElem?_snoc_some ho with ho | ⟨i1, rfl⟩
    · rcases getElem?_snoc_some ho' with ho' | ⟨j1, rfl⟩
      · rcases getElem?_snoc_some hv with hv | ⟨i2, -⟩
        · rcases getElem?_snoc_some hv' with hv' | ⟨j2, -⟩
          · exact I.sep i j o o' v v' ho ho' hv hv' hne
          · have := bound' ho'; have := I.len; omega
        · have := bound' ho; have := I.len; omega
      · simp [VoxelHeap.Obj.new]
    · simp [VoxelHeap.Obj.new]
  · intro j o n m ho hv
    rcases getElem?_snoc_some ho with ho | ⟨j1, rfl⟩
    · rcases getElem?_snoc_some hv with hv | ⟨j2, -⟩
      · exact I.good j o n m ho hv
      · have := bound' ho; have := I.len; omega
    · rcases getElem?_snoc_some hv with hv | ⟨-, hv⟩
      · have := bound hv; have := I.len; omega
      · obtain ⟨-, hv⟩ := Prod.mk.inj hv
        injection hv with hv
        subst hv
        exact standsFor_new h leafSize

theorem memInv_copy {h : List (Info × V)} {os : List (VoxelHeap.Obj K)} {vs : List (MapVar K V)} (I : MemInv h os vs) {i : Nat} {o : VoxelHeap.Obj K} {v : MapVar K V}
    (ho : os[i]? = some o) (hv : vs[i]? = some v) : MemInv h (os ++ [o]) (vs ++ [v]) := by
  -- every entry of the longer lists is an entry of the old ones
  have old : ∀ {j : Nat} {p : VoxelHeap.Obj K} {w : MapVar K V}, (os ++ [o])[j]? = some p → (vs ++ [v])[j]? = some w → ∃ j' : Nat, os[j']? = some p ∧ vs[j']? = some w := by
    intro j p w hp hw
    rcases getElem?_snoc_some hp with hp | ⟨j1, rfl⟩
    · rcases getElem?_snoc_some hw with hw | ⟨j2, -⟩
      · exact ⟨j, hp, hw⟩
      · have := (List.getElem?_eq_some_iff.1 hp).1; have := I.len; omega
    · rcases getElem?_snoc_some hw with hw | ⟨-, rfl⟩
      · have := (List.getElem?_eq_some_iff.1 hw).1; have := I.len; omega
      · exact ⟨i, ho, hv⟩
  refine ⟨by simp [I.len], ?_, ?_, ?_, ?_⟩
  · intro j p hp
    rcases getElem?_snoc_some hp with hp | ⟨-, rfl⟩
    · exact I.valid j p hp
    · exact I.valid i p ho
  · intro j w hw
    rcases getElem?_snoc_some hw with hw | ⟨-, rfl⟩
    · have := I.fams j w hw; simp; omega
    · have := I.fams i w hv; simp; omega
  · intro j k p p' w w' hp hp' hw hw' hne
    obtain ⟨j', a1, a2⟩ := old hp hw
    obtain ⟨k', b1, b2⟩ := old hp' hw'
    exact I.sep j' k' p p' w w' a1 b1 a2 b2 hne
  · intro j p n m hp hw
    obtain ⟨j', a1, a2⟩ := old hp hw
    exact I.good j' p n m a1 a2

theorem memInv_insert (c : Contents K V) {h h' : List (Info × V)} {os : List (VoxelHeap.Obj K)} {vs : List (MapVar K V)} (I : MemInv h os vs) {i : Nat}
    {o o' : VoxelHeap.Obj K} {v : MapVar K V} (ho : os[i]? = some o) (hv : vs[i]? = some v) {ps : List (SrcPt K)} {T : Mat4 K}
    (e : VoxelHeap.insert c (h, o) ps T = .ok (h', o')) (vs' : List (MapVar K V)) (hlen : vs'.length = vs.length) (hn : ∀ (j : Nat) (w : MapVar K V), vs'[j]? = some w → ∃ w' : MapVar K V, vs[j]? = some w' ∧ w'.1 = w.1)
    (hgood : ∀ (j n : Nat) (m : VoxelMap K V), vs'[j]? = some (n, some m) → (j = i ∧ StandsFor h' o' m) ∨ (j ≠ i ∧ n ≠ v.1 ∧ vs[j]? = some (n, some m))) :
    MemInv h' (os.set i o') vs' := by
  have C := confined_insert c (I.valid i o ho) e
  have hi := (List.getElem?_eq_some_iff.1 ho).1
  have get : ∀ {j : Nat} {p : VoxelHeap.Obj K}, (os.set i o')[j]? = some p → (j = i ∧ p = o') ∨ (j ≠ i ∧ os[j]? = some p) := by
    intro j p hp
    by_cases hj : j = i
    · subst hj
      left
      rw [List.getElem?_set_self hi] at hp
      exact ⟨rfl, by injection hp with hp; exact hp.symm⟩
    · right
      rw [List.getElem?_set_ne (Ne.symm hj)] at hp
      exact ⟨hj, hp⟩
  refine ⟨by simp [I.len, hlen], ?_, ?_, ?_, ?_⟩
  · intro j p hp a ha
    rcases get hp with ⟨rfl, rfl⟩ | ⟨-, hp⟩
    · exact (C.2.2 a ha).1
    · exact lt_of_lt_of_le (I.valid j p hp a ha) C.1
  · intro j w hw
    obtain ⟨w', h1, h2⟩ := hn j w hw
    have := I.fams j w' h1
    omega
  · intro j k p p' w w' hp hp' hw hw' hne a ha ha'
    obtain ⟨u, u1, u2⟩ := hn j w hw
    obtain ⟨u', u1', u2'⟩ := hn k w' hw'
    have hne' : u.1 ≠ u'.1 := by rw [u2, u2']; exact hne
    rcases get hp with ⟨rfl, rfl⟩ | ⟨hj, hq⟩
    · rcases get hp' with ⟨rfl, rfl⟩ | ⟨hk, hq'⟩
      · rw [hw] at hw'; injection hw' with hw'; exact hne (by rw [hw'])
      · rcases (C.2.2 a ha).2 with h1 | h1
        · exact I.sep j k o p' u u' ho hq' u1 u1' hne' a h1 ha'
        · have := I.valid k p' hq' a ha'; omega
    · rcases get hp' with ⟨rfl, rfl⟩ | ⟨hk, hq'⟩
      · rcases (C.2.2 a ha').2 with h1 | h1
        · exact I.sep j k p o u u' hq ho u1 u1' hne' a ha h1
        · have := I.valid j p hq a ha; omega
      · exact I.sep j k p p' u u' hq hq' u1 u1' hne' a ha ha'
  · intro j p n m hp hw
    rcases hgood j n m hw with ⟨rfl, S⟩ | ⟨hj, hne, hw⟩
    · rcases get hp with ⟨-, rfl⟩ | ⟨hj, -⟩
      · exact S
      · exact absurd rfl hj
    · rcases get hp with ⟨rfl, -⟩ | ⟨-, hp⟩
      · exact absurd rfl hj
      · refine standsFor_frame (I.good j p n m hp hw) fun a ha => C.2.1 a (I.valid j p hp a ha) fun ha' => ?_
        exact I.sep j i p o (n, some m) v hp ho hw hv hne a ha ha'

theorem memInv_step (c : Contents K V) {h h' : List (Info × V)} {os os' : List (VoxelHeap.Obj K)} {vs : List (MapVar K V)} (I : MemInv h os vs) (op : VoxelHeap.Op K)
    (e : VoxelHeap.step c (h, os) op = .ok (h', os')) : ∃ vs', varStep c vs op = .ok vs' ∧ MemInv h' os' vs' := by
  cases op with
  | construct leafSize =>
    injection e with e
    obtain ⟨rfl, rfl⟩ := Prod.mk.inj e
    exact ⟨_, rfl, memInv_construct I leafSize⟩
  | copy i =>
    obtain ⟨o, e1, e⟩ := res_bind_ok e
    injection e with e
    obtain ⟨rfl, rfl⟩ := Prod.mk.inj e
    have ho := rd_ok_get e1
    have hi := (List.getElem?_eq_some_iff.1 ho).1
    have hv : vs[i]? = some (vs[i]'(by have := I.len; simp at hi; omega)) := List.getElem?_eq_getElem _
    refine ⟨_, ?_, memInv_copy I ho hv⟩
    simp only [varStep, hv]
  | insert i ps T =>
    obtain ⟨o, e1, e⟩ := res_bind_ok e
    obtain ⟨⟨h1, o1⟩, e2, e⟩ := res_bind_ok e
    obtain ⟨os1, e3, e⟩ := res_bind_ok e
    injection e with e
    obtain ⟨rfl, rfl⟩ := Prod.mk.inj e
    have ho := rd_ok_get e1
    have hi := (List.getElem?_eq_some_iff.1 ho).1
    simp only [] at ho hi e2 e3
    rw [share_wr _ ho] at e3
    injection e3 with e3
    subst e3
    have hil : i < vs.length := by have := I.len; omega
    obtain ⟨n, x, hv⟩ : ∃ n x, vs[i]? = some (n, x) := ⟨(vs[i]).1, (vs[i]).2, List.getElem?_eq_getElem _⟩
    cases x with
    | none =>
      refine ⟨vs.map fun v => if v.1 = n then (v.1, none) else v, by simp only [varStep, hv], memInv_insert c I ho hv e2 _ (by simp) ?_ ?_⟩
      · intro j w hw
        rw [List.getElem?_map] at hw
        obtain ⟨w', h1, rfl⟩ := Option.map_eq_some_iff.1 hw
        exact ⟨w', h1, by split <;> rfl⟩
      · intro j n' m' hw
        rw [List.getElem?_map] at hw
        obtain ⟨w', h1, hw⟩ := Option.map_eq_some_iff.1 hw
        right
        split at hw
        · simp at hw
        · rename_i hne
          subst hw
          refine ⟨?_, hne, h1⟩
          rintro rfl
          rw [hv] at h1; simp at h1
    | some m =>
      have S := I.good i o n m ho hv
      have A := share_insert c S ps T
      rw [e2] at A
      cases em : Voxel.insert c m ps T with
      | error f => rw [em] at A; exact A.elim
      | ok m' =>
        rw [em] at A
        refine ⟨(vs.map fun v => if v.1 = n then (v.1, none) else v).set i (n, some m'), by simp only [varStep, hv, em], memInv_insert c I ho hv e2 _ (by simp) ?_ ?_⟩
        · intro j w hw
          by_cases hj : j = i
          · subst hj
            rw [List.getElem?_set_self (by simpa using hil)] at hw
            injection hw with hw
            exact ⟨_, hv, by rw [← hw]⟩
          · rw [List.getElem?_set_ne (Ne.symm hj), List.getElem?_map] at hw
            obtain ⟨w', h1, rfl⟩ := Option.map_eq_some_iff.1 hw
            exact ⟨w', h1, by split <;> rfl⟩
        · intro j n' m'' hw
          by_cases hj : j = i
          · subst hj
            rw [List.getElem?_set_self (by simpa using hil)] at hw
            injection hw with hw
            obtain ⟨-, hw⟩ := Prod.mk.inj hw
            injection hw with hw
            subst hw
            exact .inl ⟨rfl, A⟩
          · right
            rw [List.getElem?_set_ne (Ne.symm hj), List.getElem?_map] at hw
            obtain ⟨w', h1, hw⟩ := Option.map_eq_some_iff.1 hw
            split at hw
            · simp at hw
            · rename_i hne
              subst hw
              exact ⟨hj, hne, h1⟩

theorem memInv_run (c : Contents K V) (ops : List (VoxelHeap.Op K)) {h h' : List (Info × V)} {os os' : List (VoxelHeap.Obj K)} {vs : List (MapVar K V)} (I : MemInv h os vs)
    (e : ops.foldlM (VoxelHeap.step c) (h, os) = .ok (h', os')) : ∃ vs', ops.foldlM (varStep c) vs = .ok vs' ∧ MemInv h' os' vs' := by
  induction ops generalizing h os vs with
  | nil =>
    injection e with e
    obtain ⟨rfl, rfl⟩ := Prod.mk.inj e
    exact ⟨vs, rfl, I⟩
  | cons op ops ih =>
    rw [List.foldlM_cons] at e
    obtain ⟨⟨h1, os1⟩, e1, e⟩ := res_bind_ok e
    obtain ⟨vs1, e2, I1⟩ := memInv_step c I op e1
    obtain ⟨vs2, e3, I2⟩ := ih I1 e
    refine ⟨vs2, ?_, I2⟩
    rw [List.foldlM_cons, e2]
    exact e3

/-- C83. Any history of constructions, insertions and copies: a variable answers every query as the map of value semantics, unless another variable that came from the same
construction by copying has been inserted into. -/
theorem C83_histories_partial (c : Contents K V) (ops : List (VoxelHeap.Op K)) {h : List (Info × V)} {os : List (VoxelHeap.Obj K)}
    (e : ops.foldlM (VoxelHeap.step c) ([], []) = .ok (h, os)) :
    ∃ vs : List (MapVar K V), ops.foldlM (varStep c) [] = .ok vs ∧ os.length = vs.length ∧ ∀ (j n : Nat) (m : VoxelMap K V), vs[j]? = some (n, some m) →
      ∃ o, os[j]? = some o ∧ StandsFor h o m ∧ ∀ maxD q N k indices dists, VoxelHeap.search c maxD h o q N k indices dists = Voxel.search c maxD m q N k indices dists := by
  obtain ⟨vs, e', I⟩ := memInv_run c ops (vs := []) ⟨rfl, by simp, by simp, by simp, by simp⟩ e
  refine ⟨vs, e', I.len, fun j n m hv => ?_⟩
  have hj := (List.getElem?_eq_some_iff.1 hv).1
  have ho : os[j]? = some (os[j]'(by have := I.len; omega)) := List.getElem?_eq_getElem _
  have S := I.good j _ n m ho hv
  exact ⟨_, ho, S, fun maxD q N k indices dists => share_search c maxD S q N k indices dists⟩

/-- Invariant of the memory with several maps, none of them a copy. -/
structure SepInv (h : List (Info × V)) (os : List (VoxelHeap.Obj K)) (ms : List (VoxelMap K V)) : Prop where
  len : os.length = ms.length
  all : ∀ (j : Nat) (o : VoxelHeap.Obj K) (m : VoxelMap K V), os[j]? = some o → ms[j]? = some m → StandsFor h o m
  sep : ∀ (i j : Nat) (o o' : VoxelHeap.Obj K), i ≠ j → os[i]? = some o → os[j]? = some o' → ∀ a ∈ o.flat, a ∉ o'.flat

theorem SepInv.valid {h : List (Info × V)} {os : List (VoxelHeap.Obj K)} {ms : List (VoxelMap K V)} (I : SepInv h os ms) {j : Nat} {o : VoxelHeap.Obj K}
    (ho : os[j]? = some o) : ∃ m, ms[j]? = some m ∧ StandsFor h o m ∧ ∀ a ∈ o.flat, a < h.length := by
  have hj := (List.getElem?_eq_some_iff.1 ho).1
  have hm : ms[j]? = some (ms[j]'(by have := I.len; omega)) := List.getElem?_eq_getElem _
  have S := I.all j o _ ho hm
  exact ⟨_, hm, S, share_lt S.cells⟩

theorem sepInv_step (c : Contents K V) {h : List (Info × V)} {os : List (VoxelHeap.Obj K)} {ms : List (VoxelMap K V)} (I : SepInv h os ms) (op : VoxelHeap.Op K)
    (hop : ∀ i, op ≠ .copy i) : Alike (fun s ms => SepInv s.1 s.2 ms) (VoxelHeap.step c (h, os) op) (valueStep c ms op) := by
  cases op with
  | copy i => exact absurd rfl (hop i)
  | construct leafSize =>
    refine ⟨by simp [I.len], ?_, ?_⟩
    · intro j o m ho hm
      rcases getElem?_snoc_some ho with ho | ⟨j1, rfl⟩
      · rcases getElem?_snoc_some hm with hm | ⟨j2, -⟩
        · exact I.all j o m ho hm
        · have := (List.getElem?_eq_some_iff.1 ho).1; have := I.len; simp only [] at *; omega
      · rcases getElem?_snoc_some hm with hm | ⟨-, rfl⟩
        · have := (List.getElem?_eq_some_iff.1 hm).1; have := I.len; simp only [] at *; omega
        · exact standsFor_new h leafSize
    · intro i j o o' hij ho ho'
      rcases getElem?_snoc_some ho with ho | ⟨i1, rfl⟩
      · rcases getElem?_snoc_some ho' with ho' | ⟨j1, rfl⟩
        · exact I.sep i j o o' hij ho ho'
        · simp [VoxelHeap.Obj.new]
      · simp [VoxelHeap.Obj.new]
  | insert i ps T =>
    cases ho : os[i]? with
    | none =>
      have hi := List.getElem?_eq_none_iff.1 ho
      have hm : ms[i]? = none := List.getElem?_eq_none_iff.2 (by have := I.len; omega)
      unfold VoxelHeap.step valueStep
      simp only [hm, share_rd_none ho]
      rfl
    | some o =>
      obtain ⟨m, hm, S, hv⟩ := I.valid ho
      have A := share_insert c S ps T
      unfold VoxelHeap.step valueStep
      simp only [hm, share_rd ho]
      show Alike _ (VoxelHeap.insert c (h, o) ps T >>= _) _
      cases e1 : VoxelHeap.insert c (h, o) ps T <;> cases e2 : Voxel.insert c m ps T <;> rw [e1, e2] at A
      · exact A
      · exact A.elim
      · exact A.elim
      rename_i s m'
      obtain ⟨h', o'⟩ := s
      show Alike _ (wr os i o' >>= _) _
      rw [share_wr _ ho]
      have C := confined_insert c hv e1
      have hi := (List.getElem?_eq_some_iff.1 ho).1
      have get : ∀ {j : Nat} {p : VoxelHeap.Obj K}, (os.set i o')[j]? = some p → (j = i ∧ p = o') ∨ (j ≠ i ∧ os[j]? = some p) := by
        intro j p hp
        by_cases hj : j = i
        · subst hj
          left
          rw [List.getElem?_set_self hi] at hp
          exact ⟨rfl, by injection hp with hp; exact hp.symm⟩
        · right
          rw [List.getElem?_set_ne (Ne.symm hj)] at hp
          exact ⟨hj, hp⟩
      refine ⟨by simp [I.len], ?_, ?_⟩
      · intro j p n hp hn
        rcases get hp with ⟨rfl, rfl⟩ | ⟨hj, hq⟩
        · rw [List.getElem?_set_self (by have := I.len; omega)] at hn
          injection hn with hn
          subst hn
          exact A
        · rw [List.getElem?_set_ne (Ne.symm hj)] at hn
          obtain ⟨-, -, -, hv'⟩ := I.valid hq
          exact standsFor_frame (I.all j p n hq hn) fun a ha => C.2.1 a (hv' a ha) (I.sep j i p o hj hq ho a ha)
      · intro j k p p' hjk hp hp' a ha ha'
        rcases get hp with ⟨rfl, rfl⟩ | ⟨hj, hq⟩
        · rcases get hp' with ⟨rfl, rfl⟩ | ⟨hk, hq'⟩
          · exact hjk rfl
          · obtain ⟨-, -, -, hv'⟩ := I.valid hq'
            rcases (C.2.2 a ha).2 with h1 | h1
            · exact I.sep j k o p' hjk ho hq' a h1 ha'
            · have := hv' a ha'; omega
        · obtain ⟨-, -, -, hv'⟩ := I.valid hq
          rcases get hp' with ⟨rfl, rfl⟩ | ⟨hk, hq'⟩
          · rcases (C.2.2 a ha').2 with h1 | h1
            · exact I.sep j k p o hjk hq ho a ha h1
            · have := hv' a ha; omega
          · exact I.sep j k p p' hjk hq hq' a ha ha'

/-- C83. Any number of maps, each made by its own constructor, with insertions in any order: the memory fails exactly where the independent values fail, and otherwise each map
answers every query as its value. -/
theorem C83_separate (c : Contents K V) (ops : List (VoxelHeap.Op K)) (hops : ∀ op ∈ ops, ∀ i, op ≠ .copy i) :
    match ops.foldlM (VoxelHeap.step c) ([], []), ops.foldlM (valueStep c) [] with
    | .ok (h, os), .ok ms => os.length = ms.length ∧ ∀ (j : Nat) (o : VoxelHeap.Obj K) (m : VoxelMap K V), os[j]? = some o → ms[j]? = some m →
        StandsFor h o m ∧ ∀ maxD q N k indices dists, VoxelHeap.search c maxD h o q N k indices dists = Voxel.search c maxD m q N k indices dists
    | .error f, .error g => f = g
    | _, _ => False := by
  have run : ∀ (ops : List (VoxelHeap.Op K)) (h : List (Info × V)) (os : List (VoxelHeap.Obj K)) (ms : List (VoxelMap K V)), (∀ op ∈ ops, ∀ i, op ≠ .copy i) →
      SepInv h os ms → Alike (fun s ms => SepInv s.1 s.2 ms) (ops.foldlM (VoxelHeap.step c) (h, os)) (ops.foldlM (valueStep c) ms) := by
    intro ops
    induction ops with
    | nil => intro h os ms _ I; exact I
    | cons op ops ih =>
      intro h os ms hops I
      rw [List.foldlM_cons, List.foldlM_cons]
      refine (sepInv_step c I op (hops op (by simp))).bind ?_
      rintro ⟨h', os'⟩ ms' - - I'
      exact ih h' os' ms' (fun op ho => hops op (by simp [ho])) I'
  have A := run ops [] [] [] hops ⟨rfl, by simp, by simp⟩
  cases e1 : ops.foldlM (VoxelHeap.step c) ([], []) <;> cases e2 : ops.foldlM (valueStep c) [] <;> rw [e1, e2] at A
  · exact A
  · exact A.elim
  · exact A.elim
  · rename_i s ms
    obtain ⟨h, os⟩ := s
    exact ⟨A.len, fun j o m ho hm => ⟨A.all j o m ho hm, fun maxD q N k indices dists => share_search c maxD (A.all j o m ho hm) q N k indices dists⟩⟩

/-- A point on the x axis. -/
def sharePt (x : ℚ) : SrcPt ℚ := ⟨⟨x, 0, 0, 1⟩, ⟨0, 0, 0, 0⟩, 0⟩

/-- Two points of one voxel, a third of another; the second and third go into a copy of the map that has the first. -/
def shareOps : List (VoxelHeap.Op ℚ) :=
  [.construct 1, .insert 0 [sharePt (1 / 4)] 1, .copy 0, .insert 1 [sharePt (3 / 4), sharePt (11 / 2)] 1]

/-- Number of neighbours found and squared distance of the nearest. -/
def shareAnswer (r : Res (KnnResult ℚ)) : Option (Nat × Option ℚ) :=
  match r with
  | .ok r => some (r.numFound, r.distances[0]?)
  | .error _ => none

/-- The answers of the variable `j` in memory to a query at `x`. -/
def heapAnswer (ops : List (VoxelHeap.Op ℚ)) (j : Nat) (x : ℚ) : Option (Nat × Option ℚ) :=
  match ops.foldlM (VoxelHeap.step gaussianContents) ([], []) with
  | .ok (h, os) => (os[j]?).bind fun o => shareAnswer (VoxelHeap.search gaussianContents 1000 h o (sharePt x).pt 1 (-1) [0] [0])
  | .error _ => none

/-- The same of value semantics. -/
def valueAnswer (ops : List (VoxelHeap.Op ℚ)) (j : Nat) (x : ℚ) : Option (Nat × Option ℚ) :=
  match ops.foldlM (valueStep gaussianContents) [] with
  | .ok ms => (ms[j]?).bind fun m => shareAnswer (Voxel.search gaussianContents 1000 m (sharePt x).pt 1 (-1) [0] [0])
  | .error _ => none

/-- The copy is not independent: inserting into it moves the mean of a voxel of the original, while the new voxel of the copy stays unknown to the original. -/
theorem C83_copy_violated :
    valueAnswer shareOps 0 (1 / 4) = some (1, some 0) ∧ heapAnswer shareOps 0 (1 / 4) = some (1, some (1 / 16)) ∧
      heapAnswer shareOps 1 (11 / 2) = some (1, some 0) ∧ heapAnswer shareOps 0 (11 / 2) = some (0, some 1000) := by
  decide +kernel

/-- A scan in the voxel at the origin, a copy, 104 scans elsewhere (here empty), a scan in the voxel again, one through the copy, and four more. -/
def evictOps : List (VoxelHeap.Op ℚ) :=
  [.construct 1, .insert 0 [sharePt (1 / 4)] 1, .copy 0] ++ List.replicate 104 (.insert 0 [] 1) ++
    [.insert 0 [sharePt (1 / 4)] 1, .insert 1 [sharePt (1 / 4)] 1] ++ List.replicate 4 (.insert 0 [] 1)

/-- Inserting into the copy sets back the time stamp of a voxel of the original, which then throws away a voxel it has used five insertions before (the horizon is 100). -/
theorem C83_evict_violated : valueAnswer evictOps 0 (1 / 4) = some (1, some 0) ∧ heapAnswer evictOps 0 (1 / 4) = some (0, some 1000) := by
  decide +kernel

/-- Two maps without copies, interleaved: the hypothesis of `C83_separate` holds and both maps have a voxel. -/
def separateOps : List (VoxelHeap.Op ℚ) :=
  [.construct 1, .construct (1 / 2), .insert 0 [sharePt (1 / 4)] 1, .insert 1 [sharePt (1 / 4)] 1, .insert 0 [sharePt (3 / 4)] 1]

example : (∀ op ∈ separateOps, ∀ i, op ≠ .copy i) ∧ heapAnswer separateOps 0 (1 / 4) = some (1, some (1 / 16)) ∧ heapAnswer separateOps 1 (1 / 4) = some (1, some 0) := by
  refine ⟨?_, by decide +kernel⟩
  intro op hop i h
  subst h
  simp [separateOps] at hop

/-- A copy of which only the copy goes on: `C83_histories_partial` speaks about it. -/
example : (match shareOps.foldlM (varStep gaussianContents) [] with
    | .ok vs => vs.map fun v => v.2.isSome
    | .error _ => []) = [false, true] ∧ valueAnswer shareOps 1 (1 / 4) = heapAnswer shareOps 1 (1 / 4) ∧ valueAnswer shareOps 1 (1 / 4) = some (1, some (1 / 16)) := by
  decide +kernel

end Verif.Props
