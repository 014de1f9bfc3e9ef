import Verif.Model.PointCloud
import Verif.Proofs.Parallel
import Verif.Proofs.KdBuild
import Mathlib.Data.List.Basic
import Mathlib.Order.Nat

/-!
C50 (point cloud container) and C29 (random sampling).
-/

set_option linter.unusedSectionVars false

namespace Verif.Props

open Verif Verif.Proofs Verif.PointCloud

variable {V M : Type}

/-! ### C50 -/

/-- Container operations. -/
inductive CloudOp (V M : Type) where
  | resize (n : Nat)
  | setPoint (i : Nat) (v : V)
  | setNormal (i : Nat) (v : V)
  | setCov (i : Nat) (m : M)

def cloudOp (c : Cloud V M) : CloudOp V M → Res (Cloud V M)
  | .resize n => .ok (c.resize n)
  | .setPoint i v => c.setPoint i v
  | .setNormal i v => c.setNormal i v
  | .setCov i m => c.setCov i m

/-- Specification: a cloud is a list of records, each with an optional point, normal and covariance. -/
structure Rec (V M : Type) where
  point : Option V
  normal : Option V
  cov : Option M
  deriving DecidableEq

def Rec.blank : Rec V M := ⟨none, none, none⟩

/-- Effect of an operation on the record list; `none` when the index does not exist. -/
def recOp (l : List (Rec V M)) : CloudOp V M → Option (List (Rec V M))
  | .resize n => some (l.take n ++ List.replicate (n - l.length) Rec.blank)
  | .setPoint i v => if i < l.length then some (l.modify i (fun r => { r with point := some v })) else none
  | .setNormal i v => if i < l.length then some (l.modify i (fun r => { r with normal := some v })) else none
  | .setCov i m => if i < l.length then some (l.modify i (fun r => { r with cov := some m })) else none

/-- The three arrays hold the components of the records. -/
def Represents (c : Cloud V M) (l : List (Rec V M)) : Prop :=
  c.points = l.map Rec.point ∧ c.normals = l.map Rec.normal ∧ c.covs = l.map Rec.cov

theorem wr_err {α : Type} {l : List α} {i : Nat} (x : α) (h : ¬ i < l.length) : wr l i x = .error .oob := by
  unfold wr; rw [if_neg h]

theorem map_modify_ne {α β : Type} (f : α → α) (g : α → β) (h : ∀ a, g (f a) = g a) (l : List α) (i : Nat) :
    (l.modify i f).map g = l.map g := by
  apply List.ext_getElem?
  intro j
  rw [List.getElem?_map, List.getElem?_map, List.getElem?_modify]
  by_cases e : i = j
  · simp only [e, if_true]; cases l[j]? <;> simp [h]
  · simp only [e, if_false]; cases l[j]? <;> simp

theorem map_modify_set {α β : Type} (f : α → α) (g : α → β) (v : β) (h : ∀ a, g (f a) = v) (l : List α) (i : Nat) :
    (l.modify i f).map g = (l.map g).set i v := by
  apply List.ext_getElem?
  intro j
  rw [List.getElem?_map, List.getElem?_set, List.getElem?_modify, List.length_map, List.getElem?_map]
  by_cases e : i = j
  · subst e
    simp only [if_true]
    by_cases hi : i < l.length
    · rw [List.getElem?_eq_getElem hi]; simp [h, hi]
    · rw [List.getElem?_eq_none (by omega)]; simp [hi]
  · simp [e]

/-- One operation acts on the arrays as on the list of records; a missing index is an out-of-bounds access. -/
theorem C50_operation_refines (c : Cloud V M) (l : List (Rec V M)) (h : Represents c l) (op : CloudOp V M) :
    match recOp l op with
    | some l' => ∃ c', cloudOp c op = .ok c' ∧ Represents c' l'
    | none => cloudOp c op = .error .oob := by
  obtain ⟨h1, h2, h3⟩ := h
  cases op with
  | resize n =>
    refine ⟨_, rfl, ?_, ?_, ?_⟩ <;>
      simp [Cloud.resize, resizeSlots, h1, h2, h3, List.map_take, List.map_append, Rec.blank]
  | setPoint i v =>
    simp only [recOp]
    by_cases hi : i < l.length
    · rw [if_pos hi]
      refine ⟨{ c with points := c.points.set i (some v) }, ?_, ?_, ?_, ?_⟩
      · simp only [cloudOp, Cloud.setPoint]
        rw [wr_of_lt _ (by rw [h1, List.length_map]; exact hi)]; rfl
      · simp only [h1]; exact (map_modify_set _ _ _ (by intro r; rfl) l i).symm
      · simp only [h2]; exact (map_modify_ne _ _ (by intro r; rfl) l i).symm
      · simp only [h3]; exact (map_modify_ne _ _ (by intro r; rfl) l i).symm
    · rw [if_neg hi]
      simp only
      simp only [cloudOp, Cloud.setPoint]
      rw [wr_err _ (by rw [h1, List.length_map]; exact hi)]; rfl
  | setNormal i v =>
    simp only [recOp]
    by_cases hi : i < l.length
    · rw [if_pos hi]
      refine ⟨{ c with normals := c.normals.set i (some v) }, ?_, ?_, ?_, ?_⟩
      · simp only [cloudOp, Cloud.setNormal]
        rw [wr_of_lt _ (by rw [h2, List.length_map]; exact hi)]; rfl
      · simp only [h1]; exact (map_modify_ne _ _ (by intro r; rfl) l i).symm
      · simp only [h2]; exact (map_modify_set _ _ _ (by intro r; rfl) l i).symm
      · simp only [h3]; exact (map_modify_ne _ _ (by intro r; rfl) l i).symm
    · rw [if_neg hi]
      simp only
      simp only [cloudOp, Cloud.setNormal]
      rw [wr_err _ (by rw [h2, List.length_map]; exact hi)]; rfl
  | setCov i m =>
    simp only [recOp]
    by_cases hi : i < l.length
    · rw [if_pos hi]
      refine ⟨{ c with covs := c.covs.set i (some m) }, ?_, ?_, ?_, ?_⟩
      · simp only [cloudOp, Cloud.setCov]
        rw [wr_of_lt _ (by rw [h3, List.length_map]; exact hi)]; rfl
      · simp only [h1]; exact (map_modify_ne _ _ (by intro r; rfl) l i).symm
      · simp only [h2]; exact (map_modify_ne _ _ (by intro r; rfl) l i).symm
      · simp only [h3]; exact (map_modify_set _ _ _ (by intro r; rfl) l i).symm
    · rw [if_neg hi]
      simp only
      simp only [cloudOp, Cloud.setCov]
      rw [wr_err _ (by rw [h3, List.length_map]; exact hi)]; rfl

theorem represents_of_aligned (c : Cloud V M) (h1 : c.normals.length = c.points.length) (h2 : c.covs.length = c.points.length) :
    ∃ l, Represents c l := by
  obtain ⟨ps, ns, cs⟩ := c
  simp only at h1 h2
  induction ps generalizing ns cs with
  | nil =>
    refine ⟨[], ?_, ?_, ?_⟩
    · rfl
    · simpa using h1
    · simpa using h2
  | cons p ps ih =>
    cases ns with
    | nil => simp at h1
    | cons n ns =>
      cases cs with
      | nil => simp at h2
      | cons k cs =>
        obtain ⟨l, hl1, hl2, hl3⟩ := ih ns cs (by simpa using h1) (by simpa using h2)
        refine ⟨⟨p, n, k⟩ :: l, ?_, ?_, ?_⟩
        · simp only [List.map_cons]; exact congrArg _ hl1
        · simp only [List.map_cons]; exact congrArg _ hl2
        · simp only [List.map_cons]; exact congrArg _ hl3

/-- After every sequence of operations on an empty cloud the three arrays are the components of one list of records, the one
obtained by the same operations on record lists; in particular they have the same length. -/
theorem C50_histories_refine (ops : List (CloudOp V M)) (c : Cloud V M) (l : List (Rec V M)) (h : Represents c l) :
    match ops.foldlM recOp l with
    | some l' => ∃ c', ops.foldlM cloudOp c = .ok c' ∧ Represents c' l' ∧ c'.points.length = l'.length ∧
        c'.normals.length = c'.points.length ∧ c'.covs.length = c'.points.length
    | none => ops.foldlM cloudOp c = .error .oob := by
  induction ops generalizing c l with
  | nil =>
    refine ⟨c, rfl, h, ?_, ?_, ?_⟩
    · rw [h.1, List.length_map]
    · rw [h.1, h.2.1, List.length_map, List.length_map]
    · rw [h.1, h.2.2, List.length_map, List.length_map]
  | cons op ops ih =>
    have h1 := C50_operation_refines c l h op
    rw [List.foldlM_cons, List.foldlM_cons]
    cases hs : recOp l op with
    | none =>
      rw [hs] at h1
      simp only at h1 ⊢
      rw [h1]; rfl
    | some l' =>
      rw [hs] at h1
      obtain ⟨c', hc', hr⟩ := h1
      rw [hc']
      exact ih c' l' hr

/-- Resizing preserves the common prefix and leaves new slots indeterminate. -/
theorem C50_resize (c : Cloud V M) (n i : Nat) :
    (c.resize n).size = n ∧ (c.resize n).normals.length = n ∧ (c.resize n).covs.length = n ∧
    (i < n → i < c.points.length → (c.resize n).points[i]? = c.points[i]?) ∧
    (i < n → i < c.normals.length → (c.resize n).normals[i]? = c.normals[i]?) ∧
    (i < n → i < c.covs.length → (c.resize n).covs[i]? = c.covs[i]?) ∧
    (c.points.length ≤ i → i < n → (c.resize n).point i = .error .uninit) := by
  have hlen : ∀ {α : Type} (l : List (Option α)), (resizeSlots l n).length = n := by
    intro α l; unfold resizeSlots; rw [List.length_append, List.length_take, List.length_replicate]; omega
  have hpre : ∀ {α : Type} (l : List (Option α)), i < n → i < l.length → (resizeSlots l n)[i]? = l[i]? := by
    intro α l h1 h2
    unfold resizeSlots
    rw [List.getElem?_append_left (by rw [List.length_take]; omega), List.getElem?_take_of_lt h1]
  refine ⟨hlen _, hlen _, hlen _, hpre _, hpre _, hpre _, ?_⟩
  intro h1 h2
  have : (resizeSlots c.points n)[i]? = some none := by
    unfold resizeSlots
    rw [List.getElem?_append_right (by rw [List.length_take]; omega), List.getElem?_replicate]
    rw [if_pos (by rw [List.length_take]; omega)]
  unfold Cloud.point getSlot Cloud.resize
  rw [rd_of_getElem? this]; rfl

theorem fill_points {α : Type} (get : Nat → Res V) (val : α → V) (l : List α) (hget : ∀ i x, l[i]? = some x → get i = .ok (val x)) :
    (List.range l.length).foldlM (fun (c : Cloud V M) i => do
      let p ← get i
      c.setPoint i p) ((Cloud.empty : Cloud V M).resize l.length)
    = .ok ⟨l.map (fun x => some (val x)), List.replicate l.length none, List.replicate l.length none⟩ := by
  have h0 : (Cloud.empty : Cloud V M).resize l.length = ⟨List.replicate l.length none, List.replicate l.length none, List.replicate l.length none⟩ := by
    simp [Cloud.empty, Cloud.resize, resizeSlots]
  rw [h0]
  obtain ⟨c', hc, hi⟩ := foldlM_inv (fun (c : Cloud V M) i => do
      let p ← get i
      c.setPoint i p) (fun done c => c.normals = List.replicate l.length none ∧ c.covs = List.replicate l.length none ∧
        c.points = (l.take done.length).map (fun x => some (val x)) ++ List.replicate (l.length - done.length) none)
    (List.range l.length) ⟨List.replicate l.length none, List.replicate l.length none, List.replicate l.length none⟩ (by simp) (by
      rintro done i rest hl c ⟨h1, h2, h3⟩
      have hi : i = done.length := by
        have : (List.range l.length)[done.length]? = some i := by rw [hl]; simp
        obtain ⟨hlt, he⟩ := List.getElem?_eq_some_iff.1 this
        rw [List.getElem_range] at he
        exact he.symm
      have hlt : i < l.length := by
        have : i ∈ List.range l.length := by rw [hl]; simp
        exact List.mem_range.1 this
      subst hi
      have hlen : c.points.length = l.length := by
        rw [h3, List.length_append, List.length_map, List.length_take, List.length_replicate]; omega
      refine ⟨{ c with points := c.points.set done.length (some (val l[done.length])) }, ?_, h1, h2, ?_⟩
      · rw [hget _ _ (List.getElem?_eq_getElem hlt), ok_bind]
        unfold Cloud.setPoint
        rw [wr_of_lt _ (by rw [hlen]; exact hlt)]; rfl
      · simp only [h3, List.length_append, List.length_singleton]
        rw [List.set_append_right _ _ (by rw [List.length_map, List.length_take]; omega)]
        rw [List.length_map, List.length_take, Nat.min_eq_left (by omega), Nat.sub_self, List.take_succ_eq_append_getElem hlt,
          List.map_append, show l.length - done.length = (l.length - (done.length + 1)) + 1 by omega, List.replicate_succ]
        simp)
  rw [hc]
  obtain ⟨h1, h2, h3⟩ := hi
  simp only [List.length_range, List.take_length, Nat.sub_self, List.replicate_zero, List.append_nil] at h3
  obtain ⟨ps, ns, cs⟩ := c'
  simp only at h1 h2 h3
  rw [h1, h2, h3]

/-- The constructor copies every element through the conversion and sets nothing else. -/
theorem C50_constructor {P : Type} (conv : P → V) (pts : List P) :
    (Cloud.ofPoints conv pts : Res (Cloud V M)) = .ok ⟨pts.map (fun p => some (conv p)), List.replicate pts.length none, List.replicate pts.length none⟩ := by
  unfold Cloud.ofPoints
  have := fill_points (V := V) (M := M) (fun i => do let p ← rd pts i; return conv p) conv pts (by
    intro i x hx; rw [rd_of_getElem? hx]; rfl)
  rw [← this]
  congr 1
  funext c i
  cases h : rd pts i <;> rfl

/-- Points constructed from vectors of three or more components carry the converted coordinates and w = 1. -/
theorem C50_constructed_points {T K : Type} [One K] {d : Nat} (cast : T → K) (pts : List (Fin (d + 3) → T)) (i : Nat) (hi : i < pts.length) :
    ∃ (c : Cloud (Fin 4 → K) M) (v : Fin 4 → K), Cloud.ofPoints (homogeneous cast) pts = .ok c ∧ c.size = pts.length ∧ c.point i = .ok v ∧
      v 0 = cast (pts[i] 0) ∧ v 1 = cast (pts[i] 1) ∧ v 2 = cast (pts[i] 2) ∧ v 3 = 1 := by
  refine ⟨_, homogeneous cast pts[i], C50_constructor _ _, ?_, ?_, rfl, rfl, rfl, rfl⟩
  · simp [Cloud.size]
  · have : (pts.map (fun p => some (homogeneous cast p)))[i]? = some (some (homogeneous cast pts[i])) := by
      rw [List.getElem?_map, List.getElem?_eq_getElem hi]; rfl
    unfold Cloud.point getSlot
    rw [rd_of_getElem? this]; rfl

/-! ### C29 -/

theorem selectionSample_sublist {α : Type} : ∀ (n : Nat) (draws : List Nat) (pop out : List α), selectionSample n draws pop = some out →
    out.Sublist pop ∧ out.length = min n pop.length
  | 0, _, pop, out, h => by
    simp only [selectionSample, Option.some.injEq] at h
    subst h; simp
  | n + 1, _, [], out, h => by
    simp only [selectionSample, Option.some.injEq] at h
    subst h; simp
  | n + 1, [], a :: pop, out, h => by simp [selectionSample] at h
  | n + 1, d :: ds, a :: pop, out, h => by
    unfold selectionSample at h
    split at h
    · rename_i hd
      split at h
      · obtain ⟨o, ho, rfl⟩ := Option.map_eq_some_iff.1 h
        obtain ⟨h1, h2⟩ := selectionSample_sublist n ds pop o ho
        exact ⟨h1.cons_cons a, by simp only [List.length_cons]; omega⟩
      · rename_i hlt
        obtain ⟨h1, h2⟩ := selectionSample_sublist (n + 1) ds pop out h
        simp only [List.length_cons] at hd ⊢
        exact ⟨h1.cons a, by omega⟩
    · cases h

theorem selectionSample_every {α : Type} : ∀ (pop out : List α), out.Sublist pop → ∃ draws, selectionSample out.length draws pop = some out
  | [], out, h => by
    have := List.sublist_nil.1 h
    subst this
    exact ⟨[], rfl⟩
  | a :: pop, [], _ => ⟨[], rfl⟩
  | a :: pop, b :: out, h => by
    rcases List.sublist_cons_iff.1 h with h1 | ⟨r, hr, h1⟩
    · -- element skipped: draw the largest value
      obtain ⟨ds, hds⟩ := selectionSample_every pop (b :: out) h1
      have hl := h1.length_le
      refine ⟨pop.length :: ds, ?_⟩
      simp only [List.length_cons] at hds hl ⊢
      unfold selectionSample
      rw [if_pos (by simp), if_neg (by omega)]
      exact hds
    · cases hr
      obtain ⟨ds, hds⟩ := selectionSample_every pop out h1
      refine ⟨0 :: ds, ?_⟩
      simp only [List.length_cons]
      unfold selectionSample
      rw [if_pos (by simp), if_pos (by omega), hds]; rfl

/-- For every outcome of the generator the result holds `min(num, N)` of the input points, taken at strictly increasing
positions; nothing else of it is set. -/
theorem C29_random_sampling (c : Cloud V M) (pts : List V) (hc : c.points = pts.map some) (num : Nat) (draws : List Nat) {r}
    (hr : randomSampling c num draws = some r) :
    ∃ idx : List Nat, idx.length = min num pts.length ∧ idx.Pairwise (· < ·) ∧ (∀ i ∈ idx, i < pts.length) ∧
      ∃ out : Cloud V M, r = .ok out ∧ out.points = idx.map (fun i => pts[i]?) ∧
        out.normals = List.replicate idx.length none ∧ out.covs = List.replicate idx.length none := by
  have hsz : c.size = pts.length := by unfold Cloud.size; rw [hc, List.length_map]
  unfold randomSampling at hr
  by_cases h0 : c.size = 0
  · rw [if_pos h0] at hr
    cases hr
    refine ⟨[], by simp; omega, List.Pairwise.nil, by simp, Cloud.empty, rfl, rfl, rfl, rfl⟩
  · rw [if_neg h0] at hr
    simp only [List.length_range] at hr
    split at hr
    · cases hr
    · rename_i samples hs
      obtain ⟨h1, h2⟩ := selectionSample_sublist _ _ _ _ hs
      rw [List.length_range] at h2
      have hlt : ∀ i ∈ samples, i < pts.length := by
        intro i hi
        have := List.mem_range.1 (h1.subset hi)
        omega
      have hlen : (if num ≥ c.size then c.size else num) = samples.length := by
        rw [h2]; split <;> omega
      refine ⟨samples, ?_, List.Pairwise.sublist h1 List.pairwise_lt_range, hlt, ?_⟩
      · rw [h2]; split <;> omega
      · cases hr
        rw [hlen]
        -- the copying loop
        by_cases hne : pts = []
        · rw [hne] at hsz; exact absurd hsz h0
        · obtain ⟨v0, _⟩ := List.exists_mem_of_ne_nil pts hne
          have hfill := fill_points (V := V) (M := M) (fun i => do let s ← rd samples i; c.point s)
            (fun s => (pts[s]?).getD v0) samples (by
              intro i s hi
              rw [rd_of_getElem? hi, ok_bind]
              have hslt := hlt s (List.mem_of_getElem? hi)
              have : c.points[s]? = some (some pts[s]) := by rw [hc, List.getElem?_map, List.getElem?_eq_getElem hslt]; rfl
              unfold Cloud.point getSlot
              rw [rd_of_getElem? this]
              simp [List.getElem?_eq_getElem hslt, bind, Except.bind, pure, Except.pure])
          refine ⟨⟨samples.map (fun s => some ((pts[s]?).getD v0)), List.replicate samples.length none, List.replicate samples.length none⟩, ?_, ?_, rfl, rfl⟩
          · rw [← hfill]
            congr 1
            funext out i
            cases h : rd samples i <;> rfl
          · apply List.map_congr_left
            intro s hs
            rw [List.getElem?_eq_getElem (hlt s hs)]; rfl

/-- Every set of `n` positions can be drawn. -/
theorem C29_every_subset (c : Cloud V M) (pts : List V) (hc : c.points = pts.map some) (hne : pts ≠ []) (idx : List Nat)
    (hinc : idx.Pairwise (· < ·)) (hlt : ∀ i ∈ idx, i < pts.length) :
    ∃ draws, ∃ out : Cloud V M, randomSampling c idx.length draws = some (.ok out) ∧ out.points = idx.map (fun i => pts[i]?) := by
  have hsz : c.size = pts.length := by unfold Cloud.size; rw [hc, List.length_map]
  have hsub : idx.Sublist (List.range c.size) := by
    have hg : ∀ (m s : Nat) (idx : List Nat), idx.Pairwise (· < ·) → (∀ i ∈ idx, s ≤ i ∧ i < s + m) → idx.Sublist (List.range' s m) := by
      intro m
      induction m with
      | zero =>
        intro s idx _ h
        cases idx with
        | nil => simp
        | cons a l => have := h a (by simp); omega
      | succ m ih =>
        intro s idx hp h
        rw [List.range'_succ]
        cases idx with
        | nil => exact List.nil_sublist _
        | cons a l =>
          rw [List.pairwise_cons] at hp
          by_cases e : a = s
          · subst e
            refine (ih (a + 1) l hp.2 ?_).cons_cons a
            intro i hi
            have h1 := hp.1 i hi
            have h2 := h i (by simp [hi])
            omega
          · refine (ih (s + 1) (a :: l) (List.pairwise_cons.2 hp) ?_).cons s
            intro i hi
            have h2 := h i hi
            have h3 := h a (by simp)
            rcases List.mem_cons.1 hi with rfl | hi
            · omega
            · have := hp.1 i hi; omega
    rw [List.range_eq_range']
    exact hg _ 0 idx hinc (fun i hi => ⟨Nat.zero_le _, by have := hlt i hi; omega⟩)
  obtain ⟨draws, hd⟩ := selectionSample_every _ _ hsub
  have hle : idx.length ≤ c.size := by have := hsub.length_le; rwa [List.length_range] at this
  have h0 : c.size ≠ 0 := by rw [hsz]; intro e; exact hne (List.length_eq_zero_iff.1 e)
  have hsome : ∃ r, randomSampling c idx.length draws = some r := by
    unfold randomSampling
    rw [if_neg h0]
    simp only [List.length_range]
    have : (if idx.length ≥ c.size then c.size else idx.length) = idx.length := by split <;> omega
    rw [this, hd]
    exact ⟨_, rfl⟩
  obtain ⟨r, hr⟩ := hsome
  -- determine the sample actually used
  have hr' := hr
  unfold randomSampling at hr'
  rw [if_neg h0] at hr'
  simp only [List.length_range] at hr'
  have hnum : (if idx.length ≥ c.size then c.size else idx.length) = idx.length := by split <;> omega
  rw [hnum, hd] at hr'
  simp only [Option.some.injEq] at hr'
  obtain ⟨v0, _⟩ := List.exists_mem_of_ne_nil pts hne
  have hfill := fill_points (V := V) (M := M) (fun i => do let s ← rd idx i; c.point s)
    (fun s => (pts[s]?).getD v0) idx (by
      intro i s hi
      rw [rd_of_getElem? hi, ok_bind]
      have hslt := hlt s (List.mem_of_getElem? hi)
      have : c.points[s]? = some (some pts[s]) := by rw [hc, List.getElem?_map, List.getElem?_eq_getElem hslt]; rfl
      unfold Cloud.point getSlot
      rw [rd_of_getElem? this]
      simp [List.getElem?_eq_getElem hslt, bind, Except.bind, pure, Except.pure])
  refine ⟨draws, ⟨idx.map (fun s => some ((pts[s]?).getD v0)), List.replicate idx.length none, List.replicate idx.length none⟩, ?_, ?_⟩
  · rw [hr, ← hr', ← hfill]
    congr 2
    funext out i
    cases h : rd idx i <;> rfl
  · apply List.map_congr_left
    intro s hs
    rw [List.getElem?_eq_getElem (hlt s hs)]; rfl

/-- The sampled cloud claims to have normals and covariances although none was copied: reading one is a read of an
indeterminate value. -/
theorem C29_attributes_not_copied (c : Cloud V M) (pts : List V) (hc : c.points = pts.map some) (num : Nat) (hnum : 0 < num)
    (hne : pts ≠ []) (draws : List Nat) {r} (hr : randomSampling c num draws = some r) :
    ∃ out : Cloud V M, r = .ok out ∧ out.hasNormals = true ∧ out.hasCovs = true ∧ out.normal 0 = .error .uninit ∧ out.cov 0 = .error .uninit := by
  obtain ⟨idx, h1, _, _, out, rfl, _, h5, h6⟩ := C29_random_sampling c pts hc num draws hr
  have hl : 0 < idx.length := by
    rw [h1]; have := List.length_pos_of_ne_nil hne; omega
  obtain ⟨k, hk⟩ : ∃ k, idx.length = k + 1 := ⟨idx.length - 1, by omega⟩
  rw [hk, List.replicate_succ] at h5 h6
  refine ⟨out, rfl, ?_, ?_, ?_, ?_⟩
  · unfold Cloud.hasNormals; rw [h5]; rfl
  · unfold Cloud.hasCovs; rw [h6]; rfl
  · unfold Cloud.normal getSlot; rw [h5]; rfl
  · unfold Cloud.cov getSlot; rw [h6]; rfl

/-! ### concrete cases -/

def cloud3 : Cloud Nat Nat := ⟨[some 10, some 20, some 30], [some 1, none, some 3], [none, none, none]⟩

/-- The premises of C50 are met by a history with growth, shrinkage and all setters. -/
example : ([.resize 2, .setPoint 0 5, .setNormal 1 6, .resize 3, .setCov 2 7, .resize 1] : List (CloudOp Nat Nat)).foldlM cloudOp Cloud.empty
    = .ok ⟨[some 5], [none], [none]⟩ := by decide

/-- Premises of C29: draws 2, 0, 0 skip the first point and take the other two. -/
example : randomSampling cloud3 2 [2, 0, 0] = some (.ok ⟨[some 20, some 30], [none, none], [none, none]⟩) := by decide

example : cloud3.points = [10, 20, 30].map some := rfl

end Verif.Props
