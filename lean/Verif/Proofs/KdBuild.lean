import Verif.Spec.KdTree
import Verif.Proofs.KnnResult
import Mathlib.Data.List.Range

/-!
Construction: the array-level builder realises the abstract tree.
-/

namespace Verif.Proofs

open Verif Verif.Knn Verif.KdTree

variable {D : Type} [LinearOrder D]

/-! ### Generic list / monad facts -/

theorem mapM_ok {α β : Type} (f : α → Res β) (g : α → β) : ∀ l : List α, (∀ x ∈ l, f x = .ok (g x)) →
    l.mapM f = .ok (l.map g)
  | [], _ => rfl
  | x :: l, h => by
    rw [List.mapM_cons, h x (by simp), mapM_ok f g l (fun y hy => h y (by simp [hy]))]
    rfl

theorem rd_of_getElem? {α : Type} {l : List α} {i : Nat} {x : α} (h : l[i]? = some x) : rd l i = .ok x := by
  simp [rd, h]

theorem wr_of_lt {α : Type} {l : List α} {i : Nat} (x : α) (h : i < l.length) : wr l i x = .ok (l.set i x) := by
  simp [wr, h]

theorem slice_length {α : Type} {l : List α} {a b : Nat} (h1 : a ≤ b) (h2 : b ≤ l.length) : (slice l a b).length = b - a := by
  unfold slice; rw [List.length_take, List.length_drop]; omega

theorem overwrite_length {α : Type} {l seg : List α} {a b : Nat} (h1 : a ≤ b) (h2 : b ≤ l.length) (h3 : seg.length = b - a) :
    (overwrite l a b seg).length = l.length := by
  unfold overwrite; simp only [List.length_append, List.length_take, List.length_drop]; omega

theorem getElem?_overwrite {α : Type} {l seg : List α} {a b : Nat} (h1 : a ≤ b) (h2 : b ≤ l.length) (h3 : seg.length = b - a)
    (i : Nat) : (overwrite l a b seg)[i]? = if i < a then l[i]? else if i < b then seg[i - a]? else l[i]? := by
  unfold overwrite
  have hta : (l.take a).length = a := by rw [List.length_take]; omega
  split
  · rename_i h
    rw [List.append_assoc, List.getElem?_append_left (by omega), List.getElem?_take_of_lt h]
  · split
    · rename_i h h'
      rw [List.append_assoc, List.getElem?_append_right (by omega), hta, List.getElem?_append_left (by omega)]
    · rename_i h h'
      rw [List.getElem?_append_right (by rw [List.length_append]; omega), List.length_append, hta, h3, List.getElem?_drop]
      congr 1; omega

theorem getElem?_slice {α : Type} {l : List α} {a b : Nat} (i : Nat) : (slice l a b)[i]? = if i < b - a then l[a + i]? else none := by
  unfold slice
  split
  · rename_i h
    rw [List.getElem?_take_of_lt h, List.getElem?_drop]
  · rename_i h
    rw [List.getElem?_eq_none]
    rw [List.length_take]; omega

/-- slice of an overwritten array, same range -/
theorem slice_overwrite_self {α : Type} {l seg : List α} {a b : Nat} (h1 : a ≤ b) (h2 : b ≤ l.length) (h3 : seg.length = b - a) :
    slice (overwrite l a b seg) a b = seg := by
  apply List.ext_getElem?
  intro i
  rw [getElem?_slice, getElem?_overwrite h1 h2 h3]
  split
  · rename_i h
    rw [if_neg (by omega), if_pos (by omega)]; congr 1; omega
  · rename_i h
    rw [List.getElem?_eq_none (by omega)]

/-- sub-slice of an overwritten range -/
theorem slice_overwrite_sub {α : Type} {l seg : List α} {a b c d : Nat} (h1 : a ≤ b) (h2 : b ≤ l.length) (h3 : seg.length = b - a)
    (hc : a ≤ c) (hd : d ≤ b) : slice (overwrite l a b seg) c d = slice seg (c - a) (d - a) := by
  apply List.ext_getElem?
  intro i
  rw [getElem?_slice, getElem?_slice, getElem?_overwrite h1 h2 h3]
  by_cases h : i < d - c
  · rw [if_pos h, if_neg (by omega : ¬ c + i < a), if_pos (by omega : c + i < b),
      if_pos (by omega : i < d - a - (c - a))]
    congr 1; omega
  · rw [if_neg h, if_neg (by omega)]

theorem take_slice {α : Type} {l : List α} {a b c : Nat} (h2 : c ≤ b) : (slice l a b).take (c - a) = slice l a c := by
  unfold slice; rw [List.take_take]; congr 1; omega

theorem drop_slice {α : Type} {l : List α} {a b c : Nat} (h1 : a ≤ c) : (slice l a b).drop (c - a) = slice l c b := by
  unfold slice; rw [List.drop_take, List.drop_drop]
  have e1 : b - a - (c - a) = b - c := by omega
  have e2 : a + (c - a) = c := by omega
  rw [e1, e2]

theorem overwrite_overwrite_left {α : Type} {l s t : List α} {a b c : Nat} (h1 : a ≤ c) (h1' : c ≤ b) (h2 : b ≤ l.length)
    (h3 : s.length = b - a) (h4 : t.length = c - a) :
    overwrite (overwrite l a b s) a c t = overwrite l a b (t ++ s.drop (c - a)) := by
  apply List.ext_getElem?
  intro i
  have hL : (overwrite l a b s).length = l.length := overwrite_length (by omega) h2 h3
  rw [getElem?_overwrite h1 (by omega) h4, getElem?_overwrite (by omega) h2 h3,
    getElem?_overwrite (by omega) h2 (by rw [List.length_append, List.length_drop]; omega)]
  by_cases h : i < a
  · simp [h]
  · simp only [h, if_false]
    by_cases h' : i < c
    · rw [if_pos h', if_pos (by omega), List.getElem?_append_left (by omega)]
    · rw [if_neg h']
      split
      · rw [List.getElem?_append_right (by omega), List.getElem?_drop]; congr 1; omega
      · rfl

theorem overwrite_overwrite_right {α : Type} {l s t : List α} {a b c : Nat} (h1 : a ≤ c) (h1' : c ≤ b) (h2 : b ≤ l.length)
    (h3 : s.length = b - a) (h4 : t.length = b - c) :
    overwrite (overwrite l a b s) c b t = overwrite l a b (s.take (c - a) ++ t) := by
  apply List.ext_getElem?
  intro i
  have hL : (overwrite l a b s).length = l.length := overwrite_length (by omega) h2 h3
  rw [getElem?_overwrite h1' (by omega) h4, getElem?_overwrite (by omega) h2 h3,
    getElem?_overwrite (by omega) h2 (by rw [List.length_append, List.length_take]; omega)]
  by_cases h : i < a
  · simp only [h, if_true]; rw [if_pos (by omega)]
  · simp only [h, if_false]
    by_cases h' : i < c
    · rw [if_pos h', if_pos (by omega), if_pos (by omega), List.getElem?_append_left (by rw [List.length_take]; omega),
        List.getElem?_take_of_lt (by omega)]
    · rw [if_neg h']
      split
      · rw [List.getElem?_append_right (by rw [List.length_take]; omega), List.length_take]; congr 1; omega
      · rfl

/-! ### The abstract builder -/

/-- Abstract counterpart of `create_node` without node array. -/
def buildT (o : Ops D) (b : Builder D) (points : List (Pt D)) : Nat → List Nat → Res (KT D)
  | 0, _ => .error .stackOverflow
  | fuel + 1, range =>
    if isLeafSize range.length b.maxLeafSize then .ok (.leaf range)
    else do
      let (proj, thresh, seg) ← splitRange o b points range
      let l ← buildT o b points fuel (seg.take (range.length / 2))
      let r ← buildT o b points fuel (seg.drop (range.length / 2))
      return .node proj thresh l r

omit [LinearOrder D] in
theorem projectRange_ok (o : Ops D) (points : List (Pt D)) (proj : Proj D) (range : List Nat)
    (h : ∀ i ∈ range, i < points.length) :
    ∃ keyed, projectRange o points proj range = .ok keyed ∧ keyed.map Prod.fst = range ∧
      ∀ c ∈ keyed, ∃ p, points[c.1]? = some p ∧ c.2 = proj.eval o p := by
  induction range with
  | nil => exact ⟨[], rfl, rfl, by simp⟩
  | cons i range ih =>
    obtain ⟨k, h1, h2, h3⟩ := ih (fun j hj => h j (by simp [hj]))
    have hi := h i (by simp)
    refine ⟨(i, proj.eval o points[i]) :: k, ?_, by simp [h2], ?_⟩
    · unfold projectRange at h1 ⊢
      rw [List.mapM_cons, h1, rd_of_getElem? (List.getElem?_eq_getElem hi)]
      rfl
    · intro c hc
      rcases List.mem_cons.1 hc with e | e
      · exact ⟨points[i], by rw [e]; exact List.getElem?_eq_getElem hi, by rw [e]⟩
      · exact h3 c e

/-- What `splitRange` delivers. -/
theorem splitRange_ok (o : Ops D) (b : Builder D) (points : List (Pt D)) (range : List Nat) (P : Proj D → Prop)
    (hnth : NthElementSpec b.nthElement) (hfind : FindAxisSpec P b.findAxis)
    (hne : range ≠ []) (h : ∀ i ∈ range, i < points.length) :
    ∃ proj thresh seg, splitRange o b points range = .ok (proj, thresh, seg) ∧ P proj ∧ seg.Perm range ∧
      (∀ i ∈ seg.take (range.length / 2), ∀ pt, points[i]? = some pt → proj.eval o pt ≤ thresh) ∧
      (∀ i ∈ seg.drop (range.length / 2), ∀ pt, points[i]? = some pt → thresh ≤ proj.eval o pt) := by
  obtain ⟨proj, hp, hP⟩ := hfind points range hne h
  obtain ⟨keyed, hk, hk1, hk2⟩ := projectRange_ok o points proj range h
  have hlen : keyed.length = range.length := by rw [← hk1]; simp
  have hpos : 0 < range.length := List.length_pos_of_ne_nil hne
  have hperm := hnth.perm keyed (range.length / 2)
  have hlt : range.length / 2 < (b.nthElement keyed (range.length / 2)).length := by
    rw [hperm.length_eq, hlen]; omega
  obtain ⟨m, hm⟩ : ∃ m, (b.nthElement keyed (range.length / 2))[range.length / 2]? = some m :=
    ⟨_, List.getElem?_eq_getElem hlt⟩
  obtain ⟨hs1, hs2⟩ := hnth.split _ _ _ hm
  refine ⟨proj, m.2, (b.nthElement keyed (range.length / 2)).map Prod.fst, ?_, hP, ?_, ?_, ?_⟩
  · unfold splitRange
    simp only [hp, hk, bind, Except.bind, pure, Except.pure]
    rw [rd_of_getElem? hm]
  · have := hperm.map Prod.fst
    rwa [hk1] at this
  · intro i hi pt hpt
    rw [← List.map_take] at hi
    obtain ⟨c, hc, rfl⟩ := List.mem_map.1 hi
    obtain ⟨p, hp1, hp2⟩ := hk2 c (hperm.mem_iff.1 (List.mem_of_mem_take hc))
    rw [hp1] at hpt; cases hpt
    rw [← hp2]; exact hs1 c hc
  · intro i hi pt hpt
    rw [← List.map_drop] at hi
    obtain ⟨c, hc, rfl⟩ := List.mem_map.1 hi
    obtain ⟨p, hp1, hp2⟩ := hk2 c (hperm.mem_iff.1 (List.mem_of_mem_drop hc))
    rw [hp1] at hpt; cases hpt
    rw [← hp2]; exact hs2 c hc

/-- The abstract builder succeeds (given fuel) and its tree has the expected properties. -/
theorem buildT_ok (o : Ops D) (b : Builder D) (points : List (Pt D)) (P : Proj D → Prop)
    (hnth : NthElementSpec b.nthElement) (hfind : FindAxisSpec P b.findAxis) (hm : 1 ≤ toU64 b.maxLeafSize) :
    ∀ (fuel : Nat) (range : List Nat), range.length < fuel → (∀ i ∈ range, i < points.length) →
    ∃ t, buildT o b points fuel range = .ok t ∧ t.items.Perm range ∧ t.Separated o points ∧ t.AllProj P ∧
      t.LeafSizes (toU64 b.maxLeafSize) ∧ t.depth < fuel ∧
      (3 ≤ toU64 b.maxLeafSize → 1 ≤ range.length → t.size ≤ max 1 (range.length - 1))
  | 0, range, h, _ => absurd h (Nat.not_lt_zero _)
  | fuel + 1, range, hf, hv => by
    unfold buildT
    by_cases hleaf : isLeafSize range.length b.maxLeafSize
    · rw [if_pos hleaf]
      refine ⟨_, rfl, List.Perm.refl _, trivial, trivial, ?_, by simp [KT.depth], by intro _ _; simp [KT.size]⟩
      simpa [isLeafSize, KT.LeafSizes] using hleaf
    · rw [if_neg hleaf]
      have hbig : toU64 b.maxLeafSize < range.length := by simpa [isLeafSize] using hleaf
      have hne : range ≠ [] := by intro h; rw [h] at hbig; simp at hbig
      obtain ⟨proj, th, seg, hs, hP, hperm, hl, hr⟩ := splitRange_ok o b points range P hnth hfind hne hv
      have hsl : seg.length = range.length := hperm.length_eq
      obtain ⟨tl, hl1, hl2, hl3, hl4, hl5, hl6, hl7⟩ := buildT_ok o b points P hnth hfind hm fuel
        (seg.take (range.length / 2)) (by rw [List.length_take]; omega)
        (fun i hi => hv i (hperm.mem_iff.1 (List.mem_of_mem_take hi)))
      obtain ⟨tr, hr1, hr2, hr3, hr4, hr5, hr6, hr7⟩ := buildT_ok o b points P hnth hfind hm fuel
        (seg.drop (range.length / 2)) (by rw [List.length_drop]; omega)
        (fun i hi => hv i (hperm.mem_iff.1 (List.mem_of_mem_drop hi)))
      refine ⟨.node proj th tl tr, ?_, ?_, ?_, ⟨hP, hl4, hr4⟩, ⟨hl5, hr5⟩, ?_, ?_⟩
      · rw [hs]; simp only [bind, Except.bind, pure, Except.pure]; rw [hl1]; simp only; rw [hr1]
      · refine (hl2.append hr2).trans ?_
        rw [List.take_append_drop]; exact hperm
      · refine ⟨?_, ?_, hl3, hr3⟩
        · intro i hi; exact hl i (hl2.mem_iff.1 hi)
        · intro i hi; exact hr i (hr2.mem_iff.1 hi)
      · simp only [KT.depth]; omega
      · intro h3 _
        have e1 := hl7 h3 (by rw [List.length_take]; omega)
        have e2 := hr7 h3 (by rw [List.length_drop]; omega)
        rw [List.length_take] at e1
        rw [List.length_drop] at e2
        simp only [KT.size]; omega

/-! ### Node array -/

/-- Abstract tree decorated with node ids and index positions. -/
inductive DT (D : Type) where
  | leaf (id first : Nat) (items : List Nat)
  | node (id : Nat) (proj : Proj D) (thresh : D) (l r : DT D)

namespace DT

def root : DT D → Nat
  | leaf id _ _ => id
  | node id _ _ _ _ => id

def erase : DT D → KT D
  | leaf _ _ is => .leaf is
  | node _ p th l r => .node p th l.erase r.erase

def ids : DT D → List Nat
  | leaf id _ _ => [id]
  | node id _ _ l r => id :: (l.ids ++ r.ids)

def items : DT D → List Nat
  | leaf _ _ is => is
  | node _ _ _ l r => l.items ++ r.items

/-- Leaves occupy consecutive positions starting at `f`. -/
def Span : Nat → DT D → Prop
  | f, leaf _ first _ => first = f
  | f, node _ _ _ l r => Span f l ∧ Span (f + l.items.length) r

/-- The node array contains the tree. -/
def NodesOK (nodes : List (Node D)) : DT D → Prop
  | leaf id first is => nodes[id]? = some ⟨.leaf first (first + is.length), INVALID_NODE, INVALID_NODE⟩
  | node id p th l r => nodes[id]? = some ⟨.sub p th, l.root, r.root⟩ ∧ l.root ≠ INVALID_NODE ∧
      NodesOK nodes l ∧ NodesOK nodes r

omit [LinearOrder D] in
theorem items_erase : ∀ t : DT D, t.erase.items = t.items
  | leaf _ _ _ => rfl
  | node _ _ _ l r => by simp [erase, KT.items, items, items_erase l, items_erase r]

omit [LinearOrder D] in
theorem root_mem_ids (t : DT D) : t.root ∈ t.ids := by cases t <;> simp [root, ids]

omit [LinearOrder D] in
theorem NodesOK.congr {n1 n2 : List (Node D)} : ∀ {t : DT D}, NodesOK n1 t → (∀ i ∈ t.ids, n2[i]? = n1[i]?) → NodesOK n2 t
  | leaf id first is, h, he => by
    unfold NodesOK at *; rw [he id (by simp [ids])]; exact h
  | node id p th l r, h, he => by
    refine ⟨by rw [he id (by simp [ids])]; exact h.1, h.2.1, NodesOK.congr h.2.2.1 ?_, NodesOK.congr h.2.2.2 ?_⟩
    · intro i hi; exact he i (by simp [ids, hi])
    · intro i hi; exact he i (by simp [ids, hi])

omit [LinearOrder D] in
theorem represents {nodes : List (Node D)} {indices : List Nat} : ∀ (t : DT D) (f : Nat), NodesOK nodes t → Span f t →
    f + t.items.length ≤ indices.length → slice indices f (f + t.items.length) = t.items →
    Represents nodes indices t.root t.erase
  | leaf id first is, f, hn, hs, hb, hsl => by
    have hs' : first = f := hs
    subst hs'
    unfold NodesOK at hn
    have := Represents.leaf (D := D) (indices := indices) id first (first + is.length) hn (by omega) hb
    have e : slice indices first (first + is.length) = is := hsl
    rw [e] at this
    exact this
  | node id p th l r, f, hn, hs, hb, hsl => by
    simp only [items, List.length_append] at hb hsl
    have e1 : slice indices f (f + l.items.length) = l.items := by
      have := congrArg (List.take l.items.length) hsl
      rw [List.take_append_of_le_length (le_refl _), List.take_length] at this
      have h2 := take_slice (l := indices) (a := f) (b := f + (l.items.length + r.items.length))
        (c := f + l.items.length) (by omega)
      rw [Nat.add_sub_cancel_left] at h2
      rw [← h2]; exact this
    have e2 : slice indices (f + l.items.length) (f + l.items.length + r.items.length) = r.items := by
      have := congrArg (List.drop l.items.length) hsl
      rw [List.drop_append_of_le_length (le_refl _), List.drop_length, List.nil_append] at this
      have h2 := drop_slice (l := indices) (a := f) (b := f + (l.items.length + r.items.length))
        (c := f + l.items.length) (by omega)
      rw [Nat.add_sub_cancel_left] at h2
      rw [Nat.add_assoc, ← h2]; exact this
    exact Represents.node id l.root r.root p th l.erase r.erase hn.1 hn.2.1
      (represents l f hn.2.2.1 hs.1 (by omega) e1)
      (represents r (f + l.items.length) hn.2.2.2 hs.2 (by omega) e2)

end DT

theorem toU32_of_lt {n : Nat} (h : n < 2 ^ 32) : toU32 n = n := Nat.mod_eq_of_lt h

omit [LinearOrder D] in
theorem items_length_of_buildT (o : Ops D) (b : Builder D) (points : List (Pt D))
    (hnth : ∀ l n, (b.nthElement l n).Perm l) : ∀ (fuel : Nat) (range : List Nat) (t : KT D),
    buildT o b points fuel range = .ok t → t.items.length = range.length
  | 0, range, t, h => by simp [buildT] at h
  | fuel + 1, range, t, h => by
    unfold buildT at h
    split at h
    · cases h; rfl
    · simp only [bind, Except.bind, pure, Except.pure] at h
      rcases hs : splitRange o b points range with e | ⟨proj, th, seg⟩
      · rw [hs] at h; simp at h
      · rw [hs] at h
        simp only at h
        rcases hl : buildT o b points fuel (seg.take (range.length / 2)) with e | tl
        · rw [hl] at h; simp at h
        · rw [hl] at h
          simp only at h
          rcases hr : buildT o b points fuel (seg.drop (range.length / 2)) with e | tr
          · rw [hr] at h; simp at h
          · rw [hr] at h
            simp only [Except.ok.injEq] at h
            subst h
            have e1 := items_length_of_buildT o b points hnth fuel _ _ hl
            have e2 := items_length_of_buildT o b points hnth fuel _ _ hr
            have hsl : seg.length = range.length := splitRange_length o b points hnth range hs
            simp only [KT.items, List.length_append, e1, e2, List.length_take, List.length_drop]
            omega
where
  splitRange_length (o : Ops D) (b : Builder D) (points : List (Pt D)) (hnth : ∀ l n, (b.nthElement l n).Perm l)
      (range : List Nat) {proj : Proj D} {th : D} {seg : List Nat}
      (h : splitRange o b points range = .ok (proj, th, seg)) : seg.length = range.length := by
    unfold splitRange at h
    simp only [bind, Except.bind, pure, Except.pure] at h
    rcases hf : b.findAxis points range with e | p
    · rw [hf] at h; simp at h
    · rw [hf] at h; simp only at h
      rcases hk : projectRange o points p range with e | keyed
      · rw [hk] at h; simp at h
      · rw [hk] at h; simp only at h
        rcases hr : rd (b.nthElement keyed (range.length / 2)) (range.length / 2) with e | m
        · rw [hr] at h; simp at h
        · rw [hr] at h
          simp only [Except.ok.injEq, Prod.mk.injEq] at h
          rw [← h.2.2, List.length_map, (hnth _ _).length_eq]
          exact mapM_length _ _ _ hk
  mapM_length {α β : Type} (f : α → Res β) : ∀ (l : List α) (r : List β), l.mapM f = .ok r → r.length = l.length
    | [], r, h => by cases h; rfl
    | x :: l, r, h => by
      rw [List.mapM_cons] at h
      simp only [bind, Except.bind, pure, Except.pure] at h
      rcases hx : f x with e | y
      · rw [hx] at h; simp at h
      · rw [hx] at h; simp only at h
        rcases hl : l.mapM f with e | ys
        · rw [hl] at h; simp at h
        · rw [hl] at h
          simp only [Except.ok.injEq] at h
          rw [← h]; simp [mapM_length f l ys hl]

omit [LinearOrder D] in
/-- The array-level `create_node` realises the abstract tree in the slots `nodeCount ..< nodeCount + size`. -/
theorem createNode_ok (o : Ops D) (b : Builder D) (points : List (Pt D)) (hnth : ∀ l n, (b.nthElement l n).Perm l) :
    ∀ (fuel first last : Nat) (s : BuildState D) (t : KT D), first ≤ last → last ≤ s.indices.length →
    s.indices.length < 2 ^ 32 → s.nodes.length < 2 ^ 32 →
    buildT o b points fuel (slice s.indices first last) = .ok t →
    s.nodeCount + t.size ≤ s.nodes.length →
    (∀ j, s.nodeCount ≤ j → j < s.nodes.length → s.nodes[j]? = some Node.fresh) →
    ∃ (s' : BuildState D) (dt : DT D), createNode o b points fuel first last s = .ok (s.nodeCount, s') ∧
      dt.erase = t ∧ dt.root = s.nodeCount ∧ dt.Span first ∧ dt.NodesOK s'.nodes ∧
      (∀ i ∈ dt.ids, s.nodeCount ≤ i ∧ i < s.nodeCount + t.size) ∧
      s'.nodeCount = s.nodeCount + t.size ∧ s'.indices = overwrite s.indices first last t.items ∧
      s'.nodes.length = s.nodes.length ∧
      (∀ j, j < s.nodeCount ∨ s.nodeCount + t.size ≤ j → s'.nodes[j]? = s.nodes[j]?)
  | 0, _, _, _, _, _, _, _, _, h, _, _ => by simp [buildT] at h
  | fuel + 1, first, last, s, t, h1, h2, hi32, hn32, hb, hsz, hfresh => by
    have hslen := slice_length h1 h2
    have hts : 1 ≤ t.size := by cases t <;> simp [KT.size]; omega
    have hu : toU32 s.nodeCount = s.nodeCount := toU32_of_lt (by omega)
    unfold buildT at hb
    unfold createNode
    simp only [hu, bind, Except.bind, pure, Except.pure]
    rw [hslen] at hb
    by_cases hleaf : isLeafSize (last - first) b.maxLeafSize
    · rw [if_pos hleaf] at hb ⊢
      simp only [Except.ok.injEq] at hb
      subst hb
      rw [rd_of_getElem? (hfresh s.nodeCount (le_refl _) (by omega))]
      simp only
      rw [wr_of_lt _ (by omega)]
      simp only
      refine ⟨_, .leaf s.nodeCount first (slice s.indices first last), rfl, rfl, rfl, rfl, ?_, ?_, ?_, ?_, ?_, ?_⟩
      · unfold DT.NodesOK
        rw [toU32_of_lt (by omega : first < 2 ^ 32), toU32_of_lt (by omega : last < 2 ^ 32), hslen]
        simp only [Node.fresh]
        rw [List.getElem?_set_self (by omega)]
        congr 3; omega
      · intro i hi; simp only [DT.ids, List.mem_singleton] at hi; subst hi; simp [KT.size]
      · simp [KT.size]
      · simp only [KT.items]
        symm
        apply List.ext_getElem?
        intro i
        rw [getElem?_overwrite h1 h2 hslen, getElem?_slice]
        split
        · rfl
        · split
          · rw [if_pos (by omega)]; congr 1; omega
          · rfl
      · simp
      · intro j hj
        simp only [KT.size] at hj
        rw [List.getElem?_set_ne (by omega)]
    · rw [if_neg hleaf] at hb ⊢
      simp only [bind, Except.bind, pure, Except.pure] at hb
      rcases hs : splitRange o b points (slice s.indices first last) with e | ⟨proj, th, seg⟩
      · rw [hs] at hb; simp at hb
      rw [hs] at hb
      simp only at hb ⊢
      have hseg : seg.length = last - first := by
        rw [items_length_of_buildT.splitRange_length o b points hnth _ hs, hslen]
      rcases hl : buildT o b points fuel (seg.take ((last - first) / 2)) with e | tl
      · rw [hl] at hb; simp at hb
      rw [hl] at hb; simp only at hb
      rcases hr : buildT o b points fuel (seg.drop ((last - first) / 2)) with e | tr
      · rw [hr] at hb; simp at hb
      rw [hr] at hb
      simp only [Except.ok.injEq] at hb
      subst hb
      simp only [KT.size] at hsz hts
      have hmid : (last - first) / 2 ≤ last - first := by omega
      generalize hM : (last - first) / 2 = M at *
      -- state after splitting and writing the node payload
      rw [rd_of_getElem? (hfresh s.nodeCount (le_refl _) (by omega))]
      simp only
      rw [wr_of_lt _ (by omega)]
      simp only
      -- left child
      have hov := overwrite_length h1 h2 hseg
      obtain ⟨s1, dl, hc1, he1, hr1, hsp1, hno1, hid1, hnc1, hin1, hnl1, hfr1⟩ :=
        createNode_ok o b points hnth fuel first (first + M)
          ⟨overwrite s.indices first last seg,
            s.nodes.set s.nodeCount { (Node.fresh : Node D) with payload := .sub proj th }, s.nodeCount + 1⟩ tl
          (by omega) (by simp only [hov]; omega) (by simp only [hov]; omega)
          (by simpa using hn32)
          (by
            simp only
            rw [slice_overwrite_sub h1 h2 hseg (le_refl _) (by omega), ← hl]
            congr 1
            simp [slice])
          (by simp only [List.length_set]; omega)
          (by
            intro j hj hj'
            simp only [List.length_set] at hj hj' ⊢
            rw [List.getElem?_set_ne (by omega)]
            exact hfresh j (by omega) hj')
      simp only at hc1 hr1 hid1 hnc1 hin1 hnl1 hfr1
      rw [hc1]
      simp only
      simp only [List.length_set] at hnl1
      have g1 : s1.nodes[s.nodeCount]? = some ⟨.sub proj th, INVALID_NODE, INVALID_NODE⟩ := by
        rw [hfr1 _ (Or.inl (by omega)), List.getElem?_set_self (by omega)]; rfl
      rw [rd_of_getElem? g1]
      simp only
      rw [wr_of_lt _ (by omega)]
      simp only
      have hitl : tl.items.length = M := by
        rw [items_length_of_buildT o b points hnth _ _ _ hl, List.length_take]; omega
      have hitr : tr.items.length = last - first - M := by
        rw [items_length_of_buildT o b points hnth _ _ _ hr, List.length_drop]; omega
      -- index array after the left child
      have hidx1 : s1.indices = overwrite s.indices first last (tl.items ++ seg.drop M) := by
        rw [hin1, overwrite_overwrite_left (by omega) (by omega) h2 hseg (by omega)]
        congr 3; omega
      have hlen1 : (tl.items ++ seg.drop M).length = last - first := by
        rw [List.length_append, List.length_drop]; omega
      have hov1 : s1.indices.length = s.indices.length := by
        rw [hidx1]; exact overwrite_length h1 h2 hlen1
      -- right child
      obtain ⟨s2, dr, hc2, he2, hr2, hsp2, hno2, hid2, hnc2, hin2, hnl2, hfr2⟩ :=
        createNode_ok o b points hnth fuel (first + M) last
          ⟨s1.indices, s1.nodes.set s.nodeCount ⟨.sub proj th, s.nodeCount + 1, INVALID_NODE⟩, s1.nodeCount⟩ tr
          (by omega) (by simp only; omega) (by simp only; omega)
          (by simp only [List.length_set]; omega)
          (by
            simp only
            rw [hidx1, slice_overwrite_sub h1 h2 hlen1 (by omega) (le_refl _), ← hr]
            congr 1
            have : first + M - first = M := by omega
            rw [this]
            unfold slice
            rw [List.drop_append_of_le_length (by omega), List.drop_of_length_le (by omega), List.nil_append,
              List.take_of_length_le]
            rw [List.length_drop]; omega)
          (by simp only [List.length_set]; omega)
          (by
            intro j hj hj'
            simp only [List.length_set] at hj hj' ⊢
            rw [List.getElem?_set_ne (by omega), hfr1 j (Or.inr (by omega)), List.getElem?_set_ne (by omega)]
            exact hfresh j (by omega) (by omega))
      simp only at hc2 hr2 hid2 hnc2 hin2 hnl2 hfr2
      rw [hc2]
      simp only
      simp only [List.length_set] at hnl2
      have g2 : s2.nodes[s.nodeCount]? = some ⟨.sub proj th, s.nodeCount + 1, INVALID_NODE⟩ := by
        rw [hfr2 _ (Or.inl (by omega)), List.getElem?_set_self (by omega)]
      rw [rd_of_getElem? g2]
      simp only
      rw [wr_of_lt _ (by omega)]
      refine ⟨_, .node s.nodeCount proj th dl dr, rfl, ?_, rfl, ⟨hsp1, ?_⟩, ⟨?_, ?_, ?_, ?_⟩, ?_, ?_, ?_, ?_, ?_⟩
      · simp [DT.erase, he1, he2]
      · rw [← DT.items_erase dl, he1, hitl]; exact hsp2
      · rw [List.getElem?_set_self (by omega), hr1, hr2]
      · have : 1 ≤ tr.size := by cases tr <;> simp [KT.size]; omega
        rw [hr1]; unfold INVALID_NODE; omega
      · apply hno1.congr
        intro i hi
        have := hid1 i hi
        rw [List.getElem?_set_ne (by omega), hfr2 i (Or.inl (by omega)), List.getElem?_set_ne (by omega)]
      · apply hno2.congr
        intro i hi
        have := hid2 i hi
        rw [List.getElem?_set_ne (by omega)]
      · intro i hi
        simp only [DT.ids, List.mem_cons, List.mem_append] at hi
        simp only [KT.size]
        rcases hi with e | e | e
        · omega
        · have := hid1 i e; omega
        · have := hid2 i e; omega
      · simp only [KT.size]; omega
      · simp only [KT.items]
        rw [hin2, hidx1, overwrite_overwrite_right (by omega) (by omega) h2 hlen1 (by omega)]
        congr 2
        rw [List.take_append_of_le_length (by omega), List.take_of_length_le (by omega)]
      · simp only [List.length_set]; omega
      · intro j hj
        simp only [KT.size] at hj
        rw [List.getElem?_set_ne (by omega), hfr2 j (by omega), List.getElem?_set_ne (by omega), hfr1 j (by omega),
          List.getElem?_set_ne (by omega)]

end Verif.Proofs
