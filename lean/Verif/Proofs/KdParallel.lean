import Verif.Model.KdTreeParallel
import Verif.Proofs.KdExact

/-!
Every schedule of the parallel builders realises the abstract tree `buildT`.
-/

set_option linter.unusedSectionVars false

namespace Verif.Proofs

open Verif Verif.Knn Verif.KdTree

variable {D : Type}

/-- Number of steps needed for a tree (including the parent's store). -/
def work : KT D → Nat
  | .leaf _ => 3
  | .node _ _ l r => 5 + work l + work r

/-- Value of the parent's link while the child is in the given state. -/
def linkOf : Proc D → Nat
  | .stored c => c
  | _ => INVALID_NODE

/-- `ProcInv s f l p t ids m`: process `p` owns the index range `[f, l)` and the node slots `ids`, is going to
realise the tree `t` there, and has `m` steps left. -/
inductive ProcInv (o : Ops D) (b : Builder D) (points : List (Pt D)) (s : BuildState D) :
    Nat → Nat → Proc D → KT D → List Nat → Nat → Prop
  | start (f l fuel : Nat) (t : KT D) (hfl : f ≤ l) (hb : buildT o b points fuel (slice s.indices f l) = .ok t) :
      ProcInv o b points s f l (.start f l) t [] (work t)
  | alloc (f l fuel id : Nat) (t : KT D) (hfl : f ≤ l) (hb : buildT o b points fuel (slice s.indices f l) = .ok t)
      (hn : s.nodes[id]? = some Node.fresh) :
      ProcInv o b points s f l (.alloc id f l) t [id] (work t - 1)
  | split (f mid l f1 f2 id : Nat) (proj : Proj D) (th : D) (tl tr : KT D) (h1 : f ≤ mid) (h2 : mid ≤ l)
      (hl : buildT o b points f1 (slice s.indices f mid) = .ok tl)
      (hr : buildT o b points f2 (slice s.indices mid l) = .ok tr)
      (hn : s.nodes[id]? = some Node.fresh) :
      ProcInv o b points s f l (.split id f mid l proj th) (.node proj th tl tr) [id] (3 + work tl + work tr)
  | node (f mid l id : Nat) (par : Bool) (proj : Proj D) (th : D) (pl pr : Proc D) (tl tr : KT D) (il ir : List Nat)
      (ml mr : Nat) (h1 : f ≤ mid) (h2 : mid ≤ l)
      (hl : ProcInv o b points s f mid pl tl il ml) (hr : ProcInv o b points s mid l pr tr ir mr)
      (hn : s.nodes[id]? = some ⟨.sub proj th, linkOf pl, linkOf pr⟩) :
      ProcInv o b points s f l (.node id par pl pr) (.node proj th tl tr) (id :: (il ++ ir)) (2 + ml + mr)
  | ret (f l : Nat) (dt : DT D) (hfl : f ≤ l) (hsp : dt.Span f) (hno : dt.NodesOK s.nodes)
      (hsl : slice s.indices f l = dt.items) :
      ProcInv o b points s f l (.ret dt.root) dt.erase dt.ids 1
  | stored (f l : Nat) (dt : DT D) (hfl : f ≤ l) (hsp : dt.Span f) (hno : dt.NodesOK s.nodes)
      (hsl : slice s.indices f l = dt.items) :
      ProcInv o b points s f l (.stored dt.root) dt.erase dt.ids 0

theorem KT.size_pos' : ∀ t : KT D, 1 ≤ t.size
  | .leaf _ => by simp [KT.size]
  | .node _ _ l r => by simp [KT.size]; omega

theorem DT.ids_length : ∀ dt : DT D, dt.ids.length = dt.erase.size
  | .leaf _ _ _ => rfl
  | .node _ _ _ l r => by simp [DT.ids, DT.erase, KT.size, DT.ids_length l, DT.ids_length r]; omega

theorem slice_congr {α : Type} {l1 l2 : List α} {a b : Nat} (h : ∀ i, a ≤ i → i < b → l2[i]? = l1[i]?) :
    slice l2 a b = slice l1 a b := by
  apply List.ext_getElem?
  intro i
  rw [getElem?_slice, getElem?_slice]
  split
  · exact h _ (by omega) (by omega)
  · rfl

section
variable {o : Ops D} {b : Builder D} {points : List (Pt D)}

theorem ProcInv.le {s : BuildState D} {f l p t ids m} (h : ProcInv o b points s f l p t ids m) : f ≤ l := by
  cases h <;> omega

theorem ProcInv.ids_le {s : BuildState D} {f l p t ids m} (h : ProcInv o b points s f l p t ids m) :
    ids.length ≤ t.size := by
  induction h with
  | start => simp
  | alloc f l fuel id t => simpa using KT.size_pos' t
  | split => simp [KT.size]; omega
  | node f mid l id par proj th pl pr tl tr il ir ml mr h1 h2 hl hr hn ihl ihr =>
    simp only [List.length_cons, List.length_append, KT.size]; omega
  | ret f l dt => exact (DT.ids_length dt).le
  | stored f l dt => exact (DT.ids_length dt).le

/-- A process is not affected by changes outside its range and slots. -/
theorem ProcInv.frame {s s' : BuildState D} {f l p t ids m} (h : ProcInv o b points s f l p t ids m) :
    (∀ i, f ≤ i → i < l → s'.indices[i]? = s.indices[i]?) → (∀ i ∈ ids, s'.nodes[i]? = s.nodes[i]?) →
    ProcInv o b points s' f l p t ids m := by
  induction h with
  | start f l fuel t hfl hb =>
    intro hi _
    exact .start f l fuel t hfl (by rw [slice_congr hi]; exact hb)
  | alloc f l fuel id t hfl hb hn =>
    intro hi hn'
    exact .alloc f l fuel id t hfl (by rw [slice_congr hi]; exact hb) (by rw [hn' id (by simp)]; exact hn)
  | split f mid l f1 f2 id proj th tl tr h1 h2 hl hr hn =>
    intro hi hn'
    refine .split f mid l f1 f2 id proj th tl tr h1 h2 ?_ ?_ (by rw [hn' id (by simp)]; exact hn)
    · rw [slice_congr (fun i a b => hi i a (by omega))]; exact hl
    · rw [slice_congr (fun i a b => hi i (by omega) b)]; exact hr
  | node f mid l id par proj th pl pr tl tr il ir ml mr h1 h2 hl hr hn ihl ihr =>
    intro hi hn'
    refine .node f mid l id par proj th pl pr tl tr il ir ml mr h1 h2 (ihl ?_ ?_) (ihr ?_ ?_)
      (by rw [hn' id (by simp)]; exact hn)
    · intro i a b; exact hi i a (by omega)
    · intro i a; exact hn' i (by simp [a])
    · intro i a b; exact hi i (by omega) b
    · intro i a; exact hn' i (by simp [a])
  | ret f l dt hfl hsp hno hsl =>
    intro hi hn'
    exact .ret f l dt hfl hsp (hno.congr hn') (by rw [slice_congr hi]; exact hsl)
  | stored f l dt hfl hsp hno hsl =>
    intro hi hn'
    exact .stored f l dt hfl hsp (hno.congr hn') (by rw [slice_congr hi]; exact hsl)

/-- Conditions on the shared state under which a process with slots `ids` and tree `t` can run. -/
structure SharedOK (s : BuildState D) (l : Nat) (ids : List Nat) (t : KT D) : Prop where
  idx : l ≤ s.indices.length
  idx32 : s.indices.length < 2 ^ 32
  n32 : s.nodes.length < 2 ^ 32
  nodup : ids.Nodup
  lt : ∀ i ∈ ids, i < s.nodeCount
  fresh : ∀ j, s.nodeCount ≤ j → j < s.nodes.length → s.nodes[j]? = some Node.fresh
  room : s.nodeCount + (t.size - ids.length) ≤ s.nodes.length

/-- Effect of one step of a process with range `[f, l)` and slots `ids`. -/
structure StepOK (o : Ops D) (b : Builder D) (points : List (Pt D)) (s : BuildState D) (f l : Nat) (t : KT D)
    (ids : List Nat) (m : Nat) (p' : Proc D) (s' : BuildState D) (ids' : List Nat) : Prop where
  inv : ProcInv o b points s' f l p' t ids' (m - 1)
  pos : 1 ≤ m
  ilen : s'.indices.length = s.indices.length
  nlen : s'.nodes.length = s.nodes.length
  iframe : ∀ i, i < f ∨ l ≤ i → s'.indices[i]? = s.indices[i]?
  count : (ids' = ids ∧ s'.nodeCount = s.nodeCount) ∨
    (ids'.Perm (s.nodeCount :: ids) ∧ s'.nodeCount = s.nodeCount + 1)
  nframe : ∀ j, j ∉ ids → s'.nodes[j]? = s.nodes[j]?

theorem work_pos : ∀ t : KT D, 3 ≤ work t
  | .leaf _ => by simp [work]
  | .node _ _ l r => by simp [work]; omega

theorem allocStep_ok (hnth : ∀ l n, (b.nthElement l n).Perm l) {s : BuildState D} {f l fuel id : Nat} {t : KT D} (hfl : f ≤ l)
    (hb : buildT o b points fuel (slice s.indices f l) = .ok t) (hn : s.nodes[id]? = some Node.fresh)
    (hs : SharedOK s l [id] t) :
    ∃ p' s', allocStep o b points id f l s = .ok (p', s') ∧ StepOK o b points s f l t [id] (work t - 1) p' s' [id] := by
  have hlt : id < s.nodes.length := (List.getElem?_eq_some_iff.1 hn).1
  have hslen := slice_length hfl hs.idx
  cases fuel with
  | zero => simp [buildT] at hb
  | succ fuel =>
    unfold buildT at hb
    rw [hslen] at hb
    unfold allocStep
    simp only [bind, Except.bind, pure, Except.pure]
    by_cases hleaf : isLeafSize (l - f) b.maxLeafSize
    · rw [if_pos hleaf] at hb ⊢
      simp only [Except.ok.injEq] at hb
      subst hb
      rw [rd_of_getElem? hn]
      simp only
      rw [wr_of_lt _ hlt]
      refine ⟨_, _, rfl, ?_, by simp [work], rfl, by simp, fun _ _ => rfl, Or.inl ⟨rfl, rfl⟩, ?_⟩
      · have := ProcInv.ret (o := o) (b := b) (points := points)
          (s := { s with nodes := s.nodes.set id { (Node.fresh : Node D) with payload := .leaf (toU32 f) (toU32 l) } })
          f l (.leaf id f (slice s.indices f l)) hfl rfl ?_ rfl
        · exact this
        · unfold DT.NodesOK
          have h1 := hs.idx; have h2 := hs.idx32
          rw [toU32_of_lt (by omega : f < 2 ^ 32), toU32_of_lt (by omega : l < 2 ^ 32), hslen]
          simp only [Node.fresh]
          rw [List.getElem?_set_self hlt]
          congr 3; omega
      · intro j hj
        simp only [List.mem_singleton] at hj
        exact List.getElem?_set_ne (by omega)
    · rw [if_neg hleaf] at hb ⊢
      simp only [bind, Except.bind, pure, Except.pure] at hb
      rcases hsp : splitRange o b points (slice s.indices f l) with e | ⟨proj, th, seg⟩
      · rw [hsp] at hb; simp at hb
      rw [hsp] at hb
      simp only at hb ⊢
      have hseg : seg.length = l - f := by
        rw [items_length_of_buildT.splitRange_length o b points hnth _ hsp, hslen]
      rcases hl : buildT o b points fuel (seg.take ((l - f) / 2)) with e | tl
      · rw [hl] at hb; simp at hb
      rw [hl] at hb; simp only at hb
      rcases hr : buildT o b points fuel (seg.drop ((l - f) / 2)) with e | tr
      · rw [hr] at hb; simp at hb
      rw [hr] at hb
      simp only [Except.ok.injEq] at hb
      subst hb
      have hov := overwrite_length hfl hs.idx hseg
      refine ⟨_, _, rfl, ?_, by simp [work]; omega, hov, rfl, ?_, Or.inl ⟨rfl, rfl⟩, fun _ _ => rfl⟩
      · have := ProcInv.split (o := o) (b := b) (points := points)
          (s := { s with indices := overwrite s.indices f l seg })
          f (f + (l - f) / 2) l fuel fuel id proj th tl tr (by omega) (by omega) ?_ ?_ hn
        · have e : work (KT.node proj th tl tr) - 1 - 1 = 3 + work tl + work tr := by simp only [work]; omega
          rw [e]; exact this
        · rw [slice_overwrite_sub hfl hs.idx hseg (le_refl _) (by omega), ← hl]
          congr 1
          simp [slice]
        · rw [slice_overwrite_sub hfl hs.idx hseg (by omega) (le_refl _), ← hr]
          congr 1
          have : f + (l - f) / 2 - f = (l - f) / 2 := by omega
          rw [this]
          unfold slice
          rw [List.take_of_length_le]
          rw [List.length_drop]; omega
      · intro i hi
        simp only
        rw [getElem?_overwrite hfl hs.idx hseg]
        rcases hi with hi | hi
        · rw [if_pos hi]
        · rw [if_neg (by omega), if_neg (by omega)]

theorem linkOf_not_stored {p : Proc D} (h : p.isStored = false) : linkOf p = INVALID_NODE := by
  cases p <;> simp_all [Proc.isStored, linkOf]

/-- A stored child is a finished tree. -/
theorem ProcInv.of_stored {s : BuildState D} {f l c t ids m} (h : ProcInv o b points s f l (.stored c) t ids m) :
    ∃ dt : DT D, c = dt.root ∧ t = dt.erase ∧ ids = dt.ids ∧ m = 0 ∧ dt.Span f ∧ dt.NodesOK s.nodes ∧
      slice s.indices f l = dt.items := by
  cases h with
  | stored f l dt hfl hsp hno hsl => exact ⟨dt, rfl, rfl, rfl, rfl, hsp, hno, hsl⟩

theorem ProcInv.of_ret {s : BuildState D} {f l c t ids m} (h : ProcInv o b points s f l (.ret c) t ids m) :
    ∃ dt : DT D, c = dt.root ∧ t = dt.erase ∧ ids = dt.ids ∧ m = 1 ∧ dt.Span f ∧ dt.NodesOK s.nodes ∧
      slice s.indices f l = dt.items := by
  cases h with
  | ret f l dt hfl hsp hno hsl => exact ⟨dt, rfl, rfl, rfl, rfl, hsp, hno, hsl⟩

theorem map_ok_iff {α β : Type} {r : Res α} {g : α → β} {y : β} : r.map g = .ok y ↔ ∃ x, r = .ok x ∧ g x = y := by
  cases r with
  | error e => simp [Except.map]
  | ok x => simp [Except.map]

/-- A step neither produces nor consumes a stored child (only the parent does). -/
theorem step_ne_stored (path : List Bool) (p : Proc D) (s : BuildState D) {p' s'}
    (h : step o b points path p s = some (.ok (p', s'))) : p'.isStored = false ∧ p.isStored = false := by
  unfold step at h
  split at h
  · cases h; exact ⟨rfl, rfl⟩
  · simp only [Option.some.injEq] at h
    refine ⟨?_, rfl⟩
    unfold allocStep at h
    simp only [bind, Except.bind, pure, Except.pure] at h
    repeat' (first | (cases h; done) | (cases h; rfl) | split at h)
  · simp only [Option.some.injEq] at h
    refine ⟨?_, rfl⟩
    unfold splitStep at h
    simp only [bind, Except.bind, pure, Except.pure] at h
    repeat' (first | (cases h; done) | (cases h; rfl) | split at h)
  · split at h
    · cases h; exact ⟨rfl, rfl⟩
    · cases h
  · refine ⟨?_, rfl⟩
    split at h
    · split at h
      · simp only [Option.some.injEq] at h
        obtain ⟨_, _, h⟩ := map_ok_iff.1 h
        cases h; rfl
      · cases h
    · obtain ⟨_, _, h⟩ := Option.map_eq_some_iff.1 h
      obtain ⟨_, _, h⟩ := map_ok_iff.1 h
      cases h; rfl
  · refine ⟨?_, rfl⟩
    split at h
    · split at h
      · split at h
        · simp only [Option.some.injEq] at h
          obtain ⟨_, _, h⟩ := map_ok_iff.1 h
          cases h; rfl
        · cases h
      · obtain ⟨_, _, h⟩ := Option.map_eq_some_iff.1 h
        obtain ⟨_, _, h⟩ := map_ok_iff.1 h
        cases h; rfl
    · cases h
  · cases h

/-- Main lemma: a scheduled step of a process succeeds, keeps the invariant and touches only its own range and slots. -/
theorem step_ok (hnth : ∀ l n, (b.nthElement l n).Perm l) {s : BuildState D} {f l p t ids m}
    (h : ProcInv o b points s f l p t ids m) :
    ∀ (path : List Bool) (res), step o b points path p s = some res → SharedOK s l ids t →
      ∃ p' s' ids', res = .ok (p', s') ∧ StepOK o b points s f l t ids m p' s' ids' := by
  induction h with
  | start f l fuel t hfl hb =>
    intro path res hstep hs
    cases path with
    | cons x xs => cases x <;> simp [step] at hstep
    | nil =>
      simp only [step, Option.some.injEq] at hstep
      subst hstep
      have hsz := KT.size_pos' t
      have hroom := hs.room
      simp only [List.length_nil, Nat.sub_zero] at hroom
      have h32 := hs.n32
      have hu : toU32 s.nodeCount = s.nodeCount := toU32_of_lt (by omega)
      have := work_pos t
      refine ⟨.alloc s.nodeCount f l, { s with nodeCount := s.nodeCount + 1 }, [s.nodeCount], by rw [hu], ?_, by omega, rfl, rfl, fun _ _ => rfl, Or.inr ⟨List.Perm.refl _, rfl⟩,
        fun _ _ => rfl⟩
      exact .alloc f l fuel s.nodeCount t hfl hb (hs.fresh _ (le_refl _) (by omega))
  | alloc f l fuel id t hfl hb hn =>
    intro path res hstep hs
    cases path with
    | cons x xs => cases x <;> simp [step] at hstep
    | nil =>
      simp only [step, Option.some.injEq] at hstep
      subst hstep
      obtain ⟨p', s', h1, h2⟩ := allocStep_ok hnth hfl hb hn hs
      exact ⟨p', s', _, h1, h2⟩
  | split f mid l f1 f2 id proj th tl tr h1 h2 hl hr hn =>
    intro path res hstep hs
    cases path with
    | cons x xs => cases x <;> simp [step] at hstep
    | nil =>
      simp only [step, Option.some.injEq] at hstep
      subst hstep
      have hlt : id < s.nodes.length := (List.getElem?_eq_some_iff.1 hn).1
      refine ⟨.node id (concurrent (l - f)) (.start f mid) (.start mid l),
        { s with nodes := s.nodes.set id { (Node.fresh : Node D) with payload := .sub proj th } }, [id], ?_, ?_,
        by omega, rfl, by simp, fun _ _ => rfl, Or.inl ⟨rfl, rfl⟩, ?_⟩
      · unfold splitStep
        rw [rd_of_getElem? hn]
        simp only [bind, Except.bind, pure, Except.pure]
        rw [wr_of_lt _ hlt]
      · have := ProcInv.node (o := o) (b := b) (points := points)
          (s := { s with nodes := s.nodes.set id { (Node.fresh : Node D) with payload := .sub proj th } })
          f mid l id (concurrent (l - f)) proj th (.start f mid) (.start mid l) tl tr [] [] (work tl) (work tr) h1 h2
          (.start f mid f1 tl h1 hl) (.start mid l f2 tr h2 hr) (by simp only; rw [List.getElem?_set_self hlt]; rfl)
        have e : 3 + work tl + work tr - 1 = 2 + work tl + work tr := by omega
        rw [e]; exact this
      · intro j hj
        simp only [List.mem_singleton] at hj
        exact List.getElem?_set_ne (by omega)
  | node f mid l id par proj th pl pr tl tr il ir ml mr h1 h2 hl hr hn ihl ihr =>
    intro path res hstep hs
    have hlt : id < s.nodes.length := (List.getElem?_eq_some_iff.1 hn).1
    have hnd := hs.nodup
    rw [List.nodup_cons, List.nodup_append] at hnd
    obtain ⟨hidn, hil, hir, hdis⟩ := hnd
    have hill := hl.ids_le
    have hirl := hr.ids_le
    have hroom := hs.room
    simp only [List.length_cons, List.length_append, KT.size] at hroom
    have hidl : id ∉ il := fun h => hidn (by simp [h])
    have hidr : id ∉ ir := fun h => hidn (by simp [h])
    have hsl : SharedOK s mid il tl := ⟨by have := hs.idx; omega, hs.idx32, hs.n32, hil,
      fun i hi => hs.lt i (by simp [hi]), hs.fresh, by omega⟩
    have hsr : SharedOK s l ir tr := ⟨hs.idx, hs.idx32, hs.n32, hir,
      fun i hi => hs.lt i (by simp [hi]), hs.fresh, by omega⟩
    cases path with
    | nil =>
      simp only [step] at hstep
      split at hstep
      · rename_i hst
        simp only [Option.some.injEq] at hstep
        subst hstep
        simp only [Bool.and_eq_true] at hst
        cases pl with
        | stored c1 =>
          cases pr with
          | stored c2 =>
            obtain ⟨d1, rfl, rfl, rfl, rfl, a1, a2, a3⟩ := hl.of_stored
            obtain ⟨d2, rfl, rfl, rfl, rfl, b1, b2, b3⟩ := hr.of_stored
            refine ⟨_, _, _, rfl, ?_, by omega, rfl, rfl, fun _ _ => rfl, Or.inl ⟨rfl, rfl⟩, fun _ _ => rfl⟩
            have hl1 : d1.items.length = mid - f := by
              rw [← a3, slice_length h1 (by have := hs.idx; omega)]
            refine .ret f l (.node id proj th d1 d2) (by omega) ⟨a1, ?_⟩ ⟨hn, ?_, a2, b2⟩ ?_
            · have e : f + d1.items.length = mid := by omega
              rw [e]; exact b1
            · have := hsl.lt _ (DT.root_mem_ids d1)
              have h3 := hs.n32
              have h4 : s.nodeCount ≤ s.nodes.length := by omega
              simp only [INVALID_NODE]; omega
            · simp only [DT.items]
              rw [← a3, ← b3, ← take_slice (l := s.indices) (a := f) (b := l) (c := mid) h2,
                ← drop_slice (l := s.indices) (a := f) (b := l) (c := mid) h1, List.take_append_drop]
          | _ => simp [Proc.isStored] at hst
        | _ => simp [Proc.isStored] at hst
      · cases hstep
    | cons x path =>
      cases x with
      | false =>
        by_cases hret : ∃ c, pl = .ret c
        · obtain ⟨c, rfl⟩ := hret
          simp only [step] at hstep
          split at hstep
          · simp only [Option.some.injEq] at hstep
            obtain ⟨d1, rfl, rfl, rfl, rfl, a1, a2, a3⟩ := hl.of_ret
            have hframe : ∀ i, i ≠ id → (s.nodes.set id ⟨.sub proj th, d1.root, linkOf pr⟩)[i]? = s.nodes[i]? :=
              fun i hi => List.getElem?_set_ne (by omega)
            refine ⟨.node id par (.stored d1.root) pr,
              { s with nodes := s.nodes.set id ⟨.sub proj th, d1.root, linkOf pr⟩ }, id :: (d1.ids ++ ir), ?_, ?_, by omega, rfl, by simp,
              fun _ _ => rfl, Or.inl ⟨rfl, rfl⟩, ?_⟩
            · rw [← hstep]
              unfold storeLeft
              rw [rd_of_getElem? hn]
              simp only [bind, Except.bind, pure, Except.pure]
              rw [wr_of_lt _ hlt]
              rfl
            · have := ProcInv.node (o := o) (b := b) (points := points)
                (s := { s with nodes := s.nodes.set id ⟨.sub proj th, d1.root, linkOf pr⟩ })
                f mid l id par proj th (.stored d1.root) pr d1.erase tr d1.ids ir 0 mr h1 h2
                (.stored f mid d1 h1 a1 (a2.congr fun i hi => hframe i (fun e => hidl (e ▸ hi))) a3)
                (hr.frame (fun _ _ _ => rfl) (fun i hi => hframe i (fun e => hidr (e ▸ hi))))
                (by simp only [linkOf]; exact List.getElem?_set_self hlt)
              have e : 2 + 1 + mr - 1 = 2 + 0 + mr := by omega
              rw [e]; exact this
            · intro j hj
              exact hframe j (fun e => hj (by simp [e]))
          · cases hstep
        · have hstep' : (step o b points path pl s).map (fun res => res.map (fun ls => (Proc.node id par ls.1 pr, ls.2))) = some res := by
            rw [← hstep]
            cases pl <;> first | rfl | exact absurd ⟨_, rfl⟩ hret
          obtain ⟨res1, hst1, rfl⟩ := Option.map_eq_some_iff.1 hstep'
          obtain ⟨p', s', ids', rfl, hk⟩ := ihl path res1 hst1 hsl
          obtain ⟨hns', hns⟩ := step_ne_stored _ _ _ hst1
          have hnid : s'.nodes[id]? = s.nodes[id]? := hk.nframe id hidl
          refine ⟨.node id par p' pr, s', id :: (ids' ++ ir), rfl, ?_, by have := hk.pos; omega, hk.ilen, hk.nlen,
            ?_, ?_, ?_⟩
          · have := ProcInv.node (o := o) (b := b) (points := points) (s := s')
              f mid l id par proj th p' pr tl tr ids' ir (ml - 1) mr h1 h2 hk.inv
              (hr.frame (fun i hi _ => hk.iframe i (Or.inr hi)) (fun i hi => hk.nframe i (fun hi' => hdis i hi' i hi rfl)))
              (by rw [hnid, hn, linkOf_not_stored hns, linkOf_not_stored hns'])
            have e : 2 + ml + mr - 1 = 2 + (ml - 1) + mr := by have := hk.pos; omega
            rw [e]; exact this
          · intro i hi; exact hk.iframe i (by omega)
          · rcases hk.count with ⟨e1, e2⟩ | ⟨e1, e2⟩
            · exact Or.inl ⟨by rw [e1], e2⟩
            · refine Or.inr ⟨?_, e2⟩
              refine ((e1.append_right ir).cons id).trans ?_
              exact List.Perm.swap _ _ _
          · intro j hj; exact hk.nframe j (fun h => hj (by simp [h]))
      | true =>
        simp only [step] at hstep
        split at hstep
        · by_cases hret : ∃ c, pr = .ret c
          · obtain ⟨c, rfl⟩ := hret
            simp only at hstep
            split at hstep
            · simp only [Option.some.injEq] at hstep
              obtain ⟨d1, rfl, rfl, rfl, rfl, a1, a2, a3⟩ := hr.of_ret
              have hframe : ∀ i, i ≠ id → (s.nodes.set id ⟨.sub proj th, linkOf pl, d1.root⟩)[i]? = s.nodes[i]? :=
                fun i hi => List.getElem?_set_ne (by omega)
              refine ⟨.node id par pl (.stored d1.root),
                { s with nodes := s.nodes.set id ⟨.sub proj th, linkOf pl, d1.root⟩ }, id :: (il ++ d1.ids), ?_, ?_, by omega, rfl, by simp,
                fun _ _ => rfl, Or.inl ⟨rfl, rfl⟩, ?_⟩
              · rw [← hstep]
                unfold storeRight
                rw [rd_of_getElem? hn]
                simp only [bind, Except.bind, pure, Except.pure]
                rw [wr_of_lt _ hlt]
                rfl
              · have := ProcInv.node (o := o) (b := b) (points := points)
                  (s := { s with nodes := s.nodes.set id ⟨.sub proj th, linkOf pl, d1.root⟩ })
                  f mid l id par proj th pl (.stored d1.root) tl d1.erase il d1.ids ml 0 h1 h2
                  (hl.frame (fun _ _ _ => rfl) (fun i hi => hframe i (fun e => hidl (e ▸ hi))))
                  (.stored mid l d1 h2 a1 (a2.congr fun i hi => hframe i (fun e => hidr (e ▸ hi))) a3)
                  (by simp only [linkOf]; exact List.getElem?_set_self hlt)
                have e : 2 + ml + 1 - 1 = 2 + ml + 0 := by omega
                rw [e]; exact this
              · intro j hj
                exact hframe j (fun e => hj (by simp [e]))
            · cases hstep
          · have hstep' : (step o b points path pr s).map (fun res => res.map (fun ls => (Proc.node id par pl ls.1, ls.2))) = some res := by
              rw [← hstep]
              cases pr <;> first | rfl | exact absurd ⟨_, rfl⟩ hret
            obtain ⟨res1, hst1, rfl⟩ := Option.map_eq_some_iff.1 hstep'
            obtain ⟨p', s', ids', rfl, hk⟩ := ihr path res1 hst1 hsr
            obtain ⟨hns', hns⟩ := step_ne_stored _ _ _ hst1
            have hnid : s'.nodes[id]? = s.nodes[id]? := hk.nframe id hidr
            refine ⟨.node id par pl p', s', id :: (il ++ ids'), rfl, ?_, by have := hk.pos; omega, hk.ilen, hk.nlen,
              ?_, ?_, ?_⟩
            · have := ProcInv.node (o := o) (b := b) (points := points) (s := s')
                f mid l id par proj th pl p' tl tr il ids' ml (mr - 1) h1 h2
                (hl.frame (fun i _ hi => hk.iframe i (Or.inl hi)) (fun i hi => hk.nframe i (fun hi' => hdis i hi i hi' rfl)))
                hk.inv
                (by rw [hnid, hn, linkOf_not_stored hns, linkOf_not_stored hns'])
              have e : 2 + ml + mr - 1 = 2 + ml + (mr - 1) := by have := hk.pos; omega
              rw [e]; exact this
            · intro i hi; exact hk.iframe i (by omega)
            · rcases hk.count with ⟨e1, e2⟩ | ⟨e1, e2⟩
              · exact Or.inl ⟨by rw [e1], e2⟩
              · refine Or.inr ⟨?_, e2⟩
                refine ((e1.append_left il).cons id).trans ?_
                refine (List.perm_middle.cons id).trans ?_
                exact List.Perm.swap _ _ _
            · intro j hj; exact hk.nframe j (fun h => hj (by simp [h]))
        · cases hstep
  | ret f l dt hfl hsp hno hsl =>
    intro path res hstep hs
    cases path with
    | cons x xs => cases x <;> simp [step] at hstep
    | nil => simp [step] at hstep
  | stored f l dt hfl hsp hno hsl =>
    intro path res hstep hs
    cases path with
    | cons x xs => cases x <;> simp [step] at hstep
    | nil => simp [step] at hstep

/-- Progress: an unfinished process always has an activation that can move. -/
theorem step_progress : ∀ (p : Proc D) (s : BuildState D), (∀ c, p ≠ .ret c) → (∀ c, p ≠ .stored c) →
    ∃ path res, step o b points path p s = some res
  | .start f l, s, _, _ => ⟨[], _, rfl⟩
  | .alloc id f l, s, _, _ => ⟨[], _, rfl⟩
  | .split id f mid l proj th, s, _, _ => ⟨[], _, rfl⟩
  | .ret c, _, h, _ => absurd rfl (h c)
  | .stored c, _, _, h => absurd rfl (h c)
  | .node id par l r, s, _, _ => by
    by_cases hl : l.isStored
    · by_cases hr : r.isStored
      · exact ⟨[], .ok (.ret id, s), by simp [step, hl, hr]⟩
      · by_cases hret : ∃ c, r = .ret c
        · obtain ⟨c, rfl⟩ := hret
          exact ⟨[true], (storeRight id c s).map (fun s => (.node id par l (.stored c), s)), by simp [step, hl]⟩
        · obtain ⟨path, res, h⟩ := step_progress r s (fun c e => hret ⟨c, e⟩)
            (fun c e => hr (by rw [e]; rfl))
          refine ⟨true :: path, res.map (fun rs => (.node id par l rs.1, rs.2)), ?_⟩
          simp only [step, hl, Bool.or_true, if_true]
          cases r <;> first | (simp only [h]; rfl) | exact absurd ⟨_, rfl⟩ hret
    · by_cases hret : ∃ c, l = .ret c
      · obtain ⟨c, rfl⟩ := hret
        exact ⟨[false], (storeLeft id c s).map (fun s => (.node id par (.stored c) r, s)), by simp [step]⟩
      · obtain ⟨path, res, h⟩ := step_progress l s (fun c e => hret ⟨c, e⟩)
          (fun c e => hl (by rw [e]; rfl))
        refine ⟨false :: path, res.map (fun ls => (.node id par ls.1 r, ls.2)), ?_⟩
        simp only [step]
        cases l <;> first | (simp only [h]; rfl) | exact absurd ⟨_, rfl⟩ hret

/-- Global invariant of a build: the root process owns the whole range, and exactly the slots counted so far. -/
structure Global (o : Ops D) (b : Builder D) (points : List (Pt D)) (kt : KT D) (ps : Proc D × BuildState D) (m : Nat) :
    Prop where
  inv : ∃ ids, ProcInv o b points ps.2 0 points.length ps.1 kt ids m ∧ ids.Perm (List.range ps.2.nodeCount)
  ilen : ps.2.indices.length = points.length
  nlen : ps.2.nodes.length = points.length
  fresh : ∀ j, ps.2.nodeCount ≤ j → j < ps.2.nodes.length → ps.2.nodes[j]? = some Node.fresh

theorem Global.shared {kt : KT D} {ps : Proc D × BuildState D} {m : Nat} (h : Global o b points kt ps m)
    (hN : points.length < 2 ^ 32) (hsz : kt.size ≤ points.length) {ids}
    (hi : ProcInv o b points ps.2 0 points.length ps.1 kt ids m) (hp : ids.Perm (List.range ps.2.nodeCount)) :
    SharedOK ps.2 points.length ids kt := by
  have hl := hi.ids_le
  have hc : ids.length = ps.2.nodeCount := by rw [hp.length_eq, List.length_range]
  exact ⟨h.ilen.ge, by rw [h.ilen]; exact hN, by rw [h.nlen]; exact hN, hp.nodup_iff.2 List.nodup_range,
    fun i hi => List.mem_range.1 (hp.mem_iff.1 hi), h.fresh, by rw [h.nlen]; omega⟩

theorem Global.step {kt : KT D} {ps : Proc D × BuildState D} {m : Nat} (hnth : ∀ l n, (b.nthElement l n).Perm l)
    (h : Global o b points kt ps m) (hN : points.length < 2 ^ 32) (hsz : kt.size ≤ points.length)
    {path : List Bool} {res} (hst : KdTree.step o b points path ps.1 ps.2 = some res) :
    ∃ ps', res = .ok ps' ∧ Global o b points kt ps' (m - 1) ∧ 1 ≤ m := by
  obtain ⟨ids, hi, hp⟩ := h.inv
  obtain ⟨p', s', ids', rfl, hk⟩ := step_ok hnth hi path res hst (h.shared hN hsz hi hp)
  refine ⟨(p', s'), rfl, ⟨⟨ids', hk.inv, ?_⟩, hk.ilen.trans h.ilen, hk.nlen.trans h.nlen, ?_⟩, hk.pos⟩
  · rcases hk.count with ⟨e1, e2⟩ | ⟨e1, e2⟩
    · simp only; rw [e1, e2]; exact hp
    · simp only; rw [e2, List.range_succ]
      exact e1.trans ((hp.cons _).trans (List.perm_append_singleton _ _).symm)
  · intro j hj hj'
    simp only at hj hj' ⊢
    have hc : ps.2.nodeCount ≤ s'.nodeCount := by rcases hk.count with ⟨_, e⟩ | ⟨_, e⟩ <;> omega
    rw [hk.nframe j (fun hm => by have := List.mem_range.1 (hp.mem_iff.1 hm); omega)]
    exact h.fresh j (by omega) (by rw [hk.nlen] at hj'; exact hj')

theorem Global.run {kt : KT D} (hnth : ∀ l n, (b.nthElement l n).Perm l) (hN : points.length < 2 ^ 32)
    (hsz : kt.size ≤ points.length) : ∀ (sched : List (List Bool)) {ps : Proc D × BuildState D} {m : Nat} {res},
    Global o b points kt ps m → runSchedule o b points sched ps = some res →
    ∃ ps', res = .ok ps' ∧ Global o b points kt ps' (m - sched.length) ∧ sched.length ≤ m
  | [], ps, m, res, h, hr => by
    simp only [runSchedule, Option.some.injEq] at hr
    exact ⟨ps, hr.symm, by simpa using h, by simp⟩
  | path :: sched, ps, m, res, h, hr => by
    unfold runSchedule at hr
    rcases hst : KdTree.step o b points path ps.1 ps.2 with _ | r
    · rw [hst] at hr; cases hr
    · obtain ⟨ps1, rfl, h1, hm⟩ := h.step hnth hN hsz hst
      rw [hst] at hr
      simp only at hr
      obtain ⟨ps', e, h2, h3⟩ := Global.run hnth hN hsz sched h1 hr
      refine ⟨ps', e, ?_, by simp only [List.length_cons]; omega⟩
      have : m - (path :: sched).length = m - 1 - sched.length := by simp only [List.length_cons]; omega
      rw [this]; exact h2

theorem Global.init {kt : KT D} {fuel : Nat} (hb : buildT o b points fuel (List.range points.length) = .ok kt) :
    Global o b points kt (parInit points) (work kt) := by
  refine ⟨⟨[], ?_, by simp [parInit]⟩, by simp [parInit], by simp [parInit], ?_⟩
  · refine .start 0 points.length fuel kt (by omega) ?_
    simp only [parInit]
    have hsl : slice (List.range points.length) 0 points.length = List.range points.length := by
      unfold slice; simp [List.take_of_length_le]
    rw [hsl]; exact hb
  · intro j _ hj
    simp only [parInit, List.length_replicate] at hj ⊢
    simp [hj]

theorem Global.finish {kt : KT D} {ps : Proc D × BuildState D} {m : Nat} (h : Global o b points kt ps m) {t : KdTree.Tree D}
    (hf : parFinish ps = some t) : ∃ root, t.root = some root ∧ Represents t.nodes t.indices root kt ∧
      t.indices = kt.items ∧ t.nodes.length = kt.size ∧ m = 1 := by
  obtain ⟨ids, hi, hp⟩ := h.inv
  obtain ⟨p, s⟩ := ps
  simp only at hi hp
  cases p with
  | ret c =>
    simp only [parFinish, Option.some.injEq] at hf
    subst hf
    obtain ⟨dt, rfl, rfl, rfl, rfl, h1, h2, h3⟩ := hi.of_ret
    have hil := h.ilen
    simp only at hil
    have hidx : s.indices = dt.items := by
      rw [← h3]; unfold slice; simp [List.take_of_length_le, hil.le]
    have hcount : s.nodeCount = dt.erase.size := by
      rw [← DT.ids_length, hp.length_eq, List.length_range]
    have hle : s.nodeCount ≤ s.nodes.length := by
      by_contra hlt
      have hmem : s.nodes.length ∈ dt.ids := hp.mem_iff.2 (List.mem_range.2 (by omega))
      have key : ∀ dt : DT D, dt.NodesOK s.nodes → ∀ i ∈ dt.ids, i < s.nodes.length := by
        intro dt
        induction dt with
        | leaf id first is =>
          intro hh i hi
          simp only [DT.ids, List.mem_singleton] at hi
          subst hi
          exact (List.getElem?_eq_some_iff.1 hh).1
        | node id p th l r ihl ihr =>
          intro hh i hi
          simp only [DT.ids, List.mem_cons, List.mem_append] at hi
          rcases hi with e | e | e
          · subst e; exact (List.getElem?_eq_some_iff.1 hh.1).1
          · exact ihl hh.2.2.1 i e
          · exact ihr hh.2.2.2 i e
      exact absurd (key dt h2 _ hmem) (lt_irrefl _)
    refine ⟨dt.root, rfl, ?_, by rw [DT.items_erase]; exact hidx, ?_, rfl⟩
    · have hno : dt.NodesOK (s.nodes.take s.nodeCount) := by
        apply h2.congr
        intro i hi
        have := List.mem_range.1 (hp.mem_iff.1 hi)
        rw [List.getElem?_take_of_lt this]
      exact DT.represents dt 0 hno h1 (by simp only [hidx]; omega) (by simp only [hidx]; unfold slice; simp)
    · simp only [List.length_take]; omega
  | _ => simp [parFinish] at hf

end

/-! ### Searching depends only on the abstract tree -/

variable [LT D] [LE D] [DecidableLT D] [DecidableLE D]

theorem leafLoop_congr (o : Ops D) (points : List (Pt D)) (i1 i2 : List Nat) (q : Pt D) :
    ∀ (cnt a b : Nat) (r : KnnResult D), (∀ j, j < cnt → i1[a + j]? = i2[b + j]?) →
    leafLoop o points i1 q cnt a r = leafLoop o points i2 q cnt b r
  | 0, _, _, _, _ => rfl
  | cnt + 1, a, b, r, h => by
    unfold leafLoop
    have h0 := h 0 (by omega)
    simp only [Nat.add_zero] at h0
    have : rd i1 a = rd i2 b := by unfold rd; rw [h0]
    rw [this]
    have hrec : ∀ r, leafLoop o points i1 q cnt (a + 1) r = leafLoop o points i2 q cnt (b + 1) r := fun r =>
      leafLoop_congr o points i1 i2 q cnt (a + 1) (b + 1) r (fun j hj => by
        have := h (j + 1) (by omega)
        rw [show a + (j + 1) = a + 1 + j by omega, show b + (j + 1) = b + 1 + j by omega] at this
        exact this)
    simp only [hrec]

theorem searchNode_congr (o : Ops D) (points : List (Pt D)) (t1 t2 : KdTree.Tree D) (q : Pt D) (eps : D) {i1 : Nat} {kt : KT D}
    (h1 : Represents t1.nodes t1.indices i1 kt) : ∀ {i2 : Nat}, Represents t2.nodes t2.indices i2 kt →
    ∀ (fuel : Nat) (r : KnnResult D), searchNode o points t1 q eps fuel i1 r = searchNode o points t2 q eps fuel i2 r := by
  induction h1 with
  | leaf i first last hr hle hlen =>
    intro i2 h2 fuel r
    generalize hs : slice t1.indices first last = is at h2
    cases h2 with
    | leaf _ first' last' hr' hle' hlen' =>
      cases fuel with
      | zero => rfl
      | succ fuel =>
        unfold searchNode
        rw [rd_of_getElem? hr, rd_of_getElem? hr']
        simp only [bind, Except.bind, if_true]
        have hl : last - first = last' - first' := by
          have := congrArg List.length hs
          rw [slice_length hle hlen, slice_length hle' hlen'] at this
          exact this
        have : leafLoop o points t1.indices q (last - first) first r = leafLoop o points t2.indices q (last' - first') first' r := by
          rw [← hl]
          apply leafLoop_congr
          intro j hj
          have := congrArg (fun l => l[j]?) hs
          simp only [getElem?_slice] at this
          rw [if_pos hj, if_pos (by omega)] at this
          exact this
        rw [this]
  | node i l r proj th tl tr hn hl hl' hr' ihl ihr =>
    intro i2 h2 fuel r0
    cases h2 with
    | node _ l' r' _ _ _ _ hn' hlv hl'' hr'' =>
      cases fuel with
      | zero => rfl
      | succ fuel =>
        unfold searchNode
        rw [rd_of_getElem? hn, rd_of_getElem? hn']
        simp only [bind, Except.bind, hl, hlv, if_false]
        by_cases hd : o.sub (proj.eval o q) th < o.zero
        · simp only [hd, if_true]
          rw [ihl hl'' fuel r0]
          simp only [fun r => ihr hr'' fuel r]
        · simp only [hd, if_false]
          rw [ihr hr'' fuel r0]
          simp only [fun r => ihl hl'' fuel r]

end Verif.Proofs
