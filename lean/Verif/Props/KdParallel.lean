import Verif.Spec.KdParallel
import Verif.Proofs.KdParallel
import Verif.Proofs.NthInstance
import Verif.Props.KdTreeExamples

/-!
C07: the parallel builders, under every schedule.
-/

set_option linter.unusedSectionVars false
set_option linter.unusedSimpArgs false

namespace Verif.Props

open Verif Verif.Knn Verif.KdTree Verif.Proofs

variable {D : Type} [LinearOrder D]

omit [LinearOrder D] in
theorem work_le_size : ∀ t : KT D, work t ≤ 5 * t.size - 2
  | .leaf _ => by simp [work, KT.size]
  | .node _ _ l r => by
    have h1 := work_le_size l
    have h2 := work_le_size r
    have := KT.size_pos' l
    have := KT.size_pos' r
    simp only [work, KT.size]; omega

omit [LinearOrder D] in
theorem dt_nodes_lt {nodes : List (Node D)} : ∀ dt : DT D, dt.NodesOK nodes → ∀ i ∈ dt.ids, i < nodes.length
  | .leaf id first is, hh, i, hi => by
    simp only [DT.ids, List.mem_singleton] at hi
    subst hi
    exact (List.getElem?_eq_some_iff.1 hh).1
  | .node id p th l r, hh, i, hi => by
    simp only [DT.ids, List.mem_cons, List.mem_append] at hi
    rcases hi with e | e | e
    · subst e; exact (List.getElem?_eq_some_iff.1 hh.1).1
    · exact dt_nodes_lt l hh.2.2.1 i e
    · exact dt_nodes_lt r hh.2.2.2 i e

omit [LinearOrder D] in
theorem procInv_live {o : Ops D} {b : Builder D} {points : List (Pt D)} {s : BuildState D} {f l p t ids m}
    (h : ProcInv o b points s f l p t ids m) :
    (∀ x ∈ p.ranges, f ≤ x.1 ∧ x.1 ≤ x.2 ∧ x.2 ≤ l) ∧ p.ranges.Pairwise (fun x y => x.2 ≤ y.1) ∧ p.slots.Sublist ids := by
  induction h with
  | start f l fuel t hfl hb => simp [Proc.ranges, Proc.slots]; omega
  | alloc f l fuel id t hfl hb hn => simp [Proc.ranges, Proc.slots]; omega
  | split f mid l f1 f2 id proj th tl tr h1 h2 hl hr hn => simp [Proc.ranges, Proc.slots]; omega
  | node f mid l id par proj th pl pr tl tr il ir ml mr h1 h2 hl hr hn ihl ihr =>
    obtain ⟨a1, a2, a3⟩ := ihl
    obtain ⟨b1, b2, b3⟩ := ihr
    refine ⟨?_, ?_, (a3.append b3).cons_cons id⟩
    · intro x hx
      rcases List.mem_append.1 hx with e | e
      · have := a1 x e; omega
      · have := b1 x e; omega
    · refine List.pairwise_append.2 ⟨a2, b2, ?_⟩
      intro x hx y hy
      have := a1 x hx; have := b1 y hy; omega
  | ret => simp [Proc.ranges, Proc.slots]
  | stored => simp [Proc.ranges, Proc.slots]

section
variable (o : Ops D) (b : Builder D) (hnth : NthElementSpec b.nthElement)
  (hfind : FindAxisSpec (fun _ => True) b.findAxis) (hm : SafeLeafSize b.maxLeafSize)
  (points : List (Pt D)) (hne : points ≠ []) (hN : points.length < 2 ^ 32)

include hnth hfind hm hne hN in
theorem exists_global : ∃ t0 kt, KdTree.construct o b (points.length + 1) points = .ok t0 ∧
    Built o (fun _ => True) points t0 kt 0 ∧ t0.indices = kt.items ∧ t0.nodes.length = kt.size ∧
    kt.size ≤ points.length ∧ Global o b points kt (parInit points) (work kt) := by
  obtain ⟨t0, kt, h1, hb, h2, h3, _, h4⟩ := construct_built o b _ points hne hN hnth hfind hm (points.length + 1) (by omega)
  exact ⟨t0, kt, h1, hb, h2, h3, by rw [← h3]; exact hb.nodes_le, Global.init h4⟩

include hnth hfind hm hne hN in
/-- C07, safety and termination. Whatever steps a schedule has taken, no step has left the arrays or read
uninitialised memory, at most `5 N` steps were taken, and unless the root activation has returned, some activation can
move. So every schedule finishes. -/
theorem C07_every_schedule_finishes (sched : List (List Bool)) (res : Res (Proc D × BuildState D))
    (hrun : runSchedule o b points sched (parInit points) = some res) :
    ∃ ps, res = .ok ps ∧ sched.length ≤ 5 * points.length ∧
      (parFinish ps = none → ∃ path res', step o b points path ps.1 ps.2 = some res') := by
  obtain ⟨t0, kt, _, _, _, _, hsz, hg⟩ := exists_global o b hnth hfind hm points hne hN
  obtain ⟨ps, e, h1, h2⟩ := Global.run hnth.perm hN hsz sched hg hrun
  refine ⟨ps, e, ?_, ?_⟩
  · have := work_le_size kt; omega
  · intro hf
    -- the root is never in the state `stored`
    have hroot : ∀ (sched : List (List Bool)) (ps ps' : Proc D × BuildState D), ps.1.isStored = false →
        runSchedule o b points sched ps = some (.ok ps') → ps'.1.isStored = false := by
      intro sched
      induction sched with
      | nil => intro ps ps' h hr; simp only [runSchedule, Option.some.injEq, Except.ok.injEq] at hr; rw [← hr]; exact h
      | cons path sched ih =>
        intro ps ps' h hr
        unfold runSchedule at hr
        rcases hst : step o b points path ps.1 ps.2 with _ | (er | q)
        · rw [hst] at hr; cases hr
        · rw [hst] at hr; cases hr
        · rw [hst] at hr
          exact ih q ps' (step_ne_stored path ps.1 ps.2 hst).1 hr
    subst e
    have hns := hroot sched _ _ rfl hrun
    apply step_progress
    · intro c hc
      obtain ⟨p, s⟩ := ps
      simp only at hc; subst hc
      simp [parFinish] at hf
    · intro c hc; rw [hc] at hns; simp [Proc.isStored] at hns

include hnth hfind hm hne hN in
/-- C07, exclusive ownership. In every state reached by any schedule, simultaneously running activations work on
disjoint index ranges inside the cloud and on different node slots inside the node array. -/
theorem C07_running_tasks_disjoint (sched : List (List Bool)) (ps : Proc D × BuildState D)
    (hrun : runSchedule o b points sched (parInit points) = some (.ok ps)) :
    ps.1.ranges.Pairwise (fun x y => x.2 ≤ y.1) ∧ (∀ x ∈ ps.1.ranges, x.1 ≤ x.2 ∧ x.2 ≤ points.length) ∧
    ps.1.slots.Nodup ∧ (∀ i ∈ ps.1.slots, i < points.length) ∧ ps.2.nodes.length = points.length := by
  obtain ⟨t0, kt, _, _, _, _, hsz, hg⟩ := exists_global o b hnth hfind hm points hne hN
  obtain ⟨ps', e, h1, h2⟩ := Global.run hnth.perm hN hsz sched hg hrun
  cases e
  obtain ⟨ids, hi, hp⟩ := h1.inv
  obtain ⟨a1, a2, a3⟩ := procInv_live hi
  have hs := h1.shared hN hsz hi hp
  refine ⟨a2, fun x hx => (a1 x hx).2, hs.nodup.sublist a3, ?_, h1.nlen⟩
  intro i hi'
  have h3 := hs.lt i (a3.subset hi')
  have h4 := hs.room
  have h5 := h1.nlen
  omega

include hnth hfind hm hne hN in
/-- C07, same answers. When any schedule has finished, the index array is that of the single-threaded builder, the node
arrays have the same size, and every search (any arithmetic, any early-termination threshold, any buffers) returns
exactly what it returns on the tree of the single-threaded builder. -/
theorem C07_parallel_same_answers (sched : List (List Bool)) (ps : Proc D × BuildState D)
    (hrun : runSchedule o b points sched (parInit points) = some (.ok ps)) (t : KdTree.Tree D) (ht : parFinish ps = some t) :
    ∃ t0, KdTree.construct o b (points.length + 1) points = .ok t0 ∧ t.indices = t0.indices ∧
      t.nodes.length = t0.nodes.length ∧ (∃ r kt, t.root = some r ∧ Represents t.nodes t.indices r kt ∧
        Represents t0.nodes t0.indices 0 kt ∧ t0.root = some 0) ∧
      ∀ (maxD : D) (fuel : Nat) (N k : Int) (indices : List Nat) (dists : List D) (q : Pt D) (eps : D),
        knnSearch o maxD points t fuel N k indices dists q eps = knnSearch o maxD points t0 fuel N k indices dists q eps := by
  obtain ⟨t0, kt, hc, hb, hi, hn, hsz, hg⟩ := exists_global o b hnth hfind hm points hne hN
  obtain ⟨ps', e, h1, h2⟩ := Global.run hnth.perm hN hsz sched hg hrun
  cases e
  obtain ⟨r, g1, g2, g3, g4, g5⟩ := h1.finish ht
  refine ⟨t0, hc, by rw [g3, hi], by rw [g4, hn], ⟨r, kt, g1, g2, hb.rep, hb.root_eq⟩, ?_⟩
  intro maxD fuel N k indices dists q eps
  unfold knnSearch
  rw [g1, hb.root_eq]
  simp only [fun r0 => searchNode_congr o points t t0 q eps g2 hb.rep fuel r0]

end

/-! ### At most 512 points: no concurrency -/

section Small

variable {D : Type} [LT D] [LE D] [DecidableLT D] [DecidableLE D]

/-- No part of the process may run concurrently with another one, now or later. -/
def SmallProc : Proc D → Prop
  | .start f l => l - f ≤ 512
  | .alloc _ f l => l - f ≤ 512
  | .split _ f m l _ _ => f ≤ m ∧ m ≤ l ∧ l - f ≤ 512
  | .node _ par l r => par = false ∧ SmallProc l ∧ SmallProc r
  | .ret _ => True
  | .stored _ => True

theorem kd_bind {A B : Type} {x : Res A} {f : A → Res B} {b : B} (h : (x >>= f) = .ok b) : ∃ a, x = .ok a ∧ f a = .ok b := by
  cases x with
  | error e => cases h
  | ok a => exact ⟨a, rfl, h⟩

theorem allocStep_small (o : Ops D) (b : Builder D) (points : List (Pt D)) (id f l : Nat) (h : l - f ≤ 512) (s : BuildState D)
    (x : Proc D × BuildState D) (hs : allocStep o b points id f l s = .ok x) : SmallProc x.1 := by
  unfold allocStep at hs
  simp only at hs
  split_ifs at hs with hl
  · obtain ⟨a, _, hs⟩ := kd_bind hs
    obtain ⟨c, _, hs⟩ := kd_bind hs
    cases hs
    trivial
  · obtain ⟨a, _, hs⟩ := kd_bind hs
    cases hs
    refine ⟨by omega, ?_, h⟩
    by_cases hfl : f ≤ l
    · omega
    · exfalso
      have : l - f = 0 := by omega
      rw [this] at hl
      exact hl (by unfold isLeafSize; simp)

theorem map_ok {A B : Type} {f : A → B} {x : Res A} {b : B} (h : x.map f = .ok b) : ∃ a, x = .ok a ∧ f a = b := by
  cases x with
  | error e => cases h
  | ok a => exact ⟨a, rfl, by cases h; rfl⟩

/-- A step keeps the process free of concurrency, and no other activation could have moved. -/
theorem step_small (o : Ops D) (b : Builder D) (points : List (Pt D)) (s : BuildState D) : ∀ (p : Proc D), SmallProc p →
    (∀ π x, step o b points π p s = some (.ok x) → SmallProc x.1) ∧
    (∀ π π' x y, step o b points π p s = some x → step o b points π' p s = some y → π = π')
  | .start f l, h => by
    refine ⟨fun π x hx => ?_, fun π π' x y hx hy => ?_⟩
    · cases π with
      | nil => cases hx; exact h
      | cons c π => cases c <;> simp [step] at hx
    · rcases π with _ | ⟨_ | _, π⟩ <;> rcases π' with _ | ⟨_ | _, π'⟩ <;> simp [step] at hx hy ⊢
  | .alloc id f l, h => by
    refine ⟨fun π x hx => ?_, fun π π' x y hx hy => ?_⟩
    · cases π with
      | nil => exact allocStep_small o b points id f l h s x (Option.some.inj hx)
      | cons c π => cases c <;> simp [step] at hx
    · rcases π with _ | ⟨_ | _, π⟩ <;> rcases π' with _ | ⟨_ | _, π'⟩ <;> simp [step] at hx hy ⊢
  | .split id f m l pr th, h => by
    refine ⟨fun π x hx => ?_, fun π π' x y hx hy => ?_⟩
    · cases π with
      | nil =>
        have hx := Option.some.inj hx
        unfold splitStep at hx
        obtain ⟨a, _, hx⟩ := kd_bind hx
        obtain ⟨c, _, hx⟩ := kd_bind hx
        cases hx
        obtain ⟨h1, h2, h3⟩ := h
        refine ⟨?_, ?_, ?_⟩
        · unfold concurrent; simp; omega
        · show m - f ≤ 512; omega
        · show l - m ≤ 512; omega
      | cons c π => cases c <;> simp [step] at hx
    · rcases π with _ | ⟨_ | _, π⟩ <;> rcases π' with _ | ⟨_ | _, π'⟩ <;> simp [step] at hx hy ⊢
  | .ret id, h => by
    refine ⟨fun π x hx => ?_, fun π π' x y hx hy => ?_⟩ <;> rcases π with _ | ⟨_ | _, π⟩ <;> simp [step] at hx
  | .stored id, h => by
    refine ⟨fun π x hx => ?_, fun π π' x y hx hy => ?_⟩ <;> rcases π with _ | ⟨_ | _, π⟩ <;> simp [step] at hx
  | .node id par pl pr, h => by
    obtain ⟨hpar, hl, hr⟩ := h
    subst hpar
    obtain ⟨l1, l2⟩ := step_small o b points s pl hl
    obtain ⟨r1, r2⟩ := step_small o b points s pr hr
    have nomove : ∀ π x, pl.isStored = true → step o b points π pl s = some x → False := by
      intro π x hst hx
      cases pl <;> simp [Proc.isStored] at hst
      rcases π with _ | ⟨_ | _, π⟩ <;> simp [step] at hx
    -- what a step of the left child is
    have left : ∀ π x, step o b points (false :: π) (.node id false pl pr) s = some x →
        pl.isStored = false ∧ ((∃ c, pl = .ret c ∧ π = []) ∨ ∃ y, step o b points π pl s = some y ∧ x = y.map (fun ls => (.node id false ls.1 pr, ls.2))) := by
      intro π x hx
      cases pl <;> simp only [step, Option.map_eq_some_iff] at hx
      case ret c =>
        split_ifs at hx with hπ
        exact ⟨rfl, Or.inl ⟨c, rfl, hπ⟩⟩
      case stored c =>
        obtain ⟨y, hy, _⟩ := hx
        cases hy
      all_goals
        obtain ⟨y, hy, e⟩ := hx
        exact ⟨rfl, Or.inr ⟨y, hy, e.symm⟩⟩
    have right : ∀ π x, step o b points (true :: π) (.node id false pl pr) s = some x →
        pl.isStored = true ∧ pr.isStored = false ∧
        ((∃ c, pr = .ret c ∧ π = []) ∨ ∃ y, step o b points π pr s = some y ∧ x = y.map (fun ls => (.node id false pl ls.1, ls.2))) := by
      intro π x hx
      rcases hst : pl.isStored with _ | _
      · cases pr <;> simp [step, hst] at hx
      refine ⟨rfl, ?_⟩
      cases pr <;> simp only [step, hst, Bool.or_true, if_true, Option.map_eq_some_iff] at hx
      case ret c =>
        split_ifs at hx with hπ
        exact ⟨rfl, Or.inl ⟨c, rfl, hπ⟩⟩
      case stored c =>
        obtain ⟨y, hy, _⟩ := hx
        cases hy
      all_goals
        obtain ⟨y, hy, e⟩ := hx
        exact ⟨rfl, Or.inr ⟨y, hy, e.symm⟩⟩
    have top : ∀ x, step o b points [] (.node id false pl pr) s = some x → pl.isStored = true ∧ pr.isStored = true ∧ x = .ok (.ret id, s) := by
      intro x hx
      simp only [step] at hx
      split_ifs at hx with h1
      simp only [Bool.and_eq_true] at h1
      exact ⟨h1.1, h1.2, (Option.some.inj hx).symm⟩
    refine ⟨fun π x hx => ?_, fun π π' x y hx hy => ?_⟩
    · rcases π with _ | ⟨_ | _, π⟩
      · obtain ⟨_, _, e⟩ := top _ hx
        cases e
        trivial
      · obtain ⟨_, ⟨c, rfl, rfl⟩ | ⟨y, hy, e⟩⟩ := left π _ hx
        · simp only [step, if_true] at hx
          obtain ⟨a, _, e⟩ := map_ok (Option.some.inj hx)
          subst e
          exact ⟨rfl, trivial, hr⟩
        · obtain ⟨a, ha, e⟩ := map_ok e.symm
          subst e
          exact ⟨rfl, l1 π a (by rw [hy, ha]), hr⟩
      · obtain ⟨_, _, ⟨c, rfl, rfl⟩ | ⟨y, hy, e⟩⟩ := right π _ hx
        · simp only [step, if_true] at hx
          split_ifs at hx
          obtain ⟨a, _, e⟩ := map_ok (Option.some.inj hx)
          subst e
          exact ⟨rfl, hl, trivial⟩
        · obtain ⟨a, ha, e⟩ := map_ok e.symm
          subst e
          exact ⟨rfl, hl, r1 π a (by rw [hy, ha])⟩
    · rcases π with _ | ⟨_ | _, π⟩ <;> rcases π' with _ | ⟨_ | _, π'⟩
      · rfl
      · have := (top _ hx).1; rw [(left _ _ hy).1] at this; cases this
      · have := (top _ hx).2.1; rw [(right _ _ hy).2.1] at this; cases this
      · have := (top _ hy).1; rw [(left _ _ hx).1] at this; cases this
      · obtain ⟨_, ⟨c, e, rfl⟩ | ⟨u, hu, _⟩⟩ := left _ _ hx <;> obtain ⟨_, ⟨c', e', rfl⟩ | ⟨v, hv, _⟩⟩ := left _ _ hy
        · rfl
        · subst e; rcases π' with _ | ⟨_ | _, π'⟩ <;> simp [step] at hv
        · subst e'; rcases π with _ | ⟨_ | _, π⟩ <;> simp [step] at hu
        · rw [l2 _ _ _ _ hu hv]
      · have := (right _ _ hy).1; rw [(left _ _ hx).1] at this; cases this
      · have := (top _ hy).2.1; rw [(right _ _ hx).2.1] at this; cases this
      · have := (right _ _ hx).1; rw [(left _ _ hy).1] at this; cases this
      · obtain ⟨_, _, ⟨c, e, rfl⟩ | ⟨u, hu, _⟩⟩ := right _ _ hx <;> obtain ⟨_, _, ⟨c', e', rfl⟩ | ⟨v, hv, _⟩⟩ := right _ _ hy
        · rfl
        · subst e; rcases π' with _ | ⟨_ | _, π'⟩ <;> simp [step] at hv
        · subst e'; rcases π with _ | ⟨_ | _, π⟩ <;> simp [step] at hu
        · rw [r2 _ _ _ _ hu hv]

theorem ret_stuck (o : Ops D) (b : Builder D) (points : List (Pt D)) (s : BuildState D) (c : Nat) (π : List Bool) :
    step o b points π (.ret c) s = none := by
  rcases π with _ | ⟨_ | _, π⟩ <;> simp [step]

theorem run_small (o : Ops D) (b : Builder D) (points : List (Pt D)) : ∀ (sched sched' : List (List Bool)) (ps : Proc D × BuildState D),
    SmallProc ps.1 → ∀ a b', runSchedule o b points sched ps = some (.ok a) → runSchedule o b points sched' ps = some (.ok b') →
    (∃ t, parFinish a = some t) → (∃ t, parFinish b' = some t) → sched = sched' ∧ a = b'
  | [], [], ps, h, a, b', h1, h2, ha, hb => by cases h1; cases h2; exact ⟨rfl, rfl⟩
  | [], π :: sched', (p, s), h, a, b', h1, h2, ha, hb => by
    cases h1
    obtain ⟨t, ht⟩ := ha
    cases p <;> simp only [parFinish] at ht <;> try contradiction
    rw [runSchedule, ret_stuck] at h2
    cases h2
  | π :: sched, [], (p, s), h, a, b', h1, h2, ha, hb => by
    cases h2
    obtain ⟨t, ht⟩ := hb
    cases p <;> simp only [parFinish] at ht <;> try contradiction
    rw [runSchedule, ret_stuck] at h1
    cases h1
  | π :: sched, π' :: sched', (p, s), h, a, b', h1, h2, ha, hb => by
    rw [runSchedule] at h1 h2
    obtain ⟨k1, k2⟩ := step_small o b points s p h
    rcases e1 : step o b points π p s with _ | (_ | x)
    · rw [e1] at h1; cases h1
    · rw [e1] at h1; cases h1
    · rcases e2 : step o b points π' p s with _ | (_ | y)
      · rw [e2] at h2; cases h2
      · rw [e2] at h2; cases h2
      · cases k2 _ _ _ _ e1 e2
        rw [e1] at e2
        cases e2
        rw [e1] at h1 h2
        obtain ⟨r1, r2⟩ := run_small o b points sched sched' x (k1 _ _ e1) a b' h1 h2 ha hb
        exact ⟨by rw [r1], r2⟩

/-- C07, small clouds. On at most 512 points the parallel builders have only one execution: any two complete executions make the same steps and
give the same tree, node by node, whatever the arithmetic, the projections and `nth_element` do. -/
theorem C07_small_deterministic (o : Ops D) (b : Builder D) (points : List (Pt D)) (hsmall : points.length ≤ 512)
    (sched sched' : List (List Bool)) (ps ps' : Proc D × BuildState D) (t t' : KdTree.Tree D)
    (h1 : runSchedule o b points sched (parInit points) = some (.ok ps)) (ht : parFinish ps = some t)
    (h2 : runSchedule o b points sched' (parInit points) = some (.ok ps')) (ht' : parFinish ps' = some t') :
    sched = sched' ∧ t = t' := by
  obtain ⟨e1, e2⟩ := run_small o b points sched sched' (parInit points) (by show points.length - 0 ≤ 512; omega) ps ps' h1 h2 ⟨t, ht⟩ ⟨t', ht'⟩
  subst e2
  rw [ht] at ht'
  cases ht'
  exact ⟨e1, rfl⟩

end Small

/-! ### Non-vacuity: a concrete parallel build -/

/-- Right child first: the right leaf gets slot 1, the left leaf slot 2; the stores interleave. -/
def rightFirst : List (List Bool) := [[], [], [], [true], [false], [false], [true], [true], [false], []]

/-- Left child first, as the single-threaded builder does. -/
def leftFirst : List (List Bool) := [[], [], [], [false], [false], [false], [true], [true], [true], []]

/-- Outcome of a schedule: node array and root. -/
def schedOutcome (sched : List (List Bool)) : Option (List (Node Int) × Option Nat) :=
  match runSchedule (exactOps Int) (xBuilder 300) (linePts Int 513) sched (parInit (linePts Int 513)) with
  | some (.ok ps) => (parFinish ps).map (fun t => (t.nodes, t.root))
  | _ => none

/-- 513 points, leaf size 300: the two children may run concurrently. The schedule that starts the right child first
runs to completion and numbers the nodes differently from the one that starts the left child first. -/
example : schedOutcome rightFirst = some ([⟨.sub (.axis .x) 256, 2, 1⟩, ⟨.leaf 256 513, INVALID_NODE, INVALID_NODE⟩,
      ⟨.leaf 0 256, INVALID_NODE, INVALID_NODE⟩], some 0) ∧
    schedOutcome leftFirst = some ([⟨.sub (.axis .x) 256, 1, 2⟩, ⟨.leaf 0 256, INVALID_NODE, INVALID_NODE⟩,
      ⟨.leaf 256 513, INVALID_NODE, INVALID_NODE⟩], some 0) := by
  decide +kernel

/-- One point less: the same left-first schedule is complete, and the right child may not start before the left one has returned. -/
example : (∃ ps t, runSchedule (exactOps Int) (xBuilder 300) (linePts Int 512) leftFirst (parInit (linePts Int 512)) = some (.ok ps) ∧
      parFinish ps = some t) ∧
    runSchedule (exactOps Int) (xBuilder 300) (linePts Int 512) rightFirst (parInit (linePts Int 512)) = none := by
  have h1 : ((runSchedule (exactOps Int) (xBuilder 300) (linePts Int 512) leftFirst (parInit (linePts Int 512))).bind
      fun r => r.toOption.bind fun ps => parFinish ps).isSome = true := by decide +kernel
  refine ⟨?_, by decide +kernel⟩
  rcases e : runSchedule (exactOps Int) (xBuilder 300) (linePts Int 512) leftFirst (parInit (linePts Int 512)) with _ | (_ | ps)
  · rw [e] at h1; cases h1
  · rw [e] at h1; cases h1
  · rw [e] at h1
    obtain ⟨t, ht⟩ := Option.isSome_iff_exists.1 h1
    exact ⟨ps, t, rfl, ht⟩

/-- The hypotheses of the C07 theorems hold for this build. -/
example : NthElementSpec (xBuilder 300).nthElement ∧ FindAxisSpec (fun _ => True) (xBuilder 300).findAxis ∧
    SafeLeafSize (xBuilder 300).maxLeafSize ∧ (linePts Int 513).length < 2 ^ 32 :=
  ⟨isort_nthElementSpec, fun _ _ _ _ => ⟨_, rfl, trivial⟩, by unfold SafeLeafSize toU64; decide, by simp [linePts]⟩

end Verif.Props
