import Verif.Proofs.Odometry
import Mathlib.Algebra.Field.Rat

set_option linter.unusedSectionVars false
set_option linter.unusedSimpArgs false
set_option linter.unnecessarySeqFocus false

/-!
C62: odometry with a flow graph gives the trajectory of frame-by-frame odometry.
-/

namespace Verif.Spec

open Verif Verif.Factors Verif.Odometry

variable {K : Type} [Field K] {C P : Type}

/-- `traj` chains the registrations of consecutive frames: frame `i` is `clouds[i]` preprocessed, its pose is the pose of the frame before it times
the relative pose of the two frames. The first frame has the pose `base` if there is no earlier frame `prev`; otherwise it is registered to it. -/
def FrameChain (prep : C → Res P) (reg : P → P → Res (Pose K)) (base : Pose K) (prev : Option P) (clouds : List C) (frames : List P) (traj : List (Pose K)) : Prop :=
  frames.length = clouds.length ∧ traj.length = clouds.length ∧
  (∀ (i : Nat) c p, clouds[i]? = some c → frames[i]? = some p → prep c = .ok p) ∧
  (prev = none → ∀ T, traj[0]? = some T → T = base) ∧
  (∀ t, prev = some t → ∀ p T, frames[0]? = some p → traj[0]? = some T → ∃ R, reg t p = .ok R ∧ T = base.mul R) ∧
  (∀ (i : Nat) t p T T', frames[i]? = some t → frames[i + 1]? = some p → traj[i]? = some T → traj[i + 1]? = some T' → ∃ R, reg t p = .ok R ∧ T' = T.mul R)

/-- A frame cannot be preprocessed, or not registered to the frame before it. -/
def FrameFails (prep : C → Res P) (reg : P → P → Res (Pose K)) (prev : Option P) (clouds : List C) (f : Fault) : Prop :=
  (∃ c ∈ clouds, prep c = .error f) ∨ (∃ t c p, prev = some t ∧ clouds[0]? = some c ∧ prep c = .ok p ∧ reg t p = .error f) ∨
  ∃ (i : Nat) (c d : C) (t p : P), clouds[i]? = some c ∧ clouds[i + 1]? = some d ∧ prep c = .ok t ∧ prep d = .ok p ∧ reg t p = .error f

/-- The parts of an `InputFrame` that bodies access: `points` with `kdtree`, and `T_last_current`. -/
inductive FrameField where
  | data
  | pose
  deriving DecidableEq

/-- A body that may be running. -/
inductive FlowBody where
  | pre (p : Nat)
  | reg (t : Option Nat) (p : Nat)
  | out (p : Nat)

def FlowBody.reads : FlowBody → List (Nat × FrameField)
  | .pre p => [(p, .data)]
  | .reg (some t) p => [(t, .data), (p, .data)]
  | .reg none _ => []
  | .out p => [(p, .pose)]

def FlowBody.writes : FlowBody → List (Nat × FrameField)
  | .pre p => [(p, .data)]
  | .reg _ p => [(p, .pose)]
  | .out _ => []

/-- The bodies that may be running: those that have started, and the body of the output node for the message at the front of its queue. -/
def runningBodies (s : Flow K C P) : List FlowBody :=
  s.runPre.map .pre ++ s.runReg.map (fun q => .reg q.1 q.2) ++ (s.outQ.head?.map FlowBody.out).toList

/-- Two of them access the same part of a frame, and one of them writes it. -/
def FlowRace (s : Flow K C P) : Prop :=
  ∃ (i j : Nat) (a b : FlowBody) (x : Nat × FrameField), i ≠ j ∧ (runningBodies s)[i]? = some a ∧ (runningBodies s)[j]? = some b ∧ x ∈ a.writes ∧ (x ∈ b.reads ∨ x ∈ b.writes)

end Verif.Spec

namespace Verif.Props

open Verif Verif.Proofs Verif.Proofs.Flow Verif.Factors Verif.Odometry Verif.Spec

variable {K : Type} [Field K] {C D P : Type}

theorem pose_one_mul (T : Pose K) : Pose.one.mul T = T := by
  simp [Pose.mul, Pose.one]

theorem nodup_index {α : Type} {l : List α} (h : l.Nodup) {i j : Nat} {x : α} (hi : l[i]? = some x) (hj : l[j]? = some x) : i = j := by
  obtain ⟨h1, e1⟩ := List.getElem?_eq_some_iff.1 hi
  obtain ⟨h2, e2⟩ := List.getElem?_eq_some_iff.1 hj
  exact (h.getElem_inj_iff).1 (e1.trans e2.symm)

theorem chain_unique {prep : C → Res P} {reg : P → P → Res (Pose K)} {base : Pose K} {prev : Option P} {clouds : List C} {fs fs' : List P} {tr tr' : List (Pose K)}
    (h : FrameChain prep reg base prev clouds fs tr) (h' : FrameChain prep reg base prev clouds fs' tr') : fs = fs' ∧ tr = tr' := by
  obtain ⟨a1, a2, a3, a4, a5, a6⟩ := h
  obtain ⟨b1, b2, b3, b4, b5, b6⟩ := h'
  have hfs : fs = fs' := by
    refine List.ext_getElem (by omega) fun i h1 h2 => ?_
    have hc : clouds[i]? = some clouds[i] := List.getElem?_eq_getElem (by omega)
    have e1 := a3 i _ _ hc (List.getElem?_eq_getElem h1)
    have e2 := b3 i _ _ hc (List.getElem?_eq_getElem h2)
    rw [e1] at e2
    exact Except.ok.inj e2
  subst hfs
  refine ⟨rfl, ?_⟩
  have key : ∀ i (h1 : i < tr.length) (h2 : i < tr'.length), tr[i] = tr'[i] := by
    intro i
    induction i with
    | zero =>
      intro h1 h2
      cases prev with
      | none => rw [a4 rfl _ (List.getElem?_eq_getElem h1), b4 rfl _ (List.getElem?_eq_getElem h2)]
      | some t =>
        have hf : fs[0]? = some (fs[0]'(by omega)) := List.getElem?_eq_getElem (by omega)
        obtain ⟨R, e1, e2⟩ := a5 t rfl _ _ hf (List.getElem?_eq_getElem h1)
        obtain ⟨R', e3, e4⟩ := b5 t rfl _ _ hf (List.getElem?_eq_getElem h2)
        rw [e1] at e3
        cases e3
        rw [e2, e4]
    | succ i ih =>
      intro h1 h2
      have hf : fs[i]? = some (fs[i]'(by omega)) := List.getElem?_eq_getElem (by omega)
      have hf' : fs[i + 1]? = some (fs[i + 1]'(by omega)) := List.getElem?_eq_getElem (by omega)
      obtain ⟨R, e1, e2⟩ := a6 i _ _ _ _ hf hf' (List.getElem?_eq_getElem (by omega)) (List.getElem?_eq_getElem h1)
      obtain ⟨R', e3, e4⟩ := b6 i _ _ _ _ hf hf' (List.getElem?_eq_getElem (by omega)) (List.getElem?_eq_getElem h2)
      rw [e1] at e3
      cases e3
      rw [e2, e4, ih (by omega) (by omega)]
  exact List.ext_getElem (by omega) key

section flow
variable {prep : C → Res P} {reg : P → P → Res (Pose K)} {ds : List C} {prev : Option P} {h0 : List (InputFrame K C P)} {L0 : Option Nat}

theorem pr_get {i : Nat} {c : C} (h : ds[i]? = some c) : pr prep ds i = prep c := by
  unfold pr
  rw [h]

theorem fails_frame {f : Fault} (h : Fails prep reg ds prev f) : FrameFails prep reg prev ds f := by
  obtain ⟨i, hi, h⟩ := h
  have hc : ds[i]? = some ds[i] := List.getElem?_eq_getElem hi
  rcases h with h | h
  · rw [pr_get hc] at h
    exact .inl ⟨_, List.getElem_mem hi, h⟩
  · cases i with
    | zero =>
      unfold rl at h
      cases prev with
      | none => cases h
      | some t =>
        simp only at h
        rw [pr_get hc] at h
        cases hp : prep ds[0] with
        | error e => rw [hp] at h; cases h; exact .inl ⟨_, List.getElem_mem hi, hp⟩
        | ok p => rw [hp] at h; exact .inr (.inl ⟨t, _, p, rfl, hc, hp, h⟩)
    | succ j =>
      simp only [rl] at h
      have hc' : ds[j]? = some ds[j] := List.getElem?_eq_getElem (by omega)
      rw [pr_get hc'] at h
      cases hp : prep ds[j] with
      | error e => rw [hp] at h; cases h; exact .inl ⟨_, List.getElem_mem _, hp⟩
      | ok t =>
        rw [hp, ok_bind, pr_get hc] at h
        cases hq : prep ds[j + 1] with
        | error e => rw [hq] at h; cases h; exact .inl ⟨_, List.getElem_mem _, hq⟩
        | ok p => rw [hq] at h; exact .inr (.inr ⟨j, _, _, t, p, hc', hc, hp, hq, h⟩)

/-- The trajectory of a finished run. -/
theorem finished_chain {s : Flow K C P} {k1 : Nat} (h : Inv prep reg ds prev h0 L0 s k1) (hf : s.Finished prep reg) : ∃ frames, FrameChain prep reg Pose.one prev ds frames s.traj ∧
    (∀ i p, frames[i]? = some p → ∃ g, s.heap[h0.length + i]? = some g ∧ g.data = .inr p) ∧ s.last = prevPtr h0.length L0 ds.length := by
  obtain ⟨-, -, e1, e2, e3, e4⟩ := progress h hf
  have hp : ∀ i : Fin ds.length, ∃ p, pr prep ds i = .ok p ∧ ∃ g, s.heap[h0.length + i]? = some g ∧ g.data = .inr p := by
    intro i
    obtain ⟨f, d, h1, h2, h3⟩ := h.prepd i (.inr (by have := i.2; omega))
    exact ⟨d, h3, f, h1, h2⟩
  choose fr hfr hgr using hp
  have hget : ∀ i p, (List.ofFn fr)[i]? = some p → pr prep ds i = .ok p ∧ ∃ g, s.heap[h0.length + i]? = some g ∧ g.data = .inr p := by
    intro i p hi
    rw [List.getElem?_ofFn] at hi
    split at hi
    · rename_i hlt
      cases hi
      exact ⟨hfr ⟨i, hlt⟩, hgr ⟨i, hlt⟩⟩
    · cases hi
  refine ⟨List.ofFn fr, ⟨by simp, e4, ?_, ?_, ?_, ?_⟩, fun i p hi => (hget i p hi).2, by rw [h.last, e2]⟩
  · intro i c p hc hi
    rw [← pr_get (prep := prep) hc]
    exact (hget i p hi).1
  · rintro rfl T hT
    obtain ⟨R, hR, hm⟩ := h.traj 0 T hT
    cases hR
    exact hm
  · rintro t rfl p T hi hT
    obtain ⟨R, hR, hm⟩ := h.traj 0 T hT
    unfold rl at hR
    simp only at hR
    rw [(hget 0 p hi).1, ok_bind] at hR
    exact ⟨R, hR, by rw [pose_one_mul]; exact hm⟩
  · intro i t p T T' hi hi' hT hT'
    obtain ⟨R, hR, T'', h1, h2⟩ := h.traj (i + 1) T' hT'
    simp only [rl] at hR
    rw [(hget i t hi).1, ok_bind, (hget (i + 1) p hi').1, ok_bind] at hR
    rw [hT] at h1
    cases h1
    exact ⟨R, hR, h2⟩

/-- **C62 (any call).** Whatever the order of events, a call of the flow graph that finishes returns the chained registrations of consecutive frames, where the first frame
is registered to the frame `prev` that the static variable holds; a call can only fail with the fault of a frame. The finished state provides the static variable of the next call. -/
theorem C62_calls (hprev : PrevOK h0 L0 prev) {es : List Event} {r : Res (Flow K C P)} (h : (Flow.start h0 L0 ds).run prep reg es = some r) :
    (∀ s, r = .ok s → s.Finished prep reg → ∃ frames, FrameChain prep reg Pose.one prev ds frames s.traj ∧ PrevOK s.heap s.last (frames.getLast?.or prev)) ∧
    ∀ f, r = .error f → FrameFails prep reg prev ds f := by
  obtain ⟨h1, h2⟩ := run_inv (inv_start prep reg ds prev h0 L0) hprev es r h
  refine ⟨fun s hs hfin => ?_, fun f hf => fails_frame (h2 f hf)⟩
  obtain ⟨k, hk⟩ := h1 s hs
  obtain ⟨frames, hch, hheap, hlast⟩ := finished_chain hk hfin
  refine ⟨frames, hch, ?_⟩
  rw [hlast]
  have hlen := hch.1
  cases hn : ds.length with
  | zero =>
    obtain rfl : frames = [] := List.length_eq_zero_iff.1 (by omega)
    show PrevOK s.heap L0 prev
    unfold PrevOK at hprev ⊢
    cases L0 with
    | none =>
      cases prev with
      | none => trivial
      | some d => exact hprev.elim
    | some p =>
      cases prev with
      | none => exact hprev.elim
      | some d =>
        obtain ⟨g, hg⟩ := hprev
        exact ⟨g, by rw [hk.old p (List.getElem?_eq_some_iff.1 hg.1).1]; exact hg.1, hg.2⟩
  | succ n =>
    obtain ⟨p, hp⟩ : ∃ p, frames[n]? = some p := ⟨_, List.getElem?_eq_getElem (by omega)⟩
    rw [List.getLast?_eq_getElem?, hlen, hn, show n + 1 - 1 = n from rfl, hp]
    obtain ⟨g, hg⟩ := hheap n p hp
    exact ⟨g, hg⟩

/-- **C62, first call.** In a process that has not called it before, the flow graph gives, for every order of events, the chained registrations of consecutive frames with the
first frame at the identity. Missing: later calls (`C62_second_call_violated`). -/
theorem C62_first_call_partial {es : List Event} {r : Res (Flow K C P)} (h : (Flow.start [] none ds).run prep reg es = some r) :
    (∀ s, r = .ok s → s.Finished prep reg → ∃ frames, FrameChain prep reg Pose.one none ds frames s.traj) ∧ ∀ f, r = .error f → FrameFails prep reg none ds f := by
  obtain ⟨h1, h2⟩ := C62_calls (prev := none) (h0 := []) (L0 := none) trivial h
  exact ⟨fun s hs hf => (h1 s hs hf).imp fun _ h => h.1, h2⟩

/-- **C62, termination.** A call takes at most nine events per frame, and is finished exactly after nine events per frame; before that it can go on, until it is finished or fails. -/
theorem C62_terminates (hprev : PrevOK h0 L0 prev) {es : List Event} {s : Flow K C P} (h : (Flow.start h0 L0 ds).run prep reg es = some (.ok s)) :
    es.length ≤ 9 * ds.length ∧ (s.Finished prep reg ↔ es.length = 9 * ds.length) ∧
    ∃ es' r, s.run prep reg es' = some r ∧ ((∃ f, r = .error f) ∨ ∃ s', r = .ok s' ∧ s'.Finished prep reg) := by
  have hm := run_measure h
  have h0' : remaining (Flow.start h0 L0 ds : Flow K C P) = 9 * ds.length := by simp [remaining, Flow.start]
  rw [h0'] at hm
  obtain ⟨h1, -⟩ := run_inv (inv_start prep reg ds prev h0 L0) hprev es _ h
  obtain ⟨k, hk⟩ := h1 s rfl
  refine ⟨by omega, ⟨fun hf => ?_, fun he => ?_⟩, ?_⟩
  · have hz : remaining s = 0 := by
      obtain ⟨e0, e1, e2, e3, e4, e5⟩ := progress hk hf
      have p1 := hk.pre.length_eq
      have p2 := hk.regs.length_eq
      simp only [List.length_append, List.length_range', List.length_map] at p1 p2
      have p3 := congrArg List.length hk.pairQ
      have p4 := congrArg List.length hk.outQ
      simp only [List.length_range'] at p3 p4
      unfold remaining
      rw [e0]
      simp only [List.length_nil]
      omega
    omega
  · have hz : remaining s = 0 := by omega
    intro e
    cases hst : s.step prep reg e with
    | none => rfl
    | some q =>
      exfalso
      unfold remaining at hz
      have z : s.todo = [] ∧ s.waitPre = [] ∧ s.runPre = [] ∧ s.buf1 = [] ∧ s.pairQ = [] ∧ s.waitReg = [] ∧ s.runReg = [] ∧ s.buf2 = [] ∧ s.outQ = [] := by
        refine ⟨?_, ?_, ?_, ?_, ?_, ?_, ?_, ?_, ?_⟩ <;> (apply List.length_eq_zero_iff.1; omega)
      obtain ⟨z1, z2, z3, z4, z5, z6, z7, z8, z9⟩ := z
      cases e <;> simp [Flow.step, z1, z2, z3, z4, z5, z6, z7, z8, z9] at hst
  · clear hm h h1 hk
    generalize hM : remaining s = M
    induction M generalizing s with
    | zero =>
      by_cases hf : s.Finished prep reg
      · exact ⟨[], _, rfl, .inr ⟨s, rfl, hf⟩⟩
      · unfold Flow.Finished at hf
        push Not at hf
        obtain ⟨e, he⟩ := hf
        cases hst : s.step prep reg e with
        | none => exact absurd hst he
        | some q =>
          cases q with
          | error f => exact ⟨[e], .error f, by simp [Flow.run, hst], .inl ⟨f, rfl⟩⟩
          | ok s' => have := step_measure hst; omega
    | succ M ih =>
      by_cases hf : s.Finished prep reg
      · exact ⟨[], _, rfl, .inr ⟨s, rfl, hf⟩⟩
      · unfold Flow.Finished at hf
        push Not at hf
        obtain ⟨e, he⟩ := hf
        cases hst : s.step prep reg e with
        | none => exact absurd hst he
        | some q =>
          cases q with
          | error f => exact ⟨[e], .error f, by simp [Flow.run, hst], .inl ⟨f, rfl⟩⟩
          | ok s' =>
            have := step_measure hst
            obtain ⟨es', r, h1, h2⟩ := ih (s := s') (by omega)
            exact ⟨e :: es', r, by simp only [Flow.run, hst]; exact h1, h2⟩

/-- **C62, data races.** At no time do two running bodies access the same part of a frame such that one of them writes it. -/
theorem C62_no_race (hprev : PrevOK h0 L0 prev) {es : List Event} {s : Flow K C P} (h : (Flow.start h0 L0 ds).run prep reg es = some (.ok s)) : ¬ FlowRace s := by
  obtain ⟨h1, -⟩ := run_inv (inv_start prep reg ds prev h0 L0) hprev es _ h
  obtain ⟨k, hk⟩ := h1 s rfl
  rintro ⟨i, j, a, b, x, hij, ha, hb, hxa, hxb⟩
  have hnd1 : s.runPre.Nodup := (List.nodup_append.1 (List.nodup_append.1 hk.nodup1).1).2.1
  have hnd2 : (s.runReg.map Prod.snd).Nodup := by
    have := (List.nodup_append.1 hk.nodup2).1
    rw [List.map_append, List.nodup_append] at this
    exact this.2.1
  -- what a running body is
  have hbody : ∀ (i : Nat) (a : FlowBody), (runningBodies s)[i]? = some a → (∃ p, a = .pre p ∧ s.runPre[i]? = some p) ∨
      (∃ q, a = .reg q.1 q.2 ∧ s.runPre.length ≤ i ∧ s.runReg[i - s.runPre.length]? = some q) ∨
      (∃ p, a = .out p ∧ i = s.runPre.length + s.runReg.length ∧ s.outQ.head? = some p) := by
    intro i a hi
    unfold runningBodies at hi
    by_cases h1 : i < s.runPre.length
    · rw [List.append_assoc, List.getElem?_append_left (by simpa using h1), List.getElem?_map, Option.map_eq_some_iff] at hi
      obtain ⟨p, hp, rfl⟩ := hi
      exact .inl ⟨p, rfl, hp⟩
    · rw [List.append_assoc, List.getElem?_append_right (by simpa using h1)] at hi
      simp only [List.length_map] at hi
      by_cases h2 : i - s.runPre.length < s.runReg.length
      · rw [List.getElem?_append_left (by simpa using h2), List.getElem?_map, Option.map_eq_some_iff] at hi
        obtain ⟨q, hq, rfl⟩ := hi
        exact .inr (.inl ⟨q, rfl, by omega, hq⟩)
      · rw [List.getElem?_append_right (by simpa using h2)] at hi
        simp only [List.length_map] at hi
        cases ho : s.outQ.head? with
        | none => rw [ho] at hi; simp at hi
        | some p =>
          rw [ho] at hi
          simp only [Option.map_some, Option.toList_some] at hi
          have hz : i - s.runPre.length - s.runReg.length = 0 := by
            have := (List.getElem?_eq_some_iff.1 hi).1
            simpa using this
          rw [hz] at hi
          simp only [List.getElem?_cons_zero, Option.some.injEq] at hi
          exact .inr (.inr ⟨p, hi.symm, by omega, rfl⟩)
  have hlek := hk.lek
  -- the frames a registration reads are behind the first sequencer
  have hregRead : ∀ q, q ∈ s.runReg → ∀ y ∈ (FlowBody.reg q.1 q.2).reads, y.2 = .data ∧ y.1 < h0.length + s.next1 := by
    intro q hq y hy
    obtain ⟨i, hi, hi1, hi2⟩ := hk.reg_mem (.inl ⟨q, .inr hq, rfl⟩)
    have hp := hk.pairs q (.inr hq) i hi
    obtain ⟨q1, q2⟩ := q
    simp only at hi hp
    subst hi
    cases q1 with
    | none => simp [FlowBody.reads] at hy
    | some t =>
      have ht : t < h0.length + s.next1 := by
        cases i with
        | zero =>
          simp only [prevPtr] at hp
          subst hp
          unfold PrevOK at hprev
          cases prev with
          | none => exact hprev.elim
          | some d =>
            obtain ⟨g, hg, -⟩ := hprev
            have := (List.getElem?_eq_some_iff.1 hg).1
            omega
        | succ i =>
          simp only [prevPtr, Option.some.injEq] at hp
          omega
      simp only [FlowBody.reads, List.mem_cons, List.not_mem_nil, or_false] at hy
      rcases hy with rfl | rfl
      · exact ⟨rfl, ht⟩
      · exact ⟨rfl, by simp only; omega⟩
  have hout : ∀ p, s.outQ.head? = some p → p < h0.length + s.next2 := by
    intro p hp
    have := List.mem_of_mem_head? hp
    rw [hk.outQ, List.mem_range'_1] at this
    have := hk.let_
    omega
  rcases hbody i a ha with ⟨p, rfl, hp⟩ | ⟨q, rfl, hq0, hq⟩ | ⟨p, rfl, hp0, hp⟩
  · -- a body of the preprocessing node
    simp only [FlowBody.writes, List.mem_singleton] at hxa
    subst hxa
    obtain ⟨k', hk1, hk2, hk3⟩ := hk.pre_mem (.inr (.inl (List.mem_of_getElem? hp)))
    rcases hbody j b hb with ⟨p', rfl, hp'⟩ | ⟨q', rfl, hq0', hq'⟩ | ⟨p', rfl, hp0', hp'⟩
    · have : p = p' := by
        simp only [FlowBody.writes, FlowBody.reads, List.mem_singleton, Prod.mk.injEq, and_true, or_self] at hxb
        exact hxb
      subst this
      exact hij (nodup_index hnd1 hp hp')
    · rcases hxb with hx | hx
      · have := (hregRead q' (List.mem_of_getElem? hq') _ hx).2
        simp only at this
        omega
      · simp [FlowBody.writes] at hx
    · simp [FlowBody.writes, FlowBody.reads] at hxb
  · -- a body of the registration node
    simp only [FlowBody.writes, List.mem_singleton] at hxa
    subst hxa
    obtain ⟨k', hk1, hk2, hk3⟩ := hk.reg_mem (.inl ⟨q, .inr (List.mem_of_getElem? hq), rfl⟩)
    rcases hbody j b hb with ⟨p', rfl, hp'⟩ | ⟨q', rfl, hq0', hq'⟩ | ⟨p', rfl, hp0', hp'⟩
    · simp [FlowBody.writes, FlowBody.reads] at hxb
    · rcases hxb with hx | hx
      · have := (hregRead q' (List.mem_of_getElem? hq') _ hx).1
        simp at this
      · simp only [FlowBody.writes, List.mem_singleton, Prod.mk.injEq, and_true] at hx
        have e1 : (s.runReg.map Prod.snd)[i - s.runPre.length]? = some q.2 := by rw [List.getElem?_map, hq]; rfl
        have e2 : (s.runReg.map Prod.snd)[j - s.runPre.length]? = some q'.2 := by rw [List.getElem?_map, hq']; rfl
        have := nodup_index hnd2 e1 (e2.trans (by rw [hx]))
        omega
    · simp only [FlowBody.writes, FlowBody.reads, List.mem_singleton, List.not_mem_nil, or_false, Prod.mk.injEq, and_true] at hxb
      have := hout p' hp'
      omega
  · simp [FlowBody.writes] at hxa

end flow

section online
variable {S : Type} {sample : C → Res D} {step : S → D → Res (S × Pose K)}

/-- The loop over the clouds as a recursion on the list. -/
def walk (sample : C → Res D) (step : S → D → Res (S × Pose K)) : S → List (Option C) → Res (S × List (Pose K))
  | s, [] => .ok (s, [])
  | _, none :: _ => .error .nullDeref
  | s, some c :: r => do
    let d ← sample c
    let q ← step s d
    let w ← walk sample step q.1 r
    .ok (w.1, q.2 :: w.2)

theorem online_loop (m : Nat) : ∀ (k : Nat) (s : S) (rest : List (Option C)) (tr : List (Pose K)), rest.length = m →
    (List.range' k m).foldlM (fun (st : S × List (Option C) × List (Pose K)) i => do
      let q ← rd st.2.1 i
      match q with
      | none => .error .nullDeref
      | some c => do
        let d ← sample c
        let r ← step st.1 d
        let ps ← wr st.2.1 i none
        return (r.1, ps, st.2.2 ++ [r.2])) (s, List.replicate k none ++ rest, tr) = (do
      let w ← walk sample step s rest
      .ok (w.1, List.replicate (k + m) none, tr ++ w.2)) := by
  induction m with
  | zero =>
    intro k s rest tr hr
    obtain rfl : rest = [] := List.length_eq_zero_iff.1 hr
    simp [walk, ok_bind, pure, Except.pure]
  | succ m ih =>
    intro k s rest tr hr
    cases rest with
    | nil => cases hr
    | cons q rest =>
      have hq : (List.replicate k (none : Option C) ++ q :: rest)[k]? = some q := by
        rw [List.getElem?_append_right (by simp)]
        simp
      rw [List.range'_succ, List.foldlM_cons, rd_some hq, ok_bind]
      cases q with
      | none => rfl
      | some c =>
        unfold walk
        simp only
        cases sample c with
        | error f => rfl
        | ok d =>
          rw [ok_bind, ok_bind]
          cases step s d with
          | error f => rfl
          | ok r =>
            rw [ok_bind, ok_bind, wr_some hq, ok_bind]
            have hset : (List.replicate k (none : Option C) ++ some c :: rest).set k none = List.replicate (k + 1) none ++ rest := by
              rw [List.set_append_right _ _ (by simp), List.replicate_succ']
              simp
            rw [hset]
            refine (ih (k + 1) r.1 rest (tr ++ [r.2]) (by simpa using hr)).trans ?_
            cases walk sample step r.1 rest with
            | error f => rfl
            | ok w =>
              rw [ok_bind, ok_bind, ok_bind, show k + 1 + m = k + (m + 1) by omega]
              simp

theorem online_walk (s : S) (points : List (Option C)) : online sample step s points = (do
    let w ← walk sample step s points
    .ok (w.1, List.replicate points.length none, w.2)) := by
  have := online_loop (sample := sample) (step := step) points.length 0 s points [] rfl
  rw [List.replicate_zero, List.nil_append, Nat.zero_add] at this
  unfold online
  rw [List.range_eq_range']
  refine this.trans ?_
  cases walk sample step s points with
  | error f => rfl
  | ok w => rw [ok_bind, ok_bind, List.nil_append]

variable {prep : D → Res P} {reg : P → P → Res (Pose K)}

/-- Down-sampling and preprocessing together. -/
def sampleThenPrep (sample : C → Res D) (prep : D → Res P) (c : C) : Res P := do
  let d ← sample c
  prep d

theorem walk_chain (s : FrameToFrame K P) (cs : List C) :
    (∀ s' tr, walk sample (frameToFrame prep reg) s (cs.map some) = .ok (s', tr) →
      ∃ frames, FrameChain (sampleThenPrep sample prep) reg s.T s.target cs frames tr ∧ s'.T = tr.getLast?.getD s.T ∧ s'.target = frames.getLast?.or s.target) ∧
    ∀ f, walk sample (frameToFrame prep reg) s (cs.map some) = .error f → FrameFails (sampleThenPrep sample prep) reg s.target cs f := by
  induction cs generalizing s with
  | nil =>
    refine ⟨fun s' tr h => ?_, fun f h => by cases h⟩
    simp only [walk, List.map_nil, Except.ok.injEq, Prod.mk.injEq] at h
    obtain ⟨rfl, rfl⟩ := h
    exact ⟨[], ⟨rfl, rfl, by simp, by simp, by simp, by simp⟩, rfl, rfl⟩
  | cons c cs ih =>
    rw [List.map_cons]
    unfold walk
    -- a failing tail
    have tail : ∀ (p : P) (f : Fault), sampleThenPrep sample prep c = .ok p → FrameFails (sampleThenPrep sample prep) reg (some p) cs f →
        FrameFails (sampleThenPrep sample prep) reg s.target (c :: cs) f := by
      intro p f hp hf
      rcases hf with ⟨c', hc, he⟩ | ⟨t, c', p', ht, hc, hp', he⟩ | ⟨i, c', d', t, p', h1, h2, h3⟩
      · exact .inl ⟨c', List.mem_cons_of_mem _ hc, he⟩
      · cases ht
        exact .inr (.inr ⟨0, c, c', p, p', rfl, by simpa using hc, hp, hp', he⟩)
      · exact .inr (.inr ⟨i + 1, c', d', t, p', by simpa using h1, by simpa using h2, h3⟩)
    cases hd : sample c with
    | error f =>
      refine ⟨fun s' tr h => (by cases h), fun f' h => ?_⟩
      cases h
      exact .inl ⟨c, List.mem_cons_self, by unfold sampleThenPrep; rw [hd]; rfl⟩
    | ok d =>
      rw [ok_bind]
      have hprep : sampleThenPrep sample prep c = prep d := by unfold sampleThenPrep; rw [hd, ok_bind]
      unfold frameToFrame
      cases hp : prep d with
      | error f =>
        refine ⟨fun s' tr h => (by cases h), fun f' h => ?_⟩
        cases h
        exact .inl ⟨c, List.mem_cons_self, by rw [hprep, hp]⟩
      | ok p =>
        rw [ok_bind]
        -- the first pose
        have main : ∀ T : Pose K, (s.target = none → T = s.T) → (∀ t, s.target = some t → ∃ R, reg t p = .ok R ∧ T = s.T.mul R) →
            (∀ s' tr, (do
                let w ← walk sample (frameToFrame prep reg) (⟨some p, T⟩ : FrameToFrame K P) (cs.map some)
                .ok (w.1, T :: w.2)) = (.ok (s', tr) : Res (FrameToFrame K P × List (Pose K))) →
              ∃ frames, FrameChain (sampleThenPrep sample prep) reg s.T s.target (c :: cs) frames tr ∧ s'.T = tr.getLast?.getD s.T ∧ s'.target = frames.getLast?.or s.target) ∧
            ∀ f, (do
                let w ← walk sample (frameToFrame prep reg) (⟨some p, T⟩ : FrameToFrame K P) (cs.map some)
                .ok (w.1, T :: w.2)) = (.error f : Res (FrameToFrame K P × List (Pose K))) → FrameFails (sampleThenPrep sample prep) reg s.target (c :: cs) f := by
          intro T hT1 hT2
          obtain ⟨ih1, ih2⟩ := ih ⟨some p, T⟩
          cases hw : walk sample (frameToFrame prep reg) (⟨some p, T⟩ : FrameToFrame K P) (cs.map some) with
          | error f =>
            refine ⟨fun s' tr h => (by cases h), fun f' h => ?_⟩
            cases h
            exact tail p f (by rw [hprep, hp]) (ih2 f hw)
          | ok w =>
            refine ⟨fun s' tr h => ?_, fun f' h => by cases h⟩
            simp only [ok_bind, Except.ok.injEq, Prod.mk.injEq] at h
            obtain ⟨rfl, rfl⟩ := h
            obtain ⟨frames, ⟨a1, a2, a3, a4, a5, a6⟩, e1, e2⟩ := ih1 w.1 w.2 hw
            refine ⟨p :: frames, ⟨by simp [a1], by simp [a2], ?_, ?_, ?_, ?_⟩, ?_, ?_⟩
            · intro i c' p' hc hp'
              cases i with
              | zero =>
                simp only [List.getElem?_cons_zero, Option.some.injEq] at hc hp'
                subst hc hp'
                rw [hprep, hp]
              | succ i => exact a3 i c' p' (by simpa using hc) (by simpa using hp')
            · intro hn T' hT'
              simp only [List.getElem?_cons_zero, Option.some.injEq] at hT'
              rw [← hT', hT1 hn]
            · intro t ht p' T' hp' hT'
              simp only [List.getElem?_cons_zero, Option.some.injEq] at hp' hT'
              subst hp' hT'
              exact hT2 t ht
            · intro i t p' T1 T2 h1 h2 h3 h4
              cases i with
              | zero =>
                simp only [List.getElem?_cons_zero, Option.some.injEq] at h1 h3
                subst h1 h3
                exact a5 _ rfl p' T2 (by simpa using h2) (by simpa using h4)
              | succ i => exact a6 i t p' T1 T2 (by simpa using h1) (by simpa using h2) (by simpa using h3) (by simpa using h4)
            · rw [e1, List.getLast?_cons]
              rfl
            · rw [e2, List.getLast?_cons]
              cases frames.getLast? <;> rfl
        cases ht : s.target with
        | none =>
          rw [ht] at main
          exact main s.T (fun _ => rfl) (fun t h => by cases h)
        | some t =>
          rw [ht] at main tail
          simp only
          cases hR : reg t p with
          | error f =>
            refine ⟨fun s' tr h => (by cases h), fun f' h => ?_⟩
            cases h
            exact .inr (.inl ⟨t, c, p, rfl, rfl, by rw [hprep, hp], hR⟩)
          | ok R =>
            exact main (s.T.mul R) (fun h => by cases h) (fun t' h => by cases h; exact ⟨R, hR, rfl⟩)

/-- **C62, frame by frame.** The sequential odometry returns the chained registrations of consecutive frames, starting from its current pose and target, and keeps the last pose
and the last frame. It fails only with the fault of a frame. -/
theorem C62_online (s : FrameToFrame K P) (cs : List C) :
    (∀ s' ps tr, online sample (frameToFrame prep reg) s (cs.map some) = .ok (s', ps, tr) → (∀ q ∈ ps, q = none) ∧ ps.length = cs.length ∧
      ∃ frames, FrameChain (sampleThenPrep sample prep) reg s.T s.target cs frames tr ∧ s'.T = tr.getLast?.getD s.T ∧ s'.target = frames.getLast?.or s.target) ∧
    ∀ f, online sample (frameToFrame prep reg) s (cs.map some) = .error f → FrameFails (sampleThenPrep sample prep) reg s.target cs f := by
  rw [online_walk]
  obtain ⟨h1, h2⟩ := walk_chain (sample := sample) (prep := prep) (reg := reg) s cs
  cases hw : walk sample (frameToFrame prep reg) s (cs.map some) with
  | error f =>
    refine ⟨fun s' ps tr h => (by cases h), fun f' h => ?_⟩
    cases h
    exact h2 f hw
  | ok w =>
    refine ⟨fun s' ps tr h => ?_, fun f' h => by cases h⟩
    simp only [ok_bind, Except.ok.injEq, Prod.mk.injEq] at h
    obtain ⟨rfl, rfl, rfl⟩ := h
    exact ⟨fun q hq => (List.mem_replicate.1 hq).2, by simp, h1 w.1 w.2 hw⟩

/-- **C62, input pointers.** A vector that contains a null pointer, such as every vector that was used before, makes the sequential odometry fail. -/
theorem C62_reused_input (s : S) (points : List (Option C)) (h : none ∈ points) : ∃ f, online sample step s points = .error f := by
  rw [online_walk]
  have : ∃ f, walk sample step s points = .error f := by
    induction points generalizing s with
    | nil => cases h
    | cons q r ih =>
      cases q with
      | none => exact ⟨_, rfl⟩
      | some c =>
        have hr : none ∈ r := by simpa using h
        unfold walk
        cases sample c with
        | error f => exact ⟨f, rfl⟩
        | ok d =>
          rw [ok_bind]
          cases step s d with
          | error f => exact ⟨f, rfl⟩
          | ok w =>
            obtain ⟨f, hf⟩ := ih w.1 hr
            exact ⟨f, by rw [ok_bind, hf]; rfl⟩
  obtain ⟨f, hf⟩ := this
  exact ⟨f, by rw [hf]; rfl⟩

theorem chain_no_fail {prep : C → Res P} {base : Pose K} {prev : Option P} {clouds : List C} {fs : List P} {tr : List (Pose K)} {f : Fault}
    (h : FrameChain prep reg base prev clouds fs tr) : ¬ FrameFails prep reg prev clouds f := by
  obtain ⟨a1, a2, a3, a4, a5, a6⟩ := h
  have get : ∀ (i : Nat) c, clouds[i]? = some c → ∃ p T, fs[i]? = some p ∧ tr[i]? = some T ∧ prep c = .ok p := by
    intro i c hc
    have hi := (List.getElem?_eq_some_iff.1 hc).1
    have e1 : fs[i]? = some (fs[i]'(by omega)) := List.getElem?_eq_getElem _
    exact ⟨_, tr[i]'(by omega), e1, List.getElem?_eq_getElem _, a3 i c _ hc e1⟩
  rintro (⟨c, hc, he⟩ | ⟨t, c, p, ht, hc, hp, he⟩ | ⟨i, c, d, t, p, h1, h2, h3, h4, he⟩)
  · obtain ⟨i, hi⟩ := List.mem_iff_getElem?.1 hc
    obtain ⟨p, T, -, -, hp⟩ := get i c hi
    rw [hp] at he
    cases he
  · obtain ⟨p', T, e1, e2, e3⟩ := get 0 c hc
    rw [hp] at e3
    cases e3
    obtain ⟨R, hR, -⟩ := a5 t ht p T e1 e2
    rw [hR] at he
    cases he
  · obtain ⟨t', T, e1, e2, e3⟩ := get i c h1
    obtain ⟨p', T', e1', e2', e3'⟩ := get (i + 1) d h2
    rw [h3] at e3
    rw [h4] at e3'
    cases e3
    cases e3'
    obtain ⟨R, hR, -⟩ := a6 i t p T T' e1 e1' e2 e2'
    rw [hR] at he
    cases he

/-- **C62, equivalence.** In its first call the flow graph gives, for every order of events, the trajectory of the sequential odometry, and it fails only when that fails. -/
theorem C62_same_trajectory {ds : List C} {es : List Event} {r : Res (Flow K C P)} (h : (Flow.start [] none ds).run (sampleThenPrep sample prep) reg es = some r) :
    (∀ s, r = .ok s → s.Finished (sampleThenPrep sample prep) reg → ∃ st ps, online sample (frameToFrame prep reg) FrameToFrame.init (ds.map some) = .ok (st, ps, s.traj)) ∧
    ∀ f, r = .error f → ∃ f', online sample (frameToFrame prep reg) FrameToFrame.init (ds.map some) = .error f' := by
  obtain ⟨h1, h2⟩ := C62_first_call_partial h
  obtain ⟨o1, o2⟩ := C62_online (sample := sample) (prep := prep) (reg := reg) FrameToFrame.init ds
  cases ho : online sample (frameToFrame prep reg) FrameToFrame.init (ds.map some) with
  | error f' =>
    refine ⟨fun s hs hf => ?_, fun f hf => ⟨f', rfl⟩⟩
    obtain ⟨frames, hc⟩ := h1 s hs hf
    exact absurd (o2 f' ho) (chain_no_fail hc)
  | ok q =>
    obtain ⟨st, ps, tr⟩ := q
    obtain ⟨-, -, frames, hc, -⟩ := o1 st ps tr ho
    refine ⟨fun s hs hf => ?_, fun f hf => absurd (h2 f hf) (chain_no_fail hc)⟩
    obtain ⟨frames', hc'⟩ := h1 s hs hf
    obtain ⟨-, rfl⟩ := chain_unique hc hc'
    exact ⟨st, ps, rfl⟩

end online

/-! ### a second call -/

/-- Frames are positions on a line; registration finds the translation between them. -/
def lineReg (t p : ℚ) : Res (Pose ℚ) := .ok ⟨1, ![p - t, 0, 0]⟩

/-- The events of a call with a single frame at heap position `p`. -/
def oneFrame (last : Option Nat) (p : Nat) : List Event := [.feed, .startPre p, .endPre p, .seq1 p, .pair, .startReg (last, p), .endReg (last, p), .seq2 p, .output]

/-- **C62 is violated** for later calls: the flow graph registers the first frame of the second call to the last frame of the first call, because `last_frame` is a static variable.
The same frame gets a different pose than in the first call and than in the sequential odometry. -/
theorem C62_second_call_violated : ∃ (s1 s2 : Flow ℚ ℚ ℚ),
    (Flow.start [] none [0]).run .ok lineReg (oneFrame none 0) = some (.ok s1) ∧ s1.Finished .ok lineReg ∧
    (Flow.start s1.heap s1.last [5]).run .ok lineReg (oneFrame s1.last 1) = some (.ok s2) ∧ s2.Finished .ok lineReg ∧
    ¬ (∃ frames, FrameChain .ok lineReg Pose.one none [5] frames s2.traj) ∧
    ∃ st ps, online .ok (frameToFrame .ok lineReg) FrameToFrame.init [some (5 : ℚ)] = .ok (st, ps, [Pose.one]) := by
  refine ⟨⟨[⟨0, .inr 0, some Pose.one⟩], [], 1, [], [], [], 1, [], some 0, [], [], [], 1, [], [Pose.one]⟩,
    ⟨[⟨0, .inr 0, some Pose.one⟩, ⟨0, .inr 5, some ⟨1, ![5 - 0, 0, 0]⟩⟩], [], 1, [], [], [], 1, [], some 1, [], [], [], 1, [], [⟨1, ![5 - 0, 0, 0]⟩]⟩, rfl, ?_, rfl, ?_, ?_, _, _, rfl⟩
  · exact ((C62_terminates (prev := none) (h0 := []) (L0 := none) (ds := [0]) trivial (es := oneFrame none 0) rfl).2.1).2 rfl
  · exact ((C62_terminates (prev := some 0) (h0 := [⟨0, .inr 0, some Pose.one⟩]) (L0 := some 0) (ds := [5]) ⟨_, rfl, rfl⟩ (es := oneFrame (some 0) 1) rfl).2.1).2 rfl
  · rintro ⟨frames, h⟩
    have h1 := h.2.2.2.1 rfl _ rfl
    have h2 := congrFun (congrArg Pose.t h1) 0
    simp [Pose.one] at h2

/-- An order of events for three frames in which the second one is preprocessed and registered first. -/
def threeFrames : List Event :=
  [.feed, .feed, .startPre 1, .endPre 1, .startPre 0, .feed, .endPre 0, .startPre 2, .seq1 0, .pair, .seq1 1, .pair, .startReg (some 0, 1), .endReg (some 0, 1), .endPre 2, .seq1 2,
   .pair, .startReg (some 1, 2), .startReg (none, 0), .endReg (some 1, 2), .endReg (none, 0), .seq2 0, .seq2 1, .output, .output, .seq2 2, .output]

example : ∃ s, (Flow.start [] none [0, 1, 3]).run .ok lineReg threeFrames = some (.ok s) ∧ s.Finished .ok lineReg ∧ s.traj.map (fun T => T.t 0) = [0, 1, 3] := by
  refine ⟨_, rfl, ?_, ?_⟩
  · exact ((C62_terminates (prev := none) (h0 := []) (L0 := none) (ds := [0, 1, 3]) trivial (es := threeFrames) rfl).2.1).2 rfl
  · decide +kernel

end Verif.Props
