import Verif.Model.Odometry
import Verif.Proofs.KdBuild
import Verif.Proofs.Parallel

set_option linter.unusedSectionVars false
set_option linter.unusedSimpArgs false
set_option linter.unnecessarySeqFocus false

/-!
Invariant of the flow graph of `Verif.Odometry`, for any preprocessing and registration function and any order of events.
-/

namespace Verif.Proofs.Flow

open Verif Verif.Factors Verif.Odometry

variable {K : Type} [Field K] {C P : Type}

section
variable (prep : C → Res P) (reg : P → P → Res (Pose K)) (ds : List C) (prev : Option P)

/-- Preprocessing of frame `i`. -/
def pr (i : Nat) : Res P :=
  match ds[i]? with
  | none => .error .oob
  | some c => prep c

/-- Pose of frame `i` relative to the frame before it. -/
def rl : Nat → Res (Pose K)
  | 0 =>
    match prev with
    | none => .ok Pose.one
    | some t => do
      let p ← pr prep ds 0
      reg t p
  | i + 1 => do
    let t ← pr prep ds i
    let p ← pr prep ds (i + 1)
    reg t p

/-- The first poses of the trajectory. -/
def TrajOK (traj : List (Pose K)) : Prop :=
  ∀ i T, traj[i]? = some T → ∃ R, rl prep reg ds prev i = .ok R ∧ match i with
    | 0 => T = R
    | j + 1 => ∃ T', traj[j]? = some T' ∧ T = T'.mul R
end

/-- Pointer to the frame before frame `i`. -/
def prevPtr (b : Nat) (L0 : Option Nat) : Nat → Option Nat
  | 0 => L0
  | i + 1 => some (b + i)

structure Inv (prep : C → Res P) (reg : P → P → Res (Pose K)) (ds : List C) (prev : Option P) (h0 : List (InputFrame K C P)) (L0 : Option Nat)
    (s : Flow K C P) (k1 : Nat) : Prop where
  heapLen : s.heap.length = h0.length + s.nextId
  old : ∀ p, p < h0.length → s.heap[p]? = h0[p]?
  todo : s.todo = ds.drop s.nextId
  fed : s.nextId ≤ ds.length
  ids : ∀ i, i < s.nextId → ∃ f, s.heap[h0.length + i]? = some f ∧ f.id = i
  le1 : s.next1 ≤ s.nextId
  pre : (s.waitPre ++ s.runPre ++ s.buf1).Perm (List.range' (h0.length + s.next1) (s.nextId - s.next1))
  raw : ∀ i, (h0.length + i ∈ s.waitPre ∨ h0.length + i ∈ s.runPre) → ∃ f c, s.heap[h0.length + i]? = some f ∧ f.data = .inl c ∧ ds[i]? = some c
  prepd : ∀ i, (h0.length + i ∈ s.buf1 ∨ i < s.next1) → ∃ f d, s.heap[h0.length + i]? = some f ∧ f.data = .inr d ∧ pr prep ds i = .ok d
  lek : k1 ≤ s.next1
  pairQ : s.pairQ = List.range' (h0.length + k1) (s.next1 - k1)
  last : s.last = prevPtr h0.length L0 k1
  le2 : s.next2 ≤ k1
  regs : ((s.waitReg ++ s.runReg).map Prod.snd ++ s.buf2).Perm (List.range' (h0.length + s.next2) (k1 - s.next2))
  pairs : ∀ q, (q ∈ s.waitReg ∨ q ∈ s.runReg) → ∀ i, q.2 = h0.length + i → q.1 = prevPtr h0.length L0 i
  posed : ∀ i, (h0.length + i ∈ s.buf2 ∨ i < s.next2) → ∃ f R, s.heap[h0.length + i]? = some f ∧ f.T = some R ∧ rl prep reg ds prev i = .ok R
  let_ : s.traj.length ≤ s.next2
  outQ : s.outQ = List.range' (h0.length + s.traj.length) (s.next2 - s.traj.length)
  traj : TrajOK prep reg ds prev s.traj

/-- What the static pointer refers to. -/
def PrevOK (h0 : List (InputFrame K C P)) (L0 : Option Nat) (prev : Option P) : Prop :=
  match L0, prev with
  | none, none => True
  | some p, some d => ∃ f, h0[p]? = some f ∧ f.data = .inr d
  | _, _ => False

theorem range'_head {a n : Nat} (h : 0 < n) : List.range' a n = a :: List.range' (a + 1) (n - 1) := by
  obtain ⟨m, rfl⟩ : ∃ m, n = m + 1 := ⟨n - 1, by omega⟩
  rfl

theorem range'_tail (a n : Nat) : List.range' a (n + 1) = List.range' a n ++ [a + n] := by
  rw [List.range'_concat]
  simp

theorem erase_cons_append {α : Type} [BEq α] [LawfulBEq α] {a b c : List α} {p : α} (h : p ∈ a) : (a.erase p ++ (p :: b) ++ c).Perm (a ++ b ++ c) := by
  refine List.Perm.append_right c ?_
  refine List.perm_middle.trans ?_
  exact (List.Perm.append_right b (List.perm_cons_erase h)).symm

variable {prep : C → Res P} {reg : P → P → Res (Pose K)} {ds : List C} {prev : Option P} {h0 : List (InputFrame K C P)} {L0 : Option Nat}

theorem inv_start (prep : C → Res P) (reg : P → P → Res (Pose K)) (ds : List C) (prev : Option P) (h0 : List (InputFrame K C P)) (L0 : Option Nat) :
    Inv prep reg ds prev h0 L0 (Flow.start h0 L0 ds) 0 := by
  constructor <;> simp [Flow.start, prevPtr, TrajOK]

/-- The pointers that are between the two sequencers are those of fed frames. -/
theorem Inv.pre_mem {s : Flow K C P} {k1 : Nat} (h : Inv prep reg ds prev h0 L0 s k1) {p : Nat} (hp : p ∈ s.waitPre ∨ p ∈ s.runPre ∨ p ∈ s.buf1) :
    ∃ i, p = h0.length + i ∧ s.next1 ≤ i ∧ i < s.nextId := by
  have : p ∈ s.waitPre ++ s.runPre ++ s.buf1 := by simp only [List.mem_append]; tauto
  rw [h.pre.mem_iff, List.mem_range'_1] at this
  have := h.le1
  exact ⟨p - h0.length, by omega, by omega, by omega⟩

theorem Inv.reg_mem {s : Flow K C P} {k1 : Nat} (h : Inv prep reg ds prev h0 L0 s k1) {p : Nat}
    (hp : (∃ q, (q ∈ s.waitReg ∨ q ∈ s.runReg) ∧ q.2 = p) ∨ p ∈ s.buf2) : ∃ i, p = h0.length + i ∧ s.next2 ≤ i ∧ i < k1 := by
  have : p ∈ (s.waitReg ++ s.runReg).map Prod.snd ++ s.buf2 := by
    simp only [List.mem_append, List.mem_map]
    rcases hp with ⟨q, hq, rfl⟩ | hp
    · exact .inl ⟨q, by tauto, rfl⟩
    · exact .inr hp
  rw [h.regs.mem_iff, List.mem_range'_1] at this
  have := h.le2
  exact ⟨p - h0.length, by omega, by omega, by omega⟩

theorem Inv.nodup1 {s : Flow K C P} {k1 : Nat} (h : Inv prep reg ds prev h0 L0 s k1) : (s.waitPre ++ s.runPre ++ s.buf1).Nodup :=
  h.pre.nodup_iff.2 (List.nodup_range' (step := 1))

theorem Inv.nodup2 {s : Flow K C P} {k1 : Nat} (h : Inv prep reg ds prev h0 L0 s k1) : ((s.waitReg ++ s.runReg).map Prod.snd ++ s.buf2).Nodup :=
  h.regs.nodup_iff.2 (List.nodup_range' (step := 1))

/-- A heap write that keeps ids and lengths. -/
theorem set_get {α : Type} (l : List α) (p q : Nat) (x : α) : (l.set p x)[q]? = if p = q then (if q < l.length then some x else none) else l[q]? := by
  rw [List.getElem?_set]
  split
  · rename_i h
    subst h
    by_cases hp : p < l.length <;> simp [hp]
  · rfl

theorem step_feed {s s' : Flow K C P} {k1 : Nat} (h : Inv prep reg ds prev h0 L0 s k1) (hs : s.step prep reg .feed = some (.ok s')) : Inv prep reg ds prev h0 L0 s' k1 := by
  unfold Flow.step at hs
  simp only at hs
  split at hs
  · cases hs
  · rename_i c cs htodo
    simp only [Option.some.injEq, Except.ok.injEq] at hs
    subst hs
    have htd := h.todo
    rw [htodo] at htd
    have hlt : s.nextId < ds.length := by
      by_contra hge
      rw [List.drop_of_length_le (by omega)] at htd
      cases htd
    have hc : ds[s.nextId]? = some c ∧ cs = ds.drop (s.nextId + 1) := by
      rw [List.drop_eq_getElem_cons hlt] at htd
      simp only [List.cons.injEq] at htd
      exact ⟨by rw [List.getElem?_eq_getElem hlt, htd.1], htd.2⟩
    have hold : ∀ p, p < s.heap.length → (s.heap ++ [(⟨s.nextId, .inl c, none⟩ : InputFrame K C P)])[p]? = s.heap[p]? := fun p hp => List.getElem?_append_left hp
    have hnew : (s.heap ++ [(⟨s.nextId, .inl c, none⟩ : InputFrame K C P)])[s.heap.length]? = some ⟨s.nextId, .inl c, none⟩ := by simp
    have hl := h.heapLen
    have := h.le1
    have := h.lek
    have := h.le2
    refine { h with heapLen := ?_, old := ?_, todo := hc.2, fed := hlt, ids := ?_, le1 := ?_, pre := ?_, raw := ?_, prepd := ?_, posed := ?_ }
    · simp; omega
    · intro p hp
      rw [hold p (by omega), h.old p hp]
    · intro i hi
      by_cases hi' : i < s.nextId
      · obtain ⟨f, hf⟩ := h.ids i hi'
        exact ⟨f, by rw [hold _ (by omega)]; exact hf.1, hf.2⟩
      · obtain rfl : i = s.nextId := by simp only at hi; omega
        exact ⟨_, by rw [← hl]; exact hnew, rfl⟩
    · show s.next1 ≤ s.nextId + 1
      omega
    · show (s.heap.length :: s.waitPre ++ s.runPre ++ s.buf1).Perm (List.range' _ (s.nextId + 1 - s.next1))
      rw [show s.nextId + 1 - s.next1 = (s.nextId - s.next1) + 1 by omega, range'_tail, show h0.length + s.next1 + (s.nextId - s.next1) = s.heap.length by omega]
      refine (List.Perm.cons _ h.pre).trans ?_
      exact (List.perm_append_singleton _ _).symm
    · intro i hi
      by_cases hi' : h0.length + i = s.heap.length
      · refine ⟨_, c, by rw [hi']; exact hnew, rfl, ?_⟩
        rw [show i = s.nextId by omega]
        exact hc.1
      · have : h0.length + i ∈ s.waitPre ∨ h0.length + i ∈ s.runPre := by
          rcases hi with hi | hi
          · rcases List.mem_cons.1 hi with hi | hi
            · exact absurd hi hi'
            · exact .inl hi
          · exact .inr hi
        obtain ⟨f, c', hf⟩ := h.raw i this
        refine ⟨f, c', ?_, hf.2⟩
        show (s.heap ++ _)[_]? = _
        rw [hold _ (List.getElem?_eq_some_iff.1 hf.1).1]
        exact hf.1
    · intro i hi
      obtain ⟨f, d, hf⟩ := h.prepd i hi
      refine ⟨f, d, ?_, hf.2⟩
      show (s.heap ++ _)[_]? = _
      rw [hold _ (List.getElem?_eq_some_iff.1 hf.1).1]
      exact hf.1
    · intro i hi
      obtain ⟨f, d, hf⟩ := h.posed i hi
      refine ⟨f, d, ?_, hf.2⟩
      show (s.heap ++ _)[_]? = _
      rw [hold _ (List.getElem?_eq_some_iff.1 hf.1).1]
      exact hf.1

theorem step_startPre {s s' : Flow K C P} {k1 p : Nat} (h : Inv prep reg ds prev h0 L0 s k1) (hs : s.step prep reg (.startPre p) = some (.ok s')) : Inv prep reg ds prev h0 L0 s' k1 := by
  simp only [Flow.step, Option.ite_none_right_eq_some, Option.some.injEq, Except.ok.injEq] at hs
  obtain ⟨hp, rfl⟩ := hs
  refine { h with pre := ?_, raw := ?_ }
  · exact (erase_cons_append hp).trans h.pre
  · intro i hi
    refine h.raw i ?_
    rcases hi with hi | hi
    · exact .inl (List.mem_of_mem_erase hi)
    · rcases List.mem_cons.1 hi with hi | hi
      · rw [hi]; exact .inl hp
      · exact .inr hi

theorem step_startReg {s s' : Flow K C P} {k1 : Nat} {q : Option Nat × Nat} (h : Inv prep reg ds prev h0 L0 s k1) (hs : s.step prep reg (.startReg q) = some (.ok s')) :
    Inv prep reg ds prev h0 L0 s' k1 := by
  simp only [Flow.step, Option.ite_none_right_eq_some, Option.some.injEq, Except.ok.injEq] at hs
  obtain ⟨hp, rfl⟩ := hs
  refine { h with regs := ?_, pairs := ?_ }
  · refine List.Perm.trans (List.Perm.append_right _ (List.Perm.map _ ?_)) h.regs
    have := erase_cons_append (b := s.runReg) (c := []) hp
    simpa using this
  · intro q' hq'
    refine h.pairs q' ?_
    rcases hq' with hi | hi
    · exact .inl (List.mem_of_mem_erase hi)
    · rcases List.mem_cons.1 hi with hi | hi
      · rw [hi]; exact .inl hp
      · exact .inr hi

theorem step_seq1 {s s' : Flow K C P} {k1 p : Nat} (h : Inv prep reg ds prev h0 L0 s k1) (hs : s.step prep reg (.seq1 p) = some (.ok s')) : Inv prep reg ds prev h0 L0 s' k1 := by
  simp only [Flow.step, Option.ite_none_right_eq_some, Option.some.injEq, Except.ok.injEq] at hs
  obtain ⟨⟨hp, hid⟩, rfl⟩ := hs
  obtain ⟨i, rfl, hi1, hi2⟩ := h.pre_mem (.inr (.inr hp))
  obtain ⟨f, hf, hfi⟩ := h.ids i hi2
  rw [hf] at hid
  simp only [Option.map_some, Option.some.injEq] at hid
  obtain rfl : i = s.next1 := by omega
  have := h.lek
  refine { h with le1 := hi2, pre := ?_, prepd := ?_, lek := ?_, pairQ := ?_ }
  · have h1 := h.pre
    rw [range'_head (by omega)] at h1
    have h2 : (s.waitPre ++ s.runPre ++ s.buf1).Perm ((h0.length + s.next1) :: (s.waitPre ++ s.runPre ++ s.buf1.erase (h0.length + s.next1))) :=
      (List.Perm.append_left _ (List.perm_cons_erase hp)).trans List.perm_middle
    have h3 := List.Perm.cons_inv (h2.symm.trans h1)
    rw [Nat.add_assoc, show s.nextId - s.next1 - 1 = s.nextId - (s.next1 + 1) by omega] at h3
    exact h3
  · intro j hj
    refine h.prepd j ?_
    rcases hj with hj | hj
    · exact .inl (List.mem_of_mem_erase hj)
    · by_cases h1 : j = s.next1
      · subst h1; exact .inl hp
      · exact .inr (by simp only at hj; omega)
  · show k1 ≤ s.next1 + 1
    omega
  · show s.pairQ ++ _ = _
    rw [h.pairQ, show s.next1 + 1 - k1 = (s.next1 - k1) + 1 by omega, range'_tail, show h0.length + k1 + (s.next1 - k1) = h0.length + s.next1 by omega]

theorem step_seq2 {s s' : Flow K C P} {k1 p : Nat} (h : Inv prep reg ds prev h0 L0 s k1) (hs : s.step prep reg (.seq2 p) = some (.ok s')) : Inv prep reg ds prev h0 L0 s' k1 := by
  simp only [Flow.step, Option.ite_none_right_eq_some, Option.some.injEq, Except.ok.injEq] at hs
  obtain ⟨⟨hp, hid⟩, rfl⟩ := hs
  obtain ⟨i, rfl, hi1, hi2⟩ := h.reg_mem (.inr hp)
  have := h.lek
  have := h.le1
  have := h.let_
  obtain ⟨f, hf, hfi⟩ := h.ids i (by omega)
  rw [hf] at hid
  simp only [Option.map_some, Option.some.injEq] at hid
  obtain rfl : i = s.next2 := by omega
  refine { h with le2 := hi2, regs := ?_, posed := ?_, let_ := ?_, outQ := ?_ }
  · have h1 := h.regs
    rw [range'_head (by omega)] at h1
    have h2 : ((s.waitReg ++ s.runReg).map Prod.snd ++ s.buf2).Perm ((h0.length + s.next2) :: ((s.waitReg ++ s.runReg).map Prod.snd ++ s.buf2.erase (h0.length + s.next2))) :=
      (List.Perm.append_left _ (List.perm_cons_erase hp)).trans List.perm_middle
    have h3 := List.Perm.cons_inv (h2.symm.trans h1)
    rw [Nat.add_assoc, show k1 - s.next2 - 1 = k1 - (s.next2 + 1) by omega] at h3
    exact h3
  · intro j hj
    refine h.posed j ?_
    rcases hj with hj | hj
    · exact .inl (List.mem_of_mem_erase hj)
    · by_cases h1 : j = s.next2
      · subst h1; exact .inl hp
      · exact .inr (by simp only at hj; omega)
  · show s.traj.length ≤ s.next2 + 1
    omega
  · show s.outQ ++ _ = _
    rw [h.outQ, show s.next2 + 1 - s.traj.length = (s.next2 - s.traj.length) + 1 by omega, range'_tail,
      show h0.length + s.traj.length + (s.next2 - s.traj.length) = h0.length + s.next2 by omega]

theorem step_pair {s s' : Flow K C P} {k1 : Nat} (h : Inv prep reg ds prev h0 L0 s k1) (hs : s.step prep reg .pair = some (.ok s')) :
    Inv prep reg ds prev h0 L0 s' (k1 + 1) := by
  unfold Flow.step at hs
  simp only at hs
  split at hs
  · cases hs
  · rename_i p ps hq
    simp only [Option.some.injEq, Except.ok.injEq] at hs
    subst hs
    have h1 := h.pairQ
    have hlt : k1 < s.next1 := by
      by_contra hge
      rw [hq, show s.next1 - k1 = 0 by omega] at h1
      cases h1
    rw [hq, range'_head (by omega)] at h1
    simp only [List.cons.injEq] at h1
    obtain ⟨rfl, h1⟩ := h1
    have := h.le2
    refine { h with lek := hlt, pairQ := ?_, last := rfl, le2 := ?_, regs := ?_, pairs := ?_ }
    · show ps = _
      rw [h1, Nat.add_assoc, show s.next1 - k1 - 1 = s.next1 - (k1 + 1) by omega]
    · show s.next2 ≤ k1 + 1
      omega
    · show (((s.last, h0.length + k1) :: s.waitReg ++ s.runReg).map Prod.snd ++ s.buf2).Perm _
      rw [show k1 + 1 - s.next2 = (k1 - s.next2) + 1 by omega, range'_tail, show h0.length + s.next2 + (k1 - s.next2) = h0.length + k1 by omega]
      exact (List.Perm.cons _ h.regs).trans (List.perm_append_singleton _ _).symm
    · intro q hq' i hi
      rcases hq' with hq' | hq'
      · rcases List.mem_cons.1 hq' with rfl | hq'
        · simp only at hi
          obtain rfl : i = k1 := by omega
          exact h.last
        · exact h.pairs q (.inl hq') i hi
      · exact h.pairs q (.inr hq') i hi

theorem rd_some {α : Type} {l : List α} {i : Nat} {x : α} (h : l[i]? = some x) : rd l i = .ok x := rd_of_getElem? h

theorem wr_some {α : Type} {l : List α} {i : Nat} {x : α} (h : l[i]? = some x) (y : α) : wr l i y = .ok (l.set i y) :=
  wr_of_lt (x := y) (List.getElem?_eq_some_iff.1 h).1

/-- Why a body fails: the preprocessing or the registration of a frame fails. -/
def Fails (prep : C → Res P) (reg : P → P → Res (Pose K)) (ds : List C) (prev : Option P) (f : Fault) : Prop :=
  ∃ i, i < ds.length ∧ (pr prep ds i = .error f ∨ rl prep reg ds prev i = .error f)

theorem step_endPre {s : Flow K C P} {k1 p : Nat} {r : Res (Flow K C P)} (h : Inv prep reg ds prev h0 L0 s k1) (hs : s.step prep reg (.endPre p) = some r) :
    (∀ s', r = .ok s' → Inv prep reg ds prev h0 L0 s' k1) ∧ ∀ f, r = .error f → Fails prep reg ds prev f := by
  simp only [Flow.step, Option.ite_none_right_eq_some, Option.some.injEq] at hs
  obtain ⟨hp, rfl⟩ := hs
  obtain ⟨i, rfl, hi1, hi2⟩ := h.pre_mem (.inr (.inl hp))
  obtain ⟨f, c, hf, hfd, hc⟩ := h.raw i (.inr hp)
  have hn1 := h.nodup1
  have hpr : pr prep ds i = prep c := by unfold pr; rw [hc]
  unfold preBody
  rw [rd_some hf, ok_bind]
  simp only [hfd]
  cases hd : prep c with
  | error e =>
    refine ⟨fun s' hs' => (by cases hs'), fun f' hf' => ?_⟩
    cases hf'
    have := h.fed
    exact ⟨i, by omega, .inl (by rw [hpr, hd])⟩
  | ok d =>
    rw [ok_bind, wr_some hf, ok_bind]
    refine ⟨fun s' hs' => ?_, fun f' hf' => by cases hf'⟩
    cases hs'
    have hlt : h0.length + i < s.heap.length := (List.getElem?_eq_some_iff.1 hf).1
    have hnot : h0.length + i ∉ s.waitPre ∧ h0.length + i ∉ s.runPre.erase (h0.length + i) := by
      rw [List.append_assoc, List.nodup_append] at hn1
      obtain ⟨_, h2, h3⟩ := hn1
      rw [List.nodup_append] at h2
      exact ⟨fun hx => h3 _ hx _ (List.mem_append_left _ hp) rfl, h2.1.not_mem_erase⟩
    have hmem : ∀ q, (s.heap.set (h0.length + i) { f with data := .inr d })[q]? = if h0.length + i = q then some { f with data := .inr d } else s.heap[q]? := by
      intro q
      rw [set_get]
      split
      · rename_i hq; subst hq; rw [if_pos hlt]
      · rfl
    refine { h with heapLen := ?_, old := ?_, ids := ?_, pre := ?_, raw := ?_, prepd := ?_, posed := ?_ }
    · simp [h.heapLen]
    · intro q hq
      show (s.heap.set _ _)[q]? = _
      rw [hmem, if_neg (by omega), h.old q hq]
    · intro j hj
      obtain ⟨g, hg, hgi⟩ := h.ids j hj
      show ∃ f', (s.heap.set _ _)[_]? = _ ∧ _
      rw [hmem]
      by_cases hij : i = j
      · subst hij
        rw [hf] at hg
        cases hg
        rw [if_pos rfl]
        exact ⟨_, rfl, hgi⟩
      · rw [if_neg (by omega)]
        exact ⟨g, hg, hgi⟩
    · refine List.Perm.trans ?_ h.pre
      have h1 := erase_cons_append (b := s.buf1) (c := []) hp
      simp only [List.append_nil] at h1
      show (s.waitPre ++ s.runPre.erase _ ++ _ :: s.buf1).Perm _
      rw [List.append_assoc, List.append_assoc]
      exact List.Perm.append_left _ h1
    · intro j hj
      have hij : i ≠ j := by
        rintro rfl
        exact hj.elim hnot.1 hnot.2
      obtain ⟨g, c', hg⟩ := h.raw j (hj.elim .inl (fun hj => .inr (List.mem_of_mem_erase hj)))
      refine ⟨g, c', ?_, hg.2⟩
      show (s.heap.set _ _)[_]? = _
      rw [hmem, if_neg (by omega)]
      exact hg.1
    · intro j hj
      show ∃ f' d', (s.heap.set _ _)[_]? = _ ∧ _
      rw [hmem]
      by_cases hij : i = j
      · subst hij
        rw [if_pos rfl]
        exact ⟨_, d, rfl, rfl, by rw [hpr, hd]⟩
      · rw [if_neg (by omega)]
        refine h.prepd j ?_
        rcases hj with hj | hj
        · rcases List.mem_cons.1 hj with hj | hj
          · omega
          · exact .inl hj
        · exact .inr hj
    · intro j hj
      obtain ⟨g, R, hg, hgT, hR⟩ := h.posed j hj
      show ∃ f' d', (s.heap.set _ _)[_]? = _ ∧ _
      rw [hmem]
      by_cases hij : i = j
      · subst hij
        rw [hf] at hg
        cases hg
        rw [if_pos rfl]
        exact ⟨_, R, rfl, hgT, hR⟩
      · rw [if_neg (by omega)]
        exact ⟨g, R, hg, hgT, hR⟩

/-- What the body of the registration node computes. -/
theorem regBody_eq {s : Flow K C P} {k1 : Nat} (h : Inv prep reg ds prev h0 L0 s k1) (hprev : PrevOK h0 L0 prev) {i : Nat} (hi : i < k1) :
    ∃ f, s.heap[h0.length + i]? = some f ∧ regBody reg s.heap (prevPtr h0.length L0 i, h0.length + i) = (do
      let R ← rl prep reg ds prev i
      .ok (s.heap.set (h0.length + i) { f with T := some R })) := by
  have := h.lek
  have := h.le1
  obtain ⟨f, d, hf, hfd, hd⟩ := h.prepd i (.inr (by omega))
  refine ⟨f, hf, ?_⟩
  have hpf : f.prepared = .ok d := by unfold InputFrame.prepared; rw [hfd]
  cases i with
  | zero =>
    unfold PrevOK at hprev
    unfold regBody prevPtr rl
    cases L0 with
    | none =>
      cases prev with
      | some _ => exact hprev.elim
      | none =>
        simp only
        rw [rd_some hf, ok_bind, ok_bind, wr_some hf]
    | some p =>
      cases prev with
      | none => exact hprev.elim
      | some t =>
        obtain ⟨g, hg, hgd⟩ := hprev
        have hg' : s.heap[p]? = some g := by rw [h.old p (List.getElem?_eq_some_iff.1 hg).1, hg]
        simp only
        rw [rd_some hg', ok_bind, show g.prepared = .ok t by unfold InputFrame.prepared; rw [hgd], ok_bind, rd_some hf, ok_bind, hpf, ok_bind, hd, ok_bind]
        cases reg t d with
        | error e => rfl
        | ok R => rw [ok_bind, ok_bind, wr_some hf]
  | succ j =>
    obtain ⟨g, t, hg, hgd, ht⟩ := h.prepd j (.inr (by omega))
    unfold regBody prevPtr rl
    simp only
    rw [rd_some hg, ok_bind, show g.prepared = .ok t by unfold InputFrame.prepared; rw [hgd], ok_bind, rd_some hf, ok_bind, hpf, ok_bind, ht, ok_bind, hd, ok_bind]
    cases reg t d with
    | error e => rfl
    | ok R => rw [ok_bind, ok_bind, wr_some hf]

theorem step_endReg {s : Flow K C P} {k1 : Nat} {q : Option Nat × Nat} {r : Res (Flow K C P)} (h : Inv prep reg ds prev h0 L0 s k1) (hprev : PrevOK h0 L0 prev)
    (hs : s.step prep reg (.endReg q) = some r) :
    (∀ s', r = .ok s' → Inv prep reg ds prev h0 L0 s' k1) ∧ ∀ f, r = .error f → Fails prep reg ds prev f := by
  simp only [Flow.step, Option.ite_none_right_eq_some, Option.some.injEq] at hs
  obtain ⟨hp, rfl⟩ := hs
  obtain ⟨i, hi, hi1, hi2⟩ := h.reg_mem (.inl ⟨q, .inr hp, rfl⟩)
  have hq := h.pairs q (.inr hp) i hi
  obtain ⟨q1, q2⟩ := q
  simp only at hi hq
  subst hi hq
  have := h.lek
  have := h.le1
  have := h.fed
  obtain ⟨f, hf, hbody⟩ := regBody_eq h hprev hi2
  rw [hbody]
  cases hR : rl prep reg ds prev i with
  | error e =>
    refine ⟨fun s' hs' => (by cases hs'), fun f' hf' => ?_⟩
    cases hf'
    exact ⟨i, by omega, .inr hR⟩
  | ok R =>
    rw [ok_bind, ok_bind]
    refine ⟨fun s' hs' => ?_, fun f' hf' => by cases hf'⟩
    cases hs'
    have hlt : h0.length + i < s.heap.length := (List.getElem?_eq_some_iff.1 hf).1
    have hmem : ∀ q, (s.heap.set (h0.length + i) { f with T := some R })[q]? = if h0.length + i = q then some { f with T := some R } else s.heap[q]? := by
      intro q
      rw [set_get]
      split
      · rename_i hq; subst hq; rw [if_pos hlt]
      · rfl
    refine { h with heapLen := ?_, old := ?_, ids := ?_, raw := ?_, prepd := ?_, regs := ?_, pairs := ?_, posed := ?_ }
    · simp [h.heapLen]
    · intro q hq
      show (s.heap.set _ _)[q]? = _
      rw [hmem, if_neg (by omega), h.old q hq]
    · intro j hj
      obtain ⟨g, hg, hgi⟩ := h.ids j hj
      show ∃ f', (s.heap.set _ _)[_]? = _ ∧ _
      rw [hmem]
      by_cases hij : i = j
      · subst hij
        rw [hf] at hg
        cases hg
        rw [if_pos rfl]
        exact ⟨_, rfl, hgi⟩
      · rw [if_neg (by omega)]
        exact ⟨g, hg, hgi⟩
    · intro j hj
      obtain ⟨g, c', hg⟩ := h.raw j hj
      show ∃ f' d', (s.heap.set _ _)[_]? = _ ∧ _
      rw [hmem]
      by_cases hij : i = j
      · subst hij
        rw [hf] at hg
        rw [if_pos rfl]
        refine ⟨_, c', rfl, ?_, hg.2.2⟩
        simp only [Option.some.injEq] at hg
        rw [← hg.2.1, hg.1]
      · rw [if_neg (by omega)]
        exact ⟨g, c', hg⟩
    · intro j hj
      obtain ⟨g, c', hg⟩ := h.prepd j hj
      show ∃ f' d', (s.heap.set _ _)[_]? = _ ∧ _
      rw [hmem]
      by_cases hij : i = j
      · subst hij
        rw [hf] at hg
        rw [if_pos rfl]
        refine ⟨_, c', rfl, ?_, hg.2.2⟩
        simp only [Option.some.injEq] at hg
        rw [← hg.2.1, hg.1]
      · rw [if_neg (by omega)]
        exact ⟨g, c', hg⟩
    · refine List.Perm.trans ?_ h.regs
      show ((s.waitReg ++ s.runReg.erase _).map Prod.snd ++ _ :: s.buf2).Perm _
      have h1 : (s.waitReg ++ s.runReg).Perm ((prevPtr h0.length L0 i, h0.length + i) :: (s.waitReg ++ s.runReg.erase (prevPtr h0.length L0 i, h0.length + i))) :=
        (List.Perm.append_left _ (List.perm_cons_erase hp)).trans List.perm_middle
      refine List.perm_middle.trans ?_
      have h2 := (List.Perm.map Prod.snd h1).symm
      rw [List.map_cons] at h2
      exact List.Perm.append_right _ h2
    · intro q' hq'
      exact h.pairs q' (hq'.elim .inl (fun hq' => .inr (List.mem_of_mem_erase hq')))
    · intro j hj
      show ∃ f' d', (s.heap.set _ _)[_]? = _ ∧ _
      rw [hmem]
      by_cases hij : i = j
      · subst hij
        rw [if_pos rfl]
        exact ⟨_, R, rfl, rfl, hR⟩
      · rw [if_neg (by omega)]
        refine h.posed j ?_
        rcases hj with hj | hj
        · rcases List.mem_cons.1 hj with hj | hj
          · simp only at hj; omega
          · exact .inl hj
        · exact .inr hj

theorem step_output {s : Flow K C P} {k1 : Nat} {r : Res (Flow K C P)} (h : Inv prep reg ds prev h0 L0 s k1) (hs : s.step prep reg .output = some r) :
    ∃ s', r = .ok s' ∧ Inv prep reg ds prev h0 L0 s' k1 := by
  unfold Flow.step at hs
  simp only at hs
  split at hs
  · cases hs
  · rename_i p ps hq
    simp only [Option.some.injEq] at hs
    subst hs
    have h1 := h.outQ
    have hlt : s.traj.length < s.next2 := by
      by_contra hge
      rw [hq, show s.next2 - s.traj.length = 0 by omega] at h1
      cases h1
    rw [hq, range'_head (by omega)] at h1
    simp only [List.cons.injEq] at h1
    obtain ⟨rfl, h1⟩ := h1
    obtain ⟨f, R, hf, hT, hR⟩ := h.posed s.traj.length (.inr hlt)
    have key : ∀ tr : List (Pose K), (∃ T, tr = s.traj ++ [T] ∧ (match s.traj.length with
        | 0 => T = R
        | j + 1 => ∃ T', s.traj[j]? = some T' ∧ T = T'.mul R)) → Inv prep reg ds prev h0 L0 { s with outQ := ps, traj := tr } k1 := by
      rintro _ ⟨T, rfl, hT'⟩
      refine { h with let_ := ?_, outQ := ?_, traj := ?_ }
      · simp; omega
      · show ps = _
        rw [h1]
        simp only [List.length_append, List.length_cons, List.length_nil]
        rw [Nat.add_assoc, show s.next2 - s.traj.length - 1 = s.next2 - (s.traj.length + (0 + 1)) by omega]
      · intro i T1 hi
        by_cases hi' : i < s.traj.length
        · rw [List.getElem?_append_left hi'] at hi
          obtain ⟨R1, hR1, hm⟩ := h.traj i T1 hi
          refine ⟨R1, hR1, ?_⟩
          cases i with
          | zero => exact hm
          | succ j =>
            obtain ⟨T', hT1, hT2⟩ := hm
            exact ⟨T', by rw [List.getElem?_append_left (by omega)]; exact hT1, hT2⟩
        · have hil : i = s.traj.length := by
            have := (List.getElem?_eq_some_iff.1 hi).1
            simp at this
            omega
          subst hil
          simp at hi
          subst hi
          refine ⟨R, hR, ?_⟩
          cases hl : s.traj.length with
          | zero => rw [hl] at hT'; exact hT'
          | succ j =>
            rw [hl] at hT'
            obtain ⟨T', hT1, hT2⟩ := hT'
            exact ⟨T', by rw [List.getElem?_append_left (by omega)]; exact hT1, hT2⟩
    unfold outBody
    rw [rd_some hf, ok_bind]
    simp only [hT]
    cases hl : s.traj.getLast? with
    | none =>
      have hnil : s.traj = [] := List.getLast?_eq_none_iff.1 hl
      exact ⟨_, rfl, key _ ⟨R, rfl, by rw [hnil]; rfl⟩⟩
    | some T =>
      refine ⟨_, rfl, key _ ⟨T.mul R, rfl, ?_⟩⟩
      cases hlen : s.traj.length with
      | zero => rw [List.length_eq_zero_iff.1 hlen] at hl; cases hl
      | succ j =>
        refine ⟨T, ?_, rfl⟩
        rw [List.getLast?_eq_getElem?, hlen] at hl
        exact hl

/-- Every event keeps the invariant, or fails because a frame fails. -/
theorem step_inv {s : Flow K C P} {k1 : Nat} {e : Event} {r : Res (Flow K C P)} (h : Inv prep reg ds prev h0 L0 s k1) (hprev : PrevOK h0 L0 prev)
    (hs : s.step prep reg e = some r) : (∀ s', r = .ok s' → ∃ k, Inv prep reg ds prev h0 L0 s' k) ∧ ∀ f, r = .error f → Fails prep reg ds prev f := by
  cases e with
  | feed =>
    refine ⟨fun s' hr => ⟨k1, step_feed h (by rw [hs, hr])⟩, fun f hr => ?_⟩
    subst hr
    simp only [Flow.step] at hs
    split at hs <;> cases hs
  | startPre p =>
    refine ⟨fun s' hr => ⟨k1, step_startPre h (by rw [hs, hr])⟩, fun f hr => ?_⟩
    subst hr
    simp [Flow.step] at hs
  | endPre p => exact ⟨fun s' hr => ⟨k1, (step_endPre h hs).1 s' hr⟩, (step_endPre h hs).2⟩
  | seq1 p =>
    refine ⟨fun s' hr => ⟨k1, step_seq1 h (by rw [hs, hr])⟩, fun f hr => ?_⟩
    subst hr
    simp [Flow.step] at hs
  | pair =>
    refine ⟨fun s' hr => ⟨k1 + 1, step_pair h (by rw [hs, hr])⟩, fun f hr => ?_⟩
    subst hr
    simp only [Flow.step] at hs
    split at hs <;> cases hs
  | startReg q =>
    refine ⟨fun s' hr => ⟨k1, step_startReg h (by rw [hs, hr])⟩, fun f hr => ?_⟩
    subst hr
    simp [Flow.step] at hs
  | endReg q => exact ⟨fun s' hr => ⟨k1, (step_endReg h hprev hs).1 s' hr⟩, (step_endReg h hprev hs).2⟩
  | seq2 p =>
    refine ⟨fun s' hr => ⟨k1, step_seq2 h (by rw [hs, hr])⟩, fun f hr => ?_⟩
    subst hr
    simp [Flow.step] at hs
  | output =>
    obtain ⟨s', rfl, h'⟩ := step_output h hs
    exact ⟨fun s'' hr => by cases hr; exact ⟨k1, h'⟩, fun f hr => by cases hr⟩

theorem run_inv {s : Flow K C P} {k1 : Nat} (h : Inv prep reg ds prev h0 L0 s k1) (hprev : PrevOK h0 L0 prev) (es : List Event) :
    ∀ r, s.run prep reg es = some r → (∀ s', r = .ok s' → ∃ k, Inv prep reg ds prev h0 L0 s' k) ∧ ∀ f, r = .error f → Fails prep reg ds prev f := by
  induction es generalizing s k1 with
  | nil =>
    intro r hr
    simp only [Flow.run, Option.some.injEq] at hr
    subst hr
    exact ⟨fun s' hs => by cases hs; exact ⟨k1, h⟩, fun f hf => by cases hf⟩
  | cons e es ih =>
    intro r hr
    unfold Flow.run at hr
    cases hs : s.step prep reg e with
    | none => rw [hs] at hr; cases hr
    | some q =>
      rw [hs] at hr
      obtain ⟨h1, h2⟩ := step_inv h hprev hs
      cases q with
      | error f =>
        simp only at hr
        split at hr
        · simp only [Option.some.injEq] at hr
          subst hr
          exact ⟨fun s' hs' => (by cases hs'), fun f' hf' => by cases hf'; exact h2 f rfl⟩
        · cases hr
      | ok s' =>
        obtain ⟨k, hk⟩ := h1 s' rfl
        exact ih hk r hr

/-! ### termination -/

/-- How many events are still to come. -/
def remaining (s : Flow K C P) : Nat :=
  9 * s.todo.length + 8 * s.waitPre.length + 7 * s.runPre.length + 6 * s.buf1.length + 5 * s.pairQ.length + 4 * s.waitReg.length + 3 * s.runReg.length + 2 * s.buf2.length + s.outQ.length

theorem step_measure {s s' : Flow K C P} {e : Event} (hs : s.step prep reg e = some (.ok s')) : remaining s = remaining s' + 1 := by
  have pos : ∀ {α : Type} [BEq α] [LawfulBEq α] {l : List α} {p : α}, p ∈ l → l.length = (l.erase p).length + 1 := by
    intro α _ _ l p hp
    have := List.length_erase_of_mem hp
    have := List.length_pos_of_mem hp
    omega
  cases e with
  | feed =>
    simp only [Flow.step] at hs
    split at hs
    · cases hs
    · rename_i h
      cases hs
      simp only [remaining, h, List.length_cons]
      omega
  | startPre p =>
    simp only [Flow.step, Option.ite_none_right_eq_some, Option.some.injEq, Except.ok.injEq] at hs
    obtain ⟨hp, rfl⟩ := hs
    have := pos hp
    simp only [remaining, List.length_cons]
    omega
  | endPre p =>
    simp only [Flow.step, Option.ite_none_right_eq_some, Option.some.injEq] at hs
    obtain ⟨hp, hb⟩ := hs
    have := pos hp
    cases hh : preBody prep s.heap p with
    | error f => rw [hh] at hb; cases hb
    | ok h =>
      rw [hh] at hb
      cases hb
      simp only [remaining, List.length_cons]
      omega
  | seq1 p =>
    simp only [Flow.step, Option.ite_none_right_eq_some, Option.some.injEq, Except.ok.injEq] at hs
    obtain ⟨⟨hp, _⟩, rfl⟩ := hs
    have := pos hp
    simp only [remaining, List.length_append, List.length_cons, List.length_nil]
    omega
  | pair =>
    simp only [Flow.step] at hs
    split at hs
    · cases hs
    · rename_i h
      cases hs
      simp only [remaining, h, List.length_cons]
      omega
  | startReg q =>
    simp only [Flow.step, Option.ite_none_right_eq_some, Option.some.injEq, Except.ok.injEq] at hs
    obtain ⟨hp, rfl⟩ := hs
    have := pos hp
    simp only [remaining, List.length_cons]
    omega
  | endReg q =>
    simp only [Flow.step, Option.ite_none_right_eq_some, Option.some.injEq] at hs
    obtain ⟨hp, hb⟩ := hs
    have := pos hp
    cases hh : regBody reg s.heap q with
    | error f => rw [hh] at hb; cases hb
    | ok h =>
      rw [hh] at hb
      cases hb
      simp only [remaining, List.length_cons]
      omega
  | seq2 p =>
    simp only [Flow.step, Option.ite_none_right_eq_some, Option.some.injEq, Except.ok.injEq] at hs
    obtain ⟨⟨hp, _⟩, rfl⟩ := hs
    have := pos hp
    simp only [remaining, List.length_append, List.length_cons, List.length_nil]
    omega
  | output =>
    simp only [Flow.step] at hs
    split at hs
    · cases hs
    · rename_i p ps h
      simp only [Option.some.injEq] at hs
      cases hh : outBody s.heap s.traj p with
      | error f => rw [hh] at hs; cases hs
      | ok tr =>
        rw [hh] at hs
        cases hs
        simp only [remaining, h, List.length_cons]
        omega

theorem run_measure {s s' : Flow K C P} {es : List Event} (hs : s.run prep reg es = some (.ok s')) : remaining s = remaining s' + es.length := by
  induction es generalizing s with
  | nil => simp only [Flow.run, Option.some.injEq, Except.ok.injEq] at hs; subst hs; simp
  | cons e es ih =>
    unfold Flow.run at hs
    cases h1 : s.step prep reg e with
    | none => rw [h1] at hs; cases hs
    | some q =>
      rw [h1] at hs
      cases q with
      | error f => simp only at hs; split at hs <;> cases hs
      | ok s1 =>
        have := step_measure h1
        have := ih hs
        simp only [List.length_cons]
        omega

/-- As long as something is left, something can happen. -/
theorem progress {s : Flow K C P} {k1 : Nat} (h : Inv prep reg ds prev h0 L0 s k1) (hf : s.Finished prep reg) :
    s.todo = [] ∧ s.nextId = ds.length ∧ s.next1 = ds.length ∧ k1 = ds.length ∧ s.next2 = ds.length ∧ s.traj.length = ds.length := by
  have htodo : s.todo = [] := by
    have := hf .feed
    simp only [Flow.step] at this
    split at this
    · assumption
    · cases this
  have hn : s.nextId = ds.length := by
    have := h.todo
    rw [htodo] at this
    have := List.drop_eq_nil_iff.1 this.symm
    have := h.fed
    omega
  have hw : s.waitPre = [] := by
    by_contra hne
    obtain ⟨p, hp⟩ := List.exists_mem_of_ne_nil _ hne
    have := hf (.startPre p)
    simp [Flow.step, hp] at this
  have hr : s.runPre = [] := by
    by_contra hne
    obtain ⟨p, hp⟩ := List.exists_mem_of_ne_nil _ hne
    have := hf (.endPre p)
    simp [Flow.step, hp] at this
  have h1 : s.next1 = ds.length := by
    by_contra hne
    have := h.le1
    have hp := h.pre
    rw [hw, hr, range'_head (by omega)] at hp
    have hm : h0.length + s.next1 ∈ s.buf1 := by
      have := hp.mem_iff.2 (List.mem_cons_self)
      simpa using this
    obtain ⟨f, hf1, hf2⟩ := h.ids s.next1 (by omega)
    have := hf (.seq1 (h0.length + s.next1))
    simp [Flow.step, hm, hf1, hf2] at this
  have hk : k1 = ds.length := by
    by_contra hne
    have := h.lek
    have hp := h.pairQ
    rw [range'_head (by omega)] at hp
    have := hf .pair
    simp [Flow.step, hp] at this
  have hw2 : s.waitReg = [] := by
    by_contra hne
    obtain ⟨p, hp⟩ := List.exists_mem_of_ne_nil _ hne
    have := hf (.startReg p)
    simp [Flow.step, hp] at this
  have hr2 : s.runReg = [] := by
    by_contra hne
    obtain ⟨p, hp⟩ := List.exists_mem_of_ne_nil _ hne
    have := hf (.endReg p)
    simp [Flow.step, hp] at this
  have h2 : s.next2 = ds.length := by
    by_contra hne
    have := h.le2
    have hp := h.regs
    rw [hw2, hr2, range'_head (by omega)] at hp
    have hm : h0.length + s.next2 ∈ s.buf2 := by
      have := hp.mem_iff.2 (List.mem_cons_self)
      simpa using this
    obtain ⟨f, hf1, hf2⟩ := h.ids s.next2 (by omega)
    have := hf (.seq2 (h0.length + s.next2))
    simp [Flow.step, hm, hf1, hf2] at this
  refine ⟨htodo, hn, h1, hk, h2, ?_⟩
  by_contra hne
  have := h.let_
  have hp := h.outQ
  rw [range'_head (by omega)] at hp
  have := hf .output
  simp [Flow.step, hp] at this

end Verif.Proofs.Flow
