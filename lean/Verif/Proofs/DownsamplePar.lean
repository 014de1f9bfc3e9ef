import Verif.Spec.Downsampling
import Verif.Proofs.KdBuild
import Mathlib.Data.List.Perm.Basic
import Mathlib.Data.List.Range

/-!
The slot-reservation protocol of the parallel samplers.
-/

set_option linter.unusedSectionVars false

namespace Verif.Proofs

open Verif Verif.Spec Verif.Downsample

variable {K : Type}

/-- Slots a task still has to write. -/
def slotsOf : BlockTask K → List Nat
  | .pending _ => []
  | .writing next rest => List.range' next rest.length

/-- Points a task still has to write. -/
def restOf : BlockTask K → List (Pt K)
  | .pending sub => sub
  | .writing _ rest => rest

/-- Slots a task still has to reserve. -/
def needOf : BlockTask K → Nat
  | .pending sub => sub.length
  | .writing _ _ => 0

/-- Steps a task still has to take. -/
def workOf : BlockTask K → Nat
  | .pending sub => sub.length + 1
  | .writing _ rest => rest.length

structure ParInv (N : Nat) (total : List (Pt K)) (s : ParState K) : Prop where
  len : s.buf.length = N
  perm : (s.buf.filterMap id ++ s.tasks.flatMap restOf).Perm total
  nodup : (s.tasks.flatMap slotsOf).Nodup
  open_ : ∀ i, i ∈ s.tasks.flatMap slotsOf ↔ i < s.numPoints ∧ s.buf[i]? = some none
  above : ∀ i, s.numPoints ≤ i → i < N → s.buf[i]? = some none
  need : s.numPoints + (s.tasks.map needOf).sum ≤ N

theorem split_at {α : Type} {l : List α} {j : Nat} {t : α} (h : l[j]? = some t) :
    ∃ a b, l = a ++ t :: b ∧ ∀ t', l.set j t' = a ++ t' :: b := by
  obtain ⟨hj, he⟩ := List.getElem?_eq_some_iff.1 h
  refine ⟨l.take j, l.drop (j + 1), ?_, ?_⟩
  · subst he
    rw [← List.drop_eq_getElem_cons hj, List.take_append_drop]
  · intro t'
    rw [List.set_eq_take_append_cons_drop, if_pos hj]

theorem parInit_inv (N : Nat) (subs : List (List (Pt K))) (h : subs.flatten.length ≤ N) :
    ParInv N subs.flatten ⟨0, List.replicate N none, subs.map .pending⟩ where
  len := by simp
  perm := by
    have h1 : (List.replicate N (none : Option (Pt K))).filterMap id = [] := by
      rw [List.filterMap_eq_nil_iff]; intro a ha; rw [List.eq_of_mem_replicate ha]; rfl
    have h2 : (subs.map BlockTask.pending).flatMap restOf = subs.flatten := by
      induction subs with
      | nil => rfl
      | cons a l ih =>
        rw [List.map_cons, List.flatMap_cons, ih (by simp at h ⊢; omega)]; rfl
    rw [h1, h2]; exact List.Perm.refl _
  nodup := by
    have : (subs.map BlockTask.pending).flatMap slotsOf = [] := by
      rw [List.flatMap_eq_nil_iff]; intro t ht; obtain ⟨x, _, rfl⟩ := List.mem_map.1 ht; rfl
    simp only [this]; exact List.nodup_nil
  open_ := by
    have : (subs.map BlockTask.pending).flatMap slotsOf = [] := by
      rw [List.flatMap_eq_nil_iff]; intro t ht; obtain ⟨x, _, rfl⟩ := List.mem_map.1 ht; rfl
    intro i; simp [this]
  above := by intro i _ hi; simp [hi]
  need := by
    have : ((subs.map BlockTask.pending).map needOf).sum = subs.flatten.length := by
      rw [List.length_flatten, List.map_map]; rfl
    simp only [this]; omega

theorem filterMap_set_none {l : List (Option (Pt K))} {i : Nat} {p : Pt K} (h : l[i]? = some none) :
    ((l.set i (some p)).filterMap id).Perm (p :: l.filterMap id) := by
  obtain ⟨a, b, e, es⟩ := split_at h
  rw [es, e]
  simp only [List.filterMap_append, List.filterMap_cons, id]
  exact List.perm_middle

/-- Every step preserves the invariant, does not fault, and only writes an unwritten slot. -/
theorem parStep_inv {N : Nat} {total : List (Pt K)} {s : ParState K} (h : ParInv N total s) {j : Nat}
    {r : Res (ParState K)} (hs : parStep j s = some r) :
    ∃ s', r = .ok s' ∧ ParInv N total s' ∧ (s'.tasks.map workOf).sum + 1 = (s.tasks.map workOf).sum := by
  unfold parStep at hs
  cases ht : s.tasks[j]? with
  | none => rw [ht] at hs; simp at hs
  | some t =>
    obtain ⟨a, b, e, es⟩ := split_at ht
    rw [ht] at hs
    have hnd := h.nodup
    have hop := h.open_
    have hpm := h.perm
    have hnd2 := h.need
    rw [e] at hnd hop hpm hnd2
    simp only [List.flatMap_append, List.flatMap_cons] at hnd hop hpm
    simp only [List.map_append, List.map_cons, List.sum_append, List.sum_cons] at hnd2
    cases t with
    | pending sub =>
      simp only [Option.some.injEq] at hs
      refine ⟨_, hs.symm, ?_, ?_⟩
      · simp only [slotsOf, List.nil_append, restOf, needOf] at hnd hop hpm hnd2
        have hlt : ∀ i ∈ a.flatMap slotsOf ++ b.flatMap slotsOf, i < s.numPoints := fun i hi => ((hop i).1 hi).1
        refine ⟨h.len, ?_, ?_, ?_, ?_, ?_⟩
        · simp only [es, List.flatMap_append, List.flatMap_cons, restOf]; exact hpm
        · simp only [es, List.flatMap_append, List.flatMap_cons, slotsOf]
          have hp : (a.flatMap slotsOf ++ (List.range' s.numPoints sub.length ++ b.flatMap slotsOf)).Perm
              ((a.flatMap slotsOf ++ b.flatMap slotsOf) ++ List.range' s.numPoints sub.length) := by
            rw [List.append_assoc]
            exact List.Perm.append_left _ List.perm_append_comm
          rw [hp.nodup_iff, List.nodup_append]
          refine ⟨hnd, List.nodup_range', ?_⟩
          intro x hx y hy
          have := hlt x hx
          simp only [List.mem_range'_1] at hy
          omega
        · intro i
          simp only [es, List.flatMap_append, List.flatMap_cons, slotsOf]
          have := hop i
          simp only [List.mem_append] at this
          simp only [List.mem_append, List.mem_range'_1]
          have hab := h.above i
          constructor
          · rintro (h1 | h1 | h1)
            · have := this.1 (Or.inl h1); exact ⟨by omega, this.2⟩
            · exact ⟨h1.2, hab h1.1 (by omega)⟩
            · have := this.1 (Or.inr h1); exact ⟨by omega, this.2⟩
          · rintro ⟨h1, h2⟩
            by_cases hi : i < s.numPoints
            · rcases this.2 ⟨hi, h2⟩ with h3 | h3
              · exact Or.inl h3
              · exact Or.inr (Or.inr h3)
            · exact Or.inr (Or.inl ⟨by omega, h1⟩)
        · intro i hi hN; exact h.above i (by simp only at hi; omega) hN
        · simp only [es, List.map_append, List.map_cons, List.sum_append, List.sum_cons, needOf]; omega
      · simp only [es]
        rw [e]
        simp only [List.map_append, List.map_cons, List.sum_append, List.sum_cons, workOf]; omega
    | writing next rest =>
      cases rest with
      | nil => simp at hs
      | cons p rest =>
        simp only [Option.some.injEq] at hs
        simp only [slotsOf, restOf, needOf, List.length_cons, List.range'_succ] at hnd hop hpm hnd2
        obtain ⟨hn1, hn2⟩ := (hop next).1 (by simp)
        have hlt : next < s.buf.length := (List.getElem?_eq_some_iff.1 hn2).1
        rw [wr_of_lt _ hlt] at hs
        simp only [bind, Except.bind, pure, Except.pure] at hs
        refine ⟨_, hs.symm, ?_, ?_⟩
        · refine ⟨?_, ?_, ?_, ?_, ?_, ?_⟩
          · simp [h.len]
          · simp only [es, List.flatMap_append, List.flatMap_cons, restOf]
            refine List.Perm.trans ?_ hpm
            have h1 := filterMap_set_none (p := p) hn2
            refine (h1.append_right _).trans ?_
            rw [List.cons_append]
            have h2 : (p :: (s.buf.filterMap id ++ (a.flatMap restOf ++ (rest ++ b.flatMap restOf)))).Perm
                ((s.buf.filterMap id ++ a.flatMap restOf) ++ (p :: (rest ++ b.flatMap restOf))) := by
              rw [← List.append_assoc]; exact List.perm_middle.symm
            refine h2.trans ?_
            simp
          · simp only [es, List.flatMap_append, List.flatMap_cons, slotsOf]
            refine hnd.sublist ?_
            exact List.Sublist.append_left (List.Sublist.append_right (List.sublist_cons_self _ _) _) _
          · intro i
            simp only [es, List.flatMap_append, List.flatMap_cons, slotsOf]
            have hoi := hop i
            have hnot : next ∉ a.flatMap slotsOf ++ (List.range' (next + 1) rest.length ++ b.flatMap slotsOf) := by
              have : (next :: (a.flatMap slotsOf ++ (List.range' (next + 1) rest.length ++ b.flatMap slotsOf))).Nodup := by
                refine (List.Perm.nodup_iff ?_).1 hnd
                rw [List.cons_append]; exact List.perm_middle
              exact (List.nodup_cons.1 this).1
            by_cases hi : next = i
            · subst hi
              simp only [hnot, false_iff]
              rw [List.getElem?_set_self hlt]; simp
            · rw [List.getElem?_set_ne hi, ← hoi]
              simp only [List.mem_append, List.mem_cons]
              constructor
              · rintro (h1 | h1 | h1)
                · exact Or.inl h1
                · exact Or.inr (Or.inl (Or.inr h1))
                · exact Or.inr (Or.inr h1)
              · rintro (h1 | (h1 | h1) | h1)
                · exact Or.inl h1
                · exact absurd h1.symm hi
                · exact Or.inr (Or.inl h1)
                · exact Or.inr (Or.inr h1)
          · intro i hi hN
            simp only at hi
            rw [List.getElem?_set_ne (by omega)]
            exact h.above i hi hN
          · simp only [es, List.map_append, List.map_cons, List.sum_append, List.sum_cons, needOf]; omega
        · simp only [es]
          rw [e]
          simp only [List.map_append, List.map_cons, List.sum_append, List.sum_cons, workOf, List.length_cons]; omega

theorem parRun_inv {N : Nat} {total : List (Pt K)} : ∀ (js : List Nat) {s : ParState K}, ParInv N total s →
    ∀ {r}, parRun js s = some r →
    ∃ s', r = .ok s' ∧ ParInv N total s' ∧ (s'.tasks.map workOf).sum + js.length = (s.tasks.map workOf).sum
  | [], s, h, r, hr => by
    simp only [parRun, Option.some.injEq] at hr
    exact ⟨s, hr.symm, h, by simp⟩
  | j :: js, s, h, r, hr => by
    unfold parRun at hr
    cases hst : parStep j s with
    | none => rw [hst] at hr; simp at hr
    | some r1 =>
      obtain ⟨s1, rfl, h1, hw⟩ := parStep_inv h hst
      rw [hst] at hr
      obtain ⟨s', e', h', hw'⟩ := parRun_inv js h1 hr
      exact ⟨s', e', h', by rw [List.length_cons]; omega⟩

/-- Unfinished states can move. -/
theorem parStep_progress {s : ParState K} (h : s.finished = false) : ∃ j, (parStep j s).isSome := by
  unfold ParState.finished at h
  rw [List.all_eq_false] at h
  obtain ⟨t, ht, hn⟩ := h
  obtain ⟨j, hj⟩ := List.getElem?_of_mem ht
  refine ⟨j, ?_⟩
  unfold parStep
  rw [hj]
  cases t with
  | pending sub => rfl
  | writing next rest =>
    cases rest with
    | nil => simp at hn
    | cons p rest => rfl

theorem parResult_of_finished {N : Nat} {total : List (Pt K)} {s : ParState K} (h : ParInv N total s) (hf : s.finished = true) :
    ∃ out, parResult s = .ok out ∧ out.Perm total := by
  unfold ParState.finished at hf
  rw [List.all_eq_true] at hf
  have hslots : s.tasks.flatMap slotsOf = [] := by
    rw [List.flatMap_eq_nil_iff]
    intro t ht
    have := hf t ht
    cases t with
    | pending sub => simp at this
    | writing next rest => cases rest with
      | nil => rfl
      | cons p rest => simp at this
  have hrest : s.tasks.flatMap restOf = [] := by
    rw [List.flatMap_eq_nil_iff]
    intro t ht
    have := hf t ht
    cases t with
    | pending sub => simp at this
    | writing next rest => cases rest with
      | nil => rfl
      | cons p rest => simp at this
  have hop := h.open_
  rw [hslots] at hop
  have hpm := h.perm
  rw [hrest, List.append_nil] at hpm
  have hnp : s.numPoints ≤ N := by have := h.need; omega
  have htake : (s.buf.drop s.numPoints).filterMap id = [] := by
    rw [List.filterMap_eq_nil_iff]
    intro x hx
    obtain ⟨i, hi⟩ := List.getElem?_of_mem hx
    rw [List.getElem?_drop] at hi
    have hlt : s.numPoints + i < N := by rw [← h.len]; exact (List.getElem?_eq_some_iff.1 hi).1
    rw [h.above _ (by omega) hlt] at hi
    cases hi; rfl
  refine ⟨(s.buf.take s.numPoints).filterMap id, ?_, ?_⟩
  · unfold parResult
    have hall : ∀ x ∈ s.buf.take s.numPoints, x ≠ none := by
      intro x hx hx0
      subst hx0
      obtain ⟨i, hi⟩ := List.getElem?_of_mem hx
      have hlt := (List.getElem?_eq_some_iff.1 hi).1
      rw [List.length_take] at hlt
      rw [List.getElem?_take_of_lt (by omega)] at hi
      have := (hop i).2 ⟨by omega, hi⟩
      simp at this
    generalize s.buf.take s.numPoints = l at hall
    induction l with
    | nil => rfl
    | cons x l ih =>
      cases x with
      | none => exact absurd rfl (hall none (by simp))
      | some p =>
        rw [List.mapM_cons, ih (fun y hy => hall y (by simp [hy]))]
        rfl
  · have : s.buf.filterMap id = (s.buf.take s.numPoints).filterMap id := by
      conv => lhs; rw [← List.take_append_drop s.numPoints s.buf, List.filterMap_append, htake, List.append_nil]
    rw [← this]; exact hpm

end Verif.Proofs
