import Verif.Proofs.SortOmp
import Verif.Spec.Downsampling

/-!
C26, C27: the task-parallel sorts.
-/

set_option linter.unusedSectionVars false

namespace Verif.Props

open Verif Verif.Spec Verif.Proofs Verif.SortOmp

variable {α : Type}

/-! ### C26 quick sort -/

/-- Every complete execution ends without undefined behaviour in a sorted permutation of the input. The size bound is the
one under which the `int` products `offset * 7` are defined. -/
theorem C26_quick_sort_omp {comp : α → α → Bool} (hc : StrictWeak comp) {lib : Lib α} (hl : LibSpec comp lib) (arr : List α)
    (hb : 7 * (arr.length / 8) ≤ 2 ^ 31 - 1) (sched : List Nat) (r : Res (List α)) (hr : quickSortOmp lib comp sched arr = some r) :
    ∃ out, r = .ok out ∧ out.Perm arr ∧ SortedBy comp out := by
  unfold quickSortOmp at hr
  cases hq : qrun lib comp sched ⟨arr, [(0, arr.length)]⟩ with
  | none => rw [hq] at hr; cases hr
  | some r1 =>
    obtain ⟨s, rfl, hinv, _⟩ := qrun_inv hc hl hb sched (qinit_inv comp arr) hq
    rw [hq] at hr
    simp only at hr
    split at hr
    · rename_i ht
      cases hr
      rw [ht] at hinv
      exact ⟨_, rfl, hinv.perm, qinv_sorted hinv⟩
    · cases hr

/-- No execution, complete or not, reaches undefined behaviour; it has at most `2 N + 1` steps, it never gets stuck, and the
ranges of the tasks existing at any moment are disjoint parts of the array. -/
theorem C26_every_schedule_finishes {comp : α → α → Bool} (hc : StrictWeak comp) {lib : Lib α} (hl : LibSpec comp lib) (arr : List α)
    (hb : 7 * (arr.length / 8) ≤ 2 ^ 31 - 1) (sched : List Nat) (r : Res (QState α))
    (hr : qrun lib comp sched ⟨arr, [(0, arr.length)]⟩ = some r) :
    ∃ s, r = .ok s ∧ sched.length ≤ 2 * arr.length + 1 ∧ s.arr.Perm arr ∧
      s.tasks.Pairwise (fun a b => a.2 ≤ b.1 ∨ b.2 ≤ a.1) ∧ (∀ t ∈ s.tasks, t.1 ≤ t.2 ∧ t.2 ≤ arr.length) ∧
      ∀ j, j < s.tasks.length → ∃ s', qrun lib comp (sched ++ [j]) ⟨arr, [(0, arr.length)]⟩ = some (.ok s') := by
  obtain ⟨s, rfl, hinv, hw⟩ := qrun_inv hc hl hb sched (qinit_inv comp arr) hr
  refine ⟨s, rfl, ?_, hinv.perm, hinv.disj, ?_, ?_⟩
  · simp only [qwork, List.map_cons, List.map_nil, List.sum_cons, List.sum_nil] at hw
    omega
  · intro t ht
    rw [← hinv.perm.length_eq]; exact hinv.wf t ht
  · intro j hj
    have happ : ∀ (js : List Nat) (s0 s1 : QState α), qrun lib comp js s0 = some (.ok s1) →
        qrun lib comp (js ++ [j]) s0 = qrun lib comp [j] s1 := by
      intro js
      induction js with
      | nil => intro s0 s1 h; simp only [qrun, Option.some.injEq, Except.ok.injEq] at h; subst h; rfl
      | cons k js ih =>
        intro s0 s1 h
        rw [List.cons_append]
        unfold qrun at h ⊢
        cases hk : qstep lib comp k s0 with
        | none => rw [hk] at h; cases h
        | some r2 =>
          rw [hk] at h
          cases r2 with
          | error e => cases h
          | ok s2 => exact ih s2 s1 h
    rw [happ sched _ s hr]
    unfold qrun
    cases hst : qstep lib comp j s with
    | none =>
      unfold qstep at hst
      rw [List.getElem?_eq_getElem hj] at hst
      simp only at hst
      split at hst <;> cases hst
    | some r2 =>
      obtain ⟨s2, rfl, _, _⟩ := qstep_inv hc hl hb hinv hst
      exact ⟨s2, rfl⟩

/-- Complete executions exist for every input, so `C26_quick_sort_omp` is not vacuous. -/
theorem C26_completes {comp : α → α → Bool} (hc : StrictWeak comp) {lib : Lib α} (hl : LibSpec comp lib) (arr : List α)
    (hb : 7 * (arr.length / 8) ≤ 2 ^ 31 - 1) : ∃ sched out, quickSortOmp lib comp sched arr = some (.ok out) := by
  have key : ∀ (n : Nat) (s : QState α), QInv comp arr s.arr s.tasks → qwork s.tasks ≤ n →
      ∃ sched s', qrun lib comp sched s = some (.ok s') ∧ s'.tasks = [] := by
    intro n
    induction n with
    | zero =>
      intro s _ hw
      refine ⟨[], s, rfl, ?_⟩
      cases ht : s.tasks with
      | nil => rfl
      | cons a l => rw [ht] at hw; simp only [qwork, List.map_cons, List.sum_cons] at hw; omega
    | succ n ih =>
      intro s hinv hw
      cases ht : s.tasks with
      | nil => exact ⟨[], s, rfl, ht⟩
      | cons a l =>
        cases hst : qstep lib comp 0 s with
        | none =>
          unfold qstep at hst
          rw [ht] at hst
          simp only [List.getElem?_cons_zero] at hst
          split at hst <;> cases hst
        | some r2 =>
          obtain ⟨s2, rfl, h2, hw2⟩ := qstep_inv hc hl hb hinv hst
          obtain ⟨sched, s', hs', ht'⟩ := ih s2 h2 (by omega)
          exact ⟨0 :: sched, s', by unfold qrun; rw [hst]; exact hs', ht'⟩
  obtain ⟨sched, s', h1, h2⟩ := key _ ⟨arr, [(0, arr.length)]⟩ (qinit_inv comp arr) (le_refl _)
  refine ⟨sched, s'.arr, ?_⟩
  unfold quickSortOmp
  rw [h1]
  simp only [h2, if_true]

/-- `median3` returns one of its arguments, with one of the others not above and the remaining one not below it. -/
theorem C26_median3 {comp : α → α → Bool} (hc : StrictWeak comp) (a b c : α) :
    ∃ lo hi, [lo, median3 comp a b c, hi].Perm [a, b, c] ∧ comp (median3 comp a b c) lo = false ∧ comp hi (median3 comp a b c) = false := by
  have asym : ∀ a b, comp a b = true → comp b a = false := by
    intro a b h
    cases hb : comp b a with
    | false => rfl
    | true => rw [← hc.irrefl a, hc.trans a b a h hb]
  unfold median3
  cases hab : comp a b <;> cases hac : comp a c <;> cases hbc : comp b c <;> simp only [if_true, Bool.false_eq_true, if_false]
  · exact ⟨c, a, (List.Perm.swap _ _ _).trans ((List.Perm.cons b (List.Perm.swap _ _ _)).trans (List.Perm.swap _ _ _)), hbc, hab⟩
  · exact ⟨b, a, (List.Perm.cons b (List.Perm.swap _ _ _)).trans (List.Perm.swap _ _ _), asym _ _ hbc, hac⟩
  · exact ⟨b, c, List.Perm.swap _ _ _, hab, asym _ _ hac⟩
  · exact ⟨b, c, List.Perm.swap _ _ _, hab, asym _ _ hac⟩
  · exact ⟨c, b, (List.Perm.swap _ _ _).trans (List.Perm.cons a (List.Perm.swap _ _ _)), hac, asym _ _ hab⟩
  · have := hc.trans a b c hab hbc; rw [hac] at this; cases this
  · exact ⟨a, b, List.Perm.cons a (List.Perm.swap _ _ _), asym _ _ hac, hbc⟩
  · exact ⟨a, c, List.Perm.refl _, asym _ _ hab, asym _ _ hbc⟩

/-- Above the bound the first task overflows `int`: undefined behaviour for every larger input whose eighth still fits an `int`. -/
theorem C26_index_overflow (lib : Lib α) (comp : α → α → Bool) (arr : List α) (h1 : 2 ^ 31 ≤ 7 * (arr.length / 8))
    (h2 : arr.length / 8 < 2 ^ 31) (sched : List Nat) (r : Res (List α)) (hr : quickSortOmp lib comp sched arr = some r) :
    r = .error .intOverflow := by
  have hoff : toInt32 (arr.length / 8) = ((arr.length / 8 : Nat) : Int) := by unfold toInt32; omega
  have hseg : slice arr 0 arr.length = arr := by simp [slice]
  have samp : ∀ k : Int, 0 ≤ k → (∃ x, sampleAt arr (toInt32 (arr.length / 8)) k = .ok x) ∨
      sampleAt arr (toInt32 (arr.length / 8)) k = .error .intOverflow ∨ 7 < k := by
    intro k hk
    by_cases h7 : 7 < k
    · exact Or.inr (Or.inr h7)
    · unfold sampleAt
      rw [hoff]
      have hle : ((arr.length / 8 : Nat) : Int) * k ≤ ((arr.length / 8 : Nat) : Int) * 7 := Int.mul_le_mul_of_nonneg_left (by omega) (by omega)
      have hge : 0 ≤ ((arr.length / 8 : Nat) : Int) * k := Int.mul_nonneg (by omega) hk
      generalize ((arr.length / 8 : Nat) : Int) * k = m at *
      unfold int32 INT_MIN INT_MAX
      split
      · left
        rw [res_ok_bind, if_neg (by omega)]
        exact ⟨arr[m.toNat]'(by omega), rd_of_getElem? (List.getElem?_eq_getElem _)⟩
      · right; left; rfl
  have samp7 : sampleAt arr (toInt32 (arr.length / 8)) 7 = .error .intOverflow := by
    unfold sampleAt
    rw [hoff]
    unfold int32 INT_MIN INT_MAX
    rw [if_neg (by omega)]; rfl
  have hpiv : choosePivot comp arr = .error .intOverflow := by
    unfold choosePivot
    extract_lets off
    have r0 : ∃ x, rd arr 0 = .ok x := ⟨arr[0]'(by omega), rd_of_getElem? (List.getElem?_eq_getElem _)⟩
    obtain ⟨x0, e0⟩ := r0
    rw [e0, res_ok_bind]
    rcases samp 1 (by decide) with ⟨x, e⟩ | e | e
    · rw [e, res_ok_bind]
      rcases samp 2 (by decide) with ⟨x, e⟩ | e | e
      · rw [e, res_ok_bind]
        rcases samp 3 (by decide) with ⟨x, e⟩ | e | e
        · rw [e, res_ok_bind]
          rcases samp 4 (by decide) with ⟨x, e⟩ | e | e
          · rw [e, res_ok_bind]
            rcases samp 5 (by decide) with ⟨x, e⟩ | e | e
            · rw [e, res_ok_bind]
              rcases samp 6 (by decide) with ⟨x, e⟩ | e | e
              · rw [e, res_ok_bind, samp7]; rfl
              · rw [e]; rfl
              · omega
            · rw [e]; rfl
            · omega
          · rw [e]; rfl
          · omega
        · rw [e]; rfl
        · omega
      · rw [e]; rfl
      · omega
    · rw [e]; rfl
    · omega
  unfold quickSortOmp at hr
  cases sched with
  | nil => simp [qrun] at hr
  | cons j js =>
    unfold qrun at hr
    cases j with
    | succ j => simp [qstep] at hr
    | zero =>
      have : qstep lib comp 0 ⟨arr, [(0, arr.length)]⟩ = some (.error .intOverflow) := by
        unfold qstep
        simp only [List.getElem?_cons_zero]
        rw [if_neg (by omega), hseg, hpiv]; rfl
      rw [this] at hr
      simp only [Option.some.injEq] at hr
      exact hr.symm

/-- The comparator of `voxelgrid_sampling_omp` (downsampling_omp.hpp:56): with it, every completed sort is what
`SortSpec` (the assumption of C21-C25 about the sort) asks for. -/
theorem C26_meets_downsampling_contract {lib : Lib (Nat × Nat)} (hl : LibSpec (fun a b => decide (a.1 < b.1)) lib) (l : List (Nat × Nat))
    (hb : 7 * (l.length / 8) ≤ 2 ^ 31 - 1) (sched : List Nat) (r : Res (List (Nat × Nat)))
    (hr : quickSortOmp lib (fun a b => decide (a.1 < b.1)) sched l = some r) :
    ∃ out, r = .ok out ∧ out.Perm l ∧ out.Pairwise (fun a b => a.1 ≤ b.1) := by
  have hc : StrictWeak (fun a b : Nat × Nat => decide (a.1 < b.1)) := by
    refine ⟨?_, ?_, ?_⟩
    · intro a; simp
    · intro a b c h1 h2; simp only [decide_eq_true_eq] at *; omega
    · intro a b c h1 h2; simp only [decide_eq_false_iff_not] at *; omega
  obtain ⟨out, h1, h2, h3⟩ := C26_quick_sort_omp hc hl l hb sched r hr
  refine ⟨out, h1, h2, h3.imp ?_⟩
  intro a b h
  simp only [decide_eq_false_iff_not] at h
  omega

/-! ### C27 merge sort -/

theorem C27_merge_sort_omp {comp : α → α → Bool} {lib : Lib α} (hl : LibSpec comp lib) (arr : List α) (sched : List (List Bool))
    (out : List α) (hr : mergeSortOmp lib sched arr = some out) : out.Perm arr ∧ SortedBy comp out := by
  unfold mergeSortOmp at hr
  split at hr
  · rename_i f l arr' hm
    cases hr
    obtain ⟨h1, h2, h3, _⟩ := mrun_ok (comp := comp) hl sched (.start 0 arr.length, arr) _ ⟨Nat.zero_le _, le_refl _⟩ hm
    simp only [mrange, Prod.mk.injEq] at h2
    obtain ⟨rfl, rfl⟩ := h2
    refine ⟨h3, ?_⟩
    have h4 := h1.2.2
    have : slice out 0 arr.length = out := by
      have := h3.length_eq
      simp only at this
      simp [slice, ← this]
    simp only [this] at h4
    exact h4
  · cases hr

/-- At most `3 N + 1` steps, never stuck before the root activation has finished. -/
theorem C27_every_schedule_finishes {comp : α → α → Bool} {lib : Lib α} (hl : LibSpec comp lib) (arr : List α) (sched : List (List Bool))
    (s : MProc × List α) (hr : mrun lib sched (.start 0 arr.length, arr) = some s) :
    sched.length ≤ 3 * arr.length + 1 ∧ (s.1 = .done 0 arr.length ∨ ∃ path, (mstep lib path s.1 s.2).isSome) := by
  obtain ⟨h1, h2, h3, h4⟩ := mrun_ok (comp := comp) hl sched (.start 0 arr.length, arr) s ⟨Nat.zero_le _, le_refl _⟩ hr
  constructor
  · simp only [mwork] at h4; omega
  · by_cases hd : ∀ f l, s.1 ≠ .done f l
    · exact Or.inr (mstep_progress lib s.2 s.1 hd)
    · left
      simp only [not_forall, not_not] at hd
      obtain ⟨f, l, hd⟩ := hd
      rw [hd] at h2
      simp only [mrange, Prod.mk.injEq] at h2
      rw [hd, h2.1, h2.2]

theorem C27_completes {comp : α → α → Bool} {lib : Lib α} (hl : LibSpec comp lib) (arr : List α) :
    ∃ sched out, mergeSortOmp lib sched arr = some out := by
  have key : ∀ (n : Nat) (s : MProc × List α), MOK comp s.2 s.1 → mwork s.1 ≤ n → ∃ sched f l a, mrun lib sched s = some (.done f l, a) := by
    intro n
    induction n with
    | zero =>
      intro s h hw
      by_cases hd : ∀ f l, s.1 ≠ .done f l
      · obtain ⟨path, hp⟩ := mstep_progress lib s.2 s.1 hd
        obtain ⟨⟨p1, a1⟩, hp⟩ := Option.isSome_iff_exists.1 hp
        have := (mstep_ok hl path s.1 s.2 h p1 a1 hp).2.2.2.2
        omega
      · simp only [not_forall, not_not] at hd
        obtain ⟨f, l, hd⟩ := hd
        exact ⟨[], f, l, s.2, by rw [mrun, ← hd]⟩
    | succ n ih =>
      intro s h hw
      by_cases hd : ∀ f l, s.1 ≠ .done f l
      · obtain ⟨path, hp⟩ := mstep_progress lib s.2 s.1 hd
        obtain ⟨⟨p1, a1⟩, hp⟩ := Option.isSome_iff_exists.1 hp
        obtain ⟨g1, _, _, _, g5⟩ := mstep_ok hl path s.1 s.2 h p1 a1 hp
        obtain ⟨sched, f, l, a, hs⟩ := ih (p1, a1) g1 (by simp only; omega)
        exact ⟨path :: sched, f, l, a, by rw [mrun, hp]; exact hs⟩
      · simp only [not_forall, not_not] at hd
        obtain ⟨f, l, hd⟩ := hd
        exact ⟨[], f, l, s.2, by rw [mrun, ← hd]⟩
  obtain ⟨sched, f, l, a, hs⟩ := key _ (.start 0 arr.length, arr) ⟨Nat.zero_le _, le_refl _⟩ (le_refl _)
  exact ⟨sched, a, by unfold mergeSortOmp; rw [hs]⟩

/-! ### the contracts are satisfiable -/

/-- A library meeting the contracts, for every strict weak order. -/
def refLib (comp : α → α → Bool) : Lib α where
  sort l := l.mergeSort (fun a b => !comp b a)
  partition p l := l.filter p ++ l.filter (fun a => !p a)
  inplaceMerge a b := (a ++ b).mergeSort (fun a b => !comp b a)

theorem refLib_spec {comp : α → α → Bool} (hc : StrictWeak comp) : LibSpec comp (refLib comp) := by
  have asym : ∀ a b, comp a b = true → comp b a = false := by
    intro a b h
    cases hb : comp b a with
    | false => rfl
    | true => rw [← hc.irrefl a, hc.trans a b a h hb]
  have srt : ∀ l : List α, SortedBy comp (l.mergeSort (fun a b => !comp b a)) := by
    intro l
    have := List.pairwise_mergeSort (le := fun a b => !comp b a) (by
      intro a b c h1 h2
      simp only [Bool.not_eq_true'] at *
      exact hc.neg_trans c b a h2 h1) (by
      intro a b
      cases hab : comp b a with
      | false => simp
      | true => simp [asym _ _ hab]) l
    exact this.imp (by intro a b h; simpa using h)
  refine ⟨fun l => List.mergeSort_perm _ _, srt, ?_, ?_, ?_, fun a b _ _ => List.mergeSort_perm _ _, fun a b _ _ => srt _⟩
  · intro p l; exact List.filter_append_perm p l
  · intro p l a ha
    rw [show l.countP p = (l.filter p).length from List.countP_eq_length_filter, show (refLib comp).partition p l = l.filter p ++ l.filter (fun a => !p a) from rfl, List.take_left] at ha
    exact (List.mem_filter.1 ha).2
  · intro p l a ha
    rw [show l.countP p = (l.filter p).length from List.countP_eq_length_filter, show (refLib comp).partition p l = l.filter p ++ l.filter (fun a => !p a) from rfl, List.drop_left] at ha
    simpa using (List.mem_filter.1 ha).2

def ltNat : Nat → Nat → Bool := fun a b => decide (a % 100 < b % 100)

theorem ltNat_weak : StrictWeak ltNat := by
  refine ⟨fun a => by simp [ltNat], fun a b c h1 h2 => ?_, fun a b c h1 h2 => ?_⟩ <;> simp only [ltNat, decide_eq_true_eq, decide_eq_false_iff_not] at * <;> omega

/-- 5000 elements with many equal keys: the hypotheses of C26 are met, a complete execution exists, and its outcome is
sorted. -/
example : ∃ sched out, quickSortOmp (refLib ltNat) ltNat sched (List.range 5000) = some (.ok out) ∧ out.Perm (List.range 5000) ∧
    SortedBy ltNat out := by
  have hb : 7 * ((List.range 5000).length / 8) ≤ 2 ^ 31 - 1 := by rw [List.length_range]; decide
  obtain ⟨sched, out, h⟩ := C26_completes ltNat_weak (refLib_spec ltNat_weak) (List.range 5000) hb
  obtain ⟨out', e, h1, h2⟩ := C26_quick_sort_omp ltNat_weak (refLib_spec ltNat_weak) _ hb sched _ h
  cases e
  exact ⟨sched, out, h, h1, h2⟩

example : ∃ sched out, mergeSortOmp (refLib ltNat) sched (List.range 5000) = some out ∧ out.Perm (List.range 5000) ∧ SortedBy ltNat out := by
  obtain ⟨sched, out, h⟩ := C27_completes (refLib_spec ltNat_weak) (List.range 5000)
  exact ⟨sched, out, h, C27_merge_sort_omp (refLib_spec ltNat_weak) _ sched out h⟩

/-- The overflow bound is crossed by an array of 2^32 elements. -/
example : 2 ^ 31 ≤ 7 * ((List.replicate (2 ^ 32) (0 : Nat)).length / 8) ∧ (List.replicate (2 ^ 32) (0 : Nat)).length / 8 < 2 ^ 31 := by
  rw [List.length_replicate]; decide

end Verif.Props
