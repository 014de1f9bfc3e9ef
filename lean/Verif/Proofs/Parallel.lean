import Verif.Model.Parallel
import Mathlib.Data.List.Basic
import Mathlib.Data.List.Perm.Basic
import Mathlib.Data.List.Flatten

/-!
Facts about the interleaving semantics of parallel loops and about loops with possible faults.
-/

namespace Verif.Proofs

open Verif

theorem ok_bind {β γ : Type} (a : β) (f : β → Res γ) : ((Except.ok a : Res β) >>= f) = f a := rfl

theorem err_bind {β γ : Type} (e : Fault) (f : β → Res γ) : ((Except.error e : Res β) >>= f) = .error e := rfl

/-- Invariant of a loop, indexed by the list of actions already done. -/
theorem foldlM_inv {σ α : Type} (f : σ → α → Res σ) (I : List α → σ → Prop) (l : List α) (s : σ) (h0 : I [] s)
    (hstep : ∀ done a rest, l = done ++ a :: rest → ∀ s, I done s → ∃ s', f s a = .ok s' ∧ I (done ++ [a]) s') :
    ∃ s', l.foldlM f s = .ok s' ∧ I l s' := by
  have key : ∀ (rest done : List α) (s : σ), l = done ++ rest → I done s → ∃ s', rest.foldlM f s = .ok s' ∧ I l s' := by
    intro rest
    induction rest with
    | nil =>
      intro done s hl hi
      rw [List.append_nil] at hl
      rw [hl]; exact ⟨s, rfl, hi⟩
    | cons a rest ih =>
      intro done s hl hi
      obtain ⟨s1, h1, h2⟩ := hstep done a rest hl s hi
      obtain ⟨s2, h3, h4⟩ := ih (done ++ [a]) s1 (by rw [hl]; simp) h2
      refine ⟨s2, ?_, h4⟩
      rw [List.foldlM_cons, h1]; exact h3
  exact key l [] s rfl h0

variable {α : Type}

theorem flatten_set_perm : ∀ (tasks : List (List α)) (j : Nat) (a : α) (rest : List α), tasks[j]? = some (a :: rest) →
    (a :: (tasks.set j rest).flatten).Perm tasks.flatten
  | [], _, _, _, h => by simp at h
  | t :: ts, 0, a, rest, h => by
    simp only [List.getElem?_cons_zero, Option.some.injEq] at h
    subst h
    simp
  | t :: ts, j + 1, a, rest, h => by
    simp only [List.getElem?_cons_succ] at h
    simp only [List.set_cons_succ, List.flatten_cons]
    have := flatten_set_perm ts j a rest h
    exact (List.perm_middle.symm).trans (List.Perm.append_left t this)

/-- Every action runs exactly once. -/
theorem parOrder_perm : ∀ (sched : List Nat) (tasks : List (List α)) (o : List α), parOrder sched tasks = some o → o.Perm tasks.flatten
  | [], tasks, o, h => by
    unfold parOrder at h
    split at h
    · rename_i he
      cases h
      have : tasks.flatten = [] := by
        rw [List.flatten_eq_nil_iff]
        intro l hl
        have := List.all_eq_true.1 he l hl
        simpa using this
      rw [this]
    · cases h
  | j :: js, tasks, o, h => by
    unfold parOrder at h
    split at h
    · rename_i a rest ht
      obtain ⟨o', ho', rfl⟩ := Option.map_eq_some_iff.1 h
      exact ((parOrder_perm js _ o' ho').cons a).trans (flatten_set_perm tasks j a rest ht)
    · cases h

/-- Each task's actions run in order. -/
theorem parOrder_filter (tag : α → Nat) : ∀ (sched : List Nat) (tasks : List (List α)) (o : List α), parOrder sched tasks = some o →
    (∀ k l, tasks[k]? = some l → ∀ a ∈ l, tag a = k) → ∀ (k : Nat) l, tasks[k]? = some l → o.filter (fun a => decide (tag a = k)) = l
  | [], tasks, o, h, _, k, l, hk => by
    unfold parOrder at h
    split at h
    · rename_i he
      cases h
      have := List.all_eq_true.1 he l (List.mem_of_getElem? hk)
      simp at this
      simp [this]
    · cases h
  | j :: js, tasks, o, h, htag, k, l, hk => by
    unfold parOrder at h
    split at h
    · rename_i a rest ht
      obtain ⟨o', ho', rfl⟩ := Option.map_eq_some_iff.1 h
      have hj : j < tasks.length := (List.getElem?_eq_some_iff.1 ht).1
      have htag' : ∀ k l, (tasks.set j rest)[k]? = some l → ∀ a ∈ l, tag a = k := by
        intro k l hkl b hb
        rw [List.getElem?_set] at hkl
        split at hkl
        · rename_i e
          subst e
          simp only [Option.some.injEq] at hkl
          subst hkl
          exact htag j _ ht b (List.mem_cons_of_mem _ hb)
        · exact htag k l hkl b hb
      have ha : tag a = j := htag j _ ht a (by simp)
      rw [List.filter_cons]
      by_cases e : j = k
      · subst e
        rw [ht] at hk
        cases hk
        rw [if_pos (by simp [ha])]
        rw [parOrder_filter tag js _ o' ho' htag' j rest (by rw [List.getElem?_set]; simp [hj])]
      · rw [if_neg (by simp [ha, e])]
        exact parOrder_filter tag js _ o' ho' htag' k l (by rw [List.getElem?_set]; simp [e, hk])
    · cases h

/-- Running the tasks one after the other is a complete execution. -/
theorem parOrder_seq : ∀ (tasks : List (List α)), ∃ sched, parOrder sched tasks = some tasks.flatten := by
  have key : ∀ (n : Nat) (tasks : List (List α)), tasks.flatten.length = n → ∃ sched, parOrder sched tasks = some tasks.flatten := by
    intro n
    induction n with
    | zero =>
      intro tasks h
      have h0 : tasks.flatten = [] := List.length_eq_zero_iff.1 h
      refine ⟨[], ?_⟩
      unfold parOrder
      rw [if_pos, h0]
      rw [List.all_eq_true]
      intro l hl
      have := List.flatten_eq_nil_iff.1 h0 l hl
      simp [this]
    | succ n ih =>
      intro tasks h
      -- first non-empty task
      have hfirst : ∀ ts : List (List α), ts.flatten ≠ [] → ∃ j a rest, ts[j]? = some (a :: rest) ∧ ts.flatten = a :: (ts.set j rest).flatten := by
        intro ts
        induction ts with
        | nil => intro h; simp at h
        | cons t ts iht =>
          intro h
          cases t with
          | nil =>
            obtain ⟨j, a, rest, h1, h2⟩ := iht (by simpa using h)
            exact ⟨j + 1, a, rest, by simpa using h1, by simpa using h2⟩
          | cons a rest => exact ⟨0, a, rest, by simp, by simp⟩
      obtain ⟨j, a, rest, h1, h2⟩ := hfirst tasks (by intro e; rw [e] at h; simp at h)
      obtain ⟨sched, hs⟩ := ih (tasks.set j rest) (by rw [h2] at h; simpa using h)
      refine ⟨j :: sched, ?_⟩
      unfold parOrder
      rw [h1]
      simp only [hs, Option.map_some]
      rw [h2]
  intro tasks
  exact key _ tasks rfl

end Verif.Proofs
