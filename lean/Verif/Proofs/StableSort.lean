import Mathlib.Order.Basic
import Mathlib.Data.List.Basic
import Mathlib.Data.List.Perm.Basic

/-!
Uniqueness of the stable sort by a key.
-/

namespace Verif.Proofs

variable {α κ : Type*} [LinearOrder κ]

/-- Two lists sorted by key that agree on every key class are equal. -/
theorem eq_of_sorted_of_filter_eq (key : α → κ) : ∀ (l₁ l₂ : List α),
    l₁.Pairwise (fun a b => key a ≤ key b) → l₂.Pairwise (fun a b => key a ≤ key b) →
    (∀ c, l₁.filter (fun a => decide (key a = c)) = l₂.filter (fun a => decide (key a = c))) → l₁ = l₂
  | [], l₂, _, _, h => by
    cases l₂ with
    | nil => rfl
    | cons b l₂ => have := h (key b); simp at this
  | a :: l₁, [], _, _, h => by have := h (key a); simp at this
  | a :: l₁, b :: l₂, h1, h2, h => by
    rw [List.pairwise_cons] at h1 h2
    have hmem : ∀ x, x ∈ a :: l₁ ↔ x ∈ b :: l₂ := by
      intro x
      have hx := h (key x)
      constructor
      · intro hx1
        have : x ∈ (a :: l₁).filter (fun a => decide (key a = key x)) := by simp [List.mem_filter, hx1]
        rw [hx] at this; exact (List.mem_filter.1 this).1
      · intro hx1
        have : x ∈ (b :: l₂).filter (fun a => decide (key a = key x)) := by simp [List.mem_filter, hx1]
        rw [← hx] at this; exact (List.mem_filter.1 this).1
    have hab : key a = key b := by
      apply le_antisymm
      · rcases List.mem_cons.1 ((hmem b).2 (by simp)) with e | e
        · rw [e]
        · exact h1.1 _ e
      · rcases List.mem_cons.1 ((hmem a).1 (by simp)) with e | e
        · rw [e]
        · exact h2.1 _ e
    have h0 := h (key a)
    rw [List.filter_cons, List.filter_cons] at h0
    simp only [hab, decide_true, if_true] at h0
    have hab' : a = b := (List.cons.inj h0).1
    subst hab'
    congr 1
    apply eq_of_sorted_of_filter_eq key l₁ l₂ h1.2 h2.2
    intro c
    have hc := h c
    rw [List.filter_cons, List.filter_cons] at hc
    split at hc
    · exact (List.cons.inj hc).2
    · exact hc

theorem mergeSort_filter_key (key : α → κ) (l : List α) (c : κ) :
    (l.mergeSort (fun a b => decide (key a ≤ key b))).filter (fun a => decide (key a = c))
      = l.filter (fun a => decide (key a = c)) := by
  have hsub : (l.filter (fun a => decide (key a = c))).Sublist (l.mergeSort (fun a b => decide (key a ≤ key b))) := by
    apply List.sublist_mergeSort
    · intro a b d; simp only [decide_eq_true_eq]; exact le_trans
    · intro a b; simp only [Bool.or_eq_true, decide_eq_true_eq]; exact le_total _ _
    · rw [List.pairwise_filter]
      rw [List.pairwise_iff_getElem]
      intro i j hi hj hij ha hb
      simp only [decide_eq_true_eq] at *
      rw [ha, hb]
    · exact List.filter_sublist
  have h2 := hsub.filter (fun a => decide (key a = c))
  rw [List.filter_filter] at h2
  simp only [Bool.and_self] at h2
  refine (h2.eq_of_length ?_).symm
  exact ((List.mergeSort_perm l _).filter _).length_eq.symm

theorem mergeSort_sorted (key : α → κ) (l : List α) :
    (l.mergeSort (fun a b => decide (key a ≤ key b))).Pairwise (fun a b => key a ≤ key b) := by
  have := List.pairwise_mergeSort (le := fun a b => decide (key a ≤ key b))
    (by intro a b d; simp only [decide_eq_true_eq]; exact le_trans)
    (by intro a b; simp only [Bool.or_eq_true, decide_eq_true_eq]; exact le_total _ _) l
  simpa using this

/-- A list that is sorted and keeps the order inside each key class is the stable sort. -/
theorem eq_mergeSort (key : α → κ) (l s : List α) (hs : s.Pairwise (fun a b => key a ≤ key b))
    (hf : ∀ c, s.filter (fun a => decide (key a = c)) = l.filter (fun a => decide (key a = c))) :
    s = l.mergeSort (fun a b => decide (key a ≤ key b)) := by
  apply eq_of_sorted_of_filter_eq key s _ hs (mergeSort_sorted key l)
  intro c
  rw [mergeSort_filter_key, hf]

/-- Insert after all entries with a key that is not larger. -/
def insAfter (key : α → κ) (x : α) : List α → List α
  | [] => [x]
  | y :: ys => if key x < key y then x :: y :: ys else y :: insAfter key x ys

theorem insAfter_perm (key : α → κ) (x : α) : ∀ l, (insAfter key x l).Perm (x :: l)
  | [] => List.Perm.refl _
  | y :: ys => by
    unfold insAfter
    split
    · exact List.Perm.refl _
    · exact ((insAfter_perm key x ys).cons y).trans (List.Perm.swap x y ys)

theorem insAfter_sorted (key : α → κ) (x : α) : ∀ l : List α, l.Pairwise (fun a b => key a ≤ key b) →
    (insAfter key x l).Pairwise (fun a b => key a ≤ key b)
  | [], _ => by simp [insAfter]
  | y :: ys, h => by
    have h' := List.pairwise_cons.1 h
    unfold insAfter
    split
    · rename_i hxy
      refine List.pairwise_cons.2 ⟨?_, h⟩
      intro z hz
      rcases List.mem_cons.1 hz with e | e
      · rw [e]; exact hxy.le
      · exact hxy.le.trans (h'.1 z e)
    · rename_i hxy
      refine List.pairwise_cons.2 ⟨?_, insAfter_sorted key x ys h'.2⟩
      intro z hz
      rcases List.mem_cons.1 ((insAfter_perm key x ys).mem_iff.1 hz) with e | e
      · rw [e]; exact not_lt.1 hxy
      · exact h'.1 z e

theorem insAfter_filter (key : α → κ) (x : α) (c : κ) : ∀ l : List α, l.Pairwise (fun a b => key a ≤ key b) →
    (insAfter key x l).filter (fun a => decide (key a = c)) = (l ++ [x]).filter (fun a => decide (key a = c))
  | [], _ => by simp [insAfter]
  | y :: ys, h => by
    have h' := List.pairwise_cons.1 h
    unfold insAfter
    split
    · rename_i hxy
      by_cases hc : key x = c
      · have hno : (y :: ys).filter (fun a => decide (key a = c)) = [] := by
          rw [List.filter_eq_nil_iff]
          intro z hz
          simp only [decide_eq_true_eq]
          rintro rfl
          rcases List.mem_cons.1 hz with e | e
          · rw [e] at hc; exact absurd hc hxy.ne
          · exact absurd hc (hxy.trans_le (h'.1 z e)).ne
        rw [List.filter_append, hno, List.filter_cons]
        simp [hc, hno]
      · rw [List.filter_append, List.filter_cons]
        simp [hc]
    · rw [List.filter_cons, List.cons_append, List.filter_cons, insAfter_filter key x c ys h'.2]

theorem mergeSort_append_singleton (key : α → κ) (l : List α) (x : α) :
    (l ++ [x]).mergeSort (fun a b => decide (key a ≤ key b))
      = insAfter key x (l.mergeSort (fun a b => decide (key a ≤ key b))) := by
  symm
  apply eq_mergeSort key
  · exact insAfter_sorted key x _ (mergeSort_sorted key l)
  · intro c
    rw [insAfter_filter key x c _ (mergeSort_sorted key l), List.filter_append, List.filter_append,
      mergeSort_filter_key]

theorem take_insAfter_take (key : α → κ) (x : α) : ∀ (k : ℕ) (l : List α),
    (insAfter key x (l.take k)).take k = (insAfter key x l).take k
  | 0, l => by simp
  | k + 1, [] => by simp
  | k + 1, y :: ys => by
    simp only [List.take_succ_cons]
    unfold insAfter
    split
    · simp only [List.take_succ_cons]
      cases k with
      | zero => simp
      | succ k => simp [List.take_take]
    · simp only [List.take_succ_cons]
      rw [take_insAfter_take key x k ys]

end Verif.Proofs
