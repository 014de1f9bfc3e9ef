import Verif.Proofs.StableSort
import Verif.Spec.KdTree

/-!
A concrete selection function meeting the `std::nth_element` contract (insertion sort). It shows that the
contract is satisfiable and reduces in the kernel, so it is used in examples and counterexamples.
-/

namespace Verif.Proofs

open Verif Verif.KdTree

variable {D : Type} [LinearOrder D]

/-- Insertion sort by value. -/
def isort : List (Nat × D) → List (Nat × D)
  | [] => []
  | a :: l => insAfter Prod.snd a (isort l)

theorem isort_perm : ∀ l : List (Nat × D), (isort l).Perm l
  | [] => List.Perm.refl _
  | a :: l => (insAfter_perm Prod.snd a (isort l)).trans ((isort_perm l).cons a)

theorem isort_sorted : ∀ l : List (Nat × D), (isort l).Pairwise (fun a b => a.2 ≤ b.2)
  | [] => List.Pairwise.nil
  | a :: l => insAfter_sorted Prod.snd a (isort l) (isort_sorted l)

theorem isort_nthElementSpec : NthElementSpec (fun (l : List (Nat × D)) (_ : Nat) => isort l) where
  perm l _ := isort_perm l
  split l n m h := by
    have hs := isort_sorted l
    obtain ⟨hn, rfl⟩ := List.getElem?_eq_some_iff.1 h
    rw [List.pairwise_iff_getElem] at hs
    constructor
    · intro a ha
      obtain ⟨i, hi, rfl⟩ := List.mem_iff_getElem.1 ha
      rw [List.getElem_take]
      rw [List.length_take] at hi
      exact hs i n (by omega) hn (by omega)
    · intro a ha
      obtain ⟨i, hi, rfl⟩ := List.mem_iff_getElem.1 ha
      rw [List.getElem_drop]
      rw [List.length_drop] at hi
      rcases Nat.eq_zero_or_pos i with e | e
      · subst e; exact le_refl _
      · exact hs n (n + i) hn (by omega) (by omega)

end Verif.Proofs
