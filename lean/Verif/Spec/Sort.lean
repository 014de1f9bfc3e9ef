import Verif.Model.SortOmp

/-!
Strict weak orders, sortedness and the contracts of the library functions used by the sorts.
-/

namespace Verif.Spec

variable {α : Type}

/-- Strict weak order ([alg.sorting]): irreflexive, transitive, and incomparability is transitive (stated as negative
transitivity). -/
structure StrictWeak (comp : α → α → Bool) : Prop where
  irrefl : ∀ a, comp a a = false
  trans : ∀ a b c, comp a b = true → comp b c = true → comp a c = true
  neg_trans : ∀ a b c, comp a b = false → comp b c = false → comp a c = false

/-- Sorted with respect to `comp`: no later element is less than an earlier one. -/
def SortedBy (comp : α → α → Bool) (l : List α) : Prop := l.Pairwise (fun a b => comp b a = false)

/-- Contracts: `std::sort` ([sort]), `std::partition` ([alg.partitions]), `std::inplace_merge` ([alg.merge]; requires
sorted halves). -/
structure LibSpec (comp : α → α → Bool) (lib : SortOmp.Lib α) : Prop where
  sort_perm : ∀ l, (lib.sort l).Perm l
  sort_sorted : ∀ l, SortedBy comp (lib.sort l)
  part_perm : ∀ p l, (lib.partition p l).Perm l
  part_yes : ∀ p l, ∀ a ∈ (lib.partition p l).take (l.countP p), p a = true
  part_no : ∀ p l, ∀ a ∈ (lib.partition p l).drop (l.countP p), p a = false
  merge_perm : ∀ a b, SortedBy comp a → SortedBy comp b → (lib.inplaceMerge a b).Perm (a ++ b)
  merge_sorted : ∀ a b, SortedBy comp a → SortedBy comp b → SortedBy comp (lib.inplaceMerge a b)

/-- `out` is the stable sort of `input` by `key`: a permutation, ascending, and elements of equal key keep their order. -/
structure StableSortOf (key : α → Nat) (input out : List α) : Prop where
  perm : out.Perm input
  ascending : out.Pairwise (fun a b => key a ≤ key b)
  stable : ∀ v, out.filter (fun a => decide (key a = v)) = input.filter (fun a => decide (key a = v))

end Verif.Spec
