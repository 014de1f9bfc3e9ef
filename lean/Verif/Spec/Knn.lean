/-!
Specification of "the k best candidates", independent of the buffer implementation.
-/

namespace Verif.Spec

variable {D : Type}

/-- The `k` best candidates below `maxD`: first `k` entries of the *stable* sort by distance
(core `List.mergeSort` is stable, so ties go to the earlier candidate). -/
def kBest [LE D] [LT D] [DecidableLE D] [DecidableLT D] (maxD : D) (k : Nat) (cands : List (Nat × D)) : List (Nat × D) :=
  ((cands.filter (fun c => decide (c.2 < maxD))).mergeSort (fun a b => decide (a.2 ≤ b.2))).take k

/-- `res` is a correct answer to "the `k` nearest of `n` items", where item `i` has distance `dist i`:
distinct valid items, true distances, ascending, as many as possible, and nothing closer left out. -/
structure IsKnn [LE D] (dist : Nat → D) (n k : Nat) (res : List (Nat × D)) : Prop where
  length_eq : res.length = min k n
  valid : ∀ c ∈ res, c.1 < n
  dist_eq : ∀ c ∈ res, c.2 = dist c.1
  nodup : (res.map Prod.fst).Nodup
  sorted : res.Pairwise (fun a b => a.2 ≤ b.2)
  best : ∀ c ∈ res, ∀ j, j < n → j ∉ res.map Prod.fst → c.2 ≤ dist j

/-- `res` consists of `k` distinct genuine items, ascending, all strictly below `eps`. -/
structure IsGoodEnough [LE D] [LT D] (dist : Nat → D) (n k : Nat) (eps : D) (res : List (Nat × D)) : Prop where
  length_eq : res.length = k
  valid : ∀ c ∈ res, c.1 < n
  dist_eq : ∀ c ∈ res, c.2 = dist c.1
  nodup : (res.map Prod.fst).Nodup
  sorted : res.Pairwise (fun a b => a.2 ≤ b.2)
  below : ∀ c ∈ res, c.2 < eps

/-- `res` is a correct answer to "the (at most) `k` nearest stored items", where `S i d` says that item `i` is stored
and has distance `d`: only genuine items, ascending, nothing closer left out, and everything returned if there are
fewer than `k`. Distinctness is stated separately. -/
structure IsNearest [LE D] (S : Nat → D → Prop) (k : Nat) (res : List (Nat × D)) : Prop where
  length_le : res.length ≤ k
  genuine : ∀ c ∈ res, S c.1 c.2
  sorted : res.Pairwise (fun a b => a.2 ≤ b.2)
  best : ∀ i d, S i d → i ∉ res.map Prod.fst → ∀ c ∈ res, c.2 ≤ d
  complete : res.length < k → ∀ i d, S i d → i ∈ res.map Prod.fst

end Verif.Spec
