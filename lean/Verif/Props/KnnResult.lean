import Verif.Proofs.KdExact

/-!
C01: the neighbour buffer keeps exactly the k smallest candidates.
-/

namespace Verif.Props

open Verif Verif.Knn Verif.Proofs

variable {D : Type} [LinearOrder D]

/-- C01. For a static buffer (`N > 0`, `num_neighbors = -1`) or a dynamic one (`N ≤ 0`, `num_neighbors = k > 0`) of
capacity `cap`, and any sequence of offered candidates: no access leaves the caller's arrays, the first `num_found`
slots hold the `cap` best candidates in stable ascending order, the remaining slots of the buffer are still
the largest `size_t` / max, and whatever the caller has behind the buffer is untouched. -/
theorem C01_buffer_is_k_best (maxD : D) (N k : Int) (cap : Nat) (indices : List Nat) (dists : List D)
    (hcap : cap = if 0 < N then N.toNat else k.toNat) (hpos : 0 < cap) (hk : 0 < N → k < 0)
    (hi : cap ≤ indices.length) (hd : cap ≤ dists.length) (tr : Nat → Nat) (offered : List (Nat × D)) :
    ∃ r0 r, construct maxD N indices dists k = .ok r0 ∧ r0.pushAll tr offered = .ok r ∧
      (let best := Spec.kBest maxD cap (offered.map (fun c => (tr c.1, c.2)))
       r.numFound = best.length ∧
       r.indices = best.map Prod.fst ++ List.replicate (cap - best.length) (2 ^ 64 - 1) ++ indices.drop cap ∧
       r.distances = best.map Prod.snd ++ List.replicate (cap - best.length) maxD ++ dists.drop cap) := by
  obtain ⟨r0, h0, h1⟩ := construct_holds maxD N indices dists k cap hcap hpos hk hi hd
  obtain ⟨r, h2, h3⟩ := pushAll_holds tr offered h1
  rw [foldl_pushSpec] at h3
  exact ⟨r0, r, h0, h2, h3.found, by rw [h3.ind, List.append_assoc]; rfl, by rw [h3.dis, List.append_assoc]⟩

/-- C01, in plain words: what the caller sees is sorted, has `min cap (number of accepted candidates)` entries,
every reported pair was offered, and the accepted candidates split into the reported ones and a rest none of which is
closer than a reported one. -/
theorem C01_buffer_k_smallest (maxD : D) (N k : Int) (cap : Nat) (indices : List Nat) (dists : List D)
    (hcap : cap = if 0 < N then N.toNat else k.toNat) (hpos : 0 < cap) (hk : 0 < N → k < 0)
    (hi : cap ≤ indices.length) (hd : cap ≤ dists.length) (offered : List (Nat × D)) :
    ∃ r0 r rest, construct maxD N indices dists k = .ok r0 ∧ r0.pushAll id offered = .ok r ∧
      r.found.Pairwise (fun a b => a.2 ≤ b.2) ∧
      r.found.length = min cap (offered.countP (fun c => c.2 < maxD)) ∧
      (r.found ++ rest).Perm (offered.filter (fun c => c.2 < maxD)) ∧
      ∀ a ∈ r.found, ∀ b ∈ rest, a.2 ≤ b.2 := by
  obtain ⟨r0, h0, h1⟩ := construct_holds maxD N indices dists k cap hcap hpos hk hi hd
  obtain ⟨r, h2, h3⟩ := pushAll_holds id offered h1
  rw [foldl_pushSpec] at h3
  have hm : offered.map (fun c => (id c.1, c.2)) = offered := by simp
  rw [hm] at h3
  obtain ⟨rest, h4, h5⟩ := kBest_split maxD cap offered
  refine ⟨r0, r, rest, h0, h2, ?_⟩
  rw [h3.found_eq]
  exact ⟨kBest_sorted _ _ _, by rw [kBest_length, List.countP_eq_length_filter], h4, h5⟩

/-- The hypotheses of C01 hold for a dynamic buffer of capacity 2 with five slots of caller memory. -/
example : (2 : Nat) = (if (0 : Int) < -1 then (-1 : Int).toNat else (2 : Int).toNat) ∧ 0 < 2 ∧
    ((0 : Int) < -1 → (2 : Int) < 0) ∧ 2 ≤ [7, 7, 7, 7, 7].length := by decide

/-- Sanity check (a test, not a proof): offering 5, 3, 9, 3 to a buffer of capacity 2. -/
example : (do
    let r ← construct (100 : Int) (-1) [7, 7, 7] [7, 7, 7] 2
    let r ← r.pushAll id [(0, 5), (1, 3), (2, 9), (3, 3)]
    return (r.numFound, r.indices, r.distances) : Res _) = .ok (2, [1, 3, 7], [3, 3, 7]) := by rfl

omit [LinearOrder D] in
/-- C01, error branch: a dynamic buffer with `k ≤ 0`, or a static one with `num_neighbors ≥ 0`, aborts. -/
theorem C01_bad_capacity_aborts (maxD : D) (N k : Int) (indices : List Nat) (dists : List D)
    (h : (0 < N ∧ 0 ≤ k) ∨ (N ≤ 0 ∧ k ≤ 0)) : construct maxD N indices dists k = .error .abort := by
  unfold construct
  rcases h with h | h
  · rw [if_pos h]
  · rw [if_neg (by omega), if_pos (by omega)]

end Verif.Props
