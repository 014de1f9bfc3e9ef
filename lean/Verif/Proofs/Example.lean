import Mathlib.Algebra.Order.Field.Basic
import Mathlib.Data.Finset.Card
import Mathlib.Tactic.Ring
import Mathlib.Tactic.FinCases
import Mathlib.Tactic.Linarith
import Verif.Model.Example
import Verif.Spec.Example
import Verif.Spec.Knn

/-! The bounded queue and its draining; two correct answers to a nearest-neighbour query have the same distances. -/

set_option linter.unusedSectionVars false
set_option linter.unusedSimpArgs false
set_option linter.unnecessarySeqFocus false

namespace Verif.Proofs.Example

open Matrix Verif Verif.Example Verif.Factors Verif.Spec

variable {K : Type} [Field K] [LinearOrder K]

theorem eraseIdx_perm {α : Type} (l : List α) (i : Nat) (t : α) (h : l[i]? = some t) : (t :: l.eraseIdx i).Perm l := by
  obtain ⟨hi, rfl⟩ := List.getElem?_eq_some_iff.1 h
  have e : l = l.take i ++ l[i] :: l.drop (i + 1) := by
    rw [List.getElem_cons_drop, List.take_append_drop]
  rw [List.eraseIdx_eq_take_drop_succ]
  conv_rhs => rw [e]
  exact (List.perm_middle).symm

/-- The queue holds the `min k n` nearest of the candidates seen so far. -/
theorem fold_queue (top : QueueTop K) (htop : TopSpec top) (k : Int) (L : List (Nat × K)) :
    ∃ R, (L.foldl (pushPop top k) [] ++ R).Perm L ∧ (L.foldl (pushPop top k) []).length = min (toU64 k) L.length ∧
      ∀ c ∈ L.foldl (pushPop top k) [], ∀ r ∈ R, c.2 ≤ r.2 := by
  induction L using List.reverseRecOn with
  | nil => exact ⟨[], by simp, by simp, by simp⟩
  | append_singleton L c ih =>
    obtain ⟨R, h1, h2, h3⟩ := ih
    rw [List.foldl_append]
    simp only [List.foldl_cons, List.foldl_nil]
    generalize hQ : L.foldl (pushPop top k) [] = Q at h1 h2 h3
    have hlen : Q.length + R.length = L.length := by simpa using h1.length_eq
    unfold pushPop
    by_cases hk : toU64 k < (Q ++ [c]).length
    · simp only [hk, if_true]
      obtain ⟨t, ht, hmax⟩ := htop (Q ++ [c]) (by simp)
      have hp := eraseIdx_perm _ _ _ ht
      refine ⟨t :: R, ?_, ?_, ?_⟩
      · have e1 : ((Q ++ [c]).eraseIdx (top (Q ++ [c])) ++ t :: R).Perm (t :: (Q ++ [c]).eraseIdx (top (Q ++ [c])) ++ R) := List.perm_middle
        refine e1.trans ((hp.append_right R).trans ?_)
        rw [List.append_assoc]
        have : (Q ++ ([c] ++ R)).Perm (Q ++ (R ++ [c])) := List.Perm.append_left _ List.perm_append_comm
        refine this.trans ?_
        rw [← List.append_assoc]
        exact h1.append_right _
      · have := hp.length_eq
        simp at this hk ⊢
        omega
      · intro x hx r hr
        have hxQ : x ∈ Q ++ [c] := hp.subset (List.mem_cons_of_mem _ hx)
        rcases List.mem_cons.1 hr with rfl | hr
        · exact hmax x hxQ
        · by_cases hi : top (Q ++ [c]) < Q.length
          · rw [List.getElem?_append_left hi] at ht
            exact (hmax x hxQ).trans (h3 t (List.mem_of_getElem? ht) r hr)
          · have hi' : top (Q ++ [c]) = Q.length := by
              obtain ⟨h, _⟩ := List.getElem?_eq_some_iff.1 ht
              simp at h; omega
            rw [hi', List.eraseIdx_append_of_length_le (le_refl _)] at hx
            simp at hx
            exact h3 x hx r hr
    · simp only [hk, if_false]
      have hR : R = [] := by
        simp at hk
        apply List.length_eq_zero_iff.1
        omega
      subst hR
      refine ⟨[], ?_, ?_, by simp⟩
      · have := h1.append_right [c]
        simpa using this
      · simp at hk hlen ⊢; omega

/-- Draining writes the queue in ascending order at the front of the two arrays. -/
theorem drain_spec (top : QueueTop K) (htop : TopSpec top) :
    ∀ (n : Nat) (q : List (Nat × K)), q.length = n → ∀ (is : List Nat) (ds : List K), n ≤ is.length → n ≤ ds.length →
      ∃ S : List (Nat × K), S.Perm q ∧ S.Pairwise (fun a b => a.2 ≤ b.2) ∧
        drain top n q is ds = .ok (S.map Prod.fst ++ is.drop n, S.map Prod.snd ++ ds.drop n) := by
  intro n
  induction n with
  | zero =>
    intro q hq is ds _ _
    have : q = [] := List.length_eq_zero_iff.1 hq
    subst this
    exact ⟨[], by simp, by simp, by simp [drain]⟩
  | succ n ih =>
    intro q hq is ds hi hd
    have hne : q ≠ [] := by intro h; simp [h] at hq
    obtain ⟨t, ht, hmax⟩ := htop q hne
    have hp := eraseIdx_perm _ _ _ ht
    have hl : (q.eraseIdx (top q)).length = n := by
      have := hp.length_eq; simp at this; omega
    obtain ⟨S, h1, h2, h3⟩ := ih (q.eraseIdx (top q)) hl (is.set n t.1) (ds.set n t.2) (by simp; omega) (by simp; omega)
    refine ⟨S ++ [t], ?_, ?_, ?_⟩
    · exact List.perm_append_comm.trans ((List.Perm.cons t h1).trans hp)
    · rw [List.pairwise_append]
      refine ⟨h2, by simp, ?_⟩
      intro a ha b hb
      simp at hb; subst hb
      exact hmax a (hp.subset (List.mem_cons_of_mem _ (h1.subset ha)))
    · rw [drain, if_neg hne]
      have e1 : rd q (top q) = .ok t := by rw [rd, ht]
      have e2 : wr is (q.length - 1) t.1 = .ok (is.set n t.1) := by
        rw [wr, if_pos (by omega)]; simp [hq]
      have e3 : wr ds (q.length - 1) t.2 = .ok (ds.set n t.2) := by
        rw [wr, if_pos (by omega)]; simp [hq]
      have hset : ∀ {α : Type} (l : List α) (x : α), n < l.length → (l.set n x).drop n = x :: l.drop (n + 1) := by
        intro α l x h
        rw [List.drop_eq_getElem_cons (by simpa using h), List.drop_set_of_lt (by omega)]
        simp
      rw [e1]
      show (wr is (q.length - 1) t.1 >>= _) = _
      rw [e2]
      show (wr ds (q.length - 1) t.2 >>= _) = _
      rw [e3]
      show drain top n _ _ _ = _
      rw [h3, hset is t.1 (by omega), hset ds t.2 (by omega)]
      simp

theorem candidates_dist (points : MyCloud K) (pt : Fin 4 → K) :
    candidates points pt = (List.range points.length).map (fun i => (i, spaceDist (points.map MyPoint.point) pt i)) := by
  apply List.ext_getElem
  · simp [candidates]
  · intro i h1 h2
    simp [candidates] at h1
    simp [candidates, spaceDist, h1, head3, dotProduct, Fin.sum_univ_three]
    ring

/-- Everything about one call with buffers that hold `min k n` entries. -/
theorem knnSearch_spec (top : QueueTop K) (htop : TopSpec top) (points : MyCloud K) (pt : Fin 4 → K) (k : Int) (is : List Nat) (ds : List K)
    (hi : min (toU64 k) points.length ≤ is.length) (hd : min (toU64 k) points.length ≤ ds.length) :
    ∃ S : List (Nat × K), IsKnn (spaceDist (points.map MyPoint.point) pt) points.length (toU64 k) S ∧
      knnSearch top points pt k is ds = .ok (S.length, S.map Prod.fst ++ is.drop S.length, S.map Prod.snd ++ ds.drop S.length) := by
  obtain ⟨R, h1, h2, h3⟩ := fold_queue top htop k (candidates points pt)
  have hc : (candidates points pt).length = points.length := by simp [candidates]
  rw [hc] at h2
  generalize hQ : (candidates points pt).foldl (pushPop top k) [] = Q at h1 h2 h3
  obtain ⟨S, h4, h5, h6⟩ := drain_spec top htop Q.length Q rfl is ds (by omega) (by omega)
  have hSl : S.length = Q.length := h4.length_eq
  refine ⟨S, ?_, ?_⟩
  · have hp : (S ++ R).Perm ((List.range points.length).map (fun i => (i, spaceDist (points.map MyPoint.point) pt i))) := by
      rw [← candidates_dist]; exact (h4.append_right R).trans h1
    have hg : ∀ c ∈ S ++ R, c.1 < points.length ∧ c.2 = spaceDist (points.map MyPoint.point) pt c.1 := by
      intro c hc
      obtain ⟨i, hi, rfl⟩ := List.mem_map.1 (hp.subset hc)
      exact ⟨List.mem_range.1 hi, rfl⟩
    have hfst : (S.map Prod.fst ++ R.map Prod.fst).Perm (List.range points.length) := by
      have := hp.map Prod.fst
      rw [List.map_append, List.map_map] at this
      simpa [Function.comp_def] using this
    have hnd := hfst.nodup_iff.2 List.nodup_range
    refine ⟨by omega, fun c hc => (hg c (List.mem_append_left _ hc)).1, fun c hc => (hg c (List.mem_append_left _ hc)).2,
      (List.nodup_append.1 hnd).1, h5, ?_⟩
    intro c hc j hj hjn
    have : j ∈ S.map Prod.fst ++ R.map Prod.fst := hfst.mem_iff.2 (List.mem_range.2 hj)
    rcases List.mem_append.1 this with e | e
    · exact absurd e hjn
    · obtain ⟨r, hr, rfl⟩ := List.mem_map.1 e
      rw [← (hg r (List.mem_append_right _ hr)).2]
      exact h3 c (h4.subset hc) r hr
  · unfold knnSearch
    simp only [hQ, h6]
    show Except.ok _ = _
    rw [hSl]

/-- The first write goes past the end when the arrays are shorter than the queue. -/
theorem drain_oob (top : QueueTop K) (htop : TopSpec top) (q : List (Nat × K)) (hq : q ≠ []) (is : List Nat) (ds : List K) (h : is.length < q.length) :
    drain top q.length q is ds = .error .oob := by
  obtain ⟨n, hn⟩ : ∃ n, q.length = n + 1 := ⟨q.length - 1, by have := List.length_pos_of_ne_nil hq; omega⟩
  obtain ⟨t, ht, -⟩ := htop q hq
  have e1 : rd q (top q) = .ok t := by rw [rd, ht]
  have e2 : wr is (q.length - 1) t.1 = .error .oob := by rw [wr, if_neg (by omega)]
  rw [hn, drain, if_neg hq]
  simp only [e1]
  show (wr is (q.length - 1) t.1 >>= _) = _
  rw [e2]
  rfl

section unique

variable {D : Type} [LinearOrder D]

theorem knn_le {dist : Nat → D} {n k : Nat} {A B : List (Nat × D)} (hA : IsKnn dist n k A) (hB : IsKnn dist n k B)
    (j : Nat) (ha : j < A.length) (hb : j < B.length) : B[j].2 ≤ A[j].2 := by
  by_contra hlt
  push Not at hlt
  -- the first `j + 1` indices of `A` all occur among the first `j` of `B`
  have hsub : ((A.take (j + 1)).map Prod.fst) ⊆ ((B.take j).map Prod.fst) := by
    intro x hx
    obtain ⟨c, hc, rfl⟩ := List.mem_map.1 hx
    obtain ⟨i, hi, hic⟩ := List.mem_iff_getElem.1 hc
    have hi' : i ≤ j := by simp at hi; omega
    have hcA : c ∈ A := List.mem_of_mem_take hc
    have hcj : c.2 ≤ A[j].2 := by
      rw [List.getElem_take] at hic
      rw [← hic]
      rcases Nat.eq_or_lt_of_le hi' with e | e
      · subst e; exact le_refl _
      · exact List.pairwise_iff_getElem.1 hA.sorted i j _ ha e
    have hmem : c.1 ∈ B.map Prod.fst := by
      by_contra hno
      have := hB.best B[j] (List.getElem_mem hb) c.1 (hA.valid c hcA) hno
      rw [← hA.dist_eq c hcA] at this
      exact absurd (lt_of_le_of_lt hcj hlt) (not_lt.2 this)
    obtain ⟨b, hbB, hb1⟩ := List.mem_map.1 hmem
    have hb2 : b.2 = c.2 := by rw [hB.dist_eq b hbB, hA.dist_eq c hcA, hb1]
    obtain ⟨m, hm, hmb⟩ := List.mem_iff_getElem.1 hbB
    have hmj : m < j := by
      by_contra hno
      push Not at hno
      have : B[j].2 ≤ B[m].2 := by
        rcases Nat.eq_or_lt_of_le hno with e | e
        · subst e; exact le_refl _
        · exact List.pairwise_iff_getElem.1 hB.sorted j m hb hm e
      rw [hmb, hb2] at this
      exact absurd (lt_of_le_of_lt (this.trans hcj) hlt) (lt_irrefl _)
    rw [← hb1, ← hmb]
    refine List.mem_map.2 ⟨B[m], ?_, rfl⟩
    rw [List.mem_iff_getElem]
    exact ⟨m, by simp; omega, by simp⟩
  have hnd : ((A.take (j + 1)).map Prod.fst).Nodup := by
    rw [List.map_take]; exact hA.nodup.sublist (List.take_sublist _ _)
  have := (List.Nodup.subperm hnd hsub).length_le
  simp at this
  omega

/-- Two correct answers to the same query list the same distances. -/
theorem isKnn_dists {dist : Nat → D} {n k : Nat} {A B : List (Nat × D)} (hA : IsKnn dist n k A) (hB : IsKnn dist n k B) :
    A.map Prod.snd = B.map Prod.snd := by
  have hl : A.length = B.length := by rw [hA.length_eq, hB.length_eq]
  apply List.ext_getElem
  · simpa using hl
  · intro j h1 h2
    simp only [List.length_map] at h1 h2
    simp only [List.getElem_map]
    exact le_antisymm (knn_le hB hA j h2 h1) (knn_le hA hB j h1 h2)

end unique

end Verif.Proofs.Example
