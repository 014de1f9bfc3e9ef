import Verif.Model.KnnResult
import Verif.Spec.Knn
import Verif.Proofs.StableSort
import Mathlib.Data.List.Induction
import Mathlib.Order.Nat
import Mathlib.Tactic.Linarith

/-!
The result buffer refines "first k of the stable sort".
-/

namespace Verif.Proofs

open Verif Verif.Knn

variable {D : Type} [LinearOrder D]

theorem rd_append {α : Type*} (A : List α) (x : α) (B : List α) : rd (A ++ x :: B) A.length = .ok x := by
  simp [rd]

theorem wr_append {α : Type*} (A : List α) (x y : α) (B : List α) :
    wr (A ++ x :: B) A.length y = .ok (A ++ y :: B) := by
  simp [wr]

theorem insAfter_append (x a : Nat × D) (A : List (Nat × D))
    (h : (A ++ [a]).Pairwise (fun a b => a.2 ≤ b.2)) :
    insAfter Prod.snd x (A ++ [a]) = if x.2 < a.2 then insAfter Prod.snd x A ++ [a] else A ++ [a, x] := by
  induction A with
  | nil => simp only [List.nil_append, insAfter]; split <;> rfl
  | cons b A ih =>
    rw [List.cons_append, List.pairwise_cons] at h
    have hba : b.2 ≤ a.2 := h.1 a (by simp)
    simp only [List.cons_append, insAfter, ih h.2]
    by_cases hxb : x.2 < b.2
    · have : x.2 < a.2 := hxb.trans_le hba
      simp [hxb, this]
    · simp only [hxb, if_false]
      split <;> rfl

theorem shift_write (d : D) (i : Nat) (A : List (Nat × D)) :
    ∀ (_ : A.Pairwise (fun a b => a.2 ≤ b.2)) (y : Nat) (ti : List Nat) (z : D) (td : List D),
    (do
      let (ind, dis, loc) ← shiftLoop d A.length (A.map Prod.fst ++ y :: ti) (A.map Prod.snd ++ z :: td)
      let ind ← wr ind loc i
      let dis ← wr dis loc d
      pure (ind, dis) : Res (List Nat × List D))
    = .ok ((insAfter Prod.snd (i, d) A).map Prod.fst ++ ti, (insAfter Prod.snd (i, d) A).map Prod.snd ++ td) := by
  induction A using List.reverseRecOn with
  | nil =>
    intro _ y ti z td
    simp [shiftLoop, insAfter, wr, bind, Except.bind, pure, Except.pure]
  | append_singleton A a ih =>
    intro h y ti z td
    have hA : A.Pairwise (fun a b => a.2 ≤ b.2) := (List.pairwise_append.1 h).1
    have e1 : ∀ (v : D) t, rd (A.map Prod.snd ++ v :: t) A.length = .ok v := by
      intro v t; simpa using rd_append (A.map Prod.snd) v t
    have e2 : ∀ (v : Nat) t, rd (A.map Prod.fst ++ v :: t) A.length = .ok v := by
      intro v t; simpa using rd_append (A.map Prod.fst) v t
    have e3 : ∀ (u v w : D) t, wr (A.map Prod.snd ++ u :: v :: t) (A.length + 1) w
        = .ok (A.map Prod.snd ++ u :: w :: t) := by
      intro u v w t; simpa using wr_append (A.map Prod.snd ++ [u]) v w t
    have e4 : ∀ (u v w : Nat) t, wr (A.map Prod.fst ++ u :: v :: t) (A.length + 1) w
        = .ok (A.map Prod.fst ++ u :: w :: t) := by
      intro u v w t; simpa using wr_append (A.map Prod.fst ++ [u]) v w t
    rw [insAfter_append _ _ _ h]
    simp only [List.length_append, List.length_cons, List.length_nil, Nat.zero_add, List.map_append,
      List.map_cons, List.map_nil, List.append_assoc, List.cons_append, List.nil_append]
    rw [shiftLoop, e1]
    simp only [bind, Except.bind]
    by_cases hd : d < a.2
    · simp only [hd, if_true, e2, e4, e3]
      have := ih hA a.1 (a.1 :: ti) a.2 (a.2 :: td)
      simp only [bind, Except.bind] at this
      rw [this]
      simp
    · simp only [hd, if_false, e3, e4, pure, Except.pure]
      simp

/-- Effect of one candidate on the sorted list of kept candidates. -/
def pushSpec (maxD : D) (cap : Nat) (L : List (Nat × D)) (c : Nat × D) : List (Nat × D) :=
  if c.2 < maxD then (insAfter Prod.snd c L).take cap else L

/-- The buffer `r` of capacity `cap` holds exactly the candidates `L`; `ti`, `td` are the parts of the
caller's arrays beyond the capacity. -/
structure Holds (maxD : D) (cap : Nat) (ti : List Nat) (td : List D) (r : KnnResult D) (L : List (Nat × D)) : Prop where
  size : r.bufferSize = cap
  pos : 0 < cap
  len : L.length ≤ cap
  found : r.numFound = L.length
  ind : r.indices = L.map Prod.fst ++ (List.replicate (cap - L.length) INVALID ++ ti)
  dis : r.distances = L.map Prod.snd ++ (List.replicate (cap - L.length) maxD ++ td)
  sorted : L.Pairwise (fun a b => a.2 ≤ b.2)
  lt : ∀ c ∈ L, c.2 < maxD

/-- Worst kept distance as seen by the search: `maxD` while the buffer is not full. -/
def worstOf (maxD : D) (cap : Nat) (L : List (Nat × D)) : D :=
  if h : L.length = cap ∧ L ≠ [] then (L.getLast h.2).2 else maxD

theorem Holds.worst {maxD : D} {cap ti td} {r : KnnResult D} {L} (h : Holds maxD cap ti td r L) :
    r.worstDistance = .ok (worstOf maxD cap L) := by
  unfold KnnResult.worstDistance worstOf
  rw [h.size, h.dis]
  rcases Nat.lt_or_ge L.length cap with hl | hl
  · rw [dif_neg (by omega)]
    have : cap - L.length = (cap - L.length - 1) + 1 := by omega
    rw [this, List.replicate_succ', ← List.append_assoc, ← List.append_assoc, List.append_assoc _ [maxD]]
    have hh := rd_append (L.map Prod.snd ++ List.replicate (cap - L.length - 1) maxD) maxD td
    simp only [List.length_append, List.length_map, List.length_replicate] at hh
    have h3 : L.length + (cap - L.length - 1) = cap - 1 := by omega
    rw [h3] at hh
    simpa using hh
  · have hlen : L.length = cap := le_antisymm h.len hl
    have hne : L ≠ [] := by
      intro h0; rw [h0] at hlen; have := h.pos; simp at hlen; omega
    rw [dif_pos ⟨hlen, hne⟩]
    have h0 : cap - L.length = 0 := by omega
    rw [h0, List.replicate_zero, List.nil_append]
    obtain ⟨A, a, rfl⟩ : ∃ A a, L = A ++ [a] := ⟨L.dropLast, L.getLast hne, (List.dropLast_append_getLast hne).symm⟩
    have hh := rd_append (A.map Prod.snd) a.2 td
    simp only [List.length_append, List.length_cons, List.length_nil] at hlen
    have h3 : cap - 1 = (A.map Prod.snd).length := by simp; omega
    rw [h3]
    simpa using hh

theorem Holds.found_eq {maxD : D} {cap ti td} {r : KnnResult D} {L} (h : Holds maxD cap ti td r L) : r.found = L := by
  unfold KnnResult.found
  rw [h.found, h.ind, h.dis, List.zip_append (by simp), List.take_append_of_le_length (by simp), List.take_of_length_le (by simp)]
  exact (List.zip_of_prod rfl rfl).symm

theorem insAfter_full_ge {L : List (Nat × D)} (c : Nat × D) (h : ∀ a ∈ L, a.2 ≤ c.2) :
    insAfter Prod.snd c L = L ++ [c] := by
  induction L with
  | nil => rfl
  | cons b L ih =>
    have := h b (by simp)
    simp only [insAfter, not_lt.2 this, if_false, List.cons_append]
    rw [ih (fun a ha => h a (by simp [ha]))]

theorem le_getLast {L : List (Nat × D)} (hs : L.Pairwise (fun a b => a.2 ≤ b.2)) (hne : L ≠ []) :
    ∀ a ∈ L, a.2 ≤ (L.getLast hne).2 := by
  obtain ⟨A, b, rfl⟩ : ∃ A a, L = A ++ [a] := ⟨L.dropLast, L.getLast hne, (List.dropLast_append_getLast hne).symm⟩
  intro a ha
  rw [List.getLast_append_singleton]
  rcases List.mem_append.1 ha with e | e
  · exact (List.pairwise_append.1 hs).2.2 a e b (by simp)
  · rw [List.mem_singleton.1 e]

/-- A candidate not better than the worst kept one is ignored. -/
theorem pushSpec_of_worst_le {maxD : D} {cap ti td} {r : KnnResult D} {L} (h : Holds maxD cap ti td r L)
    (c : Nat × D) (hc : worstOf maxD cap L ≤ c.2) : pushSpec maxD cap L c = L := by
  unfold pushSpec worstOf at *
  split_ifs at hc with hL
  · split
    · rw [insAfter_full_ge c (fun a ha => (le_getLast h.sorted hL.2 a ha).trans hc)]
      rw [← hL.1]; simp
    · rfl
  · rw [if_neg (not_lt.2 hc)]

theorem pushSpec_length_le (maxD : D) (cap : Nat) (L : List (Nat × D)) (c : Nat × D) (h : L.length ≤ cap) :
    (pushSpec maxD cap L c).length ≤ cap := by
  unfold pushSpec; split
  · simp
  · exact h

theorem pushSpec_sorted (maxD : D) (cap : Nat) (L : List (Nat × D)) (c : Nat × D)
    (h : L.Pairwise (fun a b => a.2 ≤ b.2)) : (pushSpec maxD cap L c).Pairwise (fun a b => a.2 ≤ b.2) := by
  unfold pushSpec; split
  · exact (insAfter_sorted Prod.snd c L h).sublist (List.take_sublist _ _)
  · exact h

theorem mem_pushSpec {maxD : D} {cap : Nat} {L : List (Nat × D)} {c a : Nat × D} (h : a ∈ pushSpec maxD cap L c) :
    a ∈ L ∨ (a = c ∧ c.2 < maxD) := by
  unfold pushSpec at h; split at h
  · have := (insAfter_perm Prod.snd c L).mem_iff.1 (List.mem_of_mem_take h)
    rcases List.mem_cons.1 this with e | e
    · exact Or.inr ⟨e, by assumption⟩
    · exact Or.inl e
  · exact Or.inl h

/-- One push refines `pushSpec`, never faulting. -/
theorem push_holds {maxD : D} {cap ti td} {r : KnnResult D} {L} (h : Holds maxD cap ti td r L)
    (tr : Nat → Nat) (i : Nat) (d : D) :
    ∃ r', r.push tr i d = .ok r' ∧ Holds maxD cap ti td r' (pushSpec maxD cap L (tr i, d)) := by
  unfold KnnResult.push
  rw [h.worst]
  simp only [bind, Except.bind, pure, Except.pure]
  by_cases hw : worstOf maxD cap L ≤ d
  · rw [if_pos hw]
    exact ⟨r, rfl, by rw [pushSpec_of_worst_le h (tr i, d) hw]; exact h⟩
  · rw [if_neg hw]
    have hlt : d < worstOf maxD cap L := not_le.1 hw
    have hdmax : d < maxD := by
      unfold worstOf at hlt; split_ifs at hlt with hL
      · exact hlt.trans (h.lt _ (List.getLast_mem _))
      · exact hlt
    -- the list obtained by the general insertion
    have hspec : pushSpec maxD cap L (tr i, d) = (insAfter Prod.snd (tr i, d) L).take cap := if_pos hdmax
    have hlen' : (pushSpec maxD cap L (tr i, d)).length = min (L.length + 1) cap := by
      rw [hspec, List.length_take, (insAfter_perm _ _ _).length_eq, List.length_cons, Nat.min_comm]
    have hltall : ∀ c ∈ pushSpec maxD cap L (tr i, d), c.2 < maxD := by
      intro c hc
      rcases mem_pushSpec hc with e | ⟨e, e'⟩
      · exact h.lt c e
      · rw [e]; exact e'
    have key : ∃ A y t z t', r.indices = A.map Prod.fst ++ y :: (t ++ ti) ∧
        r.distances = A.map Prod.snd ++ z :: (t' ++ td) ∧ A.length = min r.numFound (r.bufferSize - 1) ∧
        A.Pairwise (fun a b => a.2 ≤ b.2) ∧
        insAfter Prod.snd (tr i, d) A = pushSpec maxD cap L (tr i, d) ∧
        t = List.replicate (cap - (pushSpec maxD cap L (tr i, d)).length) INVALID ∧
        t' = List.replicate (cap - (pushSpec maxD cap L (tr i, d)).length) maxD := by
      rcases Nat.lt_or_ge L.length cap with hl | hl
      · refine ⟨L, INVALID, List.replicate (cap - L.length - 1) INVALID, maxD, List.replicate (cap - L.length - 1) maxD,
          ?_, ?_, ?_, h.sorted, ?_, ?_, ?_⟩
        · rw [h.ind]
          have : cap - L.length = (cap - L.length - 1) + 1 := by omega
          rw [this, List.replicate_succ]; simp
        · rw [h.dis]
          have : cap - L.length = (cap - L.length - 1) + 1 := by omega
          rw [this, List.replicate_succ]; simp
        · rw [h.found, h.size]; omega
        · rw [hspec, List.take_of_length_le]
          rw [(insAfter_perm _ _ _).length_eq, List.length_cons]; omega
        · rw [hlen']; congr 1; omega
        · rw [hlen']; congr 1; omega
      · have hlen : L.length = cap := le_antisymm h.len hl
        have hne : L ≠ [] := by
          intro h0; rw [h0] at hlen; have := h.pos; simp at hlen; omega
        have hlast : d < (L.getLast hne).2 := by
          unfold worstOf at hlt; rw [dif_pos ⟨hlen, hne⟩] at hlt; exact hlt
        obtain ⟨A, a, rfl⟩ : ∃ A a, L = A ++ [a] := ⟨L.dropLast, L.getLast hne, (List.dropLast_append_getLast hne).symm⟩
        rw [List.getLast_append_singleton] at hlast
        have hAl : A.length + 1 = cap := by simpa using hlen
        refine ⟨A, a.1, [], a.2, [], ?_, ?_, ?_, (List.pairwise_append.1 h.sorted).1, ?_, ?_, ?_⟩
        · rw [h.ind, hlen, Nat.sub_self]; simp
        · rw [h.dis, hlen, Nat.sub_self]; simp
        · rw [h.found, h.size]; simp only [List.length_append, List.length_cons, List.length_nil]; omega
        · rw [hspec, insAfter_append _ _ _ h.sorted, if_pos hlast, List.take_append_of_le_length, List.take_of_length_le]
          · rw [(insAfter_perm _ _ _).length_eq, List.length_cons]; omega
          · rw [(insAfter_perm _ _ _).length_eq, List.length_cons]; omega
        · rw [hlen']; simp; omega
        · rw [hlen']; simp; omega
    obtain ⟨A, y, t, z, t', hi, hd, hA, hAs, hins, ht, ht'⟩ := key
    have hfound : min (r.numFound + 1) r.bufferSize = (pushSpec maxD cap L (tr i, d)).length := by
      rw [h.found, h.size, hlen']
    have fin : ∀ r' : KnnResult D, r'.N = r.N → r'.capacity = r.capacity →
        r'.numFound = min (r.numFound + 1) r.bufferSize →
        r'.indices = (insAfter Prod.snd (tr i, d) A).map Prod.fst ++ (t ++ ti) →
        r'.distances = (insAfter Prod.snd (tr i, d) A).map Prod.snd ++ (t' ++ td) →
        Holds maxD cap ti td r' (pushSpec maxD cap L (tr i, d)) := by
      intro r' hN hc hn hind hdis
      refine ⟨?_, h.pos, pushSpec_length_le _ _ _ _ h.len, ?_, ?_, ?_, pushSpec_sorted _ _ _ _ h.sorted, hltall⟩
      · rw [← h.size]; unfold KnnResult.bufferSize; rw [hN, hc]
      · rw [hn, hfound]
      · rw [hind, hins, ht]
      · rw [hdis, hins, ht']
    by_cases hN : r.N = 1
    · rw [if_pos hN]
      have hcap : cap = 1 := by rw [← h.size]; unfold KnnResult.bufferSize; rw [hN]; rfl
      have hA0 : A = [] := by
        have : A.length = 0 := by rw [hA, h.size, hcap]; simp
        exact List.length_eq_zero_iff.1 this
      subst hA0
      have ei : wr r.indices 0 (tr i) = .ok (tr i :: (t ++ ti)) := by rw [hi]; simp [wr]
      have ed : wr r.distances 0 d = .ok (d :: (t' ++ td)) := by rw [hd]; simp [wr]
      simp only [ei, ed]
      exact ⟨_, rfl, fin _ rfl rfl rfl (by simp [insAfter]) (by simp [insAfter])⟩
    · rw [if_neg hN]
      have hsw := shift_write d (tr i) A hAs y (t ++ ti) z (t' ++ td)
      rw [← hi, ← hd, hA] at hsw
      simp only [bind, Except.bind, pure, Except.pure] at hsw
      revert hsw
      generalize shiftLoop d (min r.numFound (r.bufferSize - 1)) r.indices r.distances = sl
      intro hsw
      rcases sl with e | ⟨si, sd, sl⟩
      · simp at hsw
      · simp only at hsw ⊢
        rcases hw1 : wr si sl (tr i) with e | wi
        · rw [hw1] at hsw; simp at hsw
        · rw [hw1] at hsw
          simp only at hsw ⊢
          rcases hw2 : wr sd sl d with e | wd
          · rw [hw2] at hsw; simp at hsw
          · rw [hw2] at hsw
            simp only [Except.ok.injEq, Prod.mk.injEq] at hsw ⊢
            exact ⟨_, rfl, fin _ rfl rfl rfl hsw.1 hsw.2⟩

theorem pushAll_holds {maxD : D} {cap ti td} (tr : Nat → Nat) : ∀ (cs : List (Nat × D)) {r : KnnResult D} {L},
    Holds maxD cap ti td r L →
    ∃ r', r.pushAll tr cs = .ok r' ∧
      Holds maxD cap ti td r' ((cs.map (fun c => (tr c.1, c.2))).foldl (pushSpec maxD cap) L)
  | [], r, L, h => ⟨r, rfl, h⟩
  | c :: cs, r, L, h => by
    obtain ⟨r1, h1, h2⟩ := push_holds h tr c.1 c.2
    obtain ⟨r2, h3, h4⟩ := pushAll_holds tr cs h2
    refine ⟨r2, ?_, h4⟩
    unfold KnnResult.pushAll
    rw [h1]; exact h3

/-- Folding `pushSpec` yields the first `k` of the stable sort. -/
theorem foldl_pushSpec (maxD : D) (k : Nat) (cs : List (Nat × D)) :
    cs.foldl (pushSpec maxD k) [] = Spec.kBest maxD k cs := by
  induction cs using List.reverseRecOn with
  | nil => simp [Spec.kBest]
  | append_singleton cs c ih =>
    rw [List.foldl_append, List.foldl_cons, List.foldl_nil, ih]
    unfold Spec.kBest pushSpec
    rw [List.filter_append]
    by_cases hc : c.2 < maxD
    · simp only [hc, if_true, List.filter_cons, decide_true, List.filter_nil]
      rw [take_insAfter_take, ← mergeSort_append_singleton Prod.snd]
    · simp [hc]

/-- The constructor yields an empty buffer. -/
theorem construct_holds (maxD : D) (N : Int) (indices : List Nat) (distances : List D) (nn : Int) (cap : Nat)
    (hcap : cap = if 0 < N then N.toNat else nn.toNat) (hpos : 0 < cap) (hnn : 0 < N → nn < 0)
    (hi : cap ≤ indices.length) (hd : cap ≤ distances.length) :
    ∃ r, construct maxD N indices distances nn = .ok r ∧
      Holds maxD cap (indices.drop cap) (distances.drop cap) r [] := by
  have h1 : ¬ (0 < N ∧ 0 ≤ nn) := by rintro ⟨a, b⟩; have := hnn a; omega
  have h2 : ¬ (¬ 0 < N ∧ nn ≤ 0) := by
    rintro ⟨a, b⟩; rw [if_neg a] at hcap; omega
  refine ⟨⟨N, nn, 0, List.replicate cap INVALID ++ indices.drop cap, List.replicate cap maxD ++ distances.drop cap⟩, ?_, ?_⟩
  · unfold construct fill
    rw [if_neg h1, if_neg h2]
    simp only [← hcap]
    rw [if_pos hi, if_pos hd]
    rfl
  · refine ⟨?_, hpos, by simp, rfl, by simp, by simp, List.Pairwise.nil, by simp⟩
    unfold KnnResult.bufferSize; exact hcap.symm

end Verif.Proofs
