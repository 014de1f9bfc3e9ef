import Verif.Props.NanSource
import Verif.Props.RegistrationAnyArith
import Verif.Proofs.KnnResult

/-!
C101: k-nearest-neighbour search on a kd-tree in any arithmetic.
-/

set_option linter.unusedSectionVars false
set_option linter.unusedSimpArgs false
set_option linter.unnecessarySeqFocus false

namespace Verif.Spec

open Verif Verif.Knn Verif.KdTree

variable {D : Type} [LT D]

/-- What a search for `k` neighbours of `q` leaves in the arrays of the caller, whatever the arithmetic: the neighbours `L`, then the values the arrays were filled with, then what was there before.
FoundNeighbours are different points of the cloud with the distances computed for them. -/
structure FoundNeighbours (o : Ops D) (maxD : D) (points : List (Pt D)) (q : Pt D) (k : Nat) (before : List Nat × List D) (after : List Nat × List D) (L : List (Nat × D)) : Prop where
  count : L.length ≤ k
  indices : after.1 = L.map Prod.fst ++ (List.replicate (k - L.length) INVALID ++ before.1.drop k)
  distances : after.2 = L.map Prod.snd ++ (List.replicate (k - L.length) maxD ++ before.2.drop k)
  different : (L.map Prod.fst).Nodup
  genuine : ∀ c ∈ L, ∃ p, points[c.1]? = some p ∧ c.2 = Pt.sqDist o p q
  /-- no neighbour is followed by one that compares as closer, if no two numbers compare as less than each other -/
  ordered : (∀ a b : D, a < b → ¬ b < a) → (L.map Prod.snd).IsChain (fun a b => ¬ b < a)

/-- No number met by the search is too large or unordered: every distance is below the initial worst distance, and so is the squared distance to every plane of the directions `Q` through a point. -/
structure SearchInRange [LE D] (o : Ops D) (maxD : D) (points : List (Pt D)) (Q : Proj D → Prop) (q : Pt D) : Prop where
  distances : ∀ p ∈ points, ¬ maxD ≤ Pt.sqDist o p q
  planes : ∀ proj, Q proj → ∀ p ∈ points, o.mul (o.sub (proj.eval o q) (proj.eval o p)) (o.sub (proj.eval o q) (proj.eval o p)) < maxD

end Verif.Spec

namespace Verif.Props

open Verif Verif.Knn Verif.KdTree Verif.Proofs Verif.Spec

variable {D : Type} [LT D] [LE D] [DecidableLT D] [DecidableLE D]

/-- The loop of `push` finds a place, and what it shifts aside compares as greater. -/
theorem shift_any (d : D) (i : Nat) (A : List (Nat × D)) : ∃ A1 A2, A = A1 ++ A2 ∧ (∀ c ∈ A2, d < c.2) ∧ (∀ c, A1.getLast? = some c → ¬ d < c.2) ∧
    ∀ (y : Nat) (ti : List Nat) (z : D) (td : List D),
    (do
      let (ind, dis, loc) ← shiftLoop d A.length (A.map Prod.fst ++ y :: ti) (A.map Prod.snd ++ z :: td)
      let ind ← wr ind loc i
      let dis ← wr dis loc d
      pure (ind, dis) : Res (List Nat × List D))
    = .ok ((A1 ++ (i, d) :: A2).map Prod.fst ++ ti, (A1 ++ (i, d) :: A2).map Prod.snd ++ td) := by
  induction A using List.reverseRecOn with
  | nil =>
    refine ⟨[], [], rfl, by simp, by simp, ?_⟩
    intro y ti z td
    simp [shiftLoop, wr, bind, Except.bind, pure, Except.pure]
  | append_singleton A a ih =>
    obtain ⟨A1, A2, hA, h1, h2, h3⟩ := ih
    have e1 : ∀ (v : D) t, rd (A.map Prod.snd ++ v :: t) A.length = .ok v := by
      intro v t; simpa using rd_append (A.map Prod.snd) v t
    have e2 : ∀ (v : Nat) t, rd (A.map Prod.fst ++ v :: t) A.length = .ok v := by
      intro v t; simpa using rd_append (A.map Prod.fst) v t
    have e3 : ∀ (u v w : D) t, wr (A.map Prod.snd ++ u :: v :: t) (A.length + 1) w = .ok (A.map Prod.snd ++ u :: w :: t) := by
      intro u v w t; simpa using wr_append (A.map Prod.snd ++ [u]) v w t
    have e4 : ∀ (u v w : Nat) t, wr (A.map Prod.fst ++ u :: v :: t) (A.length + 1) w = .ok (A.map Prod.fst ++ u :: w :: t) := by
      intro u v w t; simpa using wr_append (A.map Prod.fst ++ [u]) v w t
    by_cases hd : d < a.2
    · refine ⟨A1, A2 ++ [a], by rw [hA]; simp, ?_, h2, ?_⟩
      · intro c hc
        rcases List.mem_append.1 hc with h | h
        · exact h1 c h
        · rw [List.mem_singleton.1 h]; exact hd
      · intro y ti z td
        simp only [List.length_append, List.length_cons, List.length_nil, Nat.zero_add, List.map_append, List.map_cons, List.map_nil, List.append_assoc, List.cons_append, List.nil_append]
        rw [shiftLoop, e1]
        simp only [bind, Except.bind, hd, if_true, e2, e4, e3]
        have := h3 a.1 (a.1 :: ti) a.2 (a.2 :: td)
        simp only [bind, Except.bind] at this
        rw [this]
        simp
    · refine ⟨A ++ [a], [], by simp, by simp, by simpa using hd, ?_⟩
      intro y ti z td
      simp only [List.length_append, List.length_cons, List.length_nil, Nat.zero_add, List.map_append, List.map_cons, List.map_nil, List.append_assoc, List.cons_append, List.nil_append]
      rw [shiftLoop, e1]
      simp only [bind, Except.bind, hd, if_false, e3, e4, pure, Except.pure]

/-- The container holds `L`. -/
structure HoldsAny (maxD : D) (cap : Nat) (ti : List Nat) (td : List D) (r : KnnResult D) (L : List (Nat × D)) : Prop where
  size : r.bufferSize = cap
  pos : 0 < cap
  len : L.length ≤ cap
  found : r.numFound = L.length
  ind : r.indices = L.map Prod.fst ++ (List.replicate (cap - L.length) INVALID ++ ti)
  dis : r.distances = L.map Prod.snd ++ (List.replicate (cap - L.length) maxD ++ td)
  ordered : (∀ a b : D, a < b → ¬ b < a) → (L.map Prod.snd).IsChain (fun a b => ¬ b < a)

theorem HoldsAny.worst {maxD : D} {cap ti td} {r : KnnResult D} {L} (h : HoldsAny maxD cap ti td r L) : ∃ w, r.worstDistance = .ok w ∧ (L.length < cap → w = maxD) := by
  unfold KnnResult.worstDistance
  rw [h.size, h.dis]
  have hp := h.pos
  have hl := h.len
  have hlen : cap - 1 < (L.map Prod.snd ++ (List.replicate (cap - L.length) maxD ++ td)).length := by simp; omega
  refine ⟨_, rd_of_getElem? (List.getElem?_eq_getElem hlen), ?_⟩
  intro hlt
  rw [List.getElem_append_right (by simp; omega), List.getElem_append_left (by simp; omega)]
  simp

/-- One candidate: either nothing happens, or it is inserted and the last one may fall out. -/
theorem push_any {maxD : D} {cap ti td} {r : KnnResult D} {L} (h : HoldsAny maxD cap ti td r L) (i : Nat) (d : D) :
    ∃ r' L', r.push id i d = .ok r' ∧ HoldsAny maxD cap ti td r' L' ∧ L'.length ≥ L.length ∧ (L.length < cap → ¬ maxD ≤ d → L'.length = L.length + 1) ∧
      ∃ drop, (L' ++ drop).Perm ((i, d) :: L) ∨ L' = L := by
  obtain ⟨w, hw, hwm⟩ := h.worst
  unfold KnnResult.push
  rw [hw]
  simp only [bind, Except.bind, pure, Except.pure, id]
  by_cases hle : w ≤ d
  · rw [if_pos hle]
    refine ⟨r, L, rfl, h, le_refl _, ?_, [], .inr rfl⟩
    intro hl hm
    rw [hwm hl] at hle
    exact absurd hle hm
  rw [if_neg hle]
  have hp := h.pos
  have hl := h.len
  -- what stays besides the new candidate
  obtain ⟨A, y, z, s, hi, hd, hAl, hAL⟩ : ∃ A y z, ∃ s : Nat, r.indices = A.map Prod.fst ++ y :: (List.replicate s INVALID ++ ti) ∧ r.distances = A.map Prod.snd ++ z :: (List.replicate s maxD ++ td) ∧
      (A.length = min r.numFound (r.bufferSize - 1) ∧ s = cap - (A.length + 1) ∧ A.length + 1 = min (L.length + 1) cap) ∧ ∃ drop, L = A ++ drop := by
    rcases Nat.lt_or_ge L.length cap with hlt | hge
    · refine ⟨L, INVALID, maxD, cap - (L.length + 1), ?_, ?_, ⟨by rw [h.found, h.size]; omega, rfl, by omega⟩, [], by simp⟩
      · rw [h.ind]
        have : cap - L.length = (cap - (L.length + 1)) + 1 := by omega
        rw [this, List.replicate_succ]; simp
      · rw [h.dis]
        have : cap - L.length = (cap - (L.length + 1)) + 1 := by omega
        rw [this, List.replicate_succ]; simp
    · have hlen : L.length = cap := le_antisymm h.len hge
      have hne : L ≠ [] := by rintro rfl; simp at hlen; omega
      obtain ⟨A, a, rfl⟩ : ∃ A a, L = A ++ [a] := ⟨L.dropLast, L.getLast hne, (List.dropLast_append_getLast hne).symm⟩
      simp only [List.length_append, List.length_cons, List.length_nil] at hlen
      refine ⟨A, a.1, a.2, 0, ?_, ?_, ⟨by rw [h.found, h.size]; simp; omega, by omega, by simp; omega⟩, [a], rfl⟩
      · rw [h.ind]; simp [hlen]
      · rw [h.dis]; simp [hlen]
  obtain ⟨drop, hL⟩ := hAL
  obtain ⟨A1, A2, hA, g1, g2, g3⟩ := shift_any d i A
  have hperm : ((A1 ++ (i, d) :: A2) ++ drop).Perm ((i, d) :: L) := by
    rw [hL, hA]
    have : (A1 ++ (i, d) :: A2).Perm ((i, d) :: (A1 ++ A2)) := List.perm_middle
    exact this.append_right drop
  have hlen' : (A1 ++ (i, d) :: A2).length = A.length + 1 := by rw [hA]; simp; omega
  have hord : (∀ a b : D, a < b → ¬ b < a) → ((A1 ++ (i, d) :: A2).map Prod.snd).IsChain (fun a b => ¬ b < a) := by
    intro has
    have hc := h.ordered has
    rw [hL, hA, List.map_append, List.map_append, List.append_assoc] at hc
    have hc1 := (List.isChain_append.1 hc).1
    have hc2 := (List.isChain_append.1 (List.isChain_append.1 hc).2.1).1
    rw [List.map_append, List.map_cons, List.isChain_append]
    refine ⟨hc1, ?_, ?_⟩
    · rw [List.isChain_cons]
      refine ⟨?_, hc2⟩
      intro b hb
      cases A2 with
      | nil => simp at hb
      | cons c A2 =>
        simp only [List.map_cons, List.head?_cons, Option.mem_some_iff] at hb
        rw [← hb]
        exact has _ _ (g1 c (by simp))
    · intro a ha b hb
      simp only [List.head?_cons, Option.mem_some_iff] at hb
      rw [List.getLast?_map, Option.mem_def, Option.map_eq_some_iff] at ha
      obtain ⟨c, hc, rfl⟩ := ha
      rw [← hb]
      exact g2 c hc
  have fin : ∀ r' : KnnResult D, r'.N = r.N → r'.capacity = r.capacity → r'.numFound = min (r.numFound + 1) r.bufferSize →
      r'.indices = (A1 ++ (i, d) :: A2).map Prod.fst ++ (List.replicate s INVALID ++ ti) → r'.distances = (A1 ++ (i, d) :: A2).map Prod.snd ++ (List.replicate s maxD ++ td) →
      HoldsAny maxD cap ti td r' (A1 ++ (i, d) :: A2) := by
    intro r' hN hc hn hind hdis
    refine ⟨?_, hp, by rw [hlen']; omega, ?_, ?_, ?_, hord⟩
    · rw [← h.size]; unfold KnnResult.bufferSize; rw [hN, hc]
    · rw [hn, h.found, h.size, hlen']; omega
    · rw [hind, hlen', hAl.2.1]
    · rw [hdis, hlen', hAl.2.1]
  have hout : (A1 ++ (i, d) :: A2).length ≥ L.length ∧ (L.length < cap → ¬ maxD ≤ d → (A1 ++ (i, d) :: A2).length = L.length + 1) := by
    rw [hlen']
    exact ⟨by omega, fun _ _ => by omega⟩
  by_cases hN : r.N = 1
  · rw [if_pos hN]
    have hcap : cap = 1 := by rw [← h.size]; unfold KnnResult.bufferSize; rw [hN]; rfl
    have hA0 : A = [] := List.length_eq_zero_iff.1 (by omega)
    have h12 : A1 = [] ∧ A2 = [] := by rw [hA0] at hA; exact List.append_eq_nil_iff.1 hA.symm
    have ei : wr r.indices 0 i = .ok (i :: (List.replicate s INVALID ++ ti)) := by rw [hi, hA0]; simp [wr]
    have ed : wr r.distances 0 d = .ok (d :: (List.replicate s maxD ++ td)) := by rw [hd, hA0]; simp [wr]
    simp only [ei, ed]
    exact ⟨_, A1 ++ (i, d) :: A2, rfl, fin _ rfl rfl rfl (by rw [h12.1, h12.2]; rfl) (by rw [h12.1, h12.2]; rfl), hout.1, hout.2, drop, .inl hperm⟩
  · rw [if_neg hN]
    have hsw := g3 y (List.replicate s INVALID ++ ti) z (List.replicate s maxD ++ td)
    rw [← hi, ← hd, hAl.1] at hsw
    simp only [bind, Except.bind, pure, Except.pure] at hsw
    revert hsw
    generalize shiftLoop d (min r.numFound (r.bufferSize - 1)) r.indices r.distances = sl
    intro hsw
    rcases sl with e | ⟨si, sd, sl⟩
    · simp at hsw
    · simp only at hsw ⊢
      rcases hw1 : wr si sl i with e | wi
      · rw [hw1] at hsw; simp at hsw
      · rw [hw1] at hsw
        simp only at hsw ⊢
        rcases hw2 : wr sd sl d with e | wd
        · rw [hw2] at hsw; simp at hsw
        · rw [hw2] at hsw
          simp only [Except.ok.injEq, Prod.mk.injEq] at hsw ⊢
          exact ⟨_, A1 ++ (i, d) :: A2, rfl, fin _ rfl rfl rfl hsw.1 hsw.2, hout.1, hout.2, drop, .inl hperm⟩

/-- Kept candidates: different indices of points, with their distances. -/
structure Kept (o : Ops D) (points : List (Pt D)) (q : Pt D) (L : List (Nat × D)) : Prop where
  different : (L.map Prod.fst).Nodup
  genuine : ∀ c ∈ L, ∃ p, points[c.1]? = some p ∧ c.2 = Pt.sqDist o p q

theorem kept_push {o : Ops D} {points : List (Pt D)} {q : Pt D} {L L' : List (Nat × D)} (h : Kept o points q L) {i : Nat} {p : Pt D} (hp : points[i]? = some p) (hi : ∀ c ∈ L, c.1 ≠ i)
    (hL : ∃ drop, (L' ++ drop).Perm ((i, Pt.sqDist o p q) :: L) ∨ L' = L) : Kept o points q L' ∧ ∀ c ∈ L', c ∈ L ∨ c.1 = i := by
  obtain ⟨drop, hL | rfl⟩ := hL
  · have hmem : ∀ c ∈ L', c = (i, Pt.sqDist o p q) ∨ c ∈ L := fun c hc => List.mem_cons.1 (hL.mem_iff.1 (List.mem_append_left _ hc))
    refine ⟨⟨?_, ?_⟩, ?_⟩
    · have h1 : ((i :: L.map Prod.fst)).Nodup := List.nodup_cons.2 ⟨fun hm => by
        obtain ⟨c, hc, e⟩ := List.mem_map.1 hm
        exact hi c hc e, h.different⟩
      have h2 := (hL.map Prod.fst).nodup_iff.2 h1
      rw [List.map_append] at h2
      exact (List.nodup_append.1 h2).1
    · intro c hc
      rcases hmem c hc with rfl | hm
      · exact ⟨p, hp, rfl⟩
      · exact h.genuine c hm
    · intro c hc
      rcases hmem c hc with rfl | hm
      · exact .inr rfl
      · exact .inl hm
  · exact ⟨h, fun c hc => .inl hc⟩

theorem leafLoop_any (o : Ops D) (points : List (Pt D)) (indices : List Nat) (q : Pt D) {maxD : D} {cap ti td} :
    ∀ (cnt i : Nat) {r : KnnResult D} {L}, HoldsAny maxD cap ti td r L → Kept o points q L → i + cnt ≤ indices.length → (∀ j ∈ slice indices i (i + cnt), j < points.length) →
      (slice indices i (i + cnt)).Nodup → (∀ c ∈ L, c.1 ∉ slice indices i (i + cnt)) →
    ∃ r' L', leafLoop o points indices q cnt i r = .ok r' ∧ HoldsAny maxD cap ti td r' L' ∧ Kept o points q L' ∧ (∀ c ∈ L', c ∈ L ∨ c.1 ∈ slice indices i (i + cnt)) ∧ L.length ≤ L'.length ∧
      ((∀ p ∈ points, ¬ maxD ≤ Pt.sqDist o p q) → min cap (L.length + cnt) ≤ L'.length)
  | 0, i, r, L, h, hk, _, _, _, _ => ⟨r, L, rfl, h, hk, fun _ hc => .inl hc, le_refl _, fun _ => by simp⟩
  | cnt + 1, i, r, L, h, hk, hlen, hv, hnd, hnew => by
    have hi : i < indices.length := by omega
    have hsl : slice indices i (i + (cnt + 1)) = indices[i] :: slice indices (i + 1) (i + 1 + cnt) := by
      unfold slice
      rw [List.drop_eq_getElem_cons hi]
      have e1 : i + (cnt + 1) - i = cnt + 1 := by omega
      have e2 : i + 1 + cnt - (i + 1) = cnt := by omega
      rw [e1, e2, List.take_succ_cons]
    rw [hsl] at hv hnd hnew ⊢
    have hp : indices[i] < points.length := hv _ (by simp)
    obtain ⟨hnd1, hnd2⟩ := List.nodup_cons.1 hnd
    obtain ⟨r1, L1, h1, h2, hle, hgrow, hL⟩ := push_any h indices[i] (Pt.sqDist o points[indices[i]] q)
    obtain ⟨hk1, hm1⟩ := kept_push hk (List.getElem?_eq_getElem hp) (fun c hc e => hnew c hc (by simp [e])) hL
    obtain ⟨r2, L2, h3, h4, h5, h6, h7, h8⟩ := leafLoop_any o points indices q cnt (i + 1) h2 hk1 (by omega) (fun j hj => hv j (by simp [hj])) hnd2 (fun c hc hin => by
      rcases hm1 c hc with hc' | hc'
      · exact hnew c hc' (by simp [hin])
      · rw [hc'] at hin; exact hnd1 hin)
    refine ⟨r2, L2, ?_, h4, h5, ?_, hle.trans h7, ?_⟩
    · unfold leafLoop
      rw [rd_of_getElem? (List.getElem?_eq_getElem hi)]
      simp only [bind, Except.bind]
      rw [rd_of_getElem? (List.getElem?_eq_getElem hp)]
      simp only
      rw [h1]; exact h3
    · intro c hc
      rcases h6 c hc with hc' | hc'
      · rcases hm1 c hc' with hc'' | hc''
        · exact .inl hc''
        · exact .inr (by simp [hc''])
      · exact .inr (by simp [hc'])
    · intro hfin
      have := h8 hfin
      rcases Nat.lt_or_ge L.length cap with hlt | hge
      · have := hgrow hlt (hfin _ (List.getElem_mem hp))
        omega
      · have := h.len
        omega

theorem searchNode_any (o : Ops D) (points : List (Pt D)) (t : KdTree.Tree D) (q : Pt D) (eps : D) {Q : Proj D → Prop} {maxD : D} {cap ti td} {i : Nat} {kt : KT D}
    (hrep : Represents t.nodes t.indices i kt) :
    ∀ (fuel : Nat), kt.depth < fuel → (∀ j ∈ kt.items, j < points.length) → kt.items.Nodup → Splits Q o points kt → ∀ (r : KnnResult D) L, HoldsAny maxD cap ti td r L → Kept o points q L →
      (∀ c ∈ L, c.1 ∉ kt.items) →
    ∃ go r' L', searchNode o points t q eps fuel i r = .ok (go, r') ∧ HoldsAny maxD cap ti td r' L' ∧ Kept o points q L' ∧ (∀ c ∈ L', c ∈ L ∨ c.1 ∈ kt.items) ∧
      (SearchInRange o maxD points Q q → ¬ maxD < eps → min cap (L.length + kt.items.length) ≤ L'.length ∧ (go = false → L'.length = cap)) := by
  induction hrep with
  | leaf i first last hr hle hlen =>
    intro fuel hf hv hnd hsp r L h hk hnew
    cases fuel with
    | zero => omega
    | succ fuel =>
      have e : first + (last - first) = last := by omega
      obtain ⟨r', L', h1, h2, h3, h4, -, h5⟩ := leafLoop_any o points t.indices q (last - first) first h hk (by omega) (by rw [e]; exact hv) (by rw [e]; exact hnd) (by rw [e]; exact hnew)
      obtain ⟨w, hw, hwm⟩ := h2.worst
      refine ⟨!decide (w < eps), r', L', ?_, h2, h3, by rw [e] at h4; exact h4, ?_⟩
      · unfold searchNode
        rw [rd_of_getElem? hr]
        simp only [bind, Except.bind, pure, Except.pure, if_true]
        rw [h1]
        simp only [fulfilled, bind, Except.bind, pure, Except.pure]
        rw [hw]
      · intro hin heps
        refine ⟨?_, ?_⟩
        · have := h5 hin.distances
          have e2 : (KT.leaf (slice t.indices first last) : KT D).items.length = last - first := by
            simp only [KT.items, slice, List.length_take, List.length_drop]; omega
          rw [e2]; exact this
        · intro hgo
          have hlt : w < eps := by simpa using hgo
          by_contra hne
          have := h2.len
          rw [hwm (by omega)] at hlt
          exact heps hlt
  | node i l r proj th tl tr hn hl hl' hr' ihl ihr =>
    intro fuel hf hv hnd hsp r0 L h hk hnew
    cases fuel with
    | zero => omega
    | succ fuel =>
      simp only [KT.depth] at hf
      simp only [KT.items] at hv hnd hnew ⊢
      obtain ⟨hnl, hnr, hdis⟩ := List.nodup_append.1 hnd
      obtain ⟨⟨hQ, p0, hp0, hth⟩, hspl, hspr⟩ := hsp
      have Hl := ihl fuel (by omega) (fun j hj => hv j (by simp [hj])) hnl hspl
      have Hr := ihr fuel (by omega) (fun j hj => hv j (by simp [hj])) hnr hspr
      have hbind : ∀ {α β : Type} (x : α) (f : α → Res β), Except.bind (.ok x) f = f x := fun _ _ => rfl
      -- best first, then the other
      have both : ∀ (a b : KT D) (ia ib : Nat), (∀ x ∈ a.items, x ∉ b.items) → (∀ c ∈ L, c.1 ∉ a.items) → (∀ c ∈ L, c.1 ∉ b.items) →
          (∀ (r : KnnResult D) L, HoldsAny maxD cap ti td r L → Kept o points q L → (∀ c ∈ L, c.1 ∉ a.items) →
            ∃ go r' L', searchNode o points t q eps fuel ia r = .ok (go, r') ∧ HoldsAny maxD cap ti td r' L' ∧ Kept o points q L' ∧ (∀ c ∈ L', c ∈ L ∨ c.1 ∈ a.items) ∧
              (SearchInRange o maxD points Q q → ¬ maxD < eps → min cap (L.length + a.items.length) ≤ L'.length ∧ (go = false → L'.length = cap))) →
          (∀ (r : KnnResult D) L, HoldsAny maxD cap ti td r L → Kept o points q L → (∀ c ∈ L, c.1 ∉ b.items) →
            ∃ go r' L', searchNode o points t q eps fuel ib r = .ok (go, r') ∧ HoldsAny maxD cap ti td r' L' ∧ Kept o points q L' ∧ (∀ c ∈ L', c ∈ L ∨ c.1 ∈ b.items) ∧
              (SearchInRange o maxD points Q q → ¬ maxD < eps → min cap (L.length + b.items.length) ≤ L'.length ∧ (go = false → L'.length = cap))) →
          ∃ go r' L', Except.bind (searchNode o points t q eps fuel ia r0) (fun v => if v.1 = false then .ok (false, v.2) else
                Except.bind v.2.worstDistance (fun w => if o.mul (o.sub (proj.eval o q) th) (o.sub (proj.eval o q) th) < w then searchNode o points t q eps fuel ib v.2 else .ok (true, v.2))) = .ok (go, r') ∧
            HoldsAny maxD cap ti td r' L' ∧ Kept o points q L' ∧ (∀ c ∈ L', c ∈ L ∨ c.1 ∈ a.items ∨ c.1 ∈ b.items) ∧
            (SearchInRange o maxD points Q q → ¬ maxD < eps → min cap (L.length + (a.items.length + b.items.length)) ≤ L'.length ∧ (go = false → L'.length = cap)) := by
        intro a b ia ib hab hLa hLb Ha Hb
        obtain ⟨go, r1, L1, h1, h2, h3, h4, h5⟩ := Ha r0 L h hk hLa
        rw [h1, hbind]
        have hl1 := h2.len
        cases go with
        | false =>
          refine ⟨false, r1, L1, rfl, h2, h3, fun c hc => (h4 c hc).imp_right .inl, fun hin he => ?_⟩
          obtain ⟨-, g2⟩ := h5 hin he
          have := g2 rfl
          exact ⟨by omega, fun _ => this⟩
        | true =>
          obtain ⟨w, hw, hwm⟩ := h2.worst
          simp only [hw, Bool.true_eq_false, if_false, hbind]
          by_cases hc : o.mul (o.sub (proj.eval o q) th) (o.sub (proj.eval o q) th) < w
          · rw [if_pos hc]
            obtain ⟨go, r2, L2, k1, k2, k3, k4, k5⟩ := Hb r1 L1 h2 h3 (fun c hc' => by
              rcases h4 c hc' with hm | hm
              · exact hLb c hm
              · exact hab _ hm)
            refine ⟨go, r2, L2, k1, k2, k3, ?_, ?_⟩
            · intro c hc'
              rcases k4 c hc' with hm | hm
              · exact (h4 c hm).imp_right .inl
              · exact .inr (.inr hm)
            · intro hin he
              obtain ⟨g1, -⟩ := h5 hin he
              obtain ⟨g3, g4⟩ := k5 hin he
              exact ⟨by omega, g4⟩
          · rw [if_neg hc]
            refine ⟨true, r1, L1, rfl, h2, h3, fun c hc => (h4 c hc).imp_right .inl, fun hin he => ⟨?_, by simp⟩⟩
            have hfull : L1.length = cap := by
              by_contra hne
              rw [hwm (by omega), hth] at hc
              exact hc (hin.planes proj hQ p0 hp0)
            omega
      have hLl : ∀ c ∈ L, c.1 ∉ tl.items := fun c hc hm => hnew c hc (List.mem_append_left _ hm)
      have hLr : ∀ c ∈ L, c.1 ∉ tr.items := fun c hc hm => hnew c hc (List.mem_append_right _ hm)
      unfold searchNode
      rw [rd_of_getElem? hn]
      simp only [bind, hbind, pure, Except.pure, if_neg hl]
      by_cases hd : o.sub (proj.eval o q) th < o.zero
      · simp only [if_pos hd]
        obtain ⟨go, r', L', k1, k2, k3, k4, k5⟩ := both tl tr l r (fun x hx hx' => hdis x hx x hx' rfl) hLl hLr Hl Hr
        refine ⟨go, r', L', k1, k2, k3, fun c hc => (k4 c hc).imp_right List.mem_append.2, ?_⟩
        simpa only [List.length_append] using k5
      · simp only [if_neg hd]
        obtain ⟨go, r', L', k1, k2, k3, k4, k5⟩ := both tr tl r l (fun x hx hx' => hdis x hx' x hx rfl) hLr hLl Hr Hl
        refine ⟨go, r', L', k1, k2, k3, fun c hc => (k4 c hc).imp_right (fun h => List.mem_append.2 h.symm), ?_⟩
        simpa only [List.length_append, Nat.add_comm tl.items.length] using k5

theorem construct_any (maxD : D) (N : Int) (indices : List Nat) (distances : List D) (nn : Int) (cap : Nat) (hcap : cap = if 0 < N then N.toNat else nn.toNat) (hpos : 0 < cap) (hnn : 0 < N → nn < 0)
    (hi : cap ≤ indices.length) (hd : cap ≤ distances.length) : ∃ r, Knn.construct maxD N indices distances nn = .ok r ∧ HoldsAny maxD cap (indices.drop cap) (distances.drop cap) r [] := by
  have h1 : ¬ (0 < N ∧ 0 ≤ nn) := by rintro ⟨a, b⟩; have := hnn a; omega
  have h2 : ¬ (¬ 0 < N ∧ nn ≤ 0) := by
    rintro ⟨a, b⟩; rw [if_neg a] at hcap; omega
  refine ⟨⟨N, nn, 0, List.replicate cap INVALID ++ indices.drop cap, List.replicate cap maxD ++ distances.drop cap⟩, ?_, ?_⟩
  · unfold Knn.construct fill
    rw [if_neg h1, if_neg h2]
    simp only [← hcap]
    rw [if_pos hi, if_pos hd]
    rfl
  · refine ⟨?_, hpos, by simp, rfl, by simp, by simp, fun _ => by simp⟩
    unfold KnnResult.bufferSize; exact hcap.symm

/-- C101. Building a kd-tree and searching it for `k` neighbours, with `k` known at compile time (`N`) or at run time, in any arithmetic: no fault, no entry of the caller's arrays beyond the first `k` is
touched, and the neighbours are different points of the cloud with their distances. If no number gets out of range there are `k` of them, or all points. -/
theorem C101_knn (o : Ops D) (b : Builder D) {points : List (Pt D)} (hne : points ≠ []) (hN : points.length < 2 ^ 32) (hnth : ∀ l n, (b.nthElement l n).Perm l) {Q : Proj D → Prop}
    (hfind : FindAxisSpec Q b.findAxis) (hm : SafeLeafSize b.maxLeafSize) {fuelB fuel : Nat} (hfB : points.length < fuelB) (hfuel : points.length ≤ fuel) :
    ∃ t, KdTree.construct o b fuelB points = .ok t ∧
      ∀ (maxD : D) (N nn : Int) (k : Nat), k = (if 0 < N then N.toNat else nn.toNat) → 0 < k → (0 < N → nn < 0) → ∀ (ind : List Nat) (dis : List D), k ≤ ind.length → k ≤ dis.length → ∀ (q : Pt D) (eps : D),
        ∃ r, knnSearch o maxD points t fuel N nn ind dis q eps = .ok r ∧ FoundNeighbours o maxD points q k (ind, dis) (r.indices, r.distances) r.found ∧ r.numFound = r.found.length ∧
          (SearchInRange o maxD points Q q → ¬ maxD < eps → r.numFound = min k points.length) := by
  obtain ⟨t, kt, c1, c2, c3, c4, c5, c6, c7, c8⟩ := construct_shape o b points hne hN hnth hfind hm fuelB hfB
  refine ⟨t, c1, ?_⟩
  intro maxD N nn k hk hpos hnn ind dis hi hd q eps
  obtain ⟨r0, h1, h2⟩ := construct_any maxD N ind dis nn k hk hpos hnn hi hd
  obtain ⟨go, r, L, h3, h4, h5, h6, h7⟩ := searchNode_any o points t q eps c3 fuel (by omega) (fun j hj => List.mem_range.1 (c5.mem_iff.1 hj)) (c5.nodup_iff.2 List.nodup_range) c8 r0 [] h2
    ⟨by simp, by simp⟩ (by simp)
  have hfound : r.found = L := by
    unfold KnnResult.found
    rw [h4.found, h4.ind, h4.dis, List.zip_append (by simp), List.take_append_of_le_length (by simp), List.take_of_length_le (by simp)]
    exact (List.zip_of_prod rfl rfl).symm
  refine ⟨r, ?_, ?_, by rw [hfound]; exact h4.found, ?_⟩
  · unfold knnSearch
    simp only [h1, bind, Except.bind, pure, Except.pure, c2, h3]
  · rw [hfound]
    exact ⟨h4.len, h4.ind, h4.dis, h5.different, h5.genuine, h4.ordered⟩
  · intro hin he
    obtain ⟨g1, -⟩ := h7 hin he
    have hl := h4.len
    have hitems : kt.items.length = points.length := by rw [c5.length_eq, List.length_range]
    rw [List.length_nil, hitems] at g1
    have hle : L.length ≤ points.length := by
      have hsub : (L.map Prod.fst) ⊆ List.range points.length := by
        intro x hx
        obtain ⟨c, hc, rfl⟩ := List.mem_map.1 hx
        obtain ⟨p, hp, -⟩ := h5.genuine c hc
        exact List.mem_range.2 (List.getElem?_eq_some_iff.1 hp).1
      have := (List.subperm_of_subset h5.different hsub).length_le
      simpa using this
    rw [h4.found]
    omega

/-! ### examples -/

/-- Five points on a line, one of them NaN; two neighbours, arrays of the caller with four entries. -/
def qnLine : List (Pt QN) := [⟨.num 0, .num 0, .num 0, .num 1⟩, ⟨.nan, .num 0, .num 0, .num 1⟩, ⟨.num 4, .num 0, .num 0, .num 1⟩, ⟨.num 6, .num 0, .num 0, .num 1⟩, ⟨.num 9, .num 0, .num 0, .num 1⟩]

example : ∃ t, KdTree.construct qnOps ⟨3, findAxis qnOps 128, fun l _ => l⟩ 6 qnLine = .ok t ∧
    ∃ r, knnSearch qnOps (.num 1000000) qnLine t 5 (-1) 2 [7, 7, 7, 7] [.nan, .nan, .nan, .nan] ⟨.num 5, .num 0, .num 0, .num 1⟩ (.num 0) = .ok r ∧
      FoundNeighbours qnOps (.num 1000000) qnLine ⟨.num 5, .num 0, .num 0, .num 1⟩ 2 ([7, 7, 7, 7], [.nan, .nan, .nan, .nan]) (r.indices, r.distances) r.found := by
  obtain ⟨t, h1, h2⟩ := C101_knn qnOps ⟨3, findAxis qnOps 128, fun l _ => l⟩ (points := qnLine) (by decide) (by decide) (fun _ _ => List.Perm.refl _)
    (C100_projections (E := qnEval) 128 (by decide) (fun _ => (.nan, .nan, .nan))).1 (by unfold SafeLeafSize toU64; decide) (fuelB := 6) (fuel := 5) (by decide) (by decide)
  obtain ⟨r, h3, h4, -⟩ := h2 (.num 1000000) (-1) 2 2 (by decide) (by decide) (by decide) [7, 7, 7, 7] [.nan, .nan, .nan, .nan] (by decide) (by decide) ⟨.num 5, .num 0, .num 0, .num 1⟩ (.num 0)
  exact ⟨t, h1, r, h3, h4⟩

/-- Without NaN everything is in range, and as many neighbours are found as asked for. -/
example : ∃ t, KdTree.construct (exactOps ℚ) ⟨3, fun _ _ => .ok (.axis .x), fun l _ => l⟩ 5 [⟨0, 0, 0, 1⟩, ⟨4, 0, 0, 1⟩, ⟨6, 0, 0, 1⟩, ⟨9, 0, 0, 1⟩] = .ok t ∧
    ∃ r, knnSearch (exactOps ℚ) 1000000 [⟨0, 0, 0, 1⟩, ⟨4, 0, 0, 1⟩, ⟨6, 0, 0, 1⟩, ⟨9, 0, 0, 1⟩] t 4 3 (-1) [7, 7, 7] [0, 0, 0] ⟨5, 0, 0, 1⟩ 0 = .ok r ∧ r.numFound = 3 := by
  obtain ⟨t, h1, h2⟩ := C101_knn (exactOps ℚ) ⟨3, fun _ _ => .ok (.axis .x), fun l _ => l⟩ (points := [⟨0, 0, 0, 1⟩, ⟨4, 0, 0, 1⟩, ⟨6, 0, 0, 1⟩, ⟨9, 0, 0, 1⟩]) (by decide) (by decide)
    (fun _ _ => List.Perm.refl _) (Q := fun p => p = .axis .x) (fun _ _ _ _ => ⟨_, rfl, rfl⟩) (by unfold SafeLeafSize toU64; decide) (fuelB := 5) (fuel := 4) (by decide) (by decide)
  obtain ⟨r, h3, -, -, h4⟩ := h2 1000000 3 (-1) 3 (by decide) (by decide) (by decide) [7, 7, 7] [0, 0, 0] (by decide) (by decide) ⟨5, 0, 0, 1⟩ 0
  refine ⟨t, h1, r, h3, ?_⟩
  have := h4 ⟨by decide +kernel, by rintro _ rfl; decide +kernel⟩ (by decide +kernel)
  simpa using this

end Verif.Props
