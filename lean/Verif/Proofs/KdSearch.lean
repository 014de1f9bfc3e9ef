import Verif.Proofs.KdBuild
import Mathlib.Algebra.Order.Field.Basic
import Mathlib.Tactic.Ring
import Mathlib.Tactic.LinearCombination

/-!
Search: pruned recursion pushes exactly the candidates that matter.
-/

namespace Verif.Proofs

open Verif Verif.Knn Verif.KdTree

variable {D : Type} [LinearOrder D]

/-- Distance of point `i` to the query (only used for valid `i`). -/
def distTo (o : Ops D) (points : List (Pt D)) (q : Pt D) (i : Nat) : D :=
  match points[i]? with
  | some p => Pt.sqDist o p q
  | none => o.zero

/-- Candidates for a list of point indices. -/
def cands (o : Ops D) (points : List (Pt D)) (q : Pt D) (is : List Nat) : List (Nat × D) :=
  is.map (fun i => (i, distTo o points q i))

/-- Order in which a complete (unpruned) search visits the points. -/
def visit (o : Ops D) (q : Pt D) : KT D → List Nat
  | .leaf is => is
  | .node p th l r =>
    if o.sub (p.eval o q) th < o.zero then visit o q l ++ visit o q r else visit o q r ++ visit o q l

theorem visit_perm (o : Ops D) (q : Pt D) : ∀ t : KT D, (visit o q t).Perm t.items
  | .leaf _ => List.Perm.refl _
  | .node p th l r => by
    unfold visit KT.items
    split
    · exact (visit_perm o q l).append (visit_perm o q r)
    · exact ((visit_perm o q r).append (visit_perm o q l)).trans List.perm_append_comm

/-- Pruning is sound for query `q`: points behind a splitting plane are at least as far as the plane distance. -/
def PruneOK (o : Ops D) (points : List (Pt D)) (q : Pt D) : KT D → Prop
  | .leaf _ => True
  | .node p th l r =>
    (o.sub (p.eval o q) th < o.zero → ∀ i ∈ r.items,
      o.mul (o.sub (p.eval o q) th) (o.sub (p.eval o q) th) ≤ distTo o points q i) ∧
    (¬ o.sub (p.eval o q) th < o.zero → ∀ i ∈ l.items,
      o.mul (o.sub (p.eval o q) th) (o.sub (p.eval o q) th) ≤ distTo o points q i) ∧
    PruneOK o points q l ∧ PruneOK o points q r

theorem foldl_pushSpec_noop {maxD : D} {cap ti td} {r : KnnResult D} {L} (h : Holds maxD cap ti td r L)
    (cs : List (Nat × D)) (hc : ∀ c ∈ cs, worstOf maxD cap L ≤ c.2) : cs.foldl (pushSpec maxD cap) L = L := by
  induction cs with
  | nil => rfl
  | cons c cs ih =>
    rw [List.foldl_cons, pushSpec_of_worst_le h c (hc c (by simp)), ih (fun d hd => hc d (by simp [hd]))]

theorem leafLoop_holds (o : Ops D) (points : List (Pt D)) (indices : List Nat) (q : Pt D) {maxD : D} {cap ti td} :
    ∀ (cnt i : Nat) {r : KnnResult D} {L}, Holds maxD cap ti td r L → i + cnt ≤ indices.length →
    (∀ j ∈ slice indices i (i + cnt), j < points.length) →
    ∃ r', leafLoop o points indices q cnt i r = .ok r' ∧
      Holds maxD cap ti td r' ((cands o points q (slice indices i (i + cnt))).foldl (pushSpec maxD cap) L)
  | 0, i, r, L, h, _, _ => ⟨r, rfl, by simpa [slice, cands] using h⟩
  | cnt + 1, i, r, L, h, hlen, hv => by
    have hi : i < indices.length := by omega
    have hsl : slice indices i (i + (cnt + 1)) = indices[i] :: slice indices (i + 1) (i + 1 + cnt) := by
      unfold slice
      rw [List.drop_eq_getElem_cons hi]
      have e1 : i + (cnt + 1) - i = cnt + 1 := by omega
      have e2 : i + 1 + cnt - (i + 1) = cnt := by omega
      rw [e1, e2, List.take_succ_cons]
    rw [hsl] at hv ⊢
    have hp : indices[i] < points.length := hv _ (by simp)
    have hd : distTo o points q indices[i] = Pt.sqDist o points[indices[i]] q := by
      unfold distTo; rw [List.getElem?_eq_getElem hp]
    obtain ⟨r1, h1, h2⟩ := push_holds h id indices[i] (Pt.sqDist o points[indices[i]] q)
    obtain ⟨r2, h3, h4⟩ := leafLoop_holds o points indices q cnt (i + 1) h2 (by omega)
      (fun j hj => hv j (by simp [hj]))
    refine ⟨r2, ?_, ?_⟩
    · unfold leafLoop
      rw [rd_of_getElem? (List.getElem?_eq_getElem hi)]
      simp only [bind, Except.bind]
      rw [rd_of_getElem? (List.getElem?_eq_getElem hp)]
      simp only
      rw [h1]; exact h3
    · unfold cands at h4 ⊢
      rw [List.map_cons, List.foldl_cons, hd]
      exact h4

/-- Main search lemma. -/
theorem searchNode_holds (o : Ops D) (points : List (Pt D)) (t : KdTree.Tree D) (q : Pt D) (eps : D) {maxD : D} {cap ti td}
    {i : Nat} {kt : KT D} (hrep : Represents t.nodes t.indices i kt) :
    ∀ (fuel : Nat), kt.depth < fuel → (∀ j ∈ kt.items, j < points.length) → PruneOK o points q kt →
    ∀ (r : KnnResult D) (L), Holds maxD cap ti td r L →
    ∃ go r' L', searchNode o points t q eps fuel i r = .ok (go, r') ∧ Holds maxD cap ti td r' L' ∧
      (go = true → L' = (cands o points q (visit o q kt)).foldl (pushSpec maxD cap) L) ∧
      (go = false → worstOf maxD cap L' < eps ∧
        ∃ vis, vis.Sublist (visit o q kt) ∧ L' = (cands o points q vis).foldl (pushSpec maxD cap) L) := by
  induction hrep with
  | leaf i first last hr hle hlen =>
    intro fuel hf hv hp r L h
    cases fuel with
    | zero => omega
    | succ fuel =>
      have e : first + (last - first) = last := by omega
      obtain ⟨r', h1, h2⟩ := leafLoop_holds o points t.indices q (last - first) first h (by omega)
        (by rw [e]; exact hv)
      rw [e] at h2
      refine ⟨!decide (worstOf maxD cap ((cands o points q (slice t.indices first last)).foldl (pushSpec maxD cap) L) < eps),
        r', _, ?_, h2, fun _ => rfl, ?_⟩
      · unfold searchNode
        rw [rd_of_getElem? hr]
        simp only [bind, Except.bind, pure, Except.pure, if_true]
        rw [h1]
        simp only [fulfilled, bind, Except.bind, pure, Except.pure]
        rw [h2.worst]
      · intro hgo
        refine ⟨by simpa using hgo, _, List.Sublist.refl _, rfl⟩
  | node i l r proj th tl tr hn hl hl' hr' ihl ihr =>
    intro fuel hf hv hp r0 L h
    cases fuel with
    | zero => omega
    | succ fuel =>
      simp only [KT.depth] at hf
      have hvl : ∀ j ∈ tl.items, j < points.length := fun j hj => hv j (by simp [KT.items, hj])
      have hvr : ∀ j ∈ tr.items, j < points.length := fun j hj => hv j (by simp [KT.items, hj])
      have Hl := ihl fuel (by omega) hvl hp.2.2.1
      have Hr := ihr fuel (by omega) hvr hp.2.2.2
      -- generic step with best child `B` and other child `O`
      have step : ∀ (bi oi : Nat) (B O : KT D),
          (∀ (r : KnnResult D) (L), Holds maxD cap ti td r L →
            ∃ go r' L', searchNode o points t q eps fuel bi r = .ok (go, r') ∧ Holds maxD cap ti td r' L' ∧
            (go = true → L' = (cands o points q (visit o q B)).foldl (pushSpec maxD cap) L) ∧
            (go = false → worstOf maxD cap L' < eps ∧
              ∃ vis, vis.Sublist (visit o q B) ∧ L' = (cands o points q vis).foldl (pushSpec maxD cap) L)) →
          (∀ (r : KnnResult D) (L), Holds maxD cap ti td r L →
            ∃ go r' L', searchNode o points t q eps fuel oi r = .ok (go, r') ∧ Holds maxD cap ti td r' L' ∧
            (go = true → L' = (cands o points q (visit o q O)).foldl (pushSpec maxD cap) L) ∧
            (go = false → worstOf maxD cap L' < eps ∧
              ∃ vis, vis.Sublist (visit o q O) ∧ L' = (cands o points q vis).foldl (pushSpec maxD cap) L)) →
          (∀ j ∈ O.items, o.mul (o.sub (proj.eval o q) th) (o.sub (proj.eval o q) th) ≤ distTo o points q j) →
          ∃ go r' L',
            (do
              let (go, r) ← searchNode o points t q eps fuel bi r0
              if go = false then return (false, r)
              else
                let worst ← r.worstDistance
                if o.mul (o.sub (proj.eval o q) th) (o.sub (proj.eval o q) th) < worst then
                  searchNode o points t q eps fuel oi r
                else return (true, r) : Res (Bool × KnnResult D)) = .ok (go, r') ∧ Holds maxD cap ti td r' L' ∧
            (go = true → L' = (cands o points q (visit o q B ++ visit o q O)).foldl (pushSpec maxD cap) L) ∧
            (go = false → worstOf maxD cap L' < eps ∧
              ∃ vis, vis.Sublist (visit o q B ++ visit o q O) ∧
                L' = (cands o points q vis).foldl (pushSpec maxD cap) L) := by
        intro bi oi B O hB hO hcut
        obtain ⟨go1, r1, L1, h1, h2, h3, h4⟩ := hB _ _ h
        rw [h1]
        simp only [bind, Except.bind, pure, Except.pure]
        cases go1 with
        | false =>
          refine ⟨false, r1, L1, rfl, h2, by simp, fun _ => ?_⟩
          obtain ⟨a, vis, b, c⟩ := h4 rfl
          exact ⟨a, vis, b.trans (List.sublist_append_left _ _), c⟩
        | true =>
          rw [if_neg (by simp), h2.worst]
          simp only
          have hL1 := h3 rfl
          by_cases hw : o.mul (o.sub (proj.eval o q) th) (o.sub (proj.eval o q) th) < worstOf maxD cap L1
          · rw [if_pos hw]
            obtain ⟨go2, r2, L2, g1, g2, g3, g4⟩ := hO _ _ h2
            refine ⟨go2, r2, L2, g1, g2, ?_, ?_⟩
            · intro hgo
              rw [g3 hgo, hL1]
              simp [cands]
            · intro hgo
              obtain ⟨a, vis, b, c⟩ := g4 hgo
              refine ⟨a, visit o q B ++ vis, (List.Sublist.refl _).append b, ?_⟩
              rw [c, hL1]
              simp [cands]
          · rw [if_neg hw]
            refine ⟨true, r1, L1, rfl, h2, fun _ => ?_, by simp⟩
            rw [show cands o points q (visit o q B ++ visit o q O)
              = cands o points q (visit o q B) ++ cands o points q (visit o q O) by simp [cands],
              List.foldl_append, ← hL1, foldl_pushSpec_noop h2]
            intro c hc
            obtain ⟨j, hj, rfl⟩ := List.mem_map.1 hc
            exact (not_lt.1 hw).trans (hcut j ((visit_perm o q O).mem_iff.1 hj))
      unfold searchNode
      rw [rd_of_getElem? hn]
      simp only [bind, Except.bind, hl, if_false]
      by_cases hd : o.sub (proj.eval o q) th < o.zero
      · simp only [hd, if_true]
        simp only [visit, hd, if_true]
        exact step l r tl tr Hl Hr (hp.1 hd)
      · simp only [hd, if_false]
        simp only [visit, hd, if_false]
        exact step r l tr tl Hr Hl (hp.2.1 hd)

end Verif.Proofs
