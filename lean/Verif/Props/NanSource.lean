import Verif.Props.OptimizerMachine
import Verif.Props.ReductionRounding
import Verif.Proofs.RegistrationMemory
import Verif.Proofs.RegistrationScene
import Verif.Spec.RegistrationMemory
import Verif.Props.KdTree

/-!
C98: registration of a source cloud with a NaN coordinate. The transformed point has no number as distance to any target point, yet the search returns a target point, the distance gate lets the pair
pass, and the summed error is NaN; so Levenberg-Marquardt hands back the initial guess. All of this in machine arithmetic of which only the behaviour of NaN is known.
-/

set_option linter.unusedSectionVars false
set_option linter.unusedSimpArgs false
set_option linter.unnecessarySeqFocus false

namespace Verif.Spec

open Verif Verif.Machine

/-- What IEEE arithmetic does with NaN: comparisons are false, operations hand it on. `T * p` computes each of its first three coordinates from all of `p`. -/
structure NaNStrict {V P H B M : Type} [Add V] [Sub V] [Mul V] [LE V] [LT V] (E : Eval V P H B M) : Prop where
  le : NaNCompares V
  lt_left : ∀ a b : V, IsNaN a → ¬ a < b
  lt_right : ∀ a b : V, IsNaN b → ¬ a < b
  add : ∀ a b : V, IsNaN a ∨ IsNaN b → IsNaN (a + b)
  sub : ∀ a b : V, IsNaN a ∨ IsNaN b → IsNaN (a - b)
  mul : ∀ a b : V, IsNaN a ∨ IsNaN b → IsNaN (a * b)
  opsSub : ∀ a b : V, IsNaN a ∨ IsNaN b → IsNaN (E.ops.sub a b)
  sqNorm4 : ∀ a b c d : V, IsNaN a ∨ IsNaN b ∨ IsNaN c ∨ IsNaN d → IsNaN (E.ops.sqNorm4 a b c d)
  dot3 : ∀ a b c x y z : V, IsNaN x ∨ IsNaN y ∨ IsNaN z → IsNaN (E.ops.dot3 a b c x y z)
  half : ∀ a : V, IsNaN a → IsNaN (E.half a)
  apply : ∀ (T : P) (p : Fin 4 → V), IsNaN (p 0) ∨ IsNaN (p 1) ∨ IsNaN (p 2) → IsNaN (E.apply T p 0) ∧ IsNaN (E.apply T p 1) ∧ IsNaN (E.apply T p 2)
  sqNorm : ∀ r : Fin 4 → V, IsNaN (r 0) → IsNaN (E.sqNorm r)
  quad : ∀ (r : Fin 4 → V) (m : M), IsNaN (r 0) → IsNaN (E.quad r m)

end Verif.Spec

namespace Verif.Props

open Verif Verif.KdTree Verif.Knn Verif.Proofs Verif.Spec

/-! ### kd-trees without any law of order -/

section Shape

variable {D : Type} {Q : Proj D → Prop}

/-- No leaf is empty. -/
def Full : KT D → Prop
  | .leaf is => is ≠ []
  | .node _ _ l r => Full l ∧ Full r

/-- Every node splits in a direction with the property `Q`, at the projection of a point. -/
def Splits (Q : Proj D → Prop) (o : Ops D) (points : List (Pt D)) : KT D → Prop
  | .leaf _ => True
  | .node proj th l r => (Q proj ∧ ∃ p ∈ points, th = proj.eval o p) ∧ Splits Q o points l ∧ Splits Q o points r

theorem splitRange_shape (o : Ops D) (b : Builder D) (points : List (Pt D)) (range : List Nat) (hnth : ∀ l n, (b.nthElement l n).Perm l) (hfind : FindAxisSpec Q b.findAxis)
    (hne : range ≠ []) (h : ∀ i ∈ range, i < points.length) : ∃ proj thresh seg, splitRange o b points range = .ok (proj, thresh, seg) ∧ seg.Perm range ∧ Q proj ∧
      ∃ p ∈ points, thresh = proj.eval o p := by
  obtain ⟨proj, hp, hQ⟩ := hfind points range hne h
  obtain ⟨keyed, hk, hk1, hk2⟩ := projectRange_ok o points proj range h
  have hlen : keyed.length = range.length := by rw [← hk1]; simp
  have hpos : 0 < range.length := List.length_pos_of_ne_nil hne
  have hperm := hnth keyed (range.length / 2)
  have hlt : range.length / 2 < (b.nthElement keyed (range.length / 2)).length := by
    rw [hperm.length_eq, hlen]; omega
  obtain ⟨m, hm⟩ : ∃ m, (b.nthElement keyed (range.length / 2))[range.length / 2]? = some m :=
    ⟨_, List.getElem?_eq_getElem hlt⟩
  refine ⟨proj, m.2, (b.nthElement keyed (range.length / 2)).map Prod.fst, ?_, ?_, hQ, ?_⟩
  · unfold splitRange
    simp only [hp, hk, bind, Except.bind, pure, Except.pure]
    rw [rd_of_getElem? hm]
  · have := hperm.map Prod.fst
    rwa [hk1] at this
  · obtain ⟨p, h1, h2⟩ := hk2 m (hperm.mem_iff.1 (List.mem_of_getElem? hm))
    exact ⟨p, List.mem_of_getElem? h1, h2⟩

theorem buildT_shape (o : Ops D) (b : Builder D) (points : List (Pt D)) (hnth : ∀ l n, (b.nthElement l n).Perm l) (hfind : FindAxisSpec Q b.findAxis)
    (hm : 3 ≤ toU64 b.maxLeafSize) : ∀ (fuel : Nat) (range : List Nat), range.length < fuel → 1 ≤ range.length → (∀ i ∈ range, i < points.length) →
    ∃ t, buildT o b points fuel range = .ok t ∧ t.items.Perm range ∧ Full t ∧ t.depth < range.length ∧ t.size ≤ max 1 (range.length - 1) ∧ Splits Q o points t
  | 0, range, h, _, _ => absurd h (Nat.not_lt_zero _)
  | fuel + 1, range, hf, hpos, hv => by
    unfold buildT
    by_cases hleaf : isLeafSize range.length b.maxLeafSize
    · rw [if_pos hleaf]
      refine ⟨_, rfl, List.Perm.refl _, ?_, by simp only [KT.depth]; omega, by simp [KT.size], trivial⟩
      simp only [Full]
      intro h; rw [h] at hpos; simp at hpos
    · rw [if_neg hleaf]
      have hbig : toU64 b.maxLeafSize < range.length := by simpa [isLeafSize] using hleaf
      have hne : range ≠ [] := by intro h; rw [h] at hbig; simp at hbig
      obtain ⟨proj, th, seg, hs, hperm, hQ, hth⟩ := splitRange_shape o b points range hnth hfind hne hv
      have hsl : seg.length = range.length := hperm.length_eq
      obtain ⟨tl, hl1, hl2, hl3, hl4, hl5, hl6⟩ := buildT_shape o b points hnth hfind hm fuel
        (seg.take (range.length / 2)) (by rw [List.length_take]; omega) (by rw [List.length_take]; omega)
        (fun i hi => hv i (hperm.mem_iff.1 (List.mem_of_mem_take hi)))
      obtain ⟨tr, hr1, hr2, hr3, hr4, hr5, hr6⟩ := buildT_shape o b points hnth hfind hm fuel
        (seg.drop (range.length / 2)) (by rw [List.length_drop]; omega) (by rw [List.length_drop]; omega)
        (fun i hi => hv i (hperm.mem_iff.1 (List.mem_of_mem_drop hi)))
      rw [List.length_take] at hl4 hl5
      rw [List.length_drop] at hr4 hr5
      refine ⟨.node proj th tl tr, ?_, ?_, ⟨hl3, hr3⟩, ?_, ?_, ⟨⟨hQ, hth⟩, hl6, hr6⟩⟩
      · rw [hs]; simp only [bind, Except.bind, pure, Except.pure]; rw [hl1]; simp only; rw [hr1]
      · refine (hl2.append hr2).trans ?_
        rw [List.take_append_drop]; exact hperm
      · simp only [KT.depth]; omega
      · simp only [KT.size]; omega

/-- Construction with any arithmetic and any comparisons, as long as `nth_element` permutes. -/
theorem construct_shape (o : Ops D) (b : Builder D) (points : List (Pt D)) (hne : points ≠ []) (hN : points.length < 2 ^ 32) (hnth : ∀ l n, (b.nthElement l n).Perm l)
    (hfind : FindAxisSpec Q b.findAxis) (hm : 3 ≤ toU64 b.maxLeafSize) (fuel : Nat) (hf : points.length < fuel) :
    ∃ t kt, KdTree.construct o b fuel points = .ok t ∧ t.root = some 0 ∧ Represents t.nodes t.indices 0 kt ∧ t.indices = kt.items ∧ kt.items.Perm (List.range points.length) ∧ Full kt ∧
      kt.depth < points.length ∧ Splits Q o points kt := by
  have hpos : 0 < points.length := List.length_pos_of_ne_nil hne
  obtain ⟨kt, hb, hperm, hfull, hdep, hsz, hspl⟩ := buildT_shape o b points hnth hfind hm fuel (List.range points.length) (by simpa using hf) (by rw [List.length_range]; omega) (fun i hi => List.mem_range.1 hi)
  rw [List.length_range] at hdep hsz
  have hsl : slice (List.range points.length) 0 points.length = List.range points.length := by
    unfold slice; simp [List.take_of_length_le]
  obtain ⟨s', dt, hc, he, hr, hsp, hno, hid, hnc, hin, hnl, _⟩ := createNode_ok o b points hnth fuel 0 points.length
    ⟨List.range points.length, List.replicate points.length Node.fresh, 0⟩ kt (by omega) (by simp) (by simpa using hN)
    (by simpa using hN) (by rw [hsl]; exact hb) (by simp only [List.length_replicate]; omega)
    (by intro j _ hj; simp only [List.length_replicate] at hj; simp [hj])
  have hlen : kt.items.length = points.length := by rw [hperm.length_eq, List.length_range]
  have hin' : s'.indices = kt.items := by
    rw [hin]; unfold overwrite; simp
  refine ⟨⟨s'.indices, s'.nodes.take s'.nodeCount, some 0⟩, kt, ?_, rfl, ?_, hin', hperm, hfull, hdep, hspl⟩
  · unfold KdTree.construct buildTree
    rw [if_neg (by omega)]
    simp only [bind, Except.bind, pure, Except.pure]
    rw [hc]
  · simp only
    have : dt.NodesOK (s'.nodes.take s'.nodeCount) := by
      apply hno.congr
      intro i hi
      have := hid i hi
      simp only at this
      rw [List.getElem?_take_of_lt (by omega)]
    have hr' := DT.represents (indices := s'.indices) dt 0 this hsp
      (by rw [← DT.items_erase, he, hin']; omega)
      (by rw [← DT.items_erase, he, hin']; unfold slice; simp)
    rw [he, hr] at hr'
    exact hr'

end Shape

/-! ### nearest-neighbour search without any law of order -/

section Search

variable {D : Type} [LT D] [LE D] [DecidableLT D] [DecidableLE D]

/-- A result container for one neighbour that holds nothing, or an index below `n`. -/
structure HoldsOne (n : Nat) (r : KnnResult D) : Prop where
  N : r.N = 1
  ind : r.indices.length = 1
  dis : r.distances.length = 1
  found : r.numFound = 0 ∨ r.numFound = 1 ∧ ∀ i ∈ r.indices, i < n

theorem HoldsOne.size {n : Nat} {r : KnnResult D} (h : HoldsOne n r) : r.bufferSize = 1 := by
  unfold KnnResult.bufferSize
  rw [h.N]; rfl

theorem HoldsOne.worst {n : Nat} {r : KnnResult D} (h : HoldsOne n r) : ∃ d, r.distances = [d] ∧ r.worstDistance = .ok d := by
  obtain ⟨d, hd⟩ := List.length_eq_one_iff.1 h.dis
  refine ⟨d, hd, ?_⟩
  unfold KnnResult.worstDistance
  rw [h.size, hd]; rfl

theorem push_one {n : Nat} {r : KnnResult D} (h : HoldsOne n r) {i : Nat} (hi : i < n) (d : D) : ∃ r', r.push id i d = .ok r' ∧ HoldsOne n r' := by
  obtain ⟨w, hd, hw⟩ := h.worst
  obtain ⟨j, hj⟩ := List.length_eq_one_iff.1 h.ind
  unfold KnnResult.push
  simp only [hw, bind, Except.bind, pure, Except.pure]
  by_cases hle : w ≤ d
  · rw [if_pos hle]; exact ⟨r, rfl, h⟩
  · rw [if_neg hle, if_pos h.N, hj, hd]
    simp only [wr, List.length_singleton, Nat.lt_one_iff, if_true, List.set_cons_zero, id]
    refine ⟨_, rfl, h.N, rfl, rfl, .inr ⟨?_, by simpa using hi⟩⟩
    simp only [h.size]
    rcases h.found with e | ⟨e, -⟩ <;> rw [e] <;> rfl

theorem leafLoop_one (o : Ops D) (points : List (Pt D)) (indices : List Nat) (q : Pt D) :
    ∀ (cnt i : Nat) {r : KnnResult D}, HoldsOne points.length r → i + cnt ≤ indices.length → (∀ j ∈ slice indices i (i + cnt), j < points.length) →
    ∃ r', leafLoop o points indices q cnt i r = .ok r' ∧ HoldsOne points.length r'
  | 0, i, r, h, _, _ => ⟨r, rfl, h⟩
  | cnt + 1, i, r, h, hlen, hv => by
    have hi : i < indices.length := by omega
    have hsl : slice indices i (i + (cnt + 1)) = indices[i] :: slice indices (i + 1) (i + 1 + cnt) := by
      unfold slice
      rw [List.drop_eq_getElem_cons hi]
      have e1 : i + (cnt + 1) - i = cnt + 1 := by omega
      have e2 : i + 1 + cnt - (i + 1) = cnt := by omega
      rw [e1, e2, List.take_succ_cons]
    rw [hsl] at hv
    have hp : indices[i] < points.length := hv _ (by simp)
    obtain ⟨r1, h1, h2⟩ := push_one h hp (Pt.sqDist o points[indices[i]] q)
    obtain ⟨r2, h3, h4⟩ := leafLoop_one o points indices q cnt (i + 1) h2 (by omega) (fun j hj => hv j (by simp [hj]))
    refine ⟨r2, ?_, h4⟩
    unfold leafLoop
    rw [rd_of_getElem? (List.getElem?_eq_getElem hi)]
    simp only [bind, Except.bind]
    rw [rd_of_getElem? (List.getElem?_eq_getElem hp)]
    simp only
    rw [h1]; exact h3

/-- The search does not fault, whatever the numbers are, and finds valid indices only. -/
theorem searchNode_one (o : Ops D) (points : List (Pt D)) (t : KdTree.Tree D) (q : Pt D) (eps : D) {i : Nat} {kt : KT D} (hrep : Represents t.nodes t.indices i kt) :
    ∀ (fuel : Nat), kt.depth < fuel → (∀ j ∈ kt.items, j < points.length) → ∀ (r : KnnResult D), HoldsOne points.length r →
    ∃ go r', searchNode o points t q eps fuel i r = .ok (go, r') ∧ HoldsOne points.length r' := by
  induction hrep with
  | leaf i first last hr hle hlen =>
    intro fuel hf hv r h
    cases fuel with
    | zero => omega
    | succ fuel =>
      have e : first + (last - first) = last := by omega
      obtain ⟨r', h1, h2⟩ := leafLoop_one o points t.indices q (last - first) first h (by omega) (by rw [e]; exact hv)
      obtain ⟨w, -, hw⟩ := h2.worst
      refine ⟨!decide (w < eps), r', ?_, h2⟩
      unfold searchNode
      rw [rd_of_getElem? hr]
      simp only [bind, Except.bind, pure, Except.pure, if_true]
      rw [h1]
      simp only [fulfilled, bind, Except.bind, pure, Except.pure]
      rw [hw]
  | node i l r proj th tl tr hn hl hl' hr' ihl ihr =>
    intro fuel hf hv r0 h
    cases fuel with
    | zero => omega
    | succ fuel =>
      simp only [KT.depth] at hf
      have Hl := ihl fuel (by omega) (fun j hj => hv j (by simp [KT.items, hj]))
      have Hr := ihr fuel (by omega) (fun j hj => hv j (by simp [KT.items, hj]))
      unfold searchNode
      rw [rd_of_getElem? hn]
      simp only [bind, Except.bind, pure, Except.pure, if_neg hl]
      by_cases hd : o.sub (proj.eval o q) th < o.zero
      · simp only [if_pos hd]
        obtain ⟨go, r1, h1, h2⟩ := Hl r0 h
        simp only [h1]
        cases go with
        | false => exact ⟨false, r1, rfl, h2⟩
        | true =>
          obtain ⟨w, -, hw⟩ := h2.worst
          simp only [hw, Bool.true_eq_false, if_false]
          split
          · exact Hr r1 h2
          · exact ⟨true, r1, rfl, h2⟩
      · simp only [if_neg hd]
        obtain ⟨go, r1, h1, h2⟩ := Hr r0 h
        simp only [h1]
        cases go with
        | false => exact ⟨false, r1, rfl, h2⟩
        | true =>
          obtain ⟨w, -, hw⟩ := h2.worst
          simp only [hw, Bool.true_eq_false, if_false]
          split
          · exact Hl r1 h2
          · exact ⟨true, r1, rfl, h2⟩

/-- Every comparison with a distance to `q` is false. -/
structure Incomparable (o : Ops D) (q : Pt D) : Prop where
  dist : ∀ (p : Pt D) (w : D), ¬ w ≤ Pt.sqDist o p q ∧ ¬ Pt.sqDist o p q < w ∧ ¬ w < Pt.sqDist o p q ∧ ¬ Pt.sqDist o p q ≤ w
  side : ∀ (proj : Proj D) (th : D), ¬ o.sub (proj.eval o q) th < o.zero

theorem push_incomparable {o : Ops D} {q : Pt D} (hq : Incomparable o q) {n : Nat} {r : KnnResult D} (h : HoldsOne n r) (i : Nat) (p : Pt D) :
    r.push id i (Pt.sqDist o p q) = .ok { r with indices := [i], distances := [Pt.sqDist o p q], numFound := 1 } := by
  obtain ⟨w, hd, hw⟩ := h.worst
  obtain ⟨j, hj⟩ := List.length_eq_one_iff.1 h.ind
  unfold KnnResult.push
  simp only [hw, bind, Except.bind, pure, Except.pure]
  rw [if_neg (hq.dist p w).1, if_pos h.N, hj, hd]
  simp only [wr, List.length_singleton, Nat.lt_one_iff, if_true, List.set_cons_zero, id, h.size]
  have : min (r.numFound + 1) 1 = 1 := by omega
  rw [this]

theorem leafLoop_incomparable {o : Ops D} {q : Pt D} (hq : Incomparable o q) (points : List (Pt D)) (indices : List Nat) :
    ∀ (cnt i : Nat) {r : KnnResult D}, HoldsOne points.length r → i + cnt ≤ indices.length → (∀ j ∈ slice indices i (i + cnt), j < points.length) → 0 < cnt →
    ∃ k p, (slice indices i (i + cnt)).getLast? = some k ∧ points[k]? = some p ∧
      leafLoop o points indices q cnt i r = .ok { r with indices := [k], distances := [Pt.sqDist o p q], numFound := 1 }
  | 0, i, r, h, _, _, h0 => absurd h0 (Nat.lt_irrefl _)
  | cnt + 1, i, r, h, hlen, hv, _ => by
    have hi : i < indices.length := by omega
    have hsl : slice indices i (i + (cnt + 1)) = indices[i] :: slice indices (i + 1) (i + 1 + cnt) := by
      unfold slice
      rw [List.drop_eq_getElem_cons hi]
      have e1 : i + (cnt + 1) - i = cnt + 1 := by omega
      have e2 : i + 1 + cnt - (i + 1) = cnt := by omega
      rw [e1, e2, List.take_succ_cons]
    rw [hsl] at hv ⊢
    have hp : indices[i] < points.length := hv _ (by simp)
    have h1 := push_incomparable hq h indices[i] points[indices[i]]
    have h2 : HoldsOne points.length { r with indices := [indices[i]], distances := [Pt.sqDist o points[indices[i]] q], numFound := 1 } :=
      ⟨h.N, rfl, rfl, .inr ⟨rfl, by simpa using hp⟩⟩
    unfold leafLoop
    rw [rd_of_getElem? (List.getElem?_eq_getElem hi)]
    simp only [bind, Except.bind]
    rw [rd_of_getElem? (List.getElem?_eq_getElem hp)]
    simp only
    rw [h1]
    simp only
    rcases Nat.eq_zero_or_pos cnt with h0 | h0
    · subst h0
      refine ⟨indices[i], points[indices[i]], ?_, List.getElem?_eq_getElem hp, rfl⟩
      simp [slice]
    · obtain ⟨k, p, g1, g2, g3⟩ := leafLoop_incomparable hq points indices cnt (i + 1) h2 (by omega) (fun j hj => hv j (by simp [hj])) h0
      refine ⟨k, p, ?_, g2, g3⟩
      rw [List.getLast?_cons, g1]; rfl

/-- A query without comparable distances descends to the last leaf and takes its last point. -/
theorem searchNode_incomparable {o : Ops D} {q : Pt D} (hq : Incomparable o q) (points : List (Pt D)) (t : KdTree.Tree D) (eps : D) {i : Nat} {kt : KT D}
    (hrep : Represents t.nodes t.indices i kt) : ∀ (fuel : Nat), kt.depth < fuel → (∀ j ∈ kt.items, j < points.length) → Full kt → ∀ (r : KnnResult D), HoldsOne points.length r →
    ∃ k p, kt.items.getLast? = some k ∧ points[k]? = some p ∧
      searchNode o points t q eps fuel i r = .ok (true, { r with indices := [k], distances := [Pt.sqDist o p q], numFound := 1 }) := by
  induction hrep with
  | leaf i first last hr hle hlen =>
    intro fuel hf hv hfull r h
    cases fuel with
    | zero => omega
    | succ fuel =>
      have e : first + (last - first) = last := by omega
      have hpos : 0 < last - first := by
        simp only [Full] at hfull
        have : (slice t.indices first last).length ≠ 0 := by simpa using hfull
        rw [slice_length hle hlen] at this
        omega
      obtain ⟨k, p, h1, h2, h3⟩ := leafLoop_incomparable hq points t.indices (last - first) first h (by omega) (by rw [e]; exact hv) hpos
      rw [e] at h1
      refine ⟨k, p, h1, h2, ?_⟩
      unfold searchNode
      rw [rd_of_getElem? hr]
      simp only [bind, Except.bind, pure, Except.pure, if_true]
      rw [h3]
      simp only [fulfilled, KnnResult.worstDistance, KnnResult.bufferSize, h.N, bind, Except.bind, pure, Except.pure]
      have : rd [Pt.sqDist o p q] ((if (0 : Int) < 1 then Int.toNat 1 else r.capacity.toNat) - 1) = .ok (Pt.sqDist o p q) := rfl
      rw [this]
      simp [(hq.dist p eps).2.1]
  | node i l r proj th tl tr hn hl hl' hr' ihl ihr =>
    intro fuel hf hv hfull r0 h
    cases fuel with
    | zero => omega
    | succ fuel =>
      simp only [KT.depth] at hf
      obtain ⟨k, p, h1, h2, h3⟩ := ihr fuel (by omega) (fun j hj => hv j (by simp [KT.items, hj])) hfull.2 r0 h
      refine ⟨k, p, ?_, h2, ?_⟩
      · simp only [KT.items, List.getLast?_append, h1, Option.some_or]
      · unfold searchNode
        rw [rd_of_getElem? hn]
        simp only [bind, Except.bind, pure, Except.pure, if_neg hl, if_neg (hq.side proj th), h3]
        simp only [KnnResult.worstDistance, KnnResult.bufferSize, h.N]
        have : rd [Pt.sqDist o p q] ((if (0 : Int) < 1 then Int.toNat 1 else r0.capacity.toNat) - 1) = .ok (Pt.sqDist o p q) := rfl
        rw [this]
        simp [(hq.dist p _).2.2.1]

theorem construct_one (maxD : D) (junk : Nat × D) (n : Nat) : ∃ r, Knn.construct maxD 1 [junk.1] [junk.2] (-1) = .ok r ∧ HoldsOne n r :=
  ⟨⟨1, -1, 0, [INVALID], [maxD]⟩, rfl, rfl, rfl, rfl, .inl rfl⟩

end Search

/-! ### The factors -/

section Factors

open Verif.Machine Verif.PointCloud Verif.RegMem Verif.Proofs.RegMem Verif.Factors

variable {V P H B M : Type} [Add V] [Sub V] [Mul V] [Zero V] [LT V] [LE V] [DecidableLT V] [DecidableLE V] {E : Machine.Eval V P H B M}

/-- One of the coordinates that carry a number is NaN. -/
def NaNPoint (p : Fin 4 → V) : Prop := IsNaN (p 0) ∨ IsNaN (p 1) ∨ IsNaN (p 2)

theorem nan_incomparable (hE : NaNStrict E) {q : Fin 4 → V} (h0 : IsNaN (q 0)) (h1 : IsNaN (q 1)) (h2 : IsNaN (q 2)) :
    Incomparable E.ops (Machine.toPt q) ∧ ∀ p, IsNaN (Pt.sqDist E.ops p (Machine.toPt q)) := by
  have hd : ∀ p, IsNaN (Pt.sqDist E.ops p (Machine.toPt q)) := fun p => hE.sqNorm4 _ _ _ _ (.inl (hE.opsSub _ _ (.inr h0)))
  refine ⟨⟨fun p w => ⟨fun h => hE.le.right _ _ (hd p) h, hE.lt_left _ _ (hd p), hE.lt_right _ _ (hd p), fun h => hE.le.left _ _ (hd p) h⟩, fun proj th => ?_⟩, hd⟩
  refine hE.lt_left _ _ (hE.opsSub _ _ (.inl ?_))
  match proj with
  | .axis .x => exact h0
  | .axis .y => exact h1
  | .axis .z => exact h2
  | .normal nx ny nz => exact hE.dot3 _ _ _ _ _ _ (.inl h0)

/-- The target tree: as built over the points, with nodes enough fuel to be walked. -/
structure Built (E : Machine.Eval V P H B M) (points : List (Pt V)) (t : KdTree.Tree V) (fuel : Nat) : Prop where
  shape : ∃ kt, t.root = some 0 ∧ Represents t.nodes t.indices 0 kt ∧ t.indices = kt.items ∧ (∀ j ∈ kt.items, j < points.length) ∧ Full kt ∧ kt.depth < fuel

theorem nearest_any {points : List (Pt V)} {t : KdTree.Tree V} {fuel : Nat} (h : Built E points t fuel) (maxD : V) (junk : Nat × V) (q : Fin 4 → V) :
    Machine.kdNearest E maxD points t fuel junk q = .ok none ∨ ∃ k d, k < points.length ∧ Machine.kdNearest E maxD points t fuel junk q = .ok (some (k, d)) := by
  obtain ⟨kt, h1, h2, h3, h4, h5, h6⟩ := h.shape
  obtain ⟨r, hr, hr'⟩ := construct_one maxD junk points.length
  obtain ⟨go, r', g1, g2⟩ := searchNode_one E.ops points t (Machine.toPt q) 0 h2 fuel h6 h4 r hr'
  simp only [Machine.kdNearest, KdTree.nearestNeighborSearch, knnSearch, hr, h1, g1, bind, Except.bind, pure, Except.pure, KnnResult.found]
  obtain ⟨j, hj⟩ := List.length_eq_one_iff.1 g2.ind
  obtain ⟨d, hd, -⟩ := g2.worst
  rw [hj, hd]
  rcases g2.found with e | ⟨e, hv⟩
  · left; rw [e]; rfl
  · right; rw [e]
    exact ⟨j, d, hv j (by rw [hj]; simp), rfl⟩

theorem nearest_nan (hE : NaNStrict E) {points : List (Pt V)} {t : KdTree.Tree V} {fuel : Nat} (h : Built E points t fuel) (maxD : V) (junk : Nat × V) {q : Fin 4 → V}
    (h0 : IsNaN (q 0)) (h1 : IsNaN (q 1)) (h2 : IsNaN (q 2)) :
    ∃ k d, t.indices.getLast? = some k ∧ k < points.length ∧ IsNaN d ∧ Machine.kdNearest E maxD points t fuel junk q = .ok (some (k, d)) := by
  obtain ⟨kt, g1, g2, g3, g4, g5, g6⟩ := h.shape
  obtain ⟨hq, hd⟩ := nan_incomparable hE h0 h1 h2
  obtain ⟨r, hr, hr'⟩ := construct_one maxD junk points.length
  obtain ⟨k, p, e1, e2, e3⟩ := searchNode_incomparable hq points t 0 g2 fuel g6 g4 g5 r hr'
  refine ⟨k, Pt.sqDist E.ops p (Machine.toPt q), by rw [g3, e1], (List.getElem?_eq_some_iff.1 e2).1, hd p, ?_⟩
  simp only [Machine.kdNearest, KdTree.nearestNeighborSearch, knnSearch, hr, g1, e3, bind, Except.bind, pure, Except.pure, KnnResult.found]
  rfl

/-- The factors of the library, and what they read of the clouds. -/
inductive LibraryFactor (E : Machine.Eval V P H B M) : (F : Type) → Needs → Machine.Factor F V P H B M → Prop
  | icp : LibraryFactor E ICP ⟨false, false⟩ (Machine.icpFactor E)
  | plane : LibraryFactor E PlaneICP ⟨true, false⟩ (Machine.planeFactor E)
  | gicp : LibraryFactor E (Machine.GICP M) ⟨false, true⟩ (Machine.gicpFactor E)
  | robust {F : Type} {needs : Needs} {mf : Machine.Factor F V P H B M} (wt sqrt : V → V) : LibraryFactor E F needs mf → LibraryFactor E F needs (Machine.robust E wt sqrt mf)

/-- The clouds hold what the factor reads. -/
structure Supplied (needs : Needs) (target source : Cloud (Fin 4 → V) M) : Prop where
  targetPoints : PointsSet target
  sourcePoints : PointsSet source
  normals : needs.normals = true → NormalsSet target
  targetCovs : needs.covs = true → CovsSet target
  sourceCovs : needs.covs = true → CovsSet source

/-- What one call of a factor does in the given world. -/
structure Behaves {F : Type} (mf : Machine.Factor F V P H B M) (w : Machine.World V M) (rej : Machine.Rejector V P) (nT nS : Nat) (nan : Nat → Prop) (last : Nat) : Prop where
  lin : ∀ T i f, i < nS → ∃ f' o, mf.linearize w rej T i f = .ok (f', o) ∧ mf.source f' = i ∧ (mf.target f' = npos ∨ mf.target f' < nT) ∧
    (nan i → mf.target f' = last ∧ mf.inlier f' = true ∧ ∃ A b e, o = some (A, b, e) ∧ IsNaN e)
  err : ∀ T f, mf.source f < nS → (mf.target f = npos ∨ mf.target f < nT) → ∃ e, mf.error w T f = .ok e

/-- Only for the claims about NaN (`nan`) the arithmetic has to obey any law. -/
theorem factor_behaves {nan : Prop} (hE : nan → NaNStrict E) {F : Type} {needs : Needs} {mf : Machine.Factor F V P H B M} (hf : LibraryFactor E F needs mf) {target source : Cloud (Fin 4 → V) M}
    (hs : Supplied needs target source) {points : List (Pt V)} (hlen : points.length = target.points.length) (hN : points.length < 2 ^ 32) {t : KdTree.Tree V} {fuel : Nat} (hb : Built E points t fuel)
    (maxD : V) (junk : Nat × V) {rej : Machine.Rejector V P} (hrej : nan → ∀ T k i d, IsNaN d → rej T k i d = false) {last : Nat} (hlast : t.indices.getLast? = some last) :
    Behaves mf (Machine.cloudWorld target source (Machine.kdNearest E maxD points t fuel junk)) rej target.points.length source.points.length
      (fun i => nan ∧ ∃ p, source.points[i]? = some (some p) ∧ NaNPoint p) last := by
  have hsrc : ∀ i < source.points.length, ∃ p, source.points[i]? = some (some p) ∧ source.point i = .ok p := by
    intro i hi
    obtain ⟨p, hp⟩ := hs.sourcePoints i hi
    exact ⟨p, hp, by simp only [Cloud.point, getSlot, rd, hp]; rfl⟩
  have htgt : ∀ i < target.points.length, ∃ p, target.point i = .ok p := by
    intro i hi
    obtain ⟨p, hp⟩ := hs.targetPoints i hi
    exact ⟨p, by simp only [Cloud.point, getSlot, rd, hp]; rfl⟩
  have hnpos : ∀ k < target.points.length, k ≠ npos := by
    intro k hk
    rw [hlen] at hN
    unfold npos; omega
  -- the search, for every point and for NaN points
  have hsearch : ∀ T i, i < source.points.length → ∃ p o, source.point i = .ok p ∧
      Machine.search E (Machine.cloudWorld target source (Machine.kdNearest E maxD points t fuel junk)) rej T i = .ok (E.apply T p, o) ∧ (∀ k, o = some k → k < target.points.length) ∧
      ((nan ∧ ∃ p, source.points[i]? = some (some p) ∧ NaNPoint p) → o = some last ∧ IsNaN (E.apply T p 0)) := by
    intro T i hi
    obtain ⟨p, hp, hp'⟩ := hsrc i hi
    by_cases hn : nan ∧ NaNPoint p
    · obtain ⟨n0, n1, n2⟩ := (hE hn.1).apply T p hn.2
      obtain ⟨k, d, h1, h2, h3, h4⟩ := nearest_nan (hE hn.1) hb maxD junk n0 n1 n2
      obtain rfl : k = last := by rw [h1] at hlast; exact Option.some.inj hlast
      refine ⟨p, some k, hp', ?_, fun j hj => by cases hj; omega, fun _ => ⟨rfl, n0⟩⟩
      simp only [Machine.search, Machine.cloudWorld, hp', h4, bind, Except.bind, hrej hn.1 T k i d h3, Bool.false_eq_true, if_false]
    · have hno : ¬ (nan ∧ ∃ p, source.points[i]? = some (some p) ∧ NaNPoint p) := by
        rintro ⟨h0, p', hp1, hp2⟩
        rw [hp] at hp1
        cases hp1
        exact hn ⟨h0, hp2⟩
      rcases nearest_any hb maxD junk (E.apply T p) with h | ⟨k, d, hk, h⟩
      · refine ⟨p, none, hp', ?_, (fun j hj => by cases hj), fun h => absurd h hno⟩
        simp only [Machine.search, Machine.cloudWorld, hp', h, bind, Except.bind]
      · cases hr : rej T k i d with
        | true =>
          refine ⟨p, none, hp', ?_, (fun j hj => by cases hj), fun h => absurd h hno⟩
          simp only [Machine.search, Machine.cloudWorld, hp', h, bind, Except.bind, hr, if_true]
        | false =>
          refine ⟨p, some k, hp', ?_, fun j hj => by cases hj; omega, fun h => absurd h hno⟩
          simp only [Machine.search, Machine.cloudWorld, hp', h, bind, Except.bind, hr, Bool.false_eq_true, if_false]
  induction hf with
  | icp =>
    refine ⟨fun T i f hi => ?_, fun T f hf1 hf2 => ?_⟩
    · obtain ⟨p, o, h1, h2, h3, h4⟩ := hsearch T i hi
      cases o with
      | none =>
        refine ⟨⟨npos, i⟩, none, ?_, rfl, .inl rfl, fun hn => absurd (h4 hn).1 (by simp)⟩
        simp only [Machine.icpFactor, Machine.icpLinearize, h2, bind, Except.bind]
      | some k =>
        obtain ⟨tp, htp⟩ := htgt k (h3 k rfl)
        refine ⟨⟨k, i⟩, some ((E.icpSystem T p (tp - E.apply T p)).1, (E.icpSystem T p (tp - E.apply T p)).2, E.half (E.sqNorm (tp - E.apply T p))), ?_, rfl, .inr (h3 k rfl), fun hn => ?_⟩
        · simp only [Machine.icpFactor, Machine.icpLinearize, h2, bind, Except.bind, Machine.cloudWorld] at h2 ⊢
          simp only [h2, htp, h1]
        · obtain ⟨e1, e2⟩ := h4 hn
          cases e1
          exact ⟨rfl, by simp [Machine.icpFactor, ICP.inlier, hnpos _ (h3 _ rfl)], _, _, _, rfl, (hE hn.1).half _ ((hE hn.1).sqNorm _ ((hE hn.1).sub _ _ (.inr e2)))⟩
    · rcases hf2 with h | h
      · exact ⟨0, by simp only [Machine.icpFactor] at h ⊢; simp only [Machine.icpError, h, if_true]⟩
      · obtain ⟨tp, htp⟩ := htgt _ h
        obtain ⟨p, -, hp⟩ := hsrc _ hf1
        refine ⟨E.half (E.sqNorm (tp - E.apply T p)), ?_⟩
        simp only [Machine.icpFactor] at htp hp h ⊢
        simp only [Machine.icpError, Machine.cloudWorld, if_neg (hnpos _ h), htp, hp, bind, Except.bind]
  | plane =>
    have hnor : ∀ i < target.points.length, ∃ v, target.normal i = .ok v := by
      intro i hi
      obtain ⟨v, hv⟩ := hs.normals rfl i hi
      exact ⟨v, by simp only [Cloud.normal, getSlot, rd, hv]; rfl⟩
    refine ⟨fun T i f hi => ?_, fun T f hf1 hf2 => ?_⟩
    · obtain ⟨p, o, h1, h2, h3, h4⟩ := hsearch T i hi
      cases o with
      | none =>
        refine ⟨⟨npos, i⟩, none, ?_, rfl, .inl rfl, fun hn => absurd (h4 hn).1 (by simp)⟩
        simp only [Machine.planeFactor, Machine.planeLinearize, h2, bind, Except.bind]
      | some k =>
        obtain ⟨tp, htp⟩ := htgt k (h3 k rfl)
        obtain ⟨nv, hnv⟩ := hnor k (h3 k rfl)
        refine ⟨⟨k, i⟩, some ((E.planeSystem T nv p (nv * (tp - E.apply T p))).1, (E.planeSystem T nv p (nv * (tp - E.apply T p))).2, E.half (E.sqNorm (nv * (tp - E.apply T p)))), ?_, rfl,
          .inr (h3 k rfl), fun hn => ?_⟩
        · simp only [Machine.planeFactor, Machine.planeLinearize, bind, Except.bind, Machine.cloudWorld] at h2 ⊢
          simp only [h2, htp, h1, hnv]
        · obtain ⟨e1, e2⟩ := h4 hn
          cases e1
          exact ⟨rfl, by simp [Machine.planeFactor, ICP.inlier, hnpos _ (h3 _ rfl)], _, _, _, rfl, (hE hn.1).half _ ((hE hn.1).sqNorm _ ((hE hn.1).mul _ _ (.inr ((hE hn.1).sub _ _ (.inr e2)))))⟩
    · rcases hf2 with h | h
      · exact ⟨0, by simp only [Machine.planeFactor] at h ⊢; simp only [Machine.planeError, h, if_true]⟩
      · obtain ⟨tp, htp⟩ := htgt _ h
        obtain ⟨nv, hnv⟩ := hnor _ h
        obtain ⟨p, -, hp⟩ := hsrc _ hf1
        refine ⟨E.half (E.sqNorm (nv * (tp - E.apply T p))), ?_⟩
        simp only [Machine.planeFactor] at htp hp h hnv ⊢
        simp only [Machine.planeError, Machine.cloudWorld, if_neg (hnpos _ h), htp, hp, hnv, bind, Except.bind]
  | gicp =>
    have htc : ∀ i < target.points.length, ∃ m, target.cov i = .ok m := by
      intro i hi
      obtain ⟨m, hm⟩ := hs.targetCovs rfl i hi
      exact ⟨m, by simp only [Cloud.cov, getSlot, rd, hm]; rfl⟩
    have hsc : ∀ i < source.points.length, ∃ m, source.cov i = .ok m := by
      intro i hi
      obtain ⟨m, hm⟩ := hs.sourceCovs rfl i hi
      exact ⟨m, by simp only [Cloud.cov, getSlot, rd, hm]; rfl⟩
    refine ⟨fun T i f hi => ?_, fun T f hf1 hf2 => ?_⟩
    · obtain ⟨p, o, h1, h2, h3, h4⟩ := hsearch T i hi
      cases o with
      | none =>
        refine ⟨⟨npos, i, f.mahalanobis⟩, none, ?_, rfl, .inl rfl, fun hn => absurd (h4 hn).1 (by simp)⟩
        simp only [Machine.gicpFactor, Machine.gicpLinearize, h2, bind, Except.bind]
      | some k =>
        obtain ⟨tp, htp⟩ := htgt k (h3 k rfl)
        obtain ⟨ct, hct⟩ := htc k (h3 k rfl)
        obtain ⟨cs, hcs⟩ := hsc i hi
        refine ⟨⟨k, i, E.mahalanobis f.mahalanobis ct cs T⟩, some ((E.gicpSystem T (E.mahalanobis f.mahalanobis ct cs T) p (tp - E.apply T p)).1,
          (E.gicpSystem T (E.mahalanobis f.mahalanobis ct cs T) p (tp - E.apply T p)).2, E.quad (tp - E.apply T p) (E.mahalanobis f.mahalanobis ct cs T)), ?_, rfl,
          .inr (h3 k rfl), fun hn => ?_⟩
        · simp only [Machine.gicpFactor, Machine.gicpLinearize, bind, Except.bind, Machine.cloudWorld] at h2 ⊢
          simp only [h2, htp, h1, hct, hcs]
        · obtain ⟨e1, e2⟩ := h4 hn
          cases e1
          exact ⟨rfl, by simp [Machine.gicpFactor, hnpos _ (h3 _ rfl)], _, _, _, rfl, (hE hn.1).quad _ _ ((hE hn.1).sub _ _ (.inr e2))⟩
    · rcases hf2 with h | h
      · exact ⟨0, by simp only [Machine.gicpFactor] at h ⊢; simp only [Machine.gicpError, h, if_true]⟩
      · obtain ⟨tp, htp⟩ := htgt _ h
        obtain ⟨p, -, hp⟩ := hsrc _ hf1
        refine ⟨E.quad (tp - E.apply T p) f.mahalanobis, ?_⟩
        simp only [Machine.gicpFactor] at htp hp h ⊢
        simp only [Machine.gicpError, Machine.cloudWorld, if_neg (hnpos _ h), htp, hp, bind, Except.bind]
  | @robust F needs mf wt sqrt _ ih =>
    have ih := ih hs
    refine ⟨fun T i f hi => ?_, fun T f hf1 hf2 => ?_⟩
    · obtain ⟨f', o, h1, h2, h3, h4⟩ := ih.lin T i f hi
      cases o with
      | none =>
        refine ⟨f', none, ?_, h2, h3, fun hn => ?_⟩
        · simp only [Machine.robust, h1, bind, Except.bind]
        · obtain ⟨-, -, A, b, e, h, -⟩ := h4 hn
          cases h
      | some s =>
        obtain ⟨A, b, e⟩ := s
        refine ⟨f', some ((E.scale (wt (sqrt e)) (A, b)).1, (E.scale (wt (sqrt e)) (A, b)).2, e * wt (sqrt e)), ?_, h2, h3, fun hn => ?_⟩
        · simp only [Machine.robust, h1, bind, Except.bind]
        · obtain ⟨g1, g2, A', b', e', h, he⟩ := h4 hn
          cases h
          exact ⟨g1, g2, _, _, _, rfl, (hE hn.1).mul _ _ (.inl he)⟩
    · obtain ⟨e, he⟩ := ih.err T f hf1 hf2
      exact ⟨wt (sqrt e) * e, by simp only [Machine.robust, he, bind, Except.bind]⟩

end Factors

/-! ### The reductions -/

section Reductions

open Verif.Reduction Verif.RegMem Verif.Proofs.RegMem

variable {F S : Type} [Zero S] [Add S]

/-- Every execution of a linearisation calls every factor once; a property that sums inherit from either summand and that one contribution has, the sum has. -/
theorem reduce_inherits (linM : Nat → F → Res (F × Option S)) (fs : List F) (hok : ∀ i f, i < fs.length → ∃ r, linM i f = .ok r) (ex : Exec) (hex : ex.Complete fs.length) (bad : S → Prop)
    (hbad : ∀ a b, bad a ∨ bad b → bad (a + b)) : ∃ fs' s, reduceLinearize linM ex fs = .ok (fs', s) ∧ fs'.length = fs.length ∧
      (∀ i f, fs[i]? = some f → ∃ r, linM i f = .ok r ∧ fs'[i]? = some r.1) ∧ ((∃ i f f' s0, fs[i]? = some f ∧ linM i f = .ok (f', some s0) ∧ bad s0) → bad s) := by
  classical
  let lin : Nat → F → F × Option S := fun i f => match linM i f with
    | .ok r => r
    | .error _ => (f, none)
  have hlin : ∀ i f r, linM i f = .ok r → lin i f = r := fun i f r h => by simp only [lin, h]
  have hM : ∀ i f, i < fs.length → linM i f = .ok (lin i f) := by
    intro i f hi
    obtain ⟨r, hr⟩ := hok i f hi
    rw [hlin i f r hr, hr]
  have hpure : reduceLinearize linM ex fs = pureLinearize lin ex fs := by
    rcases reduceLinearize_pure (E := fun _ => False) fs (fun i f hi => .inl (hM i f hi)) ex hex with h | ⟨_, h, _⟩
    · exact h
    · exact h.elim
  have hfaith : Faithful lin fs (pureLinearize lin ex fs) := by
    cases ex with
    | serial => exact serial_faithful lin fs
    | omp n assign sched comb =>
      obtain ⟨h1, h2, h3, ⟨order, h4⟩, h5⟩ := hex
      have hr : ∃ r, ompLinearize lin n assign sched fs = some r := by unfold ompLinearize; rw [h4]; exact ⟨_, rfl⟩
      obtain ⟨r, hr⟩ := hr
      simp only [pureLinearize, hr, Option.getD_some]
      exact omp_faithful lin n h1 fs assign h2 h3 sched hr
    | tbb tree order => exact tbb_faithful lin fs tree hex.1 order hex.2
  have key := hfaith ℕ (fun s n => 0 < n → bad s) (fun h => absurd h (Nat.lt_irrefl _)) (fun a a' b b' ha hb h => hbad a b (by
    rcases Nat.eq_zero_or_pos a' with h0 | h0
    · exact .inr (hb (by omega))
    · exact .inl (ha h0))) (fun i f => ((lin i f).1, (lin i f).2.map fun s => if bad s then 1 else 0)) (fun i f => ⟨rfl, by
      dsimp only
      cases (lin i f).2 with
      | none => exact .none
      | some s => exact .some (fun h => by by_contra hb; dsimp only at h; rw [if_neg hb] at h; exact absurd h (Nat.lt_irrefl _))⟩)
  rw [hpure]
  rcases hr : pureLinearize lin ex fs with e | ⟨fs', s⟩
  · rw [hr] at key; exact key.elim
  · rw [hr] at key
    obtain ⟨k1, k2⟩ := key
    simp only [reduceSpec] at k1 k2
    refine ⟨fs', s, rfl, by rw [k1]; simp, fun i f hf => ⟨lin i f, hM i f (List.getElem?_eq_some_iff.1 hf).1, by rw [k1]; simp [hf]⟩, ?_⟩
    rintro ⟨i, f, f', s0, hf, hl, hb⟩
    refine k2 (Nat.lt_of_lt_of_le Nat.one_pos (List.le_sum_of_mem ?_))
    rw [List.mem_mapIdx]
    obtain ⟨hi, he⟩ := List.getElem?_eq_some_iff.1 hf
    refine ⟨i, hi, ?_⟩
    rw [he, hlin i f _ hl]
    simp [hb]

theorem reduceError_exists {errM : F → Res S} (fs : List F) (hok : ∀ f ∈ fs, ∃ e, errM f = .ok e) (ex : Exec) (hex : ex.Complete fs.length) : ∃ e, reduceError errM ex fs = .ok e := by
  let err : F → S := fun f => match errM f with
    | .ok e => e
    | .error _ => 0
  rw [reduceError_pure (err := err) fs (fun f hf => by obtain ⟨e, he⟩ := hok f hf; simp only [err, he]) ex]
  cases ex with
  | serial =>
    obtain ⟨e, he, -⟩ := (C85_error err fs).1
    exact ⟨e, he⟩
  | omp n assign sched comb =>
    obtain ⟨h1, h2, h3, _, h5⟩ := hex
    obtain ⟨e, he, -⟩ := (C85_error err fs).2.1 assign comb h3 h5
    exact ⟨e, he⟩
  | tbb tree order =>
    obtain ⟨e, he, -⟩ := (C85_error err fs).2.2 tree order hex.1 hex.2
    exact ⟨e, he⟩

end Reductions

/-! ### Registration -/

section Main

open Verif.Machine Verif.PointCloud Verif.RegMem Verif.Proofs.RegMem Verif.Factors

variable {V P H B M D : Type} [Add V] [Sub V] [Mul V] [Div V] [Zero V] [LT V] [LE V] [DecidableLT V] [DecidableLE V] [Zero H] [Add H] [Zero B] [Add B] {E : Machine.Eval V P H B M}

/-- The rejectors of the library compare the distance at most, so they keep a NaN distance. -/
theorem rejectors_keep_nan (hE : NaNStrict E) (maxDistSq : V) :
    (∀ (T : P) (k i : Nat) (d : V), IsNaN d → Machine.distanceRejector maxDistSq T k i d = false) ∧ (∀ (T : P) (k i : Nat) (d : V), IsNaN d → Machine.nullRejector T k i d = false) :=
  ⟨fun _ _ _ _ hd => decide_eq_false (hE.lt_right _ _ hd), fun _ _ _ _ _ => rfl⟩

theorem machine_cloudPoints (c : Cloud (Fin 4 → V) M) (h : PointsSet c) : ∃ pts, Machine.cloudPoints c = .ok pts ∧ pts.length = c.points.length := by
  have hv : ∀ i ∈ List.range c.size, (do let p ← c.point i; return Machine.toPt p : Res (Pt V)) = .ok (match c.points[i]? with | some (some v) => Machine.toPt v | _ => Machine.toPt (fun _ => 0)) := by
    intro i hi
    obtain ⟨v, hv⟩ := h i (List.mem_range.1 hi)
    simp only [Cloud.point, getSlot, rd, hv]
    rfl
  exact ⟨_, mapM_ok _ _ _ hv, by simp [Cloud.size]⟩

/-- C98. If one point of the source cloud has a NaN coordinate, Levenberg-Marquardt registration does not fault but returns the initial guess, not converged, after one iteration, with a NaN as error: with
every factor and robust kernel, distance gate and reduction of the library. The NaN point is counted as an inlier, matched to the last point of the index array of the kd-tree. -/
theorem C98_nan_source (hE : NaNStrict E) {F : Type} {needs : Needs} {mf : Machine.Factor F V P H B M} (hf : LibraryFactor E F needs mf)
    {target source : Cloud (Fin 4 → V) M} (hs : Supplied needs target source) (hne : 0 < target.size) (hN : target.size < 2 ^ 32)
    (b : Builder V) (hnth : ∀ l n, (b.nthElement l n).Perm l) (hfind : FindAxisSpec (fun _ => True) b.findAxis) (hm : SafeLeafSize b.maxLeafSize)
    {points : List (Pt V)} (hpts : Machine.cloudPoints target = .ok points) {fuelB fuel : Nat} (hfB : target.size < fuelB) (hfuel : target.size ≤ fuel)
    {t : KdTree.Tree V} (ht : KdTree.construct E.ops b fuelB points = .ok t) (maxD : V) (junk : Nat × V)
    (cfg : Machine.Config V P H B D) (hrej : cfg.rejector = Machine.nullRejector ∨ ∃ m, cfg.rejector = Machine.distanceRejector m)
    (hU : ∀ T s, (cfg.updateLinearized T s).2.2 = s.2.2) (hU' : ∀ T e, cfg.updateError T e = e)
    (execL execE : P → List F → Exec) (hexL : ∀ T fs, (execL T fs).Complete fs.length) (hexE : ∀ T fs, (execE T fs).Complete fs.length)
    (st : Machine.LMSetting V) (hmax : 0 < st.maxIterations) (T0 : P) {i : Nat} {p : Fin 4 → V} (hp : source.points[i]? = some (some p)) (hnan : NaNPoint p) :
    ∃ A b' e fs, Machine.align mf (Machine.cloudWorld target source (Machine.kdNearest E maxD points t fuel junk)) cfg execL execE (.lm st) T0 source.size =
        .ok (⟨T0, false, 0, fs.countP mf.inlier, A, b', e⟩, fs, [⟨T0, fs, A, b', e, st.maxInner.toNat, none, T0, e⟩]) ∧
      IsNaN e ∧ ∃ f, fs[i]? = some f ∧ mf.inlier f = true ∧ t.indices.getLast? = some (mf.target f) := by
  obtain ⟨pts', hp1, hp2⟩ := machine_cloudPoints target hs.targetPoints
  obtain rfl : pts' = points := by rw [hp1] at hpts; exact Except.ok.inj hpts
  have hsz : target.size = pts'.length := hp2.symm
  rw [hsz] at hne hN hfB hfuel
  obtain ⟨t', kt, c1, c2, c3, c4, c5, c6, c7, -⟩ := construct_shape E.ops b pts' (List.ne_nil_of_length_pos hne) hN hnth hfind hm fuelB hfB
  obtain rfl : t' = t := by rw [c1] at ht; exact Except.ok.inj ht
  have hbuilt : Built E pts' t' fuel := ⟨kt, c2, c3, c4, fun j hj => List.mem_range.1 (c5.mem_iff.1 hj), c6, by omega⟩
  obtain ⟨last, hlast⟩ : ∃ k, t'.indices.getLast? = some k := by
    rw [c4]
    have : kt.items ≠ [] := by
      intro h
      have := c5.length_eq
      rw [h] at this
      simp at this
      omega
    exact ⟨_, List.getLast?_eq_some_getLast this⟩
  have hkeep : ∀ T k i d, IsNaN d → cfg.rejector T k i d = false := by
    rcases hrej with h | ⟨m, h⟩
    · rw [h]; exact fun _ _ _ _ _ => rfl
    · rw [h]; exact (rejectors_keep_nan hE m).1
  have hbeh := factor_behaves (nan := True) (fun _ => hE) hf hs hp2 hN hbuilt maxD junk (fun _ => hkeep) hlast
  have hi : i < source.points.length := (List.getElem?_eq_some_iff.1 hp).1
  have hfs0 : (List.replicate source.size mf.init)[i]? = some mf.init := by
    rw [List.getElem?_replicate]; exact if_pos hi
  obtain ⟨fs1, s, r1, r2, r3, r4⟩ := reduce_inherits (mf.linearize (Machine.cloudWorld target source (Machine.kdNearest E maxD pts' t' fuel junk)) cfg.rejector T0) (List.replicate source.size mf.init)
    (fun j f hj => by
      rw [List.length_replicate] at hj
      obtain ⟨f', o, h, -⟩ := hbeh.lin T0 j f hj
      exact ⟨_, h⟩) (execL T0 (List.replicate source.size mf.init)) (hexL _ _) (fun s => IsNaN s.2.2) (fun a b h => hE.add _ _ h)
  obtain ⟨f1, o1, l1, l2, l3, l4⟩ := hbeh.lin T0 i mf.init hi
  obtain ⟨n1, n2, A1, b1, e1, n3, n4⟩ := l4 ⟨trivial, p, hp, hnan⟩
  have hsnan : IsNaN s.2.2 := r4 ⟨i, mf.init, f1, (A1, b1, e1), hfs0, by rw [l1, n3], n4⟩
  have hE1 : ∀ T, ∃ e, (Machine.problem mf (Machine.cloudWorld target source (Machine.kdNearest E maxD pts' t' fuel junk)) cfg execL execE).error T fs1 = .ok e := by
    intro T
    refine reduceError_exists fs1 (fun f hfm => ?_) (execE T fs1) (hexE T fs1)
    obtain ⟨j, hj, hje⟩ := List.mem_iff_getElem.1 hfm
    rw [r2, List.length_replicate] at hj
    obtain ⟨r, hr, hr'⟩ := r3 j mf.init (by rw [List.getElem?_replicate]; exact if_pos hj)
    obtain ⟨f', o, q1, q2, q3, -⟩ := hbeh.lin T0 j mf.init hj
    rw [q1] at hr
    cases hr
    have : f = f' := by
      rw [List.getElem?_eq_getElem (by rw [r2, List.length_replicate]; exact hj), hje] at hr'
      exact Option.some.inj hr'
    subst this
    exact hbeh.err T f (by rw [q2]; exact hj) q3
  refine ⟨(cfg.updateLinearized T0 s).1, (cfg.updateLinearized T0 s).2.1, (cfg.updateLinearized T0 s).2.2, fs1, ?_, by rw [hU]; exact hsnan, ?_⟩
  · exact C97_nan_start hE.le (Machine.problem mf (Machine.cloudWorld target source (Machine.kdNearest E maxD pts' t' fuel junk)) cfg execL execE) hU' st hmax T0 _ fs1 s r1 hE1 rfl
      (by rw [hU]; exact hsnan)
  · obtain ⟨r, hr, hr'⟩ := r3 i mf.init hfs0
    rw [l1] at hr
    cases hr
    exact ⟨f1, hr', n2, by rw [n1]; exact hlast⟩

end Main

/-! ### Exact arithmetic -/

section Exact

open Matrix Verif.Factors Verif.Reduction Verif.PointCloud

variable {K : Type} [Field K] [LinearOrder K]

abbrev ExactEval (K : Type) := Machine.Eval K (Pose K) (Matrix (Fin 6) (Fin 6) K) (Fin 6 → K) (Matrix (Fin 4) (Fin 4) K)

/-- The expressions of the factors evaluated without rounding. -/
def exactEval (inv : Matrix (Fin 3) (Fin 3) K → Matrix (Fin 3) (Fin 3) K) : ExactEval K where
  ops := exactOps K
  half := fun x => 1 / 2 * x
  apply := fun T p => T.apply p
  sqNorm := fun r => r ⬝ᵥ r
  quad := fun r m => 1 / 2 * (r ⬝ᵥ m *ᵥ r)
  icpSystem := fun T p r => let J := blocks (T.R * skew (head3 p)) (-T.R); (Jᵀ * J, Jᵀ *ᵥ r)
  planeSystem := fun T n p e => let J := blocks (diagonal (head3 n) * T.R * skew (head3 p)) (diagonal (head3 n) * (-T.R)); (Jᵀ * J, Jᵀ *ᵥ e)
  gicpSystem := fun T m p r => let J := blocks (T.R * skew (head3 p)) (-T.R); (Jᵀ * m * J, (Jᵀ * m) *ᵥ r)
  mahalanobis := fun m ct cs T => setBlock33 m (inv (block33 (ct + T.matrix * cs * T.matrixᵀ)))
  zeroM := 0
  scale := fun w s => (w • s.1, w • s.2)

def ofWorld (w : RegMem.World K) : Machine.World K (Matrix (Fin 4) (Fin 4) K) := ⟨w.srcPoint, w.srcCov, w.tgtPoint, w.tgtNormal, w.tgtCov, w.nn⟩

def toGicp (f : Machine.GICP (Matrix (Fin 4) (Fin 4) K)) : Factors.GICP K := ⟨f.target, f.source, f.mahalanobis⟩

/-- The machine factor `mf` is the exact factor `mf'`, up to the representation `c` of factors. -/
structure SameFactor {F F' : Type} (c : F → F') (mf : Machine.Factor F K (Pose K) (Matrix (Fin 6) (Fin 6) K) (Fin 6 → K) (Matrix (Fin 4) (Fin 4) K)) (mf' : RegMem.MemFactor F' K) : Prop where
  init : c mf.init = mf'.init
  linearize : ∀ w rej T i f, mf'.linearize w rej T i (c f) = (mf.linearize (ofWorld w) rej T i f).map fun r => (c r.1, r.2)
  error : ∀ w T f, mf'.error w T (c f) = mf.error (ofWorld w) T f
  members : ∀ f, mf'.inlier (c f) = mf.inlier f ∧ mf'.target (c f) = mf.target f ∧ mf'.source (c f) = mf.source f

theorem search_exact (inv : Matrix (Fin 3) (Fin 3) K → Matrix (Fin 3) (Fin 3) K) (w : RegMem.World K) (rej : Factors.Rejector K) (T : Pose K) (i : Nat) :
    RegMem.search w rej T i = Machine.search (exactEval inv) (ofWorld w) rej T i := rfl

/-- C98 (the model). With exact arithmetic the factors, the search and the rejector of the machine model are those of `Model/RegistrationMemory.lean`. -/
theorem C98_exact (inv : Matrix (Fin 3) (Fin 3) K → Matrix (Fin 3) (Fin 3) K) :
    SameFactor id (Machine.icpFactor (exactEval inv)) (RegMem.icpMem (K := K)) ∧ SameFactor id (Machine.planeFactor (exactEval inv)) (RegMem.planeMem (K := K)) ∧
    SameFactor toGicp (Machine.gicpFactor (exactEval inv)) (RegMem.gicpMem inv) ∧
    (∀ {F F' : Type} (c : F → F') mf mf' (wt sqrt : K → K), SameFactor c mf mf' → SameFactor c (Machine.robust (exactEval inv) wt sqrt mf) (RegMem.robustMem wt sqrt mf')) ∧
    (∀ m, Machine.distanceRejector m = Factors.distanceRejector (K := K) m) ∧ Machine.nullRejector = Factors.nullRejector (K := K) ∧
    (∀ c : RegMem.PCloud K, Machine.cloudPoints c = RegMem.cloudPoints c) ∧
    (∀ maxD points t fuel junk q, Machine.kdNearest (exactEval inv) maxD points t fuel junk q = RegMem.kdNearest maxD points t fuel junk q) ∧
    (∀ target source nn, ofWorld (RegMem.cloudWorld (K := K) target source nn) = Machine.cloudWorld target source nn) := by
  refine ⟨⟨rfl, fun w rej T i f => ?_, fun w T f => rfl, fun f => ⟨rfl, rfl, rfl⟩⟩, ⟨rfl, fun w rej T i f => ?_, fun w T f => rfl, fun f => ⟨rfl, rfl, rfl⟩⟩,
    ⟨rfl, fun w rej T i f => ?_, fun w T f => rfl, fun f => ⟨rfl, rfl, rfl⟩⟩, fun c mf mf' wt sqrt h => ⟨h.init, fun w rej T i f => ?_, fun w T f => ?_, h.members⟩,
    fun m => rfl, rfl, fun c => rfl, fun _ _ _ _ _ _ => rfl, fun _ _ _ => rfl⟩
  · simp only [RegMem.icpMem, Machine.icpFactor, RegMem.icpLinearize, Machine.icpLinearize, search_exact inv, bind, Except.bind]
    rcases Machine.search (exactEval inv) (ofWorld w) rej T i with x | ⟨q, _ | k⟩
    · rfl
    · rfl
    · simp only [ofWorld, id]
      rcases w.tgtPoint k with x | tp
      · rfl
      · simp only
        rcases w.srcPoint i with x | p <;> rfl
  · simp only [RegMem.planeMem, Machine.planeFactor, RegMem.planeLinearize, Machine.planeLinearize, search_exact inv, bind, Except.bind]
    rcases Machine.search (exactEval inv) (ofWorld w) rej T i with x | ⟨q, _ | k⟩
    · rfl
    · rfl
    · simp only [ofWorld, id]
      rcases w.tgtNormal k with x | nv
      · rfl
      · simp only
        rcases w.tgtPoint k with x | tp
        · rfl
        · simp only
          rcases w.srcPoint i with x | p <;> rfl
  · simp only [RegMem.gicpMem, Machine.gicpFactor, RegMem.gicpLinearize, Machine.gicpLinearize, search_exact inv, bind, Except.bind]
    rcases Machine.search (exactEval inv) (ofWorld w) rej T i with x | ⟨q, _ | k⟩
    · rfl
    · rfl
    · simp only [ofWorld]
      rcases w.tgtCov k with x | ct
      · rfl
      · simp only
        rcases w.srcCov i with x | cs
        · rfl
        · simp only
          rcases w.tgtPoint k with x | tp
          · rfl
          · simp only
            rcases w.srcPoint i with x | p <;> rfl
  · simp only [RegMem.robustMem, Machine.robust, bind, Except.bind, h.linearize w rej T i f]
    rcases mf.linearize (ofWorld w) rej T i f with x | ⟨f', _ | ⟨A, b, e⟩⟩ <;> rfl
  · simp only [RegMem.robustMem, Machine.robust, bind, Except.bind, h.error w T f]

/-- The configuration of the machine model that belongs to an exact one. -/
def ofConfig {F : Type} (mf : RegMem.MemFactor F K) (w : RegMem.World K) (cfg : RegMem.Config K) (execL execE : Pose K → List F → RegMem.Exec) :
    Machine.Config K (Pose K) (Matrix (Fin 6) (Fin 6) K) (Fin 6 → K) (Fin 6 → K) :=
  ⟨cfg.rejector, cfg.general.updateLinearized, cfg.general.updateError, (RegMem.problem mf w cfg execL execE).delta, fun T d => T.mul (cfg.exp d), cfg.converged⟩

def ofMethod : RegMem.Method K → Machine.Method K
  | .lm st => .lm ⟨st.maxIterations, st.maxInner, st.initLambda, st.lambdaFactor⟩
  | .gn lambda n => .gn lambda n

/-- C98 (the model). With exact arithmetic `align` of the machine model is that of `Model/RegistrationMemory.lean`. -/
theorem C98_exact_align {F : Type} {mf : Machine.Factor F K (Pose K) (Matrix (Fin 6) (Fin 6) K) (Fin 6 → K) (Matrix (Fin 4) (Fin 4) K)} {mf' : RegMem.MemFactor F K} (h : SameFactor id mf mf')
    (w : RegMem.World K) (cfg : RegMem.Config K) (execL execE : Pose K → List F → RegMem.Exec) (meth : RegMem.Method K) (T0 : Pose K) (n : Nat) :
    RegMem.align mf' w cfg execL execE meth T0 n = (Machine.align mf (ofWorld w) (ofConfig mf' w cfg execL execE) execL execE (ofMethod meth) T0 n).map toOutcome := by
  have hl : mf'.linearize w = mf.linearize (ofWorld w) := by
    funext rej T i f
    have := h.linearize w rej T i f
    simp only [id] at this
    rw [this]
    rcases mf.linearize (ofWorld w) rej T i f with x | ⟨a, b⟩ <;> rfl
  have he : mf'.error w = mf.error (ofWorld w) := by
    funext T f
    exact h.error w T f
  have hi : mf'.inlier = mf.inlier := funext fun f => (h.members f).1
  have hp : ofExact (RegMem.problem mf' w cfg execL execE) = Machine.problem mf (ofWorld w) (ofConfig mf' w cfg execL execE) execL execE := by
    simp only [ofExact, RegMem.problem, Machine.problem, ofConfig, hl, he, hi]
  have h0 : mf'.init = mf.init := h.init.symm
  cases meth with
  | lm st =>
    have := (C97_exact (RegMem.problem mf' w cfg execL execE) T0 (List.replicate n mf'.init)).1 ⟨st.maxIterations, st.maxInner, st.initLambda, st.lambdaFactor⟩
    rw [hp, h0] at this
    simp only [RegMem.align, RegMem.Method.run, Machine.align, Machine.Method.run, ofMethod, h0]
    exact this
  | gn lambda m =>
    have := (C97_exact (RegMem.problem mf' w cfg execL execE) T0 (List.replicate n mf'.init)).2 lambda m
    rw [hp, h0] at this
    simp only [RegMem.align, RegMem.Method.run, Machine.align, Machine.Method.run, ofMethod, h0]
    exact this

end Exact

/-! ### example: rationals with a NaN -/

section Example

open Verif.Machine Verif.PointCloud Verif.RegMem Verif.Proofs.RegMem Verif.Factors QN

theorem QN.lift_nan (f : ℚ → ℚ → ℚ) (a b : QN) (h : IsNaN a ∨ IsNaN b) : IsNaN (QN.lift f a b) := by
  rw [QN.isNaN_iff, QN.isNaN_iff] at h
  rw [QN.isNaN_iff]
  rcases h with rfl | rfl
  · cases b <;> rfl
  · cases a <;> rfl

def qnOps : Ops QN := ⟨0, (· + ·), (· - ·), (· * ·), (· / ·), fun a b c d => a * a + b * b + c * c + d * d, fun a b c x y z => a * x + b * y + c * z⟩

/-- Poses are translations along the first axis, written as products with a rotation matrix that happens to be the identity. -/
def qnEval : Machine.Eval QN QN QN QN QN where
  ops := qnOps
  half := fun a => num (1 / 2) * a
  apply := fun T p i => match i with
    | 0 => num 1 * p 0 + num 0 * p 1 + num 0 * p 2 + T * p 3
    | 1 => num 0 * p 0 + num 1 * p 1 + num 0 * p 2 + num 0 * p 3
    | 2 => num 0 * p 0 + num 0 * p 1 + num 1 * p 2 + num 0 * p 3
    | 3 => num 0 * p 0 + num 0 * p 1 + num 0 * p 2 + num 1 * p 3
  sqNorm := fun r => r 0 * r 0 + r 1 * r 1 + r 2 * r 2 + r 3 * r 3
  quad := fun r m => num (1 / 2) * (m * (r 0 * r 0 + r 1 * r 1 + r 2 * r 2 + r 3 * r 3))
  icpSystem := fun _ _ r => (num 1, num 0 - r 0)
  planeSystem := fun _ n _ e => (n 0 * n 0, num 0 - n 0 * e 0)
  gicpSystem := fun _ m _ r => (m, num 0 - m * r 0)
  mahalanobis := fun _ ct cs _ => num 1 / (ct + cs)
  zeroM := num 0
  scale := fun w s => (w * s.1, w * s.2)

/-- The contract is met. -/
theorem qnEval_strict : NaNStrict qnEval := by
  have add : ∀ a b : QN, IsNaN a ∨ IsNaN b → IsNaN (a + b) := QN.lift_nan _
  have sub : ∀ a b : QN, IsNaN a ∨ IsNaN b → IsNaN (a - b) := QN.lift_nan _
  have mul : ∀ a b : QN, IsNaN a ∨ IsNaN b → IsNaN (a * b) := QN.lift_nan _
  have sum4 : ∀ a b c d : QN, IsNaN a ∨ IsNaN b ∨ IsNaN c ∨ IsNaN d → IsNaN (a + b + c + d) := by
    rintro a b c d (h | h | h | h)
    · exact add _ _ (.inl (add _ _ (.inl (add _ _ (.inl h)))))
    · exact add _ _ (.inl (add _ _ (.inl (add _ _ (.inr h)))))
    · exact add _ _ (.inl (add _ _ (.inr h)))
    · exact add _ _ (.inr h)
  refine ⟨QN.compares, ?_, ?_, add, sub, mul, sub, ?_, ?_, fun a h => mul _ _ (.inr h), ?_, ?_, ?_⟩
  · intro a b h
    rw [QN.isNaN_iff] at h
    subst h
    intro h
    cases b <;> cases h
  · intro a b h
    rw [QN.isNaN_iff] at h
    subst h
    intro h
    cases a <;> cases h
  · rintro a b c d h
    refine sum4 _ _ _ _ ?_
    rcases h with h | h | h | h
    · exact .inl (mul _ _ (.inl h))
    · exact .inr (.inl (mul _ _ (.inl h)))
    · exact .inr (.inr (.inl (mul _ _ (.inl h))))
    · exact .inr (.inr (.inr (mul _ _ (.inl h))))
  · rintro a b c x y z (h | h | h)
    · exact add _ _ (.inl (add _ _ (.inl (mul _ _ (.inr h)))))
    · exact add _ _ (.inl (add _ _ (.inr (mul _ _ (.inr h)))))
    · exact add _ _ (.inr (mul _ _ (.inr h)))
  · intro T p h
    have h' : ∀ a b c d : QN, IsNaN (a * p 0 + b * p 1 + c * p 2 + d * p 3) := by
      intro a b c d
      refine sum4 _ _ _ _ ?_
      rcases h with h | h | h
      · exact .inl (mul _ _ (.inr h))
      · exact .inr (.inl (mul _ _ (.inr h)))
      · exact .inr (.inr (.inl (mul _ _ (.inr h))))
    exact ⟨h' _ _ _ _, h' _ _ _ _, h' _ _ _ _⟩
  · intro r h
    exact sum4 _ _ _ _ (.inl (mul _ _ (.inl h)))
  · intro r m h
    exact mul _ _ (.inr (mul _ _ (.inr (sum4 _ _ _ _ (.inl (mul _ _ (.inl h)))))))

def qnPoint (x y : QN) : Fin 4 → QN := ![x, y, num 0, num 1]

def qnCloud (l : List (Fin 4 → QN)) : Cloud (Fin 4 → QN) QN := ⟨l.map some, l.map fun _ => some ![num 1, num 0, num 0, num 0], l.map fun _ => some (num 1)⟩

theorem qnCloud_supplied (needs : Needs) (l l' : List (Fin 4 → QN)) : Supplied needs (qnCloud l) (qnCloud l') := by
  have h : ∀ (l : List (Fin 4 → QN)), PointsSet (qnCloud l) ∧ NormalsSet (qnCloud l) ∧ CovsSet (qnCloud l) := by
    intro l
    refine ⟨fun i hi => ?_, fun i hi => ?_, fun i hi => ?_⟩ <;>
      (simp only [qnCloud, List.length_map] at hi ⊢; rw [List.getElem?_map, List.getElem?_eq_getElem hi]; exact ⟨_, rfl⟩)
  exact ⟨(h l).1, (h l').1, fun _ => (h l).2.1, fun _ => (h l).2.2, fun _ => (h l').2.2⟩

/-- Eight points on a line. -/
def qnTarget : Cloud (Fin 4 → QN) QN := qnCloud ((List.range 8).map fun (i : ℕ) => qnPoint (num (10 * i)) (num 0))

/-- Three of them moved by 1, and perhaps a fourth. -/
def qnSource (l : List (Fin 4 → QN)) : Cloud (Fin 4 → QN) QN := qnCloud ([qnPoint (num 9) (num 0), qnPoint (num 19) (num 0), qnPoint (num 29) (num 0)] ++ l)

def qnBuilder : Builder QN := ⟨3, fun _ _ => .ok (.axis .x), fun l _ => l⟩

def qnTree : KdTree.Tree QN := ⟨[0, 1, 2, 3, 4, 5, 6, 7],
  [⟨.sub (.axis .x) (num 40), 1, 4⟩, ⟨.sub (.axis .x) (num 20), 2, 3⟩, ⟨.leaf 0 2, INVALID_NODE, INVALID_NODE⟩, ⟨.leaf 2 4, INVALID_NODE, INVALID_NODE⟩,
   ⟨.sub (.axis .x) (num 60), 5, 6⟩, ⟨.leaf 4 6, INVALID_NODE, INVALID_NODE⟩, ⟨.leaf 6 8, INVALID_NODE, INVALID_NODE⟩], some 0⟩

def qnPoints : List (Pt QN) := (List.range 8).map fun (i : ℕ) => ⟨num (10 * i), num 0, num 0, num 1⟩

def qnConfig : Machine.Config QN QN QN QN QN where
  rejector := Machine.distanceRejector (num 4)
  updateLinearized := fun _ s => s
  updateError := fun _ e => e
  delta := fun l A b => (num 0 - b) / (A + l)
  step := fun T d => T + d
  converged := fun d => decide (d ≤ num (1 / 100)) && decide (num (-1 / 100) ≤ d)

def qnSetting : Machine.LMSetting QN := ⟨20, 10, num (1 / 1000), num 10⟩

/-- The tree is that of the builder. -/
example : Machine.cloudPoints qnTarget = .ok qnPoints ∧ KdTree.construct qnOps qnBuilder 9 qnPoints = .ok qnTree := by
  constructor
  · rfl
  · decide +kernel

/-- The theorem applies to all factors of the library, here to GICP with a robust kernel. -/
example (wt sqrt : QN → QN) : ∃ A b' e fs, Machine.align (Machine.robust qnEval wt sqrt (Machine.gicpFactor qnEval))
      (Machine.cloudWorld qnTarget (qnSource [qnPoint (num 39) nan]) (Machine.kdNearest qnEval (num 1000000) qnPoints qnTree 9 (0, num 0))) qnConfig (fun _ _ => .serial) (fun _ _ => .serial)
      (.lm qnSetting) (num 0) 4 = .ok (⟨num 0, false, 0, List.countP (fun f : Machine.GICP QN => decide (f.target ≠ npos)) fs, A, b', e⟩, fs, [⟨num 0, fs, A, b', e, 10, none, num 0, e⟩]) ∧ IsNaN e ∧
    ∃ f, fs[3]? = some f ∧ decide (f.target ≠ npos) = true ∧ some 7 = some f.target := by
  have hpts : Machine.cloudPoints qnTarget = .ok qnPoints := rfl
  have ht : KdTree.construct qnOps qnBuilder 9 qnPoints = .ok qnTree := by decide +kernel
  exact C98_nan_source (source := qnSource [qnPoint (num 39) nan]) qnEval_strict (.robust wt sqrt .gicp) (qnCloud_supplied _ _ _) (by decide) (by decide) qnBuilder (fun _ _ => List.Perm.refl _)
    (fun _ _ _ _ => ⟨_, rfl, trivial⟩) (by unfold SafeLeafSize toU64; decide) hpts (fuelB := 9) (fuel := 9) (by decide) (by decide) ht (num 1000000) (0, num 0) qnConfig (.inr ⟨num 4, rfl⟩)
    (fun _ _ => rfl) (fun _ _ => rfl) (fun _ _ => .serial) (fun _ _ => .serial) (fun _ _ => trivial) (fun _ _ => trivial) qnSetting (by decide) (num 0) (i := 3) (p := qnPoint (num 39) nan) rfl
    (.inr (.inl ((QN.isNaN_iff _).2 rfl)))

/-- The three points alone are registered; with a fourth far away too, which the gate drops; with a NaN instead, the guess comes back. -/
def qnRun (l : List (Fin 4 → QN)) : Option ((QN × Bool × Nat) × Nat) :=
  ((Machine.align (Machine.icpFactor qnEval) (Machine.cloudWorld qnTarget (qnSource l) (Machine.kdNearest qnEval (num 1000000) qnPoints qnTree 9 (0, num 0))) qnConfig (fun _ _ => .serial)
    (fun _ _ => .serial) (.lm qnSetting) (num 0) (3 + l.length)).map fun x => ((x.1.T, x.1.converged, x.1.iterations), x.1.numInliers)).toOption

theorem C98_example : (∃ q, qnRun [] = some ((num q, true, 1), 3) ∧ |q - 1| < 1 / 1000000) ∧ (∃ q, qnRun [qnPoint (num 1000) (num 0)] = some ((num q, true, 1), 3) ∧ |q - 1| < 1 / 1000000) ∧
    qnRun [qnPoint (num 39) nan] = some ((num 0, false, 0), 4) := by
  have h : |(90033000 / 90033001 : ℚ) - 1| < 1 / 1000000 := by rw [abs_lt]; norm_num
  exact ⟨⟨90033000 / 90033001, by decide +kernel, h⟩, ⟨90033000 / 90033001, by decide +kernel, h⟩, by decide +kernel⟩

end Example

end Verif.Props
