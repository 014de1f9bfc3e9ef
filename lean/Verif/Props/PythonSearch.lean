import Verif.Model.PythonSearch
import Verif.Spec.PythonSearch
import Verif.Proofs.KnnResult
import Verif.Proofs.KdBuild
import Verif.Proofs.Parallel
import Verif.Props.KdTreeExamples

/-!
C55: the batch searches of the Python module equal the individual searches, for every schedule.
-/

set_option linter.unusedSectionVars false
set_option linter.unusedSimpArgs false

namespace Verif.Props

open Verif Verif.Knn Verif.KdTree Verif.Proofs Verif.PySearch Verif.Spec

variable {D : Type} [LinearOrder D]

/-! ### a search does not depend on the arrays it is given -/

/-- Two runs fail alike, or leave two buffers with the same contents. -/
def SameRun (maxD : D) (cap : Nat) (ti ti' : List Nat) (td td' : List D) (x x' : Res (KnnResult D)) : Prop :=
  (∃ e, x = .error e ∧ x' = .error e) ∨
  ∃ r r' L, x = .ok r ∧ x' = .ok r' ∧ Holds maxD cap ti td r L ∧ Holds maxD cap ti' td' r' L

theorem leafLoop_same (o : Ops D) (points : List (Pt D)) (indices : List Nat) (q : Pt D) {maxD : D} {cap : Nat} {ti ti' : List Nat}
    {td td' : List D} : ∀ (cnt i : Nat) (r r' : KnnResult D) (L : List (Nat × D)), Holds maxD cap ti td r L → Holds maxD cap ti' td' r' L →
      SameRun maxD cap ti ti' td td' (leafLoop o points indices q cnt i r) (leafLoop o points indices q cnt i r')
  | 0, _, r, r', L, h, h' => Or.inr ⟨r, r', L, rfl, rfl, h, h'⟩
  | cnt + 1, i, r, r', L, h, h' => by
    rw [leafLoop, leafLoop]
    rcases rd indices i with e | idx
    · exact Or.inl ⟨e, rfl, rfl⟩
    · rw [ok_bind, ok_bind]
      rcases rd points idx with e | p
      · exact Or.inl ⟨e, rfl, rfl⟩
      · rw [ok_bind, ok_bind]
        obtain ⟨r1, h1, h2⟩ := push_holds h id idx (Pt.sqDist o p q)
        obtain ⟨r1', h1', h2'⟩ := push_holds h' id idx (Pt.sqDist o p q)
        rw [h1, h1', ok_bind, ok_bind]
        exact leafLoop_same o points indices q cnt (i + 1) r1 r1' _ h2 h2'

/-- The same for runs with a flag. -/
def SameRunB (maxD : D) (cap : Nat) (ti ti' : List Nat) (td td' : List D) (x x' : Res (Bool × KnnResult D)) : Prop :=
  (∃ e, x = .error e ∧ x' = .error e) ∨
  ∃ b r r' L, x = .ok (b, r) ∧ x' = .ok (b, r') ∧ Holds maxD cap ti td r L ∧ Holds maxD cap ti' td' r' L

theorem searchNode_same (o : Ops D) (points : List (Pt D)) (t : KdTree.Tree D) (q : Pt D) (eps : D) {maxD : D} {cap : Nat} {ti ti' : List Nat}
    {td td' : List D} : ∀ (fuel n : Nat) (r r' : KnnResult D) (L : List (Nat × D)), Holds maxD cap ti td r L → Holds maxD cap ti' td' r' L →
      SameRunB maxD cap ti ti' td td' (searchNode o points t q eps fuel n r) (searchNode o points t q eps fuel n r')
  | 0, _, _, _, _, _, _ => Or.inl ⟨_, rfl, rfl⟩
  | fuel + 1, n, r, r', L, h, h' => by
    rw [searchNode, searchNode]
    rcases rd t.nodes n with e | node
    · exact Or.inl ⟨e, rfl, rfl⟩
    · rw [ok_bind, ok_bind]
      by_cases hl : node.left = INVALID_NODE
      · rw [if_pos hl, if_pos hl]
        rcases node.payload with _ | ⟨first, last⟩ | ⟨proj, thresh⟩
        · exact Or.inl ⟨_, rfl, rfl⟩
        · simp only
          rcases leafLoop_same o points t.indices q (last - first) first r r' L h h' with ⟨e, h1, h2⟩ | ⟨s, s', L', h1, h2, h3, h4⟩
          · rw [h1, h2]; exact Or.inl ⟨e, rfl, rfl⟩
          · rw [h1, h2, ok_bind, ok_bind]
            unfold fulfilled
            rw [h3.worst, h4.worst]
            exact Or.inr ⟨_, s, s', L', rfl, rfl, h3, h4⟩
        · exact Or.inl ⟨_, rfl, rfl⟩
      · rw [if_neg hl, if_neg hl]
        rcases node.payload with _ | ⟨first, last⟩ | ⟨proj, thresh⟩
        · exact Or.inl ⟨_, rfl, rfl⟩
        · exact Or.inl ⟨_, rfl, rfl⟩
        · simp only
          generalize (if o.sub (proj.eval o q) thresh < o.zero then node.left else node.right) = best
          generalize (if o.sub (proj.eval o q) thresh < o.zero then node.right else node.left) = other
          generalize o.mul _ _ = cut
          rcases searchNode_same o points t q eps fuel best r r' L h h' with ⟨e, h1, h2⟩ | ⟨b, s, s', L', h1, h2, h3, h4⟩
          · rw [h1, h2]; exact Or.inl ⟨e, rfl, rfl⟩
          · rw [h1, h2, ok_bind, ok_bind]
            simp only
            cases b with
            | false => exact Or.inr ⟨false, s, s', L', rfl, rfl, h3, h4⟩
            | true =>
              simp only [Bool.true_eq_false, if_false]
              rw [h3.worst, h4.worst, ok_bind, ok_bind]
              by_cases hc : cut < worstOf maxD cap L'
              · rw [if_pos hc, if_pos hc]
                exact searchNode_same o points t q eps fuel other s s' L' h3 h4
              · rw [if_neg hc, if_neg hc]
                exact Or.inr ⟨true, s, s', L', rfl, rfl, h3, h4⟩

theorem knnSearch_same (o : Ops D) (maxD : D) (points : List (Pt D)) (t : KdTree.Tree D) (fuel : Nat) (N nn : Int) (cap : Nat) (q : Pt D) (eps : D)
    (hcap : cap = if 0 < N then N.toNat else nn.toNat) (hpos : 0 < cap) (hnn : 0 < N → nn < 0)
    (i i' : List Nat) (d d' : List D) (h1 : cap ≤ i.length) (h2 : cap ≤ d.length) (h3 : cap ≤ i'.length) (h4 : cap ≤ d'.length) :
    SameRun maxD cap (i.drop cap) (i'.drop cap) (d.drop cap) (d'.drop cap)
      (knnSearch o maxD points t fuel N nn i d q eps) (knnSearch o maxD points t fuel N nn i' d' q eps) := by
  obtain ⟨r, e1, g1⟩ := construct_holds maxD N i d nn cap hcap hpos hnn h1 h2
  obtain ⟨r', e2, g2⟩ := construct_holds maxD N i' d' nn cap hcap hpos hnn h3 h4
  unfold knnSearch
  rw [e1, e2, ok_bind, ok_bind]
  rcases t.root with _ | root
  · exact Or.inl ⟨_, rfl, rfl⟩
  · simp only
    rcases searchNode_same o points t q eps fuel root r r' [] g1 g2 with ⟨e, a, b⟩ | ⟨b, s, s', L', a, c, g3, g4⟩
    · rw [a, b]; exact Or.inl ⟨e, rfl, rfl⟩
    · rw [a, c]; exact Or.inr ⟨s, s', L', rfl, rfl, g3, g4⟩

/-! ### rows -/

theorem padLoop_same (maxD : D) (A : List Nat) (B : List D) (ti : List Nat) (td : List D) : ∀ (c j : Nat), A.length = j → B.length = j →
    padLoop maxD c j (A ++ (List.replicate c INVALID ++ ti), B ++ (List.replicate c maxD ++ td)) =
      .ok (A ++ (List.replicate c INVALID ++ ti), B ++ (List.replicate c maxD ++ td)) := by
  intro c
  induction c generalizing A B with
  | zero => intro j _ _; rfl
  | succ c ih =>
    intro j hA hB
    rw [padLoop]
    simp only [List.replicate_succ, List.cons_append]
    have e1 := wr_append A INVALID INVALID (List.replicate c INVALID ++ ti)
    have e2 := wr_append B maxD maxD (List.replicate c maxD ++ td)
    rw [hA] at e1
    rw [hB] at e2
    rw [e1, ok_bind, e2, ok_bind]
    have := ih (A ++ [INVALID]) (B ++ [maxD]) (j + 1) (by simp [hA]) (by simp [hB])
    simpa using this

/-- The individual search, and the effect of a turn of the batch loop on the arrays: the row of the query receives the result of the
individual search, and everything else stays as it is. -/
theorem C55_footprint (g : Target D) (pts : List (D × D × D)) (k : Int) (hk : 0 < k) (s : List Nat × List D) (i : Nat) (q : D × D × D)
    (hq : pts[i]? = some q) (hik : (i : Int) * k < 2 ^ 31) (h1 : i * k.toNat + k.toNat ≤ s.1.length) (h2 : i * k.toNat + k.toNat ≤ s.2.length) :
    (∃ e, knnOne g q k = .error e ∧ batchKnnStep g pts k s i = .error e) ∨
    ∃ found row, found.length ≤ k.toNat ∧ row = paddedRow k.toNat INVALID g.maxD found ∧ knnOne g q k = .ok row ∧
      batchKnnStep g pts k s i =
        .ok (s.1.take (i * k.toNat) ++ row.1 ++ s.1.drop (i * k.toNat + k.toNat),
             s.2.take (i * k.toNat) ++ row.2 ++ s.2.drop (i * k.toNat + k.toNat)) := by
  obtain ⟨n, rfl⟩ : ∃ n : Nat, k = n := ⟨k.toNat, by omega⟩
  simp only [Int.toNat_natCast] at *
  have hoff : mulInt i n = .ok ((i * n : Nat) : Int) := by
    unfold mulInt
    have h0 : (0 : Int) ≤ (i : Int) * n := by positivity
    rw [if_pos ⟨by omega, hik⟩, Int.natCast_mul]
  unfold batchKnnStep knnOne
  rw [hoff, ok_bind, rd_of_getElem? hq, ok_bind, if_neg (by omega)]
  simp only [Int.toNat_natCast]
  have hsame := knnSearch_same g.ops g.maxD g.points g.tree g.fuel (-1) n n (g.query q) g.ops.zero (by simp) (by omega) (by omega)
    (List.replicate n INVALID) (s.1.drop (i * n)) (List.replicate n g.maxD) (s.2.drop (i * n)) (by simp) (by simp)
    (by rw [List.length_drop]; omega) (by rw [List.length_drop]; omega)
  unfold Target.knn
  rcases hsame with ⟨e, a, b⟩ | ⟨r, r', L, a, b, h3, h4⟩
  · rw [a, b]; exact Or.inl ⟨e, rfl, rfl⟩
  · rw [a, b, ok_bind, ok_bind]
    refine Or.inr ⟨L, _, h3.len, rfl, ?_, ?_⟩
    · rw [h3.ind, h3.dis]
      simp [paddedRow]
    · rw [h4.found, h4.ind, h4.dis, padLoop_same _ _ _ _ _ _ _ (by simp) (by simp), ok_bind]
      simp [paddedRow, List.drop_drop, List.append_assoc]

/-- The row of an array of rows of length `k`. -/
def rowOf {α : Type} (l : List α) (k i : Nat) : List α := (l.drop (i * k)).take k

theorem rowOf_replace_self {α : Type} (l row : List α) (k i : Nat) (hr : row.length = k) (h : i * k + k ≤ l.length) :
    rowOf (l.take (i * k) ++ row ++ l.drop (i * k + k)) k i = row := by
  unfold rowOf
  have hl : (l.take (i * k)).length = i * k := by rw [List.length_take]; omega
  rw [List.append_assoc, List.drop_append_of_le_length (by omega), List.drop_of_length_le (by omega), List.nil_append,
    List.take_append_of_le_length (by omega), List.take_of_length_le (by omega)]

theorem rowOf_replace_ne {α : Type} (l row : List α) (k i j : Nat) (hr : row.length = k) (h : i * k + k ≤ l.length) (hij : i ≠ j) :
    rowOf (l.take (i * k) ++ row ++ l.drop (i * k + k)) k j = rowOf l k j := by
  unfold rowOf
  have hl : (l.take (i * k)).length = i * k := by rw [List.length_take]; omega
  apply List.ext_getElem?
  intro m
  rw [List.getElem?_take, List.getElem?_take]
  by_cases hm : m < k
  · rw [if_pos hm, if_pos hm, List.getElem?_drop, List.getElem?_drop]
    rcases Nat.lt_or_ge i j with hlt | hge
    · have : (i + 1) * k ≤ j * k := Nat.mul_le_mul_right k hlt
      rw [Nat.add_mul, Nat.one_mul] at this
      rw [List.getElem?_append_right (by simp only [List.length_append]; omega), List.getElem?_drop]
      simp only [List.length_append, hl, hr]
      congr 1
      omega
    · have hlt : j < i := by omega
      have : (j + 1) * k ≤ i * k := Nat.mul_le_mul_right k hlt
      rw [Nat.add_mul, Nat.one_mul] at this
      rw [List.append_assoc, List.getElem?_append_left (by omega), List.getElem?_take, if_pos (by omega)]
  · rw [if_neg hm, if_neg hm]

theorem paddedRow_length {k n : Nat} {far : D} {found : List (Nat × D)} (h : found.length ≤ k) :
    (paddedRow k n far found).1.length = k ∧ (paddedRow k n far found).2.length = k := by
  unfold paddedRow; simp; omega

/-- C55: for every matrix of queries, number of neighbours, distribution of the iterations over the threads and schedule, the batch search
succeeds when all individual searches do, and row `i` of the result is the result of the individual search for query `i`, which is the list of
neighbours found padded with `-1` and the largest `double`. Partial: the number of results must fit into `int`
(`C55_overflow_violated`). -/
theorem C55_knn_partial (g : Target D) (cols : Nat) (hcols : cols = 3 ∨ cols = 4) (pts : List (D × D × D)) (k : Int) (hk : 0 < k)
    (hsize : (pts.length : Int) * k ≤ 2 ^ 31) (chunks : List (List Nat)) (hchunks : chunks.flatten.Perm (List.range pts.length))
    (sched : List Nat) (out : Res (List Nat × List D)) (hout : batchKnn g cols pts k chunks sched = some out)
    (rows : Nat → List Nat × List D) (hone : ∀ i q, pts[i]? = some q → knnOne g q k = .ok (rows i)) :
    ∃ ind dis, out = .ok (ind, dis) ∧ ind.length = pts.length * k.toNat ∧ dis.length = pts.length * k.toNat ∧
      ∀ i, i < pts.length → rowOf ind k.toNat i = (rows i).1 ∧ rowOf dis k.toNat i = (rows i).2 ∧
        ∃ found, found.length ≤ k.toNat ∧ rows i = paddedRow k.toNat INVALID g.maxD found := by
  unfold batchKnn at hout
  obtain ⟨order, horder, rfl⟩ := Option.map_eq_some_iff.1 hout
  rw [if_neg (by omega), if_neg (by omega)]
  have hperm : order.Perm (List.range pts.length) := (parOrder_perm sched chunks order horder).trans hchunks
  have hnd : order.Nodup := hperm.nodup_iff.2 List.nodup_range
  have hrow : ∀ i, i < pts.length → i * k.toNat + k.toNat ≤ pts.length * k.toNat := by
    intro i hi
    have : (i + 1) * k.toNat ≤ pts.length * k.toNat := Nat.mul_le_mul_right _ hi
    rwa [Nat.add_mul, Nat.one_mul] at this
  have hik : ∀ i, i < pts.length → (i : Int) * k < 2 ^ 31 := by
    intro i hi
    have h1 : ((i : Int) + 1) * k ≤ (pts.length : Int) * k := Int.mul_le_mul_of_nonneg_right (by omega) (by omega)
    rw [Int.add_mul, Int.one_mul] at h1
    omega
  obtain ⟨⟨ind, dis⟩, h1, h2, h3, h4⟩ := foldlM_inv (batchKnnStep g pts k)
    (fun done s => s.1.length = pts.length * k.toNat ∧ s.2.length = pts.length * k.toNat ∧
      ∀ i ∈ done, rowOf s.1 k.toNat i = (rows i).1 ∧ rowOf s.2 k.toNat i = (rows i).2 ∧
        ∃ found, found.length ≤ k.toNat ∧ rows i = paddedRow k.toNat INVALID g.maxD found)
    order (List.replicate (pts.length * k.toNat) INVALID, List.replicate (pts.length * k.toNat) g.maxD)
    ⟨by simp, by simp, by simp⟩ (by
      intro done i rest hd s ⟨hs1, hs2, hs3⟩
      have hi : i < pts.length := List.mem_range.1 (hperm.mem_iff.1 (by rw [hd]; simp))
      have hq : pts[i]? = some pts[i] := List.getElem?_eq_getElem hi
      have hle := hrow i hi
      have hni : i ∉ done := by
        rw [hd, List.nodup_append] at hnd
        intro hmem
        exact hnd.2.2 i hmem i (by simp) rfl
      rcases C55_footprint g pts k hk s i pts[i] hq (hik i hi) (by omega) (by omega) with ⟨e, he, -⟩ | ⟨found, row, hf, hr, ho, hb⟩
      · rw [hone i _ hq] at he; cases he
      · rw [hone i _ hq] at ho
        have hro : rows i = row := Except.ok.inj ho
        obtain ⟨hl1, hl2⟩ := paddedRow_length (k := k.toNat) (n := INVALID) (far := g.maxD) hf
        rw [← hr] at hl1 hl2
        refine ⟨_, hb, ?_, ?_, ?_⟩
        · simp only [List.length_append, List.length_take, List.length_drop]; omega
        · simp only [List.length_append, List.length_take, List.length_drop]; omega
        · intro j hj
          rcases List.mem_append.1 hj with hj | hj
          · have hij : i ≠ j := by rintro rfl; exact hni hj
            obtain ⟨a, b, c⟩ := hs3 j hj
            refine ⟨?_, ?_, c⟩
            · rw [rowOf_replace_ne _ _ _ _ _ hl1 (by omega) hij]; exact a
            · rw [rowOf_replace_ne _ _ _ _ _ hl2 (by omega) hij]; exact b
          · have : j = i := by simpa using hj
            subst this
            refine ⟨?_, ?_, found, hf, by rw [hro, hr]⟩
            · rw [rowOf_replace_self _ _ _ _ hl1 (by omega), hro]
            · rw [rowOf_replace_self _ _ _ _ hl2 (by omega), hro])
  refine ⟨ind, dis, h1, h2, h3, fun i hi => h4 i (hperm.mem_iff.2 (List.mem_range.2 hi))⟩

/-- C55, violated part: the offset of a row is computed in `int`, so that a batch in which the offset of the last row does not fit has no
defined result, whatever the tree, the queries and the schedule. -/
theorem C55_overflow_violated (g : Target D) (cols : Nat) (pts : List (D × D × D)) (k : Int) (n : Nat) (hn : pts.length = n + 1)
    (hsize : 2 ^ 31 ≤ (n : Int) * k) (chunks : List (List Nat)) (hchunks : chunks.flatten.Perm (List.range pts.length))
    (sched : List Nat) (out : Res (List Nat × List D)) (hout : batchKnn g cols pts k chunks sched = some out) : ∃ e, out = .error e := by
  unfold batchKnn at hout
  obtain ⟨order, horder, rfl⟩ := Option.map_eq_some_iff.1 hout
  have hperm : order.Perm (List.range pts.length) := (parOrder_perm sched chunks order horder).trans hchunks
  have hmem : n ∈ order := hperm.mem_iff.2 (List.mem_range.2 (by omega))
  have hstep : ∀ s, batchKnnStep g pts k s n = .error .intOverflow := by
    intro s
    unfold batchKnnStep mulInt
    rw [if_neg (by omega)]
    rfl
  have key : ∀ (l : List Nat) (s : List Nat × List D), n ∈ l → ∃ e, l.foldlM (batchKnnStep g pts k) s = .error e := by
    intro l
    induction l with
    | nil => intro s h; cases h
    | cons a l ih =>
      intro s h
      rw [List.foldlM_cons]
      rcases hs : batchKnnStep g pts k s a with e | s'
      · exact ⟨e, rfl⟩
      · rw [ok_bind]
        rcases List.mem_cons.1 h with rfl | h
        · rw [hstep] at hs; cases hs
        · exact ih s' h
  split_ifs
  · exact ⟨_, rfl⟩
  · exact ⟨_, rfl⟩
  · exact key _ _ hmem

/-- C55, the numbers of neighbours that are no capacity. A negative `k` is an exception of the individual search and of the batch. With
`k = 0` the individual search ends the whole Python process, and so does a batch, unless there is no query: then it returns no row. -/
theorem C55_bad_k (g : Target D) (cols : Nat) (hcols : cols = 3 ∨ cols = 4) (pts : List (D × D × D)) (k : Int) (hk : k ≤ 0)
    (chunks : List (List Nat)) (hchunks : chunks.flatten.Perm (List.range pts.length)) (sched : List Nat) (out : Res (List Nat × List D))
    (hout : batchKnn g cols pts k chunks sched = some out) :
    (∀ q, knnOne g q k = .error (if k = 0 then .abort else .exception)) ∧
    out = if k < 0 then .error .exception else if pts = [] then .ok ([], []) else .error .abort := by
  have hknn : k = 0 → ∀ ind dis q, g.knn k ind dis q = .error .abort := by
    intro h0 ind dis q
    unfold Target.knn KdTree.knnSearch Knn.construct
    rw [if_neg (by omega), if_pos (by omega)]
    rfl
  unfold batchKnn at hout
  obtain ⟨order, horder, rfl⟩ := Option.map_eq_some_iff.1 hout
  have hperm : order.Perm (List.range pts.length) := (parOrder_perm sched chunks order horder).trans hchunks
  have hc : ¬ (cols ≠ 3 ∧ cols ≠ 4) := by rcases hcols with rfl | rfl <;> decide
  rw [if_neg hc]
  rcases Int.lt_or_eq_of_le hk with h | h
  · refine ⟨fun q => ?_, by rw [if_pos h, if_pos h]⟩
    unfold knnOne
    rw [if_pos h, if_neg (show ¬ k = 0 by omega)]
  · refine ⟨fun q => ?_, ?_⟩
    · unfold knnOne
      rw [if_neg (show ¬ k < 0 by omega), hknn h, if_pos h]
      rfl
    · rw [if_neg (show ¬ k < 0 by omega), if_neg (show ¬ k < 0 by omega)]
      by_cases hp : pts = []
      · subst hp
        rw [List.perm_nil.1 hperm, if_pos rfl, h]
        rfl
      · rw [if_neg hp]
        obtain ⟨a, l, rfl⟩ : ∃ a l, order = a :: l := by
          cases order with
          | nil => exact absurd (List.length_eq_zero_iff.1 (by simpa using hperm.length_eq.symm)) hp
          | cons a l => exact ⟨a, l, rfl⟩
        have ha : a < pts.length := List.mem_range.1 (hperm.mem_iff.1 (by simp))
        rw [List.foldlM_cons]
        subst h
        have hr : rd pts a = .ok pts[a] := by unfold rd; rw [List.getElem?_eq_getElem ha]
        unfold batchKnnStep mulInt
        rw [if_pos (by simp), ok_bind, hr, ok_bind, hknn rfl]
        rfl

/-- A fault of an individual search is a fault of the batch. -/
theorem C55_knn_fault (g : Target D) (cols : Nat) (pts : List (D × D × D)) (k : Int) (hk : 0 < k)
    (hsize : (pts.length : Int) * k ≤ 2 ^ 31) (chunks : List (List Nat)) (hchunks : chunks.flatten.Perm (List.range pts.length))
    (sched : List Nat) (out : List Nat × List D) (hout : batchKnn g cols pts k chunks sched = some (.ok out)) :
    ∀ (i : Nat) q, pts[i]? = some q → ∃ row, knnOne g q k = .ok row := by
  unfold batchKnn at hout
  obtain ⟨order, horder, hres⟩ := Option.map_eq_some_iff.1 hout
  have hperm : order.Perm (List.range pts.length) := (parOrder_perm sched chunks order horder).trans hchunks
  split_ifs at hres
  have key : ∀ (l : List Nat) (s s' : List Nat × List D), (∀ i ∈ l, i < pts.length) → s.1.length = pts.length * k.toNat →
      s.2.length = pts.length * k.toNat → l.foldlM (batchKnnStep g pts k) s = .ok s' →
      ∀ i ∈ l, ∀ q, pts[i]? = some q → ∃ row, knnOne g q k = .ok row := by
    intro l
    induction l with
    | nil => intro s s' _ _ _ _ i hi; cases hi
    | cons a l ih =>
      intro s s' hl h1 h2 h i hi q hq
      rw [List.foldlM_cons] at h
      have ha : a < pts.length := hl a (by simp)
      have hle : a * k.toNat + k.toNat ≤ pts.length * k.toNat := by
        have : (a + 1) * k.toNat ≤ pts.length * k.toNat := Nat.mul_le_mul_right _ ha
        rwa [Nat.add_mul, Nat.one_mul] at this
      have hak : (a : Int) * k < 2 ^ 31 := by
        have h1 : ((a : Int) + 1) * k ≤ (pts.length : Int) * k := Int.mul_le_mul_of_nonneg_right (by omega) (by omega)
        rw [Int.add_mul, Int.one_mul] at h1
        omega
      have hqa : pts[a]? = some pts[a] := List.getElem?_eq_getElem ha
      rcases C55_footprint g pts k hk s a pts[a] hqa hak (by omega) (by omega) with ⟨e, he, hb⟩ | ⟨found, row, hf, hr, ho, hb⟩
      · rw [hb] at h; cases h
      · rw [hb, ok_bind] at h
        rcases List.mem_cons.1 hi with rfl | hi
        · rw [hqa] at hq; cases hq; exact ⟨row, ho⟩
        · obtain ⟨hl1, hl2⟩ := paddedRow_length (k := k.toNat) (n := INVALID) (far := g.maxD) hf
          rw [← hr] at hl1 hl2
          refine ih _ s' (fun j hj => hl j (by simp [hj])) ?_ ?_ h i hi q hq
          · simp only [List.length_append, List.length_take, List.length_drop]; omega
          · simp only [List.length_append, List.length_take, List.length_drop]; omega
  intro i q hq
  have hi : i < pts.length := (List.getElem?_eq_some_iff.1 hq).1
  exact key order _ out (fun j hj => List.mem_range.1 (hperm.mem_iff.1 hj)) (by simp) (by simp) hres i
    (hperm.mem_iff.2 (List.mem_range.2 hi)) q hq

/-! ### nearest neighbour -/

/-- One turn of the nearest neighbour batch: entry `i` receives the result of the individual search, the rest stays. -/
theorem C55_nearest_footprint (g : Target D) (pts : List (D × D × D)) (s : List Nat × List D) (i : Nat) (q : D × D × D)
    (hq : pts[i]? = some q) (h1 : i < s.1.length) (h2 : i < s.2.length) :
    (∃ e, nearestOne g q = .error e ∧ batchNearestStep g pts s i = .error e) ∨
    ∃ n j d, nearestOne g q = .ok (n, j, d) ∧ (n = 0 → j = INVALID ∧ d = g.maxD) ∧ n ≤ 1 ∧
      batchNearestStep g pts s i = .ok (s.1.set i j, s.2.set i d) := by
  unfold batchNearestStep nearestOne Target.nearest nearestNeighborSearch
  rw [rd_of_getElem? hq, ok_bind]
  have hsame := knnSearch_same g.ops g.maxD g.points g.tree g.fuel 1 (-1) 1 (g.query q) g.ops.zero (by simp) (by omega) (by omega)
    [INVALID] (s.1.drop i) [g.maxD] (s.2.drop i) (by simp) (by simp) (by rw [List.length_drop]; omega) (by rw [List.length_drop]; omega)
  rcases hsame with ⟨e, a, b⟩ | ⟨r, r', L, a, b, h3, h4⟩
  · rw [a, b]; exact Or.inl ⟨e, rfl, rfl⟩
  · rw [a, b, ok_bind, ok_bind]
    have set_eq : ∀ {α : Type} (l : List α) (x : α), i < l.length → l.take i ++ ([x] ++ (l.drop i).drop 1) = l.set i x := by
      intro α l x hl
      rw [List.drop_drop, List.set_eq_take_append_cons_drop, if_pos hl]
      rfl
    rcases L with _ | ⟨c, L⟩
    · have e1 : r.indices = [INVALID] := by rw [h3.ind]; rfl
      have e2 : r.distances = [g.maxD] := by rw [h3.dis]; rfl
      have e3 : r'.indices = [INVALID] ++ (s.1.drop i).drop 1 := by rw [h4.ind]; rfl
      have e4 : r'.distances = [g.maxD] ++ (s.2.drop i).drop 1 := by rw [h4.dis]; rfl
      have e5 : r.numFound = 0 := h3.found
      have e6 : r'.numFound = 0 := h4.found
      refine Or.inr ⟨0, INVALID, g.maxD, ?_, fun _ => ⟨rfl, rfl⟩, by omega, ?_⟩
      · rw [e1, e2, e5]; rfl
      · simp only [e6, if_true, e3, e4, set_eq _ _ h1, set_eq _ _ h2]
        rw [wr_of_lt _ (by simpa using h1), ok_bind, wr_of_lt _ (by simpa using h2), ok_bind, List.set_set, List.set_set]
    · have hL : L = [] := by
        have := h3.len
        rw [List.length_cons] at this
        exact List.length_eq_zero_iff.1 (by omega)
      subst hL
      have e1 : r.indices = [c.1] := by rw [h3.ind]; rfl
      have e2 : r.distances = [c.2] := by rw [h3.dis]; rfl
      have e3 : r'.indices = [c.1] ++ (s.1.drop i).drop 1 := by rw [h4.ind]; rfl
      have e4 : r'.distances = [c.2] ++ (s.2.drop i).drop 1 := by rw [h4.dis]; rfl
      have e5 : r.numFound = 1 := h3.found
      have e6 : r'.numFound = 1 := h4.found
      refine Or.inr ⟨1, c.1, c.2, ?_, fun h => by omega, by omega, ?_⟩
      · rw [e1, e2, e5]; rfl
      · simp only [e6, e3, e4, set_eq _ _ h1, set_eq _ _ h2]
        rfl

/-- C55 for the nearest neighbour: entry `i` of the result of the batch is the result of the individual search for query `i`, with `-1` and the
largest `double` if nothing was found; for every schedule. -/
theorem C55_nearest (g : Target D) (cols : Nat) (hcols : cols = 3 ∨ cols = 4) (pts : List (D × D × D)) (chunks : List (List Nat))
    (hchunks : chunks.flatten.Perm (List.range pts.length)) (sched : List Nat) (out : Res (List Nat × List D))
    (hout : batchNearest g cols pts chunks sched = some out)
    (one : Nat → Nat × Nat × D) (hone : ∀ i q, pts[i]? = some q → nearestOne g q = .ok (one i)) :
    ∃ ind dis, out = .ok (ind, dis) ∧ ind.length = pts.length ∧ dis.length = pts.length ∧
      ∀ i, i < pts.length → ind[i]? = some (one i).2.1 ∧ dis[i]? = some (one i).2.2 ∧
        ((one i).1 = 0 → one i = (0, INVALID, g.maxD)) := by
  unfold batchNearest at hout
  obtain ⟨order, horder, rfl⟩ := Option.map_eq_some_iff.1 hout
  rw [if_neg (by omega)]
  have hperm : order.Perm (List.range pts.length) := (parOrder_perm sched chunks order horder).trans hchunks
  have hnd : order.Nodup := hperm.nodup_iff.2 List.nodup_range
  obtain ⟨⟨ind, dis⟩, h1, h2, h3, h4⟩ := foldlM_inv (batchNearestStep g pts)
    (fun done s => s.1.length = pts.length ∧ s.2.length = pts.length ∧
      ∀ i ∈ done, s.1[i]? = some (one i).2.1 ∧ s.2[i]? = some (one i).2.2 ∧ ((one i).1 = 0 → one i = (0, INVALID, g.maxD)))
    order (List.replicate pts.length INVALID, List.replicate pts.length g.maxD)
    ⟨by simp, by simp, by simp⟩ (by
      intro done i rest hd s ⟨hs1, hs2, hs3⟩
      have hi : i < pts.length := List.mem_range.1 (hperm.mem_iff.1 (by rw [hd]; simp))
      have hq : pts[i]? = some pts[i] := List.getElem?_eq_getElem hi
      have hni : i ∉ done := by
        rw [hd, List.nodup_append] at hnd
        intro hmem
        exact hnd.2.2 i hmem i (by simp) rfl
      rcases C55_nearest_footprint g pts s i pts[i] hq (by omega) (by omega) with ⟨e, he, -⟩ | ⟨n, j, d, ho, h0, -, hb⟩
      · rw [hone i _ hq] at he; cases he
      · rw [hone i _ hq] at ho
        have hro : one i = (n, j, d) := Except.ok.inj ho
        refine ⟨_, hb, by simpa using hs1, by simpa using hs2, ?_⟩
        intro m hm
        rcases List.mem_append.1 hm with hm | hm
        · have him : i ≠ m := by rintro rfl; exact hni hm
          obtain ⟨a, b, c⟩ := hs3 m hm
          refine ⟨?_, ?_, c⟩
          · simp only; rw [List.getElem?_set_ne him]; exact a
          · simp only; rw [List.getElem?_set_ne him]; exact b
        · have : m = i := by simpa using hm
          subst this
          rw [hro]
          refine ⟨?_, ?_, fun h => ?_⟩
          · simp only; rw [List.getElem?_set_self (by omega)]
          · simp only; rw [List.getElem?_set_self (by omega)]
          · obtain ⟨rfl, rfl⟩ := h0 h
            simp only at h; subst h; rfl)
  exact ⟨ind, dis, h1, h2, h3, fun i hi => h4 i (hperm.mem_iff.2 (List.mem_range.2 hi))⟩

/-! ### concrete batch -/

/-- The tree over ten points on a line. -/
def lineTarget : Target Int :=
  ⟨exactOps Int, 1000, 1, linePts Int 10,
    match KdTree.construct (exactOps Int) (xBuilder 3) 20 (linePts Int 10) with
    | .ok t => t
    | .error _ => ⟨[], [], none⟩, 20⟩

/-- Two queries in two threads, the second row first: the hypotheses hold, and 12 neighbours of 10 points leave two places to pad. -/
example : ∃ rows : Nat → List Nat × List Int, ∃ ind dis,
    batchKnn lineTarget 3 [(2, 0, 0), (9, 0, 0)] 12 [[0], [1]] [1, 0] = some (.ok (ind, dis)) ∧
    [[0], [1]].flatten.Perm (List.range 2) ∧
    (∀ (i : Nat) q, [(2, 0, 0), ((9, 0, 0) : Int × Int × Int)][i]? = some q → knnOne lineTarget q 12 = .ok (rows i)) ∧
    rowOf ind 12 1 = [9, 8, 7, 6, 5, 4, 3, 2, 1, 0, 2 ^ 64 - 1, 2 ^ 64 - 1] ∧
    rowOf dis 12 1 = [0, 1, 4, 9, 16, 25, 36, 49, 64, 81, 1000, 1000] := by
  refine ⟨fun i => if i = 0 then ([2, 3, 1, 4, 0, 5, 6, 7, 8, 9, INVALID, INVALID], [0, 1, 1, 4, 4, 9, 16, 25, 36, 49, 1000, 1000])
      else ([9, 8, 7, 6, 5, 4, 3, 2, 1, 0, INVALID, INVALID], [0, 1, 4, 9, 16, 25, 36, 49, 64, 81, 1000, 1000]),
    _, _, rfl, by decide, ?_, by decide, by decide⟩
  intro i q h
  match i with
  | 0 => cases h; rfl
  | 1 => cases h; rfl
  | i + 2 => simp at h

/-- Two queries with `k = 0`: the batch ends the process; without queries it returns nothing. -/
example : batchKnn lineTarget 3 [(2, 0, 0), (9, 0, 0)] 0 [[0], [1]] [1, 0] = some (.error .abort) ∧
    batchKnn lineTarget 3 [] 0 [[]] [] = some (.ok ([], [])) ∧ batchKnn lineTarget 3 [] (-1) [[]] [] = some (.error .exception) :=
  ⟨rfl, rfl, rfl⟩

/-- The size at which the offset overflows: about 134 million queries with 16 neighbours each. -/
example : ∃ n : Nat, (∃ pts : List (Int × Int × Int), pts.length = n + 1) ∧ (2 : Int) ^ 31 ≤ (n : Int) * 16 :=
  ⟨134217728, ⟨List.replicate (134217728 + 1) (0, 0, 0), List.length_replicate⟩, by decide⟩

end Verif.Props
