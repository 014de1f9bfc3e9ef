import Verif.Proofs.KdSearch
import Mathlib.Data.List.Perm.Lattice
import Mathlib.Tactic.Positivity
import Mathlib.Tactic.NormNum

/-!
From the search lemma to the `IsKnn` specification; soundness of pruning in exact arithmetic.
-/

namespace Verif.Proofs

open Verif Verif.Knn Verif.KdTree

section Order
variable {D : Type} [LinearOrder D]

theorem kBest_sorted (maxD : D) (k : Nat) (cs : List (Nat × D)) :
    (Spec.kBest maxD k cs).Pairwise (fun a b => a.2 ≤ b.2) :=
  (mergeSort_sorted Prod.snd _).sublist (List.take_sublist _ _)

theorem kBest_length (maxD : D) (k : Nat) (cs : List (Nat × D)) :
    (Spec.kBest maxD k cs).length = min k (cs.filter (fun c => decide (c.2 < maxD))).length := by
  unfold Spec.kBest
  rw [List.length_take, List.length_mergeSort]

/-- The candidates split into the kept ones and the rest, and no rest is better than a kept one. -/
theorem kBest_split (maxD : D) (k : Nat) (cs : List (Nat × D)) :
    ∃ rest, (Spec.kBest maxD k cs ++ rest).Perm (cs.filter (fun c => decide (c.2 < maxD))) ∧
      ∀ a ∈ Spec.kBest maxD k cs, ∀ b ∈ rest, a.2 ≤ b.2 := by
  refine ⟨((cs.filter (fun c => decide (c.2 < maxD))).mergeSort (fun a b => decide (a.2 ≤ b.2))).drop k, ?_, ?_⟩
  · unfold Spec.kBest
    rw [List.take_append_drop]
    exact List.mergeSort_perm _ _
  · have := mergeSort_sorted Prod.snd (cs.filter (fun c => decide (c.2 < maxD)))
    rw [← List.take_append_drop k (List.mergeSort _ _)] at this
    exact (List.pairwise_append.1 this).2.2

/-- The k best of all items, in whatever order they were offered, is a correct k-NN answer. -/
theorem kBest_isKnn (maxD : D) (dist : Nat → D) (n k : Nat) (is : List Nat) (hp : is.Perm (List.range n))
    (hlt : ∀ i, i < n → dist i < maxD) :
    Spec.IsKnn dist n k (Spec.kBest maxD k (is.map (fun i => (i, dist i)))) := by
  have hmem : ∀ i, i ∈ is ↔ i < n := by intro i; rw [hp.mem_iff, List.mem_range]
  have hfil : (is.map (fun i => (i, dist i))).filter (fun c => decide (c.2 < maxD)) = is.map (fun i => (i, dist i)) := by
    rw [List.filter_eq_self]
    intro c hc
    obtain ⟨i, hi, rfl⟩ := List.mem_map.1 hc
    simpa using hlt i ((hmem i).1 hi)
  obtain ⟨rest, h1, h2⟩ := kBest_split maxD k (is.map (fun i => (i, dist i)))
  rw [hfil] at h1
  have hsub : ∀ c ∈ Spec.kBest maxD k (is.map (fun i => (i, dist i))), c.1 < n ∧ c.2 = dist c.1 := by
    intro c hc
    have : c ∈ is.map (fun i => (i, dist i)) := h1.mem_iff.1 (List.mem_append_left _ hc)
    obtain ⟨i, hi, rfl⟩ := List.mem_map.1 this
    exact ⟨(hmem i).1 hi, rfl⟩
  have hfst : ((Spec.kBest maxD k (is.map (fun i => (i, dist i)))).map Prod.fst ++ rest.map Prod.fst).Perm is := by
    have := h1.map Prod.fst
    rw [List.map_append, List.map_map] at this
    simpa [Function.comp_def] using this
  have hnd : ((Spec.kBest maxD k (is.map (fun i => (i, dist i)))).map Prod.fst ++ rest.map Prod.fst).Nodup :=
    (hfst.trans hp).nodup_iff.2 List.nodup_range
  refine ⟨?_, fun c hc => (hsub c hc).1, fun c hc => (hsub c hc).2, (List.nodup_append.1 hnd).1, kBest_sorted _ _ _, ?_⟩
  · rw [kBest_length, hfil, List.length_map, hp.length_eq, List.length_range]
  · intro c hc j hj hjn
    have : j ∈ (Spec.kBest maxD k (is.map (fun i => (i, dist i)))).map Prod.fst ++ rest.map Prod.fst :=
      hfst.mem_iff.2 ((hmem j).2 hj)
    rcases List.mem_append.1 this with e | e
    · exact absurd e hjn
    · obtain ⟨b, hb, rfl⟩ := List.mem_map.1 e
      have hb' : b ∈ is.map (fun i => (i, dist i)) := h1.mem_iff.1 (List.mem_append_right _ hb)
      obtain ⟨i, hi, rfl⟩ := List.mem_map.1 hb'
      exact h2 c hc _ hb

/-- A complete tree over the whole cloud, as left behind by a builder. -/
structure Built (o : Ops D) (P : Proj D → Prop) (points : List (Pt D)) (t : KdTree.Tree D) (kt : KT D) (root : Nat) : Prop where
  root_eq : t.root = some root
  rep : Represents t.nodes t.indices root kt
  items : kt.items.Perm (List.range points.length)
  sep : kt.Separated o points
  proj : kt.AllProj P
  depth : kt.depth ≤ points.length
  nodes_le : t.nodes.length ≤ points.length

/-- The sequential builder succeeds and leaves a complete tree. -/
theorem construct_built (o : Ops D) (b : Builder D) (P : Proj D → Prop) (points : List (Pt D))
    (hne : points ≠ []) (hN : points.length < 2 ^ 32) (hnth : NthElementSpec b.nthElement)
    (hfind : FindAxisSpec P b.findAxis) (hm : 3 ≤ toU64 b.maxLeafSize) (fuel : Nat) (hf : points.length < fuel) :
    ∃ t kt, KdTree.construct o b fuel points = .ok t ∧ Built o P points t kt 0 ∧
      t.indices = kt.items ∧ t.nodes.length = kt.size ∧ kt.LeafSizes (toU64 b.maxLeafSize) ∧
      buildT o b points fuel (List.range points.length) = .ok kt := by
  have hpos : 0 < points.length := List.length_pos_of_ne_nil hne
  obtain ⟨kt, hb, hperm, hsep, hproj, hleaf, hdep, hsz⟩ := buildT_ok o b points P hnth hfind (by omega) fuel
    (List.range points.length) (by simpa using hf) (fun i hi => List.mem_range.1 hi)
  obtain ⟨kt', hb', _, _, _, _, hdep', _⟩ := buildT_ok o b points P hnth hfind (by omega) (points.length + 1)
    (List.range points.length) (by simp) (fun i hi => List.mem_range.1 hi)
  have hsz' : kt.size ≤ points.length := by
    have := hsz hm (by rw [List.length_range]; omega)
    rw [List.length_range] at this; omega
  have hsl : slice (List.range points.length) 0 points.length = List.range points.length := by
    unfold slice; simp [List.take_of_length_le]
  obtain ⟨s', dt, hc, he, hr, hsp, hno, hid, hnc, hin, hnl, _⟩ := createNode_ok o b points hnth.perm fuel 0 points.length
    ⟨List.range points.length, List.replicate points.length Node.fresh, 0⟩ kt (by omega) (by simp) (by simpa using hN)
    (by simpa using hN) (by rw [hsl]; exact hb) (by simpa using hsz')
    (by intro j _ hj; simp only [List.length_replicate] at hj; simp [hj])
  have hlen : kt.items.length = points.length := by rw [hperm.length_eq, List.length_range]
  have hin' : s'.indices = kt.items := by
    rw [hin]; unfold overwrite; simp
  refine ⟨⟨s'.indices, s'.nodes.take s'.nodeCount, some 0⟩, kt, ?_, ⟨rfl, ?_, hperm, hsep, hproj, ?_, ?_⟩, hin', ?_, hleaf, hb⟩
  · unfold KdTree.construct buildTree
    rw [if_neg (by omega)]
    simp only [bind, Except.bind, pure, Except.pure]
    rw [hc]
  · simp only
    have : dt.NodesOK (s'.nodes.take s'.nodeCount) := by
      apply hno.congr
      intro i hi
      have := hid i hi
      simp only at this
      rw [List.getElem?_take_of_lt (by omega)]
    have hr' := DT.represents (indices := s'.indices) dt 0 this hsp
      (by rw [← DT.items_erase, he, hin']; omega)
      (by rw [← DT.items_erase, he, hin']; unfold slice; simp)
    rw [he, hr] at hr'
    exact hr'
  · -- the depth bound does not depend on the fuel
    have := buildT_mono o b points (points.length + 1) fuel (by omega) _ _ hb'
    rw [this] at hb; cases hb; omega
  · simp only [List.length_take, hnl, List.length_replicate]; omega
  · simp only [List.length_take, hnl, List.length_replicate, hnc]; omega
where
  buildT_mono (o : Ops D) (b : Builder D) (points : List (Pt D)) : ∀ (f1 f2 : Nat), f1 ≤ f2 → ∀ range t,
      buildT o b points f1 range = .ok t → buildT o b points f2 range = .ok t
    | 0, _, _, range, t, h => by simp [buildT] at h
    | f1 + 1, 0, hle, _, _, _ => absurd hle (by omega)
    | f1 + 1, f2 + 1, hle, range, t, h => by
      unfold buildT at h ⊢
      split at h
      · rename_i hl; rw [if_pos hl]; exact h
      · rename_i hl
        rw [if_neg hl]
        simp only [bind, Except.bind, pure, Except.pure] at h ⊢
        rcases hs : splitRange o b points range with e | ⟨proj, th, seg⟩
        · rw [hs] at h; simp at h
        · rw [hs] at h
          simp only at h ⊢
          rcases h1 : buildT o b points f1 (seg.take (range.length / 2)) with e | tl
          · rw [h1] at h; simp at h
          · rw [h1] at h
            simp only at h
            rw [buildT_mono o b points f1 f2 (by omega) _ _ h1]
            simp only
            rcases h2 : buildT o b points f1 (seg.drop (range.length / 2)) with e | tr
            · rw [h2] at h; simp at h
            · rw [h2] at h
              rw [buildT_mono o b points f1 f2 (by omega) _ _ h2]
              exact h

/-- Search on a complete tree with sound pruning. `cap` is the number of requested neighbours. -/
theorem knnSearch_built (o : Ops D) (maxD eps : D) (P : Proj D → Prop) (points : List (Pt D)) (t : KdTree.Tree D) (kt : KT D)
    (root : Nat) (hb : Built o P points t kt root) (q : Pt D) (hprune : PruneOK o points q kt)
    (N k : Int) (cap : Nat) (hcap : cap = if 0 < N then N.toNat else k.toNat) (hpos : 0 < cap) (hk : 0 < N → k < 0)
    (indices : List Nat) (dists : List D) (hi : cap ≤ indices.length) (hd : cap ≤ dists.length)
    (fuel : Nat) (hf : points.length < fuel) :
    ∃ r L, knnSearch o maxD points t fuel N k indices dists q eps = .ok r ∧
      Holds maxD cap (indices.drop cap) (dists.drop cap) r L ∧
      (L = Spec.kBest maxD cap (cands o points q (visit o q kt)) ∨
        (worstOf maxD cap L < eps ∧ ∃ vis, vis.Sublist (visit o q kt) ∧ L = Spec.kBest maxD cap (cands o points q vis))) := by
  obtain ⟨r0, h1, h2⟩ := construct_holds maxD N indices dists k cap hcap hpos hk hi hd
  have hv : ∀ j ∈ kt.items, j < points.length := fun j hj => List.mem_range.1 (hb.items.mem_iff.1 hj)
  obtain ⟨go, r, L, g1, g2, g3, g4⟩ := searchNode_holds o points t q eps hb.rep fuel (by have := hb.depth; omega) hv hprune _ _ h2
  refine ⟨r, L, ?_, g2, ?_⟩
  · unfold knnSearch
    rw [h1]
    simp only [bind, Except.bind, pure, Except.pure, hb.root_eq]
    rw [g1]
  · cases go with
    | true => left; rw [g3 rfl, foldl_pushSpec]
    | false =>
      right
      obtain ⟨a, vis, b, c⟩ := g4 rfl
      exact ⟨a, vis, b, by rw [c, foldl_pushSpec]⟩

theorem kBest_genuine (maxD : D) (dist : Nat → D) (n k : Nat) (is : List Nat) (hnd : is.Nodup) (hv : ∀ i ∈ is, i < n) :
    (∀ c ∈ Spec.kBest maxD k (is.map (fun i => (i, dist i))), c.1 < n ∧ c.2 = dist c.1) ∧
    ((Spec.kBest maxD k (is.map (fun i => (i, dist i)))).map Prod.fst).Nodup := by
  obtain ⟨rest, h1, -⟩ := kBest_split maxD k (is.map (fun i => (i, dist i)))
  constructor
  · intro c hc
    have : c ∈ is.map (fun i => (i, dist i)) := (List.mem_filter.1 (h1.mem_iff.1 (List.mem_append_left _ hc))).1
    obtain ⟨i, hi, rfl⟩ := List.mem_map.1 this
    exact ⟨hv i hi, rfl⟩
  · have h2 := h1.map Prod.fst
    rw [List.map_append] at h2
    have h3 : (((is.map (fun i => (i, dist i))).filter (fun c => decide (c.2 < maxD))).map Prod.fst).Sublist is := by
      have := (List.filter_sublist (p := fun c : Nat × D => decide (c.2 < maxD)) (l := is.map (fun i => (i, dist i)))).map Prod.fst
      rw [List.map_map] at this
      simpa [Function.comp_def] using this
    exact (List.nodup_append.1 (h2.nodup_iff.2 (hnd.sublist h3))).1

/-- Search contract: exact answer, or an early exit with a full buffer of points below `eps`. -/
theorem knnSearch_contract (o : Ops D) (maxD eps : D) (P : Proj D → Prop) (points : List (Pt D)) (t : KdTree.Tree D) (kt : KT D)
    (root : Nat) (hb : Built o P points t kt root) (q : Pt D) (hprune : PruneOK o points q kt)
    (hlt : ∀ i, i < points.length → distTo o points q i < maxD) (heps : eps ≤ maxD)
    (N k : Int) (cap : Nat) (hcap : cap = if 0 < N then N.toNat else k.toNat) (hpos : 0 < cap) (hk : 0 < N → k < 0)
    (indices : List Nat) (dists : List D) (hi : cap ≤ indices.length) (hd : cap ≤ dists.length)
    (fuel : Nat) (hf : points.length < fuel) :
    ∃ r L, knnSearch o maxD points t fuel N k indices dists q eps = .ok r ∧ r.found = L ∧
      Holds maxD cap (indices.drop cap) (dists.drop cap) r L ∧
      (Spec.IsKnn (distTo o points q) points.length cap L ∨ Spec.IsGoodEnough (distTo o points q) points.length cap eps L) := by
  obtain ⟨r, L, h2, h3, h4⟩ := knnSearch_built o maxD eps P points t kt root hb q hprune N k cap hcap hpos hk
    indices dists hi hd fuel hf
  have hvp := (visit_perm o q kt).trans hb.items
  refine ⟨r, L, h2, h3.found_eq, h3, ?_⟩
  rcases h4 with h4 | ⟨h5, vis, hvis, h6⟩
  · left; rw [h4]; exact kBest_isKnn maxD _ _ cap _ hvp hlt
  · right
    have hsub : ∀ i ∈ vis, i < points.length := fun i hi => List.mem_range.1 (hvp.mem_iff.1 (hvis.subset hi))
    have hnd : vis.Nodup := (hvp.nodup_iff.2 List.nodup_range).sublist hvis
    obtain ⟨g1, g2⟩ := kBest_genuine maxD (distTo o points q) points.length cap vis hnd hsub
    unfold cands at h6
    rw [← h6] at g1 g2
    unfold worstOf at h5
    split at h5
    · rename_i hL
      exact ⟨hL.1, fun c hc => (g1 c hc).1, fun c hc => (g1 c hc).2, g2, h3.sorted,
        fun c hc => lt_of_le_of_lt (le_getLast h3.sorted hL.2 c hc) h5⟩
    · exact absurd (lt_of_le_of_lt heps h5) (lt_irrefl _)

end Order

section Exact
variable {K : Type} [Field K] [LinearOrder K] [IsStrictOrderedRing K]

/-- Projections with norm at most one do not expand distances. -/
theorem proj_sq_le (p : Proj K) (hp : p.UnitBounded) (a q : Pt K) :
    (p.eval (exactOps K) a - p.eval (exactOps K) q) * (p.eval (exactOps K) a - p.eval (exactOps K) q)
      ≤ Pt.sqDist (exactOps K) a q := by
  simp only [Pt.sqDist, exactOps]
  have hx := mul_self_nonneg (a.x - q.x)
  have hy := mul_self_nonneg (a.y - q.y)
  have hz := mul_self_nonneg (a.z - q.z)
  have hw := mul_self_nonneg (a.w - q.w)
  cases p with
  | axis ax => cases ax <;> simp only [Proj.eval] <;> linarith
  | normal nx ny nz =>
    simp only [Proj.eval]
    have hn : nx * nx + ny * ny + nz * nz ≤ 1 := hp
    have cs : (nx * (a.x - q.x) + ny * (a.y - q.y) + nz * (a.z - q.z)) ^ 2 ≤
        (nx * nx + ny * ny + nz * nz) * ((a.x - q.x) * (a.x - q.x) + (a.y - q.y) * (a.y - q.y) + (a.z - q.z) * (a.z - q.z)) := by
      have h1 := mul_self_nonneg (nx * (a.y - q.y) - ny * (a.x - q.x))
      have h2 := mul_self_nonneg (nx * (a.z - q.z) - nz * (a.x - q.x))
      have h3 := mul_self_nonneg (ny * (a.z - q.z) - nz * (a.y - q.y))
      linarith [h1, h2, h3]
    have h4 : (nx * nx + ny * ny + nz * nz) * ((a.x - q.x) * (a.x - q.x) + (a.y - q.y) * (a.y - q.y) + (a.z - q.z) * (a.z - q.z))
        ≤ 1 * ((a.x - q.x) * (a.x - q.x) + (a.y - q.y) * (a.y - q.y) + (a.z - q.z) * (a.z - q.z)) :=
      mul_le_mul_of_nonneg_right hn (by linarith)
    have e : (nx * a.x + ny * a.y + nz * a.z - (nx * q.x + ny * q.y + nz * q.z)) *
        (nx * a.x + ny * a.y + nz * a.z - (nx * q.x + ny * q.y + nz * q.z))
        = (nx * (a.x - q.x) + ny * (a.y - q.y) + nz * (a.z - q.z)) ^ 2 := by ring
    rw [e]; linarith

theorem pruneOK_exact (points : List (Pt K)) (q : Pt K) : ∀ t : KT K, t.Separated (exactOps K) points →
    t.AllProj Proj.UnitBounded → (∀ j ∈ t.items, j < points.length) → PruneOK (exactOps K) points q t
  | .leaf _, _, _, _ => trivial
  | .node p th l r, hs, hp, hv => by
    have hvl : ∀ j ∈ l.items, j < points.length := fun j hj => hv j (by simp [KT.items, hj])
    have hvr : ∀ j ∈ r.items, j < points.length := fun j hj => hv j (by simp [KT.items, hj])
    refine ⟨?_, ?_, pruneOK_exact points q l hs.2.2.1 hp.2.1 hvl, pruneOK_exact points q r hs.2.2.2 hp.2.2 hvr⟩
    · intro hd i hi
      have hlt := hvr i hi
      have hpt := List.getElem?_eq_getElem hlt
      have h1 := hs.2.1 i hi _ hpt
      have h2 := proj_sq_le p hp.1 points[i] q
      unfold distTo; rw [hpt]
      refine le_trans ?_ h2
      simp only [exactOps] at hd h1 ⊢
      have h3 : 0 ≤ th - Proj.eval (exactOps K) p q := by simp only [exactOps]; linarith
      have h4 : th - Proj.eval (exactOps K) p q ≤ Proj.eval (exactOps K) p points[i] - Proj.eval (exactOps K) p q := by
        simp only [exactOps] at h1 ⊢; linarith
      have := mul_self_le_mul_self h3 h4
      simp only [exactOps] at this
      linarith
    · intro hd i hi
      have hlt := hvl i hi
      have hpt := List.getElem?_eq_getElem hlt
      have h1 := hs.1 i hi _ hpt
      have h2 := proj_sq_le p hp.1 points[i] q
      unfold distTo; rw [hpt]
      refine le_trans ?_ h2
      simp only [exactOps] at hd h1 ⊢
      have h3 : 0 ≤ Proj.eval (exactOps K) p q - th := by simp only [exactOps]; linarith
      have h4 : Proj.eval (exactOps K) p q - th ≤ Proj.eval (exactOps K) p q - Proj.eval (exactOps K) p points[i] := by
        simp only [exactOps] at h1 ⊢; linarith
      have := mul_self_le_mul_self h3 h4
      simp only [exactOps] at this
      linarith

/-! ### `find_axis` -/

theorem scanPositions_ok (n : Nat) (m : Int) (hm : toU64 m ≠ 0) (hn : 0 < n) :
    ∃ pos, scanPositions n m = .ok pos ∧ (∀ j ∈ pos, j < n) ∧ pos ≠ [] := by
  unfold scanPositions
  simp only
  split
  · exact ⟨_, rfl, fun j hj => List.mem_range.1 hj, by
      intro h; have := congrArg List.length h; simp at this; omega⟩
  · rename_i h
    have hstep : n / toU64 m ≠ 0 := by
      have : 0 < n / toU64 m := Nat.div_pos (by omega) (by omega)
      omega
    rw [if_neg hstep]
    refine ⟨_, rfl, ?_, ?_⟩
    · intro j hj
      obtain ⟨i, hi, rfl⟩ := List.mem_map.1 hj
      have hi' := List.mem_range.1 hi
      have hpos : 0 < n / toU64 m := Nat.pos_of_ne_zero hstep
      have h1 : n / toU64 m * (i + 1) ≤ n :=
        le_trans (Nat.mul_le_mul_left _ hi') (Nat.mul_div_le n _)
      have h2 : n / toU64 m * (i + 1) = n / toU64 m * i + n / toU64 m := by ring
      omega
    · intro h'
      have := congrArg List.length h'
      simp only [List.length_map, List.length_range, List.length_nil] at this
      have h3 : n / toU64 m ≤ n := Nat.div_le_self _ _
      have : 0 < n / (n / toU64 m) := Nat.div_pos h3 (Nat.pos_of_ne_zero hstep)
      omega

omit [Field K] [LinearOrder K] [IsStrictOrderedRing K] in
theorem scanPoints_ok (points : List (Pt K)) (range : List Nat) (m : Int) (hm : toU64 m ≠ 0) (hne : range ≠ [])
    (hv : ∀ i ∈ range, i < points.length) :
    ∃ pts, scanPoints points range m = .ok pts ∧ pts ≠ [] ∧ ∀ p ∈ pts, ∃ i ∈ range, points[i]? = some p := by
  obtain ⟨pos, h1, h2, h3⟩ := scanPositions_ok range.length m hm (List.length_pos_of_ne_nil hne)
  unfold scanPoints
  rw [h1]
  simp only [bind, Except.bind]
  clear h1
  have : ∀ pos : List Nat, (∀ j ∈ pos, j < range.length) →
      ∃ pts : List (Pt K), pos.mapM (fun j => (do let i ← rd range j; rd points i : Res (Pt K))) = .ok pts ∧
      pts.length = pos.length ∧ ∀ p ∈ pts, ∃ i ∈ range, points[i]? = some p := by
    intro pos
    induction pos with
    | nil => intro _; exact ⟨[], rfl, rfl, by simp⟩
    | cons j pos ih =>
      intro h
      obtain ⟨pts, a, b, c⟩ := ih (fun x hx => h x (by simp [hx]))
      have hj := h j (by simp)
      have hi := hv _ (List.getElem_mem hj)
      refine ⟨points[range[j]] :: pts, ?_, by simp [b], ?_⟩
      · rw [List.mapM_cons, a, rd_of_getElem? (List.getElem?_eq_getElem hj)]
        simp only [bind, Except.bind]
        rw [rd_of_getElem? (List.getElem?_eq_getElem hi)]
        rfl
      · intro p hp
        rcases List.mem_cons.1 hp with e | e
        · exact ⟨range[j], List.getElem_mem hj, by rw [e]; exact List.getElem?_eq_getElem hi⟩
        · exact c p e
  obtain ⟨pts, a, b, c⟩ := this pos h2
  refine ⟨pts, a, ?_, c⟩
  intro h; rw [h] at b; exact h3 (List.length_eq_zero_iff.1 b.symm)

end Exact

section FindSpecs
variable {D : Type} [Field D] [LinearOrder D]

omit [Field D] in
theorem findAxis_spec (o : Ops D) (m : Int) (hm : toU64 m ≠ 0) :
    FindAxisSpec (fun p => ∃ a, p = .axis a) (findAxis o m) := by
  intro points range hne hv
  obtain ⟨pts, h, _⟩ := scanPoints_ok points range m hm hne hv
  unfold findAxis
  rw [h]
  exact ⟨_, rfl, _, rfl⟩

omit [Field D] [LinearOrder D] in
theorem findNormal_spec (P : Proj D → Prop) (solve : List (Pt D) → D × D × D)
    (hs : ∀ pts, P (.normal (solve pts).1 (solve pts).2.1 (solve pts).2.2)) (m : Int) (hm : toU64 m ≠ 0) :
    FindAxisSpec P (findNormal solve m) := by
  intro points range hne hv
  obtain ⟨pts, h, _⟩ := scanPoints_ok points range m hm hne hv
  unfold findNormal
  rw [h]
  exact ⟨_, rfl, hs pts⟩

end FindSpecs

end Verif.Proofs
