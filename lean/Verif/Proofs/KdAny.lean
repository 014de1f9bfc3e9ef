import Verif.Proofs.VoxelSearch
import Verif.Props.KdParallel

/-! Kd-tree search for queries at any distance: the nearest among the points closer than `maxD`, never a fault. -/

namespace Verif.Proofs

open Verif Verif.Knn Verif.KdTree

variable {K : Type} [Field K] [LinearOrder K] [IsStrictOrderedRing K]

/-- A tree built over `points`: by the sequential builder, or by a parallel builder under some schedule. -/
inductive TreeOf (b : Builder K) (points : List (Pt K)) : KdTree.Tree K → Prop where
  | sequential {t : KdTree.Tree K} (fuel : Nat) (hf : points.length < fuel) (h : KdTree.construct (exactOps K) b fuel points = .ok t) : TreeOf b points t
  | parallel {t : KdTree.Tree K} (sched : List (List Bool)) (ps : Proc K × BuildState K)
      (hrun : runSchedule (exactOps K) b points sched (parInit points) = some (.ok ps)) (ht : parFinish ps = some t) : TreeOf b points t

theorem knn_any (b : Builder K) (hnth : NthElementSpec b.nthElement) (hfind : FindAxisSpec Proj.UnitBounded b.findAxis)
    (hm : Props.SafeLeafSize b.maxLeafSize) (points : List (Pt K)) (hne : points ≠ []) (hN : points.length < 2 ^ 32) (t : KdTree.Tree K) (ht : TreeOf b points t)
    (maxD : K) (hmax : 0 ≤ maxD) (q : Pt K) (N k : Int) (cap : Nat) (hcap : cap = if 0 < N then N.toNat else k.toNat) (hpos : 0 < cap) (hk : 0 < N → k < 0)
    (indices : List Nat) (dists : List K) (hi : cap ≤ indices.length) (hd : cap ≤ dists.length) (fuel : Nat) (hf : points.length < fuel) :
    ∃ r, knnSearch (exactOps K) maxD points t fuel N k indices dists q 0 = .ok r ∧
      Spec.IsNearest (fun i d => (∃ p, points[i]? = some p ∧ d = Spec.sqd p q) ∧ d < maxD) cap r.found ∧ (r.found.map Prod.fst).Nodup := by
  have key : ∀ t0 kt, Built (exactOps K) Proj.UnitBounded points t0 kt 0 → ∃ r, knnSearch (exactOps K) maxD points t0 fuel N k indices dists q 0 = .ok r ∧
      Spec.IsNearest (fun i d => (∃ p, points[i]? = some p ∧ d = Spec.sqd p q) ∧ d < maxD) cap r.found ∧ (r.found.map Prod.fst).Nodup := by
    intro t0 kt hb
    have hv : ∀ j ∈ kt.items, j < points.length := fun j hj => List.mem_range.1 (hb.items.mem_iff.1 hj)
    obtain ⟨r, L, h1, h2, h3⟩ := knnSearch_built (exactOps K) maxD 0 _ points t0 kt 0 hb q (pruneOK_exact points q kt hb.sep hb.proj hv) N k cap hcap hpos hk
      indices dists hi hd fuel hf
    have hvp := (visit_perm (exactOps K) q kt).trans hb.items
    refine ⟨r, h1, ?_⟩
    rw [h2.found_eq]
    have hL : L = Spec.kBest maxD cap (cands (exactOps K) points q (visit (exactOps K) q kt)) := by
      rcases h3 with h3 | ⟨h4, vis, hvis, h5⟩
      · exact h3
      · exfalso
        have hsub : ∀ i ∈ vis, i < points.length := fun i hi => List.mem_range.1 (hvp.mem_iff.1 (hvis.subset hi))
        have hnd : vis.Nodup := (hvp.nodup_iff.2 List.nodup_range).sublist hvis
        obtain ⟨g1, _⟩ := kBest_genuine maxD (distTo (exactOps K) points q) points.length cap vis hnd hsub
        unfold cands at h5
        rw [← h5] at g1
        unfold worstOf at h4
        split at h4
        · rename_i hl
          have := (g1 _ (List.getLast_mem hl.2)).2
          rw [this, Props.distTo_eq] at h4
          exact absurd h4 (not_lt.2 (Props.cloudDist_nonneg _ _ _))
        · exact absurd h4 (not_lt.2 hmax)
    rw [hL, Props.cands_eq]
    refine ⟨kBest_isNearest maxD cap _ _ (fun i d => ?_), kBest_nodup _ _ _ ?_⟩
    · rw [List.mem_map]
      constructor
      · rintro ⟨j, hj, he⟩
        simp only [Prod.mk.injEq] at he
        obtain ⟨rfl, rfl⟩ := he
        have hj' := List.mem_range.1 (hvp.mem_iff.1 hj)
        refine ⟨points[j], List.getElem?_eq_getElem hj', ?_⟩
        unfold Spec.cloudDist
        rw [List.getElem?_eq_getElem hj']
      · rintro ⟨p, hp, rfl⟩
        refine ⟨i, hvp.mem_iff.2 (List.mem_range.2 (List.getElem?_eq_some_iff.1 hp).1), ?_⟩
        unfold Spec.cloudDist
        rw [hp]
    · rw [List.map_map]
      have : (Prod.fst ∘ fun i => (i, Spec.cloudDist points q i)) = id := rfl
      rw [this, List.map_id]
      exact hvp.nodup_iff.2 List.nodup_range
  cases ht with
  | sequential fuel' hf' h =>
    obtain ⟨t0, kt, h1, hb, _⟩ := construct_built (exactOps K) b Proj.UnitBounded points hne hN hnth hfind hm fuel' hf'
    rw [h] at h1
    cases h1
    exact key t kt hb
  | parallel sched ps hrun hfin =>
    have hfind' : FindAxisSpec (fun _ => True) b.findAxis := by
      intro pts range h1 h2
      obtain ⟨p, h3, _⟩ := hfind pts range h1 h2
      exact ⟨p, h3, trivial⟩
    obtain ⟨t0, h0, _, _, _, hsame⟩ := Props.C07_parallel_same_answers (exactOps K) b hnth hfind' hm points hne hN sched ps hrun t hfin
    obtain ⟨t1, kt, h1, hb, _⟩ := construct_built (exactOps K) b Proj.UnitBounded points hne hN hnth hfind hm (points.length + 1) (by omega)
    rw [h0] at h1
    cases h1
    obtain ⟨r, h2, h3⟩ := key t0 kt hb
    exact ⟨r, by rw [hsame]; exact h2, h3⟩

end Verif.Proofs
