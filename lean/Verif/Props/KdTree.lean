import Verif.Proofs.KdExact
import Verif.Spec.Geometry

/-!
C02 - C06: kd-tree construction and search in exact arithmetic.
`K` is any linearly ordered field (the real numbers, the rationals); `maxD` is a bound larger than every distance
in the cloud. Recursion depth is at most the number of points, so any fuel above it suffices.
-/

namespace Verif.Props

open Verif Verif.Knn Verif.KdTree Verif.Proofs

variable {K : Type} [Field K] [LinearOrder K] [IsStrictOrderedRing K]

omit [LinearOrder K] [IsStrictOrderedRing K] in
theorem distTo_eq (points : List (Pt K)) (q : Pt K) (i : Nat) :
    distTo (exactOps K) points q i = Spec.cloudDist points q i := by
  unfold distTo Spec.cloudDist
  cases points[i]? with
  | some p => simp only [Pt.sqDist, exactOps, Spec.sqd]; ring
  | none => rfl

omit [LinearOrder K] [IsStrictOrderedRing K] in
theorem cands_eq (points : List (Pt K)) (q : Pt K) (is : List Nat) :
    cands (exactOps K) points q is = is.map (fun i => (i, Spec.cloudDist points q i)) := by
  unfold cands
  exact List.map_congr_left (fun i _ => by rw [distTo_eq])

/-- `max_leaf_size` for which the node buffer suffices: at least 3, or negative (compared as `size_t`,
hence huge). -/
def SafeLeafSize (m : Int) : Prop := 3 ≤ toU64 m

theorem cloudDist_nonneg (points : List (Pt K)) (q : Pt K) (i : Nat) : 0 ≤ Spec.cloudDist points q i := by
  unfold Spec.cloudDist; split
  · unfold Spec.sqd; positivity
  · exact le_refl _

/-- C05. With early termination: construction and search succeed, and the answer is either the exact k-NN answer or
`k` genuine distinct points of the cloud, all strictly closer than `epsilon`. (`epsilon ≤ maxD`: with a larger
threshold the code stops at the first leaf with a half-empty buffer, see `C05_huge_epsilon_stops_early`.) -/
theorem C05_early_termination (b : Builder K) (hnth : NthElementSpec b.nthElement)
    (hfind : FindAxisSpec Proj.UnitBounded b.findAxis) (hm : SafeLeafSize b.maxLeafSize)
    (points : List (Pt K)) (hne : points ≠ []) (hN : points.length < 2 ^ 32)
    (maxD eps : K) (heps : eps ≤ maxD) (q : Pt K) (hmax : ∀ p ∈ points, Spec.sqd p q < maxD)
    (N k : Int) (cap : Nat) (hcap : cap = if 0 < N then N.toNat else k.toNat) (hpos : 0 < cap) (hk : 0 < N → k < 0)
    (indices : List Nat) (dists : List K) (hi : cap ≤ indices.length) (hd : cap ≤ dists.length)
    (fuel : Nat) (hf : points.length < fuel) :
    ∃ t r, KdTree.construct (exactOps K) b fuel points = .ok t ∧
      knnSearch (exactOps K) maxD points t fuel N k indices dists q eps = .ok r ∧
      (Spec.IsKnn (Spec.cloudDist points q) points.length cap r.found ∨
       Spec.IsGoodEnough (Spec.cloudDist points q) points.length cap eps r.found) := by
  obtain ⟨t, kt, h1, hb, _⟩ := construct_built (exactOps K) b Proj.UnitBounded points hne hN hnth hfind hm fuel hf
  have hv : ∀ j ∈ kt.items, j < points.length := fun j hj => List.mem_range.1 (hb.items.mem_iff.1 hj)
  have hpr := pruneOK_exact points q kt hb.sep hb.proj hv
  have hlt : ∀ i, i < points.length → distTo (exactOps K) points q i < maxD := by
    intro i hi
    rw [distTo_eq]
    unfold Spec.cloudDist
    rw [List.getElem?_eq_getElem hi]
    exact hmax _ (List.getElem_mem hi)
  obtain ⟨r, L, h2, h3, _, h4⟩ := knnSearch_contract (exactOps K) maxD eps _ points t kt 0 hb q hpr hlt heps N k cap
    hcap hpos hk indices dists hi hd fuel hf
  have : distTo (exactOps K) points q = Spec.cloudDist points q := funext (distTo_eq points q)
  rw [this] at h4
  exact ⟨t, r, h1, h2, by rw [h3]; exact h4⟩

/-- C03. Exactness for arbitrary splitting directions of norm at most one: `knn_search(q, k)` on the tree built
from `points` returns `min k N` distinct points, with their true squared distances, ascending, and nothing closer is
left out. Also covers C05's second sentence: for every `epsilon ≤ 0` the early exit never changes the answer. -/
theorem C03_knn_exact_any_direction (b : Builder K) (hnth : NthElementSpec b.nthElement)
    (hfind : FindAxisSpec Proj.UnitBounded b.findAxis) (hm : SafeLeafSize b.maxLeafSize)
    (points : List (Pt K)) (hne : points ≠ []) (hN : points.length < 2 ^ 32)
    (maxD eps : K) (heps : eps ≤ 0) (q : Pt K) (hmax : ∀ p ∈ points, Spec.sqd p q < maxD)
    (N k : Int) (cap : Nat) (hcap : cap = if 0 < N then N.toNat else k.toNat) (hpos : 0 < cap) (hk : 0 < N → k < 0)
    (indices : List Nat) (dists : List K) (hi : cap ≤ indices.length) (hd : cap ≤ dists.length)
    (fuel : Nat) (hf : points.length < fuel) :
    ∃ t r, KdTree.construct (exactOps K) b fuel points = .ok t ∧
      knnSearch (exactOps K) maxD points t fuel N k indices dists q eps = .ok r ∧
      Spec.IsKnn (Spec.cloudDist points q) points.length cap r.found := by
  have h0 : 0 < points.length := List.length_pos_of_ne_nil hne
  have hpos' : 0 ≤ maxD := by
    have := hmax _ (List.getElem_mem h0)
    refine le_trans ?_ this.le
    unfold Spec.sqd; positivity
  obtain ⟨t, r, h1, h2, h3⟩ := C05_early_termination b hnth hfind hm points hne hN maxD eps (heps.trans hpos') q hmax N k cap
    hcap hpos hk indices dists hi hd fuel hf
  refine ⟨t, r, h1, h2, ?_⟩
  rcases h3 with h3 | h3
  · exact h3
  · exfalso
    have hne' : r.found ≠ [] := by
      intro h; have := h3.length_eq; rw [h] at this; simp at this; omega
    have hmem := List.head_mem hne'
    have e1 := h3.below _ hmem
    rw [h3.dist_eq _ hmem] at e1
    exact absurd (lt_of_lt_of_le e1 heps) (not_lt.2 (cloudDist_nonneg _ _ _))

/-- C02. The default tree (`AxisAlignedProjection`, any scan count for which `find_axis` is defined) and the dynamic
overload `knn_search(query, k, ...)`. -/
theorem C02_knn_search_exact (nth : List (Nat × K) → Nat → List (Nat × K)) (hnth : NthElementSpec nth)
    (maxLeafSize maxScanCount : Int) (hm : SafeLeafSize maxLeafSize) (hs : toU64 maxScanCount ≠ 0)
    (points : List (Pt K)) (hne : points ≠ []) (hN : points.length < 2 ^ 32)
    (maxD : K) (q : Pt K) (hmax : ∀ p ∈ points, Spec.sqd p q < maxD)
    (k : Int) (hk : 0 < k) (indices : List Nat) (dists : List K) (hi : k.toNat ≤ indices.length) (hd : k.toNat ≤ dists.length)
    (fuel : Nat) (hf : points.length < fuel) :
    ∃ t r, KdTree.construct (exactOps K) ⟨maxLeafSize, findAxis (exactOps K) maxScanCount, nth⟩ fuel points = .ok t ∧
      knnSearch (exactOps K) maxD points t fuel (-1) k indices dists q 0 = .ok r ∧
      Spec.IsKnn (Spec.cloudDist points q) points.length k.toNat r.found := by
  refine C03_knn_exact_any_direction ⟨maxLeafSize, findAxis (exactOps K) maxScanCount, nth⟩ hnth ?_ hm points hne hN maxD 0
    (le_refl _) q hmax (-1) k k.toNat (by simp) (by omega) (by omega) indices dists hi hd fuel hf
  intro pts range h1 h2
  obtain ⟨p, h3, a, rfl⟩ := findAxis_spec (exactOps K) maxScanCount hs pts range h1 h2
  exact ⟨_, h3, trivial⟩

/-- C02, static overload `knn_search<N>(query, ...)`. -/
theorem C02_knn_search_static_exact (nth : List (Nat × K) → Nat → List (Nat × K)) (hnth : NthElementSpec nth)
    (maxLeafSize maxScanCount : Int) (hm : SafeLeafSize maxLeafSize) (hs : toU64 maxScanCount ≠ 0)
    (points : List (Pt K)) (hne : points ≠ []) (hN : points.length < 2 ^ 32)
    (maxD : K) (q : Pt K) (hmax : ∀ p ∈ points, Spec.sqd p q < maxD)
    (N : Int) (hk : 0 < N) (indices : List Nat) (dists : List K) (hi : N.toNat ≤ indices.length) (hd : N.toNat ≤ dists.length)
    (fuel : Nat) (hf : points.length < fuel) :
    ∃ t r, KdTree.construct (exactOps K) ⟨maxLeafSize, findAxis (exactOps K) maxScanCount, nth⟩ fuel points = .ok t ∧
      knnSearch (exactOps K) maxD points t fuel N (-1) indices dists q 0 = .ok r ∧
      Spec.IsKnn (Spec.cloudDist points q) points.length N.toNat r.found := by
  refine C03_knn_exact_any_direction ⟨maxLeafSize, findAxis (exactOps K) maxScanCount, nth⟩ hnth ?_ hm points hne hN maxD 0
    (le_refl _) q hmax N (-1) N.toNat (by rw [if_pos hk]) (by omega) (by omega) indices dists hi hd fuel hf
  intro pts range h1 h2
  obtain ⟨p, h3, a, rfl⟩ := findAxis_spec (exactOps K) maxScanCount hs pts range h1 h2
  exact ⟨_, h3, trivial⟩

/-- C03, instance: `NormalProjection` with an eigen-solver returning vectors of norm at most one. -/
theorem C03_normal_projection_exact (nth : List (Nat × K) → Nat → List (Nat × K)) (hnth : NthElementSpec nth)
    (solve : List (Pt K) → K × K × K)
    (hsolve : ∀ pts, (solve pts).1 ^ 2 + (solve pts).2.1 ^ 2 + (solve pts).2.2 ^ 2 ≤ 1)
    (maxLeafSize maxScanCount : Int) (hm : SafeLeafSize maxLeafSize) (hs : toU64 maxScanCount ≠ 0)
    (points : List (Pt K)) (hne : points ≠ []) (hN : points.length < 2 ^ 32)
    (maxD : K) (q : Pt K) (hmax : ∀ p ∈ points, Spec.sqd p q < maxD)
    (k : Int) (hk : 0 < k) (indices : List Nat) (dists : List K) (hi : k.toNat ≤ indices.length) (hd : k.toNat ≤ dists.length)
    (fuel : Nat) (hf : points.length < fuel) :
    ∃ t r, KdTree.construct (exactOps K) ⟨maxLeafSize, findNormal solve maxScanCount, nth⟩ fuel points = .ok t ∧
      knnSearch (exactOps K) maxD points t fuel (-1) k indices dists q 0 = .ok r ∧
      Spec.IsKnn (Spec.cloudDist points q) points.length k.toNat r.found := by
  refine C03_knn_exact_any_direction ⟨maxLeafSize, findNormal solve maxScanCount, nth⟩ hnth
    (findNormal_spec _ solve (fun pts => ?_) maxScanCount hs) hm points hne hN maxD 0
    (le_refl _) q hmax (-1) k k.toNat (by simp) (by omega) (by omega) indices dists hi hd fuel hf
  have := hsolve pts
  show _ * _ + _ * _ + _ * _ ≤ 1
  nlinarith [this]

/-- C04. `nearest_neighbor_search` reports exactly one point of the cloud, its true squared distance, and no point is
closer; the generic fallback of `ann/traits.hpp:43-57` (`knn_search` with `k = 1`) reports the same distance. -/
theorem C04_nearest_neighbor (nth : List (Nat × K) → Nat → List (Nat × K)) (hnth : NthElementSpec nth)
    (maxLeafSize maxScanCount : Int) (hm : SafeLeafSize maxLeafSize) (hs : toU64 maxScanCount ≠ 0)
    (points : List (Pt K)) (hne : points ≠ []) (hN : points.length < 2 ^ 32)
    (maxD : K) (q : Pt K) (hmax : ∀ p ∈ points, Spec.sqd p q < maxD)
    (indices : List Nat) (dists : List K) (hi : 1 ≤ indices.length) (hd : 1 ≤ dists.length)
    (fuel : Nat) (hf : points.length < fuel) :
    ∃ t r r' i p d, KdTree.construct (exactOps K) ⟨maxLeafSize, findAxis (exactOps K) maxScanCount, nth⟩ fuel points = .ok t ∧
      nearestNeighborSearch (exactOps K) maxD points t fuel indices dists q 0 = .ok r ∧
      r.found = [(i, d)] ∧ points[i]? = some p ∧ d = Spec.sqd p q ∧ (∀ p' ∈ points, d ≤ Spec.sqd p' q) ∧
      knnSearch (exactOps K) maxD points t fuel (-1) 1 indices dists q 0 = .ok r' ∧ r'.found.map Prod.snd = [d] := by
  have hlen : 1 ≤ points.length := List.length_pos_of_ne_nil hne
  obtain ⟨t, r, h1, h2, h3⟩ := C02_knn_search_static_exact nth hnth maxLeafSize maxScanCount hm hs points hne hN maxD q hmax
    1 (by omega) indices dists hi hd fuel hf
  obtain ⟨t', r', h1', h2', h3'⟩ := C02_knn_search_exact nth hnth maxLeafSize maxScanCount hm hs points hne hN maxD q hmax
    1 (by omega) indices dists hi hd fuel hf
  rw [h1] at h1'
  cases h1'
  have key : ∀ res : List (Nat × K), Spec.IsKnn (Spec.cloudDist points q) points.length 1 res →
      ∃ i p d, res = [(i, d)] ∧ points[i]? = some p ∧ d = Spec.sqd p q ∧ (∀ p' ∈ points, d ≤ Spec.sqd p' q) := by
    intro res hr
    have hl : res.length = 1 := by rw [hr.length_eq]; omega
    obtain ⟨⟨i, d⟩, rfl⟩ := List.length_eq_one_iff.1 hl
    have hi := hr.valid (i, d) (by simp)
    have hd := hr.dist_eq (i, d) (by simp)
    simp only at hi hd
    have hp := List.getElem?_eq_getElem hi
    have hd' : d = Spec.sqd points[i] q := by rw [hd]; unfold Spec.cloudDist; rw [hp]
    refine ⟨i, points[i], d, rfl, hp, hd', ?_⟩
    intro p' hp'
    obtain ⟨j, hj, rfl⟩ := List.mem_iff_getElem.1 hp'
    by_cases e : j = i
    · subst e; rw [hd']
    · have := hr.best (i, d) (by simp) j hj (by simpa using e)
      simp only at this
      unfold Spec.cloudDist at this
      rwa [List.getElem?_eq_getElem hj] at this
  obtain ⟨i, p, d, g1, g2, g3, g4⟩ := key _ h3
  obtain ⟨i', p', d', g1', g2', g3', g4'⟩ := key _ h3'
  refine ⟨t, r, r', i, p, d, h1, h2, g1, g2, g3, g4, h2', ?_⟩
  rw [g1']
  have a := g4 p' (List.mem_of_getElem? g2')
  have b := g4' p (List.mem_of_getElem? g2)
  rw [← g3'] at a; rw [← g3] at b
  simp [le_antisymm a b]

/-- C06. Construction terminates, never leaves the node array of size `N`, the tree stored in the arrays is
well-formed (`Represents`), its leaves contain every point index exactly once and respect the size limit, and every inner
node separates its subtrees. Holds for every arithmetic `o` and every projection, for `max_leaf_size ≥ 3` or
negative. -/
theorem C06_construction_partial {D : Type} [LinearOrder D] (o : Ops D) (b : Builder D) (hnth : NthElementSpec b.nthElement)
    (hfind : FindAxisSpec (fun _ => True) b.findAxis) (hm : SafeLeafSize b.maxLeafSize)
    (points : List (Pt D)) (hne : points ≠ []) (hN : points.length < 2 ^ 32)
    (fuel : Nat) (hf : points.length < fuel) :
    ∃ t kt, KdTree.construct o b fuel points = .ok t ∧ t.root = some 0 ∧ Represents t.nodes t.indices 0 kt ∧
      kt.items.Perm (List.range points.length) ∧ kt.Separated o points ∧ kt.LeafSizes (toU64 b.maxLeafSize) ∧
      t.nodes.length = kt.size ∧ t.nodes.length ≤ points.length := by
  obtain ⟨t, kt, h1, hb, _, h2, h3, _⟩ := construct_built o b _ points hne hN hnth hfind hm fuel hf
  exact ⟨t, kt, h1, hb.root_eq, hb.rep, hb.items, hb.sep, h3, h2, hb.nodes_le⟩

end Verif.Props
