import Mathlib.Tactic.NormNum
import Verif.Proofs.Example
import Verif.Props.KdTree

/-! C75: the brute-force search of the template example. -/

set_option linter.unusedSectionVars false
set_option linter.unusedSimpArgs false
set_option linter.unnecessarySeqFocus false

namespace Verif.Props

open Matrix Verif Verif.Knn Verif.KdTree Verif.Example Verif.Factors Verif.Spec Verif.Proofs.Example Verif.Proofs

variable {K : Type} [Field K] [LinearOrder K]

theorem toU64_nonneg {k : Int} (h0 : 0 ≤ k) (h1 : k < 2 ^ 31) : toU64 k = k.toNat := by
  unfold toU64
  rw [Int.emod_eq_of_lt h0 (by omega)]

/-- C75. For every cloud, every query and every `0 ≤ k ≤ INT_MAX`, with arrays for `k` results, the search is defined; the number it returns
and the front of the two arrays are a correct answer to the query, and the rest of the arrays is untouched. -/
theorem C75_brute_force {top : List (Nat × K) → Nat} (htop : TopSpec top) (points : MyCloud K) (q : Fin 4 → K) {k : Int} (h0 : 0 ≤ k) (h1 : k < 2 ^ 31)
    (indices : List Nat) (dists : List K) (hi : k.toNat ≤ indices.length) (hd : k.toNat ≤ dists.length) :
    ∃ n indices' dists', Example.knnSearch top points q k indices dists = .ok (n, indices', dists') ∧
      IsKnn (spaceDist (points.map MyPoint.point) q) points.length k.toNat ((indices'.take n).zip (dists'.take n)) ∧
      n = min k.toNat points.length ∧ indices'.length = indices.length ∧ dists'.length = dists.length ∧
      indices'.drop n = indices.drop n ∧ dists'.drop n = dists.drop n := by
  have hk := toU64_nonneg h0 h1
  obtain ⟨S, h2, h3⟩ := knnSearch_spec top htop points q k indices dists (by omega) (by omega)
  rw [hk] at h2
  have hl := h2.length_eq
  have hz : (S.map Prod.fst).zip (S.map Prod.snd) = S := by
    rw [List.zip_map', show (fun x : Nat × K => (x.1, x.2)) = id from rfl, List.map_id]
  refine ⟨_, _, _, h3, ?_, hl, by simp; omega, by simp; omega, ?_, ?_⟩
  · rw [List.take_left' (by simp), List.take_left' (by simp), hz]
    exact h2
  · exact List.drop_left' (by simp)
  · exact List.drop_left' (by simp)

/-- C75. The search for one neighbour, through which registration uses the class, finds a nearest point of every cloud that is not empty, and nothing in an empty one. -/
theorem C75_nearest {top : List (Nat × K) → Nat} (htop : TopSpec top) (points : MyCloud K) (junk : Nat × K) (q : Fin 4 → K) :
    (points = [] ∧ nearestSearch top points junk q = .ok none) ∨
    ∃ i d, nearestSearch top points junk q = .ok (some (i, d)) ∧ i < points.length ∧ d = spaceDist (points.map MyPoint.point) q i ∧
      ∀ j < points.length, d ≤ spaceDist (points.map MyPoint.point) q j := by
  obtain ⟨n, is, ds, h1, h2, h3, h4, h5, -, -⟩ := C75_brute_force htop points q (k := 1) (by omega) (by norm_num) [junk.1] [junk.2] (by simp) (by simp)
  have hn : nearestSearch top points junk q = .ok ((is.zip ds).take n).head? := by
    unfold nearestSearch
    rw [h1]
    rfl
  rw [List.zip_eq_zipWith, List.take_zipWith, ← List.zip_eq_zipWith] at hn
  have hl := h2.length_eq
  generalize (is.take n).zip (ds.take n) = S at h2 hn hl
  rcases S with _ | ⟨c, S⟩
  · left
    refine ⟨?_, by rw [hn]; rfl⟩
    apply List.length_eq_zero_iff.1
    simp at hl; omega
  · right
    have hS : S = [] := by
      apply List.length_eq_zero_iff.1
      simp at hl; omega
    subst hS
    refine ⟨c.1, c.2, by rw [hn]; rfl, h2.valid c (by simp), h2.dist_eq c (by simp), fun j hj => ?_⟩
    by_cases hjc : j = c.1
    · rw [hjc, h2.dist_eq c (by simp)]
    · exact h2.best c (by simp) j hj (by simpa using hjc)

/-- C75. The default kd-tree over the same points gives the same number of neighbours at the same distances. -/
theorem C75_same_as_kdtree [IsStrictOrderedRing K] {top : List (Nat × K) → Nat} (htop : TopSpec top) (nth : List (Nat × K) → Nat → List (Nat × K)) (hnth : NthElementSpec nth)
    (points : MyCloud K) (hne : points ≠ []) (hN : points.length < 2 ^ 32) (x y z maxD : K)
    (hmax : ∀ p ∈ points, sqd ⟨p.point 0, p.point 1, p.point 2, 1⟩ ⟨x, y, z, 1⟩ < maxD)
    {k : Int} (h0 : 0 < k) (h1 : k < 2 ^ 31) (indices : List Nat) (dists : List K) (hi : k.toNat ≤ indices.length) (hd : k.toNat ≤ dists.length) :
    ∃ t r n indices' dists',
      KdTree.construct (exactOps K) ⟨20, KdTree.findAxis (exactOps K) 128, nth⟩ (points.length + 1) (points.map (fun p => ⟨p.point 0, p.point 1, p.point 2, 1⟩)) = .ok t ∧
      KdTree.knnSearch (exactOps K) maxD (points.map (fun p => ⟨p.point 0, p.point 1, p.point 2, 1⟩)) t (points.length + 1) (-1) k indices dists ⟨x, y, z, 1⟩ 0 = .ok r ∧
      Example.knnSearch top points ![x, y, z, 1] k indices dists = .ok (n, indices', dists') ∧ n = r.found.length ∧ dists'.take n = r.found.map Prod.snd := by
  obtain ⟨t, r, h2, h3, h4⟩ := C02_knn_search_exact nth hnth 20 128 (by unfold SafeLeafSize; decide) (by decide) (points.map (fun p => (⟨p.point 0, p.point 1, p.point 2, 1⟩ : Pt K)))
    (by simpa using hne) (by simpa using hN) maxD ⟨x, y, z, 1⟩ (by simpa using hmax) k h0 indices dists hi hd (points.length + 1) (by simp)
  obtain ⟨n, is, ds, h5, h6, h7, h8, h9, -, -⟩ := C75_brute_force htop points ![x, y, z, 1] h0.le h1 indices dists hi hd
  have hdist : cloudDist (points.map (fun p => (⟨p.point 0, p.point 1, p.point 2, 1⟩ : Pt K))) ⟨x, y, z, 1⟩ = spaceDist (points.map MyPoint.point) ![x, y, z, 1] := by
    funext i
    unfold cloudDist spaceDist
    rw [List.getElem?_map, List.getElem?_map]
    cases points[i]? with
    | none => rfl
    | some p => simp [sqd]
  rw [hdist, List.length_map] at h4
  refine ⟨t, r, n, is, ds, h2, h3, h5, ?_, ?_⟩
  · rw [h4.length_eq]; exact h7
  · rw [← isKnn_dists h6 h4, List.map_snd_zip]
    simp; omega

/-- C75. A negative `k` does not bound the queue: every point is kept, and if the arrays are shorter than the cloud the first result is written past their end. -/
theorem C75_negative {top : List (Nat × K) → Nat} (htop : TopSpec top) (points : MyCloud K) (q : Fin 4 → K) {k : Int} (h0 : k < 0) (h1 : -2 ^ 31 ≤ k)
    (hN : points.length < 2 ^ 63) (indices : List Nat) (dists : List K) (h : indices.length < points.length) :
    Example.knnSearch top points q k indices dists = .error .oob := by
  obtain ⟨R, h2, h3, -⟩ := fold_queue top htop k (candidates points q)
  have hc : (candidates points q).length = points.length := by simp [candidates]
  have hk : points.length ≤ toU64 k := by unfold toU64; omega
  rw [hc] at h3
  unfold Example.knnSearch
  generalize (candidates points q).foldl (pushPop top k) [] = Q at h2 h3
  dsimp only
  rw [drain_oob top htop Q (by intro h; simp [h] at h3; omega) indices dists (by omega)]
  rfl

/-- A queue that looks for the greatest element from the front. -/
def frontTop (q : List (Nat × K)) : Nat := q.findIdx (fun t => decide (∀ c ∈ q, c.2 ≤ t.2))

theorem frontTop_meets : TopSpec (frontTop (K := K)) := by
  intro q hq
  obtain ⟨t, ht, hmax⟩ : ∃ t ∈ q, ∀ c ∈ q, c.2 ≤ t.2 := by
    induction q with
    | nil => exact absurd rfl hq
    | cons a l ih =>
      by_cases hl : l = []
      · subst hl; exact ⟨a, by simp, by simp⟩
      · obtain ⟨t, ht, hm⟩ := ih hl
        rcases le_total a.2 t.2 with h | h
        · exact ⟨t, by simp [ht], by simpa [h] using hm⟩
        · refine ⟨a, by simp, ?_⟩
          intro c hc
          rcases List.mem_cons.1 hc with rfl | hc
          · exact le_refl _
          · exact (hm c hc).trans h
  have hlt : frontTop q < q.length := List.findIdx_lt_length_of_exists ⟨t, ht, by simpa using hmax⟩
  refine ⟨q[frontTop q], List.getElem?_eq_getElem hlt, ?_⟩
  have := List.findIdx_getElem (w := hlt)
  unfold frontTop
  simpa using this

/-- Four points on a line. -/
def lineCloud : MyCloud ℚ := [⟨![5, 0, 0], 0, 0⟩, ⟨![1, 0, 0], 0, 0⟩, ⟨![4, 0, 0], 0, 0⟩, ⟨![2, 0, 0], 0, 0⟩]

/-- Two of the four, nearest first; a third entry of the arrays is kept. -/
example : Example.knnSearch frontTop lineCloud ![0, 0, 0, 1] 2 [9, 9, 9] [7, 7, 7] = .ok (2, [1, 3, 9], [1, 4, 7]) := by decide +kernel

/-- The hypotheses of `C75_brute_force`, of `C75_negative` and the conclusion of the latter on a small case. -/
example : TopSpec (frontTop (K := ℚ)) ∧ lineCloud.length < 2 ^ 63 ∧ ([9, 9, 9] : List Nat).length < lineCloud.length ∧
    Example.knnSearch frontTop lineCloud ![0, 0, 0, 1] (-1) [9, 9, 9] [7, 7, 7] = .error .oob :=
  ⟨frontTop_meets, by decide, by decide, C75_negative frontTop_meets _ _ (by omega) (by norm_num) (by decide) _ _ (by decide)⟩

end Verif.Props
