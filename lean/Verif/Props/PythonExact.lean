import Verif.Props.PythonSearch
import Verif.Proofs.KdAny

/-!
C55, exactness: the searches of the Python module return the nearest neighbours of the rows of the query matrix.
-/

set_option linter.unusedSectionVars false

namespace Verif.Props

open Verif Verif.Knn Verif.KdTree Verif.Proofs Verif.PySearch Verif.Spec

variable {K : Type} [Field K] [LinearOrder K] [IsStrictOrderedRing K]

/-- The neighbours of the query point with coordinates `q` and a fourth coordinate of 1. -/
def RowNearest (points : List (Pt K)) (maxD : K) (k : Nat) (q : K × K × K) (found : List (Nat × K)) : Prop :=
  IsNearest (fun j d => (∃ p, points[j]? = some p ∧ d = sqd p ⟨q.1, q.2.1, q.2.2, 1⟩) ∧ d < maxD) k found ∧ (found.map Prod.fst).Nodup

variable (b : Builder K) (hnth : NthElementSpec b.nthElement) (hfind : FindAxisSpec Proj.UnitBounded b.findAxis) (hm : SafeLeafSize b.maxLeafSize)
  (points : List (Pt K)) (hne : points ≠ []) (hN : points.length < 2 ^ 32) (t : KdTree.Tree K) (ht : TreeOf b points t) (maxD : K) (hmax : 0 ≤ maxD)
  (fuel : Nat) (hf : points.length < fuel)

include hnth hfind hm hne hN ht hmax hf

/-- The individual search for `k` neighbours. -/
theorem C55_knn_exact (k : Int) (hk : 0 < k) (q : K × K × K) :
    ∃ found, RowNearest points maxD k.toNat q found ∧ found.length ≤ k.toNat ∧ knnOne ⟨exactOps K, maxD, 1, points, t, fuel⟩ q k = .ok (paddedRow k.toNat INVALID maxD found) := by
  obtain ⟨r, h1, h2, h3⟩ := knn_any b hnth hfind hm points hne hN t ht maxD hmax ⟨q.1, q.2.1, q.2.2, 1⟩ (-1) k k.toNat (by simp) (by omega) (by omega)
    (List.replicate k.toNat INVALID) (List.replicate k.toNat maxD) (by simp) (by simp) fuel hf
  rcases knnSearch_same (exactOps K) maxD points t fuel (-1) k k.toNat ⟨q.1, q.2.1, q.2.2, 1⟩ 0 (by simp) (by omega) (by omega)
    (List.replicate k.toNat INVALID) (List.replicate k.toNat INVALID) (List.replicate k.toNat maxD) (List.replicate k.toNat maxD) (by simp) (by simp) (by simp) (by simp)
    with ⟨e, a, -⟩ | ⟨r1, -, L, a, -, hh, -⟩
  · rw [h1] at a; cases a
  · rw [h1] at a
    cases a
    refine ⟨r.found, ⟨h2, h3⟩, by rw [hh.found_eq]; exact hh.len, ?_⟩
    unfold knnOne
    rw [if_neg (by omega)]
    have : Target.knn ⟨exactOps K, maxD, 1, points, t, fuel⟩ k (List.replicate k.toNat INVALID) (List.replicate k.toNat maxD) q = .ok r := h1
    simp only
    rw [this, ok_bind, hh.found_eq, hh.ind, hh.dis]
    simp [paddedRow]

/-- The individual search for the nearest neighbour. -/
theorem C55_nearest_exact (q : K × K × K) :
    ∃ found, RowNearest points maxD 1 q found ∧ nearestOne ⟨exactOps K, maxD, 1, points, t, fuel⟩ q =
      .ok (match found with | [] => (0, INVALID, maxD) | c :: _ => (1, c.1, c.2)) := by
  obtain ⟨r, h1, h2, h3⟩ := knn_any b hnth hfind hm points hne hN t ht maxD hmax ⟨q.1, q.2.1, q.2.2, 1⟩ 1 (-1) 1 (by simp) (by omega) (by omega)
    [INVALID] [maxD] (by simp) (by simp) fuel hf
  rcases knnSearch_same (exactOps K) maxD points t fuel 1 (-1) 1 ⟨q.1, q.2.1, q.2.2, 1⟩ 0 (by simp) (by omega) (by omega)
    [INVALID] [INVALID] [maxD] [maxD] (by simp) (by simp) (by simp) (by simp) with ⟨e, a, -⟩ | ⟨r1, -, L, a, -, hh, -⟩
  · rw [h1] at a; cases a
  · rw [h1] at a
    cases a
    refine ⟨r.found, ⟨h2, h3⟩, ?_⟩
    have h4 : Target.nearest ⟨exactOps K, maxD, 1, points, t, fuel⟩ [INVALID] [maxD] q = .ok r := h1
    have e1 := hh.ind
    have e2 := hh.dis
    have e3 := hh.found
    have e4 := hh.len
    unfold nearestOne
    simp only
    rw [h4, ok_bind, hh.found_eq, e1, e2, e3]
    rcases L with _ | ⟨c, L⟩
    · rfl
    · have : L = [] := List.length_eq_zero_iff.1 (by rw [List.length_cons] at e4; omega)
      subst this
      rfl

/-- C55: every row of a batch, for every schedule, holds the nearest neighbours of the corresponding row of the query matrix. -/
theorem C55_batch_exact_partial (cols : Nat) (hcols : cols = 3 ∨ cols = 4) (qs : List (K × K × K)) (k : Int) (hk : 0 < k) (hsize : (qs.length : Int) * k ≤ 2 ^ 31)
    (chunks : List (List Nat)) (hchunks : chunks.flatten.Perm (List.range qs.length)) (sched : List Nat) (out : Res (List Nat × List K))
    (hout : batchKnn ⟨exactOps K, maxD, 1, points, t, fuel⟩ cols qs k chunks sched = some out) :
    ∃ ind dis, out = .ok (ind, dis) ∧ ind.length = qs.length * k.toNat ∧ dis.length = qs.length * k.toNat ∧
      ∀ (i : Nat) (q : K × K × K), qs[i]? = some q → ∃ found, RowNearest points maxD k.toNat q found ∧
        (rowOf ind k.toNat i, rowOf dis k.toNat i) = paddedRow k.toNat INVALID maxD found := by
  choose F hF1 _ hF3 using C55_knn_exact b hnth hfind hm points hne hN t ht maxD hmax fuel hf k hk
  obtain ⟨ind, dis, h1, h2, h3, h4⟩ := C55_knn_partial _ cols hcols qs k hk hsize chunks hchunks sched out hout
    (fun i => paddedRow k.toNat INVALID maxD (F (qs.getD i (0, 0, 0)))) (by
      intro i q hq
      simp only [List.getD_eq_getElem?_getD, hq, Option.getD_some]
      exact hF3 q)
  refine ⟨ind, dis, h1, h2, h3, fun i q hq => ⟨F q, hF1 q, ?_⟩⟩
  obtain ⟨a, b, -⟩ := h4 i (List.getElem?_eq_some_iff.1 hq).1
  simp only [List.getD_eq_getElem?_getD, hq, Option.getD_some] at a b
  rw [a, b]

/-- C55: every entry of a nearest neighbour batch holds the nearest neighbour of the corresponding row. -/
theorem C55_nearest_batch_exact (cols : Nat) (hcols : cols = 3 ∨ cols = 4) (qs : List (K × K × K)) (chunks : List (List Nat))
    (hchunks : chunks.flatten.Perm (List.range qs.length)) (sched : List Nat) (out : Res (List Nat × List K))
    (hout : batchNearest ⟨exactOps K, maxD, 1, points, t, fuel⟩ cols qs chunks sched = some out) :
    ∃ ind dis, out = .ok (ind, dis) ∧ ind.length = qs.length ∧ dis.length = qs.length ∧
      ∀ (i : Nat) (q : K × K × K), qs[i]? = some q → ∃ found, RowNearest points maxD 1 q found ∧
        (∀ c, found[0]? = some c → ind[i]? = some c.1 ∧ dis[i]? = some c.2) ∧ (found = [] → ind[i]? = some INVALID ∧ dis[i]? = some maxD) := by
  choose F hF1 hF2 using C55_nearest_exact b hnth hfind hm points hne hN t ht maxD hmax fuel hf
  obtain ⟨ind, dis, h1, h2, h3, h4⟩ := C55_nearest _ cols hcols qs chunks hchunks sched out hout
    (fun i => match F (qs.getD i (0, 0, 0)) with | [] => (0, INVALID, maxD) | c :: _ => (1, c.1, c.2)) (by
      intro i q hq
      simp only [List.getD_eq_getElem?_getD, hq, Option.getD_some]
      exact hF2 q)
  refine ⟨ind, dis, h1, h2, h3, fun i q hq => ⟨F q, hF1 q, ?_⟩⟩
  obtain ⟨a, b, -⟩ := h4 i (List.getElem?_eq_some_iff.1 hq).1
  simp only [List.getD_eq_getElem?_getD, hq, Option.getD_some] at a b
  rcases hFq : F q with _ | ⟨c, L⟩
  · rw [hFq] at a b
    exact ⟨fun c h => by simp at h, fun _ => ⟨a, b⟩⟩
  · rw [hFq] at a b
    refine ⟨fun c' h => ?_, fun h => by cases h⟩
    simp only [List.getElem?_cons_zero, Option.some.injEq] at h
    subst h
    exact ⟨a, b⟩

omit hnth hfind hm hne hN ht hmax hf in
/-- The hypotheses hold for a tree with inner nodes over ten points on a line, and queries in two threads. -/
example : ∃ (b : Builder ℚ) (t : KdTree.Tree ℚ), NthElementSpec b.nthElement ∧ FindAxisSpec Proj.UnitBounded b.findAxis ∧ SafeLeafSize b.maxLeafSize ∧
    linePts ℚ 10 ≠ [] ∧ TreeOf b (linePts ℚ 10) t ∧ ∃ out, batchKnn ⟨exactOps ℚ, 1000, 1, linePts ℚ 10, t, 20⟩ 3 [(2, 0, 1), (9, 1, 0)] 12 [[0], [1]] [1, 0] = some out := by
  let b : Builder ℚ := ⟨3, KdTree.findAxis (exactOps ℚ) 128, fun l _ => isort l⟩
  have h1 : NthElementSpec b.nthElement := isort_nthElementSpec
  have h2 : FindAxisSpec Proj.UnitBounded b.findAxis := by
    intro pts range h1 h2
    obtain ⟨p, h3, a, rfl⟩ := findAxis_spec (exactOps ℚ) 128 (by unfold toU64; decide) pts range h1 h2
    exact ⟨_, h3, trivial⟩
  have h3 : SafeLeafSize b.maxLeafSize := by show SafeLeafSize 3; unfold SafeLeafSize toU64; decide
  have h4 : linePts ℚ 10 ≠ [] := by intro h; have := congrArg List.length h; simp [linePts] at this
  obtain ⟨t, kt, h5, _⟩ := construct_built (exactOps ℚ) b Proj.UnitBounded (linePts ℚ 10) h4 (by simp [linePts]) h1 h2 h3 20 (by simp [linePts])
  exact ⟨b, t, h1, h2, h3, h4, .sequential 20 (by simp [linePts]) h5, _, rfl⟩

end Verif.Props
