import Verif.Props.KdTreeExamples
import Mathlib.Algebra.Order.Floor.Ring
import Mathlib.Data.Rat.Floor

/-!
C08: exactness of the axis-aligned search relative to distances computed with rounding.
-/

namespace Verif.Props

open Verif Verif.Knn Verif.KdTree Verif.Proofs

variable {K : Type} [Field K] [LinearOrder K] [IsStrictOrderedRing K]

/-- What is assumed of the rounding function of the machine: monotone, odd and idempotent. All IEEE-754
round-to-nearest modes without overflow have these properties, with gradual underflow or flushing to zero. -/
structure Rounding (rnd : K → K) : Prop where
  mono : ∀ x y, x ≤ y → rnd x ≤ rnd y
  odd : ∀ x, rnd (-x) = -rnd x
  idem : ∀ x, rnd (rnd x) = rnd x

/-- What is assumed of the computed squared norm: it is non-negative and at least the rounded square of each of the
first three components. `sqNorm_sequential`, `sqNorm_pairwise` and `sqNorm_fma` show it for the usual ways of
evaluating it. -/
structure SqNormOK (rnd : K → K) (f : K → K → K → K → K) : Prop where
  a : ∀ a b c d, rnd (a * a) ≤ f a b c d
  b : ∀ a b c d, rnd (b * b) ≤ f a b c d
  c : ∀ a b c d, rnd (c * c) ≤ f a b c d

/-- Machine arithmetic with rounding `rnd`; `div` and `dot3` are left open (they influence only which axis is
chosen). -/
def roundedOps (rnd : K → K) (sqn : K → K → K → K → K) (div : K → K → K) (dot3 : K → K → K → K → K → K → K) : Ops K where
  zero := 0
  add x y := rnd (x + y)
  sub x y := rnd (x - y)
  mul x y := rnd (x * y)
  div := div
  sqNorm4 := sqn
  dot3 := dot3

theorem Rounding.zero {rnd : K → K} (h : Rounding rnd) : rnd 0 = 0 := by
  have := h.odd 0
  rw [neg_zero] at this
  linarith

theorem Rounding.nonneg {rnd : K → K} (h : Rounding rnd) {x : K} (hx : 0 ≤ x) : 0 ≤ rnd x := by
  have := h.mono _ _ hx
  rwa [h.zero] at this

theorem Rounding.le_add {rnd : K → K} (h : Rounding rnd) {x y : K} (hx : rnd x = x) (hy : 0 ≤ y) : x ≤ rnd (x + y) := by
  calc x = rnd x := hx.symm
    _ ≤ _ := h.mono _ _ (by linarith)

theorem Rounding.le_add' {rnd : K → K} (h : Rounding rnd) {x y : K} (hx : rnd x = x) (hy : 0 ≤ y) : x ≤ rnd (y + x) := by
  rw [add_comm]; exact h.le_add hx hy

/-- Left-to-right summation. -/
theorem sqNorm_sequential {rnd : K → K} (h : Rounding rnd) :
    SqNormOK rnd (fun a b c d => rnd (rnd (rnd (rnd (a * a) + rnd (b * b)) + rnd (c * c)) + rnd (d * d))) := by
  have sq : ∀ x : K, 0 ≤ rnd (x * x) := fun x => h.nonneg (mul_self_nonneg x)
  constructor <;> intro a b c d
  · have h1 := h.le_add (h.idem (a * a)) (sq b)
    have h2 := h.le_add (h.idem (rnd (a * a) + rnd (b * b))) (sq c)
    have h3 := h.le_add (h.idem (rnd (rnd (a * a) + rnd (b * b)) + rnd (c * c))) (sq d)
    linarith
  · have h1 := h.le_add' (h.idem (b * b)) (sq a)
    have h2 := h.le_add (h.idem (rnd (a * a) + rnd (b * b))) (sq c)
    have h3 := h.le_add (h.idem (rnd (rnd (a * a) + rnd (b * b)) + rnd (c * c))) (sq d)
    linarith
  · have h0 : 0 ≤ rnd (rnd (a * a) + rnd (b * b)) := h.nonneg (add_nonneg (sq a) (sq b))
    have h2 := h.le_add' (h.idem (c * c)) h0
    have h3 := h.le_add (h.idem (rnd (rnd (a * a) + rnd (b * b)) + rnd (c * c))) (sq d)
    linarith

/-- Two-lane (SSE2) summation `(a² + c²) + (b² + d²)`. -/
theorem sqNorm_pairwise {rnd : K → K} (h : Rounding rnd) :
    SqNormOK rnd (fun a b c d => rnd (rnd (rnd (a * a) + rnd (c * c)) + rnd (rnd (b * b) + rnd (d * d)))) := by
  have sq : ∀ x : K, 0 ≤ rnd (x * x) := fun x => h.nonneg (mul_self_nonneg x)
  have sq2 : ∀ x y : K, 0 ≤ rnd (rnd (x * x) + rnd (y * y)) := fun x y => h.nonneg (add_nonneg (sq x) (sq y))
  constructor <;> intro a b c d
  · have h1 := h.le_add (h.idem (a * a)) (sq c)
    have h2 := h.le_add (h.idem (rnd (a * a) + rnd (c * c))) (sq2 b d)
    linarith
  · have h1 := h.le_add (h.idem (b * b)) (sq d)
    have h2 := h.le_add' (h.idem (rnd (b * b) + rnd (d * d))) (sq2 a c)
    linarith
  · have h1 := h.le_add' (h.idem (c * c)) (sq a)
    have h2 := h.le_add (h.idem (rnd (a * a) + rnd (c * c))) (sq2 b d)
    linarith

/-- Fused multiply-add chain. -/
theorem sqNorm_fma {rnd : K → K} (h : Rounding rnd) :
    SqNormOK rnd (fun a b c d => rnd (d * d + rnd (c * c + rnd (b * b + rnd (a * a))))) := by
  have sq : ∀ x : K, 0 ≤ x * x := fun x => mul_self_nonneg x
  have s1 : ∀ x y : K, 0 ≤ y → 0 ≤ rnd (x * x + y) := fun x y hy => h.nonneg (add_nonneg (sq x) hy)
  constructor <;> intro a b c d
  · have h1 := h.le_add' (h.idem (a * a)) (sq b)
    have h2 := h.le_add' (h.idem (b * b + rnd (a * a))) (sq c)
    have h3 := h.le_add' (h.idem (c * c + rnd (b * b + rnd (a * a)))) (sq d)
    linarith
  · have h1 : rnd (b * b) ≤ rnd (b * b + rnd (a * a)) := h.mono _ _ (by linarith [h.nonneg (sq a)])
    have h2 := h.le_add' (h.idem (b * b + rnd (a * a))) (sq c)
    have h3 := h.le_add' (h.idem (c * c + rnd (b * b + rnd (a * a)))) (sq d)
    linarith
  · have h1 : rnd (c * c) ≤ rnd (c * c + rnd (b * b + rnd (a * a))) :=
      h.mono _ _ (by linarith [s1 b _ (h.nonneg (sq a))])
    have h3 := h.le_add' (h.idem (c * c + rnd (b * b + rnd (a * a)))) (sq d)
    linarith

/-- Rounded plane distance is at most the rounded square of a larger coordinate difference. -/
theorem rounded_cut_le {rnd : K → K} (h : Rounding rnd) {v th x : K} (hx : |v - th| ≤ |x - v|) :
    rnd (rnd (v - th) * rnd (v - th)) ≤ rnd (rnd (x - v) * rnd (x - v)) := by
  have habs : ∀ y : K, |rnd y| = rnd |y| := by
    intro y
    rcases le_total 0 y with hy | hy
    · rw [abs_of_nonneg hy, abs_of_nonneg (h.nonneg hy)]
    · rw [abs_of_nonpos hy, h.odd]
      have : rnd y ≤ 0 := by have := h.mono _ _ hy; rwa [h.zero] at this
      rw [abs_of_nonpos this]
  apply h.mono
  rw [← abs_mul_abs_self (rnd (v - th)), ← abs_mul_abs_self (rnd (x - v))]
  apply mul_self_le_mul_self (abs_nonneg _)
  rw [habs, habs]
  exact h.mono _ _ hx

theorem pruneOK_rounded {rnd : K → K} (h : Rounding rnd) {sqn : K → K → K → K → K} (hs : SqNormOK rnd sqn)
    (div : K → K → K) (dot3 : K → K → K → K → K → K → K) (points : List (Pt K)) (q : Pt K) :
    ∀ t : KT K, t.Separated (roundedOps rnd sqn div dot3) points → t.AllProj (fun p => ∃ a, p = .axis a) →
      (∀ j ∈ t.items, j < points.length) → PruneOK (roundedOps rnd sqn div dot3) points q t
  | .leaf _, _, _, _ => trivial
  | .node p th l r, hsep, hp, hv => by
    have hvl : ∀ j ∈ l.items, j < points.length := fun j hj => hv j (by simp [KT.items, hj])
    have hvr : ∀ j ∈ r.items, j < points.length := fun j hj => hv j (by simp [KT.items, hj])
    obtain ⟨ax, rfl⟩ := hp.1
    -- it suffices to compare coordinate differences
    have key : ∀ i (hi : i < points.length),
        |Proj.eval (roundedOps rnd sqn div dot3) (.axis ax) q - th| ≤
          |Proj.eval (roundedOps rnd sqn div dot3) (.axis ax) points[i] - Proj.eval (roundedOps rnd sqn div dot3) (.axis ax) q| →
        rnd (rnd (Proj.eval (roundedOps rnd sqn div dot3) (.axis ax) q - th) * rnd (Proj.eval (roundedOps rnd sqn div dot3) (.axis ax) q - th))
          ≤ distTo (roundedOps rnd sqn div dot3) points q i := by
      intro i hi hle
      refine le_trans (rounded_cut_le h hle) ?_
      unfold distTo
      rw [List.getElem?_eq_getElem hi]
      cases ax
      · exact hs.a _ _ _ _
      · exact hs.b _ _ _ _
      · exact hs.c _ _ _ _
    have hzero : ∀ i, i < points.length → 0 ≤ distTo (roundedOps rnd sqn div dot3) points q i := by
      intro i hi
      unfold distTo
      rw [List.getElem?_eq_getElem hi]
      exact le_trans (h.nonneg (mul_self_nonneg _)) (hs.a _ _ _ _)
    refine ⟨?_, ?_, pruneOK_rounded h hs div dot3 points q l hsep.2.2.1 hp.2.1 hvl,
      pruneOK_rounded h hs div dot3 points q r hsep.2.2.2 hp.2.2 hvr⟩
    · intro hd i hi
      have hlt := hvr i hi
      have h1 := hsep.2.1 i hi _ (List.getElem?_eq_getElem hlt)
      apply key i hlt
      have hneg : Proj.eval (roundedOps rnd sqn div dot3) (.axis ax) q - th < 0 := by
        by_contra hcon
        exact absurd hd (not_lt.2 (h.nonneg (not_lt.1 hcon)))
      rw [abs_of_neg hneg, abs_of_nonneg (by linarith)]
      linarith
    · intro hd i hi
      have hlt := hvl i hi
      have h1 := hsep.1 i hi _ (List.getElem?_eq_getElem hlt)
      by_cases hneg : Proj.eval (roundedOps rnd sqn div dot3) (.axis ax) q - th < 0
      · -- the difference underflowed to zero: the cut is zero
        have hz : rnd (Proj.eval (roundedOps rnd sqn div dot3) (.axis ax) q - th) = 0 := by
          apply le_antisymm
          · have := h.mono _ _ hneg.le; rwa [h.zero] at this
          · exact not_lt.1 hd
        show rnd (rnd _ * rnd _) ≤ _
        rw [hz, mul_zero, h.zero]
        exact hzero i hlt
      · apply key i hlt
        rw [abs_of_nonneg (not_lt.1 hneg), abs_of_nonpos (by linarith [not_lt.1 hneg])]
        linarith

/-- C08. With every elementary operation rounded, the default tree search (early termination off) still returns an
exact k-NN answer with respect to the distances as computed: it never misses a point whose computed distance is smaller
than that of a returned point. -/
theorem C08_knn_exact_rounded {rnd : K → K} (h : Rounding rnd) {sqn : K → K → K → K → K} (hs : SqNormOK rnd sqn)
    (div : K → K → K) (dot3 : K → K → K → K → K → K → K)
    (nth : List (Nat × K) → Nat → List (Nat × K)) (hnth : NthElementSpec nth)
    (maxLeafSize maxScanCount : Int) (hm : SafeLeafSize maxLeafSize) (hsc : toU64 maxScanCount ≠ 0)
    (points : List (Pt K)) (hne : points ≠ []) (hN : points.length < 2 ^ 32)
    (maxD : K) (q : Pt K)
    (hmax : ∀ p ∈ points, Pt.sqDist (roundedOps rnd sqn div dot3) p q < maxD)
    (k : Int) (hk : 0 < k) (indices : List Nat) (dists : List K) (hi : k.toNat ≤ indices.length) (hd : k.toNat ≤ dists.length)
    (fuel : Nat) (hf : points.length < fuel) :
    ∃ t r, KdTree.construct (roundedOps rnd sqn div dot3)
        ⟨maxLeafSize, findAxis (roundedOps rnd sqn div dot3) maxScanCount, nth⟩ fuel points = .ok t ∧
      knnSearch (roundedOps rnd sqn div dot3) maxD points t fuel (-1) k indices dists q 0 = .ok r ∧
      Spec.IsKnn (distTo (roundedOps rnd sqn div dot3) points q) points.length k.toNat r.found := by
  obtain ⟨t, kt, h1, hb, _⟩ := construct_built (roundedOps rnd sqn div dot3)
    ⟨maxLeafSize, findAxis (roundedOps rnd sqn div dot3) maxScanCount, nth⟩ (fun p => ∃ a, p = .axis a) points hne hN hnth
    (findAxis_spec _ _ hsc) hm fuel hf
  have hv : ∀ j ∈ kt.items, j < points.length := fun j hj => List.mem_range.1 (hb.items.mem_iff.1 hj)
  have hpr := pruneOK_rounded h hs div dot3 points q kt hb.sep hb.proj hv
  have hlt : ∀ i, i < points.length → distTo (roundedOps rnd sqn div dot3) points q i < maxD := by
    intro i hi
    unfold distTo
    rw [List.getElem?_eq_getElem hi]
    exact hmax _ (List.getElem_mem hi)
  have hnn : ∀ i, 0 ≤ distTo (roundedOps rnd sqn div dot3) points q i := by
    intro i
    unfold distTo
    split
    · exact le_trans (h.nonneg (mul_self_nonneg _)) (hs.a _ _ _ _)
    · exact le_refl _
  have h0 : 0 < points.length := List.length_pos_of_ne_nil hne
  obtain ⟨r, L, h2, h3, _, h4⟩ := knnSearch_contract _ maxD 0 _ points t kt 0 hb q hpr hlt
    ((hnn 0).trans (hlt 0 h0).le) (-1) k k.toNat (by simp) (by omega) (by omega) indices dists hi hd fuel hf
  refine ⟨t, r, h1, h2, ?_⟩
  rw [h3]
  rcases h4 with h4 | h4
  · exact h4
  · exfalso
    have hne' : L ≠ [] := by
      intro h; have := h4.length_eq; rw [h] at this; simp at this; omega
    have hmem := List.head_mem hne'
    have e1 := h4.below _ hmem
    rw [h4.dist_eq _ hmem] at e1
    exact absurd e1 (not_lt.2 (hnn _))

omit [IsStrictOrderedRing K] in
/-- C08, consequence for true distances: if computed distances carry a relative error of at most `u`, then no point left
out is closer than a returned point by more than the factor `(1+u)/(1-u)` in squared distance. -/
theorem C08_true_distance_gap (points : List (Pt K)) (q : Pt K) (o : Ops K) (u : K) (k : Nat) (res : List (Nat × K))
    (hres : Spec.IsKnn (distTo o points q) points.length k res)
    (hlo : ∀ i, i < points.length → (1 - u) * Spec.cloudDist points q i ≤ distTo o points q i)
    (hhi : ∀ i, i < points.length → distTo o points q i ≤ (1 + u) * Spec.cloudDist points q i) :
    ∀ c ∈ res, ∀ j, j < points.length → j ∉ res.map Prod.fst →
      (1 - u) * Spec.cloudDist points q c.1 ≤ (1 + u) * Spec.cloudDist points q j := by
  intro c hc j hj hjn
  have h1 := hres.best c hc j hj hjn
  rw [hres.dist_eq c hc] at h1
  exact (hlo _ (hres.valid c hc)).trans (h1.trans (hhi j hj))

/-- A rounding that is not the identity: truncation of rationals to integers. -/
def truncRat (x : Rat) : Rat := if 0 ≤ x then (⌊x⌋ : Int) else -((⌊-x⌋ : Int) : Rat)

/-- The rounding contract is met by `truncRat` (flush-to-zero like behaviour on (-1, 1)) and by the identity. -/
theorem truncRat_rounding : Rounding truncRat where
  mono x y hxy := by
    unfold truncRat
    split <;> split
    · exact_mod_cast Int.floor_mono hxy
    · rename_i h1 h2; exact absurd (h1.trans hxy) h2
    · rename_i h1 h2
      have : (0 : Int) ≤ ⌊-x⌋ := Int.floor_nonneg.2 (by linarith [not_le.1 h1])
      have h3 : (0 : Int) ≤ ⌊y⌋ := Int.floor_nonneg.2 h2
      have : (0 : Rat) ≤ (⌊-x⌋ : Int) := by exact_mod_cast this
      have : (0 : Rat) ≤ (⌊y⌋ : Int) := by exact_mod_cast h3
      linarith
    · have : ⌊-y⌋ ≤ ⌊-x⌋ := Int.floor_mono (by linarith)
      have : ((⌊-y⌋ : Int) : Rat) ≤ (⌊-x⌋ : Int) := by exact_mod_cast this
      linarith
  odd x := by
    unfold truncRat
    rcases lt_trichotomy x 0 with h | h | h
    · rw [if_pos (by linarith), if_neg (not_le.2 h)]; simp
    · subst h; simp
    · rw [if_neg (by linarith), if_pos h.le]; simp
  idem x := by
    unfold truncRat
    split
    · rename_i h
      have : (0 : Rat) ≤ (⌊x⌋ : Int) := by exact_mod_cast Int.floor_nonneg.2 h
      rw [if_pos this, Int.floor_intCast]
    · rename_i h
      have h1 : (0 : Rat) ≤ (⌊-x⌋ : Int) := by exact_mod_cast Int.floor_nonneg.2 (by linarith [not_le.1 h])
      by_cases h2 : (0 : Rat) ≤ -((⌊-x⌋ : Int) : Rat)
      · have : ((⌊-x⌋ : Int) : Rat) = 0 := le_antisymm (by linarith) h1
        rw [if_pos h2, this]; simp
      · rw [if_neg h2, neg_neg, Int.floor_intCast]

example : truncRat (7 / 2) = 3 ∧ truncRat (-7 / 2) = -3 := by
  constructor
  · unfold truncRat; rw [if_pos (by norm_num)]
    have : ⌊(7 / 2 : Rat)⌋ = 3 := by rw [Int.floor_eq_iff]; norm_num
    rw [this]; norm_num
  · unfold truncRat; rw [if_neg (by norm_num)]
    have : ⌊(-(-7 / 2) : Rat)⌋ = 3 := by rw [Int.floor_eq_iff]; norm_num
    rw [this]; norm_num

example : SqNormOK truncRat (fun a b c d => truncRat (truncRat (truncRat (a * a) + truncRat (c * c)) + truncRat (truncRat (b * b) + truncRat (d * d)))) :=
  sqNorm_pairwise truncRat_rounding

end Verif.Props
