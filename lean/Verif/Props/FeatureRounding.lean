import Verif.Model.FeatureMachine
import Verif.Props.PreprocessAnyArith
import Verif.Props.DownsamplingRounding
import Mathlib.Topology.MetricSpace.ProperSpace
import Mathlib.Topology.Instances.Rat
import Mathlib.Topology.Order.Compact
import Mathlib.Topology.Algebra.Order.Archimedean
import Mathlib.Topology.MetricSpace.ProperSpace.Real

/-!
C105: covariances and normals in floating-point arithmetic.
-/

set_option linter.unusedSectionVars false
set_option linter.unusedSimpArgs false
set_option linter.unnecessarySeqFocus false

namespace Verif.Spec

open Verif

section

variable {K : Type} [Field K] [LinearOrder K]

/-- Differences are rounded, with a relative error of at most `u` between machine numbers up to `big` (as the sums of `Spec.Machine`). -/
structure MachineSub (o : Ops K) (rnd : K → K) (u big : K) : Prop where
  sub : ∀ a b, o.sub a b = rnd (a - b)
  err : ∀ a b, rnd a = a → rnd b = b → |a - b| ≤ big → |rnd (a - b) - (a - b)| ≤ u * |a - b|

/-- The mean of the points. -/
def meanOf (pts : List (Fin 4 → K)) : Fin 4 → K := fun j => (pts.map fun p => p j).sum / pts.length

/-- The covariance matrix of the points. -/
def covarianceOf (pts : List (Fin 4 → K)) : Matrix (Fin 3) (Fin 3) K := fun j k =>
  (pts.map fun p => (p j.castSucc - meanOf pts j.castSucc) * (p k.castSucc - meanOf pts k.castSucc)).sum / pts.length

/-- The error of the covariances of `n` points with coordinates of at most `B`. -/
def covarianceError (u η B : K) (n : Nat) : K := 2 * B ^ 2 * ((1 + u) ^ (2 * n + 4) - 1) + (3 + B) * η * (1 + u) ^ (2 * n + 4)

/-- The variance along `v` (times the square of its length), if `A` is the covariance matrix. -/
def along (A : Matrix (Fin 3) (Fin 3) K) (v : Fin 3 → K) : K := ∑ j, ∑ k, A j k * v j * v k

/-- The inner product. -/
def inner3 (v w : Fin 3 → K) : K := ∑ j, v j * w j

/-- What a solver for symmetric matrices sees of a matrix: its lower triangle. -/
def lower (A : Matrix (Fin 3) (Fin 3) K) : Matrix (Fin 3) (Fin 3) K := fun j k => if k ≤ j then A j k else A k j

/-- The unit vector `n` is the normal: the variance along a vector exceeds the one along `n` by at least `δ` times the square of the sine of the angle between them. (`δ` is the difference of the two smallest eigenvalues,
see `normal_of_eigen`.) -/
def IsNormal (A : Matrix (Fin 3) (Fin 3) K) (n : Fin 3 → K) (δ : K) : Prop :=
  inner3 n n = 1 ∧ ∀ v, along A n * inner3 v v + δ * (inner3 v v - inner3 n v ^ 2) ≤ along A v

/-- The solver minimises the variance up to `ρ` times the largest entry; `vec` is the first column of its result. (`ρ = 0` for exact eigenvectors in ascending order; a backward stable solver has a small multiple of
the precision.) -/
def SolverUpTo {R : Type} (eig : Matrix (Fin 3) (Fin 3) K → R) (vec : R → Fin 3 → K) (ρ : K) : Prop :=
  ∀ A m, (∀ j k, |A j k| ≤ m) → vec (eig A) ≠ 0 ∧
    ∀ x, along (lower A) (vec (eig A)) * inner3 x x ≤ (along (lower A) x + ρ * m * inner3 x x) * inner3 (vec (eig A)) (vec (eig A))

end

/-- `pts` are the neighbours the search finds for point `i`, which is at `p`. -/
def NeighboursAt {V M : Type} (knn : Machine.Search V) (k : Int) (cloud : PointCloud.Cloud (Fin 4 → V) M) (i : Nat) (p : Fin 4 → V) (pts : List (Fin 4 → V)) : Prop :=
  ∃ idx, cloud.points[i]? = some (some p) ∧ knn cloud.points p k.toNat = .ok idx ∧ idx.map (fun j => cloud.points[j]?) = pts.map fun q => some (some q)

end Verif.Spec

namespace Verif.Props

open Verif Verif.Proofs Verif.Spec Verif.PointCloud

section Sums

variable {K : Type} [Field K] [LinearOrder K] [IsStrictOrderedRing K] [FloorRing K]
variable {o : Ops K} {rnd : K → K} {u η big : K} {N : Nat}

set_option maxHeartbeats 1000000 in
/-- Errors of the last four operations; `a = (1 + u) ^ n` bounds those of the sums. -/
theorem cov_entry (h : Machine o rnd u η big N) (hd : MachineSub o rnd u big) {n a B S T X s t x : K} (hn : 1 ≤ n) (ha : 1 ≤ a) (hB : 0 ≤ B) (hX' : rnd X = X)
    (hs : |s| ≤ n * B) (ht : |t| ≤ n * B) (hx : |x| ≤ n * B ^ 2) (hS : |S - s| ≤ (a - 1) * (n * B)) (hT : |T - t| ≤ (a - 1) * (n * B)) (hX : |X - x| ≤ n * B ^ 2 * (a * (1 + u) - 1) + n * η * a)
    (hbig : a ^ 2 * (1 + u) ^ 4 * (n * (2 * B ^ 2 + B + (2 + B) * η)) ≤ big) :
    |o.div (o.sub X (o.mul (o.div S n) T)) n - (x - s / n * t) / n| ≤ 2 * B ^ 2 * (a ^ 2 * (1 + u) ^ 4 - 1) + (3 + B) * η * (a ^ 2 * (1 + u) ^ 4) := by
  have hu := h.u_nonneg
  have he := h.eta_nonneg
  have hn0 : 0 < n := by linarith
  have ha0 : 0 ≤ a := by linarith
  obtain ⟨r, hr⟩ : ∃ r, r = 1 + u := ⟨_, rfl⟩
  have hur : u = r - 1 := by rw [hr]; ring
  rw [← hr] at hbig hX ⊢
  have h1r : 1 ≤ r := by linarith
  have hr0 : 0 ≤ r := by linarith
  obtain ⟨W, hW⟩ : ∃ W, W = a ^ 2 * r ^ 2 := ⟨_, rfl⟩
  have har1 : 1 ≤ a * r := one_le_mul_of_one_le_of_one_le ha h1r
  have haar : a ≤ a * r := le_mul_of_one_le_right ha0 h1r
  have harW : a * r ≤ W := by
    rw [hW, show a ^ 2 * r ^ 2 = (a * r) * (a * r) by ring]
    exact le_mul_of_one_le_left (by linarith) har1
  have hW1 : 1 ≤ W := har1.trans harW
  have hW0 : 0 ≤ W := by linarith
  have ha2r : a ^ 2 * r ≤ W := by
    rw [hW, show a ^ 2 * r ^ 2 = (a ^ 2 * r) * r by ring]
    exact le_mul_of_one_le_right (by positivity) h1r
  have hWr : W ≤ W * r := le_mul_of_one_le_right hW0 h1r
  have hWr0 : 0 ≤ W * r := by linarith
  have hWrr : W * r ≤ W * r ^ 2 := by
    rw [show W * r ^ 2 = (W * r) * r by ring]
    exact le_mul_of_one_le_right hWr0 h1r
  have hw4 : a ^ 2 * r ^ 4 = W * r ^ 2 := by rw [hW]; ring
  rw [hw4] at hbig ⊢
  have hB2 : 0 ≤ B ^ 2 := sq_nonneg B
  have hBη : 0 ≤ (2 + B) * η := mul_nonneg (by linarith) he
  have cap : ∀ y z, y ≤ z * (n * (2 * B ^ 2 + B + (2 + B) * η)) → z ≤ W * r ^ 2 → y ≤ big := by
    intro y z hy hz
    refine hy.trans (le_trans (mul_le_mul_of_nonneg_right hz ?_) hbig)
    positivity
  have e1 : o.div S n = rnd (S / n) := h.div S n
  have hSa : |S| ≤ a * (n * B) := by
    have : |S| ≤ |S - s| + |s| := by simpa using abs_add_le (S - s) s
    linarith
  have hTa : |T| ≤ a * (n * B) := by
    have : |T| ≤ |T - t| + |t| := by simpa using abs_add_le (T - t) t
    linarith
  have hXa : |X| ≤ n * B ^ 2 * (a * r) + n * η * a := by
    have : |X| ≤ |X - x| + |x| := by simpa using abs_add_le (X - x) x
    linarith
  have hdivn : ∀ y z, |y| ≤ z * n → |y / n| ≤ z := by
    intro y z hy
    rw [abs_div, abs_of_pos hn0, div_le_iff₀ hn0]
    exact hy
  have hSn : |S / n| ≤ a * B := hdivn _ _ (by linarith)
  have hsn : |s / n| ≤ B := hdivn _ _ (by linarith)
  have hSsn : |S / n - s / n| ≤ (a - 1) * B := by
    rw [← sub_div]
    exact hdivn _ _ (by linarith)
  have hnB : 0 ≤ n * B := by positivity
  have hnη : 0 ≤ n * η := by positivity
  have hnB2 : 0 ≤ n * B ^ 2 := by positivity
  have hBn : B ≤ n * B := le_mul_of_one_le_left hB hn
  -- the mean
  have hm : |rnd (S / n) - S / n| ≤ u * (a * B) + η := by
    refine (h.err _ (cap _ a ?_ (by linarith))).trans (by linarith [mul_le_mul_of_nonneg_left hSn hu])
    refine hSn.trans (mul_le_mul_of_nonneg_left ?_ ha0)
    have : 0 ≤ n * (2 * B ^ 2 + (2 + B) * η) := by positivity
    linarith
  rw [e1]
  generalize hmdef : rnd (S / n) = m at hm ⊢
  have hm' : |m - s / n| ≤ (a * r - 1) * B + η := by
    have : |m - s / n| ≤ |m - S / n| + |S / n - s / n| := by simpa using abs_add_le (m - S / n) (S / n - s / n)
    rw [hur] at hm
    linarith
  have hma : |m| ≤ a * r * B + η := by
    have : |m| ≤ |m - s / n| + |s / n| := by simpa using abs_add_le (m - s / n) (s / n)
    linarith
  have hmr : 0 ≤ a * r * B + η := by positivity
  -- the product
  have hmT : |m * T| ≤ (a * r * B + η) * (a * (n * B)) := by
    rw [abs_mul]
    exact mul_le_mul hma hTa (abs_nonneg _) hmr
  have hq : |rnd (m * T) - m * T| ≤ u * ((a * r * B + η) * (a * (n * B))) + η := by
    refine (h.err _ (cap _ W ?_ (by linarith))).trans (by linarith [mul_le_mul_of_nonneg_left hmT hu])
    refine hmT.trans ?_
    have k1 : a ^ 2 * r * (n * B ^ 2) ≤ W * (n * B ^ 2) := mul_le_mul_of_nonneg_right ha2r hnB2
    have k2 : a * (n * (B * η)) ≤ W * (n * (B * η)) := mul_le_mul_of_nonneg_right (by linarith) (by positivity)
    have k3 : 0 ≤ W * (n * (B ^ 2 + B + 2 * η)) := by positivity
    linarith
  have hmTs : |m * T - s / n * t| ≤ ((a * r - 1) * B + η) * (a * (n * B)) + B * ((a - 1) * (n * B)) := by
    have : m * T - s / n * t = (m - s / n) * T + s / n * (T - t) := by ring
    rw [this]
    refine (abs_add_le _ _).trans ?_
    rw [abs_mul, abs_mul]
    have : 0 ≤ (a * r - 1) * B := mul_nonneg (by linarith) hB
    exact add_le_add (mul_le_mul hm' hTa (abs_nonneg _) (by linarith)) (mul_le_mul hsn hT (abs_nonneg _) hB)
  have hst : |s / n * t| ≤ n * B ^ 2 := by
    rw [abs_mul]
    calc |s / n| * |t| ≤ B * (n * B) := mul_le_mul hsn ht (abs_nonneg _) hB
      _ = n * B ^ 2 := by ring
  rw [h.mul, hd.sub, h.div]
  have hqm : rnd (rnd (m * T)) = rnd (m * T) := h.idem _
  generalize hqdef : rnd (m * T) = q at hq hqm ⊢
  have hq' : |q - s / n * t| ≤ n * B ^ 2 * (W - 1) + η * (a * r * (n * B) + 1) := by
    have k : |q - s / n * t| ≤ |q - m * T| + |m * T - s / n * t| := by simpa using abs_add_le (q - m * T) (m * T - s / n * t)
    rw [hur] at hq
    rw [hW]
    linarith
  have hqa : |q| ≤ n * B ^ 2 * W + η * (a * r * (n * B) + 1) := by
    have : |q| ≤ |q - s / n * t| + |s / n * t| := by simpa using abs_add_le (q - s / n * t) (s / n * t)
    linarith
  have hβ : n * η * a + η * (a * r * (n * B) + 1) ≤ W * (n * ((2 + B) * η)) := by
    have k1 : a * (n * η) ≤ W * (n * η) := mul_le_mul_of_nonneg_right (by linarith) hnη
    have k2 : (a * r) * (n * B * η) ≤ W * (n * B * η) := mul_le_mul_of_nonneg_right harW (by positivity)
    have k3 : η ≤ W * (n * η) := by
      have : 1 ≤ W * n := one_le_mul_of_one_le_of_one_le hW1 hn
      calc η ≤ (W * n) * η := le_mul_of_one_le_left he this
        _ = W * (n * η) := by ring
    linarith
  have hα : n * B ^ 2 * (a * r) ≤ n * B ^ 2 * W := mul_le_mul_of_nonneg_left harW hnB2
  -- the difference
  have hea : |X - q| ≤ W * (n * (2 * B ^ 2 + (2 + B) * η)) := by
    have := abs_sub X q
    linarith
  have heD : |X - q - (x - s / n * t)| ≤ 2 * (n * B ^ 2) * (W - 1) + W * (n * ((2 + B) * η)) := by
    have e : X - q - (x - s / n * t) = (X - x) - (q - s / n * t) := by ring
    rw [e]
    have := abs_sub (X - x) (q - s / n * t)
    linarith
  have hde : |rnd (X - q) - (X - q)| ≤ u * (W * (n * (2 * B ^ 2 + (2 + B) * η))) := by
    refine (hd.err X q hX' hqm (cap _ W (hea.trans (mul_le_mul_of_nonneg_left ?_ hW0)) (by linarith))).trans (mul_le_mul_of_nonneg_left hea hu)
    linarith
  generalize rnd (X - q) = d at hde ⊢
  have hda : |d| ≤ W * r * (n * (2 * B ^ 2 + (2 + B) * η)) := by
    have : |d| ≤ |d - (X - q)| + |X - q| := by simpa using abs_add_le (d - (X - q)) (X - q)
    rw [hur] at hde
    linarith
  have hdD : |d - (x - s / n * t)| ≤ 2 * (n * B ^ 2) * (W * r - 1) + W * r * (n * ((2 + B) * η)) := by
    have : |d - (x - s / n * t)| ≤ |d - (X - q)| + |X - q - (x - s / n * t)| := by simpa using abs_add_le (d - (X - q)) (X - q - (x - s / n * t))
    rw [hur] at hde
    linarith
  have hdn : |d / n| ≤ W * r * (2 * B ^ 2 + (2 + B) * η) := hdivn _ _ (by linarith)
  have hdDn : |d / n - (x - s / n * t) / n| ≤ 2 * B ^ 2 * (W * r - 1) + W * r * ((2 + B) * η) := by
    rw [← sub_div]
    exact hdivn _ _ (by linarith)
  have hc : |rnd (d / n) - d / n| ≤ u * (W * r * (2 * B ^ 2 + (2 + B) * η)) + η := by
    refine (h.err _ (cap _ (W * r) (hdn.trans (mul_le_mul_of_nonneg_left ?_ hWr0)) (by linarith))).trans (by linarith [mul_le_mul_of_nonneg_left hdn hu])
    have : 2 * B ^ 2 + (2 + B) * η ≤ n * (2 * B ^ 2 + (2 + B) * η) := le_mul_of_one_le_left (by positivity) hn
    linarith
  have hfin : |rnd (d / n) - (x - s / n * t) / n| ≤ |rnd (d / n) - d / n| + |d / n - (x - s / n * t) / n| := by simpa using abs_add_le (rnd (d / n) - d / n) (d / n - (x - s / n * t) / n)
  have hη : η ≤ W * r ^ 2 * η := le_mul_of_one_le_left he (by linarith)
  rw [hur] at hc
  linarith

theorem abs_list_sum : ∀ l : List K, |l.sum| ≤ (l.map fun x => |x|).sum
  | [] => by simp
  | x :: l => by
    rw [List.sum_cons, List.map_cons, List.sum_cons]
    exact (abs_add_le _ _).trans (by linarith [abs_list_sum l])

/-- The sums. -/
theorem machine_total (h : Machine o rnd u η big N) {l : List K} {A : K} (hl : ∀ x ∈ l, rnd x = x) (hA : ∀ x ∈ l, |x| ≤ A) (hbig : (1 + u) ^ l.length * (l.length * A) ≤ big) :
    |l.foldl o.add o.zero - l.sum| ≤ ((1 + u) ^ l.length - 1) * (l.length * A) ∧ rnd (l.foldl o.add o.zero) = l.foldl o.add o.zero ∧ |l.sum| ≤ l.length * A := by
  have hu := h.u_nonneg
  have hsum : (l.map fun x => |x|).sum ≤ l.length * A := by
    have := List.sum_le_card_nsmul (l.map fun x => |x|) A (by
      intro y hy
      obtain ⟨x, hx, rfl⟩ := List.mem_map.1 hy
      exact hA x hx)
    simpa using this
  have h1 : (1 : K) ≤ (1 + u) ^ l.length := one_le_pow₀ (by linarith)
  have hz : rnd o.zero = o.zero := by
    rw [h.zero]
    simpa using h.nat 0 (Nat.zero_le _)
  have key := machine_sum h l o.zero 0 0 0 hl hz (by simp) (by simp [h.zero]) (by
    rw [zero_add, zero_add]
    exact (mul_le_mul_of_nonneg_left hsum (by linarith)).trans hbig)
  simp only [zero_add] at key
  refine ⟨key.1.trans (mul_le_mul_of_nonneg_left hsum (by linarith)), key.2, ?_⟩
  refine le_trans ?_ hsum
  exact abs_list_sum l

/-- The textbook formula for a covariance, and the one that is computed. -/
theorem covariance_formula {pts : List (Fin 4 → K)} (hne : pts ≠ []) (j k : Fin 3) : covarianceOf pts j k =
    ((pts.map fun p => p j.castSucc * p k.castSucc).sum - (pts.map fun p => p j.castSucc).sum / pts.length * (pts.map fun p => p k.castSucc).sum) / pts.length := by
  have hn : (pts.length : K) ≠ 0 := by
    have := List.length_pos_iff.2 hne
    positivity
  unfold covarianceOf
  congr 1
  have key : ∀ (l : List (Fin 4 → K)) (m m' : K), (l.map fun p => (p j.castSucc - m) * (p k.castSucc - m')).sum =
      (l.map fun p => p j.castSucc * p k.castSucc).sum - m * (l.map fun p => p k.castSucc).sum - m' * (l.map fun p => p j.castSucc).sum + l.length * (m * m') := by
    intro l m m'
    induction l with
    | nil => simp
    | cons p l ih =>
      simp only [List.map_cons, List.sum_cons, List.length_cons, Nat.cast_add, Nat.cast_one, ih]
      ring
  rw [key]
  unfold meanOf
  field_simp
  ring

/-- C105, one matrix: the computed covariances are those of the points up to `covarianceError`. -/
theorem covariance_rounding (h : Machine o rnd u η big N) (hd : MachineSub o rnd u big) {pts : List (Fin 4 → K)} (hne : pts ≠ []) {B : K} (hm : ∀ p ∈ pts, ∀ j : Fin 3, rnd (p j.castSucc) = p j.castSucc)
    (hB : ∀ p ∈ pts, ∀ j : Fin 3, |p j.castSucc| ≤ B) (hcap : (1 + u) ^ (2 * pts.length + 4) * (pts.length * (2 * B ^ 2 + B + (2 + B) * η)) ≤ big) (j k : Fin 3) :
    |Machine.covMatrix o (pts.length : K) (fun j => (pts.map fun p => p j).foldl o.add o.zero) (fun j k => (pts.map fun p => o.mul (p j) (p k)).foldl o.add o.zero) j.castSucc k.castSucc - covarianceOf pts j k| ≤
      covarianceError u η B pts.length := by
  have hu := h.u_nonneg
  have he := h.eta_nonneg
  have hn : (1 : K) ≤ (pts.length : K) := by exact_mod_cast List.length_pos_iff.2 hne
  obtain ⟨p0, hp0⟩ := List.exists_mem_of_ne_nil _ hne
  have hB0 : 0 ≤ B := (abs_nonneg _).trans (hB p0 hp0 0)
  have h1 : (1 : K) ≤ 1 + u := by linarith
  have hpow : ∀ i, i ≤ 2 * pts.length + 4 → (1 + u) ^ i ≤ (1 + u) ^ (2 * pts.length + 4) := fun i hi => pow_le_pow_right₀ h1 hi
  have hp0' : ∀ i, (0 : K) ≤ (1 + u) ^ i := fun i => by positivity
  have cap : ∀ i (z : K), i ≤ 2 * pts.length + 4 → 0 ≤ z → z ≤ pts.length * (2 * B ^ 2 + B + (2 + B) * η) → (1 + u) ^ i * z ≤ big := fun i z hi hz hle =>
    (mul_le_mul (hpow i hi) hle hz (hp0' _)).trans hcap
  have hB2 : 0 ≤ B ^ 2 := sq_nonneg B
  have hBη : 0 ≤ B * η := mul_nonneg hB0 he
  have hsum : ∀ j : Fin 3, |(pts.map fun p => p j.castSucc).foldl o.add o.zero - (pts.map fun p => p j.castSucc).sum| ≤ ((1 + u) ^ pts.length - 1) * (pts.length * B) ∧
      |(pts.map fun p => p j.castSucc).sum| ≤ pts.length * B := by
    intro j
    have := machine_total h (l := pts.map fun p => p j.castSucc) (A := B) (by simpa using fun p hp => hm p hp j) (by simpa using fun p hp => hB p hp j) (by
      rw [List.length_map]
      exact cap _ _ (by omega) (by positivity) (mul_le_mul_of_nonneg_left (by linarith) (by linarith)))
    rw [List.length_map] at this
    exact ⟨this.1, this.2.2⟩
  have hxy : ∀ p ∈ pts, |p j.castSucc * p k.castSucc| ≤ B ^ 2 := by
    intro p hp
    rw [abs_mul, sq]
    exact mul_le_mul (hB p hp j) (hB p hp k) (abs_nonneg _) hB0
  have hbB2 : B ^ 2 ≤ big := by
    have := cap 0 (B ^ 2) (by omega) hB2 (by
      refine le_trans ?_ (mul_le_mul_of_nonneg_right hn (by positivity))
      linarith)
    simpa using this
  have hterm : ∀ p ∈ pts, |o.mul (p j.castSucc) (p k.castSucc) - p j.castSucc * p k.castSucc| ≤ u * B ^ 2 + η := by
    intro p hp
    rw [h.mul]
    exact (h.err _ ((hxy p hp).trans hbB2)).trans (by linarith [mul_le_mul_of_nonneg_left (hxy p hp) hu])
  have hterm' : ∀ p ∈ pts, |o.mul (p j.castSucc) (p k.castSucc)| ≤ (1 + u) * B ^ 2 + η := by
    intro p hp
    have : |o.mul (p j.castSucc) (p k.castSucc)| ≤ |o.mul (p j.castSucc) (p k.castSucc) - p j.castSucc * p k.castSucc| + |p j.castSucc * p k.castSucc| := by
      simpa using abs_add_le (o.mul (p j.castSucc) (p k.castSucc) - p j.castSucc * p k.castSucc) (p j.castSucc * p k.castSucc)
    linarith [hterm p hp, hxy p hp]
  have hcross := machine_total h (l := pts.map fun p => o.mul (p j.castSucc) (p k.castSucc)) (A := (1 + u) * B ^ 2 + η) (by
      intro x hx
      obtain ⟨p, -, rfl⟩ := List.mem_map.1 hx
      rw [h.mul]
      exact h.idem _) (by simpa using hterm') (by
    rw [List.length_map]
    have e : (1 + u) ^ pts.length * (pts.length * ((1 + u) * B ^ 2 + η)) = (1 + u) ^ (pts.length + 1) * (pts.length * B ^ 2) + (1 + u) ^ pts.length * (pts.length * η) := by ring
    rw [e]
    have k1 := mul_le_mul_of_nonneg_right (hpow (pts.length + 1) (by omega)) (by positivity : (0 : K) ≤ pts.length * B ^ 2)
    have k2 := mul_le_mul_of_nonneg_right (hpow pts.length (by omega)) (by positivity : (0 : K) ≤ pts.length * η)
    have k3 : (0 : K) ≤ (1 + u) ^ (2 * pts.length + 4) * (pts.length * (B ^ 2 + B + (1 + B) * η)) := by positivity
    linarith)
  rw [List.length_map] at hcross
  obtain ⟨c1, c2, -⟩ := hcross
  have hdiff : |(pts.map fun p => o.mul (p j.castSucc) (p k.castSucc)).sum - (pts.map fun p => p j.castSucc * p k.castSucc).sum| ≤ pts.length * (u * B ^ 2 + η) := by
    have key : ∀ l : List (Fin 4 → K), (∀ p ∈ l, p ∈ pts) → |(l.map fun p => o.mul (p j.castSucc) (p k.castSucc)).sum - (l.map fun p => p j.castSucc * p k.castSucc).sum| ≤ l.length * (u * B ^ 2 + η) := by
      intro l
      induction l with
      | nil => simp
      | cons p l ih =>
        intro hl
        simp only [List.map_cons, List.sum_cons, List.length_cons, Nat.cast_add, Nat.cast_one]
        have e : ∀ a b c d : K, a + b - (c + d) = (a - c) + (b - d) := fun a b c d => by ring
        rw [e]
        refine (abs_add_le _ _).trans ?_
        have := hterm p (hl p (by simp))
        have := ih (fun q hq => hl q (by simp [hq]))
        linarith
    exact key pts fun _ hp => hp
  have hxsum : |(pts.map fun p => p j.castSucc * p k.castSucc).sum| ≤ pts.length * B ^ 2 := by
    refine (abs_list_sum _).trans ?_
    have := List.sum_le_card_nsmul ((pts.map fun p => p j.castSucc * p k.castSucc).map fun x => |x|) (B ^ 2) (by
      simpa using fun p hp => hxy p hp)
    simpa using this
  rw [covariance_formula hne]
  have e4 : (1 + u) ^ (2 * pts.length + 4) = ((1 + u) ^ pts.length) ^ 2 * (1 + u) ^ 4 := by ring
  unfold covarianceError
  rw [e4] at hcap ⊢
  refine cov_entry h hd hn (one_le_pow₀ h1) hB0 c2 (hsum j).2 (hsum k).2 hxsum (hsum j).1 (hsum k).1 ?_ hcap
  set X := (pts.map fun p => o.mul (p j.castSucc) (p k.castSucc)).foldl o.add o.zero
  have tri : |X - (pts.map fun p => p j.castSucc * p k.castSucc).sum| ≤ |X - (pts.map fun p => o.mul (p j.castSucc) (p k.castSucc)).sum| +
      |(pts.map fun p => o.mul (p j.castSucc) (p k.castSucc)).sum - (pts.map fun p => p j.castSucc * p k.castSucc).sum| := by
    simpa using abs_add_le (X - (pts.map fun p => o.mul (p j.castSucc) (p k.castSucc)).sum) ((pts.map fun p => o.mul (p j.castSucc) (p k.castSucc)).sum - (pts.map fun p => p j.castSucc * p k.castSucc).sum)
  linarith

end Sums

/-! ### what is computed for a cloud -/

section Frame

variable {V R : Type} {o : Ops V} {ofNat : Nat → V} {eig : Matrix (Fin 3) (Fin 3) V → R} {normal : (Fin 4 → V) → R → (Fin 4 → V)} {cov : R → Matrix (Fin 4) (Fin 4) V} {invalidCov : Matrix (Fin 4) (Fin 4) V}

theorem frame_computed {knn : Machine.Search V} {k : Int} (hk : 0 ≤ k) {cloud : Cloud (Fin 4 → V) (Matrix (Fin 4) (Fin 4) V)} {i : Nat} {p : Fin 4 → V} (hp : cloud.points[i]? = some (some p)) {idx : List Nat}
    (hknn : knn cloud.points p k.toNat = .ok idx) {pts : List (Fin 4 → V)} (hpts : idx.map (fun j => cloud.points[j]?) = pts.map fun q => some (some q)) :
    Machine.localFrame (Machine.roundedFeatures o ofNat eig normal cov invalidCov) knn k cloud i = .ok (if pts.length < 5 then none else
      some (eig fun j k => Machine.covMatrix o (ofNat pts.length) (fun j => (pts.map fun p => p j).foldl o.add o.zero) (fun j k => (pts.map fun p => o.mul (p j) (p k)).foldl o.add o.zero) j.castSucc k.castSucc)) := by
  have hlen : idx.length = pts.length := by simpa using congrArg List.length hpts
  have hpt : ∀ (j : Nat) q, cloud.points[j]? = some (some q) → cloud.point j = .ok q := by
    intro j q h
    simp [Cloud.point, getSlot, rd, h, Bind.bind, Except.bind, pure, Except.pure]
  unfold Machine.localFrame
  rw [if_neg (by omega), hpt i p hp, ok_bind, hknn, ok_bind, hlen]
  split
  · rfl
  have key : ∀ (idx : List Nat) (pts : List (Fin 4 → V)) (s : Fin 4 → V) (S : Matrix (Fin 4) (Fin 4) V), idx.map (fun j => cloud.points[j]?) = pts.map (fun q => some (some q)) →
      idx.foldlM (fun (acc : (Fin 4 → V) × Matrix (Fin 4) (Fin 4) V) j => do
        let pt ← cloud.point j
        (.ok ((Machine.roundedFeatures o ofNat eig normal cov invalidCov).add acc.1 pt, (Machine.roundedFeatures o ofNat eig normal cov invalidCov).addOuter acc.2 pt) : Res _)) (s, S) =
      .ok (fun j => (pts.map fun p => p j).foldl o.add (s j), fun j k => (pts.map fun p => o.mul (p j) (p k)).foldl o.add (S j k)) := by
    intro idx
    induction idx with
    | nil =>
      intro pts s S h
      cases pts with
      | nil => rfl
      | cons => cases h
    | cons j idx ih =>
      intro pts s S h
      cases pts with
      | nil => cases h
      | cons q pts =>
        simp only [List.map_cons, List.cons.injEq] at h
        rw [List.foldlM_cons, hpt j q h.1, ok_bind, ok_bind, ih pts _ _ h.2]
        rfl
  have := key idx pts (Machine.roundedFeatures o ofNat eig normal cov invalidCov).zero (Machine.roundedFeatures o ofNat eig normal cov invalidCov).zeroM hpts
  rw [this, ok_bind]
  rfl

end Frame

/-! ### normals -/

section Normals

variable {K : Type} [Field K] [LinearOrder K] [IsStrictOrderedRing K]

theorem inner3_nonneg (v : Fin 3 → K) : 0 ≤ inner3 v v := Finset.sum_nonneg fun _ _ => mul_self_nonneg _

theorem along_close {A A' : Matrix (Fin 3) (Fin 3) K} {E : K} (h : ∀ j k, |A j k - A' j k| ≤ E) (v : Fin 3 → K) : |along A v - along A' v| ≤ 3 * E * inner3 v v := by
  have hterm : ∀ j k, |A j k * v j * v k - A' j k * v j * v k| ≤ E * ((v j ^ 2 + v k ^ 2) / 2) := by
    intro j k
    rw [show A j k * v j * v k - A' j k * v j * v k = (A j k - A' j k) * (v j * v k) by ring, abs_mul]
    refine mul_le_mul (h j k) ?_ (abs_nonneg _) ((abs_nonneg _).trans (h j k))
    rw [abs_le]
    constructor <;> nlinarith [sq_nonneg (v j - v k), sq_nonneg (v j + v k)]
  unfold along
  rw [← Finset.sum_sub_distrib]
  refine (Finset.abs_sum_le_sum_abs _ _).trans ?_
  have : ∀ j : Fin 3, |∑ k, A j k * v j * v k - ∑ k, A' j k * v j * v k| ≤ ∑ k, E * ((v j ^ 2 + v k ^ 2) / 2) := by
    intro j
    rw [← Finset.sum_sub_distrib]
    exact (Finset.abs_sum_le_sum_abs _ _).trans (Finset.sum_le_sum fun k _ => hterm j k)
  refine (Finset.sum_le_sum fun j _ => this j).trans (le_of_eq ?_)
  simp only [inner3, Fin.sum_univ_three]
  ring

/-- The direction that minimises the variance of a perturbed matrix is close to the normal. -/
theorem normal_close {A C : Matrix (Fin 3) (Fin 3) K} {E τ δ : K} {n v : Fin 3 → K} (h : ∀ j k, |C j k - A j k| ≤ E) (hn : IsNormal A n δ)
    (hv : ∀ x, along C v * inner3 x x ≤ (along C x + τ * inner3 x x) * inner3 v v) : δ * (inner3 v v - inner3 n v ^ 2) ≤ (6 * E + τ) * inner3 v v := by
  obtain ⟨h1, h2⟩ := hn
  have a1 := h2 v
  have a2 := (abs_le.1 (along_close h v)).1
  have a3 := (abs_le.1 (along_close h n)).2
  have a4 := hv n
  rw [h1] at a3 a4
  have hvv := inner3_nonneg v
  have a5 := mul_le_mul_of_nonneg_right (by linarith : along C n ≤ along A n + 3 * E) hvv
  linarith

/-- With orthonormal eigenvectors, the one of the smallest eigenvalue is the normal. -/
theorem normal_of_eigen {A : Matrix (Fin 3) (Fin 3) K} {e : Fin 3 → Fin 3 → K} {l : Fin 3 → K} (hon : ∀ a b, inner3 (e a) (e b) = if a = b then 1 else 0) (hA : ∀ j k, A j k = ∑ a, l a * e a j * e a k)
    (hspan : ∀ j k, ∑ a, e a j * e a k = if j = k then 1 else 0) (h12 : l 1 ≤ l 2) : IsNormal A (e 0) (l 1 - l 0) := by
  have hal : ∀ v, along A v = ∑ a, l a * inner3 (e a) v ^ 2 := by
    intro v
    simp only [along, hA, inner3, Fin.sum_univ_three]
    ring
  have hlen : ∀ v, inner3 v v = ∑ a, inner3 (e a) v ^ 2 := by
    intro v
    have : ∑ a, inner3 (e a) v ^ 2 = ∑ j, ∑ k, (∑ a, e a j * e a k) * (v j * v k) := by
      simp only [inner3, Fin.sum_univ_three]
      ring
    rw [this]
    simp only [hspan, inner3, Fin.sum_univ_three]
    simp
  refine ⟨by simpa using hon 0 0, fun v => ?_⟩
  have h0 : along A (e 0) = l 0 := by
    rw [hal]
    simp [Fin.sum_univ_three, hon]
  rw [h0, hal, hlen]
  simp only [Fin.sum_univ_three]
  nlinarith [sq_nonneg (inner3 (e 1) v), sq_nonneg (inner3 (e 2) v), mul_nonneg (sub_nonneg.2 h12) (sq_nonneg (inner3 (e 2) v))]

end Normals

/-! ### the estimation -/

section Estimate

variable {K R : Type} [Field K] [LinearOrder K] [IsStrictOrderedRing K] [FloorRing K] {o : Ops K} {rnd : K → K} {u η big : K} {N : Nat}

theorem covariance_symm (pts : List (Fin 4 → K)) (j k : Fin 3) : covarianceOf pts j k = covarianceOf pts k j := by
  unfold covarianceOf
  simp only [mul_comm]

theorem covariance_bound {pts : List (Fin 4 → K)} (hne : pts ≠ []) {B : K} (hB : ∀ p ∈ pts, ∀ j : Fin 3, |p j.castSucc| ≤ B) (j k : Fin 3) : |covarianceOf pts j k| ≤ 4 * B ^ 2 := by
  have hn : (0 : K) < pts.length := by exact_mod_cast List.length_pos_iff.2 hne
  have hB0 : 0 ≤ B := by
    obtain ⟨p, hp⟩ := List.exists_mem_of_ne_nil _ hne
    exact (abs_nonneg _).trans (hB p hp 0)
  have hmean : ∀ j : Fin 3, |meanOf pts j.castSucc| ≤ B := by
    intro j
    unfold meanOf
    rw [abs_div, abs_of_pos hn, div_le_iff₀ hn]
    have := abs_list_sum (pts.map fun p => p j.castSucc)
    refine this.trans ?_
    have := List.sum_le_card_nsmul ((pts.map fun p => p j.castSucc).map fun x => |x|) B (by
      intro y hy
      simp only [List.map_map, List.mem_map, Function.comp] at hy
      obtain ⟨p, hp, rfl⟩ := hy
      exact hB p hp j)
    simpa [mul_comm] using this
  unfold covarianceOf
  rw [abs_div, abs_of_pos hn, div_le_iff₀ hn]
  refine (abs_list_sum _).trans ?_
  have := List.sum_le_card_nsmul ((pts.map fun p => (p j.castSucc - meanOf pts j.castSucc) * (p k.castSucc - meanOf pts k.castSucc)).map fun x => |x|) (4 * B ^ 2) (by
    intro y hy
    simp only [List.map_map, List.mem_map, Function.comp] at hy
    obtain ⟨p, hp, rfl⟩ := hy
    have h1 : ∀ j : Fin 3, |p j.castSucc - meanOf pts j.castSucc| ≤ 2 * B := fun j => (abs_sub _ _).trans (by linarith [hB p hp j, hmean j])
    rw [abs_mul]
    refine (mul_le_mul (h1 j) (h1 k) (abs_nonneg _) (by linarith)).trans (le_of_eq (by ring)))
  simpa [mul_comm] using this

/-- The normals and covariances that `estimate_local_features` writes, with rounding. -/
theorem C105_features (h : Machine o rnd u η big N) (hd : MachineSub o rnd u big) {eig : Matrix (Fin 3) (Fin 3) K → R} {vec : R → Fin 3 → K} {ρ : K} (heig : SolverUpTo eig vec ρ)
    (normal : (Fin 4 → K) → R → (Fin 4 → K)) (cov : R → Matrix (Fin 4) (Fin 4) K) (invalidCov : Matrix (Fin 4) (Fin 4) K) (S : Features.Setter) (knn : Machine.Search K) {k : Int} (hk : 0 ≤ k)
    (cloud : Cloud (Fin 4 → K) (Matrix (Fin 4) (Fin 4) K)) (hset : PointsSet cloud)
    (hknn : ∀ (i : Nat) (p : Fin 4 → K), cloud.points[i]? = some (some p) → ∃ idx, knn cloud.points p k.toNat = .ok idx ∧ ∀ j ∈ idx, j < cloud.size) :
    ∃ c, Machine.estimate (Machine.roundedFeatures o (fun n => rnd n) eig normal cov invalidCov) S knn k cloud = .ok c ∧ c.points = cloud.points ∧
      (∀ i < cloud.size, ∃ p pts, NeighboursAt knn k cloud i p pts) ∧
      (∀ i p pts, NeighboursAt knn k cloud i p pts →
        (pts.length < 5 → (S.normals = true → c.normals[i]? = some (some fun _ => 0)) ∧ (S.covs = true → c.covs[i]? = some (some invalidCov))) ∧
        (5 ≤ pts.length → pts.length ≤ N → ∀ B, (∀ p ∈ pts, ∀ j : Fin 3, rnd (p j.castSucc) = p j.castSucc ∧ |p j.castSucc| ≤ B) →
          (1 + u) ^ (2 * pts.length + 4) * (pts.length * (2 * B ^ 2 + B + (2 + B) * η)) ≤ big →
          ∃ C : Matrix (Fin 3) (Fin 3) K, (∀ j k, |C j k - covarianceOf pts j k| ≤ covarianceError u η B pts.length) ∧ (S.normals = true → c.normals[i]? = some (some (normal p (eig C)))) ∧
            (S.covs = true → c.covs[i]? = some (some (cov (eig C)))) ∧ vec (eig C) ≠ 0 ∧
            ∀ n δ, IsNormal (covarianceOf pts) n δ → δ * (inner3 (vec (eig C)) (vec (eig C)) - inner3 n (vec (eig C)) ^ 2) ≤
              (6 * covarianceError u η B pts.length + ρ * (4 * B ^ 2 + covarianceError u η B pts.length)) * inner3 (vec (eig C)) (vec (eig C)))) ∧
      ∀ chunks sched, chunks.flatten.Perm (List.range cloud.size) →
        ∀ r, Machine.estimatePar (Machine.roundedFeatures o (fun n => rnd n) eig normal cov invalidCov) S knn k cloud chunks sched = some r → r = .ok c := by
  obtain ⟨c, h1, h2, -, -, -, -, h3, h4⟩ := C102_features (Machine.roundedFeatures o (fun n => rnd n) eig normal cov invalidCov) S knn hk cloud hset hknn
  refine ⟨c, h1, h2, ?_, ?_, h4⟩
  · intro i hi
    obtain ⟨p, hp⟩ := hset i hi
    obtain ⟨idx, hidx, hlt⟩ := hknn i p hp
    have : ∀ l : List Nat, (∀ j ∈ l, j < cloud.size) → ∃ pts : List (Fin 4 → K), l.map (fun j => cloud.points[j]?) = pts.map fun q => some (some q) := by
      intro l
      induction l with
      | nil => exact fun _ => ⟨[], rfl⟩
      | cons a l ih =>
        intro hl
        obtain ⟨q, hq⟩ := hset a (hl a (by simp))
        obtain ⟨pts, hpts⟩ := ih fun j hj => hl j (by simp [hj])
        exact ⟨q :: pts, by simp only [List.map_cons, hq, hpts]⟩
    obtain ⟨pts, hpts⟩ := this idx hlt
    exact ⟨p, pts, idx, hp, hidx, hpts⟩
  · rintro i p pts ⟨idx, hp, hidx, hpts⟩
    have hi : i < cloud.size := by
      rw [List.getElem?_eq_some_iff] at hp
      exact hp.1
    obtain ⟨p', f, hp', hf, hn, hc⟩ := h3 i hi
    obtain rfl : p = p' := by simpa [hp] using hp'
    rw [frame_computed hk hp hidx hpts] at hf
    constructor
    · intro hlt
      rw [if_pos hlt] at hf
      cases hf
      exact ⟨fun hS => by rw [hn hS]; simp [Machine.roundedFeatures, h.zero], fun hS => by rw [hc hS]; rfl⟩
    · intro hge hN B hB hcap
      rw [if_neg (by omega)] at hf
      cases hf
      have hne : pts ≠ [] := by
        rintro rfl
        simp at hge
      have hC := covariance_rounding h hd hne (fun p hp j => (hB p hp j).1) (fun p hp j => (hB p hp j).2) hcap
      rw [← h.nat pts.length hN] at hC
      have hb := covariance_bound hne (fun p hp j => (hB p hp j).2)
      set C : Matrix (Fin 3) (Fin 3) K := fun j k => Machine.covMatrix o (rnd pts.length) (fun j => (pts.map fun p => p j).foldl o.add o.zero)
        (fun j k => (pts.map fun p => o.mul (p j) (p k)).foldl o.add o.zero) j.castSucc k.castSucc with hCdef
      obtain ⟨e1, e2⟩ := heig C (4 * B ^ 2 + covarianceError u η B pts.length) (fun j k => by
        have a1 := abs_sub_abs_le_abs_sub (C j k) (covarianceOf pts j k)
        have a2 := hC j k
        have a3 := hb j k
        show |C j k| ≤ _
        have a4 : |C j k - covarianceOf pts j k| ≤ covarianceError u η B pts.length := a2
        linarith)
      refine ⟨C, hC, fun hS => by rw [hn hS]; rfl, fun hS => by rw [hc hS]; rfl, e1, fun n δ hnn => ?_⟩
      refine normal_close (C := lower C) (fun j k => ?_) hnn e2
      unfold lower
      split
      · exact hC j k
      · rw [covariance_symm pts j k]
        exact hC k j

end Estimate

/-! ### the covariances of GICP -/

section Shape

variable {K : Type} [Field K] [LinearOrder K] [IsStrictOrderedRing K]

/-- If the computed covariance is the identity without 999/1000 of the projection to the computed direction `v`, up to `κ`, then it is the one for the normal `n`, up to `κ` and 999/1000 of the sine of the angle (times the square root of 2). -/
theorem C105_shape {v n : Fin 3 → K} {δ ε s κ : K} {cov : Matrix (Fin 3) (Fin 3) K} (hv : v ≠ 0) (hn : inner3 n n = 1) (hδ : 0 < δ) (hvn : δ * (inner3 v v - inner3 n v ^ 2) ≤ ε * inner3 v v) (hs : 0 ≤ s) (hs2 : 2 * ε ≤ δ * s ^ 2)
    (hcov : ∀ i j, |cov i j - ((if i = j then 1 else 0) - 999 / 1000 * (v i * v j / inner3 v v))| ≤ κ) (i j : Fin 3) :
    |cov i j - ((if i = j then 1 else 0) - 999 / 1000 * (n i * n j))| ≤ κ + 999 / 1000 * s := by
  have hpos : 0 < inner3 v v := by
    rcases (inner3_nonneg v).eq_or_lt with h0 | h0
    · exfalso
      apply hv
      simp only [inner3, Fin.sum_univ_three] at h0
      funext i
      fin_cases i <;> simp <;> nlinarith [mul_self_nonneg (v 0), mul_self_nonneg (v 1), mul_self_nonneg (v 2)]
    · exact h0
  have hfro : ∑ i, ∑ j, (v i * v j - inner3 v v * (n i * n j)) ^ 2 = 2 * inner3 v v * (inner3 v v - inner3 n v ^ 2) := by
    have e : ∑ i, ∑ j, (v i * v j - inner3 v v * (n i * n j)) ^ 2 = inner3 v v ^ 2 - 2 * inner3 v v * inner3 n v ^ 2 + inner3 v v ^ 2 * inner3 n n ^ 2 := by
      simp only [inner3, Fin.sum_univ_three]
      ring
    rw [e, hn]
    ring
  have hentry : (v i * v j - inner3 v v * (n i * n j)) ^ 2 ≤ 2 * inner3 v v * (inner3 v v - inner3 n v ^ 2) := by
    rw [← hfro]
    refine (Finset.single_le_sum (f := fun j => (v i * v j - inner3 v v * (n i * n j)) ^ 2) (fun _ _ => sq_nonneg _) (Finset.mem_univ j)).trans ?_
    exact Finset.single_le_sum (f := fun i => ∑ j, (v i * v j - inner3 v v * (n i * n j)) ^ 2) (fun _ _ => Finset.sum_nonneg fun _ _ => sq_nonneg _) (Finset.mem_univ i)
  have hle : (v i * v j - inner3 v v * (n i * n j)) ^ 2 ≤ (s * inner3 v v) ^ 2 := by
    have h1 : δ * (v i * v j - inner3 v v * (n i * n j)) ^ 2 ≤ δ * (s * inner3 v v) ^ 2 := by
      have a1 := mul_le_mul_of_nonneg_left hentry hδ.le
      have a2 := mul_le_mul_of_nonneg_left hvn (by linarith : 0 ≤ 2 * inner3 v v)
      have a3 := mul_le_mul_of_nonneg_right hs2 (sq_nonneg (inner3 v v))
      nlinarith
    exact le_of_mul_le_mul_left h1 hδ
  have habs := abs_le_of_sq_le_sq hle (mul_nonneg hs hpos.le)
  have hdiv : |v i * v j / inner3 v v - n i * n j| ≤ s := by
    rw [show v i * v j / inner3 v v - n i * n j = (v i * v j - inner3 v v * (n i * n j)) / inner3 v v by field_simp, abs_div, abs_of_pos hpos, div_le_iff₀ hpos]
    exact habs
  have hc := abs_le.1 (hcov i j)
  have hd := abs_le.1 hdiv
  rw [abs_le]
  constructor <;> linarith [hc.1, hc.2, hd.1, hd.2]

end Shape

/-! ### cancellation -/

theorem nearest_sub (p : ℕ) (big : ℚ) : MachineSub (nearestOps p) (nearest p) (1 / 2 ^ (p + 1)) big where
  sub _ _ := rfl
  err _ _ _ _ _ := nearest_rel p _

/-- A number close to a multiple of the spacing is rounded to it. -/
theorem nearest_near (p : ℕ) {e : ℤ} {x : ℚ} {n : ℤ} (h1 : (2 : ℚ) ^ e ≤ x) (h2 : x < 2 ^ (e + 1)) (h3 : |x - n * 2 ^ (e - p)| < 2 ^ (e - p) / 2) : nearest p x = n * 2 ^ (e - p) := by
  have hx : 0 < x := lt_of_lt_of_le (zpow_pos (by norm_num) _) h1
  have hlog : Int.log 2 |x| = e := by
    rw [abs_of_pos hx]
    apply le_antisymm
    · have := (Int.lt_zpow_iff_log_lt (b := 2) (by norm_num) (x := e + 1) hx).1 (by exact_mod_cast h2)
      omega
    · exact (Int.zpow_le_iff_le_log (b := 2) (by norm_num) hx).1 (by exact_mod_cast h1)
  have hq : (0 : ℚ) < 2 ^ (e - p) := zpow_pos (by norm_num) _
  unfold nearest
  rw [hlog]
  congr 2
  rw [round_eq, Int.floor_eq_iff]
  have e1 : x = x / 2 ^ (e - p) * 2 ^ (e - p) := by field_simp
  rw [abs_lt] at h3
  obtain ⟨a, b⟩ := h3
  set y := x / 2 ^ (e - p)
  rw [e1] at a b
  constructor
  · by_contra hc
    push Not at hc
    nlinarith
  · by_contra hc
    push Not at hc
    nlinarith

/-- Sums of few small multiples of the same power of two are exact. -/
theorem fold_exact (p : ℕ) (j : ℤ) {A : ℤ} (l : List ℤ) : ∀ (acc : ℤ), (∀ n ∈ l, |n| ≤ A) → |acc| + l.length * A ≤ 2 ^ (p + 1) →
    (l.map fun n : ℤ => (n : ℚ) * 2 ^ j).foldl (nearestOps p).add ((acc : ℚ) * 2 ^ j) = ((acc + l.sum : ℤ) : ℚ) * 2 ^ j := by
  induction l with
  | nil => intro acc _ _; simp
  | cons a l ih =>
    intro acc hA hs
    have ha := hA a (by simp)
    have hA0 : 0 ≤ A := (abs_nonneg _).trans ha
    have hab := abs_add_le acc a
    simp only [List.length_cons, Nat.cast_add, Nat.cast_one, add_mul, one_mul] at hs
    have hl0 : 0 ≤ (l.length : ℤ) * A := by positivity
    have hstep : (nearestOps p).add ((acc : ℚ) * 2 ^ j) ((a : ℚ) * 2 ^ j) = ((acc + a : ℤ) : ℚ) * 2 ^ j := by
      show nearest p _ = _
      rw [show (acc : ℚ) * 2 ^ j + (a : ℚ) * 2 ^ j = ((acc + a : ℤ) : ℚ) * 2 ^ j by push_cast; ring]
      exact nearest_fix p _ _ (by linarith)
    rw [List.map_cons, List.foldl_cons, hstep, ih (acc + a) (fun n hn => hA n (by simp [hn])) (by linarith)]
    simp [add_assoc]

/-- The corners of a cube. -/
def corners : List (ℤ × ℤ × ℤ) := [(1, 1, 1), (-1, 1, 1), (1, -1, 1), (-1, -1, 1), (1, 1, -1), (-1, 1, -1), (1, -1, -1), (-1, -1, -1)]

/-- Coordinates in quarters. -/
def quarters (M : ℤ) (s : ℤ × ℤ × ℤ) : Fin 3 → ℤ := ![4 * (M + s.1), 2 * s.2.1, s.2.2]

/-- A box around `(M, 0, 0)` with the half lengths 1, 1/2 and 1/4. -/
def boxPoint (M : ℤ) (s : ℤ × ℤ × ℤ) : Fin 4 → ℚ := ![M + s.1, s.2.1 / 2, s.2.2 / 4, 1]

theorem box_quarters (M : ℤ) (s : ℤ × ℤ × ℤ) (j : Fin 3) : boxPoint M s j.castSucc = (quarters M s j : ℚ) * 2 ^ (-2 : ℤ) := by
  fin_cases j <;> simp [boxPoint, quarters] <;> norm_num <;> ring

theorem quarters_small {M : ℤ} (hM : 1 ≤ M) (s : ℤ × ℤ × ℤ) (hs : s ∈ corners) (j : Fin 3) : |quarters M s j| ≤ 4 * (M + 1) := by
  simp only [corners, List.mem_cons, List.not_mem_nil, or_false] at hs
  rcases hs with rfl | rfl | rfl | rfl | rfl | rfl | rfl | rfl <;> fin_cases j <;> simp [quarters] <;> (try rw [abs_le]) <;> (try constructor) <;> linarith

theorem quarters_products {M : ℤ} (hM : 1 ≤ M) (s : ℤ × ℤ × ℤ) (hs : s ∈ corners) (j k : Fin 3) (h : ¬(j = 0 ∧ k = 0)) : |quarters M s j * quarters M s k| ≤ 8 * (M + 1) := by
  simp only [corners, List.mem_cons, List.not_mem_nil, or_false] at hs
  rcases hs with rfl | rfl | rfl | rfl | rfl | rfl | rfl | rfl <;> fin_cases j <;> fin_cases k <;> first
    | exact absurd ⟨rfl, rfl⟩ h
    | (rw [abs_le]; constructor <;> simp [quarters] <;> linarith)

theorem quarters_sum (M : ℤ) (j : Fin 3) : (corners.map fun s => quarters M s j).sum = if j = 0 then 32 * M else 0 := by
  fin_cases j <;> simp [corners, quarters] <;> ring

theorem products_sum (M : ℤ) (j k : Fin 3) (h : ¬(j = 0 ∧ k = 0)) : (corners.map fun s => quarters M s j * quarters M s k).sum = if j = k then (if j = 1 then 32 else 8) else 0 := by
  fin_cases j <;> fin_cases k <;> first
    | exact absurd ⟨rfl, rfl⟩ h
    | (simp [corners, quarters]; try ring)

section Box

variable {a b : ℕ} {L : List (ℤ × ℤ × ℤ)}

/-- The squares lose their last digit. -/
theorem square_up : nearest (15 + 2 * a + b) (((2 : ℚ) ^ (9 + a + b) + 1) * (2 ^ (9 + a + b) + 1)) = ((2 ^ (8 + a + b) + 1 : ℤ) : ℚ) * 2 ^ ((10 + a + b : ℕ) : ℤ) := by
  have h := nearest_near (15 + 2 * a + b) (e := ((18 + 2 * a + 2 * b : ℕ) : ℤ)) (x := ((2 : ℚ) ^ (9 + a + b) + 1) * (2 ^ (9 + a + b) + 1)) (n := 2 ^ (15 + 2 * a + b) + 2 ^ (7 + a))
  have e1 : ((18 + 2 * a + 2 * b : ℕ) : ℤ) - ((15 + 2 * a + b : ℕ) : ℤ) = ((3 + b : ℕ) : ℤ) := by push_cast; ring
  have e2 : ((18 + 2 * a + 2 * b : ℕ) : ℤ) + 1 = ((19 + 2 * a + 2 * b : ℕ) : ℤ) := by push_cast; ring
  rw [e1, e2] at h
  simp only [zpow_natCast] at h ⊢
  have ha : (1 : ℚ) ≤ 2 ^ a := one_le_pow₀ (by norm_num)
  have hb : (1 : ℚ) ≤ 2 ^ b := one_le_pow₀ (by norm_num)
  push_cast at h ⊢
  simp only [pow_add, two_mul] at h ⊢
  generalize (2 : ℚ) ^ a = A at *
  generalize (2 : ℚ) ^ b = C at *
  have hac : 1 ≤ A * C := one_le_mul_of_one_le_of_one_le ha hb
  rw [h (by nlinarith) (by nlinarith) (by
    rw [show (2 ^ 9 * A * C + 1) * (2 ^ 9 * A * C + 1) - (2 ^ 15 * (A * A) * C + 2 ^ 7 * A) * (2 ^ 3 * C) = 1 by ring, abs_one]
    linarith)]
  ring

theorem square_down : nearest (15 + 2 * a + b) (((2 : ℚ) ^ (9 + a + b) - 1) * (2 ^ (9 + a + b) - 1)) = ((2 ^ (8 + a + b) - 1 : ℤ) : ℚ) * 2 ^ ((10 + a + b : ℕ) : ℤ) := by
  have h := nearest_near (15 + 2 * a + b) (e := ((17 + 2 * a + 2 * b : ℕ) : ℤ)) (x := ((2 : ℚ) ^ (9 + a + b) - 1) * (2 ^ (9 + a + b) - 1)) (n := 2 ^ (16 + 2 * a + b) - 2 ^ (8 + a))
  have e1 : ((17 + 2 * a + 2 * b : ℕ) : ℤ) - ((15 + 2 * a + b : ℕ) : ℤ) = ((2 + b : ℕ) : ℤ) := by push_cast; ring
  have e2 : ((17 + 2 * a + 2 * b : ℕ) : ℤ) + 1 = ((18 + 2 * a + 2 * b : ℕ) : ℤ) := by push_cast; ring
  rw [e1, e2] at h
  simp only [zpow_natCast] at h ⊢
  have ha : (1 : ℚ) ≤ 2 ^ a := one_le_pow₀ (by norm_num)
  have hb : (1 : ℚ) ≤ 2 ^ b := one_le_pow₀ (by norm_num)
  push_cast at h ⊢
  simp only [pow_add, two_mul] at h ⊢
  generalize (2 : ℚ) ^ a = A at *
  generalize (2 : ℚ) ^ b = C at *
  have hac : 1 ≤ A * C := one_le_mul_of_one_le_of_one_le ha hb
  rw [h (by nlinarith) (by nlinarith) (by
    rw [show (2 ^ 9 * A * C - 1) * (2 ^ 9 * A * C - 1) - (2 ^ 16 * (A * A) * C - 2 ^ 8 * A) * (2 ^ 2 * C) = 1 by ring, abs_one]
    linarith)]
  ring

/-- The sums of the coordinates are exact. -/
theorem box_sums (hL : L.Perm corners) {p : ℕ} {M : ℤ} (hM : 1 ≤ M) (hp : 64 * (M + 1) ≤ 2 ^ (p + 1)) (j : Fin 3) : ((L.map (boxPoint M)).map fun q => q j.castSucc).foldl (nearestOps p).add (nearestOps p).zero = if j = 0 then 8 * (M : ℚ) else 0 := by
  have h := fold_exact p (-2) (A := 4 * (M + 1)) (L.map fun s => quarters M s j) 0 (by
    intro n hn
    obtain ⟨s, hs, rfl⟩ := List.mem_map.1 hn
    exact quarters_small hM s (hL.subset hs) j) (by simp [hL.length_eq, corners]; linarith)
  have e : (L.map (boxPoint M)).map (fun q => q j.castSucc) = (L.map fun s => quarters M s j).map fun n : ℤ => (n : ℚ) * 2 ^ (-2 : ℤ) := by
    simp only [List.map_map, Function.comp_def, box_quarters]
  rw [e, show (nearestOps p).zero = ((0 : ℤ) : ℚ) * 2 ^ (-2 : ℤ) by simp [nearestOps, roundedOps], h, (hL.map _).sum_eq, quarters_sum]
  split <;> norm_num
  ring

/-- The sums of the products are exact except for the squares of the first coordinates. -/
theorem box_cross (hL : L.Perm corners) {p : ℕ} {M : ℤ} (hM : 1 ≤ M) (hp : 64 * (M + 1) ≤ 2 ^ (p + 1)) (j k : Fin 3) (hjk : ¬(j = 0 ∧ k = 0)) :
    ((L.map (boxPoint M)).map fun q => (nearestOps p).mul (q j.castSucc) (q k.castSucc)).foldl (nearestOps p).add (nearestOps p).zero = if j = k then (if j = 1 then 2 else 1 / 2) else 0 := by
  have h := fold_exact p (-4) (A := 8 * (M + 1)) (L.map fun s => quarters M s j * quarters M s k) 0 (by
    intro n hn
    obtain ⟨s, hs, rfl⟩ := List.mem_map.1 hn
    exact quarters_products hM s (hL.subset hs) j k hjk) (by simp [hL.length_eq, corners]; linarith)
  have e : (L.map (boxPoint M)).map (fun q => (nearestOps p).mul (q j.castSucc) (q k.castSucc)) = (L.map fun s => quarters M s j * quarters M s k).map fun n : ℤ => (n : ℚ) * 2 ^ (-4 : ℤ) := by
    simp only [List.map_map, Function.comp_def, box_quarters]
    apply List.map_congr_left
    intro s hs
    show nearest p _ = _
    rw [show (quarters M s j : ℚ) * 2 ^ (-2 : ℤ) * ((quarters M s k : ℚ) * 2 ^ (-2 : ℤ)) = ((quarters M s j * quarters M s k : ℤ) : ℚ) * 2 ^ (-4 : ℤ) by push_cast; norm_num; ring]
    exact nearest_fix p _ _ (by linarith [quarters_products hM s (hL.subset hs) j k hjk])
  rw [e, show (nearestOps p).zero = ((0 : ℤ) : ℚ) * 2 ^ (-4 : ℤ) by simp [nearestOps, roundedOps], h, (hL.map _).sum_eq, products_sum M j k hjk]
  split_ifs <;> norm_num

theorem box_squares (hL : L.Perm corners) : ((L.map (boxPoint (2 ^ (9 + a + b)))).map fun q => (nearestOps (15 + 2 * a + b)).mul (q (0 : Fin 3).castSucc) (q (0 : Fin 3).castSucc)).foldl (nearestOps (15 + 2 * a + b)).add (nearestOps (15 + 2 * a + b)).zero =
    8 * (2 ^ (9 + a + b) * 2 ^ (9 + a + b)) := by
  have h := fold_exact (15 + 2 * a + b) ((10 + a + b : ℕ) : ℤ) (A := 2 ^ (8 + a + b) + 1) (L.map fun s => 2 ^ (8 + a + b) + s.1) 0 (by
    intro n hn
    obtain ⟨s, hs, rfl⟩ := List.mem_map.1 hn
    have h1 : (1 : ℤ) ≤ 2 ^ (8 + a + b) := one_le_pow₀ (by norm_num)
    generalize (2 : ℤ) ^ (8 + a + b) = Q at *
    replace hs := hL.subset hs
    simp only [corners, List.mem_cons, List.not_mem_nil, or_false] at hs
    rcases hs with rfl | rfl | rfl | rfl | rfl | rfl | rfl | rfl <;> (rw [abs_le]; constructor <;> simp <;> linarith)) (by
    have ha : (1 : ℤ) ≤ 2 ^ a := one_le_pow₀ (by norm_num)
    have hb : (1 : ℤ) ≤ 2 ^ b := one_le_pow₀ (by norm_num)
    simp only [List.length_map, hL.length_eq, corners, List.length_cons, List.length_nil, abs_zero]
    simp only [pow_add, two_mul]
    generalize (2 : ℤ) ^ a = A at *
    generalize (2 : ℤ) ^ b = C at *
    have hac : 1 ≤ A * C := one_le_mul_of_one_le_of_one_le ha hb
    push_cast
    nlinarith [mul_nonneg (sub_nonneg.2 ha) (by linarith : 0 ≤ A * C)])
  have e : (L.map (boxPoint (2 ^ (9 + a + b)))).map (fun q => (nearestOps (15 + 2 * a + b)).mul (q (0 : Fin 3).castSucc) (q (0 : Fin 3).castSucc)) =
      (L.map fun s => 2 ^ (8 + a + b) + s.1).map fun n : ℤ => (n : ℚ) * 2 ^ ((10 + a + b : ℕ) : ℤ) := by
    have hm : ∀ x y : ℚ, (nearestOps (15 + 2 * a + b)).mul x y = nearest (15 + 2 * a + b) (x * y) := fun _ _ => rfl
    have h1 := square_up (a := a) (b := b)
    have h2 := square_down (a := a) (b := b)
    rw [List.map_map, List.map_map]
    apply List.map_congr_left
    intro s hs
    replace hs := hL.subset hs
    simp only [corners, List.mem_cons, List.not_mem_nil, or_false] at hs
    simp only [Function.comp_def, hm]
    rcases hs with rfl | rfl | rfl | rfl | rfl | rfl | rfl | rfl <;> simp [boxPoint, ← sub_eq_add_neg] at h1 h2 ⊢ <;> assumption
  rw [e, show (nearestOps (15 + 2 * a + b)).zero = ((0 : ℤ) : ℚ) * 2 ^ ((10 + a + b : ℕ) : ℤ) by simp [nearestOps, roundedOps], h, (hL.map _).sum_eq, zpow_natCast]
  simp [corners, pow_add, -mul_eq_mul_left_iff, -mul_eq_mul_right_iff]
  ring

/-- The computed matrix: no variance along the first axis. -/
theorem box_computed (hL : L.Perm corners) (j k : Fin 3) : Machine.covMatrix (nearestOps (15 + 2 * a + b)) (nearest (15 + 2 * a + b) 8) (fun j => ((L.map (boxPoint (2 ^ (9 + a + b)))).map fun p => p j).foldl (nearestOps (15 + 2 * a + b)).add (nearestOps (15 + 2 * a + b)).zero)
    (fun j k => ((L.map (boxPoint (2 ^ (9 + a + b)))).map fun p => (nearestOps (15 + 2 * a + b)).mul (p j) (p k)).foldl (nearestOps (15 + 2 * a + b)).add (nearestOps (15 + 2 * a + b)).zero) j.castSucc k.castSucc =
    Matrix.diagonal ![0, 1 / 4, 1 / 16] j k := by
  have hM : (1 : ℤ) ≤ 2 ^ (9 + a + b) := one_le_pow₀ (by norm_num)
  have hp : 64 * ((2 : ℤ) ^ (9 + a + b) + 1) ≤ 2 ^ (15 + 2 * a + b + 1) := by
    have ha : (1 : ℤ) ≤ 2 ^ a := one_le_pow₀ (by norm_num)
    have hb : (1 : ℤ) ≤ 2 ^ b := one_le_pow₀ (by norm_num)
    simp only [pow_add, two_mul]
    generalize (2 : ℤ) ^ a = A at *
    generalize (2 : ℤ) ^ b = C at *
    have hac : 1 ≤ A * C := one_le_mul_of_one_le_of_one_le ha hb
    nlinarith [mul_nonneg (sub_nonneg.2 ha) (by linarith : 0 ≤ A * C)]
  have hfix : ∀ (n : ℤ) (e : ℤ) (x : ℚ), |n| ≤ 8 → x = n * 2 ^ e → nearest (15 + 2 * a + b) x = x := by
    rintro n e x hn rfl
    exact nearest_fix _ _ _ (hn.trans (by
      have : (1 : ℤ) ≤ 2 ^ (12 + 2 * a + b + 1) := one_le_pow₀ (by norm_num)
      rw [show 15 + 2 * a + b + 1 = 3 + (12 + 2 * a + b + 1) by ring, pow_add]
      linarith))
  have h8 : nearest (15 + 2 * a + b) 8 = 8 := hfix 8 0 8 (by norm_num) (by norm_num)
  have h0 := nearest_zero (15 + 2 * a + b)
  have hd : ∀ x y : ℚ, (nearestOps (15 + 2 * a + b)).div x y = nearest (15 + 2 * a + b) (x / y) := fun _ _ => rfl
  have hs : ∀ x y : ℚ, (nearestOps (15 + 2 * a + b)).sub x y = nearest (15 + 2 * a + b) (x - y) := fun _ _ => rfl
  have hm : ∀ x y : ℚ, (nearestOps (15 + 2 * a + b)).mul x y = nearest (15 + 2 * a + b) (x * y) := fun _ _ => rfl
  have hmean : nearest (15 + 2 * a + b) ((2 : ℚ) ^ (9 + a + b)) = 2 ^ (9 + a + b) := hfix 1 ((9 + a + b : ℕ) : ℤ) _ (by norm_num) (by rw [zpow_natCast]; norm_num)
  have hsq : nearest (15 + 2 * a + b) ((2 : ℚ) ^ (9 + a + b) * (8 * 2 ^ (9 + a + b))) = 8 * (2 ^ (9 + a + b) * 2 ^ (9 + a + b)) := by
    rw [hfix 8 ((9 + a + b + (9 + a + b) : ℕ) : ℤ) _ (by norm_num) (by rw [zpow_natCast, pow_add _ (9 + a + b)]; push_cast; ring)]
    ring
  have h2 : nearest (15 + 2 * a + b) 2 = 2 := hfix 2 0 2 (by norm_num) (by norm_num)
  have h12 : nearest (15 + 2 * a + b) (1 / 2) = 1 / 2 := hfix 1 (-1) _ (by norm_num) (by norm_num)
  have h14 : nearest (15 + 2 * a + b) (1 / 4) = 1 / 4 := hfix 1 (-2) _ (by norm_num) (by norm_num)
  have h16 : nearest (15 + 2 * a + b) (1 / 16) = 1 / 16 := hfix 1 (-4) _ (by norm_num) (by norm_num)
  unfold Machine.covMatrix
  simp only [box_sums hL hM hp, h8, hd, hs, hm]
  by_cases hjk : j = 0 ∧ k = 0
  · obtain ⟨rfl, rfl⟩ := hjk
    have := box_squares hL (a := a) (b := b)
    simp only [hm] at this
    rw [this]
    simp only [if_true]
    push_cast
    rw [show 8 * (2 : ℚ) ^ (9 + a + b) / 8 = 2 ^ (9 + a + b) by ring, hmean, hsq, sub_self, h0, zero_div, h0]
    simp
  · have := box_cross hL (p := 15 + 2 * a + b) hM hp j k hjk
    simp only [hm] at this
    rw [this]
    have hz : nearest (15 + 2 * a + b) (nearest (15 + 2 * a + b) ((if j = 0 then 8 * (((2 : ℤ) ^ (9 + a + b) : ℤ) : ℚ) else 0) / 8) * (if k = 0 then 8 * (((2 : ℤ) ^ (9 + a + b) : ℤ) : ℚ) else 0)) = 0 := by
      by_cases hj : j = 0
      · rw [if_neg (fun hk => hjk ⟨hj, hk⟩), mul_zero, h0]
      · rw [if_neg hj, zero_div, h0, zero_mul, h0]
    rw [hz, sub_zero]
    fin_cases j <;> fin_cases k <;> simp_all [Matrix.diagonal]
    all_goals norm_num
    all_goals simp_all

end Box

/-- The covariance matrix of the box. -/
theorem box_exact {L : List (ℤ × ℤ × ℤ)} (hL : L.Perm corners) (M : ℤ) : covarianceOf (L.map (boxPoint M)) = Matrix.diagonal ![1, 1 / 4, 1 / 16] := by
  have hmean : ∀ j : Fin 3, meanOf (L.map (boxPoint M)) j.castSucc = if j = 0 then (M : ℚ) else 0 := by
    intro j
    unfold meanOf
    rw [List.map_map, (hL.map _).sum_eq, List.length_map, hL.length_eq]
    fin_cases j <;> simp [corners, boxPoint] <;> ring
  ext j k
  unfold covarianceOf
  simp only [hmean]
  rw [List.map_map, (hL.map _).sum_eq, List.length_map, hL.length_eq]
  fin_cases j <;> fin_cases k <;> simp [corners, boxPoint, Matrix.diagonal] <;> ring

theorem box_normal : IsNormal (Matrix.diagonal ![(1 : ℚ), 1 / 4, 1 / 16]) ![0, 0, 1] (3 / 16) := by
  refine ⟨by simp [inner3, Fin.sum_univ_three], fun v => ?_⟩
  simp [along, inner3, Fin.sum_univ_three, Matrix.diagonal]
  nlinarith [sq_nonneg (v 0), sq_nonneg (v 1)]

/-- In every precision of at least 16 digits: with neighbours that form a box of half lengths 1, 1/2 and 1/4 at a distance of `2 ^ k`, all coordinates being machine numbers, the normal is the third axis, but the vector that is
computed is orthogonal to it (up to the error of the solver). -/
theorem C105_cancellation {k p : ℕ} (h1 : k + 6 ≤ p) (h2 : p + 3 ≤ 2 * k) {R : Type} {eig : Matrix (Fin 3) (Fin 3) ℚ → R} {vec : R → Fin 3 → ℚ} {ρ : ℚ} (heig : SolverUpTo eig vec ρ)
    (normal : (Fin 4 → ℚ) → R → (Fin 4 → ℚ)) (cov : R → Matrix (Fin 4) (Fin 4) ℚ) (invalidCov : Matrix (Fin 4) (Fin 4) ℚ) (S : Features.Setter) {knn : Machine.Search ℚ} {num : Int} (hnum : 0 ≤ num)
    {cloud : Cloud (Fin 4 → ℚ) (Matrix (Fin 4) (Fin 4) ℚ)} (hcloud : cloud.points = corners.map fun s => some (boxPoint (2 ^ k) s)) (hknn : ∀ q, ∃ idx, knn cloud.points q num.toNat = .ok idx ∧ idx.Perm (List.range 8)) :
    (∀ s ∈ corners, ∀ j : Fin 3, nearest p (boxPoint (2 ^ k) s j.castSucc) = boxPoint (2 ^ k) s j.castSucc) ∧
    ∃ c, Machine.estimate (Machine.roundedFeatures (nearestOps p) (fun n => nearest p n) eig normal cov invalidCov) S knn num cloud = .ok c ∧
      ∀ i < 8, ∃ q pts C, NeighboursAt knn num cloud i q pts ∧ IsNormal (covarianceOf pts) ![0, 0, 1] (3 / 16) ∧ (S.normals = true → c.normals[i]? = some (some (normal q (eig C)))) ∧
        (S.covs = true → c.covs[i]? = some (some (cov (eig C)))) ∧ vec (eig C) ≠ 0 ∧ inner3 ![0, 0, 1] (vec (eig C)) ^ 2 ≤ 4 * ρ * inner3 (vec (eig C)) (vec (eig C)) := by
  obtain ⟨a, rfl⟩ : ∃ a, p = k + 6 + a := ⟨p - (k + 6), by omega⟩
  obtain ⟨b, rfl⟩ : ∃ b, k = 9 + a + b := ⟨k - (9 + a), by omega⟩
  have ep : 9 + a + b + 6 + a = 15 + 2 * a + b := by ring
  rw [ep]
  have hM : (1 : ℤ) ≤ 2 ^ (9 + a + b) := one_le_pow₀ (by norm_num)
  have hp : 64 * ((2 : ℤ) ^ (9 + a + b) + 1) ≤ 2 ^ (15 + 2 * a + b + 1) := by
    have ha : (1 : ℤ) ≤ 2 ^ a := one_le_pow₀ (by norm_num)
    have hb : (1 : ℤ) ≤ 2 ^ b := one_le_pow₀ (by norm_num)
    simp only [pow_add, two_mul]
    generalize (2 : ℤ) ^ a = A at *
    generalize (2 : ℤ) ^ b = C at *
    have hac : 1 ≤ A * C := one_le_mul_of_one_le_of_one_le ha hb
    nlinarith [mul_nonneg (sub_nonneg.2 ha) (by linarith : 0 ≤ A * C)]
  refine ⟨fun s hs j => ?_, ?_⟩
  · rw [box_quarters]
    exact nearest_fix _ _ _ (by linarith [quarters_small hM s hs j])
  have hsize : cloud.size = 8 := by
    show cloud.points.length = 8
    rw [hcloud]
    rfl
  have hpt : ∀ i < 8, ∃ s, corners[i]? = some s ∧ cloud.points[i]? = some (some (boxPoint (2 ^ (9 + a + b)) s)) := by
    intro i hi
    obtain ⟨s, hs⟩ : ∃ s, corners[i]? = some s := ⟨corners[i]'hi, List.getElem?_eq_getElem hi⟩
    refine ⟨s, hs, ?_⟩
    rw [hcloud, List.getElem?_map, hs]
    rfl
  obtain ⟨c, e1, -, -, -, -, -, e2, -⟩ := C102_features (Machine.roundedFeatures (nearestOps (15 + 2 * a + b)) (fun n => nearest (15 + 2 * a + b) n) eig normal cov invalidCov) S knn hnum cloud
    (fun i hi => by
      obtain ⟨s, -, hs⟩ := hpt i (by rw [← hsize]; exact hi)
      exact ⟨_, hs⟩)
    (fun i q _ => by
      obtain ⟨idx, g1, g2⟩ := hknn q
      exact ⟨idx, g1, fun j hj => by
        have := List.mem_range.1 (g2.subset hj)
        omega⟩)
  refine ⟨c, e1, fun i hi => ?_⟩
  obtain ⟨q, f, hq, hf, hn, hc⟩ := e2 i (by omega)
  obtain ⟨idx, g1, g2⟩ := hknn q
  have hL : (idx.map fun j => corners.getD j 0).Perm corners := (g2.map _).trans (by rfl)
  have hpts : idx.map (fun j => cloud.points[j]?) = ((idx.map fun j => corners.getD j 0).map (boxPoint (2 ^ (9 + a + b)))).map fun q => some (some q) := by
    rw [List.map_map, List.map_map]
    apply List.map_congr_left
    intro j hj
    obtain ⟨s, hs, hs'⟩ := hpt j (List.mem_range.1 (g2.subset hj))
    simp [hs', List.getD, hs]
  have hlen : ((idx.map fun j => corners.getD j 0).map (boxPoint (2 ^ (9 + a + b)))).length = 8 := by
    rw [List.length_map, hL.length_eq]
    rfl
  rw [frame_computed hnum hq g1 hpts, hlen, if_neg (by omega)] at hf
  have hC := fun j k => box_computed (a := a) (b := b) hL j k
  have hf' : f = some (eig (Matrix.diagonal ![0, 1 / 4, 1 / 16])) := by
    rw [← Except.ok.inj hf]
    congr 2
    funext j k
    have := hC j k
    exact_mod_cast this
  subst hf'
  obtain ⟨v1, v2⟩ := heig (Matrix.diagonal ![0, 1 / 4, 1 / 16]) (1 / 4) (fun j k => by
    fin_cases j <;> fin_cases k <;> simp [Matrix.diagonal] <;> norm_num [abs_le])
  refine ⟨q, _, Matrix.diagonal ![0, 1 / 4, 1 / 16], ⟨idx, hq, g1, hpts⟩, by rw [box_exact hL]; exact box_normal, hn, hc, v1, ?_⟩
  have v3 := v2 ![1, 0, 0]
  generalize vec (eig (Matrix.diagonal ![0, 1 / 4, 1 / 16])) = v at *
  simp [along, inner3, lower, Fin.sum_univ_three, Matrix.diagonal] at v3 ⊢
  nlinarith [sq_nonneg (v 1), sq_nonneg (v 0)]

/-! ### examples -/

theorem along_smul {K : Type} [Field K] (A : Matrix (Fin 3) (Fin 3) K) (c : K) (v : Fin 3 → K) : along A (c • v) = c ^ 2 * along A v := by
  simp [along, Fin.sum_univ_three]
  ring

theorem along_continuous (A : Matrix (Fin 3) (Fin 3) ℝ) : Continuous (along A) := by
  unfold along
  fun_prop

theorem inner3_continuous : Continuous fun v : Fin 3 → ℝ => inner3 v v := by
  unfold inner3
  fun_prop

/-- A direction of smallest variance exists. -/
theorem minimiser_exists (A : Matrix (Fin 3) (Fin 3) ℝ) : ∃ v, inner3 v v = 1 ∧ ∀ x, along A v * inner3 x x ≤ along A x := by
  have hc : IsCompact {v : Fin 3 → ℝ | inner3 v v = 1} := by
    apply (isCompact_closedBall (0 : Fin 3 → ℝ) 1).of_isClosed_subset
    · exact isClosed_eq inner3_continuous continuous_const
    · intro v hv
      rw [mem_closedBall_zero_iff, pi_norm_le_iff_of_nonneg zero_le_one]
      intro i
      rw [Real.norm_eq_abs, abs_le]
      have : inner3 v v = 1 := hv
      simp only [inner3, Fin.sum_univ_three] at this
      fin_cases i <;> constructor <;> simp <;> nlinarith [mul_self_nonneg (v 0), mul_self_nonneg (v 1), mul_self_nonneg (v 2)]
  obtain ⟨v, hv, hmin⟩ := hc.exists_isMinOn ⟨![1, 0, 0], by simp [inner3, Fin.sum_univ_three]⟩ (along_continuous A).continuousOn
  refine ⟨v, hv, fun x => ?_⟩
  rcases (inner3_nonneg x).eq_or_lt with h0 | h0
  · have hx : x = 0 := by
      simp only [inner3, Fin.sum_univ_three] at h0
      funext i
      fin_cases i <;> simp <;> nlinarith [mul_self_nonneg (x 0), mul_self_nonneg (x 1), mul_self_nonneg (x 2)]
    subst hx
    simp [inner3, along]
  · have hs := Real.sqrt_pos.2 h0
    have hsq := Real.sq_sqrt h0.le
    have := hmin (show (Real.sqrt (inner3 x x))⁻¹ • x ∈ {v : Fin 3 → ℝ | inner3 v v = 1} by
      have : inner3 ((Real.sqrt (inner3 x x))⁻¹ • x) ((Real.sqrt (inner3 x x))⁻¹ • x) = (Real.sqrt (inner3 x x))⁻¹ ^ 2 * inner3 x x := by
        simp [inner3, Fin.sum_univ_three]
        ring
      show _ = _
      rw [this, inv_pow, hsq, inv_mul_cancel₀ h0.ne'])
    simp only [Set.mem_ofPred_eq, along_smul, inv_pow, hsq] at this
    rw [← div_eq_inv_mul, le_div_iff₀ h0] at this
    exact this

/-- Solvers without error exist over the reals. -/
theorem eigen_solver_exists : ∃ eig : Matrix (Fin 3) (Fin 3) ℝ → (Fin 3 → ℝ), SolverUpTo eig id 0 := by
  choose f hf using fun A => minimiser_exists (lower A)
  refine ⟨f, fun A m _ => ⟨fun h => ?_, fun x => ?_⟩⟩
  · have := (hf A).1
    simp only [id] at h
    rw [h] at this
    simp [inner3] at this
  · simp only [id]
    rw [(hf A).1]
    simpa using (hf A).2 x

/-- Solvers with an arbitrarily small error exist over the rationals. -/
theorem eigen_solver_exists_rat {ρ : ℚ} (hρ : 0 < ρ) : ∃ eig : Matrix (Fin 3) (Fin 3) ℚ → (Fin 3 → ℚ), SolverUpTo eig id ρ := by
  have key : ∀ A : Matrix (Fin 3) (Fin 3) ℚ, ∃ v : Fin 3 → ℚ, v ≠ 0 ∧ ∀ m, (∀ j k, |A j k| ≤ m) → ∀ x, along (lower A) v * inner3 x x ≤ (along (lower A) x + ρ * m * inner3 x x) * inner3 v v := by
    intro A
    by_cases hA : A = 0
    · subst hA
      refine ⟨![1, 0, 0], fun h => by simpa using congrFun h 0, fun m hm x => ?_⟩
      have hm0 : 0 ≤ m := by simpa using hm 0 0
      have e : lower (0 : Matrix (Fin 3) (Fin 3) ℚ) = 0 := by ext j k; simp [lower]
      have hx := inner3_nonneg x
      have : 0 ≤ inner3 (![1, 0, 0] : Fin 3 → ℚ) ![1, 0, 0] := inner3_nonneg _
      rw [e]
      simp only [along, Matrix.zero_apply, zero_mul, Finset.sum_const_zero, zero_add]
      positivity
    · obtain ⟨j0, k0, h0⟩ : ∃ j k, A j k ≠ 0 := by
        by_contra hc
        push Not at hc
        exact hA (by ext j k; exact hc j k)
      set q : ℝ := (ρ : ℝ) * |(A j0 k0 : ℝ)| with hq
      have hq0 : 0 < q := by
        have : (0 : ℝ) < ρ := by exact_mod_cast hρ
        have : (A j0 k0 : ℝ) ≠ 0 := by exact_mod_cast h0
        positivity
      set Ar : Matrix (Fin 3) (Fin 3) ℝ := fun j k => ((lower A j k : ℚ) : ℝ) with hAr
      have cast_along : ∀ w : Fin 3 → ℚ, along Ar (fun j => (w j : ℝ)) = ((along (lower A) w : ℚ) : ℝ) := by
        intro w
        simp [along, hAr]
      have cast_inner : ∀ w : Fin 3 → ℚ, inner3 (fun j => (w j : ℝ)) (fun j => (w j : ℝ)) = ((inner3 w w : ℚ) : ℝ) := by
        intro w
        simp [inner3]
      obtain ⟨v, v1, v2⟩ := minimiser_exists Ar
      have hopen : IsOpen {w : Fin 3 → ℝ | along Ar w < (along Ar v + q) * inner3 w w} := isOpen_lt (along_continuous Ar) (continuous_const.mul inner3_continuous)
      obtain ⟨w, hw⟩ := (DenseRange.piMap (fun _ : Fin 3 => Rat.denseRange_cast (𝕜 := ℝ))).exists_mem_open hopen ⟨v, by
        show along Ar v < (along Ar v + q) * inner3 v v
        rw [v1]
        linarith⟩
      have hw' : along Ar (fun j => (w j : ℝ)) < (along Ar v + q) * inner3 (fun j => (w j : ℝ)) (fun j => (w j : ℝ)) := hw
      refine ⟨w, ?_, fun m hm x => ?_⟩
      · rintro rfl
        simp [along, inner3] at hw'
      · have hx := v2 fun j => (x j : ℝ)
        rw [cast_along, cast_inner] at hw' hx
        have hqm : q ≤ (ρ : ℝ) * m := by
          have h1 : |(A j0 k0 : ℝ)| ≤ m := by exact_mod_cast hm j0 k0
          have h2 : (0 : ℝ) ≤ ρ := by exact_mod_cast hρ.le
          exact mul_le_mul_of_nonneg_left h1 h2
        have i1 : (0 : ℝ) ≤ (inner3 x x : ℚ) := by exact_mod_cast inner3_nonneg x
        have i2 : (0 : ℝ) ≤ (inner3 w w : ℚ) := by exact_mod_cast inner3_nonneg w
        have : ((along (lower A) w * inner3 x x : ℚ) : ℝ) ≤ (((along (lower A) x + ρ * m * inner3 x x) * inner3 w w : ℚ) : ℝ) := by
          push_cast
          have b1 := mul_le_mul_of_nonneg_right hw'.le i1
          have b2 := mul_le_mul_of_nonneg_right hx i2
          have b3 := mul_le_mul_of_nonneg_right (mul_le_mul_of_nonneg_right hqm i1) i2
          nlinarith
        exact_mod_cast this
  choose f hf using key
  exact ⟨f, fun A m hA => ⟨(hf A).1, (hf A).2 m hA⟩⟩

/-- The contracts of the solver can be met, and the theorems apply. -/
example : ∃ (eig : Matrix (Fin 3) (Fin 3) ℚ → (Fin 3 → ℚ)) (c : Cloud (Fin 4 → ℚ) (Matrix (Fin 4) (Fin 4) ℚ)), SolverUpTo eig id (1 / 2 ^ 50) ∧
    Machine.estimate (Machine.roundedFeatures (nearestOps 52) (fun n => nearest 52 n) eig (fun _ r => ![r 0, r 1, r 2, 0]) (fun _ => 1) 1) ⟨true, true⟩ (fun _ _ _ => .ok (List.range 8)) 10
      ⟨corners.map fun s => some (boxPoint (2 ^ 28) s), [], []⟩ = .ok c := by
  obtain ⟨eig, h⟩ := eigen_solver_exists_rat (ρ := 1 / 2 ^ 50) (by norm_num)
  obtain ⟨-, c, hc, -⟩ := C105_cancellation (k := 28) (p := 52) (by norm_num) (by norm_num) h (fun _ r => ![r 0, r 1, r 2, 0]) (fun _ => 1) 1 ⟨true, true⟩ (knn := fun _ _ _ => .ok (List.range 8)) (num := 10) (by norm_num)
    (cloud := ⟨corners.map fun s => some (boxPoint (2 ^ 28) s), [], []⟩) rfl (fun _ => ⟨_, rfl, List.Perm.refl _⟩)
  exact ⟨eig, c, h, hc⟩

/-- The same box at the origin: the bounds hold with coordinates of at most 1. -/
example : ∃ pts : List (Fin 4 → ℚ), pts.length = 8 ∧ (∀ q ∈ pts, ∀ j : Fin 3, nearest 52 (q j.castSucc) = q j.castSucc ∧ |q j.castSucc| ≤ 1) ∧ IsNormal (covarianceOf pts) ![0, 0, 1] (3 / 16) ∧
    6 * covarianceError (1 / 2 ^ 53 : ℚ) 0 1 8 + 1 / 2 ^ 50 * (4 * 1 ^ 2 + covarianceError (1 / 2 ^ 53 : ℚ) 0 1 8) < 1 / 2 ^ 44 := by
  refine ⟨corners.map (boxPoint 0), rfl, ?_, by rw [box_exact (List.Perm.refl _)]; exact box_normal, by norm_num [covarianceError]⟩
  intro q hq j
  obtain ⟨s, hs, rfl⟩ := List.mem_map.1 hq
  have hsmall : |quarters 0 s j| ≤ 4 := by
    simp only [corners, List.mem_cons, List.not_mem_nil, or_false] at hs
    rcases hs with rfl | rfl | rfl | rfl | rfl | rfl | rfl | rfl <;> fin_cases j <;> simp [quarters]
  rw [box_quarters]
  refine ⟨nearest_fix _ _ _ (hsmall.trans (by norm_num)), ?_⟩
  have : |(quarters 0 s j : ℚ)| ≤ 4 := by exact_mod_cast hsmall
  rw [abs_mul]
  norm_num
  linarith

end Verif.Props
