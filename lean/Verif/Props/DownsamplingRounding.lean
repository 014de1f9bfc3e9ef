import Verif.Model.DownsamplingMachine
import Verif.Props.Downsampling
import Verif.Props.Rounding
import Mathlib.Data.Int.Log
import Mathlib.Algebra.Order.Round
import Mathlib.Tactic.Linarith
import Mathlib.Tactic.Positivity
import Mathlib.Tactic.FieldSimp
import Mathlib.Tactic.GCongr

/-!
C92: voxel-grid sampling in floating-point arithmetic.
-/

set_option linter.unusedSectionVars false
set_option linter.unusedSimpArgs false
set_option linter.unnecessarySeqFocus false

namespace Verif.Spec

open Verif

variable {K : Type} [Field K] [LinearOrder K] [FloorRing K]

/-- The operations of `o` round the exact result with `rnd`, which is monotone and leaves machine numbers alone. Results up to `big` have a relative error of at most `u` and, where underflow is possible, an
absolute error of at most `η`; sums do not suffer from underflow. The natural numbers up to `N` are machine numbers. (IEEE binary64, rounding to nearest: `u = 2⁻⁵³`, `η = 2⁻¹⁰⁷⁵`, `big` the largest
finite number, `N = 2⁵³`.) -/
structure Machine (o : Ops K) (rnd : K → K) (u η big : K) (N : Nat) : Prop where
  zero : o.zero = 0
  add : ∀ a b, o.add a b = rnd (a + b)
  mul : ∀ a b, o.mul a b = rnd (a * b)
  div : ∀ a b, o.div a b = rnd (a / b)
  mono : ∀ a b, a ≤ b → rnd a ≤ rnd b
  idem : ∀ a, rnd (rnd a) = rnd a
  u_nonneg : 0 ≤ u
  eta_nonneg : 0 ≤ η
  err : ∀ x, |x| ≤ big → |rnd x - x| ≤ u * |x| + η
  sum : ∀ a b, rnd a = a → rnd b = b → |a + b| ≤ big → |rnd (a + b) - (a + b)| ≤ u * |a + b|
  nat : ∀ n : Nat, n ≤ N → rnd n = n

/-- The cell that a point is put into: the floor of the computed product with the computed reciprocal of the leaf size. -/
def roundedCell (o : Ops K) (leaf : K) (p : Pt K) : Int × Int × Int :=
  (⌊o.mul p.x (o.div 1 leaf)⌋, ⌊o.mul p.y (o.div 1 leaf)⌋, ⌊o.mul p.z (o.div 1 leaf)⌋)

/-- Bound of the error of the quotient `x / leaf` computed in this way. -/
def quotientError (u η leaf x : K) : K := ((1 + u) ^ 2 - 1) * (|x| / leaf) + η * (1 + (1 + u) * |x|)

/-- The point lies in the cell, up to the error `ε` of its quotients. -/
def InCellUpTo (ε : K → K) (leaf : K) (p : Pt K) (c : Int × Int × Int) : Prop :=
  ((c.1 : K) - ε p.x ≤ p.x / leaf ∧ p.x / leaf < c.1 + 1 + ε p.x) ∧ ((c.2.1 : K) - ε p.y ≤ p.y / leaf ∧ p.y / leaf < c.2.1 + 1 + ε p.y) ∧
    ((c.2.2 : K) - ε p.z ≤ p.z / leaf ∧ p.z / leaf < c.2.2 + 1 + ε p.z)

/-- `a` is the mean of the numbers, up to the rounding errors of one operation per number. -/
def MeanUpTo (u η : K) (xs : List K) (a : K) : Prop := |a - xs.sum / xs.length| ≤ ((1 + u) ^ xs.length - 1) * ((xs.map fun x => |x|).sum / xs.length) + η

/-- `q` is the mean of the points, up to these errors, with a last component of exactly 1. -/
def AverageUpTo (u η : K) (ps : List (Pt K)) (q : Pt K) : Prop :=
  MeanUpTo u η (ps.map Pt.x) q.x ∧ MeanUpTo u η (ps.map Pt.y) q.y ∧ MeanUpTo u η (ps.map Pt.z) q.z ∧ q.w = 1

/-- The points have machine numbers of at most `X` as coordinates, 1 as last component, and their quotients by the leaf size stay in the range of the keys. -/
structure GridInput (rnd : K → K) (u η big : K) (N : Nat) (X leaf : K) (points : List (Pt K)) : Prop where
  leaf_pos : 0 < leaf
  one_le : 1 ≤ X
  machine : ∀ p ∈ points, rnd p.x = p.x ∧ rnd p.y = p.y ∧ rnd p.z = p.z ∧ p.w = 1
  bounded : ∀ p ∈ points, |p.x| ≤ X ∧ |p.y| ≤ X ∧ |p.z| ≤ X
  range : (1 + u) ^ 2 * (X / leaf) + η * (1 + (1 + u) * X) < 2 ^ 20
  big_le : 2 ^ 20 ≤ big
  count : points.length ≤ N
  sums : (1 + u) ^ points.length * (points.length * X) ≤ big

end Verif.Spec

namespace Verif.Props

open Verif Verif.Spec Verif.Downsample Verif.Proofs

variable {K : Type} [Field K] [LinearOrder K] [IsStrictOrderedRing K] [FloorRing K]

/-! ### Exact arithmetic gives the model of C21 to C25 -/

theorem machineLoop_exact (points : List (Pt K)) : ∀ (S : List (Nat × Nat)) (prev : Nat) (s : Pt K) (out : List (Pt K)),
    Machine.sumLoop (exactOps K) points prev s S out = sumLoop points prev s S out
  | [], _, _, _ => rfl
  | ki :: S, prev, s, out => by
    unfold Machine.sumLoop sumLoop
    split
    · exact machineLoop_exact points S _ _ _
    · cases rd points ki.2 with
      | error e => rfl
      | ok p => exact machineLoop_exact points S _ _ _

theorem machineBlock_exact (points : List (Pt K)) (S : List (Nat × Nat)) : Machine.blockPoints (exactOps K) points S = blockPoints points S := by
  cases S with
  | nil => rfl
  | cons ki S =>
    unfold Machine.blockPoints blockPoints
    simp only [machineLoop_exact]
    rfl

/-- C92: with exact arithmetic, the functions are those that C21 to C25 are about. -/
theorem C92_exact (sort : List (Nat × Nat) → List (Nat × Nat)) (points : List (Pt K)) (leaf : K) :
    Machine.voxelgridSampling (exactOps K) sort points leaf = voxelgridSampling sort points leaf ∧
      ∀ cut sched, Machine.voxelgridSamplingPar (exactOps K) sort cut sched points leaf = voxelgridSamplingPar sort cut sched points leaf := by
  constructor
  · unfold Machine.voxelgridSampling voxelgridSampling
    simp only [machineBlock_exact]
    rfl
  · intro cut sched
    unfold Machine.voxelgridSamplingPar voxelgridSamplingPar Machine.parStart parStart
    have e : Machine.blockPoints (exactOps K) points = blockPoints points := funext fun S => machineBlock_exact points S
    rw [e]
    rfl

/-! ### Cells -/

section Cells

variable {o : Ops K} {rnd : K → K} {u η big : K} {N : Nat} (h : Machine o rnd u η big N)

include h

/-- The computed quotient. -/
theorem quotient_error {leaf x : K} (hleaf : 0 < leaf) (h1 : 1 / leaf ≤ big) (h2 : (1 + u) * (|x| / leaf) + η * |x| ≤ big) :
    |o.mul x (o.div 1 leaf) - x / leaf| ≤ quotientError u η leaf x := by
  have hu := h.u_nonneg
  have he := h.eta_nonneg
  have hil : 0 < 1 / leaf := by positivity
  have e1 := h.err (1 / leaf) (by rwa [abs_of_pos hil])
  rw [abs_of_pos hil] at e1
  rw [h.mul, h.div]
  set inv := rnd (1 / leaf) with hinv
  have hx := abs_nonneg x
  have d1 : |x * inv - x / leaf| ≤ u * (|x| / leaf) + η * |x| := by
    have : x * inv - x / leaf = x * (inv - 1 / leaf) := by ring
    rw [this, abs_mul]
    calc |x| * |inv - 1 / leaf| ≤ |x| * (u * (1 / leaf) + η) := mul_le_mul_of_nonneg_left e1 hx
      _ = _ := by ring
  have hq : |x / leaf| = |x| / leaf := by rw [abs_div, abs_of_pos hleaf]
  have d2 : |x * inv| ≤ (1 + u) * (|x| / leaf) + η * |x| := by
    have : |x * inv| ≤ |x * inv - x / leaf| + |x / leaf| := by simpa using abs_add_le (x * inv - x / leaf) (x / leaf)
    rw [hq] at this
    linarith
  have e2 := h.err (x * inv) (d2.trans h2)
  have tri : |rnd (x * inv) - x / leaf| ≤ |rnd (x * inv) - x * inv| + |x * inv - x / leaf| := by
    simpa using abs_add_le (rnd (x * inv) - x * inv) (x * inv - x / leaf)
  unfold quotientError
  have d3 := mul_le_mul_of_nonneg_left d2 hu
  nlinarith

/-- The quotient is a monotone function of the coordinate. -/
theorem quotient_mono {leaf x y : K} (hleaf : 0 < leaf) (hxy : x ≤ y) : o.mul x (o.div 1 leaf) ≤ o.mul y (o.div 1 leaf) := by
  have h0 : rnd 0 = 0 := by simpa using h.nat 0 (Nat.zero_le _)
  have hinv : 0 ≤ o.div 1 leaf := by
    rw [h.div, ← h0]
    exact h.mono _ _ (by positivity)
  rw [h.mul, h.mul]
  exact h.mono _ _ (mul_le_mul_of_nonneg_right hxy hinv)

variable {X leaf : K} {points : List (Pt K)} (hg : GridInput rnd u η big N X leaf points)

include hg

theorem grid_quotient {x : K} (hx : |x| ≤ X) : |o.mul x (o.div 1 leaf) - x / leaf| ≤ quotientError u η leaf x ∧ |o.mul x (o.div 1 leaf)| < 2 ^ 20 := by
  have hu := h.u_nonneg
  have he := h.eta_nonneg
  have hl := hg.leaf_pos
  have hX := hg.one_le
  have hr := hg.range
  have hb := hg.big_le
  have hx0 := abs_nonneg x
  have a1 : 1 / leaf ≤ X / leaf := by gcongr
  have a2 : |x| / leaf ≤ X / leaf := by gcongr
  have a0 : 0 ≤ |x| / leaf := by positivity
  have a3 : 0 ≤ X / leaf := a0.trans a2
  have a4 : X / leaf ≤ (1 + u) ^ 2 * (X / leaf) := by nlinarith [mul_nonneg hu a3, mul_nonneg (mul_nonneg hu hu) a3]
  have a5 : (1 + u) * (|x| / leaf) ≤ (1 + u) ^ 2 * (X / leaf) := by
    have : (1 + u) * (|x| / leaf) ≤ (1 + u) * (X / leaf) := mul_le_mul_of_nonneg_left a2 (by linarith)
    nlinarith [mul_nonneg hu a3, mul_nonneg (mul_nonneg hu hu) a3]
  have a6 : η * |x| ≤ η * (1 + (1 + u) * X) := mul_le_mul_of_nonneg_left (by nlinarith [mul_nonneg hu (by linarith : 0 ≤ X)]) he
  have a7 : 0 ≤ η * (1 + (1 + u) * X) := le_trans (mul_nonneg he hx0) a6
  have e := quotient_error h hl (x := x) (by linarith) (by linarith)
  refine ⟨e, ?_⟩
  have hq : |x / leaf| = |x| / leaf := by rw [abs_div, abs_of_pos hl]
  have tri : |o.mul x (o.div 1 leaf)| ≤ |o.mul x (o.div 1 leaf) - x / leaf| + |x / leaf| := by
    simpa using abs_add_le (o.mul x (o.div 1 leaf) - x / leaf) (x / leaf)
  rw [hq] at tri
  unfold quotientError at e
  have b1 : (1 + u) ^ 2 * (|x| / leaf) ≤ (1 + u) ^ 2 * (X / leaf) := mul_le_mul_of_nonneg_left a2 (by positivity)
  have b2 : η * (1 + (1 + u) * |x|) ≤ η * (1 + (1 + u) * X) := mul_le_mul_of_nonneg_left (by nlinarith [mul_le_mul_of_nonneg_left hx hu]) he
  linarith

/-- C92: every point lies in the cell it is put into, up to the rounding error of its quotients; and the cells are intervals in each coordinate: a point with larger coordinates is not put into a lower
cell. -/
theorem C92_cells : (∀ p ∈ points, InCellUpTo (quotientError u η leaf) leaf p (roundedCell o leaf p)) ∧
    ∀ p q : Pt K, (p.x ≤ q.x → (roundedCell o leaf p).1 ≤ (roundedCell o leaf q).1) ∧ (p.y ≤ q.y → (roundedCell o leaf p).2.1 ≤ (roundedCell o leaf q).2.1) ∧
      (p.z ≤ q.z → (roundedCell o leaf p).2.2 ≤ (roundedCell o leaf q).2.2) := by
  constructor
  · intro p hp
    obtain ⟨b1, b2, b3⟩ := hg.bounded p hp
    have key : ∀ x : K, |x| ≤ X → ((⌊o.mul x (o.div 1 leaf)⌋ : ℤ) : K) - quotientError u η leaf x ≤ x / leaf ∧ x / leaf < (⌊o.mul x (o.div 1 leaf)⌋ : ℤ) + 1 + quotientError u η leaf x := by
      intro x hx
      have e := abs_le.1 (grid_quotient h hg hx).1
      have f1 := Int.floor_le (o.mul x (o.div 1 leaf))
      have f2 := Int.lt_floor_add_one (o.mul x (o.div 1 leaf))
      constructor <;> linarith [e.1, e.2]
    exact ⟨key _ b1, key _ b2, key _ b3⟩
  · intro p q
    exact ⟨fun hh => Int.floor_le_floor (quotient_mono h hg.leaf_pos hh), fun hh => Int.floor_le_floor (quotient_mono h hg.leaf_pos hh),
      fun hh => Int.floor_le_floor (quotient_mono h hg.leaf_pos hh)⟩

/-- All points get a key, the one of their cell. -/
theorem grid_key {p : Pt K} (hp : p ∈ points) : Machine.voxelKey o (o.div 1 leaf) p = .ok (encode (roundedCell o leaf p)) ∧ CellIn (roundedCell o leaf p) := by
  obtain ⟨b1, b2, b3⟩ := hg.bounded p hp
  have bw : |p.w| ≤ X := by rw [(hg.machine p hp).2.2.2, abs_one]; exact hg.one_le
  have fl : ∀ x : K, |x| ≤ X → In21 ⌊o.mul x (o.div 1 leaf)⌋ := by
    intro x hx
    have e := abs_lt.1 (grid_quotient h hg hx).2
    unfold In21
    refine ⟨Int.le_floor.2 ?_, Int.le_sub_one_of_lt (Int.floor_lt.2 ?_)⟩
    · push_cast; linarith [e.1]
    · push_cast; linarith [e.2]
  have r1 := fl _ b1
  have r2 := fl _ b2
  have r3 := fl _ b3
  have r4 := fl _ bw
  have kd : ∀ i : Int, In21 i → KeyFits i := by
    intro i hi
    unfold In21 at hi
    unfold KeyFits INT_MIN INT_MAX
    omega
  have gr : GridInRange 1 (Machine.scaled o (o.div 1 leaf) p) := by
    unfold GridInRange Machine.scaled
    simp only [div_one]
    exact ⟨r1, r2, r3, r4⟩
  have hk : KeyDefined 1 (Machine.scaled o (o.div 1 leaf) p) := ⟨kd _ gr.1, kd _ gr.2.1, kd _ gr.2.2.1, kd _ gr.2.2.2⟩
  have e := voxelKey_eq hk
  refine ⟨?_, r1, r2, r3⟩
  have e2 : Machine.voxelKey o (o.div 1 leaf) p = voxelKey (1 / 1) (Machine.scaled o (o.div 1 leaf) p) := by
    unfold Machine.voxelKey voxelKey Pt.smul
    simp only [div_one, mul_one]
  rw [e2, e]
  unfold keyOf
  rw [if_pos gr]
  unfold gridCell Machine.scaled roundedCell
  simp only [div_one]

end Cells

/-! ### Runs of the sorted array -/

section Runs

variable {o : Ops K} {points : List (Pt K)} (key : Pt K → Nat)

/-- Sum of a run, in its order. -/
def sumIn (o : Ops K) : List (Pt K) → Pt K
  | [] => Pt.zero o
  | p :: l => l.foldl (Pt.add o) p

theorem sumIn_snoc (o : Ops K) {l : List (Pt K)} (hl : l ≠ []) (p : Pt K) : Pt.add o (sumIn o l) p = sumIn o (l ++ [p]) := by
  cases l with
  | nil => exact absurd rfl hl
  | cons a l => simp [sumIn, List.foldl_append]

theorem machineLoop_groups (hz : ∀ p ∈ points, Pt.add o (Pt.zero o) p = p) :
    ∀ (V : List (Nat × Nat)) (VP : List (Nat × Pt K)), List.Forall₂ (Reads points) V VP → (∀ x ∈ V, x.1 ≠ INVALID_COORD) → ∀ (prev : Nat) (acc : List (Pt K)), acc ≠ [] → ∀ out,
    ∃ out' s', Machine.sumLoop o points prev (sumIn o acc) V out = .ok (out', s') ∧
      out' ++ [Machine.normalise o s'] = out ++ (groups (acc.map (fun v => (prev, v)) ++ VP)).map (fun g => Machine.normalise o (sumIn o g.2))
  | [], _, .nil, _, prev, acc, hacc, out => by
    refine ⟨out, sumIn o acc, rfl, ?_⟩
    rw [groups_run prev [] (by simp) acc hacc]
    simp [groups]
  | ki :: V, kp :: VP, .cons hr hrs, hv, prev, acc, hacc, out => by
    obtain ⟨hk, hp⟩ := hr
    have hne := hv ki (by simp)
    have hv' : ∀ x ∈ V, x.1 ≠ INVALID_COORD := fun x hx => hv x (by simp [hx])
    have hmem : kp.2 ∈ points := by
      unfold rd at hp
      split at hp
      · rename_i h; cases hp; exact List.mem_of_getElem? h
      · cases hp
    unfold Machine.sumLoop
    rw [if_neg hne]
    by_cases he : prev = ki.1
    · simp only [ne_eq, he, not_true_eq_false, if_false, hp]
      rw [sumIn_snoc o hacc]
      obtain ⟨out', s', h1, h2⟩ := machineLoop_groups hz V VP hrs hv' ki.1 (acc ++ [kp.2]) (by simp) out
      refine ⟨out', s', h1, ?_⟩
      rw [h2]
      simp [hk]
    · simp only [ne_eq, he, not_false_eq_true, if_true, hp]
      rw [hz _ hmem]
      obtain ⟨out', s', h1, h2⟩ := machineLoop_groups hz V VP hrs hv' ki.1 [kp.2] (by simp) (out ++ [Machine.normalise o (sumIn o acc)])
      refine ⟨out', s', h1, ?_⟩
      rw [h2, groups_run prev (kp :: VP) (by intro x hx; simp at hx; subst hx; rw [← hk]; exact fun e => he e.symm) acc hacc]
      simp [hk]

/-- The array before sorting, if `key` gives the keys. -/
def keyed (points : List (Pt K)) : List (Nat × Nat) := points.zipIdx.map fun pi => (key pi.1, pi.2)

theorem keyed_reads {ki} (hki : ki ∈ keyed key points) : Reads points ki (readP points ki) := by
  obtain ⟨⟨p, i⟩, hpi, rfl⟩ := List.mem_map.1 hki
  have h := List.mem_zipIdx_iff_getElem?.1 hpi
  refine ⟨rfl, ?_⟩
  simp only [readP, h, Option.getD_some]
  exact rd_of_getElem? h

theorem keyed_map : (keyed key points).map (readP points) = points.map (fun p => (key p, p)) := by
  apply List.ext_getElem?
  intro i
  simp only [keyed, List.getElem?_map, List.getElem?_zipIdx, Option.map_map]
  cases h : points[i]? with
  | none => rfl
  | some p => simp [readP, h]

theorem keyed_valid (hv : ∀ p ∈ points, key p ≠ INVALID_COORD) {ki} (hki : ki ∈ keyed key points) : ki.1 ≠ INVALID_COORD := by
  obtain ⟨⟨p, i⟩, hpi, rfl⟩ := List.mem_map.1 hki
  exact hv p (List.mem_of_getElem? (List.mem_zipIdx_iff_getElem?.1 hpi))

theorem machineBlock_groups (hz : ∀ p ∈ points, Pt.add o (Pt.zero o) p = p) {c : List (Nat × Nat)} (hne : c ≠ []) (hr : ∀ ki ∈ c, Reads points ki (readP points ki))
    (hv : ∀ ki ∈ c, ki.1 ≠ INVALID_COORD) : Machine.blockPoints o points c = .ok ((groups (c.map (readP points))).map fun g => Machine.normalise o (sumIn o g.2)) := by
  cases c with
  | nil => exact absurd rfl hne
  | cons ki c =>
    obtain ⟨out', s', h1, h2⟩ := machineLoop_groups hz c (c.map (readP points)) (forall₂_map_reads points c fun k hk => hr k (by simp [hk])) (fun k hk => hv k (by simp [hk])) ki.1
      [(readP points ki).2] (by simp) []
    unfold Machine.blockPoints
    have e : sumIn o [(readP points ki).2] = (readP points ki).2 := rfl
    rw [e] at h1
    simp only [(hr ki (by simp)).2, h1, bind, Except.bind, pure, Except.pure]
    rw [h2]
    simp [readP]

/-- The runs of the sorted array are the cells and their points. -/
theorem keyed_runs {C : Type} [DecidableEq C] (cell : Pt K → C) (enc : C → Nat) (dec : Nat → C) (hde : ∀ p ∈ points, dec (enc (cell p)) = cell p) {S : List (Nat × Nat)}
    (hp : S.Perm (keyed (fun p => enc (cell p)) points)) (hs : S.Pairwise (fun a b => a.1 ≤ b.1)) :
    ((groups (S.map (readP points))).map (fun g => dec g.1)).Nodup ∧ (∀ c, c ∈ (groups (S.map (readP points))).map (fun g => dec g.1) ↔ ∃ p ∈ points, cell p = c) ∧
      ∀ g ∈ groups (S.map (readP points)), g.2.Perm (points.filter fun p => cell p = dec g.1) := by
  have hsorted : (S.map (readP points)).Pairwise (fun a b => a.1 ≤ b.1) := by
    rw [List.pairwise_map]
    exact hs.imp fun hh => hh
  have hmap : (S.map (readP points)).Perm (points.map fun p => (enc (cell p), p)) := by
    rw [← keyed_map (fun p => enc (cell p))]
    exact hp.map _
  have hcell : ∀ g ∈ groups (S.map (readP points)), enc (dec g.1) = g.1 ∧ ∃ p ∈ points, cell p = dec g.1 := by
    intro g hgr
    obtain ⟨p, hpg⟩ := List.exists_mem_of_ne_nil _ (groups_nonempty _ g hgr)
    obtain ⟨q, hq, e⟩ := List.mem_map.1 (hmap.mem_iff.1 (groups_mem _ g hgr p hpg))
    obtain ⟨e1, e2⟩ := Prod.mk.inj e
    rw [← e1, hde q hq]
    exact ⟨rfl, q, hq, rfl⟩
  refine ⟨?_, ?_, ?_⟩
  · rw [List.nodup_iff_pairwise_ne, List.pairwise_map]
    refine List.Pairwise.imp_of_mem ?_ (groups_sorted _ hsorted)
    intro a b ha hb' hlt e
    have := congrArg enc e
    rw [(hcell a ha).1, (hcell b hb').1] at this
    omega
  · intro c
    constructor
    · intro hc
      obtain ⟨g, hgr, rfl⟩ := List.mem_map.1 hc
      exact (hcell g hgr).2
    · rintro ⟨p, hpm, rfl⟩
      have hx : (enc (cell p), p) ∈ S.map (readP points) := hmap.mem_iff.2 (List.mem_map.2 ⟨p, hpm, rfl⟩)
      obtain ⟨g, hgr, e⟩ := List.mem_map.1 ((groups_keys _ _).2 (List.mem_map_of_mem (f := Prod.fst) hx))
      refine List.mem_map.2 ⟨g, hgr, ?_⟩
      simp only [e]
      exact hde p hpm
  · intro g hgr
    have e := groups_filter _ hsorted g hgr
    have h2 := ((hmap.filter (fun x => decide (x.1 = g.1))).map Prod.snd)
    rw [← e, List.filter_map, List.map_map] at h2
    have h3 : (Prod.snd ∘ fun p : Pt K => (enc (cell p), p)) = id := rfl
    rw [h3, List.map_id] at h2
    refine h2.trans (List.Perm.of_eq ?_)
    apply List.filter_congr
    intro p hpm
    refine decide_eq_decide.2 (Iff.intro (fun hk => ?_) fun hc => ?_)
    · have hk' : enc (cell p) = g.1 := hk
      rw [← hk', hde p hpm]
    · show enc (cell p) = g.1
      rw [hc, (hcell g hgr).1]

end Runs

/-! ### Sums -/

section Sums

variable {o : Ops K} {rnd : K → K} {u η big : K} {N : Nat} (h : Machine o rnd u η big N)

include h

theorem machine_sum : ∀ (l : List K) (a s A : K) (k : ℕ), (∀ x ∈ l, rnd x = x) → rnd a = a → |s| ≤ A → |a - s| ≤ ((1 + u) ^ k - 1) * A →
    (1 + u) ^ (k + l.length) * (A + (l.map fun x => |x|).sum) ≤ big →
    |l.foldl o.add a - (s + l.sum)| ≤ ((1 + u) ^ (k + l.length) - 1) * (A + (l.map fun x => |x|).sum) ∧ rnd (l.foldl o.add a) = l.foldl o.add a
  | [], a, s, A, k, _, ha, hs, he, _ => by simpa using ⟨he, ha⟩
  | x :: l, a, s, A, k, hl, ha, hs, he, hb => by
    have hu := h.u_nonneg
    have one : (1 : K) ≤ 1 + u := by linarith
    have hA : 0 ≤ A := (abs_nonneg _).trans hs
    have hx := hl x (by simp)
    have habs := abs_nonneg x
    have hsum : 0 ≤ (l.map fun x => |x|).sum := List.sum_nonneg (by simp only [List.mem_map]; rintro _ ⟨y, -, rfl⟩; exact abs_nonneg y)
    rw [List.map_cons, List.sum_cons, List.length_cons] at hb
    have pk : (1 : K) ≤ (1 + u) ^ k := one_le_pow₀ one
    have hca : |a| ≤ (1 + u) ^ k * A := by
      have : |a| ≤ |a - s| + |s| := by simpa using abs_add_le (a - s) s
      linarith
    have hax : |a + x| ≤ (1 + u) ^ k * (A + |x|) := by
      have := abs_add_le a x
      nlinarith [mul_le_mul_of_nonneg_right pk habs]
    have hle : |a + x| ≤ big := by
      refine hax.trans (le_trans ?_ hb)
      have h1 : (1 + u) ^ k ≤ (1 + u) ^ (k + (l.length + 1)) := pow_le_pow_right₀ one (by omega)
      have h2 : 0 ≤ (1 + u) ^ (k + (l.length + 1)) := by positivity
      nlinarith [mul_le_mul_of_nonneg_right h1 (by linarith : 0 ≤ A + |x|), mul_nonneg h2 hsum]
    have hr := h.sum a x ha hx hle
    have step : |o.add a x - (s + x)| ≤ ((1 + u) ^ (k + 1) - 1) * (A + |x|) := by
      rw [h.add]
      have e : rnd (a + x) - (s + x) = (rnd (a + x) - (a + x)) + (a - s) := by ring
      rw [e]
      refine (abs_add_le _ _).trans ?_
      have h5 := mul_le_mul_of_nonneg_left hax hu
      rw [pow_succ]
      nlinarith [mul_nonneg (sub_nonneg.2 pk) habs]
    have ih := machine_sum l (o.add a x) (s + x) (A + |x|) (k + 1) (fun y hy => hl y (by simp [hy])) (by rw [h.add]; exact h.idem _)
      ((abs_add_le _ _).trans (by linarith)) step (by rw [show k + 1 + l.length = k + (l.length + 1) by omega, add_assoc]; exact hb)
    rw [List.foldl_cons, List.map_cons, List.sum_cons, List.sum_cons, List.length_cons, show k + (l.length + 1) = k + 1 + l.length by omega, ← add_assoc, ← add_assoc]
    exact ih

theorem machine_ones : ∀ (l : List K) (k : ℕ), (∀ x ∈ l, x = 1) → k + l.length ≤ N → l.foldl o.add (k : K) = ((k + l.length : ℕ) : K)
  | [], k, _, _ => by simp
  | x :: l, k, hl, hN => by
    rw [List.length_cons] at hN
    have e : o.add (k : K) x = ((k + 1 : ℕ) : K) := by
      rw [h.add, hl x (by simp)]
      have := h.nat (k + 1) (by omega)
      push_cast at this ⊢
      exact this
    rw [List.foldl_cons, e, machine_ones l (k + 1) (fun y hy => hl y (by simp [hy])) (by omega), List.length_cons]
    congr 1
    omega

/-- Mean of some numbers as computed. -/
theorem machine_mean {x : K} {l : List K} {X : K} (hm : ∀ y ∈ x :: l, rnd y = y) (hX : ∀ y ∈ x :: l, |y| ≤ X) {n : ℕ} (hn : (x :: l).length ≤ n)
    (hb : (1 + u) ^ n * (n * X) ≤ big) : MeanUpTo u η (x :: l) (o.div (l.foldl o.add x) ((l.length + 1 : ℕ) : K)) := by
  have hu := h.u_nonneg
  have he := h.eta_nonneg
  have one : (1 : K) ≤ 1 + u := by linarith
  have hX0 : 0 ≤ X := (abs_nonneg _).trans (hX x (by simp))
  have habs : ((x :: l).map fun y => |y|).sum ≤ (x :: l).length * X := by
    have := List.sum_le_card_nsmul ((x :: l).map fun y => |y|) X (by simpa using hX)
    simpa using this
  have hA0 : 0 ≤ ((x :: l).map fun y => |y|).sum := List.sum_nonneg (by simp only [List.mem_map]; rintro _ ⟨y, -, rfl⟩; exact abs_nonneg y)
  have hnX : ((x :: l).length : K) * X ≤ n * X := mul_le_mul_of_nonneg_right (by exact_mod_cast hn) hX0
  have hpow : (1 + u) ^ (l.length + 1) ≤ (1 + u) ^ n := pow_le_pow_right₀ one hn
  have hpow' : (1 + u) ^ l.length ≤ (1 + u) ^ (l.length + 1) := pow_le_pow_right₀ one (by omega)
  have p0 : (1 : K) ≤ (1 + u) ^ l.length := one_le_pow₀ one
  have hbig : (1 + u) ^ (l.length + 1) * ((x :: l).map fun y => |y|).sum ≤ big := by
    refine le_trans ?_ hb
    exact mul_le_mul hpow (habs.trans hnX) hA0 (by positivity)
  have hsum := machine_sum h l x x |x| 0 (fun y hy => hm y (by simp [hy])) (hm x (by simp)) le_rfl (by simp) (by
    rw [zero_add]
    refine le_trans ?_ hbig
    rw [List.map_cons, List.sum_cons] at hA0 ⊢
    exact mul_le_mul_of_nonneg_right hpow' hA0)
  obtain ⟨hs, -⟩ := hsum
  rw [zero_add, ← List.sum_cons (a := |x|), ← List.sum_cons (a := x), ← List.map_cons (f := fun y => |y|)] at hs
  set s := l.foldl o.add x with hsdef
  set A := ((x :: l).map fun y => |y|).sum with hAdef
  set m : K := ((l.length + 1 : ℕ) : K) with hmdef
  have hm1 : (1 : K) ≤ m := by rw [hmdef]; exact_mod_cast Nat.succ_le_succ (Nat.zero_le _)
  have hm0 : 0 < m := by linarith
  have hlen : ((x :: l).length : K) = m := by rw [hmdef, List.length_cons]
  have hsA : |(x :: l).sum| ≤ A := by
    have gen : ∀ t : List K, |t.sum| ≤ (t.map fun y => |y|).sum := by
      intro t
      induction t with
      | nil => simp
      | cons y t ih => rw [List.sum_cons, List.map_cons, List.sum_cons]; exact (abs_add_le _ _).trans (by linarith)
    exact gen _
  have hsl : |s| ≤ (1 + u) ^ l.length * A := by
    have : |s| ≤ |s - (x :: l).sum| + |(x :: l).sum| := by simpa using abs_add_le (s - (x :: l).sum) (x :: l).sum
    linarith
  have hq : |s / m| = |s| / m := by rw [abs_div, abs_of_pos hm0]
  have hqb : |s / m| ≤ big := by
    rw [hq]
    refine (div_le_self (abs_nonneg _) hm1).trans (hsl.trans (le_trans ?_ hbig))
    exact mul_le_mul_of_nonneg_right hpow' hA0
  have er := h.err _ hqb
  unfold MeanUpTo
  rw [hlen, h.div, List.length_cons]
  have tri : |rnd (s / m) - (x :: l).sum / m| ≤ |rnd (s / m) - s / m| + |s - (x :: l).sum| / m := by
    have e : rnd (s / m) - (x :: l).sum / m = (rnd (s / m) - s / m) + (s - (x :: l).sum) / m := by ring
    rw [e]
    refine (abs_add_le _ _).trans ?_
    rw [abs_div, abs_of_pos hm0]
  have t1 : |s - (x :: l).sum| / m ≤ ((1 + u) ^ l.length - 1) * (A / m) := by
    rw [← mul_div_assoc]
    gcongr
  have t2 : u * |s / m| ≤ u * ((1 + u) ^ l.length * (A / m)) := by
    have := mul_le_mul_of_nonneg_left (div_le_div_of_nonneg_right hsl hm0.le) hu
    rwa [hq, ← mul_div_assoc ((1 + u) ^ l.length)]
  rw [pow_succ]
  linarith

/-- The computed average of a run. -/
theorem machine_average {g : List (Pt K)} (hne : g ≠ []) (hm : ∀ p ∈ g, rnd p.x = p.x ∧ rnd p.y = p.y ∧ rnd p.z = p.z ∧ p.w = 1) {X : K} (hX : ∀ p ∈ g, |p.x| ≤ X ∧ |p.y| ≤ X ∧ |p.z| ≤ X)
    {n : ℕ} (hn : g.length ≤ n) (hN : n ≤ N) (hb : (1 + u) ^ n * (n * X) ≤ big) : AverageUpTo u η g (Machine.normalise o (sumIn o g)) := by
  cases g with
  | nil => exact absurd rfl hne
  | cons p l =>
    have comp : ∀ (l : List (Pt K)) (p : Pt K), (l.foldl (Pt.add o) p).x = (l.map Pt.x).foldl o.add p.x ∧ (l.foldl (Pt.add o) p).y = (l.map Pt.y).foldl o.add p.y ∧
        (l.foldl (Pt.add o) p).z = (l.map Pt.z).foldl o.add p.z ∧ (l.foldl (Pt.add o) p).w = (l.map Pt.w).foldl o.add p.w := by
      intro l
      induction l with
      | nil => intro p; exact ⟨rfl, rfl, rfl, rfl⟩
      | cons q l ih => intro p; exact ih _
    obtain ⟨cx, cy, cz, cw⟩ := comp l p
    have hw : (l.foldl (Pt.add o) p).w = ((l.length + 1 : ℕ) : K) := by
      rw [cw, (hm p (by simp)).2.2.2]
      have := machine_ones h (l.map Pt.w) 1 (by
        intro x hx
        obtain ⟨q, hq, rfl⟩ := List.mem_map.1 hx
        exact (hm q (by simp [hq])).2.2.2) (by rw [List.length_map]; rw [List.length_cons] at hn; omega)
      rw [Nat.cast_one] at this
      rw [this, List.length_map, Nat.add_comm]
    have key : ∀ f : Pt K → K, (∀ q ∈ p :: l, rnd (f q) = f q) → (∀ q ∈ p :: l, |f q| ≤ X) → MeanUpTo u η ((p :: l).map f) (o.div ((l.map f).foldl o.add (f p)) ((l.length + 1 : ℕ) : K)) := by
      intro f h1 h2
      have := machine_mean h (x := f p) (l := l.map f) (X := X) (by simpa using h1) (by simpa using h2) (n := n) (by simpa using hn) hb
      rwa [List.length_map] at this
    unfold Machine.normalise sumIn Pt.sdiv
    refine ⟨?_, ?_, ?_, ?_⟩
    · simp only
      rw [cx, hw]; exact key Pt.x (fun q hq => (hm q hq).1) fun q hq => (hX q hq).1
    · simp only
      rw [cy, hw]; exact key Pt.y (fun q hq => (hm q hq).2.1) fun q hq => (hX q hq).2.1
    · simp only
      rw [cz, hw]; exact key Pt.z (fun q hq => (hm q hq).2.2.1) fun q hq => (hX q hq).2.2
    · simp only
      rw [hw, h.div, div_self (Nat.cast_ne_zero.2 (by omega))]
      rw [List.length_cons] at hn
      exact_mod_cast h.nat 1 (by omega)

end Sums

theorem mean_perm {u η : K} {xs ys : List K} (hp : xs.Perm ys) {a : K} (h : MeanUpTo u η xs a) : MeanUpTo u η ys a := by
  unfold MeanUpTo at h ⊢
  rwa [← hp.sum_eq, ← (hp.map _).sum_eq, ← hp.length_eq]

theorem average_perm {u η : K} {g g' : List (Pt K)} (hp : g.Perm g') {q : Pt K} (h : AverageUpTo u η g q) : AverageUpTo u η g' q :=
  ⟨mean_perm (hp.map _) h.1, mean_perm (hp.map _) h.2.1, mean_perm (hp.map _) h.2.2.1, h.2.2.2⟩

/-! ### The functions -/

section Main

variable {o : Ops K} {rnd : K → K} {u η big : K} {N : Nat} (h : Machine o rnd u η big N) {X leaf : K} {points : List (Pt K)} (hg : GridInput rnd u η big N X leaf points)

include h hg

theorem grid_zero {p : Pt K} (hp : p ∈ points) : Pt.add o (Pt.zero o) p = p := by
  obtain ⟨h1, h2, h3, h4⟩ := hg.machine p hp
  have hN : 1 ≤ N := by
    have := List.length_pos_of_mem hp
    have := hg.count
    omega
  have e1 : rnd 1 = 1 := by exact_mod_cast h.nat 1 hN
  obtain ⟨x, y, z, w⟩ := p
  simp only at h1 h2 h3 h4
  subst h4
  simp only [Pt.add, Pt.zero, h.add, h.zero, zero_add, h1, h2, h3, e1]

theorem grid_coordPt : Machine.coordPt o (o.div 1 leaf) points = .ok (keyed (fun p => encode (roundedCell o leaf p)) points) := by
  unfold Machine.coordPt
  apply mapM_ok
  intro pi hpi
  have hm : pi.1 ∈ points := by
    obtain ⟨p, i⟩ := pi
    exact List.mem_of_getElem? (List.mem_zipIdx_iff_getElem?.1 hpi)
  simp only [(grid_key h hg hm).1, bind, Except.bind, pure, Except.pure]

theorem grid_block {S c : List (Nat × Nat)} (hp : S.Perm (keyed (fun p => encode (roundedCell o leaf p)) points)) (hc : c.Sublist S) (hne : c ≠ []) :
    Machine.blockPoints o points c = .ok ((groups (c.map (readP points))).map fun g => Machine.normalise o (sumIn o g.2)) :=
  machineBlock_groups (fun _ hp => grid_zero h hg hp) hne (fun _ hk => keyed_reads _ (hp.mem_iff.1 (hc.subset hk)))
    fun _ hk => keyed_valid _ (fun _ hp => encode_ne_invalid (grid_key h hg hp).2) (hp.mem_iff.1 (hc.subset hk))

theorem grid_run {S c : List (Nat × Nat)} (hp : S.Perm (keyed (fun p => encode (roundedCell o leaf p)) points)) (hc : c.Sublist S) {g} (hgr : g ∈ groups (c.map (readP points))) :
    g.2 ≠ [] ∧ (∀ p ∈ g.2, p ∈ points ∧ g.1 = encode (roundedCell o leaf p)) ∧ g.2.length ≤ points.length := by
  refine ⟨groups_nonempty _ g hgr, ?_, ?_⟩
  · intro p hpg
    obtain ⟨ki, hki, e⟩ := List.mem_map.1 (groups_mem _ g hgr p hpg)
    have hk := hp.mem_iff.1 (hc.subset hki)
    have := List.mem_map_of_mem (f := readP points) hk
    rw [keyed_map, e] at this
    obtain ⟨q, hq, e2⟩ := List.mem_map.1 this
    obtain ⟨e3, e4⟩ := Prod.mk.inj e2
    rw [← e4]
    exact ⟨hq, e3.symm⟩
  · have h1 : g.2.length ≤ (c.map (readP points)).length := by
      conv => rhs; rw [← groups_flatten (c.map (readP points))]
      have : (g.2.map fun v => (g.1, v)).Sublist ((groups (c.map (readP points))).flatMap fun g => g.2.map fun v => (g.1, v)) := by
        rw [List.flatMap_def]
        exact List.sublist_flatten_of_mem (List.mem_map_of_mem (f := fun g : Nat × List (Pt K) => g.2.map fun v => (g.1, v)) hgr)
      simpa using this.length_le
    rw [List.length_map] at h1
    have h2 := hc.length_le
    rw [hp.length_eq] at h2
    simp [keyed] at h2
    omega

theorem grid_average {S c : List (Nat × Nat)} (hp : S.Perm (keyed (fun p => encode (roundedCell o leaf p)) points)) (hc : c.Sublist S) {g} (hgr : g ∈ groups (c.map (readP points))) :
    AverageUpTo u η g.2 (Machine.normalise o (sumIn o g.2)) := by
  obtain ⟨h1, h2, h3⟩ := grid_run h hg hp hc hgr
  exact machine_average h h1 (fun p hpg => hg.machine p (h2 p hpg).1) (fun p hpg => hg.bounded p (h2 p hpg).1) h3 hg.count hg.sums

/-- C92: for points in range, the sampler emits one point per occupied cell (as computed), and it is the mean of the input points in the cell up to the rounding errors. -/
theorem C92_serial {sort : List (Nat × Nat) → List (Nat × Nat)} (hsort : SortSpec sort) :
    ∃ cells : List (Int × Int × Int), cells.Nodup ∧ (∀ c, c ∈ cells ↔ ∃ p ∈ points, roundedCell o leaf p = c) ∧ ∃ out, Machine.voxelgridSampling o sort points leaf = .ok out ∧
      List.Forall₂ (fun c q => AverageUpTo u η (points.filter fun p => roundedCell o leaf p = c) q) cells out := by
  by_cases hne : points = []
  · subst hne
    exact ⟨[], List.nodup_nil, by simp, [], rfl, .nil⟩
  have hlen : points.length ≠ 0 := fun e => hne (List.length_eq_zero_iff.1 e)
  obtain ⟨hp, hs⟩ := hsort (keyed (fun p => encode (roundedCell o leaf p)) points)
  set S := sort (keyed (fun p => encode (roundedCell o leaf p)) points) with hS
  have hSlen : S.length = points.length := by rw [hp.length_eq]; simp [keyed]
  have hSne : S ≠ [] := fun e => by rw [e] at hSlen; exact hlen hSlen.symm
  have hb := grid_block h hg hp (List.Sublist.refl S) hSne
  obtain ⟨r1, r2, r3⟩ := keyed_runs (roundedCell o leaf) encode decode (fun p hp => decode_encode (grid_key h hg hp).2) hp hs
  refine ⟨(groups (S.map (readP points))).map (fun g => decode g.1), r1, r2, (groups (S.map (readP points))).map (fun g => Machine.normalise o (sumIn o g.2)), ?_, ?_⟩
  · unfold Machine.voxelgridSampling
    rw [if_neg hlen, if_neg hg.leaf_pos.ne', grid_coordPt h hg]
    simp only [bind, Except.bind, pure, Except.pure]
    rw [← hS, hb]
    simp only
    rw [if_pos]
    rw [List.length_map, ← hSlen]
    exact (groups_length_le _).trans (by simp)
  · rw [List.forall₂_map_left_iff, List.forall₂_map_right_iff, List.forall₂_same]
    intro g hgr
    exact average_perm (r3 g hgr) (grid_average h hg hp (List.Sublist.refl S) hgr)

/-- C92: the parallel samplers, whatever the division into blocks and the schedule: the input is divided into non-empty sets of points of one cell each, at most one set per cell and additional block, and
the outputs are their means up to the rounding errors. -/
theorem C92_parallel {sort : List (Nat × Nat) → List (Nat × Nat)} (hsort : SortSpec sort) {cut : List (Nat × Nat) → List (List (Nat × Nat))} (hcut : IsCut cut) {B : Nat}
    (hB : ∀ l, l.length = points.length → (cut l).length ≤ B) :
    ∃ G : List (List (Pt K)), G.flatten.Perm points ∧ (∀ g ∈ G, g ≠ [] ∧ ∃ c, ∀ p ∈ g, roundedCell o leaf p = c) ∧
      G.length ≤ (points.map (roundedCell o leaf)).toFinset.card + (B - 1) ∧
      ∀ sched r, Machine.voxelgridSamplingPar o sort cut sched points leaf = some r → ∃ out, r = .ok out ∧ ∃ qs, out.Perm qs ∧ List.Forall₂ (AverageUpTo u η) G qs := by
  by_cases hne : points = []
  · subst hne
    refine ⟨[], by simp, by simp, by simp, ?_⟩
    intro sched r hr
    cases hr
    exact ⟨[], rfl, [], .refl _, .nil⟩
  have hlen : points.length ≠ 0 := fun e => hne (List.length_eq_zero_iff.1 e)
  obtain ⟨hp, hs⟩ := hsort (keyed (fun p => encode (roundedCell o leaf p)) points)
  obtain ⟨hf, hb⟩ := hcut (sort (keyed (fun p => encode (roundedCell o leaf p)) points))
  have hBl := hB (sort (keyed (fun p => encode (roundedCell o leaf p)) points)) (by rw [hp.length_eq]; simp [keyed])
  set S := sort (keyed (fun p => encode (roundedCell o leaf p)) points) with hS
  set cs := cut S with hcs
  have hsub : ∀ c ∈ cs, c.Sublist S := fun c hc => by rw [← hf]; exact List.sublist_flatten_of_mem hc
  have hsorted : (S.map (readP points)).Pairwise (fun a b => a.1 ≤ b.1) := by
    rw [List.pairwise_map]
    exact hs.imp fun hh => hh
  have hmapS : (S.map (readP points)).Perm (points.map fun p => (encode (roundedCell o leaf p), p)) := by
    rw [← keyed_map (fun p => encode (roundedCell o leaf p))]
    exact hp.map _
  have hfl : (cs.map fun c => c.map (readP points)).flatten = S.map (readP points) := by rw [← List.map_flatten, hf]
  refine ⟨(cs.flatMap fun c => groups (c.map (readP points))).map Prod.snd, ?_, ?_, ?_, ?_⟩
  · have e : ((cs.flatMap fun c => groups (c.map (readP points))).map Prod.snd).flatten = (S.map (readP points)).map Prod.snd := by
      rw [← hfl]
      clear_value cs
      clear hfl hsub hBl hb hf hcs
      induction cs with
      | nil => rfl
      | cons c cs ih =>
        rw [List.flatMap_cons, List.map_append, List.flatten_append, ih, List.map_cons, List.flatten_cons, List.map_append, groups_values]
    rw [e]
    refine (hmapS.map Prod.snd).trans ?_
    rw [List.map_map]
    exact List.Perm.of_eq (List.map_id _)
  · intro g hgm
    obtain ⟨gr, hgr, rfl⟩ := List.mem_map.1 hgm
    obtain ⟨c, hc, hgr⟩ := List.mem_flatMap.1 hgr
    obtain ⟨h1, h2, -⟩ := grid_run h hg hp (hsub c hc) hgr
    refine ⟨h1, decode gr.1, fun p hpg => ?_⟩
    rw [(h2 p hpg).2, decode_encode (grid_key h hg (h2 p hpg).1).2]
  · have hgl := (groups_flatten_length (cs.map fun c => c.map (readP points))).2
    rw [hfl, List.length_map, List.flatMap_map] at hgl
    rw [List.length_map]
    refine hgl.trans (Nat.add_le_add ?_ (by omega))
    have hnd : ((groups (S.map (readP points))).map Prod.fst).Nodup := by
      rw [List.nodup_iff_pairwise_ne, List.pairwise_map]
      exact (groups_sorted _ hsorted).imp fun hlt => by omega
    rw [← List.length_map (f := Prod.fst), ← List.toFinset_card_of_nodup hnd]
    have hle : ((groups (S.map (readP points))).map Prod.fst).toFinset ⊆ (points.map (roundedCell o leaf)).toFinset.image encode := by
      intro k hk
      rw [List.mem_toFinset, groups_keys] at hk
      obtain ⟨kp, hkp, rfl⟩ := List.mem_map.1 hk
      obtain ⟨p, hpm, rfl⟩ := List.mem_map.1 (hmapS.mem_iff.1 hkp)
      exact Finset.mem_image.2 ⟨_, List.mem_toFinset.2 (List.mem_map_of_mem hpm), rfl⟩
    exact (Finset.card_le_card hle).trans Finset.card_image_le
  · intro sched r hr
    have hsubs : Machine.parStart o points cs = .ok ⟨0, List.replicate points.length none, (cs.map fun c => (groups (c.map (readP points))).map fun g => Machine.normalise o (sumIn o g.2)).map .pending⟩ := by
      unfold Machine.parStart
      rw [mapM_ok (Machine.blockPoints o points) (fun c => (groups (c.map (readP points))).map fun g => Machine.normalise o (sumIn o g.2)) cs fun c hc => grid_block h hg hp (hsub c hc) (hb c hc)]
      rfl
    have hl : (cs.map fun c => (groups (c.map (readP points))).map fun g => Machine.normalise o (sumIn o g.2)).flatten.length ≤ points.length := by
      have hpl : points.length = cs.flatten.length := by rw [hf, hp.length_eq]; simp [keyed]
      rw [hpl, List.length_flatten, List.length_flatten, List.map_map]
      refine List.sum_le_sum ?_
      intro c _
      simp only [Function.comp, List.length_map]
      exact (groups_length_le _).trans (by simp)
    unfold Machine.voxelgridSamplingPar at hr
    rw [if_neg hlen, if_neg hg.leaf_pos.ne', grid_coordPt h hg] at hr
    simp only [] at hr
    rw [← hS, ← hcs, hsubs] at hr
    simp only [] at hr
    cases hrun : parRun sched (⟨0, List.replicate points.length none, (cs.map fun c => (groups (c.map (readP points))).map fun g => Machine.normalise o (sumIn o g.2)).map .pending⟩ : ParState K) with
    | none => rw [hrun] at hr; simp at hr
    | some r1 =>
      obtain ⟨s', rfl, hi, _⟩ := parRun_inv sched (parInit_inv points.length _ hl) hrun
      rw [hrun] at hr
      simp only at hr
      split at hr
      · rename_i hfin
        obtain ⟨out, ho, hperm⟩ := parResult_of_finished hi hfin
        rw [ho] at hr
        cases hr
        refine ⟨out, rfl, _, hperm, ?_⟩
        have e : (cs.map fun c => (groups (c.map (readP points))).map fun g => Machine.normalise o (sumIn o g.2)).flatten =
            (cs.flatMap fun c => groups (c.map (readP points))).map fun g => Machine.normalise o (sumIn o g.2) := by
          rw [← List.flatMap_def, List.map_flatMap]
        rw [e, List.forall₂_map_left_iff, List.forall₂_map_right_iff, List.forall₂_same]
        intro g hgr
        obtain ⟨c, hc, hgr⟩ := List.mem_flatMap.1 hgr
        exact grid_average h hg hp (hsub c hc) hgr
      · cases hr

/-- C92: the mean of points of one cell lies in that cell, up to the rounding errors of the quotients and of the mean. -/
theorem C92_in_cell {g : List (Pt K)} (hgne : g ≠ []) (hgl : g.length ≤ points.length) {c : Int × Int × Int} (hc : ∀ p ∈ g, p ∈ points ∧ roundedCell o leaf p = c) {q : Pt K}
    (hq : AverageUpTo u η g q) : InCellUpTo (fun _ => quotientError u η leaf X + (((1 + u) ^ points.length - 1) * X + η) / leaf) leaf q c := by
  have hu := h.u_nonneg
  have he := h.eta_nonneg
  have hl := hg.leaf_pos
  have hX : 0 ≤ X := by linarith [hg.one_le]
  have one : (1 : K) ≤ 1 + u := by linarith
  have hcells := (C92_cells h hg).1
  have key : ∀ (f : Pt K → K) (k : Int), (∀ p ∈ g, |f p| ≤ X) → (∀ p ∈ g, (k : K) - quotientError u η leaf (f p) ≤ f p / leaf ∧ f p / leaf < k + 1 + quotientError u η leaf (f p)) →
      ∀ a, MeanUpTo u η (g.map f) a → (k : K) - (quotientError u η leaf X + (((1 + u) ^ points.length - 1) * X + η) / leaf) ≤ a / leaf ∧
        a / leaf < k + 1 + (quotientError u η leaf X + (((1 + u) ^ points.length - 1) * X + η) / leaf) := by
    intro f k hb hk a ha
    have hgpos : 0 < g.length := List.length_pos_of_ne_nil hgne
    have hgK : (0 : K) < g.length := by exact_mod_cast hgpos
    have hmon : ∀ p ∈ g, quotientError u η leaf (f p) ≤ quotientError u η leaf X := by
      intro p hp
      have b := hb p hp
      have b0 := abs_nonneg (f p)
      unfold quotientError
      rw [abs_of_nonneg hX]
      have p1 : 0 ≤ (1 + u) ^ 2 - 1 := by nlinarith
      gcongr
    set E := quotientError u η leaf X
    have lo : ((k : K) - E) * leaf ≤ (g.map f).sum / g.length := by
      rw [le_div_iff₀ hgK]
      have := List.card_nsmul_le_sum (g.map f) (((k : K) - E) * leaf) (by
        intro x hx
        obtain ⟨p, hp, rfl⟩ := List.mem_map.1 hx
        rw [← le_div_iff₀ hl]
        linarith [(hk p hp).1, hmon p hp])
      rw [List.length_map, nsmul_eq_mul] at this
      linarith
    have hi : (g.map f).sum / g.length < ((k : K) + 1 + E) * leaf := by
      rw [div_lt_iff₀ hgK]
      have := List.sum_lt_sum_of_ne_nil (l := g) hgne f (fun _ => ((k : K) + 1 + E) * leaf) (by
        intro p hp
        rw [← div_lt_iff₀ hl]
        linarith [(hk p hp).2, hmon p hp])
      rw [List.map_const', List.sum_replicate, nsmul_eq_mul] at this
      linarith
    unfold MeanUpTo at ha
    rw [List.length_map, List.map_map] at ha
    have hA : (g.map ((fun x => |x|) ∘ f)).sum / g.length ≤ X := by
      rw [div_le_iff₀ hgK]
      have := List.sum_le_card_nsmul (g.map ((fun x => |x|) ∘ f)) X (by
        intro x hx
        obtain ⟨p, hp, rfl⟩ := List.mem_map.1 hx
        exact hb p hp)
      rw [List.length_map, nsmul_eq_mul] at this
      linarith
    have hpow : (1 + u) ^ g.length - 1 ≤ (1 + u) ^ points.length - 1 := by
      have := pow_le_pow_right₀ one hgl
      linarith
    have hp0 : 0 ≤ (1 + u) ^ g.length - 1 := by linarith [one_le_pow₀ one (n := g.length)]
    have hbound : ((1 + u) ^ g.length - 1) * ((g.map ((fun x => |x|) ∘ f)).sum / g.length) ≤ ((1 + u) ^ points.length - 1) * X :=
      (mul_le_mul_of_nonneg_left hA hp0).trans (mul_le_mul_of_nonneg_right hpow hX)
    have ha' := abs_le.1 (ha.trans (add_le_add hbound (le_refl η)))
    have ed : (((1 + u) ^ points.length - 1) * X + η) / leaf * leaf = ((1 + u) ^ points.length - 1) * X + η := div_mul_cancel₀ _ hl.ne'
    constructor
    · rw [le_div_iff₀ hl]
      nlinarith [ha'.1, ha'.2]
    · rw [div_lt_iff₀ hl]
      nlinarith [ha'.1, ha'.2]
  have hcell : ∀ p ∈ g, InCellUpTo (quotientError u η leaf) leaf p c := fun p hp => by rw [← (hc p hp).2]; exact hcells p (hc p hp).1
  exact ⟨key Pt.x c.1 (fun p hp => (hg.bounded p (hc p hp).1).1) (fun p hp => (hcell p hp).1) _ hq.1,
    key Pt.y c.2.1 (fun p hp => (hg.bounded p (hc p hp).1).2.1) (fun p hp => (hcell p hp).2.1) _ hq.2.1,
    key Pt.z c.2.2 (fun p hp => (hg.bounded p (hc p hp).1).2.2) (fun p hp => (hcell p hp).2.2) _ hq.2.2.1⟩

end Main

/-- C92: two computed means of the same points (of different samplers, or with different sorting functions) differ by no more than the sum of the two error bounds. -/
theorem C92_apart {u η : K} {xs ys : List K} (hp : xs.Perm ys) {a b : K} (ha : MeanUpTo u η xs a) (hb : MeanUpTo u η ys b) :
    |a - b| ≤ 2 * (((1 + u) ^ xs.length - 1) * ((xs.map fun x => |x|).sum / xs.length) + η) := by
  have hb' := mean_perm hp.symm hb
  unfold MeanUpTo at ha hb'
  have e : a - b = (a - xs.sum / xs.length) - (b - xs.sum / xs.length) := by ring
  rw [e]
  exact (abs_sub _ _).trans (by linarith)

/-! ### example: rounding to nearest with `p + 1` binary digits -/

/-- A number rounded to `p + 1` binary digits (ties upwards), with any exponent. -/
def nearest (p : ℕ) (x : ℚ) : ℚ := round (x / 2 ^ (Int.log 2 |x| - p)) * 2 ^ (Int.log 2 |x| - p)

theorem round_mono {x y : ℚ} (h : x ≤ y) : round x ≤ round y := by
  rw [round_eq, round_eq]
  exact Int.floor_le_floor (by linarith)

/-- Multiples of a power of two by a number of at most `p + 1` digits are left alone. -/
theorem nearest_fix (p : ℕ) (k j : ℤ) (hk : |k| ≤ 2 ^ (p + 1)) : nearest p (k * 2 ^ j) = k * 2 ^ j := by
  rcases eq_or_ne k 0 with rfl | hk0
  · simp [nearest]
  set y : ℚ := k * 2 ^ j with hy
  have h2 : (2 : ℚ) ≠ 0 := by norm_num
  have hpow : (0 : ℚ) < 2 ^ j := zpow_pos (by norm_num) _
  have habs : |y| = (|k| : ℤ) * 2 ^ j := by rw [hy, abs_mul, abs_of_pos hpow, Int.cast_abs]
  have hk1 : (1 : ℚ) ≤ (|k| : ℤ) := by exact_mod_cast Int.one_le_abs hk0
  have hpos : 0 < |y| := by rw [habs]; positivity
  have hle : |y| ≤ 2 ^ (j + p + 1) := by
    rw [habs, show j + p + 1 = ((p + 1 : ℕ) : ℤ) + j by push_cast; ring, zpow_add₀ h2, zpow_natCast]
    gcongr
    exact_mod_cast hk
  have hlo : (2 : ℚ) ^ Int.log 2 |y| ≤ |y| := by exact_mod_cast Int.zpow_log_le_self (R := ℚ) (b := 2) (by norm_num) hpos
  have hlog : Int.log 2 |y| ≤ j + p + 1 := (zpow_le_zpow_iff_right₀ (by norm_num : (1 : ℚ) < 2)).1 (hlo.trans hle)
  have hint : ∃ m : ℤ, y / 2 ^ (Int.log 2 |y| - p) = m := by
    rcases hlog.lt_or_eq with hlt | heq
    · obtain ⟨n, hn⟩ : ∃ n : ℕ, j - (Int.log 2 |y| - p) = n := ⟨(j - (Int.log 2 |y| - p)).toNat, by omega⟩
      refine ⟨k * 2 ^ n, ?_⟩
      have : (2 : ℚ) ^ j / 2 ^ (Int.log 2 |y| - p) = 2 ^ n := by rw [← zpow_sub₀ h2, hn, zpow_natCast]
      rw [hy, mul_div_assoc, ← hy, this]
      push_cast
      ring
    · have hkk : |k| = 2 ^ (p + 1) := by
        apply le_antisymm hk
        rw [heq, habs, show j + p + 1 = ((p + 1 : ℕ) : ℤ) + j by push_cast; ring, zpow_add₀ h2, zpow_natCast] at hlo
        have := le_of_mul_le_mul_right hlo hpow
        exact_mod_cast this
      obtain ⟨m, hm⟩ : ∃ m : ℤ, k = 2 * m := by
        rcases abs_choice k with e | e
        · exact ⟨2 ^ p, by rw [← e, hkk, pow_succ]; ring⟩
        · exact ⟨-2 ^ p, by rw [← neg_neg k, ← e, hkk, pow_succ]; ring⟩
      refine ⟨m, ?_⟩
      rw [heq, hy, hm, show j + p + 1 - p = j + 1 by ring, zpow_add₀ h2, zpow_one]
      push_cast
      field_simp
  obtain ⟨m, hm⟩ := hint
  have hq : (2 : ℚ) ^ (Int.log 2 |y| - p) ≠ 0 := zpow_ne_zero _ h2
  unfold nearest
  rw [hm, round_intCast, ← hm, div_mul_cancel₀ _ hq]

/-- Position of a number within its binade. -/
theorem nearest_scaled (p : ℕ) {x : ℚ} (hx : x ≠ 0) : (2 : ℚ) ^ p ≤ |x / 2 ^ (Int.log 2 |x| - p)| ∧ |x / 2 ^ (Int.log 2 |x| - p)| ≤ 2 ^ (p + 1) := by
  have h2 : (2 : ℚ) ≠ 0 := by norm_num
  have hpos : 0 < |x| := abs_pos.2 hx
  have hq : (0 : ℚ) < 2 ^ (Int.log 2 |x| - p) := zpow_pos (by norm_num) _
  have hlo : (2 : ℚ) ^ Int.log 2 |x| ≤ |x| := by exact_mod_cast Int.zpow_log_le_self (R := ℚ) (b := 2) (by norm_num) hpos
  have hhi : |x| < (2 : ℚ) ^ (Int.log 2 |x| + 1) := by exact_mod_cast Int.lt_zpow_succ_log_self (R := ℚ) (b := 2) (by norm_num) |x|
  rw [abs_div, abs_of_pos hq, le_div_iff₀ hq, div_le_iff₀ hq, ← zpow_natCast, ← zpow_natCast, ← zpow_add₀ h2, ← zpow_add₀ h2]
  constructor
  · rwa [show (p : ℤ) + (Int.log 2 |x| - p) = Int.log 2 |x| by ring]
  · rw [show ((p + 1 : ℕ) : ℤ) + (Int.log 2 |x| - p) = Int.log 2 |x| + 1 by push_cast; ring]
    exact hhi.le

theorem round_pow (n : ℕ) : round ((2 : ℚ) ^ n) = 2 ^ n ∧ round (-(2 : ℚ) ^ n) = -2 ^ n := by
  constructor
  · exact_mod_cast round_intCast (α := ℚ) (2 ^ n)
  · exact_mod_cast round_intCast (α := ℚ) (-2 ^ n)

theorem nearest_pos (p : ℕ) {x : ℚ} (hx : 0 < x) : (2 : ℚ) ^ Int.log 2 |x| ≤ nearest p x ∧ nearest p x ≤ 2 ^ (Int.log 2 |x| + 1) := by
  obtain ⟨h1, h2⟩ := nearest_scaled p hx.ne'
  have hne : (2 : ℚ) ≠ 0 := by norm_num
  have hq : (0 : ℚ) < 2 ^ (Int.log 2 |x| - p) := zpow_pos (by norm_num) _
  rw [abs_of_pos (div_pos hx hq)] at h1 h2
  have r1 := round_mono h1
  have r2 := round_mono h2
  rw [(round_pow p).1] at r1
  rw [(round_pow (p + 1)).1] at r2
  have r1' : (2 : ℚ) ^ p ≤ round (x / 2 ^ (Int.log 2 |x| - p)) := by exact_mod_cast r1
  have r2' : (round (x / 2 ^ (Int.log 2 |x| - p)) : ℚ) ≤ 2 ^ (p + 1) := by exact_mod_cast r2
  unfold nearest
  constructor
  · refine le_trans (le_of_eq ?_) (mul_le_mul_of_nonneg_right r1' hq.le)
    rw [← zpow_natCast, ← zpow_add₀ hne]
    congr 1
    ring
  · refine le_trans (mul_le_mul_of_nonneg_right r2' hq.le) (le_of_eq ?_)
    rw [← zpow_natCast, ← zpow_add₀ hne]
    congr 1
    push_cast
    ring

theorem nearest_neg (p : ℕ) {x : ℚ} (hx : x < 0) : nearest p x ≤ -2 ^ Int.log 2 |x| ∧ -2 ^ (Int.log 2 |x| + 1) ≤ nearest p x := by
  obtain ⟨h1, h2⟩ := nearest_scaled p hx.ne
  have hne : (2 : ℚ) ≠ 0 := by norm_num
  have hq : (0 : ℚ) < 2 ^ (Int.log 2 |x| - p) := zpow_pos (by norm_num) _
  rw [abs_of_neg (div_neg_of_neg_of_pos hx hq)] at h1 h2
  have r1 := round_mono (le_neg_of_le_neg h1)
  have r2 := round_mono (neg_le.1 h2)
  rw [(round_pow p).2] at r1
  rw [(round_pow (p + 1)).2] at r2
  have r1' : (round (x / 2 ^ (Int.log 2 |x| - p)) : ℚ) ≤ -2 ^ p := by exact_mod_cast r1
  have r2' : -(2 : ℚ) ^ (p + 1) ≤ round (x / 2 ^ (Int.log 2 |x| - p)) := by exact_mod_cast r2
  unfold nearest
  constructor
  · refine le_trans (mul_le_mul_of_nonneg_right r1' hq.le) (le_of_eq ?_)
    rw [← zpow_natCast, neg_mul, ← zpow_add₀ hne]
    congr 2
    ring
  · refine le_trans (le_of_eq ?_) (mul_le_mul_of_nonneg_right r2' hq.le)
    rw [← zpow_natCast, neg_mul, ← zpow_add₀ hne]
    congr 2
    push_cast
    ring

theorem nearest_zero (p : ℕ) : nearest p 0 = 0 := by simp [nearest]

theorem nearest_mono (p : ℕ) {x y : ℚ} (h : x ≤ y) : nearest p x ≤ nearest p y := by
  have pw : ∀ {i j : ℤ}, i ≤ j → (2 : ℚ) ^ i ≤ 2 ^ j := fun hij => zpow_le_zpow_right₀ (by norm_num) hij
  have same : Int.log 2 |x| = Int.log 2 |y| → nearest p x ≤ nearest p y := by
    intro e
    unfold nearest
    rw [e]
    have hq : (0 : ℚ) < 2 ^ (Int.log 2 |y| - p) := zpow_pos (by norm_num) _
    refine mul_le_mul_of_nonneg_right ?_ hq.le
    exact_mod_cast round_mono (div_le_div_of_nonneg_right h hq.le)
  rcases lt_trichotomy x 0 with hx | rfl | hx
  · have nx := (nearest_neg p hx)
    have px : (0 : ℚ) < 2 ^ Int.log 2 |x| := zpow_pos (by norm_num) _
    rcases lt_trichotomy y 0 with hy | rfl | hy
    · have ny := (nearest_neg p hy)
      have hlog : Int.log 2 |y| ≤ Int.log 2 |x| := Int.log_mono_right (abs_pos.2 hy.ne) (by rw [abs_of_neg hx, abs_of_neg hy]; linarith)
      rcases hlog.lt_or_eq with hl | e
      · have := pw (show Int.log 2 |y| + 1 ≤ Int.log 2 |x| by omega)
        linarith [nx.1, ny.2]
      · exact same e.symm
    · rw [nearest_zero]; linarith [nx.1]
    · have ny := (nearest_pos p hy)
      have py : (0 : ℚ) < 2 ^ Int.log 2 |y| := zpow_pos (by norm_num) _
      linarith [nx.1, ny.1]
  · rw [nearest_zero]
    rcases h.lt_or_eq with hy | rfl
    · have py : (0 : ℚ) < 2 ^ Int.log 2 |y| := zpow_pos (by norm_num) _
      linarith [(nearest_pos p hy).1]
    · rw [nearest_zero]
  · have hy : 0 < y := lt_of_lt_of_le hx h
    have hlog : Int.log 2 |x| ≤ Int.log 2 |y| := Int.log_mono_right (abs_pos.2 hx.ne') (by rw [abs_of_pos hx, abs_of_pos hy]; exact h)
    rcases hlog.lt_or_eq with hl | e
    · have := pw (show Int.log 2 |x| + 1 ≤ Int.log 2 |y| by omega)
      linarith [(nearest_pos p hx).2, (nearest_pos p hy).1]
    · exact same e

theorem nearest_rel (p : ℕ) (x : ℚ) : |nearest p x - x| ≤ 1 / 2 ^ (p + 1) * |x| := by
  rcases eq_or_ne x 0 with rfl | hx
  · simp [nearest_zero]
  have h2 : (2 : ℚ) ≠ 0 := by norm_num
  have hq : (0 : ℚ) < 2 ^ (Int.log 2 |x| - p) := zpow_pos (by norm_num) _
  have hlo : (2 : ℚ) ^ Int.log 2 |x| ≤ |x| := by exact_mod_cast Int.zpow_log_le_self (R := ℚ) (b := 2) (by norm_num) (abs_pos.2 hx)
  have e : nearest p x - x = -((x / 2 ^ (Int.log 2 |x| - p) - round (x / 2 ^ (Int.log 2 |x| - p))) * 2 ^ (Int.log 2 |x| - p)) := by
    unfold nearest
    rw [sub_mul, div_mul_cancel₀ _ hq.ne']
    ring
  rw [e, abs_neg, abs_mul, abs_of_pos hq]
  refine (mul_le_mul_of_nonneg_right (abs_sub_round _) hq.le).trans ?_
  rw [zpow_sub₀ h2, zpow_natCast, pow_succ]
  have hp : (0 : ℚ) < 2 ^ p := by positivity
  rw [div_mul_div_comm, one_mul, div_mul_eq_mul_div, one_mul, mul_comm]
  gcongr

theorem nearest_idem (p : ℕ) (x : ℚ) : nearest p (nearest p x) = nearest p x := by
  rcases eq_or_ne x 0 with rfl | hx
  · rw [nearest_zero, nearest_zero]
  have : |round (x / 2 ^ (Int.log 2 |x| - p))| ≤ (2 : ℤ) ^ (p + 1) := by
    obtain ⟨-, h2⟩ := nearest_scaled p hx
    obtain ⟨h3, h4⟩ := abs_le.1 h2
    have r1 := round_mono h3
    have r2 := round_mono h4
    rw [(round_pow (p + 1)).2] at r1
    rw [(round_pow (p + 1)).1] at r2
    exact abs_le.2 ⟨r1, r2⟩
  exact nearest_fix p _ _ this

/-- Arithmetic with rounding to nearest. -/
def nearestOps (p : ℕ) : Ops ℚ := roundedOps (nearest p) (fun a b c d => nearest p (a * a + b * b + c * c + d * d)) (fun a b => nearest p (a / b)) (fun a b c x y z => nearest p (a * x + b * y + c * z))

/-- It meets the contract. -/
theorem nearest_machine (p : ℕ) (big : ℚ) : Machine (nearestOps p) (nearest p) (1 / 2 ^ (p + 1)) 0 big (2 ^ (p + 1)) where
  zero := rfl
  add _ _ := rfl
  mul _ _ := rfl
  div _ _ := rfl
  mono _ _ h := nearest_mono p h
  idem x := nearest_idem p x
  u_nonneg := by positivity
  eta_nonneg := le_rfl
  err x _ := by rw [add_zero]; exact nearest_rel p x
  sum a b _ _ _ := nearest_rel p (a + b)
  nat n hn := by
    have := nearest_fix p n 0 (by
      rw [abs_of_nonneg (by positivity)]
      exact_mod_cast hn)
    simpa using this

/-- C92 (what the rounding does): with the 53 digits of a `double`, 49 * (1 / 49) is less than 1. For a leaf size of 49, the point at x = 49 is therefore put into the cell of the points with 0 ≤ x < 49,
and the sampler returns one point, in the middle, where exact arithmetic (C22) would return two. -/
theorem C92_neighbour_cell : roundedCell (nearestOps 52) 49 ⟨49, 0, 0, 1⟩ = (0, 0, 0) ∧ gridCell (49 : ℚ) ⟨49, 0, 0, 1⟩ = (1, 0, 0) ∧
    Machine.voxelgridSampling (nearestOps 52) keySort [⟨1, 0, 0, 1⟩, ⟨49, 0, 0, 1⟩] 49 = .ok [⟨25, 0, 0, 1⟩] ∧
    voxelgridSampling keySort [⟨1, 0, 0, 1⟩, ⟨49, 0, 0, 1⟩] (49 : ℚ) = .ok [⟨1, 0, 0, 1⟩, ⟨49, 0, 0, 1⟩] := by
  decide +kernel

/-- The premises are met by these points, and by three points of which rounding changes the mean. -/
theorem grid49 : GridInput (nearest 52) (1 / 2 ^ 53) 0 (2 ^ 100) (2 ^ 53) 49 49 [⟨1, 0, 0, 1⟩, ⟨49, 0, 0, 1⟩] where
  leaf_pos := by norm_num
  one_le := by norm_num
  machine := by decide +kernel
  bounded := by decide +kernel
  range := by norm_num
  big_le := by norm_num
  count := by norm_num
  sums := by norm_num

example : ∃ cells : List (Int × Int × Int), cells.Nodup ∧ (∀ c, c ∈ cells ↔ ∃ p ∈ [⟨1, 0, 0, 1⟩, ⟨49, 0, 0, 1⟩], roundedCell (nearestOps 52) 49 p = c) ∧
    ∃ out, Machine.voxelgridSampling (nearestOps 52) keySort [⟨1, 0, 0, 1⟩, ⟨49, 0, 0, 1⟩] 49 = .ok out ∧
      List.Forall₂ (fun c q => AverageUpTo (1 / 2 ^ 53) 0 ([⟨1, 0, 0, 1⟩, ⟨49, 0, 0, 1⟩].filter fun p => roundedCell (nearestOps 52) 49 p = c) q) cells out :=
  C92_serial (nearest_machine 52 (2 ^ 100)) grid49 keySort_spec

/-- Three points on the x axis; their mean is no machine number. -/
def thirds : List (Pt ℚ) := [⟨nearest 52 (1 / 10), 0, 0, 1⟩, ⟨nearest 52 (1 / 5), 0, 0, 1⟩, ⟨nearest 52 (1 / 3), 0, 0, 1⟩]

theorem gridThirds : GridInput (nearest 52) (1 / 2 ^ 53) 0 (2 ^ 100) (2 ^ 53) 1 (1 / 2) thirds where
  leaf_pos := by norm_num
  one_le := by norm_num
  machine := by decide +kernel
  bounded := by decide +kernel
  range := by norm_num
  big_le := by norm_num
  count := by decide +kernel
  sums := by
    have : thirds.length = 3 := rfl
    rw [this]
    norm_num

/-- The computed mean depends on the order in which a sorting function leaves the points of a cell. -/
example : SortSpec (fun l => keySort l.reverse) ∧
    Machine.voxelgridSampling (nearestOps 52) keySort thirds (1 / 2) = .ok [⟨7606079370670171 / 36028797018963968, 0, 0, 1⟩] ∧
    Machine.voxelgridSampling (nearestOps 52) (fun l => keySort l.reverse) thirds (1 / 2) = .ok [⟨1901519842667543 / 9007199254740992, 0, 0, 1⟩] :=
  ⟨fun l => ⟨(keySort_spec _).1.trans l.reverse_perm, (keySort_spec _).2⟩, by decide +kernel, by decide +kernel⟩

/-- Two blocks, each with points of the one cell, and a schedule in which the second one reserves its slot first. -/
example : ∃ G : List (List (Pt ℚ)), G.flatten.Perm thirds ∧ ∃ out, Machine.voxelgridSamplingPar (nearestOps 52) keySort (fun l => (if l.length = 3 then [l.take 2, l.drop 2] else l.map fun x => [x]))
    [1, 0, 0, 1] thirds (1 / 2) = some (.ok out) ∧ ∃ qs, out.Perm qs ∧ List.Forall₂ (AverageUpTo (1 / 2 ^ 53) 0) G qs := by
  have hcut : IsCut fun l : List (Nat × Nat) => if l.length = 3 then [l.take 2, l.drop 2] else l.map fun x => [x] := by
    intro l
    simp only
    split
    · rename_i h
      refine ⟨by simp, ?_⟩
      intro b hb
      simp only [List.mem_cons, List.not_mem_nil, or_false] at hb
      rcases hb with rfl | rfl
      · exact List.ne_nil_of_length_pos (by rw [List.length_take]; omega)
      · exact List.ne_nil_of_length_pos (by rw [List.length_drop]; omega)
    · exact ⟨by rw [← List.flatMap_def]; simp, by simp only [List.mem_map]; rintro _ ⟨x, -, rfl⟩; simp⟩
  obtain ⟨G, h1, -, -, h2⟩ := C92_parallel (nearest_machine 52 (2 ^ 100)) gridThirds keySort_spec hcut (B := 2) (by
    intro l hl
    have : l.length = 3 := hl
    simp [this])
  have hrun : (Machine.voxelgridSamplingPar (nearestOps 52) keySort (fun l => (if l.length = 3 then [l.take 2, l.drop 2] else l.map fun x => [x])) [1, 0, 0, 1] thirds (1 / 2)).isSome := by
    decide +kernel
  obtain ⟨r, hr⟩ := Option.isSome_iff_exists.1 hrun
  obtain ⟨out, rfl, h3⟩ := h2 _ r hr
  exact ⟨G, h1, out, hr, h3⟩

/-- The computed mean of the three points, and the cell it is in up to rounding. -/
example (q : Pt ℚ) (hq : AverageUpTo (1 / 2 ^ 53) 0 thirds q) : InCellUpTo (fun _ => quotientError (1 / 2 ^ 53) 0 (1 / 2) 1 + (((1 + 1 / 2 ^ 53) ^ 3 - 1) * 1 + 0) / (1 / 2)) (1 / 2) q (0, 0, 0) :=
  C92_in_cell (nearest_machine 52 (2 ^ 100)) gridThirds (by decide) le_rfl (by decide +kernel) hq

/-- How far a point can be from the cell it is put into, for coordinates up to 100 and a leaf size of 1/4: 2⁻⁴³ of the leaf size. -/
example : quotientError (1 / 2 ^ 53 : ℚ) 0 (1 / 4) 100 ≤ 1 / 2 ^ 43 := by
  unfold quotientError
  norm_num

end Verif.Props
