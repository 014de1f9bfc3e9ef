import Verif.Model.VoxelHash
import Mathlib.Tactic.Ring
import Mathlib.Tactic.NormNum.Prime
import Mathlib.Tactic.NormNum.GCD
import Mathlib.Data.Nat.Prime.Basic
import Mathlib.Data.Int.ModEq
import Mathlib.Data.Int.GCD
import Mathlib.Tactic.Linarith
import Mathlib.RingTheory.Coprime.Lemmas
import Mathlib.Algebra.Order.Ring.Abs

/-!
C106: the spatial hash of the voxel maps.
-/

set_option linter.unusedSectionVars false
set_option linter.unusedSimpArgs false
set_option linter.unnecessarySeqFocus false

namespace Verif.Spec

/-- The values of an `int`. -/
def IsInt32 (x : Int) : Prop := -2 ^ 31 ≤ x ∧ x < 2 ^ 31

/-- Divisible by the same powers of two. -/
def SameEvenness (x y : Int) : Prop := ∀ i : Nat, (2 : Int) ^ i ∣ x ↔ (2 : Int) ^ i ∣ y

end Verif.Spec

namespace Verif.Props

open Verif Verif.Spec Verif.VoxelHash

/-- A product modulo a power of two. -/
theorem hash_term_mod (x : Int) (p : Nat) {b : Nat} (hb : b ≤ 64) : (((BitVec.ofInt 64 x * BitVec.ofNat 64 p).toNat % 2 ^ b : Nat) : Int) = (x * p) % 2 ^ b := by
  have hd : (2 : Int) ^ b ∣ 18446744073709551616 := by
    have : (2 : Int) ^ b ∣ 2 ^ 64 := pow_dvd_pow 2 hb
    norm_num at this
    exact this
  rw [BitVec.toNat_mul, BitVec.toNat_ofInt, BitVec.toNat_ofNat]
  push_cast
  rw [Int.emod_emod_of_dvd _ hd, Int.toNat_of_nonneg (Int.emod_nonneg _ (by norm_num)), Int.mul_emod, Int.emod_emod_of_dvd _ hd, Int.emod_emod_of_dvd _ hd, ← Int.mul_emod]

/-- Odd factors keep residues apart. -/
theorem odd_mul_inj {p : Nat} (hp : p % 2 = 1) {b : Nat} {x x' : Int} (h : (x * p) % 2 ^ b = (x' * p) % 2 ^ b) : (2 : Int) ^ b ∣ x - x' := by
  have h1 : (2 : Int) ^ b ∣ (x - x') * p := by
    rw [sub_mul]
    exact Int.dvd_of_emod_eq_zero (Int.emod_eq_emod_iff_emod_sub_eq_zero.1 h)
  refine IsCoprime.dvd_of_dvd_mul_right (?_ : IsCoprime _ (p : Int)) h1
  apply IsCoprime.pow_left
  rw [Int.isCoprime_iff_gcd_eq_one]
  show Nat.gcd 2 p = 1
  exact (Nat.coprime_two_left.2 (Nat.odd_iff.2 hp))

theorem hash_mod (x y z : Int) (b : Nat) : (hash x y z).toNat % 2 ^ b = ((BitVec.ofInt 64 x * 73856093#64).toNat % 2 ^ b) ^^^ ((BitVec.ofInt 64 y * 19349669#64).toNat % 2 ^ b) ^^^ ((BitVec.ofInt 64 z * 83492791#64).toNat % 2 ^ b) := by
  unfold VoxelHash.hash
  rw [BitVec.toNat_xor, BitVec.toNat_xor, Nat.xor_mod_two_pow, Nat.xor_mod_two_pow]

theorem xor_left_inj {a b c : Nat} (h : a ^^^ b = a ^^^ c) : b = c := by
  have := congrArg (a ^^^ ·) h
  simpa [← Nat.xor_assoc] using this

/-- Two voxels that differ in one coordinate have hashes that differ in their last `b` bits, unless the coordinates differ by a multiple of `2 ^ b`. -/
theorem C106_lines {b : Nat} (hb : b ≤ 64) (x y z x' y' z' : Int) :
    ((hash x y z).toNat % 2 ^ b = (hash x' y z).toNat % 2 ^ b → (2 : Int) ^ b ∣ x - x') ∧
    ((hash x y z).toNat % 2 ^ b = (hash x y' z).toNat % 2 ^ b → (2 : Int) ^ b ∣ y - y') ∧
    ((hash x y z).toNat % 2 ^ b = (hash x y z').toNat % 2 ^ b → (2 : Int) ^ b ∣ z - z') := by
  have key : ∀ (p : Nat), p % 2 = 1 → ∀ s t : Int, (BitVec.ofInt 64 s * BitVec.ofNat 64 p).toNat % 2 ^ b = (BitVec.ofInt 64 t * BitVec.ofNat 64 p).toNat % 2 ^ b → (2 : Int) ^ b ∣ s - t := by
    intro p hp s t h
    have h' := congrArg (Nat.cast : Nat → Int) h
    rw [hash_term_mod s p hb, hash_term_mod t p hb] at h'
    exact odd_mul_inj hp h'
  simp only [hash_mod]
  refine ⟨fun h => ?_, fun h => ?_, fun h => ?_⟩
  · rw [Nat.xor_assoc, Nat.xor_assoc, Nat.xor_comm, Nat.xor_comm (_ % 2 ^ b) (_ ^^^ _)] at h
    exact key _ (by norm_num) _ _ (xor_left_inj h)
  · rw [Nat.xor_comm _ ((BitVec.ofInt 64 z * 83492791#64).toNat % 2 ^ b), Nat.xor_comm _ ((BitVec.ofInt 64 z * 83492791#64).toNat % 2 ^ b)] at h
    exact key _ (by norm_num) _ _ (xor_left_inj (xor_left_inj h))
  · exact key _ (by norm_num) _ _ (xor_left_inj h)

/-- On an axis-parallel line, all voxels have different hashes. -/
theorem C106_lines_distinct {x y z x' y' z' : Int} (hx : IsInt32 x) (hx' : IsInt32 x') (hy : IsInt32 y) (hy' : IsInt32 y') (hz : IsInt32 z) (hz' : IsInt32 z') :
    (hash x y z = hash x' y z → x = x') ∧ (hash x y z = hash x y' z → y = y') ∧ (hash x y z = hash x y z' → z = z') := by
  have key : ∀ s t : Int, IsInt32 s → IsInt32 t → (2 : Int) ^ 64 ∣ s - t → s = t := by
    rintro s t ⟨h1, h2⟩ ⟨h3, h4⟩ hd
    by_contra hne
    have := Int.le_of_dvd (b := |s - t|) (abs_pos.2 (sub_ne_zero.2 hne)) ((dvd_abs _ _).2 hd)
    have h5 : |s - t| < 2 ^ 32 := by
      rw [abs_lt]
      constructor <;> norm_num at * <;> linarith
    norm_num at this h5
    linarith
  obtain ⟨a, b, c⟩ := C106_lines (b := 64) le_rfl x y z x' y' z'
  exact ⟨fun h => key _ _ hx hx' (a (by rw [h])), fun h => key _ _ hy hy' (b (by rw [h])), fun h => key _ _ hz hz' (c (by rw [h]))⟩

/-- Bits of a negative number. -/
theorem neg_xor_neg {w : Nat} {a b : BitVec w} (h : ∀ i, (∃ j < i, a.getLsbD j = true) ↔ ∃ j < i, b.getLsbD j = true) : -a ^^^ -b = a ^^^ b := by
  apply BitVec.eq_of_getLsbD_eq
  intro i hi
  have e : decide (∃ j < i, a.getLsbD j = true) = decide (∃ j < i, b.getLsbD j = true) := decide_eq_decide.2 (h i)
  rw [BitVec.getLsbD_xor, BitVec.getLsbD_xor, BitVec.getLsbD_neg, BitVec.getLsbD_neg, e]
  cases a.getLsbD i <;> cases b.getLsbD i <;> cases decide (∃ j < i, b.getLsbD j = true) <;> cases decide (i < w) <;> simp_all

theorem low_bits {w : Nat} (a : BitVec w) (i : Nat) : (∃ j < i, a.getLsbD j = true) ↔ a.toNat % 2 ^ i ≠ 0 := by
  constructor
  · rintro ⟨j, hj, h⟩ h0
    have := Nat.testBit_mod_two_pow a.toNat i j
    rw [h0] at this
    simp [hj] at this
    simp [BitVec.getLsbD, this] at h
  · intro h0
    by_contra hc
    push Not at hc
    apply h0
    apply Nat.eq_of_testBit_eq
    intro j
    rw [Nat.testBit_mod_two_pow]
    by_cases hj : j < i
    · have := hc j hj
      simp [BitVec.getLsbD] at this
      simp [this]
    · simp [hj]

/-- The hash is the same for `(x, y, z)`, `(-x, -y, z)`, `(-x, y, -z)` and `(x, -y, -z)` as far as the two coordinates in question are divisible by the same powers of two; for instance if both are odd. -/
theorem C106_collisions (x y z : Int) : (SameEvenness x y → hash (-x) (-y) z = hash x y z) ∧ (SameEvenness x z → hash (-x) y (-z) = hash x y z) ∧ (SameEvenness y z → hash x (-y) (-z) = hash x y z) := by
  have hneg : ∀ (s : Int) (p : BitVec 64), BitVec.ofInt 64 (-s) * p = -(BitVec.ofInt 64 s * p) := by
    intro s p
    rw [BitVec.ofInt_neg, BitVec.neg_mul]
  have hlow : ∀ (s : Int) (p : Nat), p % 2 = 1 → ∀ i, i ≤ 64 → ((BitVec.ofInt 64 s * BitVec.ofNat 64 p).toNat % 2 ^ i ≠ 0 ↔ ¬ (2 : Int) ^ i ∣ s) := by
    intro s p hp i hi
    rw [not_iff_not, ← Int.natCast_eq_zero, hash_term_mod s p hi]
    constructor
    · intro h
      have := odd_mul_inj hp (x := s) (x' := 0) (b := i) (by simpa using h)
      simpa using this
    · intro h
      exact Int.emod_eq_zero_of_dvd (h.mul_right _)
  have key : ∀ (s t : Int) (p q : Nat), p % 2 = 1 → q % 2 = 1 → SameEvenness s t →
      -(BitVec.ofInt 64 s * BitVec.ofNat 64 p) ^^^ -(BitVec.ofInt 64 t * BitVec.ofNat 64 q) = (BitVec.ofInt 64 s * BitVec.ofNat 64 p) ^^^ (BitVec.ofInt 64 t * BitVec.ofNat 64 q) := by
    intro s t p q hp hq hst
    apply neg_xor_neg
    intro i
    have le64 : ∀ a : BitVec 64, (∃ j < i, a.getLsbD j = true) ↔ ∃ j < min i 64, a.getLsbD j = true := by
      intro a
      constructor
      · rintro ⟨j, hj, h⟩
        exact ⟨j, lt_min hj (BitVec.lt_of_getLsbD h), h⟩
      · rintro ⟨j, hj, h⟩
        exact ⟨j, (lt_min_iff.1 hj).1, h⟩
    rw [le64, le64, low_bits, low_bits, hlow s p hp _ (min_le_right _ _), hlow t q hq _ (min_le_right _ _), hst]
  unfold VoxelHash.hash
  refine ⟨fun h => ?_, fun h => ?_, fun h => ?_⟩
  · rw [hneg, hneg, key x y _ _ (by norm_num) (by norm_num) h]
  · rw [hneg, hneg, BitVec.xor_assoc, BitVec.xor_comm (BitVec.ofInt 64 y * _), ← BitVec.xor_assoc, key x z _ _ (by norm_num) (by norm_num) h, BitVec.xor_assoc, BitVec.xor_comm (BitVec.ofInt 64 z * _), ← BitVec.xor_assoc]
  · rw [hneg, hneg, BitVec.xor_assoc, key y z _ _ (by norm_num) (by norm_num) h, ← BitVec.xor_assoc]

/-- The comparison is equality, and equal voxels have equal hashes: what the maps that use the hash require. -/
theorem C106_consistent (a b : Int × Int × Int) : (equal a b = true ↔ a = b) ∧ (equal a b = true → hash a.1 a.2.1 a.2.2 = hash b.1 b.2.1 b.2.2) := by
  have h : equal a b = true ↔ a = b := by
    obtain ⟨a1, a2, a3⟩ := a
    obtain ⟨b1, b2, b3⟩ := b
    simp [equal, and_assoc]
  exact ⟨h, fun e => by rw [h.1 e]⟩

/-- The constants, that is the hashes of the three voxels next to the origin, are prime, and the one that was replaced is not (vector3i_hash.hpp:17). -/
theorem C106_primes : (hash 1 0 0).toNat.Prime ∧ (hash 0 1 0).toNat.Prime ∧ (hash 0 0 1).toNat.Prime ∧ ¬ Nat.Prime 19349663 := by
  have h1 : (hash 1 0 0).toNat = 73856093 := by decide
  have h2 : (hash 0 1 0).toNat = 19349669 := by decide
  have h3 : (hash 0 0 1).toNat = 83492791 := by decide
  rw [h1, h2, h3]
  refine ⟨?_, ?_, ?_, ?_⟩ <;> norm_num

/-! ### examples -/

example : SameEvenness 1 (-1) ∧ SameEvenness 3 5 ∧ SameEvenness 12 4 := by
  have odd : ∀ s t : Int, s % 2 = 1 → t % 2 = 1 → SameEvenness s t := by
    intro s t hs ht i
    cases i with
    | zero => simp
    | succ i =>
      constructor <;> intro h <;> exfalso
      · have := (Dvd.intro_left _ (pow_succ (2 : Int) i).symm).trans h
        omega
      · have := (Dvd.intro_left _ (pow_succ (2 : Int) i).symm).trans h
        omega
  refine ⟨odd _ _ (by norm_num) (by norm_num), odd _ _ (by norm_num) (by norm_num), ?_⟩
  intro i
  match i with
  | 0 => norm_num
  | 1 => norm_num
  | 2 => norm_num
  | i + 3 =>
    constructor <;> intro h <;> exfalso
    · have : (8 : Int) ∣ 12 := (by rw [pow_add]; exact Dvd.intro_left _ rfl : (8 : Int) ∣ 2 ^ (i + 3)).trans h
      omega
    · have : (8 : Int) ∣ 4 := (by rw [pow_add]; exact Dvd.intro_left _ rfl : (8 : Int) ∣ 2 ^ (i + 3)).trans h
      omega

example : hash 1 1 0 = hash (-1) (-1) 0 := by decide
example : IsInt32 (-5) ∧ IsInt32 7 := by constructor <;> constructor <;> norm_num

end Verif.Props
