import Verif.Spec.Downsampling
import Verif.Proofs.Groups
import Verif.Proofs.Voxel
import Verif.Proofs.KdBuild
import Mathlib.Tactic.FieldSimp
import Mathlib.Algebra.BigOperators.Group.List.Basic

/-!
Lemmas about the voxel-grid sampling model.
-/

set_option linter.unusedSectionVars false

namespace Verif.Proofs

open Verif Verif.Spec Verif.Downsample

/-! ### keys -/

/-- Position of a cell in the order of the keys. -/
def encode (c : Int × Int × Int) : Nat :=
  (c.1 + 2 ^ 20).toNat + (c.2.1 + 2 ^ 20).toNat * 2 ^ 21 + (c.2.2 + 2 ^ 20).toNat * 2 ^ 42

def decode (k : Nat) : Int × Int × Int :=
  ((k % 2 ^ 21 : Nat) - 2 ^ 20, (k / 2 ^ 21 % 2 ^ 21 : Nat) - 2 ^ 20, (k / 2 ^ 42 : Nat) - 2 ^ 20)

def CellIn (c : Int × Int × Int) : Prop := In21 c.1 ∧ In21 c.2.1 ∧ In21 c.2.2

theorem decode_encode {c : Int × Int × Int} (h : CellIn c) : decode (encode c) = c := by
  obtain ⟨a, b, d⟩ := c
  obtain ⟨h1, h2, h3⟩ := h
  simp only [In21] at h1 h2 h3
  simp only [decode, encode, Prod.mk.injEq]
  refine ⟨?_, ?_, ?_⟩ <;> omega

theorem encode_lt {c : Int × Int × Int} (h : CellIn c) : encode c < 2 ^ 63 := by
  obtain ⟨a, b, d⟩ := c
  obtain ⟨h1, h2, h3⟩ := h
  simp only [In21] at h1 h2 h3
  simp only [encode]
  omega

theorem encode_ne_invalid {c : Int × Int × Int} (h : CellIn c) : encode c ≠ INVALID_COORD := by
  have := encode_lt h
  unfold INVALID_COORD
  omega

theorem encode_inj {c d : Int × Int × Int} (hc : CellIn c) (hd : CellIn d) (h : encode c = encode d) : c = d := by
  rw [← decode_encode hc, ← decode_encode hd, h]

theorem toU64_of_nonneg {i : Int} (h0 : 0 ≤ i) (h : i < 2 ^ 64) : toU64 i = i.toNat := by
  unfold toU64; rw [Int.emod_eq_of_lt h0 h]

theorem packBits_eq {x y z : Int} (hx : 0 ≤ x ∧ x < 2 ^ 21) (hy : 0 ≤ y ∧ y < 2 ^ 21) (hz : 0 ≤ z ∧ z < 2 ^ 21) :
    packBits x y z = x.toNat + y.toNat * 2 ^ 21 + z.toNat * 2 ^ 42 := by
  unfold packBits COORD_MASK
  rw [toU64_of_nonneg hx.1 (by omega), toU64_of_nonneg hy.1 (by omega), toU64_of_nonneg hz.1 (by omega)]
  rw [Nat.and_two_pow_sub_one_eq_mod, Nat.and_two_pow_sub_one_eq_mod, Nat.and_two_pow_sub_one_eq_mod]
  rw [Nat.mod_eq_of_lt (by omega : x.toNat < 2 ^ 21), Nat.mod_eq_of_lt (by omega : y.toNat < 2 ^ 21),
    Nat.mod_eq_of_lt (by omega : z.toNat < 2 ^ 21)]
  rw [Nat.shiftLeft_eq, Nat.shiftLeft_eq, Nat.shiftLeft_eq]
  rw [Nat.mod_eq_of_lt (by omega), Nat.mod_eq_of_lt (by omega), Nat.mod_eq_of_lt (by omega)]
  have h1 : x.toNat * 2 ^ (21 * 0) ||| y.toNat * 2 ^ (21 * 1) = y.toNat * 2 ^ 21 + x.toNat := by
    rw [Nat.or_comm, show y.toNat * 2 ^ (21 * 1) = y.toNat <<< 21 by rw [Nat.shiftLeft_eq],
      show x.toNat * 2 ^ (21 * 0) = x.toNat by omega, ← Nat.shiftLeft_add_eq_or_of_lt (by omega), Nat.shiftLeft_eq]
  rw [h1, Nat.or_comm, show z.toNat * 2 ^ (21 * 2) = z.toNat <<< 42 by rw [Nat.shiftLeft_eq],
    ← Nat.shiftLeft_add_eq_or_of_lt (by omega), Nat.shiftLeft_eq]
  omega

variable {K : Type} [Field K] [LinearOrder K] [IsStrictOrderedRing K] [FloorRing K]

/-- The key of a point. -/
def keyOf (leaf : K) (p : Pt K) : Nat := if GridInRange leaf p then encode (gridCell leaf p) else INVALID_COORD

theorem cellIn_of {leaf : K} {p : Pt K} (h : GridInRange leaf p) : CellIn (gridCell leaf p) :=
  ⟨h.1, h.2.1, h.2.2.1⟩

theorem keyOf_ne_invalid {leaf : K} {p : Pt K} : keyOf leaf p ≠ INVALID_COORD ↔ GridInRange leaf p := by
  unfold keyOf
  split
  · rename_i h; exact ⟨fun _ => h, fun _ => encode_ne_invalid (cellIn_of h)⟩
  · rename_i h; simp [h]

theorem keyOf_le (leaf : K) (p : Pt K) : keyOf leaf p ≤ INVALID_COORD := by
  unfold keyOf
  split
  · rename_i h
    have := encode_lt (cellIn_of h)
    unfold INVALID_COORD; omega
  · exact le_refl _

theorem voxelKey_eq {leaf : K} {p : Pt K} (h : KeyDefined leaf p) : voxelKey (1 / leaf) p = .ok (keyOf leaf p) := by
  obtain ⟨hx, hy, hz, hw⟩ := h
  have ff : ∀ x : K, KeyFits ⌊x / leaf⌋ → fastFloor (x * (1 / leaf)) = .ok ⌊x / leaf⌋ ∧
      int32 (⌊x / leaf⌋ + COORD_OFFSET) = .ok (⌊x / leaf⌋ + 2 ^ 20) := by
    intro x hk
    rw [fastFloor_eq, mul_one_div]
    unfold KeyFits INT_MIN INT_MAX at hk
    refine ⟨?_, ?_⟩
    · rw [if_pos]; unfold INT_MIN INT_MAX; omega
    · unfold int32 INT_MIN INT_MAX COORD_OFFSET; rw [if_pos (by omega)]
  obtain ⟨fx, ox⟩ := ff _ hx
  obtain ⟨fy, oy⟩ := ff _ hy
  obtain ⟨fz, oz⟩ := ff _ hz
  obtain ⟨fw, ow⟩ := ff _ hw
  unfold voxelKey fastFloor4 Pt.smul
  simp only [fx, fy, fz, fw, bind, Except.bind, pure, Except.pure, ox, oy, oz, ow]
  unfold keyOf
  by_cases hr : GridInRange leaf p
  · rw [if_pos hr, if_neg]
    · obtain ⟨r1, r2, r3, r4⟩ := hr
      simp only [In21] at r1 r2 r3 r4
      rw [packBits_eq (by omega) (by omega) (by omega)]
      rfl
    · obtain ⟨r1, r2, r3, r4⟩ := hr
      simp only [In21] at r1 r2 r3 r4
      unfold COORD_MASK
      omega
  · rw [if_neg hr, if_pos]
    unfold GridInRange In21 at hr
    unfold COORD_MASK
    omega

/-- Outside `int` the key computation is undefined. -/
theorem voxelKey_undefined {leaf : K} {p : Pt K} (h : ¬ KeyDefined leaf p) : voxelKey (1 / leaf) p = .error .intOverflow := by
  unfold voxelKey fastFloor4 Pt.smul
  simp only [fastFloor_eq, mul_one_div]
  unfold KeyDefined KeyFits at h
  generalize ⌊p.x / leaf⌋ = a at *
  generalize ⌊p.y / leaf⌋ = b at *
  generalize ⌊p.z / leaf⌋ = c at *
  generalize ⌊p.w / leaf⌋ = d at *
  have hi : ∀ x : Int, INT_MIN ≤ x → ¬ x ≤ INT_MAX - 2 ^ 20 → int32 (x + COORD_OFFSET) = .error .intOverflow := by
    intro x h1 h2
    unfold int32 COORD_OFFSET
    rw [if_neg (by omega)]
  by_cases ha : INT_MIN ≤ a ∧ a ≤ INT_MAX
  swap
  · simp only [if_neg ha, bind, Except.bind]
  by_cases hb : INT_MIN ≤ b ∧ b ≤ INT_MAX
  swap
  · simp only [if_pos ha, if_neg hb, bind, Except.bind]
  by_cases hc : INT_MIN ≤ c ∧ c ≤ INT_MAX
  swap
  · simp only [if_pos ha, if_pos hb, if_neg hc, bind, Except.bind]
  by_cases hd : INT_MIN ≤ d ∧ d ≤ INT_MAX
  swap
  · simp only [if_pos ha, if_pos hb, if_pos hc, if_neg hd, bind, Except.bind]
  have ho : ∀ x : Int, INT_MIN ≤ x ∧ x ≤ INT_MAX → x ≤ INT_MAX - 2 ^ 20 → int32 (x + COORD_OFFSET) = .ok (x + 2 ^ 20) := by
    intro x h1 h2
    unfold int32 COORD_OFFSET
    unfold INT_MIN INT_MAX at *
    rw [if_pos (by omega)]
  simp only [if_pos ha, if_pos hb, if_pos hc, if_pos hd, bind, Except.bind, pure, Except.pure]
  by_cases ha' : a ≤ INT_MAX - 2 ^ 20
  swap
  · simp only [hi a ha.1 ha']
  by_cases hb' : b ≤ INT_MAX - 2 ^ 20
  swap
  · simp only [ho a ha ha', hi b hb.1 hb']
  by_cases hc' : c ≤ INT_MAX - 2 ^ 20
  swap
  · simp only [ho a ha ha', ho b hb hb', hi c hc.1 hc']
  by_cases hd' : d ≤ INT_MAX - 2 ^ 20
  swap
  · simp only [ho a ha ha', ho b hb hb', ho c hc hc', hi d hd.1 hd']
  exact absurd ⟨⟨ha.1, ha'⟩, ⟨hb.1, hb'⟩, ⟨hc.1, hc'⟩, ⟨hd.1, hd'⟩⟩ h

theorem coordPt_eq {leaf : K} {points : List (Pt K)} (h : ∀ p ∈ points, KeyDefined leaf p) :
    coordPt (1 / leaf) points = .ok (points.zipIdx.map (fun pi => (keyOf leaf pi.1, pi.2))) := by
  unfold coordPt
  apply mapM_ok
  intro pi hpi
  have hm : pi.1 ∈ points := by
    obtain ⟨p, i⟩ := pi
    have := List.mem_zipIdx hpi
    obtain ⟨_, _, e⟩ := this
    rw [e]; exact List.getElem_mem _
  simp only [voxelKey_eq (h _ hm), bind, Except.bind, pure, Except.pure]

/-! ### sums of runs -/

/-- Component-wise sum. -/
def sumP (l : List (Pt K)) : Pt K := ⟨(l.map Pt.x).sum, (l.map Pt.y).sum, (l.map Pt.z).sum, (l.map Pt.w).sum⟩

theorem sumP_snoc (l : List (Pt K)) (p : Pt K) : Pt.add (exactOps K) (sumP l) p = sumP (l ++ [p]) := by
  simp [sumP, Pt.add, exactOps]

theorem sumP_single (p : Pt K) : sumP [p] = p := by simp [sumP]

theorem zero_addP (p : Pt K) : Pt.add (exactOps K) (Pt.zero (exactOps K)) p = sumP [p] := by
  simp [sumP, Pt.add, Pt.zero, exactOps]

theorem sumP_perm {l l' : List (Pt K)} (h : l.Perm l') : sumP l = sumP l' := by
  simp only [sumP, (h.map _).sum_eq]

theorem centroid_perm {l l' : List (Pt K)} (h : l.Perm l') : centroid l = centroid l' := by
  simp only [centroid, (h.map _).sum_eq, h.length_eq]

theorem sum_ones : ∀ l : List (Pt K), (∀ p ∈ l, p.w = 1) → (l.map Pt.w).sum = l.length
  | [], _ => by simp
  | p :: l, h => by
    rw [List.map_cons, List.sum_cons, sum_ones l (fun q hq => h q (by simp [hq])), h p (by simp)]
    push_cast [List.length_cons]; ring

theorem normalise_sumP {l : List (Pt K)} (h : ∀ p ∈ l, p.w = 1) : normalise (sumP l) = centroid l := by
  unfold normalise Pt.sdiv sumP centroid exactOps
  simp only [sum_ones l h]

theorem groups_run {α : Type} (k : Nat) (b : List (Nat × α)) (hb : ∀ x, b.head? = some x → x.1 ≠ k) :
    ∀ acc : List α, acc ≠ [] → groups (acc.map (fun v => (k, v)) ++ b) = (k, acc) :: groups b
  | [], h => absurd rfl h
  | [v], _ => by
    cases b with
    | nil => simp [groups]
    | cons y b =>
      obtain ⟨g, gs, hg⟩ := groups_head y b
      show groups ((k, v) :: (y :: b)) = _
      conv => lhs; unfold groups
      rw [hg]
      have := hb y (by simp)
      simp only
      rw [if_neg (fun e => this e.symm)]
  | v :: v' :: acc, _ => by
    have ih := groups_run k b hb (v' :: acc) (by simp)
    show groups ((k, v) :: ((v' :: acc).map (fun v => (k, v)) ++ b)) = _
    conv => lhs; unfold groups
    rw [ih]
    simp

/-- Reading the point of an array element. -/
def Reads (points : List (Pt K)) (ki : Nat × Nat) (kp : Nat × Pt K) : Prop := ki.1 = kp.1 ∧ rd points ki.2 = .ok kp.2

theorem sumLoop_invalid (points : List (Pt K)) : ∀ (I : List (Nat × Nat)) (prev : Nat) (s : Pt K) (out : List (Pt K)),
    (∀ x ∈ I, x.1 = INVALID_COORD) → sumLoop points prev s I out = .ok (out, s)
  | [], _, _, _, _ => rfl
  | x :: I, prev, s, out, h => by
    unfold sumLoop
    rw [if_pos (h x (by simp))]
    exact sumLoop_invalid points I _ s out (fun y hy => h y (by simp [hy]))

theorem sumLoop_groups (points : List (Pt K)) (I : List (Nat × Nat)) (hI : ∀ x ∈ I, x.1 = INVALID_COORD) :
    ∀ (V : List (Nat × Nat)) (VP : List (Nat × Pt K)), List.Forall₂ (Reads points) V VP →
    (∀ x ∈ V, x.1 ≠ INVALID_COORD) → ∀ (prev : Nat) (acc : List (Pt K)), acc ≠ [] → ∀ out,
    ∃ out' s', sumLoop points prev (sumP acc) (V ++ I) out = .ok (out', s') ∧
      out' ++ [normalise s'] = out ++ (groups (acc.map (fun v => (prev, v)) ++ VP)).map (fun g => normalise (sumP g.2))
  | [], _, .nil, _, prev, acc, hacc, out => by
    refine ⟨out, sumP acc, sumLoop_invalid points I _ _ _ hI, ?_⟩
    rw [groups_run prev [] (by simp) acc hacc]
    simp [groups]
  | ki :: V, kp :: VP, .cons hr hrs, hv, prev, acc, hacc, out => by
    obtain ⟨hk, hp⟩ := hr
    have hne := hv ki (by simp)
    have hv' : ∀ x ∈ V, x.1 ≠ INVALID_COORD := fun x hx => hv x (by simp [hx])
    rw [List.cons_append]
    unfold sumLoop
    rw [if_neg hne]
    by_cases he : prev = ki.1
    · simp only [ne_eq, he, not_true_eq_false, if_false, hp]
      rw [sumP_snoc]
      obtain ⟨out', s', h1, h2⟩ := sumLoop_groups points I hI V VP hrs hv' ki.1 (acc ++ [kp.2]) (by simp) out
      refine ⟨out', s', h1, ?_⟩
      rw [h2]
      simp [hk]
    · simp only [ne_eq, he, not_false_eq_true, if_true, hp]
      rw [zero_addP]
      obtain ⟨out', s', h1, h2⟩ := sumLoop_groups points I hI V VP hrs hv' ki.1 [kp.2] (by simp) (out ++ [normalise (sumP acc)])
      refine ⟨out', s', h1, ?_⟩
      rw [h2, groups_run prev (kp :: VP) (by intro x hx; simp at hx; subst hx; rw [← hk]; exact fun e => he e.symm) acc hacc]
      simp [hk]

/-- A block whose first element is valid emits one point per run of its valid part. -/
theorem blockPoints_groups {points : List (Pt K)} {V I : List (Nat × Nat)} {VP : List (Nat × Pt K)}
    (hI : ∀ x ∈ I, x.1 = INVALID_COORD) (hV : ∀ x ∈ V, x.1 ≠ INVALID_COORD) (hne : V ≠ [])
    (hr : List.Forall₂ (Reads points) V VP) :
    blockPoints points (V ++ I) = .ok ((groups VP).map (fun g => normalise (sumP g.2))) := by
  cases hr with
  | nil => exact absurd rfl hne
  | @cons ki kp V VP h hs =>
    rw [List.cons_append]
    unfold blockPoints
    obtain ⟨out', s', h1, h2⟩ := sumLoop_groups points I hI V VP hs (fun x hx => hV x (by simp [hx])) ki.1 [kp.2] (by simp) []
    rw [sumP_single] at h1
    simp only [h.2, h1, bind, Except.bind, pure, Except.pure]
    rw [h2]
    simp [h.1]

/-- A block that starts with an invalid element emits its first point. -/
theorem blockPoints_invalid {points : List (Pt K)} {ki : Nat × Nat} {I : List (Nat × Nat)}
    (hI : ∀ x ∈ ki :: I, x.1 = INVALID_COORD) {p : Pt K} (hp : rd points ki.2 = .ok p) :
    blockPoints points (ki :: I) = .ok [normalise p] := by
  unfold blockPoints
  simp only [hp, sumLoop_invalid points I _ _ _ (fun x hx => hI x (by simp [hx])), bind, Except.bind, pure, Except.pure]
  rfl

/-! ### splitting a sorted array into valid and invalid part -/

theorem split_valid : ∀ (S : List (Nat × Nat)), S.Pairwise (fun a b => a.1 ≤ b.1) → (∀ x ∈ S, x.1 ≤ INVALID_COORD) →
    S = S.filter (fun x => decide (x.1 ≠ INVALID_COORD)) ++ S.filter (fun x => decide (x.1 = INVALID_COORD))
  | [], _, _ => rfl
  | x :: S, hp, hle => by
    rw [List.pairwise_cons] at hp
    have ih := split_valid S hp.2 (fun y hy => hle y (by simp [hy]))
    by_cases hx : x.1 = INVALID_COORD
    · have hall : ∀ y ∈ x :: S, y.1 = INVALID_COORD := by
        intro y hy
        rcases List.mem_cons.1 hy with e | e
        · subst e; exact hx
        · have := hp.1 y e
          exact le_antisymm (hle y hy) (hx ▸ this)
      rw [List.filter_eq_nil_iff.2 (by intro y hy; simp [hall y hy]), List.filter_eq_self.2 (by intro y hy; simp [hall y hy])]
      rfl
    · rw [List.filter_cons_of_pos (by simpa using hx), List.filter_cons_of_neg (by simpa using hx), List.cons_append, ← ih]

end Verif.Proofs
