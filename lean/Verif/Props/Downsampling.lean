import Verif.Proofs.DownsampleMain
import Verif.Props.VoxelContents
import Verif.Proofs.StableSort
import Mathlib.Data.Rat.Floor

/-!
C21 - C25: voxel-grid sampling. Arithmetic is exact (an ordered field); the sort is any function satisfying `SortSpec`.
-/

set_option linter.unusedSectionVars false

namespace Verif.Props

open Verif Verif.Spec Verif.Downsample Verif.Proofs

variable {K : Type} [Field K] [LinearOrder K] [IsStrictOrderedRing K] [FloorRing K]

/-! ### C21: keys -/

/-- C21: two in-range points get the same key iff they are in the same cell, and it is below the invalid key. -/
theorem C21_key_iff_cell {leaf : K} (_hleaf : leaf ≠ 0) {p q : Pt K} (hp : KeyDefined leaf p) (hq : KeyDefined leaf q)
    (rp : GridInRange leaf p) (rq : GridInRange leaf q) :
    ∃ kp kq, voxelKey (1 / leaf) p = .ok kp ∧ voxelKey (1 / leaf) q = .ok kq ∧
      (kp = kq ↔ gridCell leaf p = gridCell leaf q) ∧ kp < INVALID_COORD := by
  refine ⟨_, _, voxelKey_eq hp, voxelKey_eq hq, ?_, ?_⟩
  · unfold keyOf
    rw [if_pos rp, if_pos rq]
    exact ⟨encode_inj (cellIn_of rp) (cellIn_of rq), fun h => by rw [h]⟩
  · exact lt_of_le_of_ne (keyOf_le _ _) (keyOf_ne_invalid.2 rp)

/-- C21: points outside the range get the invalid key, the largest 64-bit number (so it sorts last). -/
theorem C21_out_of_range_key {leaf : K} (_hleaf : leaf ≠ 0) {p : Pt K} (hp : KeyDefined leaf p) (rp : ¬ GridInRange leaf p) :
    voxelKey (1 / leaf) p = .ok INVALID_COORD ∧ ∀ q k, voxelKey (1 / leaf) q = .ok k → k ≤ INVALID_COORD ∧ k < 2 ^ 64 := by
  refine ⟨by rw [voxelKey_eq hp]; unfold keyOf; rw [if_neg rp], ?_⟩
  intro q k hk
  have hle : k ≤ INVALID_COORD := by
    by_cases hq : KeyDefined leaf q
    · rw [voxelKey_eq hq] at hk; cases hk; exact keyOf_le _ _
    · rw [voxelKey_undefined hq] at hk; cases hk
  exact ⟨hle, by unfold INVALID_COORD at hle; omega⟩

/-- C21: a key is computed exactly for points whose cell (and w cell) plus offset fits `int`; otherwise the conversion is
undefined. -/
theorem C21_key_defined_iff {leaf : K} (_hleaf : leaf ≠ 0) (p : Pt K) :
    (∃ k, voxelKey (1 / leaf) p = .ok k) ↔ KeyDefined leaf p := by
  constructor
  · rintro ⟨k, hk⟩
    by_contra h
    rw [voxelKey_undefined h] at hk
    cases hk
  · intro h; exact ⟨_, voxelKey_eq h⟩

/-- C21, integer level: the packing is injective on all of the 21-bit range and uses only the low 63 bits. -/
theorem C21_pack_injective {x y z x' y' z' : Int} (h : ∀ i ∈ [x, y, z, x', y', z'], 0 ≤ i ∧ i < 2 ^ 21) :
    (packBits x y z = packBits x' y' z' ↔ x = x' ∧ y = y' ∧ z = z') ∧ packBits x y z < 2 ^ 63 := by
  have hx := h x (by simp)
  have hy := h y (by simp)
  have hz := h z (by simp)
  have hx' := h x' (by simp)
  have hy' := h y' (by simp)
  have hz' := h z' (by simp)
  rw [packBits_eq hx hy hz, packBits_eq hx' hy' hz']
  omega

/-! ### C22: one centroid per cell -/

/-- C22 (partial: at least one point must be in range, see `C22_all_out_of_range_emits_point`): the output is exactly one
centroid per occupied in-range cell. Arithmetic is exact. -/
theorem C22_one_centroid_per_cell_partial {sort : List (Nat × Nat) → List (Nat × Nat)} (hsort : SortSpec sort) {leaf : K}
    (hleaf : leaf ≠ 0) {points : List (Pt K)} (hk : ∀ p ∈ points, KeyDefined leaf p) (hw : ∀ p ∈ points, p.w = 1)
    (hr : ∃ p ∈ points, GridInRange leaf p) :
    ∃ cells : List (Int × Int × Int), cells.Nodup ∧
      (∀ c, c ∈ cells ↔ ∃ p ∈ points, GridInRange leaf p ∧ gridCell leaf p = c) ∧
      voxelgridSampling sort points leaf = .ok (cells.map (fun c => centroid (cellPoints leaf points c))) := by
  obtain ⟨hp, hs⟩ := hsort (cpOf leaf points)
  have hne : points ≠ [] := by rintro rfl; obtain ⟨p, h, _⟩ := hr; simp at h
  refine ⟨cellsOf points (sort (cpOf leaf points)), cells_nodup hp hs, ?_, ?_⟩
  · intro c
    rw [cells_mem hp]
    unfold occupied
    simp only [List.mem_toFinset, List.mem_map, List.mem_filter, decide_eq_true_eq, and_assoc]
  · rw [voxelgridSampling_eq hsort hleaf hk hw hne, stray_nil hp hs hr, List.append_nil]

/-- C22: the centroid of the points of an occupied cell lies in that cell. -/
theorem C22_centroid_in_cell {leaf : K} (_hleaf : leaf ≠ 0) {points : List (Pt K)} {c : Int × Int × Int}
    (hc : ∃ p ∈ points, GridInRange leaf p ∧ gridCell leaf p = c) : gridCell leaf (centroid (cellPoints leaf points c)) = c := by
  have hne : cellPoints leaf points c ≠ [] := by
    obtain ⟨p, hp, h1, h2⟩ := hc
    intro e
    have : p ∈ cellPoints leaf points c := List.mem_filter.2 ⟨hp, by simp [h1, h2]⟩
    rw [e] at this; simp at this
  have hall : ∀ p ∈ cellPoints leaf points c, gridCell leaf p = c := by
    intro p hp
    have := (List.mem_filter.1 hp).2
    simp only [decide_eq_true_eq] at this
    exact this.2
  have key : ∀ (f : Pt K → K) (n : Int), (∀ p ∈ cellPoints leaf points c, ⌊f p / leaf⌋ = n) →
      ⌊((cellPoints leaf points c).map f).sum / ((cellPoints leaf points c).length : K) / leaf⌋ = n := by
    intro f n h
    have := floor_avg (1 / leaf) f n (cellPoints leaf points c) hne (by intro p hp; rw [mul_one_div]; exact h p hp)
    rw [mul_one_div] at this
    exact this
  obtain ⟨a, b, d⟩ := c
  unfold gridCell centroid
  simp only
  rw [key Pt.x a (fun p hp => congrArg (fun t => t.1) (hall p hp)),
    key Pt.y b (fun p hp => congrArg (fun t => t.2.1) (hall p hp)),
    key Pt.z d (fun p hp => congrArg (fun t => t.2.2) (hall p hp))]

/-- C22: an empty cloud gives an empty cloud. -/
theorem C22_empty (sort : List (Nat × Nat) → List (Nat × Nat)) (leaf : K) : voxelgridSampling sort [] leaf = .ok [] := rfl

/-- C22 is violated: if all points are outside the supported range, they are not ignored; the output is one of them
(downsampling.hpp:60, 74). -/
theorem C22_all_out_of_range_emits_point {sort : List (Nat × Nat) → List (Nat × Nat)} (hsort : SortSpec sort) {leaf : K}
    (hleaf : leaf ≠ 0) {points : List (Pt K)} (hk : ∀ p ∈ points, KeyDefined leaf p) (hw : ∀ p ∈ points, p.w = 1)
    (hne : points ≠ []) (hr : ∀ p ∈ points, ¬ GridInRange leaf p) :
    ∃ p ∈ points, ¬ GridInRange leaf p ∧ voxelgridSampling sort points leaf = .ok [p] := by
  obtain ⟨hp, hs⟩ := hsort (cpOf leaf points)
  have hcells : cellsOf points (sort (cpOf leaf points)) = [] := by
    rw [List.eq_nil_iff_forall_not_mem]
    intro c hc
    rw [cells_mem hp] at hc
    unfold occupied at hc
    rw [List.filter_eq_nil_iff.2 (fun p hpm => by simpa using hr p hpm)] at hc
    simp at hc
  cases hS : sort (cpOf leaf points) with
  | nil =>
    have := hp.length_eq
    rw [hS, cpOf_length] at this
    exact absurd (List.length_eq_zero_iff.1 this.symm) hne
  | cons ki I =>
    have hki : ki ∈ cpOf leaf points := hp.mem_iff.1 (by rw [hS]; simp)
    have hmem : (readP points ki).2 ∈ points := by
      have := (cpOf_reads leaf points ki hki).2
      unfold rd at this
      split at this
      · rename_i h; cases this; exact List.mem_of_getElem? h
      · cases this
    have hkey : ki.1 = INVALID_COORD := by
      rw [cpOf_key leaf points ki hki]; unfold keyOf; rw [if_neg (hr _ hmem)]
    refine ⟨(readP points ki).2, hmem, hr _ hmem, ?_⟩
    rw [voxelgridSampling_eq hsort hleaf hk hw hne, hcells, hS]
    simp [strayOf, hkey]

/-- C22: the sampler is defined exactly when all keys are (any point outside `int` range makes it undefined). -/
theorem C22_undefined_outside_int {sort : List (Nat × Nat) → List (Nat × Nat)} {leaf : K}
    (hleaf : leaf ≠ 0) {points : List (Pt K)} (hk : ∃ p ∈ points, ¬ KeyDefined leaf p) :
    voxelgridSampling sort points leaf = .error .intOverflow := by
  have hcp : coordPt (1 / leaf) points = .error .intOverflow := by
    unfold coordPt
    obtain ⟨p, hp, hn⟩ := hk
    have gen : ∀ (l : List (Pt K)) (i : Nat), (∃ p ∈ l, ¬ KeyDefined leaf p) →
        (l.zipIdx i).mapM (fun pi : Pt K × Nat => do let k ← voxelKey (1 / leaf) pi.1; return (k, pi.2)) =
          (.error .intOverflow : Res (List (Nat × Nat))) := by
      intro l
      induction l with
      | nil => rintro i ⟨p, h, _⟩; simp at h
      | cons a l ih =>
        rintro i ⟨p, h, hn⟩
        rw [List.zipIdx_cons, List.mapM_cons]
        by_cases ha : KeyDefined leaf a
        · have hpl : p ∈ l := by
            rcases List.mem_cons.1 h with e | e
            · subst e; exact absurd ha hn
            · exact e
          simp only [voxelKey_eq ha, bind, Except.bind, pure, Except.pure]
          have := ih (i + 1) ⟨p, hpl, hn⟩
          simp only [bind, Except.bind, pure, Except.pure] at this
          rw [this]
        · simp only [voxelKey_undefined ha, bind, Except.bind]
    exact gen points 0 ⟨p, hp, hn⟩
  have hlen : points.length ≠ 0 := by
    obtain ⟨p, hp, _⟩ := hk
    intro e
    rw [List.length_eq_zero_iff.1 e] at hp
    simp at hp
  unfold voxelgridSampling
  rw [if_neg hlen, if_neg hleaf, hcp]
  rfl

/-! ### C23: input order -/

/-- C23 (for clouds with an in-range point): the output does not depend on the order of the input or on how the sort
treats equal keys. -/
theorem C23_input_order {sort sort' : List (Nat × Nat) → List (Nat × Nat)} (hsort : SortSpec sort) (hsort' : SortSpec sort')
    {leaf : K} (hleaf : leaf ≠ 0) {points points' : List (Pt K)} (hperm : points.Perm points')
    (hk : ∀ p ∈ points, KeyDefined leaf p) (hw : ∀ p ∈ points, p.w = 1) (hr : ∃ p ∈ points, GridInRange leaf p) :
    ∃ out, voxelgridSampling sort points leaf = .ok out ∧ voxelgridSampling sort' points' leaf = .ok out := by
  obtain ⟨hp, hs⟩ := hsort (cpOf leaf points)
  obtain ⟨hp', hs'⟩ := hsort' (cpOf leaf points')
  have hne : points ≠ [] := by rintro rfl; obtain ⟨p, h, _⟩ := hr; simp at h
  have hne' : points' ≠ [] := by
    intro e; rw [e] at hperm; exact hne hperm.eq_nil
  have hr' : ∃ p ∈ points', GridInRange leaf p := by
    obtain ⟨p, h, hg⟩ := hr; exact ⟨p, hperm.mem_iff.1 h, hg⟩
  have hk' : ∀ p ∈ points', KeyDefined leaf p := fun p h => hk p (hperm.mem_iff.2 h)
  have hw' : ∀ p ∈ points', p.w = 1 := fun p h => hw p (hperm.mem_iff.2 h)
  refine ⟨_, voxelgridSampling_eq hsort hleaf hk hw hne, ?_⟩
  rw [voxelgridSampling_eq hsort' hleaf hk' hw' hne', stray_nil hp hs hr, stray_nil hp' hs' hr', List.append_nil, List.append_nil]
  have hcells : cellsOf points (sort (cpOf leaf points)) = cellsOf points' (sort' (cpOf leaf points')) := by
    have hpc : (cellsOf points (sort (cpOf leaf points))).Perm (cellsOf points' (sort' (cpOf leaf points'))) := by
      rw [List.perm_ext_iff_of_nodup (cells_nodup hp hs) (cells_nodup hp' hs')]
      intro c
      rw [cells_mem hp, cells_mem hp']
      unfold occupied
      simp only [List.mem_toFinset, List.mem_map, List.mem_filter, hperm.mem_iff]
    exact hpc.eq_of_pairwise (fun a b _ _ h1 h2 => absurd h1 (by omega)) (cells_sorted hp hs) (cells_sorted hp' hs')
  rw [hcells]
  congr 1
  apply List.map_congr_left
  intro c _
  exact (centroid_perm (hperm.filter _)).symm

/-! ### C24 / C25: block-parallel sampling -/

section Par
variable {sort : List (Nat × Nat) → List (Nat × Nat)} {cut : List (Nat × Nat) → List (List (Nat × Nat))} {leaf : K}
  {points : List (Pt K)}

/-- Common form of the parallel results: with the blocks' point sets `G` and stray points `E`. -/
theorem par_result (hsort : SortSpec sort) (hcut : IsCut cut) (hleaf : leaf ≠ 0) (hk : ∀ p ∈ points, KeyDefined leaf p)
    (hw : ∀ p ∈ points, p.w = 1) (hne : points ≠ []) {sched : List Nat} {r} (h : voxelgridSamplingPar sort cut sched points leaf = some r) :
    ∃ out, r = .ok out ∧ out.Perm ((partsOf points (cut (sort (cpOf leaf points)))).map centroid ++
      straysOf points (cut (sort (cpOf leaf points)))) := by
  obtain ⟨hp, hs⟩ := hsort (cpOf leaf points)
  have hlen : points.length ≠ 0 := fun e => hne (List.length_eq_zero_iff.1 e)
  obtain ⟨hf, hb⟩ := hcut (sort (cpOf leaf points))
  obtain ⟨subs, h1, h2, h3⟩ := parStart_eq hf hb hp hs hw
  unfold voxelgridSamplingPar at h
  rw [if_neg hlen, if_neg hleaf, coordPt_eq hk] at h
  have hcp : points.zipIdx.map (fun pi => (keyOf leaf pi.1, pi.2)) = cpOf leaf points := rfl
  rw [hcp] at h
  simp only [h1] at h
  have hinv := parInit_inv points.length subs h3
  cases hrun : parRun sched (⟨0, List.replicate points.length none, subs.map .pending⟩ : ParState K) with
  | none => rw [hrun] at h; simp at h
  | some r1 =>
    obtain ⟨s', rfl, hi, _⟩ := parRun_inv sched hinv hrun
    rw [hrun] at h
    simp only at h
    split at h
    · rename_i hfin
      obtain ⟨out, ho, hperm⟩ := parResult_of_finished hi hfin
      rw [ho] at h
      cases h
      exact ⟨out, rfl, hperm.trans h2⟩
    · cases h

/-- C24: for in-range input and every schedule, the outputs are the centroids of non-empty sets of points of one cell
each; these sets partition the input, their number is between the number of occupied cells and that plus (number of
blocks - 1), and they do not depend on the schedule. -/
theorem C24_parallel_partition (hsort : SortSpec sort) (hcut : IsCut cut) (hleaf : leaf ≠ 0) (hk : ∀ p ∈ points, KeyDefined leaf p)
    (hw : ∀ p ∈ points, p.w = 1) (hne : points ≠ []) (hr : ∀ p ∈ points, GridInRange leaf p) {B : Nat}
    (hB : ∀ l, l.length = points.length → (cut l).length ≤ B) :
    ∃ G : List (List (Pt K)), G.flatten.Perm points ∧ (∀ g ∈ G, g ≠ [] ∧ ∃ c, ∀ p ∈ g, gridCell leaf p = c) ∧
      (occupied leaf points).card ≤ G.length ∧ G.length ≤ (occupied leaf points).card + (B - 1) ∧
      ∀ sched r, voxelgridSamplingPar sort cut sched points leaf = some r → ∃ out, r = .ok out ∧ out.Perm (G.map centroid) := by
  obtain ⟨hp, hs⟩ := hsort (cpOf leaf points)
  obtain ⟨hf, hb⟩ := hcut (sort (cpOf leaf points))
  have hstray : straysOf points (cut (sort (cpOf leaf points))) = [] := by
    rw [List.eq_nil_iff_forall_not_mem]
    intro p h
    obtain ⟨h1, h2⟩ := strays_mem hf hp h
    exact h2 (hr p h1)
  have hlen := parts_length hf hp hs
  have hB' := hB (sort (cpOf leaf points)) (by rw [hp.length_eq, cpOf_length])
  refine ⟨partsOf points (cut (sort (cpOf leaf points))), ?_, ?_, hlen.1, by omega, ?_⟩
  · have := parts_flatten hf hp
    rwa [List.filter_eq_self.2 (fun p hpm => by simpa using hr p hpm)] at this
  · intro g hg
    obtain ⟨h1, c, h2⟩ := parts_cell hf hp hg
    exact ⟨h1, c, fun p hpg => (h2 p hpg).2.2⟩
  · intro sched r h
    obtain ⟨out, e, h1⟩ := par_result hsort hcut hleaf hk hw hne h
    rw [hstray, List.append_nil] at h1
    exact ⟨out, e, h1⟩

/-- C24: no execution gets stuck: every partial schedule can be extended to a complete one. -/
theorem C24_every_schedule_finishes (hsort : SortSpec sort) (hcut : IsCut cut) (hleaf : leaf ≠ 0) (hk : ∀ p ∈ points, KeyDefined leaf p)
    (hw : ∀ p ∈ points, p.w = 1) (hne : points ≠ []) (js : List Nat) {cp} (hcp : coordPt (1 / leaf) points = .ok cp) {s0 s1 : ParState K}
    (h0 : parStart points (cut (sort cp)) = .ok s0) (h1 : parRun js s0 = some (.ok s1)) :
    ∃ js' out, voxelgridSamplingPar sort cut (js ++ js') points leaf = some (.ok out) := by
  have e : cp = cpOf leaf points := by
    rw [coordPt_eq hk] at hcp; cases hcp; rfl
  subst e
  have hlen : points.length ≠ 0 := fun e => hne (List.length_eq_zero_iff.1 e)
  obtain ⟨hp, hs⟩ := hsort (cpOf leaf points)
  obtain ⟨hf, hb⟩ := hcut (sort (cpOf leaf points))
  obtain ⟨subs, h2, _, h3⟩ := parStart_eq hf hb hp hs hw
  have e0 : s0 = ⟨0, List.replicate points.length none, subs.map .pending⟩ := by
    rw [h0] at h2; cases h2; rfl
  have hinv := parInit_inv points.length subs h3
  obtain ⟨_, e1, hi1, _⟩ := parRun_inv js hinv (by rw [← e0]; exact h1)
  cases e1
  have append : ∀ (a b : List Nat) (s : ParState K) (t : ParState K), parRun a s = some (.ok t) → parRun (a ++ b) s = parRun b t := by
    intro a
    induction a with
    | nil => intro b s t h; simp only [parRun, Option.some.injEq, Except.ok.injEq] at h; subst h; rfl
    | cons j a ih =>
      intro b s t h
      simp only [List.cons_append, parRun] at h ⊢
      cases hst : parStep j s with
      | none => rw [hst] at h; simp at h
      | some r =>
        rw [hst] at h
        cases r with
        | error e => simp at h
        | ok s' => exact ih b s' t h
  have fin : ∀ (n : Nat) (s : ParState K), ParInv points.length subs.flatten s → (s.tasks.map workOf).sum = n →
      ∃ js' t, parRun js' s = some (.ok t) ∧ t.finished = true ∧ ParInv points.length subs.flatten t := by
    intro n
    induction n with
    | zero =>
      intro s hi hn
      cases hfin : s.finished with
      | true => exact ⟨[], s, rfl, hfin, hi⟩
      | false =>
        obtain ⟨j, hj⟩ := parStep_progress hfin
        obtain ⟨r, hr⟩ := Option.isSome_iff_exists.1 hj
        obtain ⟨s', _, _, hw⟩ := parStep_inv hi hr
        omega
    | succ n ih =>
      intro s hi hn
      cases hfin : s.finished with
      | true => exact ⟨[], s, rfl, hfin, hi⟩
      | false =>
        obtain ⟨j, hj⟩ := parStep_progress hfin
        obtain ⟨r, hr⟩ := Option.isSome_iff_exists.1 hj
        obtain ⟨s', rfl, hi', hw⟩ := parStep_inv hi hr
        obtain ⟨js', t, h1, h2, h3⟩ := ih s' hi' (by omega)
        refine ⟨j :: js', t, ?_, h2, h3⟩
        unfold parRun; rw [hr]; exact h1
  obtain ⟨js', t, ht, hfin, hit⟩ := fin _ s1 hi1 rfl
  obtain ⟨out, ho, _⟩ := parResult_of_finished hit hfin
  refine ⟨js', out, ?_⟩
  unfold voxelgridSamplingPar
  rw [if_neg hlen, if_neg hleaf, hcp]
  simp only [h0, append js js' s0 s1 h1, ht, hfin, if_true, ho]

/-- C25: at every moment of every execution nothing has faulted; the slots still to be written by the running blocks
are pairwise different, inside the output cloud, below the reserved size and not yet written; and every slot below the
reserved size is either written or reserved by a running block. (Hence each slot is written exactly once.) -/
theorem C25_slots_disjoint (hsort : SortSpec sort) (hcut : IsCut cut) (hk : ∀ p ∈ points, KeyDefined leaf p)
    (hw : ∀ p ∈ points, p.w = 1) {cp} (hcp : coordPt (1 / leaf) points = .ok cp) :
    ∃ s0, parStart points (cut (sort cp)) = .ok s0 ∧ ∀ js r, parRun js s0 = some r → ∃ s, r = .ok s ∧
      s.buf.length = points.length ∧ s.numPoints ≤ points.length ∧
      (∀ (i a : Nat) (ra : List (Pt K)) (j b : Nat) (rb : List (Pt K)), i ≠ j →
        s.tasks[i]? = some (BlockTask.writing a ra) → s.tasks[j]? = some (BlockTask.writing b rb) →
        ∀ x < ra.length, ∀ y < rb.length, a + x ≠ b + y) ∧
      (∀ (i a : Nat) (ra : List (Pt K)), s.tasks[i]? = some (BlockTask.writing a ra) → ∀ x < ra.length,
        a + x < s.numPoints ∧ s.buf[a + x]? = some none) ∧
      (∀ n < s.numPoints, (∃ p, s.buf[n]? = some (some p)) ∨
        ∃ (i a : Nat) (ra : List (Pt K)), s.tasks[i]? = some (BlockTask.writing a ra) ∧ ∃ x < ra.length, n = a + x) := by
  have e : cp = cpOf leaf points := by
    rw [coordPt_eq hk] at hcp; cases hcp; rfl
  subst e
  obtain ⟨hp, hs⟩ := hsort (cpOf leaf points)
  obtain ⟨hf, hb⟩ := hcut (sort (cpOf leaf points))
  obtain ⟨subs, h2, _, h3⟩ := parStart_eq hf hb hp hs hw
  refine ⟨_, h2, ?_⟩
  intro js r hrun
  obtain ⟨s, rfl, hi, _⟩ := parRun_inv js (parInit_inv points.length subs h3) hrun
  have hle : s.numPoints ≤ points.length := by have := hi.need; omega
  have hslot : ∀ {i a : Nat} {ra : List (Pt K)}, s.tasks[i]? = some (BlockTask.writing a ra) → ∀ x < ra.length, a + x ∈ s.tasks.flatMap slotsOf := by
    intro i a ra h x hx
    refine List.mem_flatMap.2 ⟨_, List.mem_of_getElem? h, ?_⟩
    simp only [slotsOf, List.mem_range'_1]; omega
  refine ⟨s, rfl, hi.len, hle, ?_, ?_, ?_⟩
  · intro i a ra j b rb hij h1 h2 x hx y hy hxy
    have hnd := hi.nodup
    rw [List.nodup_flatMap] at hnd
    have hpw := hnd.2
    rw [List.pairwise_iff_getElem] at hpw
    obtain ⟨hi1, e1⟩ := List.getElem?_eq_some_iff.1 h1
    obtain ⟨hj1, e2⟩ := List.getElem?_eq_some_iff.1 h2
    have m1 : a + x ∈ slotsOf (BlockTask.writing a ra) := by simp only [slotsOf, List.mem_range'_1]; omega
    have m2 : a + x ∈ slotsOf (BlockTask.writing b rb) := by rw [hxy]; simp only [slotsOf, List.mem_range'_1]; omega
    rcases lt_or_gt_of_ne hij with hlt | hlt
    · have := hpw i j hi1 hj1 hlt
      rw [e1, e2] at this
      exact this m1 m2
    · have := hpw j i hj1 hi1 hlt
      rw [e1, e2] at this
      exact this m2 m1
  · intro i a ra h x hx
    exact (hi.open_ _).1 (hslot h x hx)
  · intro n hn
    have hlt : n < s.buf.length := by rw [hi.len]; omega
    cases hbn : s.buf[n]'hlt with
    | some p => exact Or.inl ⟨p, by rw [List.getElem?_eq_getElem hlt, hbn]⟩
    | none =>
      right
      have := (hi.open_ n).2 ⟨hn, by rw [List.getElem?_eq_getElem hlt, hbn]⟩
      obtain ⟨t, ht, hx⟩ := List.mem_flatMap.1 this
      obtain ⟨i, hit⟩ := List.getElem?_of_mem ht
      cases t with
      | pending sub => simp [slotsOf] at hx
      | writing a ra =>
        simp only [slotsOf, List.mem_range'_1] at hx
        exact ⟨i, a, ra, hit, n - a, by omega, by omega⟩

/-- C25 (partial): in general the output also contains stray points `E`: raw copies of out-of-range inputs. -/
theorem C25_out_of_range_points_partial (hsort : SortSpec sort) (hcut : IsCut cut) (hleaf : leaf ≠ 0)
    (hk : ∀ p ∈ points, KeyDefined leaf p) (hw : ∀ p ∈ points, p.w = 1) (hne : points ≠ []) :
    ∃ (G : List (List (Pt K))) (E : List (Pt K)), G.flatten.Perm (points.filter (fun p => decide (GridInRange leaf p))) ∧
      (∀ g ∈ G, g ≠ [] ∧ ∃ c, ∀ p ∈ g, gridCell leaf p = c) ∧ (∀ p ∈ E, p ∈ points ∧ ¬ GridInRange leaf p) ∧
      ∀ sched r, voxelgridSamplingPar sort cut sched points leaf = some r →
        ∃ out, r = .ok out ∧ out.Perm (G.map centroid ++ E) := by
  obtain ⟨hp, hs⟩ := hsort (cpOf leaf points)
  obtain ⟨hf, hb⟩ := hcut (sort (cpOf leaf points))
  refine ⟨partsOf points (cut (sort (cpOf leaf points))), straysOf points (cut (sort (cpOf leaf points))), parts_flatten hf hp, ?_,
    fun p hpm => strays_mem hf hp hpm, fun sched r h => par_result hsort hcut hleaf hk hw hne h⟩
  intro g hg
  obtain ⟨h1, c, h2⟩ := parts_cell hf hp hg
  exact ⟨h1, c, fun p hpg => (h2 p hpg).2.2⟩

/-- C25 is violated by the OMP variant: it copies exactly ⌈N/1024⌉ - ⌈V/1024⌉ out-of-range points to the output, `V` being
the number of in-range points. They are ignored iff this is zero. -/
theorem C25_omp_stray_points (hsort : SortSpec sort) (hleaf : leaf ≠ 0)
    (hk : ∀ p ∈ points, KeyDefined leaf p) (hw : ∀ p ∈ points, p.w = 1) (hne : points ≠ []) {sched r}
    (h : voxelgridSamplingPar sort ompCut sched points leaf = some r) :
    ∃ (G : List (List (Pt K))) (E : List (Pt K)) (out : List (Pt K)), r = .ok out ∧ out.Perm (G.map centroid ++ E) ∧
      G.flatten.Perm (points.filter (fun p => decide (GridInRange leaf p))) ∧ (∀ g ∈ G, g ≠ [] ∧ ∃ c, ∀ p ∈ g, gridCell leaf p = c) ∧
      (∀ p ∈ E, p ∈ points ∧ ¬ GridInRange leaf p) ∧
      E.length + ((points.filter (fun p => decide (GridInRange leaf p))).length + 1023) / 1024 = (points.length + 1023) / 1024 := by
  obtain ⟨hp, hs⟩ := hsort (cpOf leaf points)
  obtain ⟨hf, hb⟩ := ompCut_isCut (sort (cpOf leaf points))
  obtain ⟨out, e, h1⟩ := par_result hsort ompCut_isCut hleaf hk hw hne h
  refine ⟨_, _, out, e, h1, parts_flatten hf hp, fun g hg => ?_, fun p hpm => strays_mem hf hp hpm, ?_⟩
  · obtain ⟨h1, c, h2⟩ := parts_cell hf hp hg
    exact ⟨h1, c, fun p hpg => (h2 p hpg).2.2⟩
  have hsp := split_valid _ hs (fun x hx => cpOf_le leaf points x (hp.mem_iff.1 hx))
  have hV : ((sort (cpOf leaf points)).filter (fun x => decide (x.1 ≠ INVALID_COORD))).length =
      (points.filter (fun p => decide (GridInRange leaf p))).length := by
    have := (valid_perm hp).length_eq
    rwa [List.length_map, List.length_map] at this
  have hN : (sort (cpOf leaf points)).length = points.length := by rw [hp.length_eq, cpOf_length]
  have hsum : ((sort (cpOf leaf points)).filter (fun x => decide (x.1 ≠ INVALID_COORD))).length +
      ((sort (cpOf leaf points)).filter (fun x => decide (x.1 = INVALID_COORD))).length = points.length := by
    rw [← List.length_append, ← hsp, hN]
  have := strays_blocks points 1024 (by omega) (sort (cpOf leaf points)).length
    ((sort (cpOf leaf points)).filter (fun x => decide (x.1 ≠ INVALID_COORD)))
    ((sort (cpOf leaf points)).filter (fun x => decide (x.1 = INVALID_COORD)))
    (by rw [hsum, hN]) (by intro x hx; simpa using (List.mem_filter.1 hx).2) (by intro x hx; simpa using (List.mem_filter.1 hx).2)
  rw [← hsp, hsum, hV] at this
  exact this

/-- C24: the number of blocks of the OMP variant. -/
theorem C24_omp_block_count (l : List (Nat × Nat)) : (ompCut l).length = (l.length + 1023) / 1024 := by
  unfold ompCut
  rw [blocksOf_length 1024 (by omega) _ _ (le_refl _)]; rfl

/-- C24: every block contributes at least one output point, so cutting a cell into blocks multiplies its outputs. -/
theorem C24_at_least_one_per_block (hsort : SortSpec sort) (hcut : IsCut cut) (hleaf : leaf ≠ 0)
    (hk : ∀ p ∈ points, KeyDefined leaf p) (hw : ∀ p ∈ points, p.w = 1) (hne : points ≠ []) {B : Nat}
    (hB : ∀ l, l.length = points.length → B ≤ (cut l).length) {sched out}
    (h : voxelgridSamplingPar sort cut sched points leaf = some (.ok out)) : B ≤ out.length := by
  obtain ⟨hp, hs⟩ := hsort (cpOf leaf points)
  obtain ⟨hf, hb⟩ := hcut (sort (cpOf leaf points))
  obtain ⟨out', e, h1⟩ := par_result hsort hcut hleaf hk hw hne h
  cases e
  rw [h1.length_eq, List.length_append, List.length_map]
  refine (hB (sort (cpOf leaf points)) (by rw [hp.length_eq, cpOf_length])).trans ?_
  clear h1 hf
  generalize cut (sort (cpOf leaf points)) = cs at hb
  induction cs with
  | nil => simp
  | cons c cs ih =>
    have := ih (fun b h => hb b (by simp [h]))
    unfold partsOf straysOf at this ⊢
    rw [List.flatMap_cons, List.flatMap_cons, List.length_append, List.length_append, List.length_cons, List.length_map]
    have hc : 1 ≤ (runsOf points c).length + (strayOf points c).length := by
      cases c with
      | nil => exact absurd rfl (hb [] (by simp))
      | cons ki I =>
        by_cases hki : ki.1 = INVALID_COORD
        · simp [strayOf, hki]
        · have : validOf (ki :: I) ≠ [] := by
            unfold validOf; rw [List.filter_cons_of_pos (by simpa using hki)]; simp
          have h2 : runsOf points (ki :: I) ≠ [] := groups_ne_nil (by simpa using this)
          have := List.length_pos_of_ne_nil h2
          omega
    omega

end Par

/-! ### concrete cases -/

/-- Insertion sort by key, a sort satisfying the contract. -/
def keySort (l : List (Nat × Nat)) : List (Nat × Nat) := l.foldr (insAfter Prod.fst) []

theorem keySort_spec : SortSpec keySort := by
  intro l
  induction l with
  | nil => exact ⟨List.Perm.refl _, List.Pairwise.nil⟩
  | cons a l ih =>
    exact ⟨(insAfter_perm Prod.fst a _).trans (ih.1.cons a), insAfter_sorted Prod.fst a _ ih.2⟩

def gpt (x y z : ℚ) : Pt ℚ := ⟨x, y, z, 1⟩

/-- Two points in one cell, one in another, one out of range. -/
def gridPts : List (Pt ℚ) := [gpt (1/4) 0 0, gpt (-(1/2)) 3 0, gpt (3/4) 0 (1/2), gpt 3000000 0 0]

theorem gridPts_ok : (∀ p ∈ gridPts, KeyDefined 1 p) ∧ (∀ p ∈ gridPts, p.w = 1) ∧ ∃ p ∈ gridPts, GridInRange 1 p := by
  unfold KeyDefined KeyFits INT_MIN INT_MAX; decide +kernel

example : voxelgridSampling keySort gridPts 1 = .ok [gpt (1/2) 0 (1/4), gpt (-(1/2)) 3 0] := by decide +kernel

/-- Premises of C22/C23 are met by the cloud above. -/
example : ∃ out, voxelgridSampling keySort gridPts 1 = .ok out ∧ voxelgridSampling keySort gridPts.reverse 1 = .ok out :=
  C23_input_order keySort_spec keySort_spec (by decide) gridPts.reverse_perm.symm gridPts_ok.1 gridPts_ok.2.1 gridPts_ok.2.2

/-- Premises of C21 are met. -/
example : KeyDefined (1 : ℚ) (gpt (1/4) 0 0) ∧ GridInRange (1 : ℚ) (gpt (1/4) 0 0) ∧ KeyDefined (1 : ℚ) (gpt 3000000 0 0) ∧
    ¬ GridInRange (1 : ℚ) (gpt 3000000 0 0) ∧ ¬ KeyDefined (1 : ℚ) (gpt (2^40) 0 0) := by
  unfold KeyDefined KeyFits INT_MIN INT_MAX; decide +kernel

/-- All points out of range: one of them is emitted. -/
example : voxelgridSampling keySort [gpt 3000000 0 0, gpt 0 0 (-4000000)] 1 = .ok [gpt 0 0 (-4000000)] := by decide +kernel

/-- C23 needs an in-range point: with none, the emitted point depends on the order. -/
theorem C23_fails_without_in_range_point :
    ∃ points points' : List (Pt ℚ), points.Perm points' ∧ voxelgridSampling keySort points 1 ≠ voxelgridSampling keySort points' 1 :=
  ⟨[gpt 3000000 0 0, gpt 0 0 (-4000000)], [gpt 0 0 (-4000000), gpt 3000000 0 0], List.Perm.swap _ _ _, by decide +kernel⟩

/-- Blocks of two elements: premises of C24/C25 are met and the tasks interleave. -/
def cut2 (l : List (Nat × Nat)) : List (List (Nat × Nat)) := blocksOf 2 l.length l

theorem cut2_isCut : IsCut cut2 := fun l =>
  ⟨blocksOf_flatten 2 (by omega) _ l (le_refl _), fun b hb => blocksOf_nonempty 2 (by omega) _ l b hb⟩

def gridPts3 : List (Pt ℚ) := [gpt (1/4) 0 0, gpt (-(1/2)) 3 0, gpt (3/4) 0 (1/2), gpt (1/2) 0 0]

/-- Three points of one cell cut into two blocks: three outputs, in an order that depends on the schedule. -/
example : voxelgridSamplingPar keySort cut2 [1, 0, 0, 1, 1] gridPts3 1 =
      some (.ok [gpt (1/4) 0 0, gpt (-(1/2)) 3 0, gpt (5/8) 0 (1/4)]) ∧
    voxelgridSamplingPar keySort cut2 [0, 1, 1, 0, 0] gridPts3 1 = none ∧
    voxelgridSamplingPar keySort cut2 [0, 1, 1, 0, 0] (gridPts3.take 1) 1 = none := by decide +kernel

theorem gridPts3_ok : (∀ p ∈ gridPts3, KeyDefined 1 p) ∧ (∀ p ∈ gridPts3, p.w = 1) ∧ ∀ p ∈ gridPts3, GridInRange 1 p := by
  unfold KeyDefined KeyFits INT_MIN INT_MAX; decide +kernel

/-- Premises of C24 are met. -/
example : ∃ G : List (List (Pt ℚ)), G.flatten.Perm gridPts3 ∧ (occupied 1 gridPts3).card ≤ G.length :=
  let ⟨G, h1, _, h3, _⟩ := C24_parallel_partition keySort_spec cut2_isCut (by decide) gridPts3_ok.1 gridPts3_ok.2.1
    (by decide) gridPts3_ok.2.2 (B := 2) (by
      intro l hl
      unfold cut2
      rw [blocksOf_length 2 (by omega) _ _ (le_refl _), hl]
      decide)
  ⟨G, h1, h3⟩

theorem centroid_replicate (n : Nat) (hn : 0 < n) : centroid (List.replicate n (gpt 0 0 0)) = gpt 0 0 0 := by
  have : (n : ℚ) ≠ 0 := by exact_mod_cast hn.ne'
  simp [centroid, gpt, this]

/-- The documented bound ("up to 10 % more points than the serial version") is wrong: 1025 points in one cell give one
point serially but at least two with `voxelgrid_sampling_omp`, under every schedule. -/
theorem C24_ten_percent_bound_fails : ∃ points : List (Pt ℚ),
    voxelgridSampling keySort points 1 = .ok [gpt 0 0 0] ∧
    ∀ sched out, voxelgridSamplingPar keySort ompCut sched points 1 = some (.ok out) → 2 ≤ out.length := by
  have hk : ∀ p ∈ List.replicate 1025 (gpt 0 0 0), KeyDefined (1 : ℚ) p := by
    intro p hp
    rw [List.eq_of_mem_replicate hp]
    unfold KeyDefined KeyFits INT_MIN INT_MAX; decide +kernel
  have hw : ∀ p ∈ List.replicate 1025 (gpt 0 0 0), p.w = 1 := by
    intro p hp; rw [List.eq_of_mem_replicate hp]; rfl
  have hg : GridInRange (1 : ℚ) (gpt 0 0 0) := by decide +kernel
  have hz : gpt 0 0 0 ∈ List.replicate 1025 (gpt 0 0 0) := List.mem_replicate.2 ⟨by omega, rfl⟩
  refine ⟨List.replicate 1025 (gpt 0 0 0), ?_, ?_⟩
  · obtain ⟨cells, hnd, hmem, hout⟩ := C22_one_centroid_per_cell_partial keySort_spec (by decide) hk hw
      ⟨gpt 0 0 0, hz, hg⟩
    have hc : cells = [gridCell (1 : ℚ) (gpt 0 0 0)] := by
      have h1 : ∀ c ∈ cells, c = gridCell (1 : ℚ) (gpt 0 0 0) := by
        intro c hc
        obtain ⟨p, hp, _, e⟩ := (hmem c).1 hc
        rw [List.eq_of_mem_replicate hp] at e; exact e.symm
      have h2 : gridCell (1 : ℚ) (gpt 0 0 0) ∈ cells := (hmem _).2 ⟨_, hz, hg, rfl⟩
      have h3 := List.eq_replicate_of_mem h1
      have h4 : cells.length = 1 := by
        have h5 : cells.length ≤ 1 := by
          rw [h3] at hnd; exact List.nodup_replicate.1 hnd
        have := List.length_pos_of_mem h2
        omega
      rw [h4] at h3; exact h3
    rw [hout, hc]
    have hcp : cellPoints (1 : ℚ) (List.replicate 1025 (gpt 0 0 0)) (gridCell (1 : ℚ) (gpt 0 0 0)) = List.replicate 1025 (gpt 0 0 0) := by
      unfold cellPoints
      rw [List.filter_eq_self]
      intro p hp
      rw [List.eq_of_mem_replicate hp]
      simp [hg]
    rw [List.map_singleton, hcp, centroid_replicate 1025 (by omega)]
  · intro sched out h
    exact C24_at_least_one_per_block keySort_spec ompCut_isCut (by decide) hk hw (List.ne_nil_of_mem hz) (B := 2)
      (by intro l hl; rw [C24_omp_block_count, hl, List.length_replicate]) h

/-- C25 violated: one in-range point and 1024 out-of-range points; every run of `voxelgrid_sampling_omp` copies an
out-of-range point to the output. -/
theorem C25_out_of_range_not_ignored : ∃ points : List (Pt ℚ), ∀ sched out,
    voxelgridSamplingPar keySort ompCut sched points 1 = some (.ok out) → gpt 3000000 0 0 ∈ out ∧ ¬ GridInRange (1 : ℚ) (gpt 3000000 0 0) := by
  have hn : ¬ GridInRange (1 : ℚ) (gpt 3000000 0 0) := by decide +kernel
  refine ⟨gpt 0 0 0 :: List.replicate 1024 (gpt 3000000 0 0), ?_⟩
  intro sched out h
  have hmem : ∀ p ∈ gpt 0 0 0 :: List.replicate 1024 (gpt 3000000 0 0), p = gpt 0 0 0 ∨ p = gpt 3000000 0 0 := by
    intro p hp
    rcases List.mem_cons.1 hp with e | e
    · exact Or.inl e
    · exact Or.inr (List.eq_of_mem_replicate e)
  have hg : GridInRange (1 : ℚ) (gpt 0 0 0) := by decide +kernel
  obtain ⟨G, E, out', e, hperm, _, _, hE, hcount⟩ := C25_omp_stray_points keySort_spec (by decide)
    (by
      intro p hp
      rcases hmem p hp with e | e <;> rw [e] <;> unfold KeyDefined KeyFits INT_MIN INT_MAX <;> decide +kernel)
    (by intro p hp; rcases hmem p hp with e | e <;> rw [e] <;> rfl) (List.cons_ne_nil _ _) h
  cases e
  have hf : (gpt 0 0 0 :: List.replicate 1024 (gpt 3000000 0 0)).filter (fun p => decide (GridInRange (1 : ℚ) p)) = [gpt 0 0 0] := by
    rw [List.filter_cons_of_pos (by simpa using hg), List.filter_eq_nil_iff.2]
    intro p hp
    rw [List.eq_of_mem_replicate hp]; simpa using hn
  rw [hf] at hcount
  simp only [List.length_cons, List.length_nil, List.length_replicate] at hcount
  have hpos : 0 < E.length := by omega
  obtain ⟨p, hp⟩ := List.exists_mem_of_length_pos hpos
  obtain ⟨h1, h2⟩ := hE p hp
  refine ⟨?_, hn⟩
  rcases hmem p h1 with e | e
  · rw [e] at h2; exact absurd hg h2
  · rw [← e]; exact hperm.mem_iff.2 (List.mem_append_right _ hp)

end Verif.Props
