import Verif.Model.KdtreeBenchmark
import Verif.Spec.KdtreeBenchmark
import Verif.Props.Downsampling
import Verif.Props.Statistics
import Mathlib.Data.Rat.Floor
import Mathlib.Tactic.Linarith
import Mathlib.Tactic.NormNum
import Mathlib.Tactic.Ring
import Mathlib.Tactic.FieldSimp
import Mathlib.Tactic.Positivity
import Mathlib.Tactic.IntervalCases

/-!
C88. The benchmark of the kd-trees: which resolutions its search finds, for which scans the search is undefined, and what is measured.
-/

set_option linter.unusedSectionVars false
set_option linter.unusedSimpArgs false
set_option linter.unnecessarySeqFocus false

namespace Verif.Props

open Verif Verif.Benchmark Verif.Downsample Verif.KdtreeBenchmark Verif.Spec Verif.Proofs

variable {K : Type} [Field K] [LinearOrder K] [IsStrictOrderedRing K] [FloorRing K]

/-! ### the search -/

section search

variable {count : K → Res Nat} {size : K → Nat} {target : Nat} {lo : K}

/-- The halving of the interval. -/
theorem search_halve (hc : ∀ x, lo ≤ x → count x = .ok (size x)) (n : Nat) :
    ∀ l h : K, lo ≤ l → l < h → target ≤ size l → size h ≤ target →
      ∃ r, searchLoop count target n ⟨l, size l⟩ ⟨h, size h⟩ = .ok r ∧ lo ≤ r ∧ (WithinPermille (K := K) target (size r) ∨
        ∃ l' h' : K, l ≤ l' ∧ l' < h' ∧ h' ≤ h ∧ r = (l' + h') / 2 ∧ h' - l' = (h - l) / 2 ^ n ∧ target ≤ size l' ∧ size h' ≤ target) := by
  induction n with
  | zero =>
    intro l h hl hlt h1 h2
    refine ⟨_, rfl, by simp only; linarith, .inr ⟨l, h, le_rfl, hlt, le_rfl, by simp only; ring, by simp, h1, h2⟩⟩
  | succ n ih =>
    intro l h hl hlt h1 h2
    have hm : lo ≤ (l + h) * (1 / 2) := by linarith
    have e : searchLoop count target (n + 1) ⟨l, size l⟩ ⟨h, size h⟩ =
        if |1 - (size ((l + h) * (1 / 2)) : K) / (target : K)| < 1 / 1000 then .ok ((l + h) * (1 / 2))
        else if size ((l + h) * (1 / 2)) > target then searchLoop count target n ⟨(l + h) * (1 / 2), size ((l + h) * (1 / 2))⟩ ⟨h, size h⟩
        else searchLoop count target n ⟨l, size l⟩ ⟨(l + h) * (1 / 2), size ((l + h) * (1 / 2))⟩ := by
      conv_lhs => unfold searchLoop
      simp only [not_lt.2 h1, not_lt.2 h2, gt_iff_lt, if_false, hc _ hm, bind, Except.bind, pure, Except.pure]
    rw [e]
    by_cases a : |1 - (size ((l + h) * (1 / 2)) : K) / (target : K)| < 1 / 1000
    · rw [if_pos a]
      exact ⟨_, rfl, hm, .inl a⟩
    · rw [if_neg a]
      by_cases b : size ((l + h) * (1 / 2)) > target
      · rw [if_pos b]
        obtain ⟨r, h3, h4, h5⟩ := ih _ h hm (by linarith) (le_of_lt b) h2
        refine ⟨r, h3, h4, h5.imp id ?_⟩
        rintro ⟨l', h', g1, g2, g3, g4, g5, g6, g7⟩
        exact ⟨l', h', by linarith, g2, g3, g4, by rw [g5, pow_succ]; field_simp; ring, g6, g7⟩
      · rw [if_neg b]
        obtain ⟨r, h3, h4, h5⟩ := ih l _ hl (by linarith) h1 (not_lt.1 b)
        refine ⟨r, h3, h4, h5.imp id ?_⟩
        rintro ⟨l', h', g1, g2, g3, g4, g5, g6, g7⟩
        exact ⟨l', h', g1, g2, by linarith, g4, by rw [g5, pow_succ]; field_simp; ring, g6, g7⟩

/-- The growing of the upper end, then the halving. -/
theorem search_grow (hc : ∀ x, lo ≤ x → count x = .ok (size x)) (n : Nat) :
    ∀ (l : K) (g : Nat), 0 < l → lo ≤ l → l < 1 → target ≤ size l → (∀ i < g, target < size (10 ^ i)) →
      ∃ r, searchLoop count target n ⟨l, size l⟩ ⟨10 ^ g, size (10 ^ g)⟩ = .ok r ∧ lo ≤ r ∧ (WithinPermille (K := K) target (size r) ∨
        ∃ g' m : Nat, ∃ l' h' : K, g' + m = g + n ∧ (∀ i < g', target < size (10 ^ i)) ∧ (0 < m → size (10 ^ g') ≤ target) ∧
          l ≤ l' ∧ l' < h' ∧ h' ≤ 10 ^ g' ∧ r = (l' + h') / 2 ∧ h' - l' = (10 ^ g' - l) / 2 ^ m ∧ (0 < m → target ≤ size l' ∧ size h' ≤ target)) := by
  induction n with
  | zero =>
    intro l g hp hl h1 h2 h3
    have hg : (1 : K) ≤ 10 ^ g := one_le_pow₀ (by norm_num)
    exact ⟨_, rfl, by simp only; linarith, .inr ⟨g, 0, l, 10 ^ g, by simp, h3, by simp, le_rfl, by linarith, le_rfl, by simp only; ring, by simp, by simp⟩⟩
  | succ n ih =>
    intro l g hp hl h1 h2 h3
    have hg : (1 : K) ≤ 10 ^ g := one_le_pow₀ (by norm_num)
    by_cases a : size (10 ^ g) > target
    · have e : searchLoop count target (n + 1) ⟨l, size l⟩ ⟨10 ^ g, size (10 ^ g)⟩ = searchLoop count target n ⟨l, size l⟩ ⟨10 ^ (g + 1), size (10 ^ (g + 1))⟩ := by
        have hg' : lo ≤ 10 ^ g * 10 := by linarith
        conv_lhs => unfold searchLoop
        simp only [not_lt.2 h2, if_false, if_pos a, hc _ hg', bind, Except.bind, pow_succ]
      rw [e]
      obtain ⟨r, g1, g2, g3⟩ := ih l (g + 1) hp hl h1 h2 (by
        intro i hi
        rcases Nat.lt_succ_iff_lt_or_eq.1 hi with h | rfl
        · exact h3 i h
        · exact a)
      refine ⟨r, g1, g2, g3.imp id ?_⟩
      rintro ⟨g', m, l', h', k1, k⟩
      exact ⟨g', m, l', h', by omega, k⟩
    · obtain ⟨r, g1, g2, g3⟩ := search_halve hc (n + 1) l (10 ^ g) hl (by linarith) h2 (not_lt.1 a)
      refine ⟨r, g1, g2, g3.imp id ?_⟩
      rintro ⟨l', h', k1, k2, k3, k4, k5, k6, k7⟩
      exact ⟨g, n + 1, l', h', rfl, h3, fun _ => not_lt.1 a, k1, k2, k3, k4, k5, fun _ => ⟨k6, k7⟩⟩

/-- The shrinking of the lower end, then the rest. -/
theorem search_shrink (k : Nat) (hc : ∀ x, (1 / 10 : K) ^ (k + 1) ≤ x → count x = .ok (size x)) (hk : target ≤ size ((1 / 10) ^ (k + 1))) (n : Nat) :
    ∀ s : Nat, s ≤ k → k ≤ s + n → (∀ i < s, size ((1 / 10) ^ (i + 1)) < target) →
      ∃ r, searchLoop count target n ⟨(1 / 10) ^ (s + 1), size ((1 / 10) ^ (s + 1))⟩ ⟨1, size 1⟩ = .ok r ∧ (1 / 10 : K) ^ (k + 1) ≤ r ∧
        (WithinPermille (K := K) target (size r) ∨
        ∃ s' g m : Nat, ∃ l h : K, s' + g + m = s + n ∧
          (∀ i < s', size ((1 / 10) ^ (i + 1)) < target) ∧ (0 < g + m → target ≤ size ((1 / 10) ^ (s' + 1))) ∧
          (∀ i < g, target < size (10 ^ i)) ∧ (0 < m → size (10 ^ g) ≤ target) ∧
          r = (l + h) / 2 ∧ (1 / 10) ^ (s' + 1) ≤ l ∧ l < h ∧ h ≤ 10 ^ g ∧ h - l = (10 ^ g - (1 / 10) ^ (s' + 1)) / 2 ^ m ∧
          (0 < m → target ≤ size l ∧ size h ≤ target)) := by
  have mono : ∀ s, s ≤ k → (1 / 10 : K) ^ (k + 1) ≤ (1 / 10) ^ (s + 1) := by
    intro s hs
    exact pow_le_pow_of_le_one (by norm_num) (by norm_num) (by omega)
  have small : ∀ s, (1 / 10 : K) ^ (s + 1) < 1 := by
    intro s
    exact pow_lt_one₀ (by norm_num) (by norm_num) (by omega)
  have big : ∀ s, s ≤ k → target ≤ size ((1 / 10) ^ (s + 1)) → (∀ i < s, size ((1 / 10) ^ (i + 1)) < target) → ∀ n,
      ∃ r, searchLoop count target n ⟨(1 / 10) ^ (s + 1), size ((1 / 10) ^ (s + 1))⟩ ⟨1, size 1⟩ = .ok r ∧ (1 / 10 : K) ^ (k + 1) ≤ r ∧
        (WithinPermille (K := K) target (size r) ∨
        ∃ s' g m : Nat, ∃ l h : K, s' + g + m = s + n ∧
          (∀ i < s', size ((1 / 10) ^ (i + 1)) < target) ∧ (0 < g + m → target ≤ size ((1 / 10) ^ (s' + 1))) ∧
          (∀ i < g, target < size (10 ^ i)) ∧ (0 < m → size (10 ^ g) ≤ target) ∧
          r = (l + h) / 2 ∧ (1 / 10) ^ (s' + 1) ≤ l ∧ l < h ∧ h ≤ 10 ^ g ∧ h - l = (10 ^ g - (1 / 10) ^ (s' + 1)) / 2 ^ m ∧
          (0 < m → target ≤ size l ∧ size h ≤ target)) := by
    intro s hs h1 h2 n
    obtain ⟨r, g1, g2, g3⟩ := search_grow hc n ((1 / 10) ^ (s + 1)) 0 (by positivity) (mono s hs) (small s) h1 (by simp)
    simp only [pow_zero] at g1
    refine ⟨r, g1, g2, g3.imp id ?_⟩
    rintro ⟨g, m, l, h, k1, k2, k3, k4, k5, k6, k7, k8, k9⟩
    exact ⟨s, g, m, l, h, by omega, h2, fun _ => h1, k2, k3, k7, k4, k5, k6, k8, k9⟩
  induction n with
  | zero =>
    intro s hs hn h
    obtain rfl : s = k := by omega
    exact big s le_rfl hk h 0
  | succ n ih =>
    intro s hs hn h
    by_cases a : size ((1 / 10 : K) ^ (s + 1)) < target
    · have hne : s ≠ k := by rintro rfl; omega
      have hs' : s + 1 ≤ k := by omega
      have e : searchLoop count target (n + 1) ⟨(1 / 10) ^ (s + 1), size ((1 / 10) ^ (s + 1))⟩ ⟨1, size 1⟩ =
          searchLoop count target n ⟨(1 / 10) ^ (s + 1 + 1), size ((1 / 10) ^ (s + 1 + 1))⟩ ⟨1, size 1⟩ := by
        have h' : (1 / 10 : K) ^ (k + 1) ≤ (1 / 10) ^ (s + 1) * (1 / 10) := by rw [← pow_succ]; exact mono (s + 1) hs'
        conv_lhs => unfold searchLoop
        rw [pow_succ (1 / 10 : K) (s + 1)]
        simp only [if_pos a, hc _ h', bind, Except.bind]
      rw [e]
      obtain ⟨r, g1, g2, g3⟩ := ih (s + 1) hs' (by omega) (by
        intro i hi
        rcases Nat.lt_succ_iff_lt_or_eq.1 hi with h'' | rfl
        · exact h i h''
        · exact a)
      refine ⟨r, g1, g2, g3.imp id ?_⟩
      rintro ⟨s', g, m, l, h, k1, k⟩
      exact ⟨s', g, m, l, h, by omega, k⟩
    · exact big s hs (not_lt.1 a) h (n + 1)

/-- **C88, search.** If the number of points is defined for all resolutions from `10^-(k+1)`, and this one leaves enough points, the search ends with a resolution as
specified, which is not smaller. -/
theorem C88_search (k : Nat) (hk20 : k ≤ 20) (hc : ∀ x, (1 / 10 : K) ^ (k + 1) ≤ x → count x = .ok (size x)) (hk : target ≤ size ((1 / 10) ^ (k + 1))) :
    ∃ r, searchVoxelResolution count target = .ok r ∧ (1 / 10 : K) ^ (k + 1) ≤ r ∧ FoundResolution size target r := by
  obtain ⟨r, h1, h2, h3⟩ := search_shrink k hc hk 20 0 (by omega) (by omega) (by simp)
  have a1 : count (1 / 10) = .ok (size (1 / 10)) := hc _ (by
    calc (1 / 10 : K) ^ (k + 1) ≤ (1 / 10) ^ 1 := pow_le_pow_of_le_one (by norm_num) (by norm_num) (by omega)
      _ = 1 / 10 := pow_one _)
  have a2 : count 1 = .ok (size 1) := hc _ (pow_le_one₀ (by norm_num) (by norm_num))
  refine ⟨r, ?_, h2, ?_⟩
  · unfold searchVoxelResolution
    simp only [a1, a2, bind, Except.bind]
    simpa using h1
  · refine h3.imp id ?_
    rintro ⟨s', g, m, l, h, k1, k⟩
    exact ⟨s', g, m, l, h, by omega, k⟩

end search

/-! ### the sizes -/

theorem in21_grow {a b x : K} (ha : 0 < a) (hab : a ≤ b) (h : In21 ⌊x / a⌋) : In21 ⌊x / b⌋ := by
  obtain ⟨h1, h2⟩ := h
  have hb : 0 < b := lt_of_lt_of_le ha hab
  have h1' : ((-2 ^ 20 : Int) : K) ≤ x / a := Int.le_floor.1 h1
  have h2' : x / a < ((2 ^ 20 : Int) : K) := Int.floor_lt.1 (by omega)
  rw [le_div_iff₀ ha] at h1'
  rw [div_lt_iff₀ ha] at h2'
  push_cast at h1' h2'
  refine ⟨Int.le_floor.2 ?_, Int.le_sub_one_iff.2 (Int.floor_lt.2 ?_)⟩
  · rw [le_div_iff₀ hb]; push_cast; nlinarith
  · rw [div_lt_iff₀ hb]; push_cast; nlinarith

theorem gridInRange_grow {a b : K} (ha : 0 < a) (hab : a ≤ b) {p : Pt K} (h : GridInRange a p) : GridInRange b p :=
  ⟨in21_grow ha hab h.1, in21_grow ha hab h.2.1, in21_grow ha hab h.2.2.1, in21_grow ha hab h.2.2.2⟩

theorem keyDefined_of_inRange {leaf : K} {p : Pt K} (h : GridInRange leaf p) : KeyDefined leaf p := by
  have f : ∀ i, In21 i → KeyFits i := by
    intro i hi
    unfold In21 at hi
    unfold KeyFits INT_MIN INT_MAX
    omega
  exact ⟨f _ h.1, f _ h.2.1, f _ h.2.2.1, f _ h.2.2.2⟩

/-- The number of points a grid leaves is the number of cells. -/
theorem sizeAt_cells {sort : List (Nat × Nat) → List (Nat × Nat)} (hsort : SortSpec sort) {leaf : K} (hleaf : leaf ≠ 0) {raw : List (Pt K)}
    (hk : ∀ p ∈ raw, KeyDefined leaf p) (hw : ∀ p ∈ raw, p.w = 1) (hr : ∃ p ∈ raw, GridInRange leaf p) :
    sizeAt sort raw leaf = .ok (occupied leaf raw).card := by
  obtain ⟨cells, h1, h2, h3⟩ := C22_one_centroid_per_cell_partial hsort hleaf hk hw hr
  have e : cells.toFinset = occupied leaf raw := by
    ext c
    rw [List.mem_toFinset, h2]
    unfold occupied
    simp only [List.mem_toFinset, List.mem_map, List.mem_filter, decide_eq_true_eq, and_assoc]
  unfold sizeAt
  rw [h3, ← e, List.toFinset_card_of_nodup h1]
  simp [bind, Except.bind, pure, Except.pure]

theorem cells_all {leaf : K} {raw : List (Pt K)} (h : GridSeparates leaf raw) : (occupied leaf raw).card = raw.length := by
  unfold occupied
  rw [List.filter_eq_self.2 (fun p hp => by simpa using h.1 p hp), List.toFinset_card_of_nodup h.2, List.length_map]

theorem cells_le {leaf : K} {raw : List (Pt K)} : (occupied leaf raw).card ≤ raw.length := by
  unfold occupied
  refine (List.toFinset_card_le _).trans ?_
  rw [List.length_map]
  exact List.length_filter_le _ _

theorem cells_lt {leaf : K} {raw : List (Pt K)} (h : ¬ GridSeparates leaf raw) : (occupied leaf raw).card < raw.length := by
  rcases lt_or_eq_of_le (cells_le (leaf := leaf) (raw := raw)) with h' | h'
  · exact h'
  · exfalso
    refine h ?_
    unfold occupied at h'
    have a := List.toFinset_card_le ((raw.filter (fun p => decide (GridInRange leaf p))).map (gridCell leaf))
    rw [List.length_map] at a
    have b := List.length_filter_le (fun p => decide (GridInRange leaf p)) raw
    have c : raw.filter (fun p => decide (GridInRange leaf p)) = raw := List.filter_sublist.eq_of_length (by omega)
    rw [c] at h'
    refine ⟨fun p hp => by simpa using List.filter_eq_self.1 c p hp, ?_⟩
    rw [List.card_toFinset] at h'
    have d : (raw.map (gridCell leaf)).dedup = raw.map (gridCell leaf) := (List.dedup_sublist _).eq_of_length (by rw [h', List.length_map])
    rw [← d]
    exact List.nodup_dedup _

/-- What the size can be if the grid does not keep all points. -/
theorem sizeAt_lost {sort : List (Nat × Nat) → List (Nat × Nat)} (hsort : SortSpec sort) {leaf : K} (hleaf : leaf ≠ 0) {raw : List (Pt K)}
    (hw : ∀ p ∈ raw, p.w = 1) (h2 : 2 ≤ raw.length) (h : ¬ GridSeparates leaf raw) :
    sizeAt sort raw leaf = .error .intOverflow ∨ ∃ n, sizeAt sort raw leaf = .ok n ∧ n < raw.length := by
  by_cases hk : ∀ p ∈ raw, KeyDefined leaf p
  · right
    by_cases hr : ∃ p ∈ raw, GridInRange leaf p
    · exact ⟨_, sizeAt_cells hsort hleaf hk hw hr, cells_lt h⟩
    · push Not at hr
      have hne : raw ≠ [] := by rintro rfl; simp at h2
      obtain ⟨p, _, _, e⟩ := C22_all_out_of_range_emits_point hsort hleaf hk hw hne hr
      refine ⟨1, ?_, h2⟩
      unfold sizeAt
      rw [e]
      rfl
  · left
    push Not at hk
    unfold sizeAt
    rw [C22_undefined_outside_int hleaf hk]
    rfl

/-- The size is always a number, or the computation of a key leaves the integers. -/
theorem sizeAt_cases {sort : List (Nat × Nat) → List (Nat × Nat)} (hsort : SortSpec sort) {leaf : K} (hleaf : leaf ≠ 0) {raw : List (Pt K)}
    (hw : ∀ p ∈ raw, p.w = 1) (hne : raw ≠ []) :
    sizeAt sort raw leaf = .error .intOverflow ∨ ∃ n, sizeAt sort raw leaf = .ok n := by
  by_cases hk : ∀ p ∈ raw, KeyDefined leaf p
  · right
    by_cases hr : ∃ p ∈ raw, GridInRange leaf p
    · exact ⟨_, sizeAt_cells hsort hleaf hk hw hr⟩
    · push Not at hr
      obtain ⟨p, _, _, e⟩ := C22_all_out_of_range_emits_point hsort hleaf hk hw hne hr
      refine ⟨1, ?_⟩
      unfold sizeAt
      rw [e]
      rfl
  · left
    push Not at hk
    unfold sizeAt
    rw [C22_undefined_outside_int hleaf hk]
    rfl

/-- The fourth component of a point leaves the range of the keys from `10^-7` on, and the integers at `10^-10`. -/
theorem not_separates_small {raw : List (Pt K)} (hw : ∀ p ∈ raw, p.w = 1) (hne : raw ≠ []) {j : Nat} (hj : 7 ≤ j) : ¬ GridSeparates ((1 / 10 : K) ^ j) raw := by
  rintro ⟨h, _⟩
  obtain ⟨p, hp⟩ := List.exists_mem_of_ne_nil raw hne
  have h4 := (h p hp).2.2.2.2
  rw [hw p hp] at h4
  have e : (1 : K) / (1 / 10) ^ j = ((10 ^ j : Int) : K) := by rw [one_div_pow, one_div_one_div]; push_cast; rfl
  rw [e, Int.floor_intCast] at h4
  have : (10 : Int) ^ 7 ≤ 10 ^ j := pow_le_pow_right₀ (by norm_num) hj
  omega

theorem sizeAt_tenth {sort : List (Nat × Nat) → List (Nat × Nat)} {raw : List (Pt K)} (hw : ∀ p ∈ raw, p.w = 1) (hne : raw ≠ []) :
    sizeAt sort raw ((1 / 10) ^ 10) = .error .intOverflow := by
  obtain ⟨p, hp⟩ := List.exists_mem_of_ne_nil raw hne
  unfold sizeAt
  rw [C22_undefined_outside_int (by positivity) ⟨p, hp, ?_⟩]
  · rfl
  · intro h
    have h4 := h.2.2.2.2
    rw [hw p hp] at h4
    have e : (1 : K) / (1 / 10) ^ 10 = ((10 ^ 10 : Int) : K) := by norm_num
    rw [e, Int.floor_intCast] at h4
    unfold INT_MAX at h4
    norm_num at h4

/-- While no grid keeps all points, the search for all points shrinks its lower end until a key leaves the integers. -/
theorem search_undefined {sort : List (Nat × Nat) → List (Nat × Nat)} (hsort : SortSpec sort) {raw : List (Pt K)} (hw : ∀ p ∈ raw, p.w = 1) (h2 : 2 ≤ raw.length)
    (h : ∀ j, 1 ≤ j → j ≤ 6 → ¬ GridSeparates ((1 / 10 : K) ^ j) raw) :
    searchVoxelResolution (sizeAt sort raw) raw.length = .error .intOverflow := by
  have hne : raw ≠ [] := by rintro rfl; simp at h2
  have lost : ∀ j, 1 ≤ j → ¬ GridSeparates ((1 / 10 : K) ^ j) raw := by
    intro j hj
    rcases Nat.lt_or_ge j 7 with h' | h'
    · exact h j hj (by omega)
    · exact not_separates_small hw hne h'
  have loop : ∀ (d : Nat) (j n : Nat) (right : Probe K), 1 ≤ j → j + d = 9 → n < raw.length →
      searchLoop (sizeAt sort raw) raw.length (d + 1 + 11) ⟨(1 / 10) ^ j, n⟩ right = .error .intOverflow := by
    intro d
    induction d with
    | zero =>
      intro j n right h1 hj hn
      obtain rfl : j = 9 := by omega
      have e := sizeAt_tenth (sort := sort) hw hne
      rw [pow_succ] at e
      unfold searchLoop
      simp only [if_pos hn, e, bind, Except.bind]
    | succ d ih =>
      intro j n right h1 hj hn
      have e := sizeAt_lost hsort (leaf := (1 / 10 : K) ^ (j + 1)) (by positivity) hw h2 (lost (j + 1) (by omega))
      rcases e with e | ⟨m, e, hm⟩
      · rw [pow_succ] at e
        unfold searchLoop
        simp only [if_pos hn, e, bind, Except.bind]
      · have := ih (j + 1) m right (by omega) (by omega) hm
        rw [pow_succ] at e this
        conv_lhs => unfold searchLoop
        simp only [if_pos hn, e, bind, Except.bind]
        exact this
  unfold searchVoxelResolution
  rcases sizeAt_lost hsort (leaf := (1 / 10 : K) ^ 1) (by positivity) hw h2 (lost 1 le_rfl) with e | ⟨m, e, hm⟩
  · rw [pow_one] at e
    simp only [e, bind, Except.bind]
  · rw [pow_one] at e
    rcases sizeAt_cases hsort (leaf := (1 : K)) one_ne_zero hw hne with e' | ⟨m', e'⟩
    · simp only [e, e', bind, Except.bind]
    · simp only [e, e', bind, Except.bind]
      have e9 := loop 8 1 m ⟨1, m'⟩ le_rfl rfl hm
      rw [pow_one] at e9
      exact e9

/-! ### the ten resolutions -/

theorem mapM_each {α β : Type} (f : α → Res β) (P : α → β → Prop) : ∀ (l : List α), (∀ a ∈ l, ∃ b, f a = .ok b ∧ P a b) →
    ∃ bs, l.mapM f = .ok bs ∧ List.Forall₂ P l bs
  | [], _ => ⟨[], rfl, .nil⟩
  | a :: l, h => by
    obtain ⟨b, hb, pb⟩ := h a (by simp)
    obtain ⟨bs, hbs, pbs⟩ := mapM_each f P l (fun x hx => h x (by simp [hx]))
    refine ⟨b :: bs, ?_, .cons pb pbs⟩
    rw [List.mapM_cons, hb, hbs]
    rfl

/-- **C88, resolutions, partial.** If a grid of `10^-1` to `10^-6` keeps all points, the ten searches end, each with a resolution as specified for its target (the
`10, 9, …, 1` tenths of the number of points), and each cloud has one point for each cell of its grid. -/
theorem C88_resolutions_partial {sort : List (Nat × Nat) → List (Nat × Nat)} (hsort : SortSpec sort) {raw : List (Pt K)} (hw : ∀ p ∈ raw, p.w = 1) (hne : raw ≠ [])
    {j : Nat} (h1 : 1 ≤ j) (h6 : j ≤ 6) (hj : GridSeparates ((1 / 10 : K) ^ j) raw) :
    ∃ down, downsampleAll sort raw = .ok down ∧
      List.Forall₂ (fun (i : Nat) (rd : K × List (Pt K)) =>
        FoundResolution (fun x => (occupied x raw).card) (raw.length * (10 - i) / 10) rd.1 ∧ (1 / 10 : K) ^ j ≤ rd.1 ∧
        voxelgridSampling sort raw rd.1 = .ok rd.2 ∧ rd.2.length = (occupied rd.1 raw).card) (List.range 10) down := by
  have hc : ∀ x, (1 / 10 : K) ^ j ≤ x → sizeAt sort raw x = .ok (occupied x raw).card := by
    intro x hx
    have h0 : (0 : K) < (1 / 10) ^ j := by positivity
    have hr : ∀ p ∈ raw, GridInRange x p := fun p hp => gridInRange_grow h0 hx (hj.1 p hp)
    obtain ⟨p, hp⟩ := List.exists_mem_of_ne_nil raw hne
    exact sizeAt_cells hsort (by linarith) (fun p hp => keyDefined_of_inRange (hr p hp)) hw ⟨p, hp, hr p hp⟩
  obtain ⟨k, rfl⟩ : ∃ k, j = k + 1 := ⟨j - 1, by omega⟩
  have key : ∀ t ∈ targets raw.length, ∃ rd : K × List (Pt K), (do
      let r ← searchVoxelResolution (sizeAt sort raw) t
      let d ← voxelgridSampling sort raw r
      return (r, d)) = Except.ok rd ∧ (FoundResolution (fun x => (occupied x raw).card) t rd.1 ∧ (1 / 10 : K) ^ (k + 1) ≤ rd.1 ∧
        voxelgridSampling sort raw rd.1 = .ok rd.2 ∧ rd.2.length = (occupied rd.1 raw).card) := by
    intro t ht
    have htle : t ≤ raw.length := by
      obtain ⟨i, hi, rfl⟩ := List.mem_map.1 ht
      calc raw.length * (10 - i) / 10 ≤ raw.length * 10 / 10 := Nat.div_le_div_right (Nat.mul_le_mul_left _ (by omega))
        _ = raw.length := by omega
    obtain ⟨r, g1, g2, g3⟩ := C88_search (size := fun x => (occupied x raw).card) (target := t) k (by omega) hc (by rw [cells_all hj]; exact htle)
    have g4 := hc r g2
    unfold sizeAt at g4
    cases hv : voxelgridSampling sort raw r with
    | error e => rw [hv] at g4; cases g4
    | ok d =>
      rw [hv] at g4
      have g5 : d.length = (occupied r raw).card := by simpa [bind, Except.bind, pure, Except.pure] using g4
      exact ⟨(r, d), by simp only [g1, hv, bind, Except.bind, pure, Except.pure], g3, g2, hv, g5⟩
  obtain ⟨down, d1, d2⟩ := mapM_each _ _ _ key
  refine ⟨down, d1, ?_⟩
  unfold targets at d2
  exact List.forall₂_map_left_iff.1 d2

/-- **C88, resolutions, violated.** With two points or more, if no grid of `10^-1` to `10^-6` keeps all points, the program is undefined. -/
theorem C88_resolutions_violated {sort : List (Nat × Nat) → List (Nat × Nat)} (hsort : SortSpec sort) {raw : List (Pt K)} (hw : ∀ p ∈ raw, p.w = 1) (h2 : 2 ≤ raw.length)
    (h : ∀ j, 1 ≤ j → j ≤ 6 → ¬ GridSeparates ((1 / 10 : K) ^ j) raw) : downsampleAll sort raw = .error .intOverflow := by
  unfold downsampleAll targets
  have e : (List.range 10).map (fun j => raw.length * (10 - j) / 10) = raw.length :: ((List.range 9).map (fun j => raw.length * (10 - (j + 1)) / 10)) := by
    rw [List.range_succ_eq_map]
    simp only [List.map_cons, List.map_map, Function.comp_def]
    congr 1
    omega
  rw [e, List.mapM_cons, search_undefined hsort hw h2 h]
  rfl

/-- Two equal points are enough for that, whatever the rest is. -/
theorem C88_duplicate_violated {sort : List (Nat × Nat) → List (Nat × Nat)} (hsort : SortSpec sort) {raw : List (Pt K)} (hw : ∀ p ∈ raw, p.w = 1) (h : ¬ raw.Nodup) :
    downsampleAll sort raw = .error .intOverflow := by
  refine C88_resolutions_violated hsort hw ?_ ?_
  · by_contra h'
    apply h
    match raw, not_le.1 h' with
    | [], _ => exact List.nodup_nil
    | [a], _ => exact List.nodup_singleton a
    | a :: b :: l, hl => simp only [List.length_cons] at hl; omega
  · rintro j _ _ ⟨_, hn⟩
    exact h (List.Nodup.of_map _ hn)

/-! ### the program -/

/-- **C88, program.** With a readable scan whose points a grid of `10^-1` to `10^-6` keeps apart, and with options of the right form, the program finds the ten resolutions; then it
returns 0 with the measurements of the ten clouds, unless a measurement fails. -/
theorem C88_main_partial (s : Setup K) (hsort : SortSpec s.sort) (disk : Disk) (prog path : Text) (args : List Text) (o : Options) (first : List Files.V4)
    (rest : List (List Files.V4)) (hscan : KdtreeBenchmark.scan s.stoi Options.default (path :: args) = .ok (some o)) (hdata : kittiDataset s.sortText disk path 1 = .ok (first :: rest))
    (hne : first ≠ []) {j : Nat} (h1 : 1 ≤ j) (h6 : j ≤ 6) (hj : GridSeparates ((1 / 10 : K) ^ j) (rawCloud s.value first)) :
    ∃ down : List (K × List (Pt K)), down.length = 10 ∧
      (∀ (i : Nat) (r : K) (d : List (Pt K)), down[i]? = some (r, d) → FoundResolution (fun x => (occupied x (rawCloud s.value first)).card) (first.length * (10 - i) / 10) r ∧
        d.length = (occupied r (rawCloud s.value first)).card) ∧
      KdtreeBenchmark.main s disk (prog :: path :: args) = (measureAll s o (down.map (·.2))).map (fun reports => ⟨0, down.map (fun rd => (rd.1, rd.2.length)), reports⟩) := by
  have hw : ∀ p ∈ rawCloud s.value first, p.w = 1 := by
    intro p hp
    obtain ⟨v, _, rfl⟩ := List.mem_map.1 hp
    rfl
  obtain ⟨down, d1, d2⟩ := C88_resolutions_partial hsort hw (by unfold rawCloud; simpa using hne) h1 h6 hj
  refine ⟨down, by simpa using d2.length_eq.symm, ?_, ?_⟩
  · intro i r d hd
    have hi : i < 10 := by
      have := (List.getElem?_eq_some_iff.1 hd).1
      have := d2.length_eq
      simp at this
      omega
    have := (List.forall₂_iff_get.1 d2).2 i (by simpa using hi) (List.getElem?_eq_some_iff.1 hd).1
    simp only [List.get_eq_getElem, List.getElem_range, (List.getElem?_eq_some_iff.1 hd).2] at this
    have hl : (rawCloud s.value first).length = first.length := by unfold rawCloud; rw [List.length_map]
    rw [hl] at this
    exact ⟨this.1, this.2.2.2⟩
  · have hl : ¬ (prog :: path :: args).length < 2 := by simp
    unfold KdtreeBenchmark.main
    rw [if_neg hl]
    have e1 : rd (prog :: path :: args) 1 = .ok path := rfl
    have e2 : rd (first :: rest) 0 = .ok first := rfl
    simp only [e1, List.drop_succ_cons, List.drop_zero, hscan, hdata, e2, d1, bind, Except.bind, pure, Except.pure]
    cases measureAll s o (down.map (·.2)) <;> rfl

/-- **C88, program, violated.** If the first scan contains a point twice, the program is undefined, whatever is to be measured. -/
theorem C88_main_violated (s : Setup K) (hsort : SortSpec s.sort) (disk : Disk) (prog path : Text) (args : List Text) (o : Options) (first : List Files.V4)
    (rest : List (List Files.V4)) (hscan : KdtreeBenchmark.scan s.stoi Options.default (path :: args) = .ok (some o)) (hdata : kittiDataset s.sortText disk path 1 = .ok (first :: rest))
    (h : ¬ (first.map (fun v => (v.x, v.y, v.z))).Nodup) : KdtreeBenchmark.main s disk (prog :: path :: args) = .error .intOverflow := by
  have hw : ∀ p ∈ rawCloud s.value first, p.w = 1 := by
    intro p hp
    obtain ⟨v, _, rfl⟩ := List.mem_map.1 hp
    rfl
  have hd : ¬ (rawCloud s.value first).Nodup := by
    intro hn
    apply h
    have e : rawCloud s.value first = (first.map (fun v => (v.x, v.y, v.z))).map (fun t => (⟨s.value t.1, s.value t.2.1, s.value t.2.2, 1⟩ : Pt K)) := by
      unfold rawCloud
      rw [List.map_map]
      rfl
    rw [e] at hn
    exact List.Nodup.of_map _ hn
  have hl : ¬ (prog :: path :: args).length < 2 := by simp
  unfold KdtreeBenchmark.main
  rw [if_neg hl]
  have e1 : rd (prog :: path :: args) 1 = .ok path := rfl
  have e2 : rd (first :: rest) 0 = .ok first := rfl
  simp only [e1, List.drop_succ_cons, List.drop_zero, hscan, hdata, e2, C88_duplicate_violated hsort hw hd, bind, Except.bind, pure, Except.pure]

/-- **C88, no data, violated.** Without a scan in the directory the program reads an element that does not exist. -/
theorem C88_empty_violated (s : Setup K) (disk : Disk) (prog path : Text) (args : List Text) (o : Options)
    (hscan : KdtreeBenchmark.scan s.stoi Options.default (path :: args) = .ok (some o)) (hdata : kittiDataset s.sortText disk path 1 = .ok []) :
    KdtreeBenchmark.main s disk (prog :: path :: args) = .error .oob := by
  have hl : ¬ (prog :: path :: args).length < 2 := by simp
  unfold KdtreeBenchmark.main
  rw [if_neg hl]
  have e1 : rd (prog :: path :: args) 1 = .ok path := rfl
  have e2 : rd ([] : List (List Files.V4)) 0 = .error .oob := rfl
  simp only [e1, List.drop_succ_cons, List.drop_zero, hscan, hdata, e2, bind, Except.bind, pure, Except.pure]

/-! ### the measurements -/

/-- **C88, measurements.** With the method `small` and a number of threads other than 1 — so with the default options — nothing is measured, and likewise with a method the
program does not know. Otherwise there is one report for each cloud, with the mean and the deviation of as many times as trials were asked for (NaN for none), if the
trees can be built and the median is defined. -/
theorem C88_measurements (s : Setup K) (o : Options) (clouds : List (List (Pt K))) :
    (o.method = mSmall → o.numThreads ≠ 1 → measureAll s o clouds = .ok []) ∧
    (o.method ≠ mSmall → o.method ≠ mOmp → (o.method ≠ mTbb ∨ s.withTbb = false) → measureAll s o clouds = .ok []) ∧
    ((o.method = mSmall ∧ o.numThreads = 1) ∨ o.method = mOmp ∨ (o.method = mTbb ∧ s.withTbb = true) → StaysInRange s.nthElement →
      (∀ c ∈ clouds, s.build o.method o.numThreads c = .ok ()) → 0 ≤ o.numTrials → o.numTrials < 2 ^ 31 →
      ∃ reports, measureAll s o clouds = .ok reports ∧ reports.length = clouds.length ∧
        ∀ (i : Nat) (r : Report K), reports[i]? = some r → r.meanStd = if o.numTrials = 0 then none else
          some (averageOf ((List.range o.numTrials.toNat).map (s.msec i)), s.sqrt (varianceOf ((List.range o.numTrials.toNat).map (s.msec i))))) := by
  refine ⟨fun h h' => ?_, fun h h' h'' => ?_, fun hm hn hb h0 h31 => ?_⟩
  · unfold measureAll; rw [if_pos h, if_pos h']
  · unfold measureAll
    rw [if_neg h, if_neg h', if_neg]
    rintro ⟨a, b⟩
    rcases h'' with h'' | h''
    · exact h'' b
    · rw [h''] at a; simp at a
  · have eU : toU64 o.numTrials = o.numTrials.toNat := by unfold toU64; omega
    have one : ∀ ci ∈ clouds.zipIdx, ∃ r : Report K, KdtreeBenchmark.measure s o ci.2 ci.1 = .ok r ∧ r.meanStd = if o.numTrials = 0 then none else
          some (averageOf ((List.range o.numTrials.toNat).map (s.msec ci.2)), s.sqrt (varianceOf ((List.range o.numTrials.toNat).map (s.msec ci.2)))) := by
      rintro ⟨c, i⟩ hci
      have hc : c ∈ clouds := by
        have := List.mem_zipIdx hci
        rw [this.2.2]; exact List.getElem_mem _
      have ef : (List.range o.numTrials.toNat).foldl (fun t j => t.push (s.msec i j)) (Summarizer.init true) =
          ((List.range o.numTrials.toNat).map (s.msec i)).foldl Summarizer.push (Summarizer.init true : Summarizer K) := by
        rw [List.foldl_map]
      have hb' : (if toU64 o.numTrials ≠ 0 then s.build o.method o.numThreads c else pure PUnit.unit) = (Except.ok () : Res Unit) := by
        split
        · exact hb c hc
        · rfl
      by_cases hz : o.numTrials = 0
      · have ms := (C79_mean_std (K := K) true s.sqrt ([] : List K)).2 rfl
        refine ⟨⟨none, none⟩, ?_, by simp [hz]⟩
        unfold KdtreeBenchmark.measure
        have hz' : toU64 o.numTrials = 0 := by rw [eU, hz]; rfl
        simp only [hz', ne_eq, not_true_eq_false, if_false, List.range_zero, List.foldl_nil, bind, Except.bind, pure, Except.pure]
        simp only [List.foldl_nil] at ms
        rw [ms.2 s.nthElement, ms.1]
      · have hne : (List.range o.numTrials.toNat).map (s.msec i) ≠ [] := by
          intro h
          have : o.numTrials.toNat = 0 := by simpa using h
          omega
        have ms := ((C79_mean_std (K := K) true s.sqrt _).1 hne).1
        obtain ⟨x, _, md, _⟩ := (C79_median_partial s.nthElement hn _ hne).1
        refine ⟨⟨_, some x⟩, ?_, by rw [if_neg hz]⟩
        unfold KdtreeBenchmark.measure
        have hz' : toU64 o.numTrials ≠ 0 := by rw [eU]; omega
        simp only [if_pos hz', hb c hc, bind, Except.bind, pure, Except.pure]
        rw [eU, ef, md]
        simp only [ms]
    obtain ⟨rs, h1, h2⟩ := mapM_each _ _ _ one
    refine ⟨rs, ?_, by simpa using h2.length_eq.symm, ?_⟩
    · unfold measureAll
      rcases hm with ⟨a, b⟩ | a | ⟨a, b⟩
      · rw [if_pos a, if_neg (by simpa using b)]; exact h1
      · rw [if_neg (by rw [a]; decide), if_pos a]; exact h1
      · rw [if_neg (by rw [a]; decide), if_neg (by rw [a]; decide), if_pos ⟨b, a⟩]; exact h1
    · intro i r hr
      have hi := (List.getElem?_eq_some_iff.1 hr).1
      have hi' : i < clouds.zipIdx.length := by rw [h2.length_eq]; exact hi
      have := (List.forall₂_iff_get.1 h2).2 i hi' hi
      simp only [List.get_eq_getElem, (List.getElem?_eq_some_iff.1 hr).2, List.getElem_zipIdx, Nat.zero_add] at this
      exact this

/-- A negative number of trials is taken for a number near `2^64`. -/
theorem C88_negative_trials (n : Nat) (h0 : 0 < n) (h : n ≤ 2 ^ 31) : toU64 (-(n : Int)) = 2 ^ 64 - n := by
  unfold toU64
  omega

/-! ### cases -/

/-- A directory with one scan of three points; the last is equal to the first, or not. -/
def threeDisk (twice : Bool) : Disk where
  dir _ := some [['a', '.', 'b', 'i', 'n']]
  file _ := some (Files.writePoints [⟨.zero, .zero, .zero, .zero⟩, ⟨.one, .zero, .zero, .zero⟩, ⟨if twice then .zero else ⟨0, 0, 0x80, 0xbf⟩, .zero, .zero, .zero⟩])
  writable _ := false

/-- A scan of three points, read from the directory. -/
def threeScan (twice : Bool) : List Files.V4 :=
  [⟨.zero, .zero, .zero, .one⟩, ⟨.one, .zero, .zero, .one⟩, ⟨if twice then .zero else ⟨0, 0, 0x80, 0xbf⟩, .zero, .zero, .one⟩]

/-- Values of the floats `0`, `1` and `-1`. -/
def threeValue (f : Files.F32) : ℚ := if f = .one then 1 else if f = ⟨0, 0, 0x80, 0xbf⟩ then -1 else 0

/-- A program for this scan. -/
def threeSetup : Setup ℚ where
  stoi t := if t = ['1'] then .ok 1 else .error .exception
  sortText l := l
  value := threeValue
  sort := keySort
  build _ _ _ := .ok ()
  withTbb := false
  msec i j := i + j
  sqrt x := x
  nthElement l _ _ := .ok l

example : kittiDataset threeSetup.sortText (threeDisk true) ['d'] 1 = .ok [threeScan true] ∧ kittiDataset threeSetup.sortText (threeDisk false) ['d'] 1 = .ok [threeScan false] :=
  ⟨rfl, rfl⟩

example : KdtreeBenchmark.scan threeSetup.stoi Options.default [['d'], kwNumThreads, ['1'], kwMethod, mOmp] = .ok (some ⟨1, 100, mOmp⟩) := rfl

/-- The hypotheses of `C88_main_partial` are met by a scan of three different points. -/
example : SortSpec threeSetup.sort ∧ GridSeparates ((1 / 10 : ℚ) ^ 1) (rawCloud threeSetup.value (threeScan false)) := by
  refine ⟨keySort_spec, ?_, ?_⟩ <;> decide +kernel

/-- The program is undefined on a scan that contains a point twice, … -/
example : KdtreeBenchmark.main threeSetup (threeDisk true) [['p'], ['d']] = .error .intOverflow :=
  C88_main_violated threeSetup keySort_spec (threeDisk true) ['p'] ['d'] [] Options.default (threeScan true) [] rfl rfl (by decide +kernel)

/-- … and on two points less than a thousandth of a millimetre apart. -/
example : downsampleAll keySort [⟨0, 0, 0, 1⟩, ⟨1 / 10 ^ 7, 0, 0, 1⟩, ⟨5, 0, 0, (1 : ℚ)⟩] = .error .intOverflow := by
  refine C88_resolutions_violated keySort_spec (by decide +kernel) (by decide) ?_
  intro j h1 h6
  unfold GridSeparates
  interval_cases j <;> decide +kernel

/-- The search for three of three points stops at the first middle. -/
example : searchVoxelResolution (sizeAt keySort (rawCloud threeValue (threeScan false))) 3 = .ok (11 / 20) := by decide +kernel

example : StaysInRange threeSetup.nthElement := fun l _ _ _ => ⟨l, rfl, List.Perm.refl _, rfl⟩

end Verif.Props
