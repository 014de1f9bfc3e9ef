import Verif.Proofs.Downsampling
import Verif.Proofs.DownsamplePar
import Mathlib.Data.Finset.Card

/-!
Serial and block-wise sampling in terms of the runs of the sorted array.
-/

set_option linter.unusedSectionVars false

namespace Verif.Proofs

open Verif Verif.Spec Verif.Downsample

variable {K : Type} [Field K] [LinearOrder K] [IsStrictOrderedRing K] [FloorRing K]

def readP (points : List (Pt K)) (ki : Nat × Nat) : Nat × Pt K := (ki.1, points[ki.2]?.getD (Pt.zero (exactOps K)))

/-- The array of keys and indices. -/
def cpOf (leaf : K) (points : List (Pt K)) : List (Nat × Nat) := points.zipIdx.map (fun pi => (keyOf leaf pi.1, pi.2))

theorem cpOf_length (leaf : K) (points : List (Pt K)) : (cpOf leaf points).length = points.length := by simp [cpOf]

theorem cpOf_reads (leaf : K) (points : List (Pt K)) : ∀ ki ∈ cpOf leaf points, Reads points ki (readP points ki) := by
  intro ki hki
  obtain ⟨⟨p, i⟩, hpi, rfl⟩ := List.mem_map.1 hki
  have h := List.mem_zipIdx_iff_getElem?.1 hpi
  refine ⟨rfl, ?_⟩
  simp only [readP, h, Option.getD_some]
  exact rd_of_getElem? h

theorem cpOf_key (leaf : K) (points : List (Pt K)) : ∀ ki ∈ cpOf leaf points, ki.1 = keyOf leaf (readP points ki).2 := by
  intro ki hki
  obtain ⟨⟨p, i⟩, hpi, rfl⟩ := List.mem_map.1 hki
  have h := List.mem_zipIdx_iff_getElem?.1 hpi
  simp only [readP, h, Option.getD_some]

theorem cpOf_le (leaf : K) (points : List (Pt K)) : ∀ ki ∈ cpOf leaf points, ki.1 ≤ INVALID_COORD := by
  intro ki hki
  rw [cpOf_key leaf points ki hki]; exact keyOf_le _ _

theorem cpOf_map (leaf : K) (points : List (Pt K)) :
    (cpOf leaf points).map (readP points) = points.map (fun p => (keyOf leaf p, p)) := by
  apply List.ext_getElem?
  intro i
  simp only [cpOf, List.getElem?_map, List.getElem?_zipIdx, Option.map_map]
  cases h : points[i]? with
  | none => rfl
  | some p => simp [readP, h]

/-- Valid part of a block. -/
def validOf (c : List (Nat × Nat)) : List (Nat × Nat) := c.filter (fun x => decide (x.1 ≠ INVALID_COORD))

/-- Runs of a block. -/
def runsOf (points : List (Pt K)) (c : List (Nat × Nat)) : List (Nat × List (Pt K)) := groups ((validOf c).map (readP points))

/-- The out-of-range point emitted by a block that starts with one. -/
def strayOf (points : List (Pt K)) (c : List (Nat × Nat)) : List (Pt K) :=
  match c with
  | [] => []
  | ki :: _ => if ki.1 = INVALID_COORD then [(readP points ki).2] else []

theorem forall₂_map_reads (points : List (Pt K)) : ∀ l : List (Nat × Nat), (∀ ki ∈ l, Reads points ki (readP points ki)) →
    List.Forall₂ (Reads points) l (l.map (readP points))
  | [], _ => .nil
  | x :: l, h => .cons (h x (by simp)) (forall₂_map_reads points l (fun y hy => h y (by simp [hy])))

/-- Output of one block. -/
theorem blockPoints_chunk {points : List (Pt K)} {c : List (Nat × Nat)} (hne : c ≠ [])
    (hs : c.Pairwise (fun a b => a.1 ≤ b.1)) (hle : ∀ x ∈ c, x.1 ≤ INVALID_COORD)
    (hr : ∀ ki ∈ c, Reads points ki (readP points ki)) (hw : ∀ p ∈ points, p.w = 1) :
    blockPoints points c = .ok ((runsOf points c).map (fun g => centroid g.2) ++ strayOf points c) := by
  have hsp := split_valid c hs hle
  have hmem : ∀ ki ∈ c, (readP points ki).2 ∈ points := by
    intro ki hki
    have := (hr ki hki).2
    unfold rd at this
    split at this
    · rename_i h; cases this; exact List.mem_of_getElem? h
    · cases this
  cases c with
  | nil => exact absurd rfl hne
  | cons ki I =>
    by_cases hk : ki.1 = INVALID_COORD
    · have hall : ∀ y ∈ ki :: I, y.1 = INVALID_COORD := by
        intro y hy
        rw [List.pairwise_cons] at hs
        rcases List.mem_cons.1 hy with e | e
        · subst e; exact hk
        · exact le_antisymm (hle y hy) (hk ▸ hs.1 y e)
      rw [blockPoints_invalid hall (hr ki (by simp)).2]
      have h1 : validOf (ki :: I) = [] := by
        unfold validOf; rw [List.filter_eq_nil_iff]; intro y hy; simp [hall y hy]
      have h2 : normalise (readP points ki).2 = (readP points ki).2 := by
        have := hw _ (hmem ki (by simp))
        generalize (readP points ki).2 = p at *
        obtain ⟨x, y, z, w⟩ := p
        simp only at this
        simp [normalise, Pt.sdiv, exactOps, this]
      simp only [runsOf, h1, List.map_nil, groups, strayOf, if_pos hk, h2, List.nil_append]
    · have hv : validOf (ki :: I) ≠ [] := by
        unfold validOf; rw [List.filter_cons_of_pos (by simpa using hk)]; simp
      have hb := blockPoints_groups (points := points) (V := validOf (ki :: I))
        (I := (ki :: I).filter (fun x => decide (x.1 = INVALID_COORD))) (VP := (validOf (ki :: I)).map (readP points))
        (by intro x hx; simpa using (List.mem_filter.1 hx).2) (by intro x hx; simpa using (List.mem_filter.1 hx).2) hv
        (forall₂_map_reads points _ (fun y hy => hr y (List.mem_filter.1 hy).1))
      unfold validOf at hb
      rw [← hsp] at hb
      rw [hb]
      simp only [strayOf, if_neg hk, List.append_nil, runsOf, validOf]
      congr 1
      apply List.map_congr_left
      intro g hg
      apply normalise_sumP
      intro p hp
      have := groups_mem _ g hg p hp
      obtain ⟨y, hy, e⟩ := List.mem_map.1 this
      have := hmem y (List.mem_filter.1 hy).1
      rw [e] at this
      exact hw p this

section Sorted
variable {leaf : K} {points : List (Pt K)} {S : List (Nat × Nat)}

/-- Valid part of the sorted array, as keyed points. -/
theorem valid_perm (hp : S.Perm (cpOf leaf points)) :
    ((validOf S).map (readP points)).Perm ((points.filter (fun p => decide (GridInRange leaf p))).map (fun p => (keyOf leaf p, p))) := by
  have h1 : ((validOf S).map (readP points)).Perm ((validOf (cpOf leaf points)).map (readP points)) := (hp.filter _).map _
  refine h1.trans ?_
  have h2 : (validOf (cpOf leaf points)).map (readP points) =
      ((cpOf leaf points).map (readP points)).filter (fun x => decide (x.1 ≠ INVALID_COORD)) := by
    rw [List.filter_map]; rfl
  rw [h2, cpOf_map, List.filter_map]
  have h3 : points.filter ((fun x : Nat × Pt K => decide (x.1 ≠ INVALID_COORD)) ∘ fun p => (keyOf leaf p, p)) =
      points.filter (fun p => decide (GridInRange leaf p)) := by
    congr 1
    funext p
    simp only [Function.comp]
    exact decide_eq_decide.2 keyOf_ne_invalid
  rw [h3]

theorem valid_sorted (hs : S.Pairwise (fun a b => a.1 ≤ b.1)) :
    ((validOf S).map (readP points)).Pairwise (fun a b => a.1 ≤ b.1) := by
  rw [List.pairwise_map]
  exact (hs.sublist List.filter_sublist).imp (fun h => h)

/-- Keyed points have the key of an in-range point. -/
theorem valid_key (hp : S.Perm (cpOf leaf points)) {x : Nat × Pt K} (hx : x ∈ (validOf S).map (readP points)) :
    x.2 ∈ points ∧ GridInRange leaf x.2 ∧ x.1 = encode (gridCell leaf x.2) := by
  have := (valid_perm hp).mem_iff.1 hx
  obtain ⟨p, hpm, rfl⟩ := List.mem_map.1 this
  rw [List.mem_filter] at hpm
  have hr : GridInRange leaf p := by simpa using hpm.2
  exact ⟨hpm.1, hr, by simp [keyOf, hr]⟩

/-- The cells in the order of the sorted array. -/
def cellsOf (points : List (Pt K)) (S : List (Nat × Nat)) : List (Int × Int × Int) := (runsOf points S).map (fun g => decode g.1)

theorem run_cell (hp : S.Perm (cpOf leaf points)) {g} (hg : g ∈ runsOf points S) :
    g.2 ≠ [] ∧ CellIn (decode g.1) ∧ encode (decode g.1) = g.1 ∧
      ∀ p ∈ g.2, p ∈ points ∧ GridInRange leaf p ∧ gridCell leaf p = decode g.1 := by
  have hall : ∀ p ∈ g.2, p ∈ points ∧ GridInRange leaf p ∧ g.1 = encode (gridCell leaf p) := by
    intro p hpg
    exact valid_key hp (groups_mem _ g hg p hpg)
  have hne := groups_nonempty _ g hg
  obtain ⟨p, hpg⟩ := List.exists_mem_of_ne_nil _ hne
  obtain ⟨_, hr, hk⟩ := hall p hpg
  have hd : decode g.1 = gridCell leaf p := by rw [hk, decode_encode (cellIn_of hr)]
  refine ⟨hne, ?_, ?_, ?_⟩
  · rw [hd]; exact cellIn_of hr
  · rw [hd, hk]
  · intro q hq
    obtain ⟨h1, h2, h3⟩ := hall q hq
    exact ⟨h1, h2, by rw [h3, decode_encode (cellIn_of h2)]⟩

theorem cells_sorted (hp : S.Perm (cpOf leaf points)) (hs : S.Pairwise (fun a b => a.1 ≤ b.1)) :
    (cellsOf points S).Pairwise (fun c d => encode c < encode d) := by
  unfold cellsOf
  rw [List.pairwise_map]
  have := groups_sorted _ (valid_sorted (points := points) hs)
  refine List.Pairwise.imp_of_mem ?_ this
  intro g h hg hh hlt
  rw [(run_cell hp hg).2.2.1, (run_cell hp hh).2.2.1]
  exact hlt

theorem cells_nodup (hp : S.Perm (cpOf leaf points)) (hs : S.Pairwise (fun a b => a.1 ≤ b.1)) : (cellsOf points S).Nodup :=
  (cells_sorted hp hs).imp (fun h e => by rw [e] at h; omega)

theorem cells_mem (hp : S.Perm (cpOf leaf points)) (c) : c ∈ cellsOf points S ↔ c ∈ occupied leaf points := by
  unfold cellsOf occupied
  rw [List.mem_toFinset]
  constructor
  · intro h
    obtain ⟨g, hg, rfl⟩ := List.mem_map.1 h
    obtain ⟨hne, _, _, hall⟩ := run_cell hp hg
    obtain ⟨p, hpg⟩ := List.exists_mem_of_ne_nil _ hne
    obtain ⟨h1, h2, h3⟩ := hall p hpg
    exact List.mem_map.2 ⟨p, List.mem_filter.2 ⟨h1, by simpa using h2⟩, h3⟩
  · intro h
    obtain ⟨p, hpm, rfl⟩ := List.mem_map.1 h
    have hr : GridInRange leaf p := by simpa using (List.mem_filter.1 hpm).2
    have hx : (keyOf leaf p, p) ∈ (validOf S).map (readP points) := (valid_perm hp).mem_iff.2 (List.mem_map.2 ⟨p, hpm, rfl⟩)
    have hk : keyOf leaf p ∈ (groups ((validOf S).map (readP points))).map Prod.fst :=
      (groups_keys _ _).2 (List.mem_map.2 ⟨_, hx, rfl⟩)
    obtain ⟨g, hg, e⟩ := List.mem_map.1 hk
    refine List.mem_map.2 ⟨g, hg, ?_⟩
    rw [e]; unfold keyOf; rw [if_pos hr, decode_encode (cellIn_of hr)]

theorem cells_card (hp : S.Perm (cpOf leaf points)) (hs : S.Pairwise (fun a b => a.1 ≤ b.1)) :
    (runsOf points S).length = (occupied leaf points).card := by
  have h1 : (cellsOf points S).toFinset = occupied leaf points := by
    ext c; rw [List.mem_toFinset]; exact cells_mem hp c
  rw [← h1, List.toFinset_card_of_nodup (cells_nodup hp hs)]
  simp [cellsOf]

/-- Each run holds exactly the points of its cell. -/
theorem run_perm (hp : S.Perm (cpOf leaf points)) (hs : S.Pairwise (fun a b => a.1 ≤ b.1)) {g} (hg : g ∈ runsOf points S) :
    g.2.Perm (cellPoints leaf points (decode g.1)) := by
  have h1 := groups_filter _ (valid_sorted (points := points) hs) g hg
  rw [h1]
  have h2 := (((valid_perm hp).filter (fun x => decide (x.1 = g.1))).map Prod.snd)
  refine h2.trans ?_
  rw [List.filter_map, List.map_map]
  have h3 : (Prod.snd ∘ fun p : Pt K => (keyOf leaf p, p)) = id := rfl
  rw [h3, List.map_id, List.filter_filter]
  unfold cellPoints
  obtain ⟨_, hin, he, _⟩ := run_cell hp hg
  have h4 : points.filter (fun a => ((fun x : Nat × Pt K => decide (x.1 = g.1)) ∘ fun p => (keyOf leaf p, p)) a && decide (GridInRange leaf a)) =
      points.filter (fun p => decide (GridInRange leaf p ∧ gridCell leaf p = decode g.1)) := by
    congr 1
    funext p
    simp only [Function.comp]
    rw [← Bool.decide_and]
    apply decide_eq_decide.2
    constructor
    · rintro ⟨hk, hr⟩
      refine ⟨hr, ?_⟩
      unfold keyOf at hk
      rw [if_pos hr] at hk
      rw [← hk, decode_encode (cellIn_of hr)]
    · rintro ⟨hr, hc⟩
      refine ⟨?_, hr⟩
      unfold keyOf
      rw [if_pos hr, hc, he]
  rw [h4]

theorem runs_map (hp : S.Perm (cpOf leaf points)) (hs : S.Pairwise (fun a b => a.1 ≤ b.1)) :
    (runsOf points S).map (fun g => centroid g.2) = (cellsOf points S).map (fun c => centroid (cellPoints leaf points c)) := by
  unfold cellsOf
  rw [List.map_map]
  apply List.map_congr_left
  intro g hg
  exact centroid_perm (run_perm hp hs hg)

/-- Serial sampling in closed form. -/
theorem voxelgridSampling_eq {sort : List (Nat × Nat) → List (Nat × Nat)} (hsort : SortSpec sort) (hleaf : leaf ≠ 0)
    (hk : ∀ p ∈ points, KeyDefined leaf p) (hw : ∀ p ∈ points, p.w = 1) (hne : points ≠ []) :
    voxelgridSampling sort points leaf =
      .ok ((cellsOf points (sort (cpOf leaf points))).map (fun c => centroid (cellPoints leaf points c)) ++
        strayOf points (sort (cpOf leaf points))) := by
  obtain ⟨hp, hs⟩ := hsort (cpOf leaf points)
  have hlen : points.length ≠ 0 := fun e => hne (List.length_eq_zero_iff.1 e)
  have hSlen : (sort (cpOf leaf points)).length = points.length := by rw [hp.length_eq, cpOf_length]
  have hSne : sort (cpOf leaf points) ≠ [] := by
    intro e; rw [e] at hSlen; exact hlen hSlen.symm
  unfold voxelgridSampling
  rw [if_neg hlen, if_neg hleaf, coordPt_eq hk]
  have hb := blockPoints_chunk hSne hs (fun x hx => cpOf_le leaf points x (hp.mem_iff.1 hx))
    (fun x hx => cpOf_reads leaf points x (hp.mem_iff.1 hx)) hw
  simp only [bind, Except.bind, pure, Except.pure]
  have hcp : points.zipIdx.map (fun pi => (keyOf leaf pi.1, pi.2)) = cpOf leaf points := rfl
  rw [hcp, hb, runs_map hp hs]
  simp only
  rw [if_pos]
  rw [← runs_map hp hs, List.length_append, List.length_map, ← hSlen]
  have h1 : (runsOf points (sort (cpOf leaf points))).length ≤ (validOf (sort (cpOf leaf points))).length := by
    refine (groups_length_le _).trans ?_
    simp
  cases hS : sort (cpOf leaf points) with
  | nil => exact absurd hS hSne
  | cons ki I =>
    rw [hS] at h1
    by_cases hki : ki.1 = INVALID_COORD
    · have : (validOf (ki :: I)).length ≤ I.length := by
        unfold validOf; rw [List.filter_cons_of_neg (by simpa using hki)]; exact List.length_filter_le _ _
      simp only [strayOf, if_pos hki, List.length_cons, List.length_nil]; omega
    · have : (validOf (ki :: I)).length ≤ (ki :: I).length := List.length_filter_le _ _
      simp only [strayOf, if_neg hki, List.length_nil]; omega

/-- With an in-range point nothing stray is emitted. -/
theorem stray_nil (hp : S.Perm (cpOf leaf points)) (hs : S.Pairwise (fun a b => a.1 ≤ b.1))
    (hr : ∃ p ∈ points, GridInRange leaf p) : strayOf points S = [] := by
  cases hS : S with
  | nil => rfl
  | cons ki I =>
    simp only [strayOf]
    rw [if_neg]
    intro hk
    obtain ⟨p, hpm, hr⟩ := hr
    obtain ⟨i, hi⟩ := List.getElem?_of_mem hpm
    have hm : (keyOf leaf p, i) ∈ S :=
      hp.mem_iff.2 (List.mem_map.2 ⟨(p, i), List.mem_zipIdx_iff_getElem?.2 hi, rfl⟩)
    have hle : ki.1 ≤ keyOf leaf p := by
      rw [hS] at hs hm
      rw [List.pairwise_cons] at hs
      rcases List.mem_cons.1 hm with e | e
      · rw [← e]
      · exact hs.1 _ e
    exact keyOf_ne_invalid.2 hr (le_antisymm (keyOf_le leaf p) (hk ▸ hle))

end Sorted

/-! ### block-wise sampling -/

section Blocks
variable {leaf : K} {points : List (Pt K)} {S : List (Nat × Nat)} {cs : List (List (Nat × Nat))}

theorem validOf_flatten : ∀ cs : List (List (Nat × Nat)), validOf cs.flatten = (cs.map validOf).flatten
  | [] => rfl
  | c :: cs => by
    rw [List.flatten_cons, List.map_cons, List.flatten_cons, ← validOf_flatten cs]
    unfold validOf; rw [List.filter_append]

/-- Point sets averaged by the blocks. -/
def partsOf (points : List (Pt K)) (cs : List (List (Nat × Nat))) : List (List (Pt K)) :=
  cs.flatMap (fun c => (runsOf points c).map Prod.snd)

def straysOf (points : List (Pt K)) (cs : List (List (Nat × Nat))) : List (Pt K) := cs.flatMap (strayOf points)

theorem groups_values {α : Type} (l : List (Nat × α)) : ((groups l).map Prod.snd).flatten = l.map Prod.snd := by
  conv => rhs; rw [← groups_flatten l]
  rw [List.map_flatMap, ← List.flatMap_def]
  congr 1
  funext g
  simp [Function.comp_def]

theorem parts_flatten (hcs : cs.flatten = S) (hp : S.Perm (cpOf leaf points)) :
    (partsOf points cs).flatten.Perm (points.filter (fun p => decide (GridInRange leaf p))) := by
  have h1 : (partsOf points cs).flatten = ((validOf S).map (readP points)).map Prod.snd := by
    subst hcs
    rw [validOf_flatten]
    clear hp
    induction cs with
    | nil => rfl
    | cons c cs ih =>
      unfold partsOf at ih ⊢
      rw [List.flatMap_cons, List.flatten_append, ih, List.map_cons, List.flatten_cons, List.map_append, List.map_append]
      congr 1
      exact groups_values _
  rw [h1]
  refine ((valid_perm hp).map Prod.snd).trans ?_
  rw [List.map_map]
  have h3 : (Prod.snd ∘ fun p : Pt K => (keyOf leaf p, p)) = id := rfl
  rw [h3, List.map_id]

theorem chunk_sub (hcs : cs.flatten = S) {c} (hc : c ∈ cs) : c.Sublist S := by
  rw [← hcs]; exact List.sublist_flatten_of_mem hc

theorem parts_cell (hcs : cs.flatten = S) (hp : S.Perm (cpOf leaf points)) {g} (hg : g ∈ partsOf points cs) :
    g ≠ [] ∧ ∃ c, ∀ p ∈ g, p ∈ points ∧ GridInRange leaf p ∧ gridCell leaf p = c := by
  obtain ⟨ch, hch, hg⟩ := List.mem_flatMap.1 hg
  obtain ⟨gr, hgr, rfl⟩ := List.mem_map.1 hg
  refine ⟨groups_nonempty _ gr hgr, decode gr.1, ?_⟩
  intro p hpg
  have hm := groups_mem _ gr hgr p hpg
  have hm' : (gr.1, p) ∈ (validOf S).map (readP points) := by
    obtain ⟨y, hy, e⟩ := List.mem_map.1 hm
    refine List.mem_map.2 ⟨y, ?_, e⟩
    unfold validOf at hy ⊢
    rw [List.mem_filter] at hy ⊢
    exact ⟨(chunk_sub hcs hch).subset hy.1, hy.2⟩
  obtain ⟨h1, h2, h3⟩ := valid_key hp hm'
  refine ⟨h1, h2, ?_⟩
  simp only at h3
  rw [h3, decode_encode (cellIn_of h2)]

theorem parts_length (hcs : cs.flatten = S) (hp : S.Perm (cpOf leaf points)) (hs : S.Pairwise (fun a b => a.1 ≤ b.1)) :
    (occupied leaf points).card ≤ (partsOf points cs).length ∧
    (partsOf points cs).length ≤ (occupied leaf points).card + (cs.length - 1) := by
  have h := groups_flatten_length (cs.map (fun c => (validOf c).map (readP points)))
  have h1 : (cs.map (fun c => (validOf c).map (readP points))).flatten = (validOf S).map (readP points) := by
    rw [← hcs, validOf_flatten, List.map_flatten, List.map_map]; rfl
  have h2 : ((cs.map (fun c => (validOf c).map (readP points))).flatMap groups).length = (partsOf points cs).length := by
    unfold partsOf runsOf
    rw [List.flatMap_map, List.length_flatMap, List.length_flatMap]
    congr 1
    apply List.map_congr_left
    intro c _
    simp
  rw [h1, h2, List.length_map] at h
  have hc := cells_card hp hs
  unfold runsOf at hc
  rw [← hc]
  exact h

theorem strays_mem (hcs : cs.flatten = S) (hp : S.Perm (cpOf leaf points)) {p} (h : p ∈ straysOf points cs) :
    p ∈ points ∧ ¬ GridInRange leaf p := by
  obtain ⟨c, hc, h⟩ := List.mem_flatMap.1 h
  cases c with
  | nil => simp [strayOf] at h
  | cons ki I =>
    simp only [strayOf] at h
    split at h
    · rename_i hk
      simp only [List.mem_singleton] at h
      have hki : ki ∈ cpOf leaf points := hp.mem_iff.1 ((chunk_sub hcs hc).subset (by simp))
      have h1 := cpOf_key leaf points ki hki
      rw [← h] at h1
      have h2 := (cpOf_reads leaf points ki hki).2
      rw [← h] at h2
      refine ⟨?_, ?_⟩
      · unfold rd at h2
        split at h2
        · rename_i he; cases h2; exact List.mem_of_getElem? he
        · cases h2
      · intro hr
        exact keyOf_ne_invalid.2 hr (by rw [← h1, hk])
    · simp at h

theorem parStart_eq (hcs : cs.flatten = S) (hne : ∀ c ∈ cs, c ≠ []) (hp : S.Perm (cpOf leaf points))
    (hs : S.Pairwise (fun a b => a.1 ≤ b.1)) (hw : ∀ p ∈ points, p.w = 1) :
    ∃ subs : List (List (Pt K)),
      parStart points cs = .ok ⟨0, List.replicate points.length none, subs.map .pending⟩ ∧
      subs.flatten.Perm ((partsOf points cs).map centroid ++ straysOf points cs) ∧ subs.flatten.length ≤ points.length := by
  refine ⟨cs.map (fun c => (runsOf points c).map (fun g => centroid g.2) ++ strayOf points c), ?_, ?_, ?_⟩
  · unfold parStart
    rw [mapM_ok (blockPoints points) (fun c => (runsOf points c).map (fun g => centroid g.2) ++ strayOf points c) cs]
    · rfl
    · intro c hc
      have hsub := chunk_sub hcs hc
      exact blockPoints_chunk (hne c hc) (hs.sublist hsub) (fun x hx => cpOf_le leaf points x (hp.mem_iff.1 (hsub.subset hx)))
        (fun x hx => cpOf_reads leaf points x (hp.mem_iff.1 (hsub.subset hx))) hw
  · clear hp hs hne hcs
    induction cs with
    | nil => exact List.Perm.refl _
    | cons c cs ih =>
      unfold partsOf straysOf at ih ⊢
      rw [List.map_cons, List.flatten_cons, List.flatMap_cons, List.flatMap_cons, List.map_append, List.map_map]
      have h2 := (List.Perm.append_left ((runsOf points c).map (fun g => centroid g.2) ++ strayOf points c) ih)
      refine h2.trans ?_
      simp only [List.append_assoc]
      refine List.Perm.append_left _ ?_
      rw [← List.append_assoc, ← List.append_assoc]
      exact List.Perm.append_right _ List.perm_append_comm
  · have hlen : points.length = cs.flatten.length := by rw [hcs, hp.length_eq, cpOf_length]
    rw [hlen, List.length_flatten, List.length_flatten, List.map_map]
    refine List.sum_le_sum ?_
    intro c hc
    simp only [Function.comp, List.length_append, List.length_map]
    have h1 : (runsOf points c).length ≤ (validOf c).length := (groups_length_le _).trans (by simp)
    cases c with
    | nil => exact absurd rfl (hne [] hc)
    | cons ki I =>
      by_cases hki : ki.1 = INVALID_COORD
      · have : (validOf (ki :: I)).length ≤ I.length := by
          unfold validOf; rw [List.filter_cons_of_neg (by simpa using hki)]; exact List.length_filter_le _ _
        simp only [strayOf, if_pos hki, List.length_cons, List.length_nil]; omega
      · have : (validOf (ki :: I)).length ≤ (ki :: I).length := List.length_filter_le _ _
        simp only [strayOf, if_neg hki, List.length_nil]; omega

end Blocks

/-! ### blocks of the OMP variant -/

theorem blocksOf_flatten (n : Nat) (hn : 0 < n) : ∀ (fuel : Nat) (l : List (Nat × Nat)), l.length ≤ fuel → (blocksOf n fuel l).flatten = l
  | 0, l, h => by
    have : l = [] := List.length_eq_zero_iff.1 (by omega)
    rw [this]; rfl
  | fuel + 1, l, h => by
    unfold blocksOf
    split
    · rename_i e; rw [e]; rfl
    · rename_i e
      have : l.length ≠ 0 := fun h => e (List.length_eq_zero_iff.1 h)
      rw [List.flatten_cons, blocksOf_flatten n hn fuel _ (by rw [List.length_drop]; omega), List.take_append_drop]

theorem blocksOf_nonempty (n : Nat) (hn : 0 < n) : ∀ (fuel : Nat) (l : List (Nat × Nat)), ∀ b ∈ blocksOf n fuel l, b ≠ []
  | 0, _, b, hb => by simp [blocksOf] at hb
  | fuel + 1, l, b, hb => by
    unfold blocksOf at hb
    split at hb
    · simp at hb
    · rename_i e
      rcases List.mem_cons.1 hb with h | h
      · subst h
        intro h
        rw [List.take_eq_nil_iff] at h
        rcases h with h | h
        · omega
        · exact e h
      · exact blocksOf_nonempty n hn fuel _ b h

theorem blocksOf_length (n : Nat) (hn : 0 < n) : ∀ (fuel : Nat) (l : List (Nat × Nat)), l.length ≤ fuel →
    (blocksOf n fuel l).length = (l.length + n - 1) / n
  | 0, l, h => by
    have : l.length = 0 := by omega
    rw [this]; simp only [blocksOf, List.length_nil]
    exact (Nat.div_eq_of_lt (by omega)).symm
  | fuel + 1, l, h => by
    unfold blocksOf
    split
    · rename_i e; rw [e]; simp only [List.length_nil]; exact (Nat.div_eq_of_lt (by omega)).symm
    · rename_i e
      have hl : l.length ≠ 0 := fun h => e (List.length_eq_zero_iff.1 h)
      rw [List.length_cons, blocksOf_length n hn fuel _ (by rw [List.length_drop]; omega), List.length_drop]
      by_cases hln : l.length ≤ n
      · have h1 : l.length - n + n - 1 = n - 1 := by omega
        rw [h1, Nat.div_eq_of_lt (by omega)]
        have h2 : l.length + n - 1 = (l.length - 1) + n := by omega
        rw [h2, Nat.add_div_right _ hn, Nat.div_eq_of_lt (by omega)]
      · have h1 : l.length - n + n - 1 = l.length - 1 := by omega
        have h2 : l.length + n - 1 = (l.length - 1) + n := by omega
        rw [h1, h2, Nat.add_div_right _ hn]

theorem ompCut_isCut : IsCut ompCut := fun l =>
  ⟨blocksOf_flatten 1024 (by omega) _ l (le_refl _), fun b hb => blocksOf_nonempty 1024 (by omega) _ l b hb⟩

/-- Number of blocks starting with an out-of-range point. -/
theorem strays_blocks (points : List (Pt K)) (n : Nat) (hn : 0 < n) : ∀ (fuel : Nat) (V I : List (Nat × Nat)), V.length + I.length ≤ fuel →
    (∀ x ∈ V, x.1 ≠ INVALID_COORD) → (∀ x ∈ I, x.1 = INVALID_COORD) →
    (straysOf points (blocksOf n fuel (V ++ I))).length + (V.length + n - 1) / n = (V.length + I.length + n - 1) / n
  | 0, V, I, h, _, _ => by
    have h1 : V.length = 0 := by omega
    have h2 : I.length = 0 := by omega
    rw [h1, h2]; simp [straysOf, blocksOf]
  | fuel + 1, V, I, h, hV, hI => by
    unfold blocksOf
    split
    · rename_i e
      rw [List.append_eq_nil_iff] at e
      rw [e.1, e.2]; simp [straysOf]
    · rename_i e
      have hl : V.length + I.length ≠ 0 := by
        intro h; apply e; rw [← List.length_eq_zero_iff, List.length_append]; exact h
      have hd : (V ++ I).drop n = V.drop n ++ I.drop (n - V.length) := List.drop_append
      have ih := strays_blocks points n hn fuel (V.drop n) (I.drop (n - V.length))
        (by rw [List.length_drop, List.length_drop]; omega)
        (fun x hx => hV x (List.mem_of_mem_drop hx)) (fun x hx => hI x (List.mem_of_mem_drop hx))
      rw [hd]
      unfold straysOf at ih ⊢
      rw [List.flatMap_cons, List.length_append]
      rw [List.length_drop, List.length_drop] at ih
      have hstep : ∀ m : Nat, m ≠ 0 → (m + n - 1) / n = (m - n + n - 1) / n + 1 := by
        intro m hm
        by_cases hln : m ≤ n
        · have h1 : m - n + n - 1 = n - 1 := by omega
          have h3 : (n - 1) / n = 0 := Nat.div_eq_of_lt (by omega)
          have h2 : m + n - 1 = (m - 1) + n := by omega
          have h4 : (m - 1) / n = 0 := Nat.div_eq_of_lt (by omega)
          rw [h1, h2, Nat.add_div_right _ hn, h3, h4]
        · have h1 : m - n + n - 1 = m - 1 := by omega
          have h2 : m + n - 1 = (m - 1) + n := by omega
          rw [h1, h2, Nat.add_div_right _ hn]
      have hsub : V.length - n + (I.length - (n - V.length)) = V.length + I.length - n := by omega
      rw [hsub] at ih
      have hN := hstep (V.length + I.length) hl
      cases V with
      | nil =>
        cases I with
        | nil => simp at hl
        | cons ki I =>
          have h1 : (strayOf points (([] ++ ki :: I).take n)).length = 1 := by
            obtain ⟨m, rfl⟩ : ∃ m, n = m + 1 := ⟨n - 1, by omega⟩
            simp [strayOf, hI ki (by simp)]
          have h2 : ([] : List (Nat × Nat)).length - n + n - 1 = ([] : List (Nat × Nat)).length + n - 1 := by simp
          rw [h1]
          rw [h2] at ih
          omega
      | cons ki V =>
        have h1 : (strayOf points ((ki :: V ++ I).take n)).length = 0 := by
          obtain ⟨m, rfl⟩ : ∃ m, n = m + 1 := ⟨n - 1, by omega⟩
          simp [strayOf, hV ki (by simp)]
        have hV' := hstep (ki :: V).length (by simp)
        rw [h1]
        omega

end Verif.Proofs
