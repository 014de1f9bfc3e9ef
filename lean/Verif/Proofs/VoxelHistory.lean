import Verif.Proofs.VoxelSearch

/-!
Facts about histories of the abstract voxel map: which cells are alive, what they contain.
-/

namespace Verif.Proofs

open Verif Verif.Voxel Verif.Knn

section
variable {K : Type} [Field K] [LinearOrder K] [FloorRing K]

/-- Simulation between two content types over one insertion loop. -/
def RelMap {V W : Type} (R : Coord → V → W → Prop) (A : Spec.AMap V) (B : Spec.AMap W) : Prop :=
  ∀ c, match A c, B c with
    | none, none => True
    | some a, some b => a.1 = b.1 ∧ R c a.2 b.2
    | _, _ => False

structure RelOK {V W : Type} (cv : Contents K V) (cw : Contents K W) (invLeaf : K) (R : Coord → V → W → Prop) : Prop where
  fresh : ∀ c tp s T, Spec.cellOf invLeaf tp = c → R c (cv.add cv.fresh tp s T) (cw.add cw.fresh tp s T)
  add : ∀ c v w tp s T, Spec.cellOf invLeaf tp = c → R c v w → R c (cv.add v tp s T) (cw.add w tp s T)
  fin : ∀ c v w, R c v w → R c (cv.finalize v) (cw.finalize w)

variable {V W : Type} {cv : Contents K V} {cw : Contents K W} {invLeaf : K} {R : Coord → V → W → Prop}

theorem relMap_addPt (h : RelOK cv cw invLeaf R) (n : Nat) (T : Mat4 K) (A : Spec.AMap V) (B : Spec.AMap W) (hAB : RelMap R A B)
    (s : SrcPt K) : RelMap R (Spec.AMap.addPt cv invLeaf n T A s) (Spec.AMap.addPt cw invLeaf n T B s) := by
  intro c
  have := hAB c
  unfold Spec.AMap.addPt
  by_cases hc : c = Spec.cellOf invLeaf (mulPt T s.pt)
  · simp only [if_pos hc]
    cases ha : A c with
    | none => cases hb : B c with
      | none => exact ⟨rfl, h.fresh c _ s T hc.symm⟩
      | some b => rw [ha, hb] at this; exact this.elim
    | some a => cases hb : B c with
      | none => rw [ha, hb] at this; exact this.elim
      | some b => rw [ha, hb] at this; exact ⟨rfl, h.add c _ _ _ s T hc.symm this.2⟩
  · simp only [if_neg hc]; exact this

theorem relMap_foldl (h : RelOK cv cw invLeaf R) (n : Nat) (T : Mat4 K) : ∀ (pts : List (SrcPt K)) (A : Spec.AMap V) (B : Spec.AMap W),
    RelMap R A B → RelMap R (pts.foldl (Spec.AMap.addPt cv invLeaf n T) A) (pts.foldl (Spec.AMap.addPt cw invLeaf n T) B)
  | [], _, _, h' => h'
  | s :: pts, A, B, h' => relMap_foldl h n T pts _ _ (relMap_addPt h n T A B h' s)

theorem relMap_call (h : RelOK cv cw invLeaf R) (horizon cycle n : Nat) (A : Spec.AMap V) (B : Spec.AMap W) (hAB : RelMap R A B)
    (pts : List (SrcPt K)) (T : Mat4 K) :
    RelMap R (Spec.AMap.call cv invLeaf horizon cycle n A pts T) (Spec.AMap.call cw invLeaf horizon cycle n B pts T) := by
  intro c
  have := relMap_foldl h n T pts A B hAB c
  unfold Spec.AMap.call
  cases ha : pts.foldl (Spec.AMap.addPt cv invLeaf n T) A c with
  | none => cases hb : pts.foldl (Spec.AMap.addPt cw invLeaf n T) B c with
    | none => trivial
    | some b => rw [ha, hb] at this; exact this.elim
  | some a => cases hb : pts.foldl (Spec.AMap.addPt cw invLeaf n T) B c with
    | none => rw [ha, hb] at this; exact this.elim
    | some b =>
      rw [ha, hb] at this
      simp only [Option.filter_some]
      rw [this.1]
      by_cases hq : (!(decide (cycle ∣ n + 1) && decide (b.1 + horizon < n + 1))) = true
      · simp only [if_pos hq]; exact ⟨this.1, h.fin c _ _ this.2⟩
      · simp only [if_neg hq]; trivial

theorem relMap_run (h : RelOK cv cw invLeaf R) (horizon cycle : Nat) : ∀ (calls : List (List (SrcPt K) × Mat4 K)) (n : Nat)
    (A : Spec.AMap V) (B : Spec.AMap W), RelMap R A B →
    RelMap R (Spec.AMap.run cv invLeaf horizon cycle n A calls) (Spec.AMap.run cw invLeaf horizon cycle n B calls)
  | [], _, _, _, h' => h'
  | call :: calls, n, A, B, h' =>
    relMap_run h horizon cycle calls (n + 1) _ _ (relMap_call h horizon cycle n A B h' call.1 call.2)

/-! ### which cells are alive -/

theorem run_append (c : Contents K V) (horizon cycle : Nat) (call : List (SrcPt K) × Mat4 K) :
    ∀ (calls : List (List (SrcPt K) × Mat4 K)) (n : Nat) (A : Spec.AMap V),
    Spec.AMap.run c invLeaf horizon cycle n A (calls ++ [call]) =
      Spec.AMap.call c invLeaf horizon cycle (n + calls.length) (Spec.AMap.run c invLeaf horizon cycle n A calls) call.1 call.2
  | [], n, A => rfl
  | x :: calls, n, A => by
    rw [List.cons_append, Spec.AMap.run, run_append c horizon cycle call calls (n + 1), Spec.AMap.run, List.length_cons]
    rw [show n + 1 + calls.length = n + (calls.length + 1) by omega]

theorem foldl_addPt_lru (c : Contents K V) (n : Nat) (T : Mat4 K) (co : Coord) : ∀ (pts : List (SrcPt K)) (A : Spec.AMap V),
    ((∃ s ∈ pts, Spec.cellOf invLeaf (mulPt T s.pt) = co) → ∃ v, pts.foldl (Spec.AMap.addPt c invLeaf n T) A co = some (n, v)) ∧
    ((∀ s ∈ pts, Spec.cellOf invLeaf (mulPt T s.pt) ≠ co) → pts.foldl (Spec.AMap.addPt c invLeaf n T) A co = A co)
  | [], A => ⟨fun h => absurd h (by simp), fun _ => rfl⟩
  | s :: pts, A => by
    obtain ⟨h1, h2⟩ := foldl_addPt_lru c n T co pts (Spec.AMap.addPt c invLeaf n T A s)
    rw [List.foldl_cons]
    constructor
    · rintro ⟨x, hx, hxc⟩
      by_cases hex : ∃ s ∈ pts, Spec.cellOf invLeaf (mulPt T s.pt) = co
      · exact h1 hex
      · rw [h2 (fun y hy he => hex ⟨y, hy, he⟩)]
        rcases List.mem_cons.1 hx with rfl | hx
        · unfold Spec.AMap.addPt
          rw [if_pos hxc.symm]
          cases A co with
          | none => exact ⟨_, rfl⟩
          | some e => exact ⟨_, rfl⟩
        · exact absurd ⟨x, hx, hxc⟩ hex
    · intro hx
      rw [h2 (fun y hy => hx y (by simp [hy]))]
      unfold Spec.AMap.addPt
      rw [if_neg (fun e => hx s (by simp) e.symm)]

/-- Closed form of the set of cells alive after a history, with the call that used each last. -/
theorem run_alive (c : Contents K V) (horizon cycle : Nat) (co : Coord) (l : Nat) (calls : List (List (SrcPt K) × Mat4 K)) :
    (∃ v, Spec.AMap.run c invLeaf horizon cycle 0 (fun _ => none) calls co = some (l, v)) ↔
      Spec.Touched invLeaf calls co l ∧ (∀ l', l < l' → ¬ Spec.Touched invLeaf calls co l') ∧
        ∀ t, l < t → t ≤ calls.length → cycle ∣ t → t ≤ l + horizon := by
  induction calls using List.reverseRecOn generalizing l with
  | nil =>
    constructor
    · rintro ⟨v, hv⟩; cases hv
    · rintro ⟨⟨call, hc, _⟩, _⟩; simp at hc
  | append_singleton calls call ih =>
    rw [run_append, Nat.zero_add]
    have hlast : Spec.Touched invLeaf (calls ++ [call]) co calls.length ↔ ∃ s ∈ call.1, Spec.cellOf invLeaf (mulPt call.2 s.pt) = co := by
      unfold Spec.Touched; simp
    have hold : ∀ j, j < calls.length → (Spec.Touched invLeaf (calls ++ [call]) co j ↔ Spec.Touched invLeaf calls co j) := by
      intro j hj; unfold Spec.Touched; rw [List.getElem?_append_left hj]
    have hlt : ∀ cs : List (List (SrcPt K) × Mat4 K), ∀ j, Spec.Touched invLeaf cs co j → j < cs.length := by
      rintro cs j ⟨x, hx, _⟩; exact (List.getElem?_eq_some_iff.1 hx).1
    obtain ⟨f1, f2⟩ := foldl_addPt_lru (invLeaf := invLeaf) c calls.length call.2 co call.1
      (Spec.AMap.run c invLeaf horizon cycle 0 (fun _ => none) calls)
    by_cases ht : ∃ s ∈ call.1, Spec.cellOf invLeaf (mulPt call.2 s.pt) = co
    · obtain ⟨v, hv⟩ := f1 ht
      unfold Spec.AMap.call
      rw [hv, Option.filter_some]
      constructor
      · rintro ⟨w, hw⟩
        split at hw
        · rename_i hs
          simp only [Option.map_some, Option.some.injEq, Prod.mk.injEq] at hw
          obtain ⟨rfl, _⟩ := hw
          refine ⟨hlast.2 ht, ?_, ?_⟩
          · intro l' hl' h'
            have := hlt _ _ h'; simp at this; omega
          · intro t h1 h2 h3
            simp only [List.length_append, List.length_cons, List.length_nil] at h2
            have : t = calls.length + 1 := by omega
            subst this
            simp only [h3, decide_true, Bool.true_and, Bool.not_eq_true', decide_eq_false_iff_not] at hs
            omega
        · cases hw
      · rintro ⟨h1, h2, h3⟩
        have hl : l = calls.length := by
          have := hlt _ _ h1
          simp only [List.length_append, List.length_cons, List.length_nil] at this
          by_contra hne
          exact h2 calls.length (by omega) (hlast.2 ht)
        subst hl
        rw [if_pos]
        · exact ⟨_, rfl⟩
        · simp only [Bool.not_eq_true', Bool.and_eq_false_iff, decide_eq_false_iff_not]
          by_cases hd : cycle ∣ calls.length + 1
          · right; have := h3 (calls.length + 1) (by omega) (by simp) hd; omega
          · left; exact hd
    · have hno : ∀ s ∈ call.1, Spec.cellOf invLeaf (mulPt call.2 s.pt) ≠ co := fun s hs e => ht ⟨s, hs, e⟩
      unfold Spec.AMap.call
      rw [f2 hno]
      have key : (∃ v, ((Spec.AMap.run c invLeaf horizon cycle 0 (fun _ => none) calls co).filter
            (fun e => !(decide (cycle ∣ calls.length + 1) && decide (e.1 + horizon < calls.length + 1)))).map
              (fun e => (e.1, c.finalize e.2)) = some (l, v)) ↔
          (∃ v, Spec.AMap.run c invLeaf horizon cycle 0 (fun _ => none) calls co = some (l, v)) ∧
            (cycle ∣ calls.length + 1 → calls.length + 1 ≤ l + horizon) := by
        cases hA : Spec.AMap.run c invLeaf horizon cycle 0 (fun _ => none) calls co with
        | none => simp
        | some a =>
          obtain ⟨la, va⟩ := a
          rw [Option.filter_some]
          by_cases hd : cycle ∣ calls.length + 1
          · by_cases hs : la + horizon < calls.length + 1
            · simp only [hd, hs, decide_true, Bool.and_self, Bool.not_true, Bool.false_eq_true, if_false, Option.map_none]
              constructor
              · rintro ⟨v, hv⟩; cases hv
              · rintro ⟨⟨v, hv⟩, h⟩; simp only [Option.some.injEq, Prod.mk.injEq] at hv; have := h trivial; omega
            · simp only [hd, hs, decide_true, decide_false, Bool.and_false, Bool.not_false, if_true, Option.map_some,
                Option.some.injEq, Prod.mk.injEq]
              constructor
              · rintro ⟨v, rfl, hv⟩; exact ⟨⟨va, rfl, rfl⟩, fun _ => by omega⟩
              · rintro ⟨⟨v, rfl, hv⟩, _⟩; exact ⟨_, rfl, rfl⟩
          · simp [hd]
      rw [key, ih]
      constructor
      · rintro ⟨⟨h1, h2, h3⟩, h4⟩
        have hl := hlt _ _ h1
        refine ⟨(hold l hl).2 h1, ?_, ?_⟩
        · intro l' hl' h'
          have := hlt _ _ h'
          simp only [List.length_append, List.length_cons, List.length_nil] at this
          rcases Nat.lt_or_ge l' calls.length with hh | hh
          · exact h2 l' hl' ((hold l' hh).1 h')
          · have : l' = calls.length := by omega
            subst this
            exact ht (hlast.1 h')
        · intro t a1 a2 a3
          simp only [List.length_append, List.length_cons, List.length_nil] at a2
          rcases Nat.lt_or_ge t (calls.length + 1) with hh | hh
          · exact h3 t a1 (by omega) a3
          · have : t = calls.length + 1 := by omega
            subst this
            exact h4 a3
      · rintro ⟨h1, h2, h3⟩
        have hl : l < calls.length := by
          have := hlt _ _ h1
          simp only [List.length_append, List.length_cons, List.length_nil] at this
          rcases Nat.lt_or_ge l calls.length with hh | hh
          · exact hh
          · have : l = calls.length := by omega
            subst this
            exact absurd (hlast.1 h1) ht
        refine ⟨⟨(hold l hl).1 h1, ?_, ?_⟩, ?_⟩
        · intro l' hl' h'
          exact h2 l' hl' ((hold l' (hlt _ _ h')).2 h')
        · intro t a1 a2 a3
          exact h3 t a1 (by simp; omega) a3
        · intro hd
          exact h3 (calls.length + 1) (by omega) (by simp) hd

/-! ### without eviction the received points are all offered points -/

theorem foldl_addPt_samples (n : Nat) (T : Mat4 K) (co : Coord) : ∀ (pts : List (SrcPt K)) (A : Spec.AMap (List (Spec.Sample K))),
    (∀ e, A co = some e → e.1 ≤ n) →
    (let L := (((A co).map Prod.snd).getD []) ++
        ((pts.map (fun s => ((mulPt T s.pt, s, T) : Spec.Sample K))).filter (fun e => decide (Spec.cellOf invLeaf e.1 = co)));
      match pts.foldl (Spec.AMap.addPt Spec.sampleContents invLeaf n T) A co with
      | none => A co = none ∧ L = []
      | some e => e.1 ≤ n ∧ e.2 = L)
  | [], A, hA => by
    simp only [List.map_nil, List.filter_nil, List.append_nil, List.foldl_nil]
    cases h : A co with
    | none => exact ⟨rfl, rfl⟩
    | some e => exact ⟨hA e h, rfl⟩
  | s :: pts, A, hA => by
    have ih := foldl_addPt_samples n T co pts (Spec.AMap.addPt Spec.sampleContents invLeaf n T A s) (by
      intro e he
      unfold Spec.AMap.addPt at he
      split at he
      · cases h : A co with
        | none => rw [h] at he; simp only [Option.some.injEq] at he; rw [← he]
        | some e' => rw [h] at he; simp only [Option.some.injEq] at he; rw [← he]
      · exact hA e he)
    simp only [List.foldl_cons, List.map_cons, List.filter_cons] at ih ⊢
    have hadd : Spec.AMap.addPt Spec.sampleContents invLeaf n T A s co =
        if co = Spec.cellOf invLeaf (mulPt T s.pt) then some (n, (((A co).map Prod.snd).getD []) ++ [(mulPt T s.pt, s, T)]) else A co := by
      unfold Spec.AMap.addPt
      split
      · cases A co with
        | none => rfl
        | some e => rfl
      · rfl
    by_cases hc : Spec.cellOf invLeaf (mulPt T s.pt) = co
    · rw [hadd, if_pos hc.symm] at ih
      simp only [hc, decide_true, if_true, Option.map_some, Option.getD_some] at ih ⊢
      split at ih
      · exact absurd ih.1 (by simp)
      · refine ⟨ih.1, ?_⟩
        rw [ih.2]; simp
    · rw [hadd, if_neg (fun e => hc e.symm)] at ih
      simp only [hc, decide_false, Bool.false_eq_true, if_false] at ih ⊢
      exact ih

theorem received_no_eviction (horizon cycle : Nat) (co : Coord) (calls : List (List (SrcPt K) × Mat4 K)) (hh : calls.length ≤ horizon) :
    match Spec.received invLeaf horizon cycle calls co with
    | none => Spec.offered invLeaf calls co = []
    | some e => e.1 ≤ calls.length ∧ e.2 = Spec.offered invLeaf calls co := by
  induction calls using List.reverseRecOn with
  | nil => rfl
  | append_singleton calls call ih =>
    simp only [List.length_append, List.length_cons, List.length_nil] at hh ⊢
    have ih := ih (by omega)
    unfold Spec.received at ih ⊢
    rw [run_append, Nat.zero_add]
    have hoff : Spec.offered invLeaf (calls ++ [call]) co = Spec.offered invLeaf calls co ++
        ((call.1.map (fun s => ((mulPt call.2 s.pt, s, call.2) : Spec.Sample K))).filter (fun e => decide (Spec.cellOf invLeaf e.1 = co))) := by
      unfold Spec.offered; simp
    rw [hoff]
    have hf := foldl_addPt_samples (invLeaf := invLeaf) calls.length call.2 co call.1
      (Spec.AMap.run Spec.sampleContents invLeaf horizon cycle 0 (fun _ => none) calls) (by
        intro e he; rw [he] at ih; exact ih.1)
    simp only at hf
    have hL : (((Spec.AMap.run Spec.sampleContents invLeaf horizon cycle 0 (fun _ => none) calls co).map Prod.snd).getD []) =
        Spec.offered invLeaf calls co := by
      cases hA : Spec.AMap.run Spec.sampleContents invLeaf horizon cycle 0 (fun _ => none) calls co with
      | none => rw [hA] at ih; simp only at ih; rw [ih]; rfl
      | some e => rw [hA] at ih; exact ih.2
    rw [hL] at hf
    unfold Spec.AMap.call
    cases hB : call.1.foldl (Spec.AMap.addPt Spec.sampleContents invLeaf calls.length call.2)
        (Spec.AMap.run Spec.sampleContents invLeaf horizon cycle 0 (fun _ => none) calls) co with
    | none => rw [hB] at hf; exact hf.2
    | some e =>
      rw [hB] at hf
      rw [Option.filter_some, if_pos]
      · exact ⟨by simp only; omega, hf.2⟩
      · have : ¬ e.1 + horizon < calls.length + 1 := by omega
        simp only [this, decide_false, Bool.and_false, Bool.not_false]

end

end Verif.Proofs
