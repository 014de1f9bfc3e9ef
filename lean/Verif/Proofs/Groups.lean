import Mathlib.Data.List.Basic
import Mathlib.Data.List.Nodup
import Mathlib.Order.Lattice
import Mathlib.Order.Nat

/-!
Runs of equal keys in a list of (key, value) pairs.
-/

namespace Verif.Proofs

variable {α : Type}

/-- Maximal runs of equal keys. -/
def groups : List (Nat × α) → List (Nat × List α)
  | [] => []
  | a :: rest =>
    match groups rest with
    | [] => [(a.1, [a.2])]
    | g :: gs => if a.1 = g.1 then (a.1, a.2 :: g.2) :: gs else (a.1, [a.2]) :: g :: gs

theorem groups_ne_nil : ∀ {l : List (Nat × α)}, l ≠ [] → groups l ≠ []
  | [], h => absurd rfl h
  | a :: rest, _ => by
    unfold groups
    split
    · simp
    · split <;> simp

/-- The first run carries the first key. -/
theorem groups_head (a : Nat × α) (rest : List (Nat × α)) : ∃ g gs, groups (a :: rest) = (a.1, a.2 :: g) :: gs := by
  unfold groups
  split
  · exact ⟨[], [], rfl⟩
  · rename_i g gs _
    split
    · exact ⟨g.2, gs, rfl⟩
    · exact ⟨[], g :: gs, rfl⟩

theorem groups_flatten : ∀ l : List (Nat × α), (groups l).flatMap (fun g => g.2.map (fun v => (g.1, v))) = l
  | [] => rfl
  | a :: rest => by
    have ih := groups_flatten rest
    unfold groups
    split
    · rename_i h
      rw [h] at ih
      simp only [List.flatMap_nil] at ih
      simp [← ih]
    · rename_i g gs h
      rw [h] at ih
      split
      · rename_i he
        rw [← ih]
        simp only [List.flatMap_cons, List.map_cons, List.cons_append, he]
        rw [← he]
      · rw [← ih]
        simp

theorem groups_nonempty : ∀ l : List (Nat × α), ∀ g ∈ groups l, g.2 ≠ []
  | [], g, h => by simp [groups] at h
  | a :: rest, g, h => by
    have ih := groups_nonempty rest
    unfold groups at h
    split at h
    · simp only [List.mem_singleton] at h; subst h; simp
    · rename_i g' gs hg
      rw [hg] at ih
      split at h
      · rcases List.mem_cons.1 h with e | e
        · subst e; simp
        · exact ih g (by simp [e])
      · rcases List.mem_cons.1 h with e | e
        · subst e; simp
        · exact ih g e

theorem groups_mem (l : List (Nat × α)) (g) (hg : g ∈ groups l) (v) (hv : v ∈ g.2) : (g.1, v) ∈ l := by
  rw [← groups_flatten l]
  exact List.mem_flatMap.2 ⟨g, hg, List.mem_map.2 ⟨v, hv, rfl⟩⟩

theorem groups_keys (l : List (Nat × α)) (k : Nat) : k ∈ (groups l).map Prod.fst ↔ k ∈ l.map Prod.fst := by
  constructor
  · intro h
    obtain ⟨g, hg, rfl⟩ := List.mem_map.1 h
    obtain ⟨v, hv⟩ := List.exists_mem_of_ne_nil _ (groups_nonempty l g hg)
    exact List.mem_map.2 ⟨_, groups_mem l g hg v hv, rfl⟩
  · intro h
    obtain ⟨x, hx, rfl⟩ := List.mem_map.1 h
    rw [← groups_flatten l] at hx
    obtain ⟨g, hg, hx⟩ := List.mem_flatMap.1 hx
    obtain ⟨v, hv, rfl⟩ := List.mem_map.1 hx
    exact List.mem_map.2 ⟨g, hg, rfl⟩

/-- In a sorted list the runs have strictly increasing keys. -/
theorem groups_sorted : ∀ l : List (Nat × α), l.Pairwise (fun a b => a.1 ≤ b.1) →
    (groups l).Pairwise (fun g h => g.1 < h.1)
  | [], _ => by simp [groups]
  | a :: rest, h => by
    rw [List.pairwise_cons] at h
    have ih := groups_sorted rest h.2
    have hk := groups_keys rest
    have hle : ∀ g ∈ groups rest, a.1 ≤ g.1 := by
      intro g hg
      obtain ⟨v, hv⟩ := List.exists_mem_of_ne_nil _ (groups_nonempty rest g hg)
      exact h.1 _ (groups_mem rest g hg v hv)
    unfold groups
    split
    · simp
    · rename_i g gs hg
      rw [hg] at ih hle
      rw [List.pairwise_cons] at ih
      split
      · rename_i he
        rw [List.pairwise_cons]
        exact ⟨fun x hx => by simp only [he]; exact ih.1 x hx, ih.2⟩
      · rename_i he
        have hlt : a.1 < g.1 := lt_of_le_of_ne (hle g (by simp)) he
        rw [List.pairwise_cons, List.pairwise_cons]
        refine ⟨fun x hx => ?_, ih⟩
        rcases List.mem_cons.1 hx with e | e
        · subst e; exact hlt
        · exact lt_trans hlt (ih.1 x e)

/-- In a sorted list each run is everything with its key. -/
theorem groups_filter (l : List (Nat × α)) (h : l.Pairwise (fun a b => a.1 ≤ b.1)) (g) (hg : g ∈ groups l) :
    g.2 = (l.filter (fun x => decide (x.1 = g.1))).map Prod.snd := by
  have key : ∀ (gs : List (Nat × List α)), gs.Pairwise (fun g h => g.1 < h.1) → ∀ g ∈ gs,
      ((gs.flatMap (fun g => g.2.map (fun v => (g.1, v)))).filter (fun x => decide (x.1 = g.1))).map Prod.snd = g.2 := by
    intro gs
    induction gs with
    | nil => intro _ g hg; simp at hg
    | cons g0 gs ih =>
      intro hp g hg
      rw [List.pairwise_cons] at hp
      rw [List.flatMap_cons, List.filter_append, List.map_append]
      rcases List.mem_cons.1 hg with e | e
      · subst e
        have h1 : ((g.2.map (fun v => (g.1, v))).filter (fun x => decide (x.1 = g.1))).map Prod.snd = g.2 := by
          rw [List.filter_eq_self.2]
          · simp [Function.comp_def]
          · intro x hx; obtain ⟨v, _, rfl⟩ := List.mem_map.1 hx; simp
        have h2 : (gs.flatMap (fun g => g.2.map (fun v => (g.1, v)))).filter (fun x => decide (x.1 = g.1)) = [] := by
          rw [List.filter_eq_nil_iff]
          intro x hx
          obtain ⟨g', hg', hx⟩ := List.mem_flatMap.1 hx
          obtain ⟨v, _, rfl⟩ := List.mem_map.1 hx
          have := hp.1 g' hg'
          simp; omega
        rw [h1, h2]; simp
      · have h1 : (g0.2.map (fun v => (g0.1, v))).filter (fun x => decide (x.1 = g.1)) = [] := by
          rw [List.filter_eq_nil_iff]
          intro x hx
          obtain ⟨v, _, rfl⟩ := List.mem_map.1 hx
          have := hp.1 g e
          simp; omega
        rw [h1, ih hp.2 g e]; simp
  have := key (groups l) (groups_sorted l h) g hg
  rw [groups_flatten] at this
  exact this.symm

/-- Cutting a list adds at most one run. -/
theorem groups_append_length : ∀ a b : List (Nat × α),
    (groups (a ++ b)).length ≤ (groups a).length + (groups b).length ∧
    (groups a).length + (groups b).length ≤ (groups (a ++ b)).length + 1
  | [], b => by simp [groups]
  | [x], b => by
    cases b with
    | nil => simp [groups]
    | cons y b =>
      obtain ⟨g, gs, h⟩ := groups_head y b
      show (groups (x :: (y :: b))).length ≤ _ ∧ _ ≤ (groups (x :: (y :: b))).length + 1
      conv => enter [1, 1]; unfold groups
      conv => enter [2, 2]; unfold groups
      rw [h]
      simp only [groups]
      split <;> simp <;> omega
  | x :: y :: a, b => by
    obtain ⟨ih1, ih2⟩ := groups_append_length (y :: a) b
    obtain ⟨g, gs, h⟩ := groups_head y (a ++ b)
    obtain ⟨g', gs', h'⟩ := groups_head y a
    have e1 : groups (x :: y :: a ++ b) = if x.1 = y.1 then (x.1, x.2 :: y.2 :: g) :: gs else (x.1, [x.2]) :: (y.1, y.2 :: g) :: gs := by
      show groups (x :: (y :: (a ++ b))) = _
      conv => lhs; unfold groups
      rw [h]
    have e2 : groups (x :: y :: a) = if x.1 = y.1 then (x.1, x.2 :: y.2 :: g') :: gs' else (x.1, [x.2]) :: (y.1, y.2 :: g') :: gs' := by
      conv => lhs; unfold groups
      rw [h']
    rw [List.cons_append, h] at ih1 ih2
    rw [h'] at ih1 ih2
    rw [e1, e2]
    simp only [List.length_cons] at ih1 ih2
    split <;> simp only [List.length_cons] <;> omega

/-- Runs of the pieces against runs of the whole. -/
theorem groups_flatten_length : ∀ (cs : List (List (Nat × α))),
    (groups cs.flatten).length ≤ (cs.flatMap groups).length ∧
    (cs.flatMap groups).length ≤ (groups cs.flatten).length + (cs.length - 1)
  | [] => by simp [groups]
  | [c] => by simp
  | c :: c' :: cs => by
    obtain ⟨ih1, ih2⟩ := groups_flatten_length (c' :: cs)
    obtain ⟨h1, h2⟩ := groups_append_length c (c' :: cs).flatten
    rw [List.flatten_cons, List.flatMap_cons, List.length_append]
    simp only [List.length_cons] at ih1 ih2 ⊢
    omega

theorem groups_length_le : ∀ l : List (Nat × α), (groups l).length ≤ l.length
  | [] => by simp [groups]
  | a :: rest => by
    have := groups_length_le rest
    unfold groups
    split
    · simp
    · rename_i g gs h
      rw [h] at this
      simp only [List.length_cons] at this ⊢
      split <;> simp only [List.length_cons] <;> omega

end Verif.Proofs
