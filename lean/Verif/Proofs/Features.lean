import Verif.Model.Features
import Verif.Spec.Features
import Verif.Proofs.Parallel
import Verif.Proofs.KdBuild
import Mathlib.Tactic.Linarith
import Mathlib.Tactic.Ring
import Mathlib.Tactic.FieldSimp
import Mathlib.Tactic.FinCases

/-! Facts about feature estimation. -/

set_option linter.unusedSectionVars false
set_option linter.unusedSimpArgs false

namespace Verif.Proofs

open Matrix Verif Verif.PointCloud Verif.Factors Verif.Features Verif.Spec

/-! ### orders of parallel loops -/

/-- If within every task each `a` is preceded by all `b` with `req b a`, then so it is in the whole execution. -/
theorem parOrder_before {α : Type} (req : α → α → Prop) : ∀ (sched : List Nat) (tasks : List (List α)) (o : List α) (A : List α), parOrder sched tasks = some o →
    (∀ t ∈ tasks, ∀ l1 a l2, t = l1 ++ a :: l2 → ∀ b, req b a → b ∈ l1 ∨ b ∈ A) →
    ∀ done a rest, o = done ++ a :: rest → ∀ b, req b a → b ∈ done ∨ b ∈ A
  | [], tasks, o, A, h, _, done, a, rest, hs, b, hb => by
    unfold parOrder at h
    split at h
    · cases h
      simp at hs
    · cases h
  | j :: js, tasks, o, A, h, hreq, done, a, rest, hs, b, hb => by
    unfold parOrder at h
    split at h
    · rename_i x xs ht
      obtain ⟨o', ho', rfl⟩ := Option.map_eq_some_iff.1 h
      have htm := List.mem_of_getElem? ht
      cases done with
      | nil =>
        simp only [List.nil_append, List.cons.injEq] at hs
        obtain ⟨rfl, rfl⟩ := hs
        exact hreq _ htm [] x xs rfl b hb
      | cons y done =>
        simp only [List.cons_append, List.cons.injEq] at hs
        obtain ⟨rfl, hs⟩ := hs
        have := parOrder_before req js _ o' (x :: A) ho' (by
          intro t htt l1 a' l2 htl b' hb'
          rcases List.mem_or_eq_of_mem_set htt with h1 | h1
          · rcases hreq t h1 l1 a' l2 htl b' hb' with h2 | h2
            · exact .inl h2
            · exact .inr (by simp [h2])
          · subst h1
            rcases hreq _ htm (x :: l1) a' l2 (by rw [htl]; rfl) b' hb' with h2 | h2
            · rcases List.mem_cons.1 h2 with h3 | h3
              · exact .inr (by simp [h3])
              · exact .inl h3
            · exact .inr (by simp [h2])) done a rest hs b hb
        rcases this with h1 | h1
        · exact .inl (by simp [h1])
        · rcases List.mem_cons.1 h1 with h2 | h2
          · exact .inl (by simp [h2])
          · exact .inr h2
    · cases h

/-- `b` must run before `a`. -/
def needs (b a : Act) : Prop := (∃ i, b = .frame i ∧ a = .normal i) ∨ (∃ i, b = .frame i ∧ a = .cov i)

theorem acts_before (S : Setter) : ∀ (chunk : List Nat) (l1 : List Act) (a : Act) (l2 : List Act), chunk.flatMap S.acts = l1 ++ a :: l2 → ∀ b, needs b a → b ∈ l1
  | [], l1, a, l2, h, _, _ => by simp at h
  | j :: chunk, l1, a, l2, h, b, hb => by
    rw [List.flatMap_cons, List.append_eq_append_iff] at h
    rcases h with ⟨l, h1, h2⟩ | ⟨l, h1, h2⟩
    · have := acts_before S chunk l a l2 h2 b hb
      rw [h1]
      exact List.mem_append_right _ this
    · cases l with
      | nil =>
        simp only [List.append_nil, List.nil_append] at h1 h2
        have := acts_before S chunk [] a l2 h2.symm b hb
        simp at this
      | cons x l =>
        simp only [List.cons_append, List.cons.injEq] at h2
        obtain ⟨rfl, h2⟩ := h2
        have ham : a ∈ S.acts j := by rw [h1]; simp
        have hne : l1 ≠ [] := by
          rintro rfl
          unfold Setter.acts at h1
          simp only [List.nil_append, List.cons.injEq] at h1
          rcases hb with ⟨i, _, rfl⟩ | ⟨i, _, rfl⟩
          · cases h1.1
          · cases h1.1
        obtain ⟨y, l1, rfl⟩ := List.exists_cons_of_ne_nil hne
        have hy : y = .frame j := by
          unfold Setter.acts at h1
          simp only [List.cons_append, List.cons.injEq] at h1
          exact h1.1.symm
        have hb' : b = .frame j := by
          unfold Setter.acts at ham
          rcases hb with ⟨i, rfl, rfl⟩ | ⟨i, rfl, rfl⟩
          · simp at ham
            by_cases hc : S.normals = true <;> by_cases hc2 : S.covs = true <;> simp [hc, hc2] at ham <;> rw [ham]
          · simp at ham
            by_cases hc : S.normals = true <;> by_cases hc2 : S.covs = true <;> simp [hc, hc2] at ham <;> rw [ham]
        rw [hb', hy]
        simp

/-! ### one run -/

variable {S : Setter} {eig : M3 → M3} {knn : Search} {k : Int}

theorem localFrame_points {c c' : RCloud} (h : c.points = c'.points) (i : Nat) : localFrame eig knn k c i = localFrame eig knn k c' i := by
  unfold localFrame Cloud.point
  rw [h]

/-- The values written for a point. -/
noncomputable def nval (p : V4) : Option M3 → V4
  | none => 0
  | some V => normalOf p V

noncomputable def cval : Option M3 → M4
  | none => invalidCov
  | some V => covOf V

theorem localFrame_point {c : RCloud} {i : Nat} {f : Option M3} (h : localFrame eig knn k c i = .ok f) : ∃ p, c.point i = .ok p ∧ c.points[i]? = some (some p) := by
  unfold localFrame at h
  split at h
  · cases h
  · cases hp : c.point i with
    | error e => rw [hp, err_bind] at h; cases h
    | ok p =>
      refine ⟨p, rfl, ?_⟩
      unfold Cloud.point getSlot at hp
      cases hr : c.points[i]? with
      | none => simp [rd, hr, bind, Except.bind] at hp
      | some x =>
        rw [rd_of_getElem? hr, ok_bind] at hp
        cases x with
        | none => cases hp
        | some v => cases hp; rfl

theorem writeNormal_points {c c' : RCloud} {i : Nat} {f : Option M3} (h : writeNormal c i f = .ok c') : c'.points = c.points := by
  have key : ∀ v, c.setNormal i v = .ok c' → c'.points = c.points := by
    intro v hv
    unfold Cloud.setNormal at hv
    cases hw : wr c.normals i (some v) with
    | error e => rw [hw, err_bind] at hv; cases hv
    | ok ns => rw [hw, ok_bind] at hv; cases hv; rfl
  cases f with
  | none => exact key _ h
  | some V =>
    simp only [writeNormal] at h
    cases hp : c.point i with
    | error e => rw [hp, err_bind] at h; cases h
    | ok p => rw [hp, ok_bind] at h; exact key _ h

theorem writeCov_points {c c' : RCloud} {i : Nat} {f : Option M3} (h : writeCov c i f = .ok c') : c'.points = c.points := by
  have key : ∀ v, c.setCov i v = .ok c' → c'.points = c.points := by
    intro v hv
    unfold Cloud.setCov at hv
    cases hw : wr c.covs i (some v) with
    | error e => rw [hw, err_bind] at hv; cases hv
    | ok ns => rw [hw, ok_bind] at hv; cases hv; rfl
  cases f with
  | none => exact key _ h
  | some V => exact key _ h

theorem actStep_points {s s' : RCloud × (Nat → Option (Option M3))} {a : Act} (h : actStep eig knn k s a = .ok s') : s'.1.points = s.1.points := by
  cases a with
  | frame i =>
    simp only [actStep] at h
    cases hf : localFrame eig knn k s.1 i with
    | error e => rw [hf, err_bind] at h; cases h
    | ok f => rw [hf, ok_bind] at h; cases h; rfl
  | normal i =>
    simp only [actStep] at h
    split at h
    · cases h
    · rename_i f _
      cases hw : writeNormal s.1 i f with
      | error e => rw [hw, err_bind] at h; cases h
      | ok c => rw [hw, ok_bind] at h; cases h; exact writeNormal_points hw
  | cov i =>
    simp only [actStep] at h
    split at h
    · cases h
    · rename_i f _
      cases hw : writeCov s.1 i f with
      | error e => rw [hw, err_bind] at h; cases h
      | ok c => rw [hw, ok_bind] at h; cases h; exact writeCov_points hw

/-- A run that does not fault found a frame for every point. -/
theorem run_frames : ∀ (order : List Act) (s s' : RCloud × (Nat → Option (Option M3))), order.foldlM (actStep eig knn k) s = .ok s' →
    s'.1.points = s.1.points ∧ ∀ i, Act.frame i ∈ order → ∃ f, localFrame eig knn k s.1 i = .ok f
  | [], s, s', h => by cases h; exact ⟨rfl, fun i hi => by simp at hi⟩
  | a :: order, s, s', h => by
    rw [List.foldlM_cons] at h
    cases hs : actStep eig knn k s a with
    | error e => rw [hs, err_bind] at h; cases h
    | ok s1 =>
      rw [hs, ok_bind] at h
      obtain ⟨h1, h2⟩ := run_frames order s1 s' h
      have hp := actStep_points hs
      refine ⟨h1.trans hp, fun i hi => ?_⟩
      rcases List.mem_cons.1 hi with rfl | hi
      · simp only [actStep] at hs
        cases hf : localFrame eig knn k s.1 i with
        | error e => rw [hf, err_bind] at hs; cases hs
        | ok f => exact ⟨f, rfl⟩
      · obtain ⟨f, hf⟩ := h2 i hi
        exact ⟨f, by rw [← hf]; exact localFrame_points hp.symm i⟩

/-- The effect of a run in which every frame is found, for any order in which frames come first. -/
theorem run_values {base : RCloud} {n : Nat} (hn : base.normals.length = n) (hc : base.covs.length = n) {f : Nat → Option M3} {p : Nat → V4}
    (hp : ∀ i < n, base.points[i]? = some (some (p i))) (hf : ∀ i < n, localFrame eig knn k base i = .ok (f i))
    (order : List Act) (hreq : ∀ done a rest, order = done ++ a :: rest → ∀ b, needs b a → b ∈ done)
    (hidx : ∀ i, (Act.frame i ∈ order ∨ Act.normal i ∈ order ∨ Act.cov i ∈ order) → i < n) (loc : Nat → Option (Option M3)) :
    ∃ c loc', order.foldlM (actStep eig knn k) (base, loc) = .ok (c, loc') ∧ c.points = base.points ∧
      (∀ i, c.normals[i]? = if Act.normal i ∈ order then some (some (nval (p i) (f i))) else base.normals[i]?) ∧
      (∀ i, c.covs[i]? = if Act.cov i ∈ order then some (some (cval (f i))) else base.covs[i]?) := by
  obtain ⟨s', h1, h2, h3, h4, _⟩ := foldlM_inv (actStep eig knn k) (fun done s => s.1.points = base.points ∧
      (∀ i, s.1.normals[i]? = if Act.normal i ∈ done then some (some (nval (p i) (f i))) else base.normals[i]?) ∧
      (∀ i, s.1.covs[i]? = if Act.cov i ∈ done then some (some (cval (f i))) else base.covs[i]?) ∧
      (∀ i, Act.frame i ∈ done → s.2 i = some (f i)) ∧ s.1.normals.length = n ∧ s.1.covs.length = n) order (base, loc)
    ⟨rfl, fun i => by simp, fun i => by simp, fun i hi => by simp at hi, hn, hc⟩ (by
      rintro done a rest hl ⟨c, loc⟩ ⟨h1, h2, h3, h4, h5, h6⟩
      simp only at h1 h2 h3 h4 h5 h6
      have hmem : a ∈ order := by rw [hl]; simp
      have hpt : ∀ i < n, c.point i = .ok (p i) := by
        intro i hi
        unfold Cloud.point getSlot
        rw [h1, rd_of_getElem? (hp i hi), ok_bind]
        rfl
      cases a with
      | frame i =>
        have hi := hidx i (.inl hmem)
        refine ⟨(c, Function.update loc i (some (f i))), ?_, h1, fun j => ?_, fun j => ?_, fun j hj => ?_, h5, h6⟩
        · simp only [actStep]
          rw [localFrame_points h1, hf i hi, ok_bind]
        · simp [h2 j]
        · simp [h3 j]
        · simp only [Function.update_apply]
          rcases List.mem_append.1 hj with hj | hj
          · split
            · rename_i e; rw [e]
            · exact h4 j hj
          · simp only [List.mem_singleton, Act.frame.injEq] at hj
            rw [if_pos hj, hj]
      | normal i =>
        have hi := hidx i (.inr (.inl hmem))
        have hfr := h4 i (hreq done _ rest hl _ (.inl ⟨i, rfl, rfl⟩))
        have hw : writeNormal c i (f i) = .ok { c with normals := c.normals.set i (some (nval (p i) (f i))) } := by
          have hset : ∀ v, c.setNormal i v = .ok { c with normals := c.normals.set i (some v) } := by
            intro v
            unfold Cloud.setNormal
            rw [wr_of_lt _ (by omega), ok_bind]
            rfl
          cases f i with
          | none => exact hset _
          | some V =>
            simp only [writeNormal]
            rw [hpt i hi, ok_bind]
            exact hset _
        refine ⟨({ c with normals := c.normals.set i (some (nval (p i) (f i))) }, loc), ?_, h1, fun j => ?_, fun j => ?_, fun j hj => ?_, by simp [h5], h6⟩
        · simp only [actStep, hfr]
          rw [hw, ok_bind]
        · simp only [List.getElem?_set, List.mem_append, List.mem_singleton, Act.normal.injEq]
          by_cases e : i = j
          · subst e
            simp [h5, hi]
          · simp [e, Ne.symm e, h2 j]
        · simp [h3 j]
        · rcases List.mem_append.1 hj with hj | hj
          · exact h4 j hj
          · simp at hj
      | cov i =>
        have hi := hidx i (.inr (.inr hmem))
        have hfr := h4 i (hreq done _ rest hl _ (.inr ⟨i, rfl, rfl⟩))
        have hw : writeCov c i (f i) = .ok { c with covs := c.covs.set i (some (cval (f i))) } := by
          have hset : ∀ v, c.setCov i v = .ok { c with covs := c.covs.set i (some v) } := by
            intro v
            unfold Cloud.setCov
            rw [wr_of_lt _ (by omega), ok_bind]
            rfl
          cases f i with
          | none => exact hset _
          | some V => exact hset _
        refine ⟨({ c with covs := c.covs.set i (some (cval (f i))) }, loc), ?_, h1, fun j => ?_, fun j => ?_, fun j hj => ?_, h5, by simp [h6]⟩
        · simp only [actStep, hfr]
          rw [hw, ok_bind]
        · simp [h2 j]
        · simp only [List.getElem?_set, List.mem_append, List.mem_singleton, Act.cov.injEq]
          by_cases e : i = j
          · subst e
            simp [h6, hi]
          · simp [e, Ne.symm e, h3 j]
        · rcases List.mem_append.1 hj with hj | hj
          · exact h4 j hj
          · simp at hj)
  exact ⟨s'.1, s'.2, h1, h2, h3, h4⟩

/-- The serial loop body is the sequence of its actions. -/
theorem estimateOne_acts (c : RCloud) (loc : Nat → Option (Option M3)) (i : Nat) :
    ∃ loc' : RCloud → (Nat → Option (Option M3)), (S.acts i).foldlM (actStep eig knn k) (c, loc) = (estimateOne S eig knn k c i >>= fun c' => .ok (c', loc' c')) := by
  unfold estimateOne Setter.acts
  rw [List.foldlM_cons]
  simp only [actStep]
  cases hf : localFrame eig knn k c i with
  | error e => exact ⟨fun _ => loc, rfl⟩
  | ok f =>
    refine ⟨fun _ => Function.update loc i (some f), ?_⟩
    rw [ok_bind, ok_bind, ok_bind]
    unfold Setter.write
    rw [List.foldlM_append]
    cases hn : S.normals with
    | false =>
      simp only [Bool.false_eq_true, if_false, List.foldlM_nil, if_true]
      cases hc : S.covs with
      | false => simp only [Bool.false_eq_true, if_false, List.foldlM_nil]; rfl
      | true =>
        simp only [if_true, List.foldlM_cons, List.foldlM_nil]
        rw [show (pure (c, Function.update loc i (some f)) : Res _) = .ok _ from rfl, ok_bind, ok_bind]
        simp only [actStep, Function.update_self]
        cases writeCov c i f <;> rfl
    | true =>
      simp only [Bool.false_eq_true, if_false, List.foldlM_nil, if_true, List.foldlM_cons]
      simp only [actStep, Function.update_self]
      cases writeNormal c i f with
      | error e => rfl
      | ok c1 =>
        simp only [ok_bind, show ∀ x : RCloud × (Nat → Option (Option M3)), (pure x : Res _) = .ok x from fun _ => rfl]
        cases hc : S.covs with
        | false => simp only [Bool.false_eq_true, if_false, List.foldlM_nil]; rfl
        | true =>
          simp only [if_true, List.foldlM_cons, List.foldlM_nil, actStep, Function.update_self]
          cases writeCov c1 i f <;> rfl

theorem estimate_acts : ∀ (l : List Nat) (c : RCloud) (loc : Nat → Option (Option M3)),
    ∃ loc' : RCloud → (Nat → Option (Option M3)), (l.flatMap S.acts).foldlM (actStep eig knn k) (c, loc) = (l.foldlM (estimateOne S eig knn k) c >>= fun c' => .ok (c', loc' c'))
  | [], c, loc => ⟨fun _ => loc, rfl⟩
  | i :: l, c, loc => by
    obtain ⟨loc1, h1⟩ := estimateOne_acts (S := S) (eig := eig) (knn := knn) (k := k) c loc i
    rw [List.flatMap_cons, List.foldlM_append, h1, List.foldlM_cons]
    cases estimateOne S eig knn k c i with
    | error e => exact ⟨fun _ => loc, rfl⟩
    | ok c1 =>
      rw [ok_bind, ok_bind, ok_bind]
      exact estimate_acts l c1 (loc1 c1)

end Verif.Proofs
