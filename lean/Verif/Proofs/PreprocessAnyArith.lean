import Verif.Model.PreprocessMachine
import Verif.Proofs.DownsamplePar
import Verif.Proofs.DownsampleMain
import Verif.Proofs.Features

/-! Sampling and feature estimation in any arithmetic: which accesses are made. -/

set_option linter.unusedSectionVars false
set_option linter.unusedSimpArgs false
set_option linter.unnecessarySeqFocus false

namespace Verif.Spec

open Verif Verif.Machine

variable {V : Type} [LT V] [DecidableLT V]

/-- The cell number of the coordinate `x` and the offset added to it are defined: the truncation of `x` is, and the numbers stay in the range of `int`. -/
def CoordDefined (s : Scalars V) (x : V) : Prop :=
  ∃ n, s.trunc x = some n ∧ -2 ^ 31 ≤ (if x < s.ofInt n then n - 1 else n) ∧ n ≤ 2 ^ 31 - 1 ∧ (if x < s.ofInt n then n - 1 else n) + 2 ^ 20 ≤ 2 ^ 31 - 1

/-- All four scaled coordinates of `p` can be converted. -/
def PointDefined (o : Ops V) (s : Scalars V) (leaf : V) (p : Pt V) : Prop :=
  CoordDefined s (o.mul p.x (o.div s.one leaf)) ∧ CoordDefined s (o.mul p.y (o.div s.one leaf)) ∧ CoordDefined s (o.mul p.z (o.div s.one leaf)) ∧ CoordDefined s (o.mul p.w (o.div s.one leaf))

end Verif.Spec

namespace Verif.Proofs.Any

open Verif Verif.PointCloud Verif.Features Verif.Downsample Verif.Spec Verif.Proofs

/-! ### sampling -/

section Sampling

variable {V : Type} [LT V] [DecidableLT V]

theorem int32_ok {i : Int} : (∃ j, int32 i = .ok j) ↔ INT_MIN ≤ i ∧ i ≤ INT_MAX := by
  unfold int32
  split <;> simp [*]

theorem int32_eq {i : Int} (h : INT_MIN ≤ i ∧ i ≤ INT_MAX) : int32 i = .ok i := if_pos h

theorem int32_err {i : Int} (h : ¬ (INT_MIN ≤ i ∧ i ≤ INT_MAX)) : int32 i = .error .intOverflow := if_neg h

/-- Cell number plus offset is the number or the fault. -/
theorem cell_any (s : Machine.Scalars V) (x : V) :
    (CoordDefined s x → ∃ c, Machine.fastFloor s x = .ok c ∧ int32 (c + COORD_OFFSET) = .ok (c + COORD_OFFSET)) ∧
    (¬ CoordDefined s x → Machine.fastFloor s x = .error .intOverflow ∨ ∃ c, Machine.fastFloor s x = .ok c ∧ int32 (c + COORD_OFFSET) = .error .intOverflow) := by
  unfold CoordDefined Machine.fastFloor
  rcases ht : s.trunc x with _ | n
  · simp
  · have e1 : INT_MIN = -2 ^ 31 := rfl
    have e2 : INT_MAX = 2 ^ 31 - 1 := rfl
    have e3 : COORD_OFFSET = 2 ^ 20 := rfl
    by_cases hlt : x < s.ofInt n
    · constructor
      · rintro ⟨m, hm, h1, h2, h3⟩
        cases hm
        rw [if_pos hlt] at h1 h3
        refine ⟨n - 1, ?_, int32_eq (by omega)⟩
        simp only []
        rw [int32_eq (by omega), ok_bind, if_pos hlt, int32_eq (by omega)]
      · intro h
        simp only []
        by_cases ha : INT_MIN ≤ n ∧ n ≤ INT_MAX
        · rw [int32_eq ha, ok_bind, if_pos hlt]
          by_cases hb : INT_MIN ≤ n - 1 ∧ n - 1 ≤ INT_MAX
          · rw [int32_eq hb]
            refine .inr ⟨_, rfl, int32_err fun hc => h ⟨n, rfl, ?_⟩⟩
            rw [if_pos hlt]
            omega
          · exact .inl (int32_err hb)
        · rw [int32_err ha]
          exact .inl rfl
    · constructor
      · rintro ⟨m, hm, h1, h2, h3⟩
        cases hm
        rw [if_neg hlt] at h1 h3
        refine ⟨n, ?_, int32_eq (by omega)⟩
        simp only []
        rw [int32_eq (by omega), ok_bind, if_neg hlt, int32_eq (by omega)]
        simp
      · intro h
        simp only []
        by_cases ha : INT_MIN ≤ n ∧ n ≤ INT_MAX
        · rw [int32_eq ha, ok_bind, if_neg hlt, int32_eq (by omega)]
          refine .inr ⟨_, rfl, int32_err fun hc => h ⟨n, rfl, ?_⟩⟩
          rw [if_neg hlt]
          omega
        · rw [int32_err ha]
          exact .inl rfl

/-- The key of a point is defined exactly if its scaled coordinates can be converted. -/
theorem key_any (o : Ops V) (s : Machine.Scalars V) (leaf : V) (p : Pt V) :
    (PointDefined o s leaf p → ∃ k, Machine.voxelKey o s (o.div s.one leaf) p = .ok k) ∧
    (¬ PointDefined o s leaf p → Machine.voxelKey o s (o.div s.one leaf) p = .error .intOverflow) := by
  have hx := cell_any s (o.mul p.x (o.div s.one leaf))
  have hy := cell_any s (o.mul p.y (o.div s.one leaf))
  have hz := cell_any s (o.mul p.z (o.div s.one leaf))
  have hw := cell_any s (o.mul p.w (o.div s.one leaf))
  have hbind : ∀ {β γ : Type} (x : β) (f : β → Res γ), Except.bind (.ok x) f = f x := fun _ _ => rfl
  have hbindE : ∀ {β γ : Type} (e : Fault) (f : β → Res γ), Except.bind (.error e : Res β) f = .error e := fun _ _ => rfl
  unfold Machine.voxelKey
  simp only [Downsample.Machine.scaled]
  constructor
  · rintro ⟨h1, h2, h3, h4⟩
    obtain ⟨c1, a1, b1⟩ := hx.1 h1
    obtain ⟨c2, a2, b2⟩ := hy.1 h2
    obtain ⟨c3, a3, b3⟩ := hz.1 h3
    obtain ⟨c4, a4, b4⟩ := hw.1 h4
    simp only [a1, b1, a2, b2, a3, b3, a4, b4, bind, hbind]
    split
    · exact ⟨_, rfl⟩
    · exact ⟨_, rfl⟩
  · intro h
    have hcase : ∀ x : V, (∃ c, Machine.fastFloor s x = .ok c ∧ (int32 (c + COORD_OFFSET) = .ok (c + COORD_OFFSET) ∨ int32 (c + COORD_OFFSET) = .error .intOverflow)) ∨
        Machine.fastFloor s x = .error .intOverflow := by
      intro x
      by_cases hd : CoordDefined s x
      · obtain ⟨c, h1, h2⟩ := (cell_any s x).1 hd
        exact .inl ⟨c, h1, .inl h2⟩
      · rcases (cell_any s x).2 hd with h1 | ⟨c, h1, h2⟩
        · exact .inr h1
        · exact .inl ⟨c, h1, .inr h2⟩
    have hno : ∀ x : V, ¬ CoordDefined s x → ∀ c, Machine.fastFloor s x = .ok c → int32 (c + COORD_OFFSET) = .error .intOverflow := by
      intro x hx c hc
      rcases (cell_any s x).2 hx with h1 | ⟨c', h1, h2⟩
      · rw [h1] at hc; cases hc
      · rw [h1] at hc; cases hc; exact h2
    rcases hcase (o.mul p.x (o.div s.one leaf)) with ⟨c1, a1, b1⟩ | a1
    · rcases hcase (o.mul p.y (o.div s.one leaf)) with ⟨c2, a2, b2⟩ | a2
      · rcases hcase (o.mul p.z (o.div s.one leaf)) with ⟨c3, a3, b3⟩ | a3
        · rcases hcase (o.mul p.w (o.div s.one leaf)) with ⟨c4, a4, b4⟩ | a4
          · simp only [a1, a2, a3, a4, bind, hbind]
            rcases b1 with b1 | b1
            · rcases b2 with b2 | b2
              · rcases b3 with b3 | b3
                · rcases b4 with b4 | b4
                  · exfalso
                    apply h
                    refine ⟨?_, ?_, ?_, ?_⟩
                    · by_contra hd
                      rw [hno _ hd _ a1] at b1; cases b1
                    · by_contra hd
                      rw [hno _ hd _ a2] at b2; cases b2
                    · by_contra hd
                      rw [hno _ hd _ a3] at b3; cases b3
                    · by_contra hd
                      rw [hno _ hd _ a4] at b4; cases b4
                  · simp only [b1, b2, b3, b4, hbind, hbindE]
                · simp only [b1, b2, b3, hbind, hbindE]
              · simp only [b1, b2, hbind, hbindE]
            · simp only [b1, hbindE]
          · simp only [a1, a2, a3, a4, bind, hbind, hbindE]
        · simp only [a1, a2, a3, bind, hbind, hbindE]
      · simp only [a1, a2, bind, hbind, hbindE]
    · simp only [a1, bind, hbindE]

theorem coordPt_any (o : Ops V) (s : Machine.Scalars V) (leaf : V) : ∀ (points : List (Pt V)),
    ((∀ p ∈ points, PointDefined o s leaf p) → ∃ cp, Machine.coordPt o s (o.div s.one leaf) points = .ok cp ∧ cp.map Prod.snd = List.range points.length) ∧
    ((¬ ∀ p ∈ points, PointDefined o s leaf p) → Machine.coordPt o s (o.div s.one leaf) points = .error .intOverflow) := by
  have key : ∀ (points : List (Pt V)) (k : Nat),
      ((∀ p ∈ points, PointDefined o s leaf p) → ∃ cp, (points.zipIdx k).mapM (fun pi => do
        let k ← Machine.voxelKey o s (o.div s.one leaf) pi.1
        return (k, pi.2) : Pt V × Nat → Res (Nat × Nat)) = .ok cp ∧ cp.map Prod.snd = List.range' k points.length) ∧
      ((¬ ∀ p ∈ points, PointDefined o s leaf p) → (points.zipIdx k).mapM (fun pi => do
        let k ← Machine.voxelKey o s (o.div s.one leaf) pi.1
        return (k, pi.2) : Pt V × Nat → Res (Nat × Nat)) = .error .intOverflow) := by
    intro points
    induction points with
    | nil => intro k; exact ⟨fun _ => ⟨[], rfl, rfl⟩, fun h => absurd (by simp) h⟩
    | cons p points ih =>
      intro k
      rw [List.zipIdx_cons, List.mapM_cons]
      by_cases hp : PointDefined o s leaf p
      · obtain ⟨c, hc⟩ := (key_any o s leaf p).1 hp
        simp only [hc, ok_bind]
        refine ⟨fun h => ?_, fun h => ?_⟩
        · obtain ⟨cp, h1, h2⟩ := (ih (k + 1)).1 (fun q hq => h q (by simp [hq]))
          refine ⟨(c, k) :: cp, ?_, by simp [h2, List.range'_succ]⟩
          simp only [show (pure (c, k) : Res (Nat × Nat)) = .ok (c, k) from rfl, ok_bind]
          rw [h1]
          rfl
        · have h' : ¬ ∀ q ∈ points, PointDefined o s leaf q := fun hq => h (by
            intro q hm
            rcases List.mem_cons.1 hm with rfl | hm
            · exact hp
            · exact hq q hm)
          have h1 := (ih (k + 1)).2 h'
          simp only [show (pure (c, k) : Res (Nat × Nat)) = .ok (c, k) from rfl, ok_bind]
          rw [h1]
          rfl
      · have hc := (key_any o s leaf p).2 hp
        refine ⟨fun h => absurd (h p (by simp)) hp, fun _ => ?_⟩
        simp only [hc, err_bind]
  intro points
  have := key points 0
  rw [← List.range_eq_range'] at this
  exact this

theorem sumLoop_any (o : Ops V) (points : List (Pt V)) : ∀ (S : List (Nat × Nat)) (prev : Nat) (sum : Pt V) (out : List (Pt V)), (∀ ki ∈ S, ki.2 < points.length) →
    ∃ out' sum', Downsample.Machine.sumLoop o points prev sum S out = .ok (out', sum') ∧ out'.length ≤ out.length + S.length
  | [], prev, sum, out, _ => ⟨out, sum, rfl, by simp⟩
  | ki :: S, prev, sum, out, h => by
    have hS : ∀ x ∈ S, x.2 < points.length := fun x hx => h x (by simp [hx])
    unfold Downsample.Machine.sumLoop
    split
    · obtain ⟨out', sum', h1, h2⟩ := sumLoop_any o points S ki.1 sum out hS
      exact ⟨out', sum', h1, by simp; omega⟩
    · have hr : rd points ki.2 = .ok (points[ki.2]'(h ki (by simp))) := rd_of_getElem? (List.getElem?_eq_getElem _)
      simp only [hr]
      obtain ⟨out', sum', h1, h2⟩ := sumLoop_any o points S ki.1
        (Pt.add o (if prev ≠ ki.1 then (out ++ [Downsample.Machine.normalise o sum], Pt.zero o) else (out, sum)).2 (points[ki.2]'(h ki (by simp))))
        (if prev ≠ ki.1 then (out ++ [Downsample.Machine.normalise o sum], Pt.zero o) else (out, sum)).1 hS
      refine ⟨out', sum', h1, h2.trans ?_⟩
      split <;> simp <;> omega

theorem blockPoints_any (o : Ops V) (points : List (Pt V)) (S : List (Nat × Nat)) (hne : S ≠ []) (h : ∀ ki ∈ S, ki.2 < points.length) :
    ∃ out, Downsample.Machine.blockPoints o points S = .ok out ∧ 1 ≤ out.length ∧ out.length ≤ S.length := by
  cases S with
  | nil => exact absurd rfl hne
  | cons ki S =>
    have hr : rd points ki.2 = .ok (points[ki.2]'(h ki (by simp))) := rd_of_getElem? (List.getElem?_eq_getElem _)
    obtain ⟨out', sum', h1, h2⟩ := sumLoop_any o points S ki.1 (points[ki.2]'(h ki (by simp))) [] (fun x hx => h x (by simp [hx]))
    refine ⟨out' ++ [Downsample.Machine.normalise o sum'], ?_, by simp, by simp at h2 ⊢; omega⟩
    simp only [Downsample.Machine.blockPoints, hr, ok_bind, h1]
    rfl

theorem blocks_any (o : Ops V) (points : List (Pt V)) : ∀ (cs : List (List (Nat × Nat))), (∀ c ∈ cs, c ≠ []) → (∀ c ∈ cs, ∀ ki ∈ c, ki.2 < points.length) →
    ∃ subs, cs.mapM (Downsample.Machine.blockPoints o points) = .ok subs ∧ subs.flatten.length ≤ cs.flatten.length ∧ (cs ≠ [] → 1 ≤ subs.flatten.length)
  | [], _, _ => ⟨[], rfl, by simp, by simp⟩
  | c :: cs, h1, h2 => by
    obtain ⟨out, a1, a2, a3⟩ := blockPoints_any o points c (h1 c (by simp)) (h2 c (by simp))
    obtain ⟨subs, b1, b2, -⟩ := blocks_any o points cs (fun x hx => h1 x (by simp [hx])) (fun x hx => h2 x (by simp [hx]))
    refine ⟨out :: subs, ?_, ?_, fun _ => ?_⟩
    · rw [List.mapM_cons, a1, ok_bind, b1]
      rfl
    · simp only [List.flatten_cons, List.length_append]
      omega
    · simp only [List.flatten_cons, List.length_append]
      omega

/-- The serial sampler. -/
theorem sampling_any (o : Ops V) (s : Machine.Scalars V) {sort : List (Nat × Nat) → List (Nat × Nat)} (hsort : ∀ l, (sort l).Perm l) (points : List (Pt V)) (leaf : V) :
    ((∀ p ∈ points, PointDefined o s leaf p) → ∃ out, Machine.voxelgridSampling o s sort points leaf = .ok out ∧ out.length ≤ points.length ∧ (points ≠ [] → out ≠ [])) ∧
    ((¬ ∀ p ∈ points, PointDefined o s leaf p) → Machine.voxelgridSampling o s sort points leaf = .error .intOverflow) := by
  unfold Machine.voxelgridSampling
  by_cases h0 : points.length = 0
  · have : points = [] := List.eq_nil_of_length_eq_zero h0
    subst this
    exact ⟨fun _ => ⟨[], rfl, by simp, by simp⟩, fun h => absurd (by simp) h⟩
  · rw [if_neg h0]
    refine ⟨fun h => ?_, fun h => ?_⟩
    · obtain ⟨cp, h1, h2⟩ := (coordPt_any o s leaf points).1 h
      have hlen : cp.length = points.length := by rw [← List.length_map (f := Prod.snd), h2, List.length_range]
      have hsl : (sort cp).length = points.length := by rw [(hsort cp).length_eq, hlen]
      obtain ⟨out, a1, a2, a3⟩ := blockPoints_any o points (sort cp) (by rintro he; rw [he] at hsl; simp at hsl; omega)
        (fun ki hki => by
          have : ki.2 ∈ cp.map Prod.snd := List.mem_map_of_mem ((hsort cp).mem_iff.1 hki)
          rw [h2] at this
          exact List.mem_range.1 this)
      refine ⟨out, ?_, by omega, fun _ he => by rw [he] at a2; simp at a2⟩
      rw [h1, ok_bind, a1, ok_bind, if_pos (by omega)]
      rfl
    · rw [(coordPt_any o s leaf points).2 h]
      rfl

theorem parRun_complete {N : Nat} {total : List (Pt V)} : ∀ (n : Nat) (st : ParState V), ParInv N total st → (st.tasks.map workOf).sum ≤ n →
    ∃ sched st', parRun sched st = some (.ok st') ∧ st'.finished = true := by
  intro n
  induction n with
  | zero =>
    intro st hi hw
    by_cases hf : st.finished = true
    · exact ⟨[], st, rfl, hf⟩
    · obtain ⟨j, hj⟩ := parStep_progress (by simpa using hf)
      obtain ⟨r, hr⟩ := Option.isSome_iff_exists.1 hj
      obtain ⟨s1, rfl, h1, h2⟩ := parStep_inv hi hr
      omega
  | succ n ih =>
    intro st hi hw
    by_cases hf : st.finished = true
    · exact ⟨[], st, rfl, hf⟩
    · obtain ⟨j, hj⟩ := parStep_progress (by simpa using hf)
      obtain ⟨r, hr⟩ := Option.isSome_iff_exists.1 hj
      obtain ⟨s1, rfl, h1, h2⟩ := parStep_inv hi hr
      obtain ⟨sched, st', a1, a2⟩ := ih s1 h1 (by omega)
      exact ⟨j :: sched, st', by simp only [parRun, hr]; exact a1, a2⟩

/-- The parallel samplers: every complete execution ends like this, and there is one. -/
theorem samplingPar_any (o : Ops V) (s : Machine.Scalars V) {sort : List (Nat × Nat) → List (Nat × Nat)} (hsort : ∀ l, (sort l).Perm l) {cut : List (Nat × Nat) → List (List (Nat × Nat))} (hcut : IsCut cut)
    (points : List (Pt V)) (leaf : V) :
    ((∀ p ∈ points, PointDefined o s leaf p) → (∀ sched r, Machine.voxelgridSamplingPar o s sort cut sched points leaf = some r → ∃ out, r = .ok out ∧ out.length ≤ points.length ∧ (points ≠ [] → out ≠ [])) ∧
      ∃ sched out, Machine.voxelgridSamplingPar o s sort cut sched points leaf = some (.ok out)) ∧
    ((¬ ∀ p ∈ points, PointDefined o s leaf p) → ∀ sched, Machine.voxelgridSamplingPar o s sort cut sched points leaf = some (.error .intOverflow)) := by
  unfold Machine.voxelgridSamplingPar
  by_cases h0 : points.length = 0
  · have : points = [] := List.eq_nil_of_length_eq_zero h0
    subst this
    refine ⟨fun _ => ⟨fun sched r hr => ?_, [], [], rfl⟩, fun h => absurd (by simp) h⟩
    simp only [List.length_nil, if_true, Option.some.injEq] at hr
    exact ⟨[], hr.symm, by simp, by simp⟩
  · simp only [if_neg h0]
    refine ⟨fun h => ?_, fun h sched => ?_⟩
    · obtain ⟨cp, h1, h2⟩ := (coordPt_any o s leaf points).1 h
      have hlen : cp.length = points.length := by rw [← List.length_map (f := Prod.snd), h2, List.length_range]
      have hsl : (sort cp).length = points.length := by rw [(hsort cp).length_eq, hlen]
      obtain ⟨hc1, hc2⟩ := hcut (sort cp)
      obtain ⟨subs, b1, b2, b3⟩ := blocks_any o points (cut (sort cp)) hc2 (fun c hc ki hki => by
        have hm : ki ∈ sort cp := by rw [← hc1]; exact List.mem_flatten.2 ⟨c, hc, hki⟩
        have : ki.2 ∈ cp.map Prod.snd := List.mem_map_of_mem ((hsort cp).mem_iff.1 hm)
        rw [h2] at this
        exact List.mem_range.1 this)
      rw [hc1, hsl] at b2
      have hstart : Downsample.Machine.parStart o points (cut (sort cp)) = .ok ⟨0, List.replicate points.length none, subs.map .pending⟩ := by
        unfold Downsample.Machine.parStart
        rw [b1, ok_bind]
        rfl
      have hinv := parInit_inv points.length subs b2
      have hpos : 1 ≤ subs.flatten.length := b3 (by
        rintro he
        rw [he] at hc1
        rw [← hc1] at hsl
        simp at hsl
        omega)
      simp only [h1, hstart]
      refine ⟨fun sched r hr => ?_, ?_⟩
      · cases hpr : parRun sched ⟨0, List.replicate points.length none, subs.map .pending⟩ with
        | none => rw [hpr] at hr; cases hr
        | some q =>
          obtain ⟨st', rfl, i1, -⟩ := parRun_inv sched hinv hpr
          rw [hpr] at hr
          simp only [] at hr
          split at hr
          · rename_i hf
            obtain ⟨out, r1, r2⟩ := parResult_of_finished i1 hf
            rw [r1] at hr
            cases hr
            refine ⟨out, rfl, by rw [r2.length_eq]; exact b2, fun _ he => ?_⟩
            have := r2.length_eq
            rw [he] at this
            simp at this hpos
            omega
          · cases hr
      · obtain ⟨sched, st', a1, a2⟩ := parRun_complete _ _ hinv (le_refl _)
        obtain ⟨q, hq, i1, -⟩ := parRun_inv sched hinv a1
        cases hq
        obtain ⟨out, r1, -⟩ := parResult_of_finished i1 a2
        exact ⟨sched, out, by simp only [a1, a2, if_true, r1]⟩
    · rw [(coordPt_any o s leaf points).2 h]

end Sampling

/-! ### features -/

section Features

variable {V M R : Type} {fe : Machine.FeatureEval V M R} {S : Setter} {knn : Machine.Search V} {k : Int}

theorem frame_points {c c' : Cloud (Fin 4 → V) M} (h : c.points = c'.points) (i : Nat) : Machine.localFrame fe knn k c i = Machine.localFrame fe knn k c' i := by
  unfold Machine.localFrame Cloud.point
  rw [h]

/-- The values written for a point. -/
def normalValue (fe : Machine.FeatureEval V M R) (p : Fin 4 → V) : Option R → (Fin 4 → V)
  | none => fe.zero
  | some r => fe.normal p r

def covValue (fe : Machine.FeatureEval V M R) : Option R → M
  | none => fe.invalidCov
  | some r => fe.cov r

theorem setNormal_ok (c : Cloud (Fin 4 → V) M) {i : Nat} (h : i < c.normals.length) (v : Fin 4 → V) : c.setNormal i v = .ok { c with normals := c.normals.set i (some v) } := by
  unfold Cloud.setNormal
  rw [wr_of_lt _ h, ok_bind]
  rfl

theorem setCov_ok (c : Cloud (Fin 4 → V) M) {i : Nat} (h : i < c.covs.length) (v : M) : c.setCov i v = .ok { c with covs := c.covs.set i (some v) } := by
  unfold Cloud.setCov
  rw [wr_of_lt _ h, ok_bind]
  rfl

theorem point_ok {c : Cloud (Fin 4 → V) M} {i : Nat} {p : Fin 4 → V} (h : c.points[i]? = some (some p)) : c.point i = .ok p := by
  unfold Cloud.point getSlot
  rw [rd_of_getElem? h, ok_bind]
  rfl

theorem writeNormal_ok {c : Cloud (Fin 4 → V) M} {i : Nat} {p : Fin 4 → V} (hp : c.points[i]? = some (some p)) (h : i < c.normals.length) (f : Option R) :
    Machine.writeNormal fe c i f = .ok { c with normals := c.normals.set i (some (normalValue fe p f)) } := by
  cases f with
  | none => exact setNormal_ok c h _
  | some r =>
    simp only [Machine.writeNormal, point_ok hp, ok_bind]
    exact setNormal_ok c h _

theorem writeCov_ok {c : Cloud (Fin 4 → V) M} {i : Nat} (h : i < c.covs.length) (f : Option R) : Machine.writeCov fe c i f = .ok { c with covs := c.covs.set i (some (covValue fe f)) } := by
  cases f with
  | none => exact setCov_ok c h _
  | some r => exact setCov_ok c h _

theorem frame_defined (hk : 0 ≤ k) {c : Cloud (Fin 4 → V) M} {i : Nat} {p : Fin 4 → V} (hp : c.points[i]? = some (some p)) {idx : List Nat}
    (hknn : knn c.points p k.toNat = .ok idx) (hidx : ∀ j ∈ idx, ∃ q, c.points[j]? = some (some q)) : ∃ f, Machine.localFrame fe knn k c i = .ok f := by
  have hfold : ∀ (l : List Nat) (acc : (Fin 4 → V) × M), (∀ j ∈ l, ∃ q, c.points[j]? = some (some q)) →
      ∃ r, l.foldlM (fun (acc : (Fin 4 → V) × M) j => (do
        let pt ← c.point j
        .ok (fe.add acc.1 pt, fe.addOuter acc.2 pt) : Res ((Fin 4 → V) × M))) acc = .ok r := by
    intro l
    induction l with
    | nil => intro acc _; exact ⟨acc, rfl⟩
    | cons j l ih =>
      intro acc h
      obtain ⟨q, hq⟩ := h j (by simp)
      obtain ⟨r, hr⟩ := ih (fe.add acc.1 q, fe.addOuter acc.2 q) (fun j hj => h j (by simp [hj]))
      exact ⟨r, by rw [List.foldlM_cons, point_ok hq, ok_bind, ok_bind]; exact hr⟩
  unfold Machine.localFrame
  rw [if_neg (by omega), point_ok hp, ok_bind, hknn, ok_bind]
  split
  · exact ⟨_, rfl⟩
  · obtain ⟨r, hr⟩ := hfold idx (fe.zero, fe.zeroM) hidx
    rw [hr, ok_bind]
    exact ⟨_, rfl⟩

/-- The effect of a run in which every frame is found, for any order in which frames come first. -/
theorem run_any {base : Cloud (Fin 4 → V) M} {n : Nat} (hn : base.normals.length = n) (hc : base.covs.length = n) {f : Nat → Option R} {p : Nat → Fin 4 → V}
    (hp : ∀ i < n, base.points[i]? = some (some (p i))) (hf : ∀ i < n, Machine.localFrame fe knn k base i = .ok (f i))
    (order : List Act) (hreq : ∀ done a rest, order = done ++ a :: rest → ∀ b, needs b a → b ∈ done)
    (hidx : ∀ i, (Act.frame i ∈ order ∨ Act.normal i ∈ order ∨ Act.cov i ∈ order) → i < n) (loc : Nat → Option (Option R)) :
    ∃ c loc', order.foldlM (Machine.actStep fe knn k) (base, loc) = .ok (c, loc') ∧ c.points = base.points ∧
      (∀ i, c.normals[i]? = if Act.normal i ∈ order then some (some (normalValue fe (p i) (f i))) else base.normals[i]?) ∧
      (∀ i, c.covs[i]? = if Act.cov i ∈ order then some (some (covValue fe (f i))) else base.covs[i]?) := by
  obtain ⟨s', h1, h2, h3, h4, _⟩ := foldlM_inv (Machine.actStep fe knn k) (fun done s => s.1.points = base.points ∧
      (∀ i, s.1.normals[i]? = if Act.normal i ∈ done then some (some (normalValue fe (p i) (f i))) else base.normals[i]?) ∧
      (∀ i, s.1.covs[i]? = if Act.cov i ∈ done then some (some (covValue fe (f i))) else base.covs[i]?) ∧
      (∀ i, Act.frame i ∈ done → s.2 i = some (f i)) ∧ s.1.normals.length = n ∧ s.1.covs.length = n) order (base, loc)
    ⟨rfl, fun i => by simp, fun i => by simp, fun i hi => by simp at hi, hn, hc⟩ (by
      rintro done a rest hl ⟨c, loc⟩ ⟨h1, h2, h3, h4, h5, h6⟩
      simp only at h1 h2 h3 h4 h5 h6
      have hmem : a ∈ order := by rw [hl]; simp
      cases a with
      | frame i =>
        have hi := hidx i (.inl hmem)
        refine ⟨(c, Function.update loc i (some (f i))), ?_, h1, fun j => ?_, fun j => ?_, fun j hj => ?_, h5, h6⟩
        · simp only [Machine.actStep]
          rw [frame_points h1, hf i hi, ok_bind]
        · simp [h2 j]
        · simp [h3 j]
        · simp only [Function.update_apply]
          rcases List.mem_append.1 hj with hj | hj
          · split
            · rename_i e; rw [e]
            · exact h4 j hj
          · simp only [List.mem_singleton, Act.frame.injEq] at hj
            rw [if_pos hj, hj]
      | normal i =>
        have hi := hidx i (.inr (.inl hmem))
        have hfr := h4 i (hreq done _ rest hl _ (.inl ⟨i, rfl, rfl⟩))
        have hw := writeNormal_ok (fe := fe) (c := c) (by rw [h1]; exact hp i hi) (by omega) (f i)
        refine ⟨({ c with normals := c.normals.set i (some (normalValue fe (p i) (f i))) }, loc), ?_, h1, fun j => ?_, fun j => ?_, fun j hj => ?_, by simp [h5], h6⟩
        · simp only [Machine.actStep, hfr]
          rw [hw, ok_bind]
        · simp only [List.getElem?_set, List.mem_append, List.mem_singleton, Act.normal.injEq]
          by_cases e : i = j
          · subst e
            simp [h5, hi]
          · simp [e, Ne.symm e, h2 j]
        · simp [h3 j]
        · rcases List.mem_append.1 hj with hj | hj
          · exact h4 j hj
          · simp at hj
      | cov i =>
        have hi := hidx i (.inr (.inr hmem))
        have hfr := h4 i (hreq done _ rest hl _ (.inr ⟨i, rfl, rfl⟩))
        have hw := writeCov_ok (fe := fe) (c := c) (i := i) (by omega) (f i)
        refine ⟨({ c with covs := c.covs.set i (some (covValue fe (f i))) }, loc), ?_, h1, fun j => ?_, fun j => ?_, fun j hj => ?_, h5, by simp [h6]⟩
        · simp only [Machine.actStep, hfr]
          rw [hw, ok_bind]
        · simp [h2 j]
        · simp only [List.getElem?_set, List.mem_append, List.mem_singleton, Act.cov.injEq]
          by_cases e : i = j
          · subst e
            simp [h6, hi]
          · simp [e, Ne.symm e, h3 j]
        · rcases List.mem_append.1 hj with hj | hj
          · exact h4 j hj
          · simp at hj)
  exact ⟨s'.1, s'.2, h1, h2, h3, h4⟩

end Features

end Verif.Proofs.Any
