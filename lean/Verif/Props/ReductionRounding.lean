import Verif.Props.Reduction
import Mathlib.Analysis.Real.Sqrt
import Mathlib.Data.Int.Log
import Mathlib.Tactic.Linarith
import Mathlib.Tactic.Positivity
import Mathlib.Tactic.FieldSimp
import Mathlib.Tactic.GCongr

/-!
C85: sums of the reductions in floating-point arithmetic. Serial, OpenMP and TBB reductions add in different orders and so round differently; whatever the schedule, all stay within the same distance
of the exact sum.
-/

set_option linter.unusedSectionVars false
set_option linter.unusedSimpArgs false
set_option linter.unnecessarySeqFocus false

namespace Verif.Spec

open Verif

/-- `c` is a component (an entry of `H` or `b`, or the error) of the values that a machine sums: every addition is rounded by `rnd`, which leaves machine numbers alone and has, for the
sum of two of them, a relative error of at most `u` for results up to `big` (beyond, anything may happen). IEEE sums that underflow are exact, so gradual underflow is covered. -/
structure MachineSum {S : Type} [Zero S] [Add S] (c : S → ℝ) (rnd : ℝ → ℝ) (u big : ℝ) : Prop where
  pos : 0 ≤ u
  zero : c 0 = 0
  add : ∀ a b, c (a + b) = rnd (c a + c b)
  exact : ∀ a, rnd (c a) = c a
  rel : ∀ a b, |c a + c b| ≤ big → |rnd (c a + c b) - (c a + c b)| ≤ u * |c a + c b|

/-- What the factors contribute: the systems of those that return one. -/
def contributions {F S : Type} (lin : Nat → F → F × Option S) (fs : List F) : List S := (fs.mapIdx fun i f => (lin i f).2).filterMap id

/-- `s` is the sum of `terms`, up to the rounding errors of at most `terms.length - 1` additions on the way of each of them, in all components. -/
def SumUpToRounding {S : Type} [Zero S] [Add S] (terms : List S) (s : S) : Prop :=
  ∀ (c : S → ℝ) (rnd : ℝ → ℝ) (u big : ℝ), MachineSum c rnd u big → (1 + u) ^ terms.length * (terms.map fun t => |c t|).sum ≤ big →
    |c s - (terms.map c).sum| ≤ ((1 + u) ^ (terms.length - 1) - 1) * (terms.map fun t => |c t|).sum

end Verif.Spec

namespace Verif.Props

open Verif Verif.Proofs Verif.Reduction Verif.Spec

/-! ### Reductions of related values are related -/

section Param

variable {F S S' : Type} [Zero S] [Add S] [Zero S'] [Add S'] (R : S → S' → Prop)

/-- The same outcome up to `Q`. -/
def SameUpTo {A B : Type} (Q : A → B → Prop) : Res A → Res B → Prop
  | .ok a, .ok b => Q a b
  | .error e, .error e' => e = e'
  | _, _ => False

theorem same_foldlM {A B I : Type} {Q : A → B → Prop} {f : A → I → Res A} {g : B → I → Res B} (h : ∀ a b i, Q a b → SameUpTo Q (f a i) (g b i)) (is : List I) {a : A} {b : B} (hab : Q a b) :
    SameUpTo Q (is.foldlM f a) (is.foldlM g b) := by
  induction is generalizing a b with
  | nil => exact hab
  | cons i is ih =>
    rw [List.foldlM_cons, List.foldlM_cons]
    have := h a b i hab
    revert this
    cases f a i <;> cases g b i <;> intro hq
    · exact hq
    · exact hq.elim
    · exact hq.elim
    · exact ih hq

theorem same_rd {A B : Type} {Q : A → B → Prop} {l : List A} {l' : List B} (h : List.Forall₂ Q l l') (i : Nat) : SameUpTo Q (rd l i) (rd l' i) := by
  unfold rd
  induction h generalizing i with
  | nil => rfl
  | cons h1 _ ih =>
    cases i with
    | zero => exact h1
    | succ i => simpa using ih i

theorem same_set {A B : Type} {Q : A → B → Prop} {l : List A} {l' : List B} (h : List.Forall₂ Q l l') (i : Nat) {x : A} {y : B} (hxy : Q x y) : List.Forall₂ Q (l.set i x) (l'.set i y) := by
  induction h generalizing i with
  | nil => exact .nil
  | cons h1 h2 ih =>
    cases i with
    | zero => exact .cons hxy h2
    | succ i => exact .cons h1 (ih i)

theorem same_wr {A B : Type} {Q : A → B → Prop} {l : List A} {l' : List B} (h : List.Forall₂ Q l l') (i : Nat) {x : A} {y : B} (hxy : Q x y) :
    SameUpTo (List.Forall₂ Q) (wr l i x) (wr l' i y) := by
  unfold wr
  rw [h.length_eq]
  split
  · exact same_set h i hxy
  · rfl

theorem same_bind {A B A' B' : Type} {Q : A → B → Prop} {Q' : A' → B' → Prop} {x : Res A} {y : Res B} {f : A → Res A'} {g : B → Res B'} (h : SameUpTo Q x y)
    (hf : ∀ a b, Q a b → SameUpTo Q' (f a) (g b)) : SameUpTo Q' (x >>= f) (y >>= g) := by
  cases x <;> cases y
  · exact h
  · exact h.elim
  · exact h.elim
  · exact hf _ _ h

theorem same_refl {A : Type} (x : Res A) : SameUpTo (fun a b => a = b) x x := by
  cases x <;> rfl

/-- Two linearisations that treat the factors alike and give related systems. -/
def LinAlike (lin : Nat → F → F × Option S) (lin' : Nat → F → F × Option S') : Prop :=
  ∀ i f, (lin i f).1 = (lin' i f).1 ∧ Option.Rel R (lin i f).2 (lin' i f).2

variable {R} (h0 : R 0 0) (hadd : ∀ a a' b b', R a a' → R b b' → R (a + b) (a' + b'))
variable {lin : Nat → F → F × Option S} {lin' : Nat → F → F × Option S'} (hlin : LinAlike R lin lin')

include h0 hadd hlin

theorem serial_alike (fs : List F) : SameUpTo (fun a b => a.1 = b.1 ∧ R a.2 b.2) (serialLinearize lin fs) (serialLinearize lin' fs) := by
  refine same_foldlM ?_ _ ⟨rfl, h0⟩
  rintro ⟨l, s⟩ ⟨l', s'⟩ i ⟨e, hR⟩
  obtain rfl : l = l' := e
  unfold serialStep
  refine same_bind (same_refl _) ?_
  rintro f _ rfl
  obtain ⟨h1, h2⟩ := hlin i f
  dsimp only
  rw [h1]
  refine same_bind (same_refl _) ?_
  rintro l2 _ rfl
  revert h2
  generalize (lin i f).2 = o
  generalize (lin' i f).2 = o'
  intro h2
  cases h2 with
  | none => exact ⟨rfl, hR⟩
  | some h => exact ⟨rfl, hadd _ _ _ _ hR h⟩

theorem omp_alike (n : Nat) (assign : List (List Nat)) (sched : List Nat) (fs : List F) :
    Option.Rel (SameUpTo fun a b => a.1 = b.1 ∧ R a.2 b.2) (ompLinearize lin n assign sched fs) (ompLinearize lin' n assign sched fs) := by
  unfold ompLinearize
  cases parOrder sched (assign.mapIdx ompThread) with
  | none => exact .none
  | some order =>
    refine .some (same_bind (Q := fun a b => a.factors = b.factors ∧ List.Forall₂ (Option.Rel R) a.locals b.locals ∧ List.Forall₂ R a.sums b.sums) (same_foldlM ?_ _ ?_) ?_)
    · rintro ⟨l, ls, ss⟩ ⟨l', ls', ss'⟩ a ⟨e, hl, hs⟩
      obtain rfl : l = l' := e
      cases a with
      | lin t i =>
        refine same_bind (same_refl _) ?_
        rintro f _ rfl
        obtain ⟨h1, h2⟩ := hlin i f
        dsimp only
        rw [h1]
        refine same_bind (same_refl _) ?_
        rintro l2 _ rfl
        refine same_bind (same_wr hl t h2) fun _ _ hls => ?_
        exact ⟨rfl, hls, hs⟩
      | acc t =>
        refine same_bind (same_rd hl t) ?_
        intro o o' ho
        cases ho with
        | none => exact ⟨rfl, hl, hs⟩
        | some h =>
          refine same_bind (same_rd hs t) fun x y hxy => ?_
          refine same_bind (same_wr hs t (hadd _ _ _ _ hxy h)) fun _ _ hss => ?_
          exact ⟨rfl, hl, hss⟩
    · refine ⟨rfl, ?_, ?_⟩
      · induction n with
        | zero => exact .nil
        | succ n ih => rw [List.replicate_succ, List.replicate_succ]; exact .cons .none ih
      · induction n with
        | zero => exact .nil
        | succ n ih => rw [List.replicate_succ, List.replicate_succ]; exact .cons h0 ih
    · rintro ⟨l, ls, ss⟩ ⟨l', ls', ss'⟩ ⟨e, hl, hs⟩
      obtain rfl : l = l' := e
      refine same_bind (Q := R) ?_ fun _ _ h => ⟨rfl, h⟩
      unfold ompGather
      refine same_bind (same_foldlM ?_ _ hs) fun _ _ h => same_rd h 0
      intro a b i hab
      refine same_bind (same_rd hab 0) fun x x' hx => ?_
      refine same_bind (same_rd hab i) fun y y' hy => ?_
      exact same_wr hab 0 (hadd _ _ _ _ hx hy)

theorem tbb_alike (order : List TbbAct) (fs : List F) : SameUpTo (fun a b => a.1 = b.1 ∧ R a.2 b.2) (tbbLinearize lin order fs) (tbbLinearize lin' order fs) := by
  unfold tbbLinearize
  refine same_bind (Q := fun a b => a.factors = b.factors ∧ ∀ x, R (a.bodies x).acc (b.bodies x).acc ∧ R (a.bodies x).tmp (b.bodies x).tmp ∧ Option.Rel R (a.bodies x).loc (b.bodies x).loc)
    (same_foldlM ?_ _ ⟨rfl, fun _ => ⟨h0, h0, .none⟩⟩) fun _ _ h => ⟨h.1, (h.2 []).1⟩
  have set : ∀ (st : TbbState F S) (st' : TbbState F S') (b : BodyId) (x : Body S) (x' : Body S'), st.factors = st'.factors →
      (∀ x, R (st.bodies x).acc (st'.bodies x).acc ∧ R (st.bodies x).tmp (st'.bodies x).tmp ∧ Option.Rel R (st.bodies x).loc (st'.bodies x).loc) → R x.acc x'.acc → R x.tmp x'.tmp →
      Option.Rel R x.loc x'.loc → (st.setBody b x).factors = (st'.setBody b x').factors ∧ ∀ y, R ((st.setBody b x).bodies y).acc ((st'.setBody b x').bodies y).acc ∧
        R ((st.setBody b x).bodies y).tmp ((st'.setBody b x').bodies y).tmp ∧ Option.Rel R ((st.setBody b x).bodies y).loc ((st'.setBody b x').bodies y).loc := by
    intro st st' b x x' e h h1 h2 h3
    refine ⟨e, fun y => ?_⟩
    unfold TbbState.setBody
    dsimp only
    split
    · exact ⟨h1, h2, h3⟩
    · exact h y
  rintro ⟨l, bs⟩ ⟨l', bs'⟩ a ⟨e, h⟩
  obtain rfl : l = l' := e
  cases a with
  | split c => exact set _ _ _ _ _ rfl h h0 h0 .none
  | enter b => exact set _ _ _ _ _ rfl h (h b).1 (h b).1 (h b).2.2
  | lin b i =>
    refine same_bind (same_refl _) ?_
    rintro f _ rfl
    obtain ⟨h1, h2⟩ := hlin i f
    dsimp only
    rw [h1]
    refine same_bind (same_refl _) ?_
    rintro l2 _ rfl
    exact set ⟨l2, bs⟩ ⟨l2, bs'⟩ _ _ _ rfl h (h b).1 (h b).2.1 h2
  | add b =>
    obtain ⟨h1, h2, h3⟩ := h b
    unfold tbbAct
    dsimp only at h3 ⊢
    generalize ho : (bs b).loc = o at h3 ⊢
    generalize ho' : (bs' b).loc = o' at h3 ⊢
    cases h3 with
    | none => exact ⟨rfl, h⟩
    | some h4 => exact set ⟨l, bs⟩ ⟨l, bs'⟩ _ _ _ rfl h h1 (hadd _ _ _ _ h2 h4) (.some h4)
  | leave b => exact set _ _ _ _ _ rfl h (h b).2.1 (h b).2.1 (h b).2.2
  | join b c => exact set _ _ _ _ _ rfl h (hadd _ _ _ _ (h b).1 (h c).1) (h b).2.1 (h b).2.2

end Param

/-! ### The errors of the additions -/

section Error

variable {S : Type} [Zero S] [Add S]

/-- What is known of a partial sum: exact sum, sum of the absolute values and number of the terms in it. -/
def Near (c : S → ℝ) (u big : ℝ) (s : S) (x : ℝ × ℝ × ℕ) : Prop :=
  |x.1| ≤ x.2.1 ∧ (x.2.2 = 0 → c s = 0 ∧ x.1 = 0 ∧ x.2.1 = 0) ∧
    (1 ≤ x.2.2 → (1 + u) ^ x.2.2 * x.2.1 ≤ big → |c s - x.1| ≤ ((1 + u) ^ (x.2.2 - 1) - 1) * x.2.1)

theorem near_zero {c : S → ℝ} {rnd : ℝ → ℝ} {u big : ℝ} (h : MachineSum c rnd u big) : Near c u big 0 0 :=
  ⟨by simp, fun _ => ⟨h.zero, rfl, rfl⟩, fun h1 => absurd h1 (by simp)⟩

theorem near_one {c : S → ℝ} {u big : ℝ} (s : S) : Near c u big s (c s, |c s|, 1) :=
  ⟨le_refl _, fun h => absurd h (by simp), fun _ _ => by simp⟩

theorem near_add {c : S → ℝ} {rnd : ℝ → ℝ} {u big : ℝ} (h : MachineSum c rnd u big) (a : S) (x : ℝ × ℝ × ℕ) (b : S) (y : ℝ × ℝ × ℕ) (ha : Near c u big a x) (hb : Near c u big b y) :
    Near c u big (a + b) (x + y) := by
  obtain ⟨xs, xz, xn⟩ := x
  obtain ⟨ys, yz, yn⟩ := y
  obtain ⟨a1, a2, a3⟩ := ha
  obtain ⟨b1, b2, b3⟩ := hb
  simp only [] at a1 a2 a3 b1 b2 b3
  refine ⟨(abs_add_le _ _).trans (add_le_add a1 b1), ?_, ?_⟩
  · intro hn
    simp only [Prod.snd_add, Prod.fst_add] at hn ⊢
    obtain ⟨c1, c2, c3⟩ := a2 (by omega)
    obtain ⟨d1, d2, d3⟩ := b2 (by omega)
    have := h.exact 0
    rw [h.zero] at this
    refine ⟨by rw [h.add, c1, d1, add_zero, this], by rw [c2, d2, add_zero], by rw [c3, d3, add_zero]⟩
  · intro hn hbig
    simp only [Prod.snd_add, Prod.fst_add] at hn hbig ⊢
    rcases Nat.eq_zero_or_pos xn with rfl | hx
    · obtain ⟨c1, rfl, rfl⟩ := a2 rfl
      rw [h.add, c1, zero_add, h.exact, zero_add, zero_add, zero_add]
      simp only [zero_add] at hbig hn
      exact b3 hn hbig
    rcases Nat.eq_zero_or_pos yn with rfl | hy
    · obtain ⟨c1, rfl, rfl⟩ := b2 rfl
      rw [h.add, c1, add_zero, h.exact, add_zero, add_zero, add_zero]
      simp only [add_zero] at hbig hn
      exact a3 hn hbig
    have hu := h.pos
    have one : (1 : ℝ) ≤ 1 + u := by linarith
    have hxz : 0 ≤ xz := (abs_nonneg _).trans a1
    have hyz : 0 ≤ yz := (abs_nonneg _).trans b1
    have mono : ∀ {i j : ℕ}, i ≤ j → (1 + u) ^ i ≤ (1 + u) ^ j := fun hij => pow_le_pow_right₀ one hij
    have posp : ∀ i : ℕ, (1 : ℝ) ≤ (1 + u) ^ i := fun i => one_le_pow₀ one
    have hA := a3 hx (le_trans (by
      have := mono (show xn ≤ xn + yn by omega)
      have := posp xn
      nlinarith) hbig)
    have hB := b3 hy (le_trans (by
      have := mono (show yn ≤ xn + yn by omega)
      have := posp yn
      nlinarith) hbig)
    have hca : |c a| ≤ (1 + u) ^ (xn - 1) * xz := by
      have : |c a| ≤ |c a - xs| + |xs| := by simpa using abs_add_le (c a - xs) xs
      linarith
    have hcb : |c b| ≤ (1 + u) ^ (yn - 1) * yz := by
      have : |c b| ≤ |c b - ys| + |ys| := by simpa using abs_add_le (c b - ys) ys
      linarith
    have hsum : |c a + c b| ≤ (1 + u) ^ (xn - 1) * xz + (1 + u) ^ (yn - 1) * yz := (abs_add_le _ _).trans (add_le_add hca hcb)
    have hle : |c a + c b| ≤ big := by
      refine hsum.trans (le_trans ?_ hbig)
      have h1 := mul_le_mul_of_nonneg_right (mono (show xn - 1 ≤ xn + yn by omega)) hxz
      have h2 := mul_le_mul_of_nonneg_right (mono (show yn - 1 ≤ xn + yn by omega)) hyz
      linarith
    have hr := h.rel a b hle
    rw [h.add]
    have tri : |rnd (c a + c b) - (xs + ys)| ≤ |rnd (c a + c b) - (c a + c b)| + |c a - xs| + |c b - ys| := by
      have e : rnd (c a + c b) - (xs + ys) = (rnd (c a + c b) - (c a + c b)) + (c a - xs) + (c b - ys) := by ring
      rw [e]
      exact abs_add_three _ _ _
    have h1 : (1 + u) * (1 + u) ^ (xn - 1) ≤ (1 + u) ^ (xn + yn - 1) := by
      rw [← pow_succ']
      exact mono (by omega)
    have h2 : (1 + u) * (1 + u) ^ (yn - 1) ≤ (1 + u) ^ (xn + yn - 1) := by
      rw [← pow_succ']
      exact mono (by omega)
    have h3 := mul_le_mul_of_nonneg_right h1 hxz
    have h4 := mul_le_mul_of_nonneg_right h2 hyz
    have h5 := mul_le_mul_of_nonneg_left hsum hu
    nlinarith

end Error

/-! ### All reductions -/

section Main

variable {F S E : Type} [Zero S] [Add S] [Zero E] [Add E]

/-- `r` is what the reduction gives for any kind of system, as far as it can be told without knowing how systems are added. -/
def Faithful (lin : Nat → F → F × Option S) (fs : List F) (r : Res (List F × S)) : Prop :=
  ∀ (S' : Type) [AddCommMonoid S'] (R : S → S' → Prop), R 0 0 → (∀ a a' b b', R a a' → R b b' → R (a + b) (a' + b')) → ∀ lin' : Nat → F → F × Option S', LinAlike R lin lin' →
    SameUpTo (fun a b => a.1 = b.1 ∧ R a.2 b.2) r (.ok (reduceSpec lin' fs))

theorem serial_faithful (lin : Nat → F → F × Option S) (fs : List F) : Faithful lin fs (serialLinearize lin fs) := by
  intro S' _ R h0 hadd lin' hlin
  rw [← C30_serial]
  exact serial_alike h0 hadd hlin fs

theorem omp_faithful (lin : Nat → F → F × Option S) (n : Nat) (hn : 0 < n) (fs : List F) (assign : List (List Nat)) (hlen : assign.length ≤ n)
    (hassign : assign.flatten.Perm (List.range fs.length)) (sched : List Nat) {r} (hr : ompLinearize lin n assign sched fs = some r) : Faithful lin fs r := by
  intro S' _ R h0 hadd lin' hlin
  have := omp_alike h0 hadd hlin n assign sched fs
  rw [hr] at this
  generalize hr' : ompLinearize lin' n assign sched fs = o at this
  cases this with
  | some h =>
    rw [C30_omp lin' n hn fs assign hlen hassign sched hr', C30_serial] at h
    exact h

theorem tbb_faithful (lin : Nat → F → F × Option S) (fs : List F) (t : RTree) (ht : Covers t 0 fs.length) (order : List TbbAct) (ho : Trace t [] [] order) :
    Faithful lin fs (tbbLinearize lin order fs) := by
  intro S' _ R h0 hadd lin' hlin
  rw [← C30_serial, ← C30_tbb lin' fs t ht order ho]
  exact tbb_alike h0 hadd hlin order fs

theorem option_sums (c : S → ℝ) (l : List (Option S)) : (l.map fun o => (o.map fun s => (c s, |c s|, 1)).getD (0 : ℝ × ℝ × ℕ)).sum =
    (((l.filterMap id).map c).sum, ((l.filterMap id).map fun s => |c s|).sum, (l.filterMap id).length) := by
  induction l with
  | nil => rfl
  | cons o l ih =>
    rw [List.map_cons, List.sum_cons, ih]
    cases o with
    | none => simp
    | some s => simp [add_comm]

theorem faithful_sum {lin : Nat → F → F × Option S} {fs : List F} {r : Res (List F × S)} (h : Faithful lin fs r) :
    ∃ s, r = .ok (fs.mapIdx fun i f => (lin i f).1, s) ∧ SumUpToRounding (contributions lin fs) s := by
  have hex := h ℕ (fun _ _ => True) trivial (fun _ _ _ _ _ _ => trivial) (fun i f => ((lin i f).1, (lin i f).2.map fun _ => 0)) (fun i f => ⟨rfl, by
    dsimp only
    cases (lin i f).2 with
    | none => exact .none
    | some _ => exact .some trivial⟩)
  cases r with
  | error e => exact hex.elim
  | ok r =>
    obtain ⟨l, s⟩ := r
    obtain ⟨e, -⟩ := hex
    refine ⟨s, by rw [show l = _ from e]; rfl, ?_⟩
    intro c rnd u big hm hbig
    have hn := h (ℝ × ℝ × ℕ) (Near c u big) (near_zero hm) (near_add hm) (fun i f => ((lin i f).1, (lin i f).2.map fun s => (c s, |c s|, 1))) (fun i f => ⟨rfl, by
      dsimp only
      cases (lin i f).2 with
      | none => exact .none
      | some s => exact .some (near_one s)⟩)
    obtain ⟨-, hn⟩ := hn
    have hs : (reduceSpec (fun i f => ((lin i f).1, (lin i f).2.map fun s => (c s, |c s|, 1))) fs).2 =
        (((contributions lin fs).map c).sum, ((contributions lin fs).map fun s => |c s|).sum, (contributions lin fs).length) := by
      unfold contributions
      rw [← option_sums, List.mapIdx_eq_zipIdx_map, List.map_map]
      unfold reduceSpec
      dsimp only
      rw [List.mapIdx_eq_zipIdx_map (f := fun i f => (((lin i f).2).map fun s => (c s, |c s|, 1)).getD 0)]
      rfl
    rw [hs] at hn
    obtain ⟨-, h2, h3⟩ := hn
    rcases Nat.eq_zero_or_pos (contributions lin fs).length with hz | hp
    · obtain ⟨a, b, d⟩ := h2 hz
      simp only [] at a b d
      rw [a, b, d]
      simp
    · exact h3 hp hbig

/-- C85. `linearize` in floating-point arithmetic, serial, with OpenMP (any number of threads, any distribution, any interleaving) and with TBB (any splitting, any interleaving): the factors end up the
same, and every component of the system is the exact sum of the contributions up to the rounding errors of `N - 1` additions, `N` the number of contributions. -/
theorem C85_linearize (lin : Nat → F → F × Option S) (fs : List F) :
    (∃ s, serialLinearize lin fs = .ok (fs.mapIdx fun i f => (lin i f).1, s) ∧ SumUpToRounding (contributions lin fs) s) ∧
    (∀ (n : Nat) (assign : List (List Nat)) (sched : List Nat) (r : Res (List F × S)), 0 < n → assign.length ≤ n → assign.flatten.Perm (List.range fs.length) →
      ompLinearize lin n assign sched fs = some r → ∃ s, r = .ok (fs.mapIdx fun i f => (lin i f).1, s) ∧ SumUpToRounding (contributions lin fs) s) ∧
    (∀ (t : RTree) (order : List TbbAct), Covers t 0 fs.length → Trace t [] [] order →
      ∃ s, tbbLinearize lin order fs = .ok (fs.mapIdx fun i f => (lin i f).1, s) ∧ SumUpToRounding (contributions lin fs) s) :=
  ⟨faithful_sum (serial_faithful lin fs), fun n assign sched _ hn hl ha hr => faithful_sum (omp_faithful lin n hn fs assign hl ha sched hr),
    fun t order ht ho => faithful_sum (tbb_faithful lin fs t ht order ho)⟩

/-- C85. Two sums of the same contributions, one from each of two reductions or two runs, differ in each component by at most twice that error. -/
theorem C85_apart {terms : List S} {s s' : S} (h : SumUpToRounding terms s) (h' : SumUpToRounding terms s') {c : S → ℝ} {rnd : ℝ → ℝ} {u big : ℝ} (hm : MachineSum c rnd u big)
    (hbig : (1 + u) ^ terms.length * (terms.map fun t => |c t|).sum ≤ big) :
    |c s - c s'| ≤ 2 * ((1 + u) ^ (terms.length - 1) - 1) * (terms.map fun t => |c t|).sum := by
  have h1 := h c rnd u big hm hbig
  have h2 := h' c rnd u big hm hbig
  have h3 : |c s - c s'| ≤ |c s - (terms.map c).sum| + |c s' - (terms.map c).sum| := by
    rw [abs_sub_comm (c s') _]
    exact abs_sub_le _ _ _
  linarith

/-- Sums of errors: related values give related sums. -/
theorem mapM_alike {A B I : Type} {Q : A → B → Prop} {f : I → Res A} {g : I → Res B} (h : ∀ i, SameUpTo Q (f i) (g i)) (is : List I) : SameUpTo (List.Forall₂ Q) (is.mapM f) (is.mapM g) := by
  induction is with
  | nil => exact List.Forall₂.nil
  | cons i is ih =>
    rw [List.mapM_cons, List.mapM_cons]
    refine same_bind (h i) fun a b hab => same_bind ih fun l l' hl => ?_
    exact List.Forall₂.cons hab hl

theorem ompError_alike {S' : Type} [Zero S'] [Add S'] {R : E → S' → Prop} (h0 : R 0 0) (hadd : ∀ a a' b b', R a a' → R b b' → R (a + b) (a' + b')) (err : F → E) (err' : F → S')
    (herr : ∀ f, R (err f) (err' f)) (assign : List (List Nat)) (comb : List Nat) (fs : List F) : SameUpTo R (ompError err assign comb fs) (ompError err' assign comb fs) := by
  unfold ompError
  refine same_bind (mapM_alike (Q := R) ?_ assign) fun ps ps' hps => ?_
  · intro is
    refine same_foldlM ?_ is h0
    intro a b i hab
    refine same_bind (same_refl _) ?_
    rintro f _ rfl
    exact hadd _ _ _ _ hab (herr f)
  · refine same_foldlM ?_ comb h0
    intro a b i hab
    refine same_bind (same_rd hps i) fun x y hxy => ?_
    exact hadd _ _ _ _ hab hxy

theorem serialError_alike {S' : Type} [Zero S'] [Add S'] {R : E → S' → Prop} (h0 : R 0 0) (hadd : ∀ a a' b b', R a a' → R b b' → R (a + b) (a' + b')) (err : F → E) (err' : F → S')
    (herr : ∀ f, R (err f) (err' f)) (fs : List F) : SameUpTo R (serialError err fs) (serialError err' fs) := by
  refine same_foldlM ?_ _ h0
  intro a b i hab
  refine same_bind (same_refl _) ?_
  rintro f _ rfl
  exact hadd _ _ _ _ hab (herr f)

/-- From all relations to the rounding errors. -/
theorem error_sum {err : F → E} {fs : List F} {r : Res E} (h : ∀ (S' : Type) [AddCommMonoid S'] (R : E → S' → Prop), R 0 0 → (∀ a a' b b', R a a' → R b b' → R (a + b) (a' + b')) →
    ∀ err' : F → S', (∀ f, R (err f) (err' f)) → SameUpTo R r (.ok (errorSpec err' fs))) : ∃ e, r = .ok e ∧ SumUpToRounding (fs.map err) e := by
  cases r with
  | error e => exact (h ℕ (fun _ _ => True) trivial (fun _ _ _ _ _ _ => trivial) (fun _ => 0) (fun _ => trivial)).elim
  | ok e =>
    refine ⟨e, rfl, ?_⟩
    intro c rnd u big hm hbig
    have hn := h (ℝ × ℝ × ℕ) (Near c u big) (near_zero hm) (near_add hm) (fun f => (c (err f), |c (err f)|, 1)) (fun f => near_one _)
    have hs : errorSpec (fun f => (c (err f), |c (err f)|, 1)) fs = (((fs.map err).map c).sum, ((fs.map err).map fun s => |c s|).sum, (fs.map err).length) := by
      have := option_sums c ((fs.map err).map some)
      rw [List.filterMap_map, show (id ∘ some : E → Option E) = some from rfl, List.filterMap_some] at this
      rw [← this, List.map_map, List.map_map]
      rfl
    have hn : Near c u big e (errorSpec (fun f => (c (err f), |c (err f)|, 1)) fs) := hn
    rw [hs] at hn
    obtain ⟨-, h2, h3⟩ := hn
    rcases Nat.eq_zero_or_pos (fs.map err).length with hz | hp
    · obtain ⟨a, b, d⟩ := h2 hz
      simp only [] at a b d
      rw [a, b, d]
      simp
    · exact h3 hp hbig

/-- C85. The same for the evaluated error. -/
theorem C85_error (err : F → E) (fs : List F) :
    (∃ e, serialError err fs = .ok e ∧ SumUpToRounding (fs.map err) e) ∧
    (∀ (assign : List (List Nat)) (comb : List Nat), assign.flatten.Perm (List.range fs.length) → comb.Perm (List.range assign.length) →
      ∃ e, ompError err assign comb fs = .ok e ∧ SumUpToRounding (fs.map err) e) ∧
    (∀ (t : RTree) (order : List TbbAct), Covers t 0 fs.length → Trace t [] [] order → ∃ e, tbbError err order fs = .ok e ∧ SumUpToRounding (fs.map err) e) := by
  refine ⟨error_sum ?_, fun assign comb h1 h2 => error_sum ?_, fun t order h1 h2 => error_sum ?_⟩
  · intro S' _ R h0 hadd err' herr
    rw [← (C30_error err' fs).1]
    exact serialError_alike h0 hadd err err' herr fs
  · intro S' _ R h0 hadd err' herr
    rw [← (C30_error err' fs).1, ← (C30_error err' fs).2.1 assign comb h1 h2]
    exact ompError_alike h0 hadd err err' herr assign comb fs
  · intro S' _ R h0 hadd err' herr
    rw [← (C30_error err' fs).1, ← (C30_error err' fs).2.2 t order h1 h2]
    unfold tbbError
    exact same_bind (tbb_alike h0 hadd (fun _ f => ⟨rfl, .some (herr f)⟩) order fs) fun _ _ h => h.2

end Main

/-! ### example: numbers with `p + 1` binary digits -/

/-- A positive number cut off after `p + 1` binary digits. -/
noncomputable def cutPos (p : ℕ) (x : ℝ) : ℝ := ⌊x / 2 ^ (Int.log 2 x - p)⌋ * 2 ^ (Int.log 2 x - p)

noncomputable def cutOff (p : ℕ) (x : ℝ) : ℝ := if 0 ≤ x then cutPos p x else -cutPos p (-x)

theorem cutPos_bounds (p : ℕ) {x : ℝ} (hx : 0 < x) : (2 : ℝ) ^ Int.log 2 x ≤ cutPos p x ∧ cutPos p x ≤ x ∧ x - cutPos p x ≤ (1 / 2 ^ p) * x := by
  have hq : (0 : ℝ) < 2 ^ (Int.log 2 x - p) := zpow_pos (by norm_num) _
  have h1 : (2 : ℝ) ^ Int.log 2 x ≤ x := by exact_mod_cast Int.zpow_log_le_self (R := ℝ) (b := 2) (by norm_num) hx
  have hql : (2 : ℝ) ^ (Int.log 2 x - p) = 2 ^ Int.log 2 x / 2 ^ p := by
    rw [zpow_sub₀ (by norm_num), zpow_natCast]
  have hpp : (0 : ℝ) < 2 ^ p := by positivity
  unfold cutPos
  refine ⟨?_, ?_, ?_⟩
  · have : ((2 ^ p : ℕ) : ℤ) ≤ ⌊x / 2 ^ (Int.log 2 x - p)⌋ := by
      rw [Int.le_floor]
      push_cast
      rw [le_div_iff₀ hq, hql]
      field_simp
      exact h1
    have h2 : ((2 : ℝ) ^ p) ≤ ⌊x / 2 ^ (Int.log 2 x - p)⌋ := by exact_mod_cast this
    calc (2 : ℝ) ^ Int.log 2 x = 2 ^ p * 2 ^ (Int.log 2 x - p) := by rw [hql]; field_simp
      _ ≤ _ := mul_le_mul_of_nonneg_right h2 hq.le
  · have := Int.floor_le (x / 2 ^ (Int.log 2 x - p))
    rwa [le_div_iff₀ hq] at this
  · have := Int.lt_floor_add_one (x / 2 ^ (Int.log 2 x - p))
    rw [div_lt_iff₀ hq] at this
    have h3 : (2 : ℝ) ^ (Int.log 2 x - p) ≤ 1 / 2 ^ p * x := by
      rw [hql]
      field_simp
      exact h1
    linarith

theorem cutPos_idem (p : ℕ) {x : ℝ} (hx : 0 < x) : 0 < cutPos p x ∧ cutPos p (cutPos p x) = cutPos p x := by
  obtain ⟨h1, h2, -⟩ := cutPos_bounds p hx
  have hpos : 0 < cutPos p x := lt_of_lt_of_le (zpow_pos (by norm_num) _) h1
  have hlog : Int.log 2 (cutPos p x) = Int.log 2 x := by
    apply le_antisymm
    · exact Int.log_mono_right hpos h2
    · rw [← Int.zpow_le_iff_le_log (R := ℝ) (b := 2) (by norm_num) hpos]
      exact_mod_cast h1
  refine ⟨hpos, ?_⟩
  have e : cutPos p (cutPos p x) = ⌊cutPos p x / 2 ^ (Int.log 2 x - p)⌋ * 2 ^ (Int.log 2 x - p) := by
    conv_lhs => unfold cutPos
    unfold cutPos at hlog ⊢
    rw [hlog]
  rw [e]
  have hq : (2 : ℝ) ^ (Int.log 2 x - p) ≠ 0 := zpow_ne_zero _ (by norm_num)
  unfold cutPos
  rw [mul_div_assoc, div_self hq, mul_one, Int.floor_intCast]

theorem cutOff_zero (p : ℕ) : cutOff p 0 = 0 := by simp [cutOff, cutPos]

theorem cutOff_rel (p : ℕ) (x : ℝ) : |cutOff p x - x| ≤ 1 / 2 ^ p * |x| := by
  unfold cutOff
  rcases lt_trichotomy x 0 with h | rfl | h
  · obtain ⟨-, h2, h3⟩ := cutPos_bounds p (neg_pos.2 h)
    rw [if_neg (not_le.2 h), abs_of_neg h, abs_of_nonneg (by linarith)]
    linarith
  · simp [cutPos]
  · obtain ⟨-, h2, h3⟩ := cutPos_bounds p h
    rw [if_pos h.le, abs_of_pos h, abs_of_nonpos (by linarith)]
    linarith

theorem cutOff_idem (p : ℕ) (x : ℝ) : cutOff p (cutOff p x) = cutOff p x := by
  rcases lt_trichotomy x 0 with h | rfl | h
  · obtain ⟨h1, h2⟩ := cutPos_idem p (neg_pos.2 h)
    have e : cutOff p x = -cutPos p (-x) := if_neg (not_le.2 h)
    rw [e]
    unfold cutOff
    rw [if_neg (by linarith), neg_neg, h2]
  · rw [cutOff_zero, cutOff_zero]
  · obtain ⟨h1, h2⟩ := cutPos_idem p h
    have e : cutOff p x = cutPos p x := if_pos h.le
    rw [e]
    unfold cutOff
    rw [if_pos h1.le, h2]

/-- The numbers with `p + 1` binary digits and any exponent. -/
def Digits (p : ℕ) : Type := { x : ℝ // cutOff p x = x }

noncomputable instance (p : ℕ) : Zero (Digits p) := ⟨⟨0, cutOff_zero p⟩⟩

noncomputable instance (p : ℕ) : Add (Digits p) := ⟨fun a b => ⟨cutOff p (a.1 + b.1), cutOff_idem p _⟩⟩

/-- Their addition meets the contract, with `u = 2⁻ᵖ`. -/
theorem digits_sum (p : ℕ) (big : ℝ) : MachineSum (S := Digits p) (fun a => a.1) (cutOff p) (1 / 2 ^ p) big where
  pos := by positivity
  zero := rfl
  add _ _ := rfl
  exact a := a.2
  rel _ _ _ := cutOff_rel p _

/-- Their addition is not associative, so that schedules do matter: with one digit, (2 + 1) + 1 is 2, but 2 + (1 + 1) is 4. -/
example : cutOff 0 (cutOff 0 (2 + 1) + 1) = 2 ∧ cutOff 0 (2 + cutOff 0 (1 + 1)) = 4 := by
  have lg : ∀ n : ℕ, Int.log 2 (n : ℝ) = Nat.log 2 n := fun n => Int.log_natCast 2 n
  have c2 : cutOff 0 2 = 2 := by
    unfold cutOff cutPos
    rw [if_pos (by norm_num), show Int.log 2 (2 : ℝ) = 1 by exact_mod_cast lg 2]
    norm_num
  have c3 : cutOff 0 3 = 2 := by
    unfold cutOff cutPos
    rw [if_pos (by norm_num), show Int.log 2 (3 : ℝ) = 1 by exact_mod_cast lg 3]
    have : ⌊(3 : ℝ) / 2⌋ = 1 := by rw [Int.floor_eq_iff]; norm_num
    norm_num [this]
  have c4 : cutOff 0 4 = 4 := by
    unfold cutOff cutPos
    rw [if_pos (by norm_num), show Int.log 2 (4 : ℝ) = 2 by exact_mod_cast lg 4]
    norm_num
  constructor
  · rw [show (2 : ℝ) + 1 = 3 by norm_num, c3, show (2 : ℝ) + 1 = 3 by norm_num, c3]
  · rw [show (1 : ℝ) + 1 = 2 by norm_num, c2, show (2 : ℝ) + 2 = 4 by norm_num, c4]

/-- Two sums of 53-digit numbers (as `double` without its limits): serial, and on two threads. -/
example (err : ℕ → Digits 52) : ∃ e e', serialError err [0, 1, 2, 3] = .ok e ∧ ompError err [[0, 2], [1, 3]] [1, 0] [0, 1, 2, 3] = .ok e' ∧
    |e.1 - e'.1| ≤ 2 * ((1 + 1 / 2 ^ 52) ^ 3 - 1) * (|(err 0).1| + |(err 1).1| + |(err 2).1| + |(err 3).1|) := by
  obtain ⟨⟨e, h1, h2⟩, h3, -⟩ := C85_error err [0, 1, 2, 3]
  obtain ⟨e', h4, h5⟩ := h3 [[0, 2], [1, 3]] [1, 0] (by decide) (by decide)
  refine ⟨e, e', h1, h4, ?_⟩
  have := C85_apart h2 h5 (digits_sum 52 _) le_rfl
  simpa [add_assoc] using this

end Verif.Props
