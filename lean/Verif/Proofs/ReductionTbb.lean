import Verif.Proofs.Reduction
import Mathlib.Data.List.Infix

/-! Lemmas for the TBB reduction. -/

set_option linter.unusedSectionVars false

namespace Verif.Proofs

open Verif Verif.Reduction Verif.Spec

variable {F S E : Type} [AddCommMonoid S] [AddCommMonoid E]

/-- Bodies read or written by an action. -/
def tbbTouch : TbbAct → List BodyId
  | .split c => [c]
  | .enter b => [b]
  | .lin b _ => [b]
  | .add b => [b]
  | .leave b => [b]
  | .join b c => [b, c]

/-- Factor read and written by an action. -/
def tbbIdx : TbbAct → Option Nat
  | .lin _ i => some i
  | _ => none

def tbbTarget : TbbAct → BodyId
  | .split c => c
  | .enter b => b
  | .lin b _ => b
  | .add b => b
  | .leave b => b
  | .join b _ => b

/-- New value of the target body. -/
def tbbVal (B : BodyId → Body S) (o : Option S) : TbbAct → Body S
  | .split _ => ⟨0, 0, none⟩
  | .enter b => { B b with tmp := (B b).acc }
  | .lin b _ => { B b with loc := o }
  | .add b => match (B b).loc with
    | none => B b
    | some s => { B b with tmp := (B b).tmp + s }
  | .leave b => { B b with acc := (B b).tmp }
  | .join b c => { B b with acc := (B b).acc + (B c).acc }

/-- Common shape of all actions. -/
def tbbNormal (lin : Nat → F → F × Option S) (st : TbbState F S) (a : TbbAct) : Res (TbbState F S) :=
  match tbbIdx a with
  | none => .ok (st.setBody (tbbTarget a) (tbbVal st.bodies none a))
  | some i => match st.factors[i]? with
    | none => .error .oob
    | some f => .ok (TbbState.setBody ⟨st.factors.set i (lin i f).1, st.bodies⟩ (tbbTarget a) (tbbVal st.bodies (lin i f).2 a))

theorem setBody_self (st : TbbState F S) (b : BodyId) : st.setBody b (st.bodies b) = st := by
  unfold TbbState.setBody
  obtain ⟨fs, B⟩ := st
  congr 1
  funext c
  split
  · rename_i h; rw [h]
  · rfl

theorem tbbAct_normal (lin : Nat → F → F × Option S) (st : TbbState F S) (a : TbbAct) : tbbAct lin st a = tbbNormal lin st a := by
  cases a with
  | lin b i =>
    simp only [tbbAct, tbbNormal, tbbIdx, tbbTarget, tbbVal, rd, wr]
    cases h : st.factors[i]? with
    | none => rfl
    | some f =>
      have hi : i < st.factors.length := (List.getElem?_eq_some_iff.1 h).1
      rw [ok_bind, if_pos hi, ok_bind]
      rfl
  | add b =>
    simp only [tbbAct, tbbNormal, tbbIdx, tbbTarget, tbbVal]
    cases h : (st.bodies b).loc with
    | none => rw [setBody_self]; rfl
    | some s => rfl
  | split c => rfl
  | enter b => rfl
  | leave b => rfl
  | join b c => rfl

theorem tbbTarget_touch (a : TbbAct) : tbbTarget a ∈ tbbTouch a := by
  cases a <;> simp [tbbTarget, tbbTouch]

theorem tbbVal_congr (B B' : BodyId → Body S) (o : Option S) (a : TbbAct) (h : ∀ c ∈ tbbTouch a, B c = B' c) : tbbVal B o a = tbbVal B' o a := by
  cases a <;> simp [tbbTouch] at h <;> simp [tbbVal, h]

theorem setBody_comm (st : TbbState F S) (b c : BodyId) (x y : Body S) (h : b ≠ c) :
    (st.setBody b x).setBody c y = (st.setBody c y).setBody b x := by
  unfold TbbState.setBody
  congr 1
  funext d
  by_cases h1 : d = b
  · subst h1; simp [h]
  · simp [h1]

theorem tbbVal_setBody (st : TbbState F S) (b : BodyId) (x : Body S) (o : Option S) (a : TbbAct) (h : b ∉ tbbTouch a) :
    tbbVal (st.setBody b x).bodies o a = tbbVal st.bodies o a := by
  apply tbbVal_congr
  intro c hc
  unfold TbbState.setBody
  simp only
  rw [if_neg]
  intro e; subst e; exact h hc

/-- Actions on different bodies and factors commute. -/
theorem tbb_commute (lin : Nat → F → F × Option S) (st : TbbState F S) (a b : TbbAct)
    (hb : ∀ c ∈ tbbTouch a, c ∉ tbbTouch b) (hi : ∀ i, tbbIdx a = some i → tbbIdx b ≠ some i) :
    (tbbAct lin st a >>= fun s => tbbAct lin s b) = (tbbAct lin st b >>= fun s => tbbAct lin s a) := by
  have hta : tbbTarget a ∉ tbbTouch b := hb _ (tbbTarget_touch a)
  have htb : tbbTarget b ∉ tbbTouch a := fun h => hb _ h (tbbTarget_touch b)
  have hne : tbbTarget a ≠ tbbTarget b := fun h => hb _ (tbbTarget_touch a) (h ▸ tbbTarget_touch b)
  simp only [tbbAct_normal]
  unfold tbbNormal
  cases ha : tbbIdx a with
  | none =>
    cases hbi : tbbIdx b with
    | none =>
      simp only [ok_bind]
      rw [tbbVal_setBody _ _ _ _ _ hta, tbbVal_setBody _ _ _ _ _ htb, setBody_comm _ _ _ _ _ hne]
    | some j =>
      simp only [ok_bind]
      rw [show (st.setBody (tbbTarget a) (tbbVal st.bodies none a)).factors = st.factors from rfl]
      cases hj : st.factors[j]? with
      | none => rfl
      | some g =>
        simp only [ok_bind]
        rw [tbbVal_setBody _ _ _ _ _ hta, tbbVal_setBody _ _ _ _ _ htb, setBody_comm _ _ _ _ _ hne.symm]
        rfl
  | some i =>
    cases hbi : tbbIdx b with
    | none =>
      simp only [ok_bind]
      rw [show (st.setBody (tbbTarget b) (tbbVal st.bodies none b)).factors = st.factors from rfl]
      cases hj : st.factors[i]? with
      | none => rfl
      | some g =>
        simp only [ok_bind]
        rw [tbbVal_setBody _ _ _ _ _ hta, tbbVal_setBody _ _ _ _ _ htb, setBody_comm _ _ _ _ _ hne]
        rfl
    | some j =>
      have hij : i ≠ j := by
        intro e; subst e; exact hi i ha hbi
      cases h1 : st.factors[i]? with
      | none =>
        cases h2 : st.factors[j]? with
        | none => simp only [h1, h2, err_bind]
        | some g =>
          simp only [h1, h2, ok_bind, err_bind]
          have : (TbbState.setBody ⟨st.factors.set j (lin j g).1, st.bodies⟩ (tbbTarget b) (tbbVal st.bodies (lin j g).2 b)).factors[i]? = none := by
            show (st.factors.set j (lin j g).1)[i]? = none
            rw [List.getElem?_set_ne (Ne.symm hij), h1]
          rw [this]
      | some f =>
        cases h2 : st.factors[j]? with
        | none =>
          simp only [h1, h2, ok_bind, err_bind]
          have : (TbbState.setBody ⟨st.factors.set i (lin i f).1, st.bodies⟩ (tbbTarget a) (tbbVal st.bodies (lin i f).2 a)).factors[j]? = none := by
            show (st.factors.set i (lin i f).1)[j]? = none
            rw [List.getElem?_set_ne hij, h2]
          rw [this]
        | some g =>
          simp only [h1, h2, ok_bind]
          have e1 : (TbbState.setBody ⟨st.factors.set i (lin i f).1, st.bodies⟩ (tbbTarget a) (tbbVal st.bodies (lin i f).2 a)).factors[j]? = some g := by
            show (st.factors.set i (lin i f).1)[j]? = some g
            rw [List.getElem?_set_ne hij, h2]
          have e2 : (TbbState.setBody ⟨st.factors.set j (lin j g).1, st.bodies⟩ (tbbTarget b) (tbbVal st.bodies (lin j g).2 b)).factors[i]? = some f := by
            show (st.factors.set j (lin j g).1)[i]? = some f
            rw [List.getElem?_set_ne (Ne.symm hij), h1]
          rw [e1, e2]
          simp only
          rw [tbbVal_setBody _ _ _ _ _ hta, tbbVal_setBody _ _ _ _ _ htb]
          congr 1
          show TbbState.setBody (TbbState.setBody ⟨(st.factors.set i (lin i f).1).set j (lin j g).1, st.bodies⟩ _ _) _ _
            = TbbState.setBody (TbbState.setBody ⟨(st.factors.set j (lin j g).1).set i (lin i f).1, st.bodies⟩ _ _) _ _
          rw [List.set_comm _ _ hij, setBody_comm _ _ _ _ _ hne]

/-- An interleaving of two commuting action lists has the effect of running one after the other. -/
theorem foldlM_shuffle {σ α : Type} (act : σ → α → Res σ) {l1 l2 l : List α} (h : Shuffle l1 l2 l)
    (hc : ∀ a ∈ l1, ∀ b ∈ l2, ∀ s, (act s a >>= fun s' => act s' b) = (act s b >>= fun s' => act s' a)) (s : σ) :
    l.foldlM act s = (l1 ++ l2).foldlM act s := by
  induction h generalizing s with
  | nil => rfl
  | left _ ih =>
    rw [List.cons_append, List.foldlM_cons, List.foldlM_cons]
    congr 1
    funext s'
    exact ih (fun a ha b hb => hc a (by simp [ha]) b hb) s'
  | right hs ih =>
    rename_i b l1 l2 l
    rw [List.foldlM_cons]
    have h1 : ∀ s', l.foldlM act s' = (l1 ++ l2).foldlM act s' := fun s' => ih (fun a ha c hc' => hc a ha c (by simp [hc'])) s'
    have h2 : ∀ (l1 : List α), (∀ a ∈ l1, ∀ s, (act s a >>= fun s' => act s' b) = (act s b >>= fun s' => act s' a)) →
        ∀ s, (act s b >>= fun s' => (l1 ++ l2).foldlM act s') = (l1 ++ b :: l2).foldlM act s := by
      intro l1
      induction l1 with
      | nil => intro _ s; rfl
      | cons a l1 ih2 =>
        intro hc2 s
        have hcomm := hc2 a (by simp) s
        have e1 : (act s b >>= fun s' => (a :: (l1 ++ l2)).foldlM act s') = ((act s b >>= fun s' => act s' a) >>= fun s' => (l1 ++ l2).foldlM act s') := by
          cases act s b <;> rfl
        have e2 : (act s a >>= fun s' => (l1 ++ b :: l2).foldlM act s') = ((act s a >>= fun s' => act s' b) >>= fun s' => (l1 ++ l2).foldlM act s') := by
          cases ha : act s a with
          | error e => rfl
          | ok s1 => exact (ih2 (fun a ha => hc2 a (by simp [ha])) s1).symm
        show (act s b >>= fun s' => (a :: (l1 ++ l2)).foldlM act s') = (a :: (l1 ++ b :: l2)).foldlM act s
        rw [List.foldlM_cons]
        refine Eq.trans e1 (Eq.trans ?_ (Eq.symm e2))
        rw [hcomm]
    simp only [h1]
    exact h2 l1 (fun a ha s => hc a ha b (by simp) s) s

theorem shuffle_mem {α : Type} {l1 l2 l : List α} (h : Shuffle l1 l2 l) : ∀ a ∈ l, a ∈ l1 ∨ a ∈ l2 := by
  induction h with
  | nil => simp
  | left _ ih =>
    intro a ha
    rcases List.mem_cons.1 ha with rfl | ha
    · simp
    · rcases ih a ha with h | h <;> simp [h]
  | right _ ih =>
    intro a ha
    rcases List.mem_cons.1 ha with rfl | ha
    · simp
    · rcases ih a ha with h | h <;> simp [h]

theorem covers_le {t : RTree} {x y : Nat} (h : Covers t x y) : x ≤ y := by
  induction h with
  | range h => exact h
  | seq _ _ h1 h2 => omega
  | fork _ _ h1 h2 => omega

/-- Bodies and factors touched while a tree is processed. -/
theorem trace_touch {t : RTree} {pos b : BodyId} {l : List TbbAct} (h : Trace t pos b l) : ∀ {x y : Nat}, Covers t x y →
    ∀ a ∈ l, (∀ c ∈ tbbTouch a, c = b ∨ ∃ d, (pos ++ [d]) <+: c) ∧ (∀ i, tbbIdx a = some i → x ≤ i ∧ i < y) := by
  induction h with
  | range =>
    rename_i pos b first last
    intro x y hc a ha
    cases hc
    unfold rangeActs at ha
    rcases List.mem_cons.1 ha with rfl | ha
    · simp [tbbTouch, tbbIdx]
    · rcases List.mem_append.1 ha with ha | ha
      · obtain ⟨i, hi, hai⟩ := List.mem_flatMap.1 ha
        rw [List.mem_range'_1] at hi
        simp only [List.mem_cons, List.not_mem_nil, or_false] at hai
        rcases hai with rfl | rfl
        · refine ⟨by simp [tbbTouch], ?_⟩
          intro j hj
          cases hj
          omega
        · simp [tbbTouch, tbbIdx]
      · simp only [List.mem_singleton] at ha
        subst ha
        simp [tbbTouch, tbbIdx]
  | seq _ _ ih1 ih2 =>
    rename_i l r pos b tl tr h1 h2
    intro x y hc a ha
    cases hc
    rename_i m hc1 hc2
    have hm1 := covers_le hc1
    have hm2 := covers_le hc2
    rcases List.mem_append.1 ha with ha | ha
    · obtain ⟨h3, h4⟩ := ih1 hc1 a ha
      refine ⟨fun c hc => ?_, fun i hi => by have := h4 i hi; omega⟩
      rcases h3 c hc with e | ⟨d, hd⟩
      · exact .inl e
      · exact .inr ⟨false, (List.prefix_append _ _).trans hd⟩
    · obtain ⟨h3, h4⟩ := ih2 hc2 a ha
      refine ⟨fun c hc => ?_, fun i hi => by have := h4 i hi; omega⟩
      rcases h3 c hc with e | ⟨d, hd⟩
      · exact .inl e
      · exact .inr ⟨true, (List.prefix_append _ _).trans hd⟩
  | fork _ _ hs ih1 ih2 =>
    rename_i l r pos b tl tr s h1 h2
    intro x y hc a ha
    cases hc
    rename_i m hc1 hc2
    have hm1 := covers_le hc1
    have hm2 := covers_le hc2
    rcases List.mem_append.1 ha with ha | ha
    · rcases shuffle_mem hs a ha with ha | ha
      · obtain ⟨h3, h4⟩ := ih1 hc1 a ha
        refine ⟨fun c hc => ?_, fun i hi => by have := h4 i hi; omega⟩
        rcases h3 c hc with e | ⟨d, hd⟩
        · exact .inl e
        · exact .inr ⟨false, (List.prefix_append _ _).trans hd⟩
      · rcases List.mem_cons.1 ha with rfl | ha
        · refine ⟨fun c hc => ?_, by simp [tbbIdx]⟩
          simp [tbbTouch] at hc
          exact .inr ⟨true, by rw [hc]⟩
        · obtain ⟨h3, h4⟩ := ih2 hc2 a ha
          refine ⟨fun c hc => ?_, fun i hi => by have := h4 i hi; omega⟩
          rcases h3 c hc with e | ⟨d, hd⟩
          · exact .inr ⟨true, by rw [e]⟩
          · exact .inr ⟨true, (List.prefix_append _ _).trans hd⟩
    · simp only [List.mem_singleton] at ha
      subst ha
      refine ⟨fun c hc => ?_, by simp [tbbIdx]⟩
      simp [tbbTouch] at hc
      rcases hc with e | e
      · exact .inl e
      · exact .inr ⟨true, by rw [e]⟩

theorem act_frame (lin : Nat → F → F × Option S) (st st' : TbbState F S) (a : TbbAct) (c : BodyId) (hc : c ∉ tbbTouch a)
    (h : tbbAct lin st a = .ok st') : st'.bodies c = st.bodies c := by
  rw [tbbAct_normal] at h
  have hne : c ≠ tbbTarget a := fun e => hc (e ▸ tbbTarget_touch a)
  unfold tbbNormal at h
  split at h
  · cases h; simp [TbbState.setBody, hne]
  · split at h
    · cases h
    · cases h; simp [TbbState.setBody, hne]

theorem acts_frame (lin : Nat → F → F × Option S) (l : List TbbAct) (c : BodyId) (hc : ∀ a ∈ l, c ∉ tbbTouch a) :
    ∀ (st st' : TbbState F S), l.foldlM (tbbAct lin) st = .ok st' → st'.bodies c = st.bodies c := by
  induction l with
  | nil => intro st st' h; cases h; rfl
  | cons a l ih =>
    intro st st' h
    rw [List.foldlM_cons] at h
    cases ha : tbbAct lin st a with
    | error e => rw [ha] at h; cases h
    | ok st1 =>
      rw [ha, ok_bind] at h
      rw [ih (fun b hb => hc b (by simp [hb])) st1 st' h, act_frame lin st st1 a c (hc a (by simp)) ha]

/-- Contribution of `[x, y)`. -/
def sumR (lin : Nat → F → F × Option S) (fs : List F) (x y : Nat) : S := ((List.range' x (y - x)).map (contrib lin fs)).sum

theorem sumR_append (lin : Nat → F → F × Option S) (fs : List F) {x m y : Nat} (h1 : x ≤ m) (h2 : m ≤ y) :
    sumR lin fs x m + sumR lin fs m y = sumR lin fs x y := by
  unfold sumR
  rw [← List.sum_append, ← List.map_append]
  congr 2
  have := List.range'_append (s := x) (m := m - x) (n := y - m) (step := 1)
  rw [show x + 1 * (m - x) = m by omega, show (m - x) + (y - m) = y - x by omega] at this
  exact this

theorem range_ok (lin : Nat → F → F × Option S) (fs : List F) (b : BodyId) :
    ∀ (n x : Nat) (p : Nat → Bool) (st : TbbState F S), x + n ≤ fs.length → st.factors = updP lin p fs →
      (∀ i, x ≤ i → i < x + n → p i = false) →
      ∃ st', ((List.range' x n).flatMap (fun i => [TbbAct.lin b i, TbbAct.add b])).foldlM (tbbAct lin) st = .ok st' ∧
        st'.factors = updP lin (fun i => p i || (decide (x ≤ i) && decide (i < x + n))) fs ∧
        (st'.bodies b).tmp = (st.bodies b).tmp + ((List.range' x n).map (contrib lin fs)).sum := by
  intro n
  induction n with
  | zero =>
    intro x p st _ hf _
    refine ⟨st, rfl, ?_, by simp⟩
    rw [hf]
    congr 1
    funext i
    have : (decide (x ≤ i) && decide (i < x + 0)) = false := by simp
    rw [this, Bool.or_false]
  | succ n ih =>
    intro x p st hx hf hp
    have hlt : x < fs.length := by omega
    have hg : st.factors[x]? = some fs[x] := by
      rw [hf, updP_get, List.getElem?_eq_getElem hlt]; simp [hp x (by omega) (by omega)]
    rw [List.range'_succ, List.flatMap_cons]
    simp only [List.cons_append, List.nil_append, List.foldlM_cons]
    rw [tbbAct_normal]
    unfold tbbNormal
    simp only [tbbIdx, hg, ok_bind, tbbTarget]
    rw [tbbAct_normal]
    unfold tbbNormal
    simp only [tbbIdx, ok_bind, tbbTarget]
    obtain ⟨st', h1, h2, h3⟩ := ih (x + 1) (fun i => p i || decide (i = x))
      ((TbbState.setBody ⟨st.factors.set x (lin x fs[x]).1, st.bodies⟩ b (tbbVal st.bodies (lin x fs[x]).2 (.lin b x))).setBody b
        (tbbVal (TbbState.setBody ⟨st.factors.set x (lin x fs[x]).1, st.bodies⟩ b (tbbVal st.bodies (lin x fs[x]).2 (.lin b x))).bodies none (.add b)))
      (by omega) (by
        show st.factors.set x (lin x fs[x]).1 = _
        rw [hf]
        exact updP_set lin _ _ fs x hlt (fun j => rfl)) (by
        intro i h1 h2
        rw [hp i (by omega) (by omega)]
        simp; omega)
    refine ⟨st', h1, ?_, ?_⟩
    · rw [h2]
      congr 1
      funext i
      rw [Bool.eq_iff_iff]
      simp
      constructor
      · rintro ((h | h) | h)
        · exact .inl h
        · exact .inr (by omega)
        · exact .inr (by omega)
      · rintro (h | h)
        · exact .inl (.inl h)
        · by_cases e : i = x
          · exact .inl (.inr e)
          · exact .inr (by omega)
    · rw [h3, List.map_cons, List.sum_cons, ← add_assoc]
      congr 1
      have hc : contrib lin fs x = ((lin x fs[x]).2).getD 0 := by unfold contrib; rw [List.getElem?_eq_getElem hlt]
      rw [hc]
      simp only [TbbState.setBody, if_true, tbbVal]
      cases (lin x fs[x]).2 with
      | none => simp
      | some s => simp

theorem updP_congr_or (lin : Nat → F → F × Option S) (fs : List F) (p : Nat → Bool) {x m y : Nat} (h1 : x ≤ m) (h2 : m ≤ y) :
    updP lin (fun i => (p i || (decide (x ≤ i) && decide (i < m))) || (decide (m ≤ i) && decide (i < y))) fs
      = updP lin (fun i => p i || (decide (x ≤ i) && decide (i < y))) fs := by
  congr 1
  funext i
  rw [Bool.eq_iff_iff]
  simp only [Bool.or_eq_true, Bool.and_eq_true, decide_eq_true_eq]
  constructor
  · rintro ((h | h) | h)
    · exact .inl h
    · exact .inr (by omega)
    · exact .inr (by omega)
  · rintro (h | h)
    · exact .inl (.inl h)
    · by_cases e : i < m
      · exact .inl (.inr ⟨h.1, e⟩)
      · exact .inr (by omega)

/-- Every order of the actions of a tree linearises the factors of its range once and adds their systems to the body. -/
theorem trace_ok (lin : Nat → F → F × Option S) (fs : List F) {t : RTree} {pos b : BodyId} {l : List TbbAct} (h : Trace t pos b l) :
    b <+: pos → ∀ {x y : Nat}, Covers t x y → ∀ (p : Nat → Bool) (st : TbbState F S), y ≤ fs.length → st.factors = updP lin p fs →
      (∀ i, x ≤ i → i < y → p i = false) →
      ∃ st', l.foldlM (tbbAct lin) st = .ok st' ∧ st'.factors = updP lin (fun i => p i || (decide (x ≤ i) && decide (i < y))) fs ∧
        (st'.bodies b).acc = (st.bodies b).acc + sumR lin fs x y := by
  induction h with
  | range =>
    rename_i pos b first last
    intro _ x y hc p st hy hf hp
    cases hc
    rename_i hxy
    unfold rangeActs
    rw [List.foldlM_cons]
    have hE : tbbAct lin st (.enter b) = .ok (st.setBody b { st.bodies b with tmp := (st.bodies b).acc }) := rfl
    rw [hE, ok_bind, List.foldlM_append]
    obtain ⟨st', h1, h2, h3⟩ := range_ok lin fs b (last - first) first p (st.setBody b { st.bodies b with tmp := (st.bodies b).acc })
      (by omega) hf (fun i h1 h2 => hp i h1 (by omega))
    rw [h1, ok_bind]
    refine ⟨_, rfl, ?_, ?_⟩
    · show st'.factors = _
      rw [h2, show first + (last - first) = last by omega]
    · show (if b = b then { st'.bodies b with acc := (st'.bodies b).tmp } else st'.bodies b).acc = _
      rw [if_pos rfl]
      show (st'.bodies b).tmp = _
      rw [h3]
      simp [TbbState.setBody, sumR]
  | seq _ _ ih1 ih2 =>
    rename_i l r pos b tl tr h1 h2
    intro hb x y hc p st hy hf hp
    cases hc
    rename_i m hc1 hc2
    have hm1 := covers_le hc1
    have hm2 := covers_le hc2
    obtain ⟨s1, e1, f1, a1⟩ := ih1 (hb.trans (List.prefix_append _ _)) hc1 p st (by omega) hf (fun i h1 h2 => hp i h1 (by omega))
    obtain ⟨s2, e2, f2, a2⟩ := ih2 (hb.trans (List.prefix_append _ _)) hc2 _ s1 hy f1 (by
      intro i h1 h2
      rw [hp i (by omega) (by omega)]
      simp; omega)
    refine ⟨s2, ?_, ?_, ?_⟩
    · rw [List.foldlM_append, e1]; exact e2
    · rw [f2]; exact updP_congr_or lin fs p hm1 hm2
    · rw [a2, a1, add_assoc, sumR_append lin fs hm1 hm2]
  | fork hl hr hs ih1 ih2 =>
    rename_i l r pos b tl tr s
    intro hb x y hc p st hy hf hp
    cases hc
    rename_i m hc1 hc2
    have hm1 := covers_le hc1
    have hm2 := covers_le hc2
    -- bodies of the two sides
    have hsplit : Trace r (pos ++ [true]) (pos ++ [true]) tr := hr
    have tl_t := trace_touch hl hc1
    have tr_t := trace_touch hsplit hc2
    have right_pre : ∀ a ∈ TbbAct.split (pos ++ [true]) :: tr, ∀ c ∈ tbbTouch a, (pos ++ [true]) <+: c := by
      intro a ha c hc
      rcases List.mem_cons.1 ha with rfl | ha
      · simp [tbbTouch] at hc; rw [hc]
      · rcases (tr_t a ha).1 c hc with e | ⟨d, hd⟩
        · rw [e]
        · exact (List.prefix_append _ _).trans hd
    have left_not : ∀ a ∈ tl, ∀ c ∈ tbbTouch a, ¬ (pos ++ [true]) <+: c := by
      intro a ha c hc hpre
      rcases (tl_t a ha).1 c hc with e | ⟨d, hd⟩
      · have h1 := hb.length_le
        have h2 := hpre.length_le
        rw [e] at h2
        simp at h2; omega
      · have h3 : (pos ++ [false]) <+: c := (List.prefix_append _ _).trans hd
        have := List.prefix_of_prefix_length_le h3 hpre (by simp)
        have := this.eq_of_length (by simp)
        simp at this
    have hbnot : ¬ (pos ++ [true]) <+: b := by
      intro h
      have h1 := hb.length_le
      have h2 := h.length_le
      simp at h2; omega
    rw [List.foldlM_append, foldlM_shuffle (tbbAct lin) hs (by
      intro a ha c hc s
      apply tbb_commute lin s a c
      · intro d hd1 hd2
        exact left_not a ha d hd1 (right_pre c hc d hd2)
      · intro i hi1 hi2
        have h1 := (tl_t a ha).2 i hi1
        rcases List.mem_cons.1 hc with rfl | hc
        · simp [tbbIdx] at hi2
        · have h2 := (tr_t c hc).2 i hi2
          omega)]
    obtain ⟨s1, e1, f1, a1⟩ := ih1 (hb.trans (List.prefix_append _ _)) hc1 p st (by omega) hf (fun i h1 h2 => hp i h1 (by omega))
    obtain ⟨s2, e2, f2, a2⟩ := ih2 (List.prefix_rfl) hc2 (fun i => p i || (decide (x ≤ i) && decide (i < m)))
      (s1.setBody (pos ++ [true]) ⟨0, 0, none⟩) hy f1 (by
        intro i h1 h2
        rw [hp i (by omega) (by omega)]
        simp; omega)
    have eS : tbbAct lin s1 (.split (pos ++ [true])) = .ok (s1.setBody (pos ++ [true]) ⟨0, 0, none⟩) := rfl
    rw [List.foldlM_append, e1, ok_bind, List.foldlM_cons, eS, ok_bind, e2, ok_bind]
    have hframe := acts_frame lin tr b (fun a ha hmem => hbnot (right_pre a (by simp [ha]) b hmem)) _ _ e2
    have hframe0 : (s1.setBody (pos ++ [true]) ⟨0, 0, none⟩).bodies b = s1.bodies b := by
      unfold TbbState.setBody
      simp only
      rw [if_neg]
      intro e
      exact hbnot (by rw [e])
    refine ⟨_, rfl, ?_, ?_⟩
    · show s2.factors = _
      rw [f2]; exact updP_congr_or lin fs p hm1 hm2
    · show (if b = b then { s2.bodies b with acc := (s2.bodies b).acc + (s2.bodies (pos ++ [true])).acc } else s2.bodies b).acc = _
      rw [if_pos rfl]
      show (s2.bodies b).acc + (s2.bodies (pos ++ [true])).acc = _
      rw [hframe, hframe0, a1, a2]
      simp only [TbbState.setBody, if_true, zero_add]
      rw [add_assoc, sumR_append lin fs hm1 hm2]

theorem tbb_ok (lin : Nat → F → F × Option S) (fs : List F) (t : RTree) (ht : Covers t 0 fs.length) (order : List TbbAct)
    (ho : Trace t [] [] order) : tbbLinearize lin order fs = .ok (reduceSpec lin fs) := by
  obtain ⟨st, h1, h2, h3⟩ := trace_ok lin fs ho List.prefix_rfl ht (fun _ => false) ⟨fs, fun _ => ⟨0, 0, none⟩⟩ (Nat.le_refl _)
    (updP_none lin _ fs (by simp)).symm (by simp)
  unfold tbbLinearize
  rw [h1, ok_bind]
  have e1 : st.factors = (reduceSpec lin fs).1 := by
    rw [h2]
    exact updP_all lin _ fs (by intro i hi; simp [hi])
  have e2 : (st.bodies []).acc = (reduceSpec lin fs).2 := by
    rw [h3, ← contrib_sum]
    simp [sumR, List.range_eq_range']
  rw [e1, e2]
  rfl

theorem tbbError_ok (err : F → E) (fs : List F) (t : RTree) (ht : Covers t 0 fs.length) (order : List TbbAct)
    (ho : Trace t [] [] order) : tbbError err order fs = .ok (errorSpec err fs) := by
  unfold tbbError
  rw [tbb_ok _ fs t ht order ho, ok_bind]
  show (.ok _ : Res E) = _
  congr 1
  unfold reduceSpec errorSpec
  refine congrArg List.sum ?_
  apply List.ext_getElem?
  intro j
  rw [List.getElem?_mapIdx, List.getElem?_map]
  cases fs[j]? <;> rfl

/-- Every tree has an execution. -/
theorem trace_exists (t : RTree) : ∀ (pos b : BodyId), ∃ l, Trace t pos b l := by
  have hsh : ∀ {α : Type} (l1 l2 : List α), Shuffle l1 l2 (l1 ++ l2) := by
    intro α l1 l2
    induction l1 with
    | nil =>
      induction l2 with
      | nil => exact .nil
      | cons a l2 ih => exact .right ih
    | cons a l1 ih => exact .left ih
  induction t with
  | range x y => intro pos b; exact ⟨_, .range⟩
  | seq l r ih1 ih2 =>
    intro pos b
    obtain ⟨l1, h1⟩ := ih1 (pos ++ [false]) b
    obtain ⟨l2, h2⟩ := ih2 (pos ++ [true]) b
    exact ⟨_, .seq h1 h2⟩
  | fork l r ih1 ih2 =>
    intro pos b
    obtain ⟨l1, h1⟩ := ih1 (pos ++ [false]) b
    obtain ⟨l2, h2⟩ := ih2 (pos ++ [true]) (pos ++ [true])
    exact ⟨_, .fork h1 h2 (hsh _ _)⟩

end Verif.Proofs
