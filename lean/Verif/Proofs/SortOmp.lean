import Verif.Spec.Sort
import Verif.Proofs.KdBuild
import Mathlib.Data.List.Perm.Basic
import Mathlib.Order.Nat

/-!
Correctness of the task-parallel sorts.
-/

set_option linter.unusedSectionVars false

namespace Verif.Proofs

open Verif Verif.Spec Verif.SortOmp

variable {α : Type}

/-! ### quick sort -/

structure QInv (comp : α → α → Bool) (input : List α) (arr : List α) (tasks : List (Nat × Nat)) : Prop where
  perm : arr.Perm input
  wf : ∀ t ∈ tasks, t.1 ≤ t.2 ∧ t.2 ≤ arr.length
  disj : tasks.Pairwise (fun a b => a.2 ≤ b.1 ∨ b.2 ≤ a.1)
  order : ∀ i j x y, i < j → arr[i]? = some x → arr[j]? = some y →
    comp y x = false ∨ ∃ t ∈ tasks, t.1 ≤ i ∧ j < t.2

theorem QInv.of_perm {comp : α → α → Bool} {input arr : List α} {ts ts' : List (Nat × Nat)} (h : QInv comp input arr ts)
    (hp : ts.Perm ts') : QInv comp input arr ts' where
  perm := h.perm
  wf t ht := h.wf t (hp.mem_iff.2 ht)
  disj := (hp.pairwise_iff (fun h => h.symm)).1 h.disj
  order i j x y hij hx hy := by
    rcases h.order i j x y hij hx hy with h | ⟨t, ht, h1⟩
    · exact Or.inl h
    · exact Or.inr ⟨t, hp.mem_iff.1 ht, h1⟩

theorem overwrite_perm {l seg : List α} {a b : Nat} (h1 : a ≤ b) (_h2 : b ≤ l.length) (h : seg.Perm (slice l a b)) :
    (overwrite l a b seg).Perm l := by
  have e : l = l.take a ++ slice l a b ++ l.drop b := by
    unfold slice
    rw [List.append_assoc]
    have : (l.drop a).take (b - a) ++ l.drop b = l.drop a := by
      have e1 : l.drop b = (l.drop a).drop (b - a) := by rw [List.drop_drop]; congr 1; omega
      rw [e1, List.take_append_drop]
    rw [this, List.take_append_drop]
  conv => rhs; rw [e]
  unfold overwrite
  exact List.Perm.append_right _ (List.Perm.append_left _ h)

/-- Replace the range of one task by a rearrangement and the task by sub-tasks. -/
theorem QInv.replace {comp : α → α → Bool} {input arr : List α} {f l : Nat} {ts subs : List (Nat × Nat)} {seg : List α}
    (h : QInv comp input arr ((f, l) :: ts)) (hp : seg.Perm (slice arr f l))
    (hs : ∀ t ∈ subs, f ≤ t.1 ∧ t.1 ≤ t.2 ∧ t.2 ≤ l) (hd : subs.Pairwise (fun a b => a.2 ≤ b.1 ∨ b.2 ≤ a.1))
    (ho : ∀ i j x y, i < j → seg[i]? = some x → seg[j]? = some y →
      comp y x = false ∨ ∃ t ∈ subs, t.1 ≤ f + i ∧ f + j < t.2) :
    QInv comp input (overwrite arr f l seg) (subs ++ ts) := by
  obtain ⟨hfl, hl⟩ := h.wf (f, l) (by simp)
  simp only at hfl hl
  have hlen : seg.length = l - f := by rw [hp.length_eq, slice_length hfl hl]
  have hdis := List.pairwise_cons.1 h.disj
  refine ⟨(overwrite_perm hfl hl hp).trans h.perm, ?_, ?_, ?_⟩
  · intro t ht
    rw [overwrite_length hfl hl hlen]
    rcases List.mem_append.1 ht with ht | ht
    · have := hs t ht; omega
    · exact h.wf t (by simp [ht])
  · rw [List.pairwise_append]
    refine ⟨hd, hdis.2, ?_⟩
    intro a ha b hb
    have h1 := hs a ha
    have h2 := hdis.1 b hb
    simp only at h2
    have h3 := h.wf b (by simp [hb])
    omega
  · -- an element of the new segment sat somewhere in the old range
    have old : ∀ k x, k < l → f ≤ k → (overwrite arr f l seg)[k]? = some x → ∃ k', f ≤ k' ∧ k' < l ∧ arr[k']? = some x := by
      intro k x hk hfk hx
      rw [getElem?_overwrite hfl hl hlen, if_neg (by omega), if_pos hk] at hx
      have hm := hp.mem_iff.1 (List.mem_of_getElem? hx)
      obtain ⟨i, hi⟩ := List.getElem?_of_mem hm
      rw [getElem?_slice] at hi
      split at hi
      · exact ⟨f + i, by omega, by omega, hi⟩
      · cases hi
    have out : ∀ k, ¬ (f ≤ k ∧ k < l) → (overwrite arr f l seg)[k]? = arr[k]? := by
      intro k hk
      rw [getElem?_overwrite hfl hl hlen]
      split
      · rfl
      · rw [if_neg (by omega)]
    have notin : ∀ t ∈ ts, ∀ k, f ≤ k → k < l → ¬ (t.1 ≤ k ∧ k < t.2) := by
      intro t ht k h1 h2 h3
      have := hdis.1 t ht
      simp only at this
      omega
    have lift : ∀ {i j}, (∃ t ∈ ts, t.1 ≤ i ∧ j < t.2) → ∃ t ∈ subs ++ ts, t.1 ≤ i ∧ j < t.2 := by
      rintro i j ⟨t, ht, h⟩; exact ⟨t, List.mem_append_right _ ht, h⟩
    intro i j x y hij hx hy
    by_cases hi : f ≤ i ∧ i < l
    · by_cases hj : f ≤ j ∧ j < l
      · -- both inside
        rw [getElem?_overwrite hfl hl hlen, if_neg (by omega), if_pos (by omega)] at hx hy
        rcases ho (i - f) (j - f) x y (by omega) hx hy with h1 | ⟨t, ht, h1⟩
        · exact Or.inl h1
        · exact Or.inr ⟨t, List.mem_append_left _ ht, by omega, by omega⟩
      · obtain ⟨k, hk1, hk2, hk⟩ := old i x hi.2 hi.1 hx
        rw [out j hj] at hy
        rcases h.order k j x y (by omega) hk hy with h1 | ⟨t, ht, h1⟩
        · exact Or.inl h1
        · rcases List.mem_cons.1 ht with e | e
          · subst e; simp only at h1; omega
          · exact absurd ⟨h1.1, by omega⟩ (notin t e k hk1 hk2)
    · rw [out i hi] at hx
      by_cases hj : f ≤ j ∧ j < l
      · obtain ⟨k, hk1, hk2, hk⟩ := old j y hj.2 hj.1 hy
        rcases h.order i k x y (by omega) hx hk with h1 | ⟨t, ht, h1⟩
        · exact Or.inl h1
        · rcases List.mem_cons.1 ht with e | e
          · subst e; simp only at h1; omega
          · exact absurd ⟨by omega, h1.2⟩ (notin t e k hk1 hk2)
      · rw [out j hj] at hy
        rcases h.order i j x y hij hx hy with h1 | ⟨t, ht, h1⟩
        · exact Or.inl h1
        · rcases List.mem_cons.1 ht with e | e
          · subst e; simp only at h1; omega
          · exact Or.inr (lift ⟨t, e, h1⟩)

theorem median3_mem (comp : α → α → Bool) (a b c : α) : median3 comp a b c = a ∨ median3 comp a b c = b ∨ median3 comp a b c = c := by
  unfold median3
  split <;> split <;> (try split) <;> simp

theorem sampleAt_ok {seg : List α} {k : Nat} (hk : k ≤ 7) (hlen : seg ≠ []) (hb : 7 * (seg.length / 8) ≤ 2 ^ 31 - 1) :
    ∃ x ∈ seg, sampleAt seg (toInt32 (seg.length / 8)) k = .ok x := by
  have h0 : 0 < seg.length := List.length_pos_of_ne_nil hlen
  have e1 : toInt32 (seg.length / 8) = ((seg.length / 8 : Nat) : Int) := by unfold toInt32; omega
  have hlt : seg.length / 8 * k < seg.length := by
    have : seg.length / 8 * k ≤ seg.length / 8 * 7 := Nat.mul_le_mul_left _ hk
    omega
  have hle : seg.length / 8 * k ≤ 2 ^ 31 - 1 := by
    have : seg.length / 8 * k ≤ seg.length / 8 * 7 := Nat.mul_le_mul_left _ hk
    omega
  unfold sampleAt
  rw [e1]
  have e2 : ((seg.length / 8 : Nat) : Int) * (k : Int) = ((seg.length / 8 * k : Nat) : Int) := by push_cast; rfl
  rw [e2]
  generalize hm : seg.length / 8 * k = m at *
  have e3 : int32 (m : Int) = .ok (m : Int) := by
    unfold int32 INT_MIN INT_MAX; rw [if_pos (by omega)]
  simp only [e3, bind, Except.bind]
  rw [if_neg (by omega)]
  refine ⟨seg[m], List.getElem_mem hlt, ?_⟩
  rw [Int.toNat_natCast]
  exact rd_of_getElem? (List.getElem?_eq_getElem hlt)

theorem res_ok_bind {β γ : Type} (a : β) (f : β → Res γ) : ((Except.ok a : Res β) >>= f) = f a := rfl

theorem choosePivot_ok (comp : α → α → Bool) {seg : List α} (hlen : seg ≠ []) (hb : 7 * (seg.length / 8) ≤ 2 ^ 31 - 1) :
    ∃ x ∈ seg, choosePivot comp seg = .ok x := by
  have h0 : 0 < seg.length := List.length_pos_of_ne_nil hlen
  have hs : ∀ k : Int, 0 ≤ k → k ≤ 7 → ∃ x ∈ seg, sampleAt seg (toInt32 (seg.length / 8)) k = .ok x := by
    intro k hk0 hk
    obtain ⟨n, rfl⟩ := Int.eq_ofNat_of_zero_le hk0
    exact sampleAt_ok (by omega) hlen hb
  have r : ∀ k, k < seg.length → ∃ x ∈ seg, rd seg k = .ok x := fun k hk =>
    ⟨seg[k], List.getElem_mem hk, rd_of_getElem? (List.getElem?_eq_getElem hk)⟩
  obtain ⟨a0, m0, e0⟩ := r 0 h0
  obtain ⟨a1, m1, e1⟩ := hs 1 (by decide) (by decide)
  obtain ⟨a2, m2, e2⟩ := hs 2 (by decide) (by decide)
  obtain ⟨a3, m3, e3⟩ := hs 3 (by decide) (by decide)
  obtain ⟨a4, m4, e4⟩ := hs 4 (by decide) (by decide)
  obtain ⟨a5, m5, e5⟩ := hs 5 (by decide) (by decide)
  obtain ⟨a6, m6, e6⟩ := hs 6 (by decide) (by decide)
  obtain ⟨a7, m7, e7⟩ := hs 7 (by decide) (by decide)
  obtain ⟨a8, m8, e8⟩ := r (seg.length - 1) (by omega)
  have med : ∀ {a b c : α}, a ∈ seg → b ∈ seg → c ∈ seg → median3 comp a b c ∈ seg := by
    intro a b c ha hb hc
    rcases median3_mem comp a b c with e | e | e <;> rw [e] <;> assumption
  have M := med (med m0 m1 m2) (med m3 m4 m5) (med m6 m7 m8)
  refine ⟨_, M, ?_⟩
  generalize hP : median3 comp (median3 comp a0 a1 a2) (median3 comp a3 a4 a5) (median3 comp a6 a7 a8) = P
  unfold choosePivot
  extract_lets off
  rw [e0, res_ok_bind, e1, res_ok_bind, e2, res_ok_bind, e3, res_ok_bind, e4, res_ok_bind, e5, res_ok_bind, e6, res_ok_bind, e7,
    res_ok_bind, e8, res_ok_bind]
  rw [hP]; rfl

theorem partition3_ok {comp : α → α → Bool} (hc : StrictWeak comp) {lib : Lib α} (hl : LibSpec comp lib) {pivot : α} {seg : List α}
    (hp : pivot ∈ seg) :
    ∃ seg' m1 m2, partition3 lib comp pivot seg = (seg', m1, m2) ∧ seg'.Perm seg ∧ m1 < m2 ∧ m2 ≤ seg.length ∧
      (∀ i x, seg'[i]? = some x → i < m2 → comp pivot x = false) ∧ (∀ i x, seg'[i]? = some x → m1 ≤ i → comp x pivot = false) := by
  have asym : ∀ a b, comp a b = true → comp b a = false := by
    intro a b h
    cases hb : comp b a with
    | false => rfl
    | true => rw [← hc.irrefl a, hc.trans a b a h hb]
  set m1 := seg.countP (fun v => comp v pivot) with hm1
  set s1 := lib.partition (fun v => comp v pivot) seg with hs1
  set hi := s1.drop m1 with hhi
  set m2 := m1 + hi.countP (fun v => !comp pivot v) with hm2
  have p1 : s1.Perm seg := hl.part_perm _ _
  have y1 : ∀ a ∈ s1.take m1, comp a pivot = true := hl.part_yes _ _
  have n1 : ∀ a ∈ hi, comp a pivot = false := hl.part_no _ _
  have p2 : (lib.partition (fun v => !comp pivot v) hi).Perm hi := hl.part_perm _ _
  have y2 : ∀ a ∈ (lib.partition (fun v => !comp pivot v) hi).take (hi.countP (fun v => !comp pivot v)), comp pivot a = false := by
    intro a ha
    simpa using hl.part_yes (fun v => !comp pivot v) hi a ha
  have hm1le : m1 ≤ seg.length := List.countP_le_length
  have hlt : (s1.take m1).length = m1 := by rw [List.length_take, p1.length_eq]; omega
  have hhilen : hi.length = seg.length - m1 := by rw [hhi, List.length_drop, p1.length_eq]
  have hle2 : hi.countP (fun v => !comp pivot v) ≤ hi.length := List.countP_le_length
  refine ⟨s1.take m1 ++ lib.partition (fun v => !comp pivot v) hi, m1, m2, rfl, ?_, ?_, by omega, ?_, ?_⟩
  · refine (List.Perm.append_left _ p2).trans ?_
    rw [hhi, List.take_append_drop]; exact p1
  · have hpm : pivot ∈ s1 := p1.mem_iff.2 hp
    rw [← List.take_append_drop m1 s1] at hpm
    rcases List.mem_append.1 hpm with h | h
    · have := y1 pivot h; rw [hc.irrefl] at this; cases this
    · have : 0 < hi.countP (fun v => !comp pivot v) := List.countP_pos_iff.2 ⟨pivot, h, by simp [hc.irrefl]⟩
      omega
  · intro i x hx him
    by_cases h : i < m1
    · rw [List.getElem?_append_left (by omega)] at hx
      exact asym _ _ (y1 x (List.mem_of_getElem? hx))
    · rw [List.getElem?_append_right (by omega), hlt] at hx
      apply y2 x
      apply List.mem_of_getElem? (i := i - m1)
      rw [List.getElem?_take_of_lt (by omega)]; exact hx
  · intro i x hx him
    rw [List.getElem?_append_right (by omega)] at hx
    exact n1 x (p2.mem_iff.1 (List.mem_of_getElem? hx))

/-- Remaining work of the quick sort. -/
def qwork (ts : List (Nat × Nat)) : Nat := (ts.map (fun t => 2 * (t.2 - t.1) + 1)).sum

theorem qwork_perm {ts ts' : List (Nat × Nat)} (h : ts.Perm ts') : qwork ts = qwork ts' := (h.map _).sum_eq

theorem qstep_inv {comp : α → α → Bool} (hc : StrictWeak comp) {lib : Lib α} (hl : LibSpec comp lib) {input : List α}
    (hb : 7 * (input.length / 8) ≤ 2 ^ 31 - 1) {s : QState α} (h : QInv comp input s.arr s.tasks) {j : Nat} {r}
    (hs : qstep lib comp j s = some r) :
    ∃ s', r = .ok s' ∧ QInv comp input s'.arr s'.tasks ∧ qwork s'.tasks + 1 ≤ qwork s.tasks := by
  unfold qstep at hs
  cases ht : s.tasks[j]? with
  | none => rw [ht] at hs; simp at hs
  | some t =>
    obtain ⟨f, l⟩ := t
    rw [ht] at hs
    obtain ⟨hj, he⟩ := List.getElem?_eq_some_iff.1 ht
    have hperm : s.tasks.Perm ((f, l) :: s.tasks.eraseIdx j) := by
      rw [← he]; exact (List.getElem_cons_eraseIdx_perm hj).symm
    have h' := h.of_perm hperm
    have hw := qwork_perm hperm
    obtain ⟨hfl, hle⟩ := h'.wf (f, l) (by simp)
    simp only at hfl hle
    have hseg := slice_length hfl hle
    simp only at hs
    split at hs
    · rename_i hsz
      cases hs
      refine ⟨_, rfl, ?_, ?_⟩
      · have := h'.replace (seg := lib.sort (slice s.arr f l)) (subs := []) (hl.sort_perm _) (by simp) List.Pairwise.nil (by
          intro i j x y hij hx hy
          left
          have hso := hl.sort_sorted (slice s.arr f l)
          unfold SortedBy at hso
          rw [List.pairwise_iff_getElem] at hso
          obtain ⟨hi, rfl⟩ := List.getElem?_eq_some_iff.1 hx
          obtain ⟨hj, rfl⟩ := List.getElem?_eq_some_iff.1 hy
          exact hso i j hi hj hij)
        exact this
      · rw [hw]
        simp only [qwork, List.map_cons, List.sum_cons]; omega
    · rename_i hsz
      have hne : slice s.arr f l ≠ [] := by
        intro e
        rw [e, List.length_nil] at hseg
        omega
      have hlenle : (slice s.arr f l).length ≤ input.length := by
        rw [hseg, ← h.perm.length_eq]; omega
      obtain ⟨pivot, hpm, hpe⟩ := choosePivot_ok comp hne (by
        have : (slice s.arr f l).length / 8 ≤ input.length / 8 := Nat.div_le_div_right hlenle
        omega)
      obtain ⟨seg', m1, m2, e3, hp3, h12, h2le, hlow, hhigh⟩ := partition3_ok hc hl hpm
      simp only [hpe, e3, bind, Except.bind, pure, Except.pure, Option.some.injEq] at hs
      cases hs
      refine ⟨_, rfl, ?_, ?_⟩
      · have := h'.replace (seg := seg') (subs := [(f, f + m1), (f + m2, l)]) hp3 (by
          intro t ht
          simp only [List.mem_cons, List.not_mem_nil, or_false] at ht
          rcases ht with e | e <;> subst e <;> simp only <;> omega) (by
          simp only [List.pairwise_cons, List.mem_cons, List.not_mem_nil, or_false, forall_eq, false_implies, implies_true,
            List.Pairwise.nil, and_true]
          omega) (by
          intro i j x y hij hx hy
          by_cases hj1 : j < m1
          · right; exact ⟨(f, f + m1), by simp, by simp only; omega, by simp only; omega⟩
          · by_cases hi2 : m2 ≤ i
            · right
              refine ⟨(f + m2, l), by simp, by simp only; omega, ?_⟩
              have hjl := (List.getElem?_eq_some_iff.1 hy).1
              rw [hp3.length_eq, hseg] at hjl
              simp only; omega
            · left
              exact hc.neg_trans y pivot x (hhigh j y hy (by omega)) (hlow i x hx (by omega)))
        exact this
      · rw [hw]
        rw [hseg] at h2le
        simp only [qwork, List.map_cons, List.sum_cons]; omega

theorem qrun_inv {comp : α → α → Bool} (hc : StrictWeak comp) {lib : Lib α} (hl : LibSpec comp lib) {input : List α}
    (hb : 7 * (input.length / 8) ≤ 2 ^ 31 - 1) : ∀ (js : List Nat) {s : QState α}, QInv comp input s.arr s.tasks → ∀ {r},
    qrun lib comp js s = some r → ∃ s', r = .ok s' ∧ QInv comp input s'.arr s'.tasks ∧ qwork s'.tasks + js.length ≤ qwork s.tasks
  | [], s, h, r, hr => by
    simp only [qrun, Option.some.injEq] at hr
    exact ⟨s, hr.symm, h, by simp⟩
  | j :: js, s, h, r, hr => by
    unfold qrun at hr
    cases hst : qstep lib comp j s with
    | none => rw [hst] at hr; simp at hr
    | some r1 =>
      obtain ⟨s1, rfl, h1, hw⟩ := qstep_inv hc hl hb h hst
      rw [hst] at hr
      obtain ⟨s', e', h', hw'⟩ := qrun_inv hc hl hb js h1 hr
      exact ⟨s', e', h', by rw [List.length_cons]; omega⟩

theorem qinit_inv (comp : α → α → Bool) (input : List α) : QInv comp input input [(0, input.length)] where
  perm := List.Perm.refl _
  wf := by simp
  disj := by simp
  order := by
    intro i j x y _ _ hy
    right
    exact ⟨(0, input.length), by simp, by simp, (List.getElem?_eq_some_iff.1 hy).1⟩

theorem qinv_sorted {comp : α → α → Bool} {input arr : List α} (h : QInv comp input arr []) : SortedBy comp arr := by
  unfold SortedBy
  rw [List.pairwise_iff_getElem]
  intro i j hi hj hij
  rcases h.order i j _ _ hij (List.getElem?_eq_getElem hi) (List.getElem?_eq_getElem hj) with h | ⟨t, ht, _⟩
  · exact h
  · simp at ht

/-! ### merge sort -/

/-- Range of an activation. -/
def mrange : MProc → Nat × Nat
  | .start f l => (f, l)
  | .wait f _ l _ _ => (f, l)
  | .done f l => (f, l)

def MOK (comp : α → α → Bool) (arr : List α) : MProc → Prop
  | .start f l => f ≤ l ∧ l ≤ arr.length
  | .done f l => f ≤ l ∧ l ≤ arr.length ∧ SortedBy comp (slice arr f l)
  | .wait f c l p q => f ≤ c ∧ c ≤ l ∧ l ≤ arr.length ∧ (mrange p) = (f, c) ∧ (mrange q) = (c, l) ∧ MOK comp arr p ∧ MOK comp arr q

def mwork : MProc → Nat
  | .start f l => max 1 (3 * (l - f) - 2)
  | .done _ _ => 0
  | .wait _ _ _ p q => 1 + mwork p + mwork q

theorem MOK.range_le {comp : α → α → Bool} {arr : List α} : ∀ {p : MProc}, MOK comp arr p → (mrange p).1 ≤ (mrange p).2 ∧ (mrange p).2 ≤ arr.length
  | .start _ _, h => h
  | .done _ _, h => ⟨h.1, h.2.1⟩
  | .wait _ _ _ _ _, h => ⟨le_trans h.1 h.2.1, h.2.2.1⟩

/-- An activation is not affected by changes outside its range. -/
theorem MOK.congr {comp : α → α → Bool} {arr arr' : List α} (hlen : arr'.length = arr.length) : ∀ {p : MProc}, MOK comp arr p →
    (∀ i, (mrange p).1 ≤ i → i < (mrange p).2 → arr'[i]? = arr[i]?) → MOK comp arr' p
  | .start f l, h, _ => ⟨h.1, by rw [hlen]; exact h.2⟩
  | .done f l, h, he => by
    refine ⟨h.1, by rw [hlen]; exact h.2.1, ?_⟩
    have : slice arr' f l = slice arr f l := by
      apply List.ext_getElem?
      intro i
      rw [getElem?_slice, getElem?_slice]
      split
      · exact he _ (by simp [mrange]) (by simp only [mrange]; omega)
      · rfl
    rw [this]; exact h.2.2
  | .wait f c l p q, h, he => by
    obtain ⟨h1, h2, h3, h4, h5, h6, h7⟩ := h
    simp only [mrange] at he
    refine ⟨h1, h2, by rw [hlen]; exact h3, h4, h5, ?_, ?_⟩
    · exact h6.congr hlen (by intro i hi1 hi2; rw [h4] at hi1 hi2; exact he i hi1 (by simp only at hi2; omega))
    · exact h7.congr hlen (by intro i hi1 hi2; rw [h5] at hi1 hi2; exact he i (by simp only at hi1; omega) hi2)

/-- One step only rearranges the activation's own range. -/
theorem mstep_ok {comp : α → α → Bool} {lib : Lib α} (hl : LibSpec comp lib) : ∀ (path : List Bool) (p : MProc) (arr : List α),
    MOK comp arr p → ∀ p' arr', mstep lib path p arr = some (p', arr') →
    MOK comp arr' p' ∧ (mrange p') = (mrange p) ∧ arr'.Perm arr ∧ (∀ i, ¬ ((mrange p).1 ≤ i ∧ i < (mrange p).2) → arr'[i]? = arr[i]?) ∧
      mwork p' + 1 ≤ mwork p
  | [], .start f l, arr, h, p', arr', hs => by
    obtain ⟨h1, h2⟩ := h
    unfold mstep at hs
    split at hs
    · rename_i hsz
      cases hs
      have hp := hl.sort_perm (slice arr f l)
      have hlen : (lib.sort (slice arr f l)).length = l - f := by rw [hp.length_eq, slice_length h1 h2]
      refine ⟨⟨h1, by rw [overwrite_length h1 h2 hlen]; exact h2, ?_⟩, rfl, overwrite_perm h1 h2 hp, ?_, ?_⟩
      · rw [slice_overwrite_self h1 h2 hlen]; exact hl.sort_sorted _
      · intro i hi
        simp only [mrange] at hi
        rw [getElem?_overwrite h1 h2 hlen]
        split
        · rfl
        · rw [if_neg (by omega)]
      · simp only [mwork]; omega
    · rename_i hsz
      cases hs
      refine ⟨⟨by omega, by omega, h2, rfl, rfl, ⟨by omega, by omega⟩, ⟨by omega, by omega⟩⟩, rfl, List.Perm.refl _, fun _ _ => rfl, ?_⟩
      simp only [mwork]
      have : (l - f) / 2 ≥ 512 := by omega
      omega
  | [], .wait f c l p q, arr, h, p', arr', hs => by
    obtain ⟨h1, h2, h3, h4, h5, h6, h7⟩ := h
    cases p with
    | start a b => simp [mstep] at hs
    | wait a b d e g => simp [mstep] at hs
    | done a b =>
      cases q with
      | start _ _ => simp [mstep] at hs
      | wait _ _ _ _ _ => simp [mstep] at hs
      | done a' b' =>
        simp only [mrange, Prod.mk.injEq] at h4 h5
        obtain ⟨rfl, rfl⟩ := h4
        obtain ⟨rfl, rfl⟩ := h5
        unfold mstep at hs
        cases hs
        obtain ⟨_, _, s1⟩ := h6
        obtain ⟨_, _, s2⟩ := h7
        have hcat : slice arr a a' ++ slice arr a' b' = slice arr a b' := by
          have e1 := take_slice (l := arr) (a := a) (b := b') (c := a') h2
          have e2 := drop_slice (l := arr) (a := a) (b := b') (c := a') h1
          rw [← e1, ← e2, List.take_append_drop]
        have hp : (lib.inplaceMerge (slice arr a a') (slice arr a' b')).Perm (slice arr a b') := by
          rw [← hcat]; exact hl.merge_perm _ _ s1 s2
        have hle : a ≤ b' := le_trans h1 h2
        have hlen : (lib.inplaceMerge (slice arr a a') (slice arr a' b')).length = b' - a := by
          rw [hp.length_eq, slice_length hle h3]
        refine ⟨⟨hle, by rw [overwrite_length hle h3 hlen]; exact h3, ?_⟩, rfl, overwrite_perm hle h3 hp, ?_, ?_⟩
        · rw [slice_overwrite_self hle h3 hlen]; exact hl.merge_sorted _ _ s1 s2
        · intro i hi
          simp only [mrange] at hi
          rw [getElem?_overwrite hle h3 hlen]
          split
          · rfl
          · rw [if_neg (by omega)]
        · simp only [mwork]; omega
  | [], .done _ _, _, _, _, _, hs => by simp [mstep] at hs
  | false :: path, .wait f c l p q, arr, h, p', arr', hs => by
    obtain ⟨h1, h2, h3, h4, h5, h6, h7⟩ := h
    unfold mstep at hs
    obtain ⟨⟨p1, arr1⟩, hs1, he⟩ := Option.map_eq_some_iff.1 hs
    cases he
    obtain ⟨g1, g2, g3, g4, g5⟩ := mstep_ok hl path p arr h6 p1 arr1 hs1
    have hlen := g3.length_eq
    refine ⟨⟨h1, h2, by rw [hlen]; exact h3, by rw [g2]; exact h4, h5, g1, ?_⟩, rfl, g3, ?_, ?_⟩
    · apply h7.congr hlen
      intro i hi1 hi2
      apply g4
      rw [h4]; rw [h5] at hi1; simp only at hi1 ⊢; omega
    · intro i hi
      apply g4
      rw [h4]; simp only [mrange] at hi ⊢; omega
    · simp only [mwork]; omega
  | true :: path, .wait f c l p q, arr, h, p', arr', hs => by
    obtain ⟨h1, h2, h3, h4, h5, h6, h7⟩ := h
    unfold mstep at hs
    obtain ⟨⟨p1, arr1⟩, hs1, he⟩ := Option.map_eq_some_iff.1 hs
    cases he
    obtain ⟨g1, g2, g3, g4, g5⟩ := mstep_ok hl path q arr h7 p1 arr1 hs1
    have hlen := g3.length_eq
    refine ⟨⟨h1, h2, by rw [hlen]; exact h3, h4, by rw [g2]; exact h5, ?_, g1⟩, rfl, g3, ?_, ?_⟩
    · apply h6.congr hlen
      intro i hi1 hi2
      apply g4
      rw [h5]; rw [h4] at hi2; simp only at hi2 ⊢; omega
    · intro i hi
      apply g4
      rw [h5]; simp only [mrange] at hi ⊢; omega
    · simp only [mwork]; omega
  | _ :: _, .start _ _, _, _, _, _, hs => by simp [mstep] at hs
  | _ :: _, .done _ _, _, _, _, _, hs => by simp [mstep] at hs

theorem mrun_ok {comp : α → α → Bool} {lib : Lib α} (hl : LibSpec comp lib) : ∀ (sched : List (List Bool)) (s s' : MProc × List α),
    MOK comp s.2 s.1 → mrun lib sched s = some s' →
    MOK comp s'.2 s'.1 ∧ (mrange s'.1) = (mrange s.1) ∧ s'.2.Perm s.2 ∧ mwork s'.1 + sched.length ≤ mwork s.1
  | [], s, s', h, hr => by
    simp only [mrun, Option.some.injEq] at hr
    subst hr; exact ⟨h, rfl, List.Perm.refl _, by simp⟩
  | path :: sched, s, s', h, hr => by
    unfold mrun at hr
    cases hst : mstep lib path s.1 s.2 with
    | none => rw [hst] at hr; simp at hr
    | some s1 =>
      obtain ⟨p1, arr1⟩ := s1
      obtain ⟨g1, g2, g3, _, g5⟩ := mstep_ok hl path s.1 s.2 h p1 arr1 hst
      rw [hst] at hr
      obtain ⟨k1, k2, k3, k4⟩ := mrun_ok hl sched (p1, arr1) s' g1 hr
      refine ⟨k1, k2.trans g2, k3.trans g3, ?_⟩
      rw [List.length_cons]; simp only at k4; omega

theorem mstep_progress (lib : Lib α) (arr : List α) : ∀ p : MProc, (∀ f l, p ≠ .done f l) → ∃ path, (mstep lib path p arr).isSome
  | .start f l, _ => ⟨[], by unfold mstep; split <;> rfl⟩
  | .done f l, h => absurd rfl (h f l)
  | .wait f c l p q, _ => by
    by_cases hp : ∀ a b, p ≠ .done a b
    · obtain ⟨path, h⟩ := mstep_progress lib arr p hp
      refine ⟨false :: path, ?_⟩
      unfold mstep
      rw [Option.isSome_map]; exact h
    · by_cases hq : ∀ a b, q ≠ .done a b
      · obtain ⟨path, h⟩ := mstep_progress lib arr q hq
        refine ⟨true :: path, ?_⟩
        unfold mstep
        rw [Option.isSome_map]; exact h
      · simp only [not_forall, not_not] at hp hq
        obtain ⟨a, b, rfl⟩ := hp
        obtain ⟨a', b', rfl⟩ := hq
        exact ⟨[], rfl⟩

end Verif.Proofs
