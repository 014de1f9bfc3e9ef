import Verif.Proofs.SortTbbStep
import Verif.Spec.Sort

/-!
C28: the radix sort.
-/

set_option linter.unusedSectionVars false

namespace Verif.Props

open Verif Verif.Spec Verif.Proofs Verif.SortTbb

variable {T : Type}

theorem digit_eq (c : Cfg T) (step : Nat) (x : T) : digit c step x = c.key x / 2 ^ (step * c.bits) % 2 ^ c.bits := by
  unfold digit
  rw [Nat.and_two_pow_sub_one_eq_mod, Nat.shiftRight_eq_div_pow]

theorem mod_pow_succ_eq (k m b : Nat) : k % 2 ^ (m + b) = k / 2 ^ m % 2 ^ b * 2 ^ m + k % 2 ^ m := by
  rw [Nat.pow_add, Nat.mod_mul, Nat.add_comm, Nat.mul_comm]

/-- Distribution by a digit refines a stable sort by the lower digits to one by one digit more. -/
theorem pass_stable (low hi full : T → Nat) (M nb : Nat) (hM : ∀ x, low x < M) (hfull : ∀ x, full x = hi x * M + low x)
    (hnb : ∀ x, hi x < nb) {input l : List T} (h : StableSortOf low input l) : StableSortOf full input (pass hi nb l) := by
  have hperm : ∀ (n : Nat) (l : List T), (pass hi n l).Perm (l.filter (fun x => decide (hi x < n))) := by
    intro n l
    induction n with
    | zero => simp [pass]
    | succ n ih =>
      have e : pass hi (n + 1) l = pass hi n l ++ l.filter (fun x => decide (hi x = n)) := by
        unfold pass; rw [List.range_succ, List.flatMap_append]; simp
      rw [e]
      refine (ih.append_right _).trans ?_
      clear ih e h
      induction l with
      | nil => simp
      | cons a l ihl =>
        simp only [List.filter_cons, decide_eq_true_eq]
        rcases lt_trichotomy (hi a) n with h1 | h1 | h1
        · rw [if_pos h1, if_neg (by omega), if_pos (by omega)]; exact ihl.cons a
        · rw [if_neg (by omega), if_pos h1, if_pos (by omega)]
          exact List.perm_middle.trans (ihl.cons a)
        · rw [if_neg (by omega), if_neg (by omega), if_neg (by omega)]; exact ihl
  have hmem : ∀ n x, x ∈ pass hi n l → x ∈ l ∧ hi x < n := by
    intro n x hx
    have := List.mem_filter.1 ((hperm n l).mem_iff.1 hx)
    exact ⟨this.1, by simpa using this.2⟩
  refine ⟨?_, ?_, ?_⟩
  · refine ((hperm nb l).trans ?_).trans h.perm
    rw [List.filter_eq_self.2 (by intro x _; simpa using hnb x)]
  · have : ∀ n, (pass hi n l).Pairwise (fun a b => full a ≤ full b) := by
      intro n
      induction n with
      | zero => simp [pass]
      | succ n ih =>
        have e : pass hi (n + 1) l = pass hi n l ++ l.filter (fun x => decide (hi x = n)) := by
          unfold pass; rw [List.range_succ, List.flatMap_append]; simp
        rw [e, List.pairwise_append]
        refine ⟨ih, ?_, ?_⟩
        · rw [List.pairwise_filter]
          refine h.ascending.imp ?_
          intro a b hab h1 h2
          simp only [decide_eq_true_eq] at h1 h2
          rw [hfull, hfull, h1, h2]; omega
        · intro a ha b hb
          have h1 := (hmem n a ha).2
          have h2 : hi b = n := by simpa using (List.mem_filter.1 hb).2
          rw [hfull, hfull, h2]
          have h3 : (hi a + 1) * M ≤ n * M := Nat.mul_le_mul_right _ h1
          rw [Nat.add_mul, one_mul] at h3
          have := hM a
          omega
    exact this nb
  · intro v
    -- the class of `v` lies in one digit class
    have hcls : ∀ x, full x = v ↔ hi x = v / M ∧ low x = v % M := by
      intro x
      have hMpos : 0 < M := lt_of_le_of_lt (Nat.zero_le _) (hM x)
      rw [hfull]
      constructor
      · rintro rfl
        rw [mul_comm, Nat.mul_add_div hMpos, Nat.div_eq_of_lt (hM x), Nat.mul_add_mod, Nat.mod_eq_of_lt (hM x)]
        exact ⟨by omega, rfl⟩
      · rintro ⟨h1, h2⟩
        rw [h1, h2, mul_comm]; exact Nat.div_add_mod v M
    have hpass : ∀ n, (pass hi n l).filter (fun a => decide (full a = v)) = if v / M < n then l.filter (fun a => decide (full a = v)) else [] := by
      intro n
      induction n with
      | zero => simp [pass]
      | succ n ih =>
        have e : pass hi (n + 1) l = pass hi n l ++ l.filter (fun x => decide (hi x = n)) := by
          unfold pass; rw [List.range_succ, List.flatMap_append]; simp
        rw [e, List.filter_append, ih, List.filter_filter]
        by_cases h1 : v / M < n
        · rw [if_pos h1, if_pos (by omega)]
          have : l.filter (fun a => decide (full a = v) && decide (hi a = n)) = [] := by
            rw [List.filter_eq_nil_iff]
            intro a _
            simp only [Bool.and_eq_true, decide_eq_true_eq, hcls]
            omega
          rw [this, List.append_nil]
        · rw [if_neg h1, List.nil_append]
          by_cases h2 : v / M = n
          · rw [if_pos (by omega)]
            apply List.filter_congr
            intro a _
            by_cases h3 : full a = v
            · have := (hcls a).1 h3
              simp [h3, this.1, h2]
            · simp [h3]
          · rw [if_neg (by omega)]
            rw [List.filter_eq_nil_iff]
            intro a _
            simp only [Bool.and_eq_true, decide_eq_true_eq, hcls]
            omega
    rw [hpass nb]
    have hl : l.filter (fun a => decide (full a = v)) = input.filter (fun a => decide (full a = v)) := by
      have := congrArg (List.filter (fun a => decide (hi a = v / M))) (h.stable (v % M))
      rw [List.filter_filter, List.filter_filter] at this
      have e : ∀ l : List T, l.filter (fun a => decide (full a = v)) = l.filter (fun a => decide (hi a = v / M) && decide (low a = v % M)) := by
        intro l
        apply List.filter_congr
        intro a _
        rw [← Bool.decide_and]
        exact decide_eq_decide.2 (hcls a)
      rw [e, e]; exact this
    by_cases h1 : v / M < nb
    · rw [if_pos h1, hl]
    · rw [if_neg h1]
      symm
      rw [List.filter_eq_nil_iff]
      intro a _
      simp only [decide_eq_true_eq, hcls]
      have := hnb a
      omega

theorem radixLoop_ok (c : Cfg T) (n : Nat) (ht : 0 < c.tile) (hn : 0 < n) (hN : n ≤ 2 ^ 31 - 1) (input : List T) :
    ∀ (scheds : List StepSched) (step : Nat) (s : St T), StOK c n s → StableSortOf (fun x => c.key x % 2 ^ (step * c.bits)) input s.first →
    ∀ {r}, radixLoop c n scheds step s = some r →
    ∃ s', r = .ok s' ∧ StOK c n s' ∧ StableSortOf (fun x => c.key x % 2 ^ ((step + scheds.length) * c.bits)) input s'.first ∧
      s'.swapped = (s.swapped ^^ decide (scheds.length % 2 = 1))
  | [], step, s, hs, hst, r, hr => by
    simp only [radixLoop, Option.some.injEq] at hr
    exact ⟨s, hr.symm, hs, by simpa using hst, by simp⟩
  | sch :: rest, step, s, hs, hst, r, hr => by
    unfold radixLoop at hr
    cases h1 : radixStep c n step sch s with
    | none => rw [h1] at hr; cases hr
    | some r1 =>
      obtain ⟨s1, rfl, hs1, hf1, hsw1⟩ := radixStep_ok c n step ht hn hN sch s hs h1
      rw [h1] at hr
      have hst1 : StableSortOf (fun x => c.key x % 2 ^ ((step + 1) * c.bits)) input s1.first := by
        rw [hf1]
        apply pass_stable (low := fun x => c.key x % 2 ^ (step * c.bits)) (M := 2 ^ (step * c.bits)) _ _ _ _ _ _ hst
        · intro x; exact Nat.mod_lt _ (Nat.two_pow_pos _)
        · intro x
          rw [digit_eq, Nat.add_mul, one_mul]
          exact mod_pow_succ_eq _ _ _
        · intro x; exact digit_lt c step x
      obtain ⟨s', e, h2, h3, h4⟩ := radixLoop_ok c n ht hn hN input rest (step + 1) s1 hs1 hst1 hr
      refine ⟨s', e, h2, ?_, ?_⟩
      · rw [List.length_cons]
        rw [show step + (rest.length + 1) = step + 1 + rest.length by omega]; exact h3
      · rw [h4, hsw1, List.length_cons]
        have : decide ((rest.length + 1) % 2 = 1) = !decide (rest.length % 2 = 1) := by
          by_cases h : rest.length % 2 = 1
          · rw [decide_eq_true h, decide_eq_false (by omega)]; rfl
          · rw [decide_eq_false h, decide_eq_true (by omega)]; rfl
        rw [this]
        cases s.swapped <;> cases decide (rest.length % 2 = 1) <;> rfl

theorem resizeTo_length {α : Type} (l : List α) (n : Nat) (d : α) : (resizeTo l n d).length = n := by
  unfold resizeTo
  rw [List.length_append, List.length_take, List.length_replicate]; omega

/-- For every digit width, tile size, key function with keys of `width` bits, initial content of the buffers and every
schedule of the three parallel loops of every step: no undefined behaviour (in particular no access outside the arrays), and
the caller's range ends up as the stable sort of its input by key. The size bound is the one of the `int` loop counter. -/
theorem C28_radix_sort (c : Cfg T) (hbits : 0 < c.bits) (ht : 0 < c.tile) (hkey : ∀ x, c.key x < 2 ^ c.width) (dflt : T)
    (scheds : List StepSched) (input : List T) (hN : input.length ≤ 2 ^ 31 - 1) (b : Buffers T) {r}
    (hr : radixSort c dflt scheds input b = some r) :
    ∃ out b', r = .ok (out, b') ∧ StableSortOf c.key input out := by
  unfold radixSort at hr
  by_cases he : input = []
  · rw [if_pos he] at hr
    split at hr
    · cases hr
      exact ⟨input, b, rfl, List.Perm.refl _, by rw [he]; exact List.Pairwise.nil, fun _ => rfl⟩
    · cases hr
  · rw [if_neg he] at hr
    by_cases hl : scheds.length = numSteps c
    · rw [if_neg (by simpa using hl)] at hr
      simp only at hr
      have hn : 0 < input.length := List.length_pos_of_ne_nil he
      have hs0 : StOK c input.length (⟨input, ⟨resizeTo b.tileBuckets (numBins c * numTiles c input.length) 0,
          resizeTo b.globalOffsets (numBins c) 0, resizeTo b.sortedBuffer input.length dflt⟩, false⟩ : St T) :=
        ⟨resizeTo_length _ _ _, resizeTo_length _ _ _, rfl, resizeTo_length _ _ _⟩
      have hst0 : StableSortOf (fun x => c.key x % 2 ^ (0 * c.bits)) input input := by
        refine ⟨List.Perm.refl _, ?_, fun _ => rfl⟩
        apply List.pairwise_of_forall
        intro a b; simp [Nat.mod_one]
      split at hr
      · cases hr
      · rename_i e hrl
        obtain ⟨s', e', _⟩ := radixLoop_ok c _ ht hn hN input scheds 0 _ hs0 hst0 hrl
        cases e'
      · rename_i s hrl
        obtain ⟨s', e', h2, h3, h4⟩ := radixLoop_ok c _ ht hn hN input scheds 0 _ hs0 hst0 hrl
        cases e'
        have hw : c.width ≤ numSteps c * c.bits := by
          unfold numSteps
          have h1 := Nat.div_add_mod (c.width + c.bits - 1) c.bits
          have h2 := Nat.mod_lt (c.width + c.bits - 1) hbits
          rw [mul_comm] at h1
          omega
        have hfin : StableSortOf c.key input s.first := by
          have e : (fun x => c.key x % 2 ^ ((0 + scheds.length) * c.bits)) = c.key := by
            funext x
            apply Nat.mod_eq_of_lt
            rw [zero_add, hl]
            exact lt_of_lt_of_le (hkey x) (Nat.pow_le_pow_right (by omega) hw)
          rw [e] at h3; exact h3
        simp only [Bool.false_bne] at h4
        split at hr
        · rename_i hodd
          cases hr
          have hsw : s.swapped = true := by rw [h4, hl]; simpa using hodd
          simp only [St.first, hsw, if_true] at hfin
          exact ⟨_, _, rfl, hfin⟩
        · rename_i hodd
          cases hr
          have hsw : s.swapped = false := by rw [h4, hl]; simpa using hodd
          simp only [St.first, hsw, Bool.false_eq_true, if_false] at hfin
          exact ⟨_, _, rfl, hfin⟩
    · rw [if_pos (by simpa using hl)] at hr; cases hr

/-- The stable sort is unique, so the outcome does not depend on the schedule, the tile size, the digit width or the old
content of the buffers. -/
theorem C28_deterministic {key : T → Nat} {input o1 o2 : List T} (h1 : StableSortOf key input o1) (h2 : StableSortOf key input o2) :
    o1 = o2 :=
  eq_of_sorted_of_filter_eq key o1 o2 h1.ascending h2.ascending (fun v => by rw [h1.stable v, h2.stable v])

/-- Complete executions exist. -/
theorem C28_completes (c : Cfg T) (hbits : 0 < c.bits) (ht : 0 < c.tile) (hkey : ∀ x, c.key x < 2 ^ c.width) (dflt : T)
    (input : List T) (hN : input.length ≤ 2 ^ 31 - 1) (b : Buffers T) :
    ∃ scheds out b', radixSort c dflt scheds input b = some (.ok (out, b')) := by
  by_cases he : input = []
  · exact ⟨[], input, b, by unfold radixSort; rw [if_pos he]; rfl⟩
  · have hn : 0 < input.length := List.length_pos_of_ne_nil he
    obtain ⟨s1, h1⟩ := parOrder_seq (tileTasks c input.length)
    obtain ⟨s2, h2⟩ := parOrder_seq ((List.range (numBins c)).map (fun b => [b]))
    let sch : StepSched := ⟨s1, s2, s1⟩
    have hstep : ∀ step s, ∃ r, radixStep c input.length step sch s = some r := by
      intro step s
      unfold radixStep
      simp only [sch, h1, h2]
      exact ⟨_, rfl⟩
    have hloop : ∀ k step s, ∃ r, radixLoop c input.length (List.replicate k sch) step s = some r := by
      intro k
      induction k with
      | zero => intro step s; exact ⟨_, rfl⟩
      | succ k ih =>
        intro step s
        rw [List.replicate_succ]
        unfold radixLoop
        obtain ⟨r, hr⟩ := hstep step s
        rw [hr]
        cases r with
        | error e => exact ⟨_, rfl⟩
        | ok s1 => exact ih (step + 1) s1
    have hall : ∃ r, radixSort c dflt (List.replicate (numSteps c) sch) input b = some r := by
      unfold radixSort
      rw [if_neg he, if_neg (by simp)]
      simp only
      obtain ⟨r, hr⟩ := hloop (numSteps c) 0 ⟨input, ⟨resizeTo b.tileBuckets (numBins c * numTiles c input.length) 0,
          resizeTo b.globalOffsets (numBins c) 0, resizeTo b.sortedBuffer input.length dflt⟩, false⟩
      rw [hr]
      cases r with
      | error e => exact ⟨_, rfl⟩
      | ok s => simp only; split <;> exact ⟨_, rfl⟩
    obtain ⟨r, hr⟩ := hall
    obtain ⟨out, b', rfl, _⟩ := C28_radix_sort c hbits ht hkey dflt _ input hN b hr
    exact ⟨_, out, b', hr⟩

/-- The overload without buffers sorts as well, with whatever template arguments: they are ignored. -/
theorem C28_overload (c : Cfg T) (hkey : ∀ x, c.key x < 2 ^ c.width) (dflt : T) (scheds : List StepSched) (input : List T)
    (hN : input.length ≤ 2 ^ 31 - 1) {r} (hr : radixSortNoBuffers c dflt scheds input = some r) :
    ∃ out, r = .ok out ∧ StableSortOf c.key input out := by
  unfold radixSortNoBuffers at hr
  cases h : radixSort { c with bits := 8, tile := 256 } dflt scheds input ⟨[], [], []⟩ with
  | none => rw [h] at hr; cases hr
  | some r1 =>
    obtain ⟨out, b', rfl, h2⟩ := C28_radix_sort { c with bits := 8, tile := 256 } (show 0 < 8 by omega) (show 0 < 256 by omega) hkey dflt scheds input hN _ h
    rw [h] at hr
    cases hr
    exact ⟨out, rfl, h2⟩

/-- Beyond the bound every execution has undefined behaviour: the `int` counter of the histogram loop is incremented past
`INT_MAX`. -/
theorem C28_large_input_undefined (c : Cfg T) (hw : 0 < c.width) (hbits : 0 < c.bits) (ht : 0 < c.tile) (dflt : T)
    (scheds : List StepSched) (input : List T) (hN : 2 ^ 31 ≤ input.length) (b : Buffers T) {r}
    (hr : radixSort c dflt scheds input b = some r) : r = .error .intOverflow := by
  have he : input ≠ [] := by rintro rfl; simp at hN
  unfold radixSort at hr
  rw [if_neg he] at hr
  by_cases hl : scheds.length = numSteps c
  · rw [if_neg (by simpa using hl)] at hr
    simp only at hr
    have hns : 0 < numSteps c := by
      unfold numSteps
      exact Nat.div_pos (by omega) hbits
    cases scheds with
    | nil => simp only [List.length_nil] at hl; omega
    | cons sch rest =>
      unfold radixLoop at hr
      generalize hs0 : (⟨input, ⟨resizeTo b.tileBuckets (numBins c * numTiles c input.length) 0,
          resizeTo b.globalOffsets (numBins c) 0, resizeTo b.sortedBuffer input.length dflt⟩, false⟩ : St T) = s0 at hr
      have hstep : ∀ r, radixStep c input.length 0 sch s0 = some r → r = .error .intOverflow := by
        intro r hr
        unfold radixStep at hr
        simp only at hr
        split at hr
        · rename_i o1 o2 o3 h1 h2 h3
          have hf : s0.first = input := by rw [← hs0]; rfl
          have htb : s0.buf.tileBuckets.length = numBins c * numTiles c input.length := by
            rw [← hs0]; exact resizeTo_length _ _ _
          have hh : o1.foldlM (histAct c 0 (numTiles c input.length) s0.first) (s0.buf.tileBuckets.map (fun _ => 0)) = .error .intOverflow := by
            have hp := parOrder_perm sch.hist _ o1 h1
            rw [tileTasks_flatten c _ ht] at hp
            have hmem : ((2 ^ 31 - 1) / c.tile, 2 ^ 31 - 1) ∈ o1 := hp.mem_iff.2 (List.mem_map.2 ⟨2 ^ 31 - 1, List.mem_range.2 (by omega), rfl⟩)
            have hall : ∀ a ∈ o1, a.2 < input.length ∧ a.1 < numTiles c input.length := by
              intro a ha
              have := order_mem c ht h1 ha
              exact ⟨this.1, this.2.2⟩
            have hlen : (s0.buf.tileBuckets.map (fun _ => 0)).length = numBins c * numTiles c input.length := by rw [List.length_map, htb]
            generalize s0.buf.tileBuckets.map (fun _ => 0) = tb at hlen
            rw [hf]
            clear hp h1 hr
            induction o1 generalizing tb with
            | nil => simp at hmem
            | cons a o ih =>
              rw [List.foldlM_cons]
              have ha := hall a (by simp)
              have hx : ∃ x, input[a.2]? = some x := ⟨input[a.2], List.getElem?_eq_getElem ha.1⟩
              obtain ⟨x, hx⟩ := hx
              have hcell : digit c 0 x * numTiles c input.length + a.1 < tb.length := by
                rw [hlen]; exact cell_lt (digit_lt c 0 x) ha.2
              have hact : histAct c 0 (numTiles c input.length) input tb a
                  = (do let _ ← int32 ((a.2 : Int) + 1); return (tb.set (digit c 0 x * numTiles c input.length + a.1)
                      (tb[digit c 0 x * numTiles c input.length + a.1] + 1))) := by
                unfold histAct
                rw [rd_of_getElem? hx, ok_bind]
                simp only
                rw [rd_of_getElem? (List.getElem?_eq_getElem hcell), ok_bind, wr_of_lt _ hcell, ok_bind]
              rw [hact]
              by_cases hi : (a.2 : Int) + 1 ≤ 2 ^ 31 - 1
              · have : int32 ((a.2 : Int) + 1) = .ok ((a.2 : Int) + 1) := by
                  unfold int32 INT_MIN INT_MAX; rw [if_pos (by omega)]
                rw [this, ok_bind]
                apply ih
                · rcases List.mem_cons.1 hmem with e | e
                  · rw [← e] at hi; simp at hi
                  · exact e
                · intro b hb; exact hall b (List.mem_cons_of_mem _ hb)
                · rw [List.length_set, hlen]
              · have : int32 ((a.2 : Int) + 1) = .error .intOverflow := by
                  unfold int32 INT_MIN INT_MAX; rw [if_neg (by omega)]
                rw [this]; rfl
          rw [hh] at hr
          simp only [err_bind, Option.some.injEq] at hr
          exact hr.symm
        · cases hr
      cases h1 : radixStep c input.length 0 sch s0 with
      | none => rw [h1] at hr; cases hr
      | some r1 =>
        rw [hstep r1 h1] at h1
        rw [h1] at hr
        cases hr
        rfl
  · rw [if_pos (by simpa using hl)] at hr; cases hr

/-! ### a concrete case -/

/-- Two-bit digits, tiles of two, five-bit keys (three steps, so the result is copied back). -/
def cfg5 : Cfg (Nat × Nat) := ⟨fun x => x.1 % 32, 5, 2, 2⟩

def in5 : List (Nat × Nat) := [(17, 0), (3, 1), (30, 2), (3, 3), (17, 4)]

/-- The tiles run interleaved; the buffers hold rubbish. -/
example : (radixSort cfg5 (0, 0) (List.replicate 3 ⟨[2, 0, 1, 1, 0], [3, 1, 0, 2], [1, 2, 0, 1, 0]⟩) in5 ⟨[7, 7, 7], [9], [(1, 1)]⟩).map
    (fun r => r.map Prod.fst) = some (.ok [(3, 1), (3, 3), (17, 0), (17, 4), (30, 2)]) := by decide +kernel

example : ∃ scheds out b', radixSort cfg5 (0, 0) scheds in5 ⟨[], [], []⟩ = some (.ok (out, b')) :=
  C28_completes cfg5 (by decide) (by decide) (fun x => Nat.mod_lt _ (by decide)) (0, 0) in5 (by decide) _

end Verif.Props
