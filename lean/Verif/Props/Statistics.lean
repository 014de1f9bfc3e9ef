import Verif.Model.Benchmark
import Mathlib.Algebra.Order.Field.Basic
import Mathlib.Algebra.BigOperators.Group.List.Basic
import Mathlib.Algebra.BigOperators.Ring.List
import Mathlib.Algebra.Order.BigOperators.Group.List
import Mathlib.Data.List.Sort
import Mathlib.Data.Rat.Cast.Order
import Mathlib.Tactic.Ring
import Mathlib.Tactic.FieldSimp
import Mathlib.Tactic.Linarith
import Mathlib.Tactic.NormNum

/-!
C79. Statistics of the benchmark tools: mean and standard deviation are those of the data, for any number of measurements; the median is not computed.
-/

set_option linter.unusedSectionVars false
set_option linter.unusedSimpArgs false
set_option linter.unnecessarySeqFocus false

namespace Verif.Spec

open Verif

variable {K : Type} [Field K] [LinearOrder K]

/-- The mean of numbers. -/
def averageOf (l : List K) : K := l.sum / (l.length : K)

/-- The mean squared distance to the mean. -/
def varianceOf (l : List K) : K := averageOf (l.map (fun x => (x - averageOf l) ^ 2))

/-- At most half of the numbers are smaller, and at most half are larger. -/
def IsMedian (l : List K) (x : K) : Prop := x ∈ l ∧ 2 * l.countP (fun y => y < x) ≤ l.length ∧ 2 * l.countP (fun y => x < y) ≤ l.length

/-- What the standard says about `std::nth_element` on `[0, last)`: for `nth` within the range the elements of the range are permuted, and
the element at `nth` is where it would be if the range was sorted. Nothing is said about other calls. -/
def SelectsNth (f : List K → Nat → Nat → Res (List K)) : Prop :=
  ∀ l nth last, nth ≤ last → last ≤ l.length → ∃ l', f l nth last = .ok l' ∧ (l'.take last).Perm (l.take last) ∧ l'.drop last = l.drop last ∧
    ∀ i x y, l'[nth]? = some x → l'[i]? = some y → i < last → nth < last → (i < nth → y ≤ x) ∧ (nth < i → x ≤ y)

/-- An implementation that changes nothing outside of the range, whatever `nth` is. -/
def StaysInRange (f : List K → Nat → Nat → Res (List K)) : Prop :=
  ∀ l nth last, last ≤ l.length → ∃ l', f l nth last = .ok l' ∧ (l'.take last).Perm (l.take last) ∧ l'.drop last = l.drop last

end Verif.Spec

namespace Verif.Props

open Verif Verif.Benchmark Verif.Spec

variable {K : Type} [Field K] [LinearOrder K] [IsStrictOrderedRing K]

/-- The data after some measurements. -/
theorem pushed (b : Bool) (l : List K) :
    let s := l.foldl Summarizer.push (Summarizer.init b : Summarizer K)
    s.fullLog = b ∧ s.fullData = l ∧ s.numData = l.length ∧ s.sum = l.sum ∧ s.sqSum = (l.map (fun x => x * x)).sum ∧ ∀ x, l.getLast? = some x → s.lastX = x := by
  induction l using List.reverseRecOn with
  | nil => simp [Summarizer.init]
  | append_singleton l x ih =>
    obtain ⟨h1, h2, h3, h4, h5, _⟩ := ih
    simp only [List.foldl_append, List.foldl_cons, List.foldl_nil, Summarizer.push] at *
    refine ⟨h1, by rw [h2], by rw [h3]; simp, by rw [h4]; simp, by rw [h5]; simp, fun y hy => ?_⟩
    simpa using hy

theorem summarize_push {α : Type} (l : List α) (f : α → K) : summarize l f = (l.map f).foldl Summarizer.push (Summarizer.init false) := by
  unfold summarize
  generalize (Summarizer.init false : Summarizer K) = s
  induction l generalizing s with
  | nil => rfl
  | cons a l ih => exact ih _

theorem sum_squares (l : List K) (m : K) : (l.map (fun x => (x - m) ^ 2)).sum = (l.map (fun x => x * x)).sum - 2 * m * l.sum + (l.length : K) * (m * m) := by
  induction l with
  | nil => simp
  | cons a l ih =>
    simp only [List.map_cons, List.sum_cons, List.length_cons, ih]
    push_cast
    ring

/-- **C79, mean and deviation.** For any measurements the mean is their sum divided by their number, the deviation is the square root of the mean squared distance to
the mean, which is not negative, and the last measurement is kept. Without measurements mean and deviation are NaN. -/
theorem C79_mean_std (b : Bool) (sqrt : K → K) (l : List K) :
    let s := l.foldl Summarizer.push (Summarizer.init b : Summarizer K)
    (l ≠ [] → s.meanStd sqrt = some (averageOf l, sqrt (varianceOf l)) ∧ 0 ≤ varianceOf l ∧ some s.last = l.getLast?) ∧
    (l = [] → s.meanStd sqrt = none ∧ ∀ f, s.median f = .ok none) := by
  intro s
  obtain ⟨h1, h2, h3, h4, h5, h6⟩ := pushed b l
  refine ⟨fun hne => ⟨?_, ?_, ?_⟩, fun hl => ⟨?_, fun f => ?_⟩⟩
  · have hn : l.length ≠ 0 := by simpa using hne
    have hk : (l.length : K) ≠ 0 := by exact_mod_cast hn
    have hv : ((l.map (fun x => x * x)).sum - l.sum / (l.length : K) * l.sum) / (l.length : K) = varianceOf l := by
      unfold varianceOf
      conv_rhs => unfold averageOf
      rw [sum_squares, List.length_map]
      field_simp
      ring
    unfold Summarizer.meanStd
    rw [h3, if_neg hn, h4, h5]
    simp only [hv]
    rfl
  · unfold varianceOf averageOf
    refine div_nonneg (List.sum_nonneg ?_) (Nat.cast_nonneg _)
    intro x hx
    obtain ⟨y, _, rfl⟩ := List.mem_map.1 hx
    exact sq_nonneg _
  · cases hg : l.getLast? with
    | none => exact absurd (List.getLast?_eq_none_iff.1 hg) hne
    | some x => rw [Summarizer.last, h6 x hg]
  · unfold Summarizer.meanStd
    rw [h3, hl]
    rfl
  · unfold Summarizer.median
    rw [h2, hl]
    simp

/-- The same for `summarize`. -/
theorem C79_summarize {α : Type} (sqrt : K → K) (l : List α) (f : α → K) (h : l ≠ []) :
    (summarize l f).meanStd sqrt = some (averageOf (l.map f), sqrt (varianceOf (l.map f))) ∧ ∀ g, (summarize l f).median g = .ok none := by
  rw [summarize_push]
  obtain ⟨h1, h2, _⟩ := pushed false (l.map f)
  refine ⟨((C79_mean_std false sqrt (l.map f)).1 (by simpa using h)).1, fun g => ?_⟩
  unfold Summarizer.median
  rw [h1]
  simp

/-- `std::nth_element` by sorting; a call outside of its preconditions stops the program, as with checked iterators. -/
def checkedNth (l : List K) (nth last : Nat) : Res (List K) :=
  if nth ≤ last ∧ last ≤ l.length then .ok ((l.take last).mergeSort ++ l.drop last) else .error .abort

/-- The same without the check. -/
def uncheckedNth (l : List K) (_nth last : Nat) : Res (List K) := .ok ((l.take last).mergeSort ++ l.drop last)

theorem sorted_range (l : List K) (last : Nat) (h : last ≤ l.length) :
    let l' := (l.take last).mergeSort ++ l.drop last
    (l'.take last).Perm (l.take last) ∧ l'.drop last = l.drop last ∧
    ∀ nth i x y, l'[nth]? = some x → l'[i]? = some y → i < last → nth < last → (i < nth → y ≤ x) ∧ (nth < i → x ≤ y) := by
  have hlen : ((l.take last).mergeSort (· ≤ ·)).length = last := by simp [h]
  have ht : ((l.take last).mergeSort ++ l.drop last).take last = (l.take last).mergeSort := by
    rw [List.take_append_of_le_length (by rw [hlen]), List.take_of_length_le (by rw [hlen])]
  have hs : ((l.take last).mergeSort (· ≤ ·)).Pairwise (· ≤ ·) := by
    have := List.pairwise_mergeSort (le := fun a b : K => decide (a ≤ b)) (fun a b c => by simpa using le_trans) (fun a b => by simpa using le_total a b) (l.take last)
    simpa using this
  refine ⟨by rw [ht]; exact List.mergeSort_perm _ _, by rw [List.drop_append, hlen]; simp [List.drop_of_length_le, hlen], ?_⟩
  intro nth i x y hx hy hi hn
  rw [List.getElem?_append_left (by rw [hlen]; exact hn)] at hx
  rw [List.getElem?_append_left (by rw [hlen]; exact hi)] at hy
  obtain ⟨p1, rfl⟩ := List.getElem?_eq_some_iff.1 hx
  obtain ⟨p2, rfl⟩ := List.getElem?_eq_some_iff.1 hy
  exact ⟨fun h => List.pairwise_iff_getElem.1 hs _ _ _ _ h, fun h => List.pairwise_iff_getElem.1 hs _ _ _ _ h⟩

theorem checkedNth_ok : SelectsNth (checkedNth : List K → Nat → Nat → Res (List K)) := by
  intro l nth last h1 h2
  obtain ⟨a, b, c⟩ := sorted_range l last h2
  exact ⟨_, if_pos ⟨h1, h2⟩, a, b, fun i x y hx hy hi hn => c nth i x y hx hy hi hn⟩

theorem uncheckedNth_ok : SelectsNth (uncheckedNth : List K → Nat → Nat → Res (List K)) ∧ StaysInRange (uncheckedNth : List K → Nat → Nat → Res (List K)) := by
  refine ⟨fun l nth last h1 h2 => ?_, fun l nth last h2 => ?_⟩
  · obtain ⟨a, b, c⟩ := sorted_range l last h2
    exact ⟨_, rfl, a, b, fun i x y hx hy hi hn => c nth i x y hx hy hi hn⟩
  · obtain ⟨a, b, _⟩ := sorted_range l last h2
    exact ⟨_, rfl, a, b⟩

/-- **C79, median, violated.** Whatever the measurements are: an implementation of the standard library may stop the program when the median is computed. -/
theorem C79_median_violated (l : List K) (h : l ≠ []) :
    ∃ f, SelectsNth f ∧ (l.foldl Summarizer.push (Summarizer.init true : Summarizer K)).median f = .error .abort := by
  refine ⟨checkedNth, checkedNth_ok, ?_⟩
  obtain ⟨h1, h2, _⟩ := pushed true l
  have hn : l.length ≠ 0 := by simpa using h
  unfold Summarizer.median
  rw [h1, h2]
  have : l.isEmpty = false := by simpa using h
  simp only [this, checkedNth]
  rw [if_neg (by simp), if_neg (by omega)]
  rfl

/-- **C79, median, partial.** With an implementation that changes nothing outside of the range, the result is the measurement that was made in the middle of the time. It is a median if the measurements came in ascending order.
Without the full log the median is NaN. -/
theorem C79_median_partial (f : List K → Nat → Nat → Res (List K)) (hf : StaysInRange f) (l : List K) (h : l ≠ []) :
    (∃ x, l[l.length / 2]? = some x ∧ (l.foldl Summarizer.push (Summarizer.init true : Summarizer K)).median f = .ok (some x) ∧ (l.Pairwise (· ≤ ·) → IsMedian l x)) ∧
    (l.foldl Summarizer.push (Summarizer.init false : Summarizer K)).median f = .ok none := by
  obtain ⟨h1, h2, _⟩ := pushed true l
  obtain ⟨g1, _⟩ := pushed false l
  have hn : 0 < l.length := List.length_pos_iff.2 h
  have hm : l.length / 2 < l.length := by omega
  refine ⟨⟨l[l.length / 2], List.getElem?_eq_getElem hm, ?_, fun hs => ⟨List.getElem_mem hm, ?_, ?_⟩⟩, ?_⟩
  · obtain ⟨l', e1, e2, e3⟩ := hf l l.length (l.length / 2) hm.le
    have hi : l.isEmpty = false := by simpa using h
    have hr : l'[l.length / 2]? = some l[l.length / 2] := by
      have := congrArg (fun m : List K => m[0]?) e3
      simp only [List.getElem?_drop, Nat.add_zero] at this
      rw [this]
      exact List.getElem?_eq_getElem hm
    unfold Summarizer.median
    rw [h1, h2]
    simp only [hi]
    rw [if_neg (by simp), e1]
    show (rd l' (l.length / 2) >>= _) = _
    rw [rd, hr]
    rfl
  · have hsplit : l.countP (fun y => y < l[l.length / 2]) = (l.take (l.length / 2)).countP (fun y => y < l[l.length / 2]) + (l.drop (l.length / 2)).countP (fun y => y < l[l.length / 2]) := by
      rw [← List.countP_append, List.take_append_drop]
    have hz : (l.drop (l.length / 2)).countP (fun y => y < l[l.length / 2]) = 0 := by
      rw [List.countP_eq_zero]
      intro y hy
      obtain ⟨i, hi⟩ := List.getElem?_of_mem hy
      rw [List.getElem?_drop] at hi
      obtain ⟨p, rfl⟩ := List.getElem?_eq_some_iff.1 hi
      simp only [decide_eq_true_eq, not_lt]
      rcases Nat.eq_zero_or_pos i with h0 | h0
      · subst h0; simp
      · exact List.pairwise_iff_getElem.1 hs _ _ _ _ (by omega)
    have hle := List.countP_le_length (p := fun y => decide (y < l[l.length / 2])) (l := l.take (l.length / 2))
    rw [List.length_take] at hle
    rw [hsplit, hz]
    omega
  · have hsplit : l.countP (fun y => l[l.length / 2] < y) = (l.take (l.length / 2 + 1)).countP (fun y => l[l.length / 2] < y) + (l.drop (l.length / 2 + 1)).countP (fun y => l[l.length / 2] < y) := by
      rw [← List.countP_append, List.take_append_drop]
    have hz : (l.take (l.length / 2 + 1)).countP (fun y => l[l.length / 2] < y) = 0 := by
      rw [List.countP_eq_zero]
      intro y hy
      obtain ⟨i, hi⟩ := List.getElem?_of_mem hy
      rw [List.getElem?_take] at hi
      split at hi
      · rename_i hlt
        obtain ⟨p, rfl⟩ := List.getElem?_eq_some_iff.1 hi
        simp only [decide_eq_true_eq, not_lt]
        rcases Nat.lt_or_ge i (l.length / 2) with h0 | h0
        · exact List.pairwise_iff_getElem.1 hs _ _ _ _ h0
        · have : i = l.length / 2 := by omega
          subst this
          exact le_rfl
      · cases hi
    have hle := List.countP_le_length (p := fun y => decide (l[l.length / 2] < y)) (l := l.drop (l.length / 2 + 1))
    rw [List.length_drop] at hle
    rw [hsplit, hz]
    omega
  · unfold Summarizer.median
    rw [g1]
    simp

/-- **C79, median, violated** also where the program goes on: of the measurements 1, 3, 2 the result is 3. -/
theorem C79_wrong_median_violated (f : List ℚ → Nat → Nat → Res (List ℚ)) (hf : StaysInRange f) :
    ([1, 3, 2].foldl Summarizer.push (Summarizer.init true : Summarizer ℚ)).median f = .ok (some 3) ∧ ¬ IsMedian ([1, 3, 2] : List ℚ) 3 := by
  obtain ⟨⟨x, h1, h2, _⟩, _⟩ := C79_median_partial f hf [1, 3, 2] (by simp)
  refine ⟨?_, ?_⟩
  · have : x = 3 := by simpa using h1.symm
    rw [h2, this]
  · rintro ⟨_, h, _⟩
    revert h
    decide +kernel

/-- The premises are met: there is an implementation that stays within the range, and it is correct wherever the standard says something. -/
example : ∃ f : List ℚ → Nat → Nat → Res (List ℚ), SelectsNth f ∧ StaysInRange f := ⟨uncheckedNth, uncheckedNth_ok⟩

/-- The mean of 1, 3, 2 is 2, the variance 2/3. -/
example : ([1, 3, 2].foldl Summarizer.push (Summarizer.init false : Summarizer ℚ)).meanStd id = some (2, 2 / 3) := by
  rw [((C79_mean_std false id ([1, 3, 2] : List ℚ)).1 (by simp)).1]
  norm_num [averageOf, varianceOf]

end Verif.Props
