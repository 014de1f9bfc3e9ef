import Verif.Model.PointFiles
import Verif.Spec.PointFiles
import Verif.Proofs.Parallel
import Verif.Proofs.KdBuild
import Mathlib.Tactic.IntervalCases
import Mathlib.Tactic.Linarith

/-!
C56: point files.
-/

set_option linter.unusedSectionVars false
set_option linter.unusedSimpArgs false

namespace Verif.Props

open Verif Verif.Files Verif.Proofs Verif.Spec

/-! ### memory -/

/-- `mem` holds the floats `fs` from the start on. -/
theorem flat_length (fs : List F32) : (fs.flatMap F32.bytes).length = 4 * fs.length := by
  induction fs with
  | nil => rfl
  | cons f fs ih => rw [List.flatMap_cons, List.length_append, ih, List.length_cons]; simp [F32.bytes]; omega

theorem flat_getElem? : ∀ (fs : List F32) (tail : List Byte) (j : Nat) (f : F32), fs[j]? = some f →
    (fs.flatMap F32.bytes ++ tail)[4 * j]? = some f.b0 ∧ (fs.flatMap F32.bytes ++ tail)[4 * j + 1]? = some f.b1 ∧
    (fs.flatMap F32.bytes ++ tail)[4 * j + 2]? = some f.b2 ∧ (fs.flatMap F32.bytes ++ tail)[4 * j + 3]? = some f.b3
  | [], _, _, _, h => by simp at h
  | a :: fs, tail, 0, f, h => by
    simp only [List.getElem?_cons_zero, Option.some.injEq] at h
    subst h
    simp [F32.bytes]
  | a :: fs, tail, j + 1, f, h => by
    rw [List.getElem?_cons_succ] at h
    have ih := flat_getElem? fs tail j f h
    have e : (a :: fs).flatMap F32.bytes ++ tail = a.b0 :: a.b1 :: a.b2 :: a.b3 :: (fs.flatMap F32.bytes ++ tail) := by
      simp [F32.bytes]
    rw [e]
    have e0 : 4 * (j + 1) = 4 * j + 4 := by omega
    rw [e0]
    simpa using ih

theorem floatAt_flat (fs : List F32) (tail : List Byte) (j : Nat) (f : F32) (h : fs[j]? = some f) :
    floatAt (fs.flatMap F32.bytes ++ tail) j = .ok f := by
  obtain ⟨h0, h1, h2, h3⟩ := flat_getElem? fs tail j f h
  unfold floatAt
  rw [rd_of_getElem? h0, ok_bind, rd_of_getElem? h1, ok_bind, rd_of_getElem? h2, ok_bind, rd_of_getElem? h3, ok_bind]

theorem mapM_range_ok {β : Type} (f : Nat → Res β) (g : Nat → β) (n : Nat) (h : ∀ i, i < n → f i = .ok (g i)) :
    (List.range n).mapM f = .ok ((List.range n).map g) := by
  have key : ∀ l : List Nat, (∀ i ∈ l, f i = .ok (g i)) → l.mapM f = .ok (l.map g) := by
    intro l
    induction l with
    | nil => intro _; rfl
    | cons a l ih =>
      intro hl
      rw [List.mapM_cons, hl a (by simp), ok_bind, ih (fun i hi => hl i (by simp [hi])), ok_bind]
      rfl
  exact key _ (fun i hi => h i (List.mem_range.1 hi))

theorem range_map_getElem {α β : Type} (l : List α) (g : α → β) (d : α) : (List.range l.length).map (fun i => g ((l[i]?).getD d)) = l.map g := by
  apply List.ext_getElem?
  intro i
  rw [List.getElem?_map, List.getElem?_map]
  by_cases h : i < l.length
  · rw [List.getElem?_range h, Option.map_some, List.getElem?_eq_getElem h]; rfl
  · rw [List.getElem?_eq_none (by simpa using h), List.getElem?_eq_none (by simpa using h)]; rfl

/-! ### read_points, write_points -/

def V4.floats (v : V4) : List F32 := [v.x, v.y, v.z, v.w]

theorem write_flat (P : List V4) : writePoints P = (P.flatMap V4.floats).flatMap F32.bytes := by
  unfold writePoints
  rw [List.flatMap_assoc]
  congr 1

theorem floats_getElem? : ∀ (P : List V4) (i : Nat) (v : V4), P[i]? = some v →
    (P.flatMap V4.floats)[4 * i]? = some v.x ∧ (P.flatMap V4.floats)[4 * i + 1]? = some v.y ∧
    (P.flatMap V4.floats)[4 * i + 2]? = some v.z ∧ (P.flatMap V4.floats)[4 * i + 3]? = some v.w
  | [], _, _, h => by simp at h
  | a :: P, 0, v, h => by
    simp only [List.getElem?_cons_zero, Option.some.injEq] at h
    subst h
    simp [V4.floats]
  | a :: P, i + 1, v, h => by
    rw [List.getElem?_cons_succ] at h
    have ih := floats_getElem? P i v h
    have e : (a :: P).flatMap V4.floats = a.x :: a.y :: a.z :: a.w :: P.flatMap V4.floats := by simp [V4.floats]
    rw [e]
    have e0 : 4 * (i + 1) = 4 * i + 4 := by omega
    rw [e0]
    simpa using ih

theorem floats_length (P : List V4) : (P.flatMap V4.floats).length = 4 * P.length := by
  induction P with
  | nil => rfl
  | cons f fs ih => rw [List.flatMap_cons, List.length_append, ih, List.length_cons]; simp [V4.floats]; omega

theorem write_length (P : List V4) : (writePoints P).length = 16 * P.length := by
  rw [write_flat, flat_length, floats_length]; omega

/-- C56: reading a file of points followed by an incomplete record yields the points with `w = 1`. -/
theorem C56_roundtrip (P : List V4) (tail : List Byte) (ht : tail.length < 16) :
    readPoints (some (writePoints P ++ tail)) = .ok (P.map fun v => ⟨v.x, v.y, v.z, F32.one⟩) := by
  unfold readPoints
  have hn : (writePoints P ++ tail).length / 16 = P.length := by
    rw [List.length_append, write_length]; omega
  simp only [hn]
  have hr : readInto (List.replicate (16 * P.length) 0) (16 * P.length) (writePoints P ++ tail) = .ok (writePoints P) := by
    unfold readInto
    have : (writePoints P ++ tail).take (16 * P.length) = writePoints P := by
      rw [← write_length, List.take_left']
      rfl
    rw [this, if_pos (by rw [write_length]; simp)]
    rw [List.drop_of_length_le (by rw [write_length]; simp), List.append_nil]
  rw [hr, ok_bind]
  rw [mapM_range_ok _ (fun i => (fun v : V4 => (⟨v.x, v.y, v.z, F32.one⟩ : V4)) ((P[i]?).getD ⟨F32.one, F32.one, F32.one, F32.one⟩))]
  · exact congrArg _ (range_map_getElem P (fun v : V4 => (⟨v.x, v.y, v.z, F32.one⟩ : V4)) _)
  · intro i hi
    have hv : P[i]? = some P[i] := List.getElem?_eq_getElem hi
    obtain ⟨h0, h1, h2, h3⟩ := floats_getElem? P i _ hv
    have e : writePoints P = (P.flatMap V4.floats).flatMap F32.bytes ++ [] := by rw [write_flat, List.append_nil]
    unfold vecAt
    rw [e, floatAt_flat _ _ _ _ h0, ok_bind, floatAt_flat _ _ _ _ h1, ok_bind, floatAt_flat _ _ _ _ h2, ok_bind,
      floatAt_flat _ _ _ _ h3, ok_bind, ok_bind, hv]
    rfl

/-- Every byte string is a sequence of points followed by an incomplete record. -/
theorem bytes_split : ∀ (n : Nat) (bytes : List Byte), bytes.length / 16 = n →
    ∃ P tail, bytes = writePoints P ++ tail ∧ tail.length < 16 ∧ P.length = n := by
  intro n
  induction n with
  | zero => intro bytes h; exact ⟨[], bytes, rfl, by omega, rfl⟩
  | succ n ih =>
    intro bytes h
    match bytes, h with
    | a0 :: a1 :: a2 :: a3 :: b0 :: b1 :: b2 :: b3 :: c0 :: c1 :: c2 :: c3 :: d0 :: d1 :: d2 :: d3 :: rest, h =>
      obtain ⟨P, tail, h1, h2, h3⟩ := ih rest (by simp only [List.length_cons] at h; omega)
      refine ⟨⟨⟨a0, a1, a2, a3⟩, ⟨b0, b1, b2, b3⟩, ⟨c0, c1, c2, c3⟩, ⟨d0, d1, d2, d3⟩⟩ :: P, tail, ?_, h2, by rw [List.length_cons, h3]⟩
      rw [h1]
      simp [writePoints, V4.bytes, F32.bytes]
    | [], h => simp at h
    | [_], h => simp at h
    | [_, _], h => simp at h
    | [_, _, _], h => simp at h
    | [_, _, _, _], h => simp at h
    | [_, _, _, _, _], h => simp at h
    | [_, _, _, _, _, _], h => simp at h
    | [_, _, _, _, _, _, _], h => simp at h
    | [_, _, _, _, _, _, _, _], h => simp at h
    | [_, _, _, _, _, _, _, _, _], h => simp at h
    | [_, _, _, _, _, _, _, _, _, _], h => simp at h
    | [_, _, _, _, _, _, _, _, _, _, _], h => simp at h
    | [_, _, _, _, _, _, _, _, _, _, _, _], h => simp at h
    | [_, _, _, _, _, _, _, _, _, _, _, _, _], h => simp at h
    | [_, _, _, _, _, _, _, _, _, _, _, _, _, _], h => simp at h
    | [_, _, _, _, _, _, _, _, _, _, _, _, _, _, _], h => simp at h

/-- C56: every byte string can be read, without fault, and is read as its complete records; the incomplete trailing record is ignored. -/
theorem C56_any_bytes (bytes : List Byte) :
    ∃ P, readPoints (some bytes) = .ok (P.map fun v => ⟨v.x, v.y, v.z, F32.one⟩) ∧ P.length = bytes.length / 16 ∧
      writePoints P = bytes.take (16 * (bytes.length / 16)) := by
  obtain ⟨P, tail, h1, h2, h3⟩ := bytes_split _ bytes rfl
  refine ⟨P, ?_, h3, ?_⟩
  · conv_lhs => rw [h1]
    exact C56_roundtrip P tail h2
  · rw [← h3, ← write_length]
    conv_rhs => rw [h1]
    rw [List.take_left']
    rfl

/-! ### header of a PLY file -/

theorem ply_keywords : plyElement = kwElement ∧ plyVertexWord = kwVertex ∧ plyProperty = kwProperty ∧ plyFloat = kwFloat ∧
    plyEnd = kwEndHeader ∧ (10 : Byte) = newline := by decide

theorem plyElement_eq : plyElement = kwElement := ply_keywords.1
theorem plyVertexWord_eq : plyVertexWord = kwVertex := ply_keywords.2.1
theorem plyProperty_eq : plyProperty = kwProperty := ply_keywords.2.2.1
theorem plyFloat_eq : plyFloat = kwFloat := ply_keywords.2.2.2.1
theorem plyEnd_eq : plyEnd = kwEndHeader := ply_keywords.2.2.2.2.1

theorem words_append (w : List Byte) (hw : ∀ c ∈ w, isSpace c = false) : ∀ (acc s : List Byte), words acc (w ++ s) = words (w.reverse ++ acc) s := by
  induction w with
  | nil => intro acc s; rfl
  | cons c w ih =>
    intro acc s
    rw [List.cons_append, words, hw c (by simp)]
    simp only [Bool.false_eq_true, if_false]
    rw [ih (fun d hd => hw d (by simp [hd]))]
    simp

theorem words_sep (acc s : List Byte) (h : acc ≠ []) : words acc (32 :: s) = acc.reverse :: words [] s := by
  rw [words]
  have : isSpace 32 = true := by decide
  rw [if_pos this, if_neg h]

theorem words_three (a b c : List Byte) (ha : a ≠ []) (hb : b ≠ []) (hc : c ≠ []) (ha' : ∀ x ∈ a, isSpace x = false)
    (hb' : ∀ x ∈ b, isSpace x = false) (hc' : ∀ x ∈ c, isSpace x = false) : words [] (a ++ [32] ++ b ++ [32] ++ c) = [a, b, c] := by
  have e : a ++ [32] ++ b ++ [32] ++ c = a ++ (32 :: (b ++ (32 :: c))) := by simp
  rw [e, words_append a ha', words_sep _ _ (by simpa using ha), words_append b hb', words_sep _ _ (by simpa using hb)]
  have e2 : c = c ++ [] := by simp
  conv_lhs => rw [e2]
  rw [words_append c hc', words, if_neg (by simpa using hc)]
  simp

theorem digits_decimal : ∀ (ds : List Byte) (a : Nat), (∀ c ∈ ds, 48 ≤ c ∧ c ≤ 57) →
    digits a ds = ds.foldl (fun a c => 10 * a + (c.toNat - 48)) a
  | [], _, _ => rfl
  | c :: ds, a, h => by
    have hc := h c (by simp)
    rw [digits, List.foldl_cons]
    have : isDigit c = true := by unfold isDigit; simp [hc.1, hc.2]
    rw [if_pos this]
    exact digits_decimal ds _ (fun d hd => h d (by simp [hd]))

theorem stol_decimal (ds : List Byte) (hne : ds ≠ []) (h : ∀ c ∈ ds, 48 ≤ c ∧ c ≤ 57) (hv : decimal ds < 2 ^ 63) :
    stol ds = .ok (decimal ds : Int) := by
  cases ds with
  | nil => exact absurd rfl hne
  | cons c ds =>
    have hc := h c (by simp)
    have h45 : c ≠ 45 := by rintro rfl; exact absurd hc.1 (by decide)
    have h43 : c ≠ 43 := by rintro rfl; exact absurd hc.1 (by decide)
    have hd : isDigit c = true := by unfold isDigit; simp [hc.1, hc.2]
    have hdec : digits 0 (c :: ds) = decimal (c :: ds) := digits_decimal _ 0 h
    unfold stol
    simp only [h45, h43, if_false, hd, if_true, hdec, Bool.false_eq_true]
    rw [if_pos ⟨by omega, by omega⟩]

theorem noSpace_of_digit {c : Byte} (h : 48 ≤ c ∧ c ≤ 57) : isSpace c = false := by
  have h1 : c ≠ 32 := by rintro rfl; exact absurd h.1 (by decide)
  have h2 : ¬ c ≤ 13 := fun h3 => absurd (UInt8.le_trans h.1 h3) (by decide)
  unfold isSpace
  simp [h1, h2]

theorem noSpace_of_name {c : Byte} (h : ¬ (c = 32 ∨ (9 ≤ c ∧ c ≤ 13))) : isSpace c = false := by
  unfold isSpace
  simp only [Bool.or_eq_false_iff, decide_eq_false_iff_not, Bool.and_eq_false_iff]
  refine ⟨fun h1 => h (Or.inl h1), ?_⟩
  by_cases h2 : 9 ≤ c
  · exact Or.inr (fun h3 => h (Or.inr ⟨h2, h3⟩))
  · exact Or.inl h2

/-- The effect of a line on the header as specified. -/
def applyLine (h : Header) : PlyLine → Header
  | .other _ => h
  | .vertex ds => { h with num := decimal ds }
  | .property n => { h with props := h.props ++ [n] }

theorem headerLine_ok (h : Header) (l : PlyLine) (hl : l.Ok) : headerLine h l.text = .ok (some (applyLine h l)) := by
  cases l with
  | other t =>
    obtain ⟨-, -, -, h1, h2⟩ := hl
    unfold headerLine PlyLine.text
    rw [if_neg (by rw [List.isPrefixOf_iff_prefix]; exact h1), if_neg (by rw [List.isPrefixOf_iff_prefix]; exact h2)]
    rfl
  | vertex ds =>
    obtain ⟨h1, h2, h3⟩ := hl
    have hp : kwElement.isPrefixOf (PlyLine.vertex ds).text = true := by
      rw [List.isPrefixOf_iff_prefix]
      exact ⟨[32] ++ kwVertex ++ [32] ++ ds, by simp [plyElement_eq, plyVertexWord_eq, plyProperty_eq, plyFloat_eq, PlyLine.text]⟩
    have hw : words [] (PlyLine.vertex ds).text = [kwElement, kwVertex, ds] :=
      words_three _ _ _ (by decide) (by decide) h1 (by decide) (by decide) (fun c hc => noSpace_of_digit (h2 c hc))
    unfold headerLine word
    rw [if_pos hp, hw, if_neg (by simp)]
    show (stol ds >>= _) = _
    rw [stol_decimal ds h1 h2 h3, ok_bind, if_neg (by omega)]
    rfl
  | property n =>
    obtain ⟨h1, h2⟩ := hl
    have hp0 : ¬ kwElement.isPrefixOf (PlyLine.property n).text = true := by
      intro h
      simp [plyElement_eq, plyVertexWord_eq, plyProperty_eq, plyFloat_eq, PlyLine.text, kwElement, kwProperty, ascii, List.isPrefixOf] at h
      exact absurd h.1 (by decide)
    have hp : kwProperty.isPrefixOf (PlyLine.property n).text = true := by
      rw [List.isPrefixOf_iff_prefix]
      exact ⟨[32] ++ kwFloat ++ [32] ++ n, by simp [plyElement_eq, plyVertexWord_eq, plyProperty_eq, plyFloat_eq, PlyLine.text]⟩
    have hw : words [] (PlyLine.property n).text = [kwProperty, kwFloat, n] :=
      words_three _ _ _ (by decide) (by decide) h1 (by decide) (by decide) (fun c hc => noSpace_of_name (h2 c hc))
    unfold headerLine word
    rw [if_neg hp0, if_pos hp, hw, if_neg (by simp)]
    rfl

theorem headerLoop_append (h : Header) (t : List Byte) (ht : newline ∉ t) : ∀ (acc s : List Byte),
    headerLoop h acc (t ++ s) = headerLoop h (t.reverse ++ acc) s := by
  induction t with
  | nil => intro acc s; rfl
  | cons c t ih =>
    intro acc s
    have hc : c ≠ newline := fun e => ht (by simp [e])
    rw [List.cons_append, headerLoop, if_neg hc, ih (fun hm => ht (by simp [hm]))]
    simp

theorem text_ok (l : PlyLine) (hl : l.Ok) : l.text ≠ [] ∧ newline ∉ l.text ∧ l.text ≠ kwEndHeader := by
  cases l with
  | other t => exact ⟨hl.1, hl.2.1, hl.2.2.1⟩
  | vertex ds =>
    obtain ⟨h1, h2, h3⟩ := hl
    refine ⟨by simp [plyElement_eq, plyVertexWord_eq, plyProperty_eq, plyFloat_eq, PlyLine.text], ?_, ?_⟩
    · intro hm
      simp only [PlyLine.text, List.mem_append] at hm
      rcases hm with (((hm | hm) | hm) | hm) | hm
      · revert hm; decide
      · revert hm; decide
      · revert hm; decide
      · revert hm; decide
      · have := (h2 _ hm).1; revert this; decide
    · intro he
      have := congrArg (fun l => l[1]?) he
      simp [plyElement_eq, plyVertexWord_eq, plyProperty_eq, plyFloat_eq, PlyLine.text, plyEnd_eq, kwElement, kwEndHeader, ascii] at this
      revert this; decide
  | property n =>
    obtain ⟨h1, h2⟩ := hl
    refine ⟨by simp [plyElement_eq, plyVertexWord_eq, plyProperty_eq, plyFloat_eq, PlyLine.text], ?_, ?_⟩
    · intro hm
      simp only [PlyLine.text, List.mem_append] at hm
      rcases hm with (((hm | hm) | hm) | hm) | hm
      · revert hm; decide
      · revert hm; decide
      · revert hm; decide
      · revert hm; decide
      · exact h2 _ hm (Or.inr (by decide))
    · intro he
      have := congrArg (fun l => l[0]?) he
      simp [plyElement_eq, plyVertexWord_eq, plyProperty_eq, plyFloat_eq, PlyLine.text, plyEnd_eq, kwProperty, kwEndHeader, ascii] at this
      revert this; decide

theorem headerLoop_ok : ∀ (lines : List PlyLine) (h : Header) (rest : List Byte), (∀ l ∈ lines, l.Ok) →
    headerLoop h [] (plyHeader lines ++ rest) = .ok (some ⟨10, lines.foldl applyLine h, rest, true⟩)
  | [], h, rest, _ => by
    have e : plyHeader [] ++ rest = kwEndHeader ++ (newline :: rest) := by
      have e10 : (10 : Byte) = newline := rfl
      simp [plyHeader, plyEnd_eq, e10]
    rw [e, headerLoop_append h kwEndHeader (by decide), headerLoop, if_pos rfl, if_pos (by right; simp)]
    rfl
  | l :: lines, h, rest, hl => by
    have e : plyHeader (l :: lines) ++ rest = l.text ++ (newline :: (plyHeader lines ++ rest)) := by
      have e10 : (10 : Byte) = newline := rfl
      simp [plyHeader, plyEnd_eq, e10]
    obtain ⟨h1, h2, h3⟩ := text_ok l (hl l (by simp))
    rw [e, headerLoop_append h l.text h2, headerLoop, if_pos rfl, if_neg (by simp [h1, h3])]
    rw [List.append_nil, List.reverse_reverse, headerLine_ok h l (hl l (by simp)), ok_bind]
    exact headerLoop_ok lines _ rest (fun m hm => hl m (by simp [hm]))

theorem foldl_applyLine : ∀ (lines : List PlyLine) (h : Header),
    lines.foldl applyLine h = ⟨h.props ++ plyNames lines, ((plyNumbers lines).getLast?).getD h.num⟩
  | [], h => by simp [plyNames, plyNumbers]
  | l :: lines, h => by
    rw [List.foldl_cons, foldl_applyLine lines]
    cases l with
    | other t => simp [applyLine, plyNames, plyNumbers]
    | property n => simp [applyLine, plyNames, plyNumbers]
    | vertex ds =>
      simp only [applyLine, plyNames, plyNumbers, List.filterMap_cons, Header.mk.injEq, true_and]
      rw [List.getLast?_cons]
      simp

/-! ### the points of a PLY file -/

theorem flatten_length {α : Type} (k : Nat) : ∀ (L : List (List α)), (∀ v ∈ L, v.length = k) → L.flatten.length = L.length * k
  | [], _ => by simp
  | v :: L, h => by
    rw [List.flatten_cons, List.length_append, h v (by simp), flatten_length k L (fun w hw => h w (by simp [hw])), List.length_cons, Nat.add_mul]
    omega

theorem flatten_getElem? {α : Type} (k : Nat) : ∀ (L : List (List α)) (i m : Nat) (v : List α), (∀ v ∈ L, v.length = k) → L[i]? = some v → m < k →
    L.flatten[i * k + m]? = v[m]?
  | [], _, _, _, _, h, _ => by simp at h
  | w :: L, 0, m, v, hk, h, hm => by
    simp only [List.getElem?_cons_zero, Option.some.injEq] at h
    subst h
    rw [List.flatten_cons, List.getElem?_append_left (by rw [hk w (by simp)]; omega), Nat.zero_mul, Nat.zero_add]
  | w :: L, i + 1, m, v, hk, h, hm => by
    rw [List.getElem?_cons_succ] at h
    have hw : w.length = k := hk w (by simp)
    rw [List.flatten_cons, List.getElem?_append_right (by rw [hw, Nat.add_mul]; omega), hw]
    have e : (i + 1) * k + m - k = i * k + m := by rw [Nat.add_mul]; omega
    rw [e]
    exact flatten_getElem? k L i m v (fun x hx => hk x (by simp [hx])) h hm

theorem body_flat (vertices : List (List F32)) : (vertices.flatMap fun v => v.flatMap F32.bytes) = vertices.flatten.flatMap F32.bytes := by
  induction vertices with
  | nil => rfl
  | cons v L ih => rw [List.flatMap_cons, ih, List.flatten_cons, List.flatMap_append]

theorem check_ok (props : List (List Byte)) (h : 3 ≤ props.length) : checkProperties 10 props = .ok () := by
  unfold checkProperties
  rw [if_neg (by omega)]
  have h0 : props[0]? = some props[0] := List.getElem?_eq_getElem (by omega)
  have h1 : props[1]? = some props[1] := List.getElem?_eq_getElem (by omega)
  have h2 : props[2]? = some props[2] := List.getElem?_eq_getElem (by omega)
  rw [rd_of_getElem? h0, ok_bind, rd_of_getElem? h1, rd_of_getElem? h2]
  split_ifs
  · rfl
  · rw [ok_bind]
    split_ifs <;> rfl

/-- Reading a well-formed file is reading its body into the buffer. -/
theorem readPly_fits (lines : List PlyLine) (vertices : List (List F32)) (tail : List Byte) (hf : PlyFits lines vertices)
    (h3 : 3 ≤ (plyNames lines).length) :
    readPly (some (plyFile lines vertices tail)) =
      readInto (List.replicate (4 * ((plyNames lines).length * vertices.length)) 0) (16 * vertices.length)
          (vertices.flatten.flatMap F32.bytes ++ tail) >>= fun mem =>
        (List.range vertices.length).mapM fun i => (do
          let x ← floatAt mem (i * (plyNames lines).length)
          let y ← floatAt mem (i * (plyNames lines).length + 1)
          let z ← floatAt mem (i * (plyNames lines).length + 2)
          .ok ⟨x, y, z, F32.one⟩) := by
  have e : plyFile lines vertices tail = plyHeader lines ++ (vertices.flatten.flatMap F32.bytes ++ tail) := by
    rw [plyFile, body_flat, List.append_assoc]
  have hh : lines.foldl applyLine ⟨[], 0⟩ = ⟨plyNames lines, vertices.length⟩ := by
    rw [foldl_applyLine, hf.number]; simp
  unfold readPly
  simp only
  rw [e, headerLoop_ok lines ⟨[], 0⟩ _ hf.ok, ok_bind, hh]
  simp only
  rw [check_ok _ h3, ok_bind]
  rfl

/-- C56: a file with four properties is read completely, whatever follows the vertices; so is a file with three properties if nothing
follows. Partial: with other numbers of properties, or three and more data, the claim is false (`C56_ply_many_violated`,
`C56_ply_three_violated`). -/
theorem C56_ply_partial (lines : List PlyLine) (vertices : List (List F32)) (tail : List Byte) (hf : PlyFits lines vertices)
    (hp : (plyNames lines).length = 4 ∨ ((plyNames lines).length = 3 ∧ tail = [])) :
    readPly (some (plyFile lines vertices tail)) = .ok (vertices.map plyPoint) := by
  rw [readPly_fits lines vertices tail hf (by omega)]
  have hw := hf.width
  generalize (plyNames lines).length = p at hp hw
  have hl : (vertices.flatten.flatMap F32.bytes).length = 4 * (p * vertices.length) := by
    rw [flat_length, flatten_length p vertices hw, Nat.mul_comm vertices.length]
  have hr : readInto (List.replicate (4 * (p * vertices.length)) 0) (16 * vertices.length) (vertices.flatten.flatMap F32.bytes ++ tail) =
      .ok (vertices.flatten.flatMap F32.bytes ++ []) := by
    have ht : (vertices.flatten.flatMap F32.bytes ++ tail).take (16 * vertices.length) = vertices.flatten.flatMap F32.bytes := by
      rcases hp with rfl | ⟨rfl, rfl⟩
      · rw [List.take_left' (by rw [hl]; omega)]
      · rw [List.append_nil, List.take_of_length_le (by rw [hl]; omega)]
    unfold readInto
    rw [ht, if_pos (by rw [hl]; simp), List.drop_of_length_le (by rw [hl]; simp)]
  rw [hr, ok_bind]
  rw [mapM_range_ok _ (fun i => plyPoint ((vertices[i]?).getD []))]
  · exact congrArg _ (range_map_getElem vertices plyPoint _)
  · intro i hi
    have hv : vertices[i]? = some vertices[i] := List.getElem?_eq_getElem hi
    have hvl : vertices[i].length = p := hw _ (List.getElem_mem hi)
    have hp3 : 3 ≤ p := by omega
    obtain ⟨x, y, z, t, hxyz⟩ : ∃ x y z t, vertices[i] = x :: y :: z :: t := by
      match vertices[i], hvl with
      | [], h => rw [List.length_nil] at h; omega
      | [_], h => rw [List.length_singleton] at h; omega
      | [_, _], h => rw [List.length_cons, List.length_singleton] at h; omega
      | x :: y :: z :: t, _ => exact ⟨x, y, z, t, rfl⟩
    have g0 := flatten_getElem? p vertices i 0 _ hw hv (by omega)
    have g1 := flatten_getElem? p vertices i 1 _ hw hv (by omega)
    have g2 := flatten_getElem? p vertices i 2 _ hw hv (by omega)
    rw [hxyz] at g0 g1 g2
    rw [Nat.add_zero] at g0
    rw [floatAt_flat _ _ _ x (by rw [g0]; rfl), ok_bind, floatAt_flat _ _ _ y (by rw [g1]; rfl), ok_bind,
      floatAt_flat _ _ _ z (by rw [g2]; rfl), ok_bind, hv, Option.getD_some, hxyz]
    rfl

/-- C56, violated part: with three properties, any byte after the vertices is written beyond the buffer. -/
theorem C56_ply_three_violated (lines : List PlyLine) (vertices : List (List F32)) (tail : List Byte) (hf : PlyFits lines vertices)
    (hp : (plyNames lines).length = 3) (hn : vertices ≠ []) (ht : tail ≠ []) :
    readPly (some (plyFile lines vertices tail)) = .error .oob := by
  rw [readPly_fits lines vertices tail hf (by omega)]
  have hw := hf.width
  rw [hp] at hw ⊢
  have hl : (vertices.flatten.flatMap F32.bytes).length = 12 * vertices.length := by
    rw [flat_length, flatten_length 3 vertices hw]; omega
  have h1 := List.length_pos_of_ne_nil hn
  have h2 := List.length_pos_of_ne_nil ht
  unfold readInto
  rw [if_neg]
  · rfl
  · rw [List.length_take, List.length_append, hl, List.length_replicate]; omega

/-- C56, further: a header without properties makes the code read `properties[0]` of an empty vector, because it is the length of the last
line that is compared with 3. -/
theorem C56_ply_none (lines : List PlyLine) (rest : List Byte) (hok : ∀ l ∈ lines, l.Ok) (hp : plyNames lines = []) :
    readPly (some (plyHeader lines ++ rest)) = .error .oob := by
  unfold readPly
  simp only
  rw [headerLoop_ok lines ⟨[], 0⟩ _ hok, ok_bind, foldl_applyLine, hp]
  rfl

/-- C56, further: a file that consists of one line without the end of line and without a header entry. With three bytes or more (`ply`, say)
the code reads `properties[0]` of an empty vector; a shorter file is read as no points. -/
theorem C56_ply_one_line (t : List Byte) (hn : newline ∉ t) (he : t ≠ kwEndHeader) (h1 : ¬ kwElement <+: t) (h2 : ¬ kwProperty <+: t) :
    readPly (some t) = if 3 ≤ t.length then .error .oob else .ok [] := by
  have hloop : headerLoop ⟨[], 0⟩ [] t = .ok (some ⟨t.length, ⟨[], 0⟩, [], false⟩) := by
    have := headerLoop_append ⟨[], 0⟩ t hn [] []
    rw [List.append_nil, List.append_nil] at this
    rw [this]
    unfold headerLoop
    rw [List.reverse_reverse, List.length_reverse]
    by_cases h0 : t = []
    · subst h0; rfl
    · rw [if_neg (by simp [h0, he])]
      unfold headerLine
      rw [if_neg (by simpa using h1), if_neg (by simpa using h2)]
      rfl
  unfold readPly
  simp only
  rw [hloop, ok_bind]
  by_cases h : 3 ≤ t.length
  · rw [if_pos h]
    unfold checkProperties
    simp only
    rw [if_neg (by omega)]
    rfl
  · rw [if_neg h]
    unfold checkProperties
    simp only
    rw [if_pos (by omega)]
    rfl

/-- The file that holds `ply` and nothing else. -/
example : newline ∉ ([112, 108, 121] : List Byte) ∧ [112, 108, 121] ≠ kwEndHeader ∧ ¬ kwElement <+: ([112, 108, 121] : List Byte) ∧
    ¬ kwProperty <+: ([112, 108, 121] : List Byte) := by decide

theorem stol_negative (ds : List Byte) (h : ∀ c ∈ ds, 48 ≤ c ∧ c ≤ 57) (hpos : 0 < decimal ds) :
    stol (45 :: ds) = .error .exception ∨ ∃ v : Int, v < 0 ∧ stol (45 :: ds) = .ok v := by
  cases ds with
  | nil => exact absurd hpos (by decide)
  | cons c ds =>
    have hc := h c (by simp)
    have hd : isDigit c = true := by unfold isDigit; simp [hc.1, hc.2]
    have hdec : digits 0 (c :: ds) = decimal (c :: ds) := digits_decimal _ 0 h
    unfold stol
    simp only [if_true, hd, hdec]
    split
    · exact Or.inr ⟨_, by omega, rfl⟩
    · exact Or.inl rfl

theorem headerLoop_lines : ∀ (lines : List PlyLine) (h : Header) (rest : List Byte), (∀ l ∈ lines, l.Ok) →
    headerLoop h [] ((lines.flatMap fun l => l.text ++ [10]) ++ rest) = headerLoop (lines.foldl applyLine h) [] rest
  | [], _, _, _ => rfl
  | l :: lines, h, rest, hl => by
    have e : ((l :: lines).flatMap fun l => l.text ++ [10]) ++ rest = l.text ++ (newline :: ((lines.flatMap fun l => l.text ++ [10]) ++ rest)) := by
      have e10 : (10 : Byte) = newline := rfl
      simp [e10]
    obtain ⟨h1, h2, h3⟩ := text_ok l (hl l (by simp))
    rw [e, headerLoop_append h l.text h2, headerLoop, if_pos rfl, if_neg (by simp [h1, h3])]
    rw [List.append_nil, List.reverse_reverse, headerLine_ok h l (hl l (by simp)), ok_bind]
    exact headerLoop_lines lines _ rest (fun m hm => hl m (by simp [hm]))

/-- C56, further: a negative number of vertices, wherever it stands in the header and whatever follows, ends in an exception (of `resize`, or of `stol` if the number does not fit). -/
theorem C56_ply_negative (lines : List PlyLine) (hok : ∀ l ∈ lines, l.Ok) (ds : List Byte) (hd : ∀ c ∈ ds, 48 ≤ c ∧ c ≤ 57) (hpos : 0 < decimal ds) (rest : List Byte) :
    readPly (some ((lines.flatMap fun l => l.text ++ [10]) ++ (plyElement ++ [32] ++ plyVertexWord ++ [32] ++ (45 :: ds)) ++ [10] ++ rest)) = .error .exception := by
  have e10 : (10 : Byte) = newline := rfl
  have hsp : ∀ c ∈ (45 :: ds : List Byte), isSpace c = false := by
    intro c hc
    rcases List.mem_cons.1 hc with rfl | hc
    · decide
    · exact noSpace_of_digit (hd c hc)
  have hnl : newline ∉ plyElement ++ [32] ++ plyVertexWord ++ [32] ++ (45 :: ds) := by
    intro hm
    rcases List.mem_append.1 hm with hm | hm
    · revert hm; decide
    · have := hsp _ hm
      revert this; decide
  have hp : kwElement.isPrefixOf (plyElement ++ [32] ++ plyVertexWord ++ [32] ++ (45 :: ds)) = true := by
    rw [List.isPrefixOf_iff_prefix]
    exact ⟨[32] ++ kwVertex ++ [32] ++ (45 :: ds), by simp [plyElement_eq, plyVertexWord_eq]⟩
  have hw : words [] (plyElement ++ [32] ++ plyVertexWord ++ [32] ++ (45 :: ds)) = [kwElement, kwVertex, 45 :: ds] :=
    words_three _ _ _ (by decide) (by decide) (by simp) (by decide) (by decide) hsp
  have hline : ∀ h, headerLine h (plyElement ++ [32] ++ plyVertexWord ++ [32] ++ (45 :: ds)) = .error .exception := by
    intro h
    unfold headerLine word
    rw [if_pos hp, hw, if_neg (by simp)]
    show (stol (45 :: ds) >>= _) = _
    rcases stol_negative ds hd hpos with h1 | ⟨v, h1, h2⟩
    · rw [h1]; rfl
    · rw [h2, ok_bind, if_pos h1]
  have hend : ¬ (plyElement ++ [32] ++ plyVertexWord ++ [32] ++ (45 :: ds) = [] ∨ plyElement ++ [32] ++ plyVertexWord ++ [32] ++ (45 :: ds) = kwEndHeader) := by
    rintro (h | h)
    · simp at h
    · rw [h] at hw
      have := congrArg List.length hw
      rw [show (words [] kwEndHeader).length = 1 by decide] at this
      simp at this
  unfold readPly
  simp only
  rw [List.append_assoc, List.append_assoc, headerLoop_lines lines _ _ hok, headerLoop_append _ _ hnl, List.append_nil, e10, List.singleton_append, headerLoop, if_pos rfl,
    List.reverse_reverse, if_neg (by rw [List.reverse_eq_nil_iff]; exact hend), hline]
  rfl

theorem floatAt_zeros (A : List Byte) (n j : Nat) (h1 : A.length ≤ 4 * j) (h2 : 4 * j + 4 ≤ A.length + n) :
    floatAt (A ++ List.replicate n 0) j = .ok F32.zero := by
  have key : ∀ m, A.length ≤ m → m < A.length + n → (A ++ List.replicate n (0 : Byte))[m]? = some 0 := by
    intro m h3 h4
    rw [List.getElem?_append_right h3, List.getElem?_replicate, if_pos (by omega)]
  unfold floatAt
  rw [rd_of_getElem? (key _ (by omega) (by omega)), ok_bind, rd_of_getElem? (key _ (by omega) (by omega)), ok_bind,
    rd_of_getElem? (key _ (by omega) (by omega)), ok_bind, rd_of_getElem? (key _ (by omega) (by omega)), ok_bind]
  rfl

/-- C56, violated part: with five or more properties and at least three vertices, the last vertex is read with `z = 0`, whatever its value in
the file. -/
theorem C56_ply_many_violated (lines : List PlyLine) (vertices : List (List F32)) (tail : List Byte) (hf : PlyFits lines vertices)
    (hp : 5 ≤ (plyNames lines).length) (v : List F32) (z : F32) (hlast : vertices.getLast? = some v) (hz : v[2]? = some z) (hz0 : z ≠ F32.zero)
    (hn : 3 ≤ vertices.length) :
    readPly (some (plyFile lines vertices tail)) ≠ .ok (vertices.map plyPoint) := by
  rw [readPly_fits lines vertices tail hf (by omega)]
  have hw := hf.width
  generalize (plyNames lines).length = p at hp hw
  obtain ⟨n, hn'⟩ : ∃ n, vertices.length = n + 1 := ⟨vertices.length - 1, by omega⟩
  have hl : (vertices.flatten.flatMap F32.bytes).length = 4 * (p * (n + 1)) := by
    rw [flat_length, flatten_length p vertices hw, Nat.mul_comm vertices.length, hn']
  have hpn : 5 * (n + 1) ≤ p * (n + 1) := Nat.mul_le_mul_right _ hp
  have hr : readInto (List.replicate (4 * (p * vertices.length)) 0) (16 * vertices.length) (vertices.flatten.flatMap F32.bytes ++ tail) =
      .ok ((vertices.flatten.flatMap F32.bytes ++ tail).take (16 * (n + 1)) ++ List.replicate (4 * (p * (n + 1)) - 16 * (n + 1)) 0) := by
    have hlen : ((vertices.flatten.flatMap F32.bytes ++ tail).take (16 * (n + 1))).length = 16 * (n + 1) := by
      rw [List.length_take, List.length_append, hl]; omega
    unfold readInto
    rw [hn', hlen, if_pos (by rw [List.length_replicate]; omega), List.drop_replicate]
  have hlen : ((vertices.flatten.flatMap F32.bytes ++ tail).take (16 * (n + 1))).length = 16 * (n + 1) := by
    rw [List.length_take, List.length_append, hl]; omega
  rw [hr, ok_bind]
  generalize (vertices.flatten.flatMap F32.bytes ++ tail).take (16 * (n + 1)) = A at hlen
  intro hcontra
  have hnp : n * p = p * n := Nat.mul_comm n p
  have hpn2 : p * (n + 1) = p * n + p := by rw [Nat.mul_add, Nat.mul_one]
  have hpn3 : 5 * n ≤ p * n := Nat.mul_le_mul_right _ hp
  have hzero : floatAt (A ++ List.replicate (4 * (p * (n + 1)) - 16 * (n + 1)) 0) (n * p + 2) = .ok F32.zero :=
    floatAt_zeros _ _ _ (by rw [hlen]; omega) (by rw [hlen]; omega)
  generalize A ++ List.replicate (4 * (p * (n + 1)) - 16 * (n + 1)) 0 = mem at hcontra hzero
  rw [hn', List.range_succ, List.mapM_append] at hcontra
  rcases h1 : (List.range n).mapM (fun i => do
      let x ← floatAt mem (i * p)
      let y ← floatAt mem (i * p + 1)
      let z ← floatAt mem (i * p + 2)
      (.ok ⟨x, y, z, F32.one⟩ : Res V4)) with e | l
  · rw [h1] at hcontra; cases hcontra
  · rw [h1, ok_bind, List.mapM_cons] at hcontra
    rcases h2 : floatAt mem (n * p) with e | x
    · rw [h2] at hcontra; cases hcontra
    · rcases h3 : floatAt mem (n * p + 1) with e | y
      · rw [h2, ok_bind, h3] at hcontra; cases hcontra
      · rw [h2, ok_bind, h3, ok_bind, hzero, ok_bind] at hcontra
        have hc : l ++ [(⟨x, y, F32.zero, F32.one⟩ : V4)] = vertices.map plyPoint := Except.ok.inj hcontra
        have hc2 := congrArg List.getLast? hc
        rw [List.getLast?_map, hlast] at hc2
        simp only [List.getLast?_append, List.getLast?_singleton, Option.some_or, Option.map_some, Option.some.injEq] at hc2
        match v, hz with
        | a :: b :: c :: t, hz =>
          simp only [List.getElem?_cons_succ, List.getElem?_cons_zero, Option.some.injEq] at hz
          subst hz
          exact hz0 (congrArg V4.z hc2).symm

/-! ### concrete files -/

/-- A header as written by common tools, for `n` single-digit vertices and properties with one-letter names. -/
def plyLines (n : Byte) (names : List Char) : List PlyLine :=
  [.other (ascii ['p', 'l', 'y']), .other (ascii ['f', 'o', 'r', 'm', 'a', 't', ' ', 'b', 'i', 'n']), .vertex [48 + n]] ++
    names.map fun c => .property (ascii [c])

def plyVertex (k : Nat) : List F32 := (List.range k).map fun i => ⟨1, 2, 3, UInt8.ofNat (i + 1)⟩

theorem plyLines_fits (k : Nat) (n : Byte) (names : List Char) (hk : k = names.length) (vs : Nat) (hv : decimal [48 + n] = vs)
    (hd : 48 ≤ 48 + n ∧ 48 + n ≤ 57) (hn : ∀ c ∈ names, ¬ (c.toUInt8 = 32 ∨ (9 ≤ c.toUInt8 ∧ c.toUInt8 ≤ 13))) (hs : vs < 10) :
    PlyFits (plyLines n names) (List.replicate vs (plyVertex k)) := by
  constructor
  · intro l hl
    simp only [plyLines, List.mem_append, List.mem_cons, List.not_mem_nil, or_false, List.mem_map] at hl
    rcases hl with (rfl | rfl | rfl) | ⟨c, hc, rfl⟩
    · exact ⟨by decide, by decide, by decide, by decide, by decide⟩
    · exact ⟨by decide, by decide, by decide, by decide, by decide⟩
    · exact ⟨by simp, fun c hc => by rw [List.mem_singleton.1 hc]; exact hd, by rw [hv]; omega⟩
    · exact ⟨by simp [ascii], fun d hd => by rw [ascii, List.map_cons, List.map_nil, List.mem_singleton] at hd; rw [hd]; exact hn c hc⟩
  · have : plyNumbers (plyLines n names) = [decimal [48 + n]] := by
      simp [plyNumbers, plyLines]
    rw [this, hv]; simp
  · intro v hv
    have hnm : plyNames (plyLines n names) = names.map fun c => ascii [c] := by
      simp only [plyNames, plyLines, List.filterMap_append, List.filterMap_cons, List.filterMap_nil, List.nil_append, List.filterMap_map]
      exact List.filterMap_eq_map' ▸ rfl
    rw [(List.mem_replicate.1 hv).2, hnm, List.length_map, ← hk]
    simp [plyVertex]

/-- Four properties. -/
example : PlyFits (plyLines 2 ['x', 'y', 'z', 'i']) (List.replicate 2 (plyVertex 4)) :=
  plyLines_fits 4 2 ['x', 'y', 'z', 'i'] rfl 2 (by decide) (by decide) (by decide) (by decide)

/-- Three properties and three vertices. -/
example : PlyFits (plyLines 3 ['x', 'y', 'z']) (List.replicate 3 (plyVertex 3)) :=
  plyLines_fits 3 3 ['x', 'y', 'z'] rfl 3 (by decide) (by decide) (by decide) (by decide)

/-- Five properties: the hypotheses of the violation. -/
example : PlyFits (plyLines 3 ['x', 'y', 'z', 'r', 'i']) (List.replicate 3 (plyVertex 5)) ∧
    (List.replicate 3 (plyVertex 5)).getLast? = some (plyVertex 5) ∧ (plyVertex 5)[2]? = some ⟨1, 2, 3, 3⟩ ∧ (⟨1, 2, 3, 3⟩ : F32) ≠ F32.zero :=
  ⟨plyLines_fits 5 3 ['x', 'y', 'z', 'r', 'i'] rfl 3 (by decide) (by decide) (by decide) (by decide), by decide, by decide, by decide⟩

/-- A file with -3 vertices. -/
example : (∀ c ∈ ([51] : List Byte), 48 ≤ c ∧ c ≤ 57) ∧ 0 < decimal [51] := by decide

end Verif.Props
