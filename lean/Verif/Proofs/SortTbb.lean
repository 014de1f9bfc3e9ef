import Verif.Model.SortTbb
import Verif.Proofs.Parallel
import Verif.Proofs.KdBuild
import Verif.Proofs.StableSort
import Mathlib.Data.Nat.Count
import Mathlib.Algebra.BigOperators.Intervals
import Mathlib.Algebra.Order.BigOperators.Group.Finset
import Mathlib.Data.Nat.Bitwise

/-!
Correctness of one radix-sort step.
-/

set_option linter.unusedSectionVars false

namespace Verif.Proofs

open Verif Verif.SortTbb

variable {T : Type}

/-! ### tables -/

/-- `tb` holds the table `F` of `nb` bins by `nt` tiles. -/
def Table (nb nt : Nat) (tb : List Nat) (F : Nat → Nat → Nat) : Prop :=
  tb.length = nb * nt ∧ ∀ b t, b < nb → t < nt → tb[b * nt + t]? = some (F b t)

theorem cell_lt {nb nt b t : Nat} (hb : b < nb) (ht : t < nt) : b * nt + t < nb * nt := by
  have : (b + 1) * nt ≤ nb * nt := Nat.mul_le_mul_right _ hb
  rw [Nat.add_mul, one_mul] at this
  omega

theorem cell_inj {nt b t b' t' : Nat} (ht : t < nt) (ht' : t' < nt) (h : b * nt + t = b' * nt + t') : b = b' ∧ t = t' := by
  have h0 : 0 < nt := by omega
  have e1 : (b * nt + t) / nt = b := by rw [mul_comm, Nat.mul_add_div h0, Nat.div_eq_of_lt ht, add_zero]
  have e2 : (b' * nt + t') / nt = b' := by rw [mul_comm, Nat.mul_add_div h0, Nat.div_eq_of_lt ht', add_zero]
  have hb : b = b' := by rw [← e1, ← e2, h]
  subst hb
  exact ⟨rfl, by omega⟩

theorem Table.rd {nb nt : Nat} {tb : List Nat} {F : Nat → Nat → Nat} (h : Table nb nt tb F) {b t : Nat} (hb : b < nb) (ht : t < nt) :
    rd tb (b * nt + t) = .ok (F b t) := rd_of_getElem? (h.2 b t hb ht)

theorem Table.wr {nb nt : Nat} {tb : List Nat} {F : Nat → Nat → Nat} (h : Table nb nt tb F) {b t : Nat} (hb : b < nb) (ht : t < nt) (v : Nat) :
    ∃ tb', wr tb (b * nt + t) v = .ok tb' ∧ Table nb nt tb' (fun b' t' => if b' = b ∧ t' = t then v else F b' t') := by
  have hlt : b * nt + t < tb.length := by rw [h.1]; exact cell_lt hb ht
  refine ⟨_, wr_of_lt v hlt, by rw [List.length_set, h.1], ?_⟩
  intro b' t' hb' ht'
  rw [List.getElem?_set]
  split
  · rename_i e
    obtain ⟨e1, e2⟩ := cell_inj ht ht' e
    dsimp only
    rw [if_pos ⟨e1.symm, e2.symm⟩]
  · rename_i e
    dsimp only
    rw [if_neg (by rintro ⟨rfl, rfl⟩; exact e rfl)]
    exact h.2 b' t' hb' ht'

theorem Table.congr {nb nt : Nat} {tb : List Nat} {F G : Nat → Nat → Nat} (h : Table nb nt tb F)
    (hFG : ∀ b t, b < nb → t < nt → F b t = G b t) : Table nb nt tb G :=
  ⟨h.1, fun b t hb ht => by rw [h.2 b t hb ht, hFG b t hb ht]⟩

/-- `go` holds the sequence `G`. -/
def Seq (nb : Nat) (go : List Nat) (G : Nat → Nat) : Prop := go.length = nb ∧ ∀ b, b < nb → go[b]? = some (G b)

theorem Seq.rd {nb : Nat} {go : List Nat} {G : Nat → Nat} (h : Seq nb go G) {b : Nat} (hb : b < nb) : rd go b = .ok (G b) :=
  rd_of_getElem? (h.2 b hb)

theorem Seq.wr {nb : Nat} {go : List Nat} {G : Nat → Nat} (h : Seq nb go G) {b : Nat} (hb : b < nb) (v : Nat) :
    ∃ go', wr go b v = .ok go' ∧ Seq nb go' (fun b' => if b' = b then v else G b') := by
  have hlt : b < go.length := by rw [h.1]; exact hb
  refine ⟨_, wr_of_lt v hlt, by rw [List.length_set, h.1], ?_⟩
  intro b' hb'
  rw [List.getElem?_set]
  split
  · rename_i e; subst e; simp
  · rename_i e; dsimp only; rw [if_neg (fun h => e h.symm)]; exact h.2 b' hb'

theorem Seq.congr {nb : Nat} {go : List Nat} {G H : Nat → Nat} (h : Seq nb go G) (hGH : ∀ b, b < nb → G b = H b) : Seq nb go H :=
  ⟨h.1, fun b hb => by rw [h.2 b hb, hGH b hb]⟩

/-! ### the four phases -/

/-- Histogram: each cell counts the actions that map to it. -/
theorem hist_ok (c : Cfg T) (step nb nt : Nat) (first : List T) (o : List (Nat × Nat)) (dg : Nat → Nat) (tb : List Nat)
    (F : Nat → Nat → Nat) (hF : Table nb nt tb F)
    (hd : ∀ a ∈ o, ∃ x, first[a.2]? = some x ∧ digit c step x = dg a.2 ∧ dg a.2 < nb ∧ a.1 < nt ∧ a.2 + 1 ≤ 2 ^ 31 - 1) :
    ∃ tb', o.foldlM (histAct c step nt first) tb = .ok tb' ∧
      Table nb nt tb' (fun b t => F b t + o.countP (fun a => decide (a.1 = t ∧ dg a.2 = b))) := by
  apply foldlM_inv (histAct c step nt first)
    (fun done tb => Table nb nt tb (fun b t => F b t + done.countP (fun a => decide (a.1 = t ∧ dg a.2 = b)))) o tb
  · simpa using hF
  · intro done a rest ho tb htb
    obtain ⟨x, hx, hdx, hlt, ht, hi⟩ := hd a (by rw [ho]; simp)
    obtain ⟨tb', hw, hT⟩ := htb.wr hlt ht (F (dg a.2) a.1 + done.countP (fun a' => decide (a'.1 = a.1 ∧ dg a'.2 = dg a.2)) + 1)
    refine ⟨tb', ?_, ?_⟩
    · unfold histAct
      rw [rd_of_getElem? hx, ok_bind]
      extract_lets cell
      have hcell : cell = dg a.2 * nt + a.1 := by simp only [cell, hdx]
      rw [hcell, htb.rd hlt ht, ok_bind, hw, ok_bind]
      have : int32 ((a.2 : Int) + 1) = .ok ((a.2 : Int) + 1) := by
        unfold int32 INT_MIN INT_MAX; rw [if_pos (by omega)]
      rw [this]; rfl
    · refine hT.congr ?_
      intro b t hb ht
      simp only [List.countP_append, List.countP_singleton]
      by_cases h : b = dg a.2 ∧ t = a.1
      · obtain ⟨rfl, rfl⟩ := h
        simp [Nat.add_assoc]
      · rw [if_neg h, if_neg (by simp only [decide_eq_true_eq]; rintro ⟨rfl, rfl⟩; exact h ⟨rfl, rfl⟩), add_zero]

theorem mul_sub_one_cell {i nt : Nat} (hi : 1 ≤ i) (hnt : 1 ≤ nt) : i * nt - 1 = (i - 1) * nt + (nt - 1) := by
  obtain ⟨k, rfl⟩ : ∃ k, i = k + 1 := ⟨i - 1, by omega⟩
  rw [Nat.add_mul, one_mul, Nat.add_sub_cancel]; omega

/-- Splitting `range' 1 m` at an element. -/
theorem range'_split {s m a : Nat} {done rest : List Nat} (h : List.range' s m = done ++ a :: rest) :
    done = List.range' s (a - s) ∧ s ≤ a ∧ a < s + m := by
  have hl := congrArg List.length h
  simp only [List.length_range', List.length_append, List.length_cons] at hl
  have hk : (List.range' s m)[done.length]? = some a := by rw [h]; simp
  rw [List.getElem?_range' (by omega)] at hk
  simp only [one_mul, Option.some.injEq] at hk
  have hd : done = (List.range' s m).take done.length := by rw [h]; simp
  have ht : (List.range' s m).take done.length = List.range' s done.length := by
    have := List.range'_append (s := s) (m := done.length) (n := m - done.length) (step := 1)
    rw [show done.length + (m - done.length) = m by omega] at this
    rw [← this, List.take_append_of_le_length (by simp), List.take_of_length_le (by simp)]
  rw [ht] at hd
  have : done.length = a - s := by omega
  rw [this] at hd
  exact ⟨hd, by omega, by omega⟩

theorem lastTile_ok (nb nt : Nat) (hnt : 1 ≤ nt) (tb go : List Nat) (F : Nat → Nat → Nat) (hF : Table nb nt tb F)
    (hgo : Seq nb go (fun _ => 0)) :
    ∃ go', (List.range' 1 (nb - 1)).foldlM (lastTileAct nt tb) go = .ok go' ∧
      Seq nb go' (fun b => if b = 0 then 0 else F (b - 1) (nt - 1)) := by
  have := foldlM_inv (lastTileAct nt tb) (fun done go => Seq nb go (fun b => if b ≠ 0 ∧ b ∈ done then F (b - 1) (nt - 1) else 0))
    (List.range' 1 (nb - 1)) go (by simpa using hgo) (by
      intro done i rest hl go hgo
      obtain ⟨_, h1, h2⟩ := range'_split hl
      obtain ⟨go', hw, hS⟩ := hgo.wr (b := i) (by omega) (F (i - 1) (nt - 1))
      refine ⟨go', ?_, hS.congr ?_⟩
      · unfold lastTileAct
        rw [mul_sub_one_cell h1 hnt, hF.rd (by omega) (by omega), ok_bind, hw]
      · intro b _
        by_cases e : b = i
        · subst e; rw [if_pos rfl, if_pos ⟨by omega, by simp⟩]
        · rw [if_neg e]; simp [e])
  obtain ⟨go', h1, h2⟩ := this
  refine ⟨go', h1, h2.congr ?_⟩
  intro b hb
  by_cases e : b = 0
  · simp [e]
  · rw [if_pos ⟨e, by rw [List.mem_range'_1]; omega⟩, if_neg e]

/-- Prefix sums of one bin. -/
theorem prefix_ok (nb nt bin : Nat) (hnt : 1 ≤ nt) (hbin : bin < nb) (tb : List Nat) (F : Nat → Nat → Nat) (hF : Table nb nt tb F) :
    ∃ tb', prefixAct nt tb bin = .ok tb' ∧
      Table nb nt tb' (fun b t => if b = bin then ∑ u ∈ Finset.range t, F b u else F b t) := by
  obtain ⟨tb0, hw0, hT0⟩ := hF.wr hbin (show 0 < nt by omega) 0
  have := foldlM_inv (prefixIter nt bin) (fun done s => s.2 = F bin done.length ∧ Table nb nt s.1
      (fun b t => if b = bin ∧ t ≤ done.length then ∑ u ∈ Finset.range t, F b u else F b t))
    (List.range' 1 (nt - 1)) (tb0, F bin 0) (by
      refine ⟨rfl, hT0.congr ?_⟩
      intro b t _ _
      by_cases h : b = bin ∧ t = 0
      · obtain ⟨rfl, rfl⟩ := h; simp
      · rw [if_neg h, if_neg (by simp only [List.length_nil]; omega)]) (by
      rintro done i rest hl ⟨tb, last⟩ ⟨hlast, htb⟩
      simp only at hlast htb
      obtain ⟨hd, h1, h2⟩ := range'_split hl
      have hdl : done.length = i - 1 := by rw [hd, List.length_range']
      obtain ⟨tb', hw, hT⟩ := htb.wr hbin (show i < nt by omega) (∑ u ∈ Finset.range (i - 1), F bin u + F bin (i - 1))
      refine ⟨(tb', F bin i), ?_, ?_, hT.congr ?_⟩
      · unfold prefixIter
        simp only
        rw [htb.rd hbin (show i < nt by omega), ok_bind, htb.rd hbin (show i - 1 < nt by omega), ok_bind]
        rw [if_neg (show ¬ (bin = bin ∧ i ≤ done.length) by omega), if_pos (show bin = bin ∧ i - 1 ≤ done.length by omega), hlast, hdl, hw]
        rfl
      · simp only [List.length_append, List.length_singleton, hdl]
        rw [show i - 1 + 1 = i by omega]
      · intro b t _ _
        simp only [List.length_append, List.length_singleton, hdl]
        by_cases h : b = bin ∧ t = i
        · obtain ⟨rfl, rfl⟩ := h
          rw [if_pos ⟨rfl, rfl⟩, if_pos ⟨rfl, by omega⟩]
          rw [← Finset.sum_range_succ, show t - 1 + 1 = t by omega]
        · rw [if_neg h]
          by_cases h' : b = bin ∧ t ≤ i - 1
          · rw [if_pos h', if_pos ⟨h'.1, by omega⟩]
          · rw [if_neg h', if_neg (by omega)])
  obtain ⟨⟨tb', last'⟩, h1, _, h3⟩ := this
  refine ⟨tb', ?_, h3.congr ?_⟩
  · unfold prefixAct
    have e0 : bin * nt = bin * nt + 0 := rfl
    rw [e0, hF.rd hbin (show 0 < nt by omega), ok_bind, hw0, ok_bind, h1]; rfl
  · intro b t _ ht
    simp only [List.length_range']
    by_cases h : b = bin
    · rw [if_pos ⟨h, by omega⟩, if_pos h]
    · rw [if_neg (by tauto), if_neg h]

/-- Prefix sums of all bins, in any order. -/
theorem prefixAll_ok (nb nt : Nat) (hnt : 1 ≤ nt) (o : List Nat) (hnd : o.Nodup) (ho : ∀ b ∈ o, b < nb) (tb : List Nat)
    (F : Nat → Nat → Nat) (hF : Table nb nt tb F) :
    ∃ tb', o.foldlM (prefixAct nt) tb = .ok tb' ∧
      Table nb nt tb' (fun b t => if b ∈ o then ∑ u ∈ Finset.range t, F b u else F b t) := by
  apply foldlM_inv (prefixAct nt) (fun done tb => Table nb nt tb (fun b t => if b ∈ done then ∑ u ∈ Finset.range t, F b u else F b t)) o tb
  · simpa using hF
  · intro done bin rest hl tb htb
    have hnot : bin ∉ done := by
      rw [hl, List.nodup_append] at hnd
      intro hm
      exact hnd.2.2 bin hm bin (by simp) rfl
    obtain ⟨tb', h1, h2⟩ := prefix_ok nb nt bin hnt (ho bin (by rw [hl]; simp)) tb _ htb
    refine ⟨tb', h1, h2.congr ?_⟩
    intro b t _ _
    by_cases e : b = bin
    · subst e
      simp [hnot]
    · simp [e]

theorem offsets_ok (nb nt : Nat) (hnt : 1 ≤ nt) (hnb : 1 ≤ nb) (tb go : List Nat) (H : Nat → Nat → Nat)
    (hF : Table nb nt tb (fun b t => ∑ u ∈ Finset.range t, H b u))
    (hgo : Seq nb go (fun b => if b = 0 then 0 else H (b - 1) (nt - 1))) :
    ∃ go', (List.range' 1 (nb - 1)).foldlM (offsetAct nt tb) go = .ok go' ∧
      Seq nb go' (fun b => ∑ b' ∈ Finset.range b, ∑ u ∈ Finset.range nt, H b' u) := by
  have := foldlM_inv (offsetAct nt tb) (fun done go => Seq nb go (fun b =>
      if b ≤ done.length then ∑ b' ∈ Finset.range b, ∑ u ∈ Finset.range nt, H b' u else H (b - 1) (nt - 1)))
    (List.range' 1 (nb - 1)) go (hgo.congr (by
      intro b hb
      by_cases e : b = 0
      · simp [e]
      · rw [if_neg e, if_neg (by simpa using e)])) (by
      intro done i rest hl go hgo
      obtain ⟨hd, h1, h2⟩ := range'_split hl
      have hdl : done.length = i - 1 := by rw [hd, List.length_range']
      obtain ⟨go', hw, hS⟩ := hgo.wr (b := i) (by omega)
        (H (i - 1) (nt - 1) + (∑ b' ∈ Finset.range (i - 1), ∑ u ∈ Finset.range nt, H b' u + ∑ u ∈ Finset.range (nt - 1), H (i - 1) u))
      refine ⟨go', ?_, hS.congr ?_⟩
      · unfold offsetAct
        rw [hgo.rd (b := i) (by omega), ok_bind, hgo.rd (b := i - 1) (by omega), ok_bind, mul_sub_one_cell h1 hnt,
          hF.rd (show i - 1 < nb by omega) (show nt - 1 < nt by omega), ok_bind]
        rw [if_neg (show ¬ i ≤ done.length by omega), if_pos (show i - 1 ≤ done.length by omega), hw]
      · intro b _
        simp only [List.length_append, List.length_singleton, hdl]
        by_cases e : b = i
        · subst e
          rw [if_pos rfl, if_pos (by omega)]
          conv_rhs => rw [show b = b - 1 + 1 by omega, Finset.sum_range_succ]
          have e2 : ∑ u ∈ Finset.range nt, H (b - 1) u = ∑ u ∈ Finset.range (nt - 1), H (b - 1) u + H (b - 1) (nt - 1) := by
            rw [← Finset.sum_range_succ, show nt - 1 + 1 = nt by omega]
          rw [e2]; omega
        · rw [if_neg e]
          by_cases h' : b ≤ i - 1
          · rw [if_pos h', if_pos (by omega)]
          · rw [if_neg h', if_neg (by omega)])
  obtain ⟨go', h1, h2⟩ := this
  refine ⟨go', h1, h2.congr ?_⟩
  intro b hb
  rw [List.length_range', if_pos (by omega)]

end Verif.Proofs
