import Verif.Model.Projective
import Verif.Spec.Projective
import Verif.Proofs.KdExact
import Verif.Proofs.KdBuild
import Verif.Proofs.Parallel

/-!
Lemmas on the projective search: contents of the index map, and the search loops as a fold of `pushSpec` over a prefix of the
candidates of the window.
-/

set_option linter.unusedSectionVars false
set_option linter.unusedSimpArgs false

namespace Verif.Proofs.Proj

open Verif Verif.Knn Verif.Projective Verif.Proofs Verif.Spec

variable {D : Type} [LinearOrder D]

/-- Point `j` is projected to pixel `c`. -/
def At (cfg : Config D) (cols rows : Nat) (points : List (Pt D)) (j : Nat) (c : Int × Int) : Prop :=
  ∃ p, points[j]? = some p ∧ pixel cfg cols rows p = .ok c

theorem At.unique {cfg : Config D} {cols rows : Nat} {points : List (Pt D)} {j : Nat} {c c' : Int × Int}
    (h : At cfg cols rows points j c) (h' : At cfg cols rows points j c') : c = c' := by
  obtain ⟨p, h1, h2⟩ := h
  obtain ⟨p', h3, h4⟩ := h'
  rw [h1] at h3
  cases h3
  rw [h2] at h4
  exact Except.ok.inj h4

theorem cell_lt {u v cols rows : Nat} (hu : u < cols) (hv : v < rows) : v * cols + u < rows * cols := by
  calc v * cols + u < v * cols + cols := by omega
    _ = (v + 1) * cols := by rw [Nat.add_mul, Nat.one_mul]
    _ ≤ rows * cols := Nat.mul_le_mul_right _ hv

theorem cell_inj {u v u' v' cols : Nat} (hu : u < cols) (hu' : u' < cols) (h : v * cols + u = v' * cols + u') : u = u' ∧ v = v' := by
  have h1 : (v * cols + u) % cols = u := by rw [Nat.mul_comm, Nat.mul_add_mod]; exact Nat.mod_eq_of_lt hu
  have h2 : (v' * cols + u') % cols = u' := by rw [Nat.mul_comm, Nat.mul_add_mod]; exact Nat.mod_eq_of_lt hu'
  have hc : 0 < cols := by omega
  have hu2 : u = u' := by rw [← h1, ← h2, h]
  refine ⟨hu2, ?_⟩
  subst hu2
  have : v * cols = v' * cols := by omega
  exact Nat.eq_of_mul_eq_mul_right hc this

/-- The index map after the first `n` points. -/
structure Filled (A : Nat → Int × Int → Prop) (cols rows n : Nat) (cells : List Nat) : Prop where
  len : cells.length = rows * cols
  cell : ∀ u v : Nat, u < cols → v < rows →
    (∃ j, LastAt A n (u, v) j ∧ cells[v * cols + u]? = some (toU32 j)) ∨
    ((∀ j < n, ¬ A j (u, v)) ∧ cells[v * cols + u]? = some invalidIndex)

theorem filled_empty (A : Nat → Int × Int → Prop) (cols rows : Nat) : Filled A cols rows 0 (List.replicate (rows * cols) invalidIndex) := by
  refine ⟨by simp, fun u v hu hv => Or.inr ⟨fun j hj => absurd hj (Nat.not_lt_zero j), ?_⟩⟩
  rw [List.getElem?_replicate, if_pos (cell_lt hu hv)]

theorem insert_filled {cfg : Config D} {cols rows n : Nat} {points : List (Pt D)} {p : Pt D} {cells cells' : List Nat}
    (hp : points[n]? = some p) (h : Filled (At cfg cols rows points) cols rows n cells)
    (hi : insertPoint cfg cols rows cells p n = .ok cells') : Filled (At cfg cols rows points) cols rows (n + 1) cells' := by
  unfold insertPoint at hi
  rcases hpx : pixel cfg cols rows p with e | ⟨a, b⟩
  · rw [hpx] at hi; cases hi
  · rw [hpx, ok_bind] at hi
    have hat : At cfg cols rows points n (a, b) := ⟨p, hp, hpx⟩
    have keep : ∀ u v : Nat, u < cols → v < rows → ((u : Int), (v : Int)) ≠ (a, b) → cells'[v * cols + u]? = cells[v * cols + u]? →
        (∃ j, LastAt (At cfg cols rows points) (n + 1) (u, v) j ∧ cells'[v * cols + u]? = some (toU32 j)) ∨
        ((∀ j < n + 1, ¬ At cfg cols rows points j (u, v)) ∧ cells'[v * cols + u]? = some invalidIndex) := by
      intro u v hu hv hne hc
      rw [hc]
      rcases h.cell u v hu hv with ⟨j, ⟨h1, h2, h3⟩, h4⟩ | ⟨h1, h2⟩
      · refine Or.inl ⟨j, ⟨by omega, h2, fun j' hj hj' ha => ?_⟩, h4⟩
        rcases Nat.lt_succ_iff_lt_or_eq.1 hj' with e | e
        · exact h3 j' hj e ha
        · subst e; exact hne (ha.unique hat)
      · refine Or.inr ⟨fun j hj ha => ?_, h2⟩
        rcases Nat.lt_succ_iff_lt_or_eq.1 hj with e | e
        · exact h1 j e ha
        · subst e; exact hne (ha.unique hat)
    by_cases hout : a < 0 ∨ a ≥ cols ∨ b < 0 ∨ b ≥ rows
    · simp only [hout, if_true, Except.ok.injEq] at hi
      subst hi
      refine ⟨h.len, fun u v hu hv => keep u v hu hv ?_ rfl⟩
      intro e
      have h1 := congrArg Prod.fst e
      have h2 := congrArg Prod.snd e
      simp only at h1 h2
      omega
    · simp only [hout, if_false] at hi
      obtain ⟨ua, rfl⟩ : ∃ k : Nat, a = k := ⟨a.toNat, by omega⟩
      obtain ⟨vb, rfl⟩ : ∃ k : Nat, b = k := ⟨b.toNat, by omega⟩
      have hua : ua < cols := by omega
      have hvb : vb < rows := by omega
      simp only [Int.toNat_natCast] at hi
      have hlt : vb * cols + ua < cells.length := by rw [h.len]; exact cell_lt hua hvb
      rw [wr_of_lt _ hlt] at hi
      cases hi
      refine ⟨by rw [List.length_set, h.len], fun u v hu hv => ?_⟩
      by_cases huv : u = ua ∧ v = vb
      · obtain ⟨rfl, rfl⟩ := huv
        refine Or.inl ⟨n, ⟨by omega, hat, fun j' h1 h2 => by omega⟩, ?_⟩
        rw [List.getElem?_set_self hlt]
      · refine keep u v hu hv ?_ ?_
        · intro e
          have h1 := congrArg Prod.fst e
          have h2 := congrArg Prod.snd e
          simp only at h1 h2
          omega
        · rw [List.getElem?_set_ne]
          intro e
          have := cell_inj hua hu e
          exact huv ⟨this.1.symm, this.2.symm⟩

theorem insertFrom_filled {cfg : Config D} {cols rows : Nat} {points : List (Pt D)} :
    ∀ (ps : List (Pt D)) (n : Nat) (cells cells' : List Nat), points.drop n = ps → Filled (At cfg cols rows points) cols rows n cells →
      insertFrom cfg cols rows n ps cells = .ok cells' → Filled (At cfg cols rows points) cols rows (n + ps.length) cells'
  | [], n, cells, cells', _, h, hi => by cases hi; exact h
  | p :: ps, n, cells, cells', hd, h, hi => by
    rw [insertFrom] at hi
    have hp : points[n]? = some p := by
      have : (points.drop n)[0]? = some p := by rw [hd]; rfl
      rwa [List.getElem?_drop, Nat.add_zero] at this
    rcases h1 : insertPoint cfg cols rows cells p n with e | c1
    · rw [h1] at hi; cases hi
    · rw [h1, ok_bind] at hi
      have hd' : points.drop (n + 1) = ps := by
        rw [← List.drop_drop, hd]; rfl
      have := insertFrom_filled ps (n + 1) c1 cells' hd' (insert_filled hp h h1) hi
      rwa [List.length_cons, Nat.add_comm ps.length, ← Nat.add_assoc]

theorem build_filled {cfg : Config D} {cols rows : Nat} {points : List (Pt D)} {m : Index} (h : build cfg cols rows points = .ok m) :
    m.cols = cols ∧ m.rows = rows ∧ Filled (At cfg cols rows points) cols rows points.length m.cells := by
  unfold build at h
  rcases h1 : insertFrom cfg cols rows 0 points (List.replicate (rows * cols) invalidIndex) with e | c
  · rw [h1] at h; cases h
  · rw [h1, ok_bind] at h
    cases h
    refine ⟨rfl, rfl, ?_⟩
    have := insertFrom_filled points 0 _ _ rfl (filled_empty _ cols rows) h1
    rwa [Nat.zero_add] at this

/-- The constructor succeeds when every projection can be converted. -/
theorem insertFrom_ok {cfg : Config D} {cols rows : Nat} : ∀ (ps : List (Pt D)) (n : Nat) (cells : List Nat), cells.length = rows * cols →
    (∀ p ∈ ps, ∃ c, pixel cfg cols rows p = .ok c) → ∃ cells', insertFrom cfg cols rows n ps cells = .ok cells'
  | [], n, cells, _, _ => ⟨cells, rfl⟩
  | p :: ps, n, cells, hl, h => by
    obtain ⟨⟨a, b⟩, hc⟩ := h p (by simp)
    obtain ⟨c1, h1, h2⟩ : ∃ c1, insertPoint cfg cols rows cells p n = .ok c1 ∧ c1.length = rows * cols := by
      unfold insertPoint
      rw [hc, ok_bind]
      by_cases hout : a < 0 ∨ a ≥ cols ∨ b < 0 ∨ b ≥ rows
      · exact ⟨cells, by simp only [hout, if_true], hl⟩
      · have hlt : b.toNat * cols + a.toNat < cells.length := by
          rw [hl]; exact cell_lt (by omega) (by omega)
        exact ⟨_, by simp only [hout, if_false]; exact wr_of_lt _ hlt, by rw [List.length_set, hl]⟩
    obtain ⟨c2, h3⟩ := insertFrom_ok ps (n + 1) c1 h2 (fun q hq => h q (by simp [hq]))
    exact ⟨c2, by rw [insertFrom, h1, ok_bind, h3]⟩

/-! ### candidates -/

/-- The candidate stored in a cell, if any. -/
def entry (o : Ops D) (points : List (Pt D)) (m : Index) (query : Pt D) (c : Int × Int) : Option (Nat × D) :=
  if c.1 < 0 ∨ c.1 ≥ m.cols ∨ c.2 < 0 ∨ c.2 ≥ m.rows then none
  else match m.cells[c.2.toNat * m.cols + c.1.toNat]? with
    | none => none
    | some i => if i = invalidIndex then none else (points[i]?).map fun p => (i, Pt.sqDist o p query)

def rowCells (cfg : Config D) (m : Index) (u vc : Int) (dus : List Int) : List (Int × Int) :=
  dus.map fun du => (cfg.borderH (u + du) m.cols, vc)

def imageCells (cfg : Config D) (m : Index) (u v : Int) (dvs : List Int) : List (Int × Int) :=
  dvs.flatMap fun dv => rowCells cfg m u (cfg.borderV (v + dv) m.rows) (window m.windowH)

theorem mem_window {w x : Int} : x ∈ window w ↔ -w ≤ x ∧ x ≤ w := by
  unfold window
  rw [List.mem_map]
  constructor
  · rintro ⟨j, hj, rfl⟩
    rw [List.mem_range] at hj
    omega
  · intro h
    exact ⟨(x + w).toNat, by rw [List.mem_range]; omega, by omega⟩

theorem window_nodup (w : Int) : (window w).Nodup := by
  unfold window
  refine List.Nodup.map ?_ List.nodup_range
  intro a b h
  simp only at h
  omega

/-- Well-formed index: the map has the stated size and stores only the mark or indices of points. -/
structure Sound (points : List (Pt D)) (m : Index) : Prop where
  len : m.cells.length = m.rows * m.cols
  valid : ∀ i ∈ m.cells, i = invalidIndex ∨ i < points.length

def InRange (x : Int) : Prop := -2 ^ 31 ≤ x ∧ x < 2 ^ 31

theorem toInt32_ok {x : Int} (h : InRange x) : toInt32 x = .ok x := by unfold toInt32; exact if_pos h

theorem toInt32_err {x : Int} (h : ¬ InRange x) : toInt32 x = .error .intOverflow := by unfold toInt32; exact if_neg h

variable {maxD : D} {cap : Nat} {ti : List Nat} {td : List D}

/-- What a loop over the cells `cs` does to a buffer holding `L`. -/
def LoopSpec (o : Ops D) (maxD : D) (cap : Nat) (ti : List Nat) (td : List D) (points : List (Pt D)) (m : Index) (query : Pt D) (epsilon : D)
    (cs : List (Int × Int)) (L : List (Nat × D)) (stop : Bool) (r : KnnResult D) : Prop :=
  ∃ pre suf, cs.filterMap (entry o points m query) = pre ++ suf ∧ Holds maxD cap ti td r (pre.foldl (pushSpec maxD cap) L) ∧
    (stop = false → suf = []) ∧ (stop = true → worstOf maxD cap (pre.foldl (pushSpec maxD cap) L) < epsilon)

theorem LoopSpec.skip {o : Ops D} {points : List (Pt D)} {m : Index} {query : Pt D} {epsilon : D} {c : Int × Int} {cs : List (Int × Int)}
    {L : List (Nat × D)} {stop : Bool} {r : KnnResult D} (hc : entry o points m query c = none)
    (h : LoopSpec o maxD cap ti td points m query epsilon cs L stop r) : LoopSpec o maxD cap ti td points m query epsilon (c :: cs) L stop r := by
  obtain ⟨pre, suf, h1, h2⟩ := h
  exact ⟨pre, suf, by rw [List.filterMap_cons, hc]; exact h1, h2⟩

theorem rowLoop_spec (o : Ops D) (cfg : Config D) (points : List (Pt D)) (m : Index) (query : Pt D) (epsilon : D) (u vc : Int)
    (hm : Sound points m) (hv : 0 ≤ vc ∧ vc < m.rows) :
    ∀ (dus : List Int) (r : KnnResult D) (L : List (Nat × D)), Holds maxD cap ti td r L →
      (rowLoop o cfg points m query epsilon u vc dus r = .error .intOverflow ∧ ∃ du ∈ dus, ¬ InRange (u + du)) ∨
      ∃ stop r', rowLoop o cfg points m query epsilon u vc dus r = .ok (stop, r') ∧
        LoopSpec o maxD cap ti td points m query epsilon (rowCells cfg m u vc dus) L stop r'
  | [], r, L, h => Or.inr ⟨false, r, rfl, [], [], rfl, h, fun _ => rfl, fun h => by cases h⟩
  | du :: dus, r, L, h => by
    have ih := rowLoop_spec o cfg points m query epsilon u vc hm hv dus
    rw [rowLoop]
    by_cases hr : InRange (u + du)
    · rw [toInt32_ok hr, ok_bind]
      have skip : entry o points m query (cfg.borderH (u + du) m.cols, vc) = none →
          (rowLoop o cfg points m query epsilon u vc dus r = .error .intOverflow ∧ ∃ d ∈ du :: dus, ¬ InRange (u + d)) ∨
          ∃ stop r', rowLoop o cfg points m query epsilon u vc dus r = .ok (stop, r') ∧
            LoopSpec o maxD cap ti td points m query epsilon (rowCells cfg m u vc (du :: dus)) L stop r' := by
        intro he
        rcases ih r L h with ⟨h1, d, hd, h2⟩ | ⟨stop, r', h1, h2⟩
        · exact Or.inl ⟨h1, d, by simp [hd], h2⟩
        · exact Or.inr ⟨stop, r', h1, h2.skip he⟩
      generalize hx : cfg.borderH (u + du) m.cols = x at skip ⊢
      by_cases hout : x < 0 ∨ x ≥ m.cols
      · simp only [hout, if_true]
        exact skip (by unfold entry; rw [if_pos (by simp only; omega)])
      · simp only [hout, if_false]
        have hnin : ¬ ((x, vc).1 < 0 ∨ (x, vc).1 ≥ m.cols ∨ (x, vc).2 < 0 ∨ (x, vc).2 ≥ m.rows) := by simp only; omega
        have hlt : vc.toNat * m.cols + x.toNat < m.cells.length := by
          rw [hm.len]; exact cell_lt (by omega) (by omega)
        have hget : m.cells[vc.toNat * m.cols + x.toNat]? = some m.cells[vc.toNat * m.cols + x.toNat] := List.getElem?_eq_getElem hlt
        have hmem := hm.valid _ (List.getElem_mem hlt)
        generalize m.cells[vc.toNat * m.cols + x.toNat] = i at hget hmem
        rw [rd_of_getElem? hget, ok_bind]
        by_cases hi : i = invalidIndex
        · rw [if_pos hi]
          exact skip (by unfold entry; rw [if_neg hnin]; simp only [hget, hi, if_true])
        · rw [if_neg hi]
          have hil : i < points.length := hmem.resolve_left hi
          have hp : points[i]? = some points[i] := List.getElem?_eq_getElem hil
          have hent : entry o points m query (x, vc) = some (i, Pt.sqDist o points[i] query) := by
            unfold entry; rw [if_neg hnin]; simp only [hget, hi, if_false, hp, Option.map_some]
          rw [rd_of_getElem? hp, ok_bind]
          obtain ⟨r1, h1, h2⟩ := push_holds h id i (Pt.sqDist o points[i] query)
          rw [h1, ok_bind]
          have hf : fulfilled epsilon r1 = .ok (decide (worstOf maxD cap (pushSpec maxD cap L (i, Pt.sqDist o points[i] query)) < epsilon)) := by
            unfold fulfilled; rw [h2.worst]; rfl
          rw [hf, ok_bind]
          by_cases hw : worstOf maxD cap (pushSpec maxD cap L (i, Pt.sqDist o points[i] query)) < epsilon
          · simp only [hw, decide_true, if_true]
            refine Or.inr ⟨true, r1, rfl, [(i, Pt.sqDist o points[i] query)], (rowCells cfg m u vc dus).filterMap (entry o points m query), ?_, h2,
              (fun h => by cases h), fun _ => hw⟩
            rw [rowCells, List.map_cons, hx, List.filterMap_cons, hent]; rfl
          · simp only [hw, decide_false, Bool.false_eq_true, if_false]
            rcases ih r1 _ h2 with ⟨h3, d, hd, h4⟩ | ⟨stop, r', h3, pre, suf, h4, h5⟩
            · exact Or.inl ⟨h3, d, by simp [hd], h4⟩
            · refine Or.inr ⟨stop, r', h3, (i, Pt.sqDist o points[i] query) :: pre, suf, ?_, h5⟩
              rw [rowCells, List.map_cons, hx, List.filterMap_cons, hent]
              simp only [List.cons_append]
              rw [← h4]; rfl
    · rw [toInt32_err hr]
      exact Or.inl ⟨rfl, du, by simp, hr⟩

theorem imageLoop_spec (o : Ops D) (cfg : Config D) (points : List (Pt D)) (m : Index) (query : Pt D) (epsilon : D) (u v : Int)
    (hm : Sound points m) :
    ∀ (dvs : List Int) (r : KnnResult D) (L : List (Nat × D)), Holds maxD cap ti td r L →
      (imageLoop o cfg points m query epsilon u v dvs r = .error .intOverflow ∧
        ((∃ dv ∈ dvs, ¬ InRange (v + dv)) ∨ ∃ du ∈ window m.windowH, ¬ InRange (u + du))) ∨
      ∃ stop r', imageLoop o cfg points m query epsilon u v dvs r = .ok r' ∧
        LoopSpec o maxD cap ti td points m query epsilon (imageCells cfg m u v dvs) L stop r'
  | [], r, L, h => Or.inr ⟨false, r, rfl, [], [], rfl, h, fun _ => rfl, fun h => by cases h⟩
  | dv :: dvs, r, L, h => by
    have ih := imageLoop_spec o cfg points m query epsilon u v hm dvs
    rw [imageLoop]
    have hcells : imageCells cfg m u v (dv :: dvs) =
        rowCells cfg m u (cfg.borderV (v + dv) m.rows) (window m.windowH) ++ imageCells cfg m u v dvs := by
      simp [imageCells]
    by_cases hr : InRange (v + dv)
    · rw [toInt32_ok hr, ok_bind]
      by_cases hout : cfg.borderV (v + dv) m.rows < 0 ∨ cfg.borderV (v + dv) m.rows ≥ m.rows
      · simp only [hout, if_true]
        have hnone : (rowCells cfg m u (cfg.borderV (v + dv) m.rows) (window m.windowH)).filterMap (entry o points m query) = [] := by
          rw [List.filterMap_eq_nil_iff]
          intro c hc
          obtain ⟨du, -, rfl⟩ := List.mem_map.1 hc
          unfold entry
          rw [if_pos (by simp only; omega)]
        rcases ih r L h with ⟨h1, ⟨d, hd, h2⟩ | h2⟩ | ⟨stop, r', h1, pre, suf, h2, h3⟩
        · exact Or.inl ⟨h1, Or.inl ⟨d, by simp [hd], h2⟩⟩
        · exact Or.inl ⟨h1, Or.inr h2⟩
        · exact Or.inr ⟨stop, r', h1, pre, suf, by rw [hcells, List.filterMap_append, hnone]; exact h2, h3⟩
      · simp only [hout, if_false]
        rcases rowLoop_spec o cfg points m query epsilon u (cfg.borderV (v + dv) m.rows) hm (by omega) (window m.windowH) r L h with
          ⟨h1, h2⟩ | ⟨stop, r1, h1, pre, suf, h2, h3, h4, h5⟩
        · rw [h1]; exact Or.inl ⟨rfl, Or.inr h2⟩
        · rw [h1, ok_bind]
          cases stop with
          | true =>
            simp only [if_true]
            refine Or.inr ⟨true, r1, rfl, pre, suf ++ (imageCells cfg m u v dvs).filterMap (entry o points m query), ?_, h3,
              (fun h => by cases h), h5⟩
            rw [hcells, List.filterMap_append, h2, List.append_assoc]
          | false =>
            simp only [Bool.false_eq_true, if_false]
            have hs := h4 rfl
            subst hs
            rw [List.append_nil] at h2
            rcases ih r1 _ h3 with ⟨h6, ⟨d, hd, h7⟩ | h7⟩ | ⟨stop, r', h6, pre', suf', h7, h8⟩
            · exact Or.inl ⟨h6, Or.inl ⟨d, by simp [hd], h7⟩⟩
            · exact Or.inl ⟨h6, Or.inr h7⟩
            · refine Or.inr ⟨stop, r', h6, pre ++ pre', suf', ?_, ?_⟩
              · rw [hcells, List.filterMap_append, h2, h7, List.append_assoc]
              · rw [List.foldl_append]; exact h8
    · rw [toInt32_err hr]
      exact Or.inl ⟨rfl, Or.inl ⟨dv, by simp, hr⟩⟩

/-- A successful search: its result is the best part of a prefix of the candidates; all of them, or the buffer is full and good enough. -/
theorem search_spec (o : Ops D) (maxD : D) (cfg : Config D) (points : List (Pt D)) (m : Index) (N nn : Int) (cap : Nat) (indices : List Nat)
    (dists : List D) (query : Pt D) (epsilon : D) (hm : Sound points m)
    (hcap : cap = if 0 < N then N.toNat else nn.toNat) (hpos : 0 < cap) (hnn : 0 < N → nn < 0)
    (hi : cap ≤ indices.length) (hd : cap ≤ dists.length) (q : Int × Int) (hq : pixel cfg m.cols m.rows query = .ok q) :
    (knnSearch o maxD cfg points m N nn indices dists query epsilon = .error .intOverflow ∧
      ((∃ dv ∈ window m.windowV, ¬ InRange (q.2 + dv)) ∨ ∃ du ∈ window m.windowH, ¬ InRange (q.1 + du))) ∨
    ∃ r pre suf, knnSearch o maxD cfg points m N nn indices dists query epsilon = .ok r ∧
      (imageCells cfg m q.1 q.2 (window m.windowV)).filterMap (entry o points m query) = pre ++ suf ∧
      r.found = kBest maxD cap pre ∧
      (suf = [] ∨ worstOf maxD cap (kBest maxD cap pre) < epsilon) := by
  obtain ⟨r0, h1, h2⟩ := construct_holds maxD N indices dists nn cap hcap hpos hnn hi hd
  unfold knnSearch
  rw [h1, ok_bind, hq, ok_bind]
  rcases imageLoop_spec o cfg points m query epsilon q.1 q.2 hm (window m.windowV) r0 [] h2 with ⟨h3, h4⟩ | ⟨stop, r, h3, pre, suf, h4, h5, h6, h7⟩
  · exact Or.inl ⟨h3, h4⟩
  · rw [foldl_pushSpec] at h5 h7
    refine Or.inr ⟨r, pre, suf, h3, h4, h5.found_eq, ?_⟩
    cases stop with
    | true => exact Or.inr (h7 rfl)
    | false => exact Or.inl (h6 rfl)

theorem filled_sound {A : Nat → Int × Int → Prop} {points : List (Pt D)} {m : Index} (h : Filled A m.cols m.rows points.length m.cells) :
    Sound points m := by
  refine ⟨h.len, fun i hi => ?_⟩
  obtain ⟨k, hk, rfl⟩ := List.getElem_of_mem hi
  rw [h.len] at hk
  have hc : 0 < m.cols := by
    rcases Nat.eq_zero_or_pos m.cols with e | e
    · rw [e, Nat.mul_zero] at hk; omega
    · exact e
  have hkv : k / m.cols < m.rows := by rw [Nat.div_lt_iff_lt_mul hc]; exact hk
  have hk' : k / m.cols * m.cols + k % m.cols = k := by rw [Nat.mul_comm]; exact Nat.div_add_mod k m.cols
  have := h.cell (k % m.cols) (k / m.cols) (Nat.mod_lt _ hc) hkv
  rw [hk', List.getElem?_eq_getElem (by rw [h.len]; exact hk)] at this
  rcases this with ⟨j, ⟨hj, -⟩, h2⟩ | ⟨-, h2⟩
  · refine Or.inr ?_
    rw [Option.some.inj h2]
    exact lt_of_le_of_lt (Nat.mod_le _ _) hj
  · exact Or.inl (Option.some.inj h2)

theorem entry_genuine {o : Ops D} {points : List (Pt D)} {m : Index} {query : Pt D} {c : Int × Int} {e : Nat × D}
    (h : entry o points m query c = some e) : ∃ p, points[e.1]? = some p ∧ e.2 = Pt.sqDist o p query := by
  unfold entry at h
  split at h
  · cases h
  · split at h
    · cases h
    · split at h
      · cases h
      · obtain ⟨p, h1, h2⟩ := Option.map_eq_some_iff.1 h
        subst h2
        exact ⟨p, h1, rfl⟩

/-- With fewer than `2^32` points, the candidate of a cell is the last point projected there. -/
theorem entry_iff {A : Nat → Int × Int → Prop} {o : Ops D} {points : List (Pt D)} {m : Index} {query : Pt D}
    (h : Filled A m.cols m.rows points.length m.cells) (hn : points.length < 2 ^ 32) (c : Int × Int) (e : Nat × D) :
    entry o points m query c = some e ↔
      (0 ≤ c.1 ∧ c.1 < m.cols ∧ 0 ≤ c.2 ∧ c.2 < m.rows) ∧ LastAt A points.length c e.1 ∧
        ∃ p, points[e.1]? = some p ∧ e.2 = Pt.sqDist o p query := by
  unfold entry
  by_cases hout : c.1 < 0 ∨ c.1 ≥ m.cols ∨ c.2 < 0 ∨ c.2 ≥ m.rows
  · rw [if_pos hout]
    constructor
    · intro h; cases h
    · rintro ⟨h1, -⟩; omega
  · rw [if_neg hout]
    obtain ⟨a, b⟩ := c
    simp only at hout ⊢
    obtain ⟨ua, rfl⟩ : ∃ k : Nat, a = k := ⟨a.toNat, by omega⟩
    obtain ⟨vb, rfl⟩ : ∃ k : Nat, b = k := ⟨b.toNat, by omega⟩
    simp only [Int.toNat_natCast]
    have hu : ua < m.cols := by omega
    have hv : vb < m.rows := by omega
    rcases h.cell ua vb hu hv with ⟨j, hj, hc⟩ | ⟨hj, hc⟩
    · have hj32 : toU32 j = j := Nat.mod_eq_of_lt (by have := hj.1; omega)
      have hne : j ≠ invalidIndex := by have := hj.1; unfold invalidIndex; omega
      rw [hc, hj32]
      simp only [hne, if_false]
      have hjl : j < points.length := hj.1
      have hp : points[j]? = some points[j] := List.getElem?_eq_getElem hjl
      constructor
      · intro he
        rw [hp, Option.map_some] at he
        cases he
        exact ⟨by omega, hj, points[j], hp, rfl⟩
      · rintro ⟨-, hl, p, h1, h2⟩
        have : e.1 = j := by
          rcases Nat.lt_trichotomy e.1 j with hlt | heq | hlt
          · exact absurd hj.2.1 (hl.2.2 j hlt hj.1)
          · exact heq
          · exact absurd hl.2.1 (hj.2.2 e.1 hlt hl.1)
        rw [← this, h1, Option.map_some, ← h2]
    · rw [hc]
      simp only [if_true]
      constructor
      · intro h; cases h
      · rintro ⟨-, hl, -⟩
        exact absurd hl.2.1 (hj _ hl.1)

theorem mem_imageCells {cfg : Config D} {m : Index} {u v : Int} {c : Int × Int} :
    c ∈ imageCells cfg m u v (window m.windowV) ↔
      ∃ du dv, -m.windowH ≤ du ∧ du ≤ m.windowH ∧ -m.windowV ≤ dv ∧ dv ≤ m.windowV ∧
        c = (cfg.borderH (u + du) m.cols, cfg.borderV (v + dv) m.rows) := by
  unfold imageCells rowCells
  rw [List.mem_flatMap]
  constructor
  · rintro ⟨dv, hdv, hc⟩
    obtain ⟨du, hdu, rfl⟩ := List.mem_map.1 hc
    rw [mem_window] at hdu hdv
    exact ⟨du, dv, hdu.1, hdu.2, hdv.1, hdv.2, rfl⟩
  · rintro ⟨du, dv, h1, h2, h3, h4, rfl⟩
    exact ⟨dv, mem_window.2 ⟨h3, h4⟩, List.mem_map.2 ⟨du, mem_window.2 ⟨h1, h2⟩, rfl⟩⟩

theorem imageCells_nodup {cfg : Config D} {m : Index} {u v : Int} (hh : Separates cfg.borderH m.cols m.windowH u)
    (hv : Separates cfg.borderV m.rows m.windowV v) : (imageCells cfg m u v (window m.windowV)).Nodup := by
  unfold imageCells rowCells
  rw [List.nodup_flatMap]
  constructor
  · intro dv _
    refine List.Nodup.map_on ?_ (window_nodup _)
    intro a ha b hb hab
    rw [mem_window] at ha hb
    exact hh a b ha.1 ha.2 hb.1 hb.2 (congrArg Prod.fst hab)
  · refine List.Pairwise.imp_of_mem ?_ (window_nodup m.windowV)
    intro a b ha hb hab
    rw [mem_window] at ha hb
    intro c hc1 hc2
    obtain ⟨d1, -, rfl⟩ := List.mem_map.1 hc1
    obtain ⟨d2, -, h⟩ := List.mem_map.1 hc2
    exact hab (hv a b ha.1 ha.2 hb.1 hb.2 (congrArg Prod.snd h).symm)

theorem filterMap_fst_nodup {α : Type} (f : α → Option (Nat × D)) : ∀ (l : List α), l.Nodup →
    (∀ a ∈ l, ∀ b ∈ l, ∀ x y, f a = some x → f b = some y → x.1 = y.1 → a = b) → ((l.filterMap f).map Prod.fst).Nodup
  | [], _, _ => by simp
  | a :: l, h, hf => by
    rw [List.nodup_cons] at h
    have ih := filterMap_fst_nodup f l h.2 (fun b hb c hc => hf b (by simp [hb]) c (by simp [hc]))
    rw [List.filterMap_cons]
    rcases hfa : f a with _ | x
    · exact ih
    · simp only [List.map_cons, List.nodup_cons]
      refine ⟨fun hx => ?_, ih⟩
      obtain ⟨y, hy, hxy⟩ := List.mem_map.1 hx
      obtain ⟨b, hb, hfb⟩ := List.mem_filterMap.1 hy
      have := hf a (by simp) b (by simp [hb]) x y hfa hfb hxy.symm
      rw [this] at h
      exact h.1 hb

end Verif.Proofs.Proj
