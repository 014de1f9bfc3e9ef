import Verif.Proofs.Projective
import Verif.Proofs.VoxelSearch
import Mathlib.Tactic.FieldSimp
import Mathlib.Tactic.Positivity
import Mathlib.Data.Rat.Floor

/-!
C53 (the projective search returns genuine, distinct neighbours) and C54 (border policies).
-/

set_option linter.unusedSectionVars false
set_option linter.unusedSimpArgs false

namespace Verif.Props

open Verif Verif.Knn Verif.Projective Verif.Proofs Verif.Proofs.Proj Verif.Spec

/-! ### C54 -/

/-- C54: `BorderRepeat` yields the congruent column of the image for exactly the coordinates within one width of the image. -/
theorem C54_repeat (x width : Int) :
    IsWrapOf x width (borderRepeat x width) ↔ 0 < width ∧ -width ≤ x ∧ x < 2 * width := by
  unfold borderRepeat
  constructor
  · rintro ⟨h1, h2, -⟩
    split_ifs at h1 h2 <;> omega
  · rintro ⟨h1, h2, h3⟩
    split_ifs with h4 h5
    · exact ⟨by omega, by omega, 1, by omega⟩
    · exact ⟨by omega, by omega, -1, by omega⟩
    · exact ⟨by omega, by omega, 0, by omega⟩

/-- The column is the only one: the wrap of a coordinate is its remainder. -/
theorem C54_unique (x width y : Int) : IsWrapOf x width y ↔ 0 < width ∧ y = x % width := by
  constructor
  · rintro ⟨h1, h2, t, rfl⟩
    refine ⟨by omega, ?_⟩
    rw [← Int.emod_eq_of_lt h1 h2, Int.add_mul_emod_self_right]
  · rintro ⟨h, rfl⟩
    refine ⟨Int.emod_nonneg _ (by omega), Int.emod_lt_of_pos _ h, -(x / width), ?_⟩
    have := Int.emod_add_mul_ediv x width
    have h2 : -(x / width) * width = -(width * (x / width)) := by rw [Int.neg_mul, Int.mul_comm]
    omega

/-- C54: `BorderClamp` leaves every coordinate unchanged. -/
theorem C54_clamp (x width : Int) : borderClamp x width = x := rfl

section
variable {D : Type} [LinearOrder D]

/-- C54: in a row of the image, columns outside of the image are skipped, whatever the border policy makes of them. -/
theorem C54_skip_columns (o : Ops D) (cfg : Config D) (points : List (Pt D)) (m : Index) (query : Pt D) (epsilon : D) (u v : Int)
    (dus : List Int) (r : KnnResult D) (h : ∀ du ∈ dus, -2 ^ 31 ≤ u + du ∧ u + du < 2 ^ 31) :
    rowLoop o cfg points m query epsilon u v dus r =
      rowLoop o cfg points m query epsilon u v
        (dus.filter fun du => decide (0 ≤ cfg.borderH (u + du) m.cols ∧ cfg.borderH (u + du) m.cols < m.cols)) r := by
  induction dus generalizing r with
  | nil => rfl
  | cons du dus ih =>
    have hr : InRange (u + du) := h du (by simp)
    have ih' := fun r => ih r (fun d hd => h d (by simp [hd]))
    by_cases hin : 0 ≤ cfg.borderH (u + du) m.cols ∧ cfg.borderH (u + du) m.cols < m.cols
    · rw [List.filter_cons_of_pos (by simpa using hin), rowLoop, rowLoop]
      simp only [ih']
    · rw [List.filter_cons_of_neg (by simpa using hin), rowLoop, toInt32_ok hr, ok_bind]
      have hout : cfg.borderH (u + du) m.cols < 0 ∨ cfg.borderH (u + du) m.cols ≥ m.cols := by omega
      simp only [hout, if_true]
      exact ih' r

/-- C54: rows outside of the image are skipped. -/
theorem C54_skip_rows (o : Ops D) (cfg : Config D) (points : List (Pt D)) (m : Index) (query : Pt D) (epsilon : D) (u v : Int)
    (dvs : List Int) (r : KnnResult D) (h : ∀ dv ∈ dvs, -2 ^ 31 ≤ v + dv ∧ v + dv < 2 ^ 31) :
    imageLoop o cfg points m query epsilon u v dvs r =
      imageLoop o cfg points m query epsilon u v
        (dvs.filter fun dv => decide (0 ≤ cfg.borderV (v + dv) m.rows ∧ cfg.borderV (v + dv) m.rows < m.rows)) r := by
  induction dvs generalizing r with
  | nil => rfl
  | cons dv dvs ih =>
    have hr : InRange (v + dv) := h dv (by simp)
    have ih' := fun r => ih r (fun d hd => h d (by simp [hd]))
    by_cases hin : 0 ≤ cfg.borderV (v + dv) m.rows ∧ cfg.borderV (v + dv) m.rows < m.rows
    · rw [List.filter_cons_of_pos (by simpa using hin), imageLoop, imageLoop]
      simp only [ih']
    · rw [List.filter_cons_of_neg (by simpa using hin), imageLoop, toInt32_ok hr, ok_bind]
      have hout : cfg.borderV (v + dv) m.rows < 0 ∨ cfg.borderV (v + dv) m.rows ≥ m.rows := by omega
      simp only [hout, if_true]
      exact ih' r

/-! ### C53 -/

/-- Arguments with which a search may be called: `cap` places, given by the template argument or by the number of neighbours, and arrays
that are long enough. -/
structure Asked (N nn : Int) (cap : Nat) (indices : List Nat) (dists : List D) : Prop where
  size : cap = if 0 < N then N.toNat else nn.toNat
  pos : 0 < cap
  dynamic : 0 < N → nn < 0
  room : cap ≤ indices.length
  roomD : cap ≤ dists.length

theorem pixel_of_search {o : Ops D} {maxD : D} {cfg : Config D} {points : List (Pt D)} {m : Index} {N nn : Int} {indices : List Nat}
    {dists : List D} {query : Pt D} {epsilon : D} {r : KnnResult D}
    (h : knnSearch o maxD cfg points m N nn indices dists query epsilon = .ok r) : ∃ q, pixel cfg m.cols m.rows query = .ok q := by
  unfold knnSearch at h
  rcases h1 : construct maxD N indices dists nn with e | r0
  · rw [h1] at h; cases h
  · rw [h1, ok_bind] at h
    rcases h2 : pixel cfg m.cols m.rows query with e | q
    · rw [h2] at h; cases h
    · exact ⟨q, rfl⟩

theorem mem_of_kBest {maxD : D} {k : Nat} {cs : List (Nat × D)} {e : Nat × D} (h : e ∈ kBest maxD k cs) : e ∈ cs := by
  obtain ⟨rest, h1, -⟩ := kBest_split maxD k cs
  exact (List.mem_filter.1 (h1.mem_iff.1 (List.mem_append_left _ h))).1

/-- C53: whatever the projection, the border policies, the window, the size of the image and the arithmetic, a search that returns yields
points of the cloud with their distances to the query, in ascending order, and not more than asked for. -/
theorem C53_genuine (o : Ops D) (maxD : D) (cfg : Config D) (cols rows : Nat) (points : List (Pt D)) (m : Index)
    (hm : build cfg cols rows points = .ok m) (wh wv : Int) (N nn : Int) (cap : Nat) (indices : List Nat) (dists : List D)
    (ha : Asked N nn cap indices dists) (query : Pt D) (epsilon : D) (r : KnnResult D)
    (hr : knnSearch o maxD cfg points { m with windowH := wh, windowV := wv } N nn indices dists query epsilon = .ok r) :
    (∀ e ∈ r.found, ∃ p, points[e.1]? = some p ∧ e.2 = Pt.sqDist o p query) ∧
    r.found.Pairwise (fun a b => a.2 ≤ b.2) ∧ r.found.length ≤ cap := by
  obtain ⟨h1, h2, h3⟩ := build_filled hm
  subst h1; subst h2
  obtain ⟨q, hq⟩ := pixel_of_search hr
  have hs : Sound points { m with windowH := wh, windowV := wv } := filled_sound (m := { m with windowH := wh, windowV := wv }) h3
  rcases search_spec o maxD cfg points _ N nn cap indices dists query epsilon hs ha.size ha.pos ha.dynamic ha.room ha.roomD q hq with
    ⟨h4, -⟩ | ⟨r', pre, suf, h4, h5, h6, -⟩
  · rw [h4] at hr; cases hr
  · rw [h4] at hr; cases hr
    rw [h6]
    refine ⟨fun e he => ?_, kBest_sorted _ _ _, ?_⟩
    · have h7 : e ∈ pre ++ suf := List.mem_append_left _ (mem_of_kBest he)
      rw [← h5] at h7
      obtain ⟨c, -, hc⟩ := List.mem_filterMap.1 h7
      exact entry_genuine hc
    · rw [kBest_length]; exact Nat.min_le_left _ _

/-- C53, memory safety: with a query that is projected to a pixel `q` whose window stays within the range of `int`, the search returns. -/
theorem C53_safe (o : Ops D) (maxD : D) (cfg : Config D) (cols rows : Nat) (points : List (Pt D)) (m : Index)
    (hm : build cfg cols rows points = .ok m) (wh wv : Int) (N nn : Int) (cap : Nat) (indices : List Nat) (dists : List D)
    (ha : Asked N nn cap indices dists) (query : Pt D) (epsilon : D) (q : Int × Int) (hq : pixel cfg cols rows query = .ok q)
    (hu : ∀ du, -wh ≤ du → du ≤ wh → -2 ^ 31 ≤ q.1 + du ∧ q.1 + du < 2 ^ 31)
    (hv : ∀ dv, -wv ≤ dv → dv ≤ wv → -2 ^ 31 ≤ q.2 + dv ∧ q.2 + dv < 2 ^ 31) :
    ∃ r, knnSearch o maxD cfg points { m with windowH := wh, windowV := wv } N nn indices dists query epsilon = .ok r := by
  obtain ⟨h1, h2, h3⟩ := build_filled hm
  subst h1; subst h2
  have hs : Sound points { m with windowH := wh, windowV := wv } := filled_sound (m := { m with windowH := wh, windowV := wv }) h3
  rcases search_spec o maxD cfg points _ N nn cap indices dists query epsilon hs ha.size ha.pos ha.dynamic ha.room ha.roomD q hq with
    ⟨-, ⟨d, hd, h5⟩ | ⟨d, hd, h5⟩⟩ | ⟨r', pre, suf, h4, -⟩
  · rw [mem_window] at hd; exact absurd (hv d hd.1 hd.2) h5
  · rw [mem_window] at hd; exact absurd (hu d hd.1 hd.2) h5
  · exact ⟨r', h4⟩

/-- The points that a search around pixel `q` is to consider: the last point of each pixel of the window. -/
def Visible (o : Ops D) (maxD : D) (cfg : Config D) (cols rows : Nat) (points : List (Pt D)) (wh wv : Int) (q : Int × Int) (query : Pt D)
    (i : Nat) (d : D) : Prop :=
  (∃ c, InWindow cfg.borderH cfg.borderV cols rows wh wv q c ∧
    LastAt (fun j c => ∃ p, points[j]? = some p ∧ pixel cfg cols rows p = .ok c) points.length c i) ∧
  (∃ p, points[i]? = some p ∧ d = Pt.sqDist o p query) ∧ d < maxD

/-- C53, with the precise meaning of "nearest": if the border policies separate the offsets of the window, no point is returned twice, and the
result is either a full set of points nearer than `epsilon` or the nearest of all points that are visible in the window.
Partial: for images narrower than the window the hypothesis on the policies fails and so does the claim (`C53_narrow_violated`). -/
theorem C53_nearest_partial (o : Ops D) (maxD : D) (cfg : Config D) (cols rows : Nat) (points : List (Pt D)) (m : Index)
    (hm : build cfg cols rows points = .ok m) (hn : points.length < 2 ^ 32) (wh wv : Int) (N nn : Int) (cap : Nat) (indices : List Nat)
    (dists : List D) (ha : Asked N nn cap indices dists) (query : Pt D) (epsilon : D) (q : Int × Int)
    (hq : pixel cfg cols rows query = .ok q) (hh : Separates cfg.borderH cols wh q.1) (hv : Separates cfg.borderV rows wv q.2)
    (r : KnnResult D)
    (hr : knnSearch o maxD cfg points { m with windowH := wh, windowV := wv } N nn indices dists query epsilon = .ok r) :
    (r.found.map Prod.fst).Nodup ∧
    (IsNearest (Visible o maxD cfg cols rows points wh wv q query) cap r.found ∨
      ((∀ e ∈ r.found, Visible o maxD cfg cols rows points wh wv q query e.1 e.2 ∧ e.2 < epsilon) ∧
        (r.found.length = cap ∨ maxD < epsilon))) := by
  obtain ⟨h1, h2, h3⟩ := build_filled hm
  subst h1; subst h2
  have h3' : Filled (At cfg m.cols m.rows points) ({ m with windowH := wh, windowV := wv } : Index).cols
    ({ m with windowH := wh, windowV := wv } : Index).rows points.length ({ m with windowH := wh, windowV := wv } : Index).cells := h3
  have hs : Sound points { m with windowH := wh, windowV := wv } := filled_sound h3'
  rcases search_spec o maxD cfg points _ N nn cap indices dists query epsilon hs ha.size ha.pos ha.dynamic ha.room ha.roomD q hq with
    ⟨h4, -⟩ | ⟨r', pre, suf, h4, h5, h6, h7⟩
  · rw [h4] at hr; cases hr
  · rw [h4] at hr; cases hr
    have hcell : ∀ (c : Int × Int) (e : Nat × D), entry o points { m with windowH := wh, windowV := wv } query c = some e ↔ _ :=
      fun c e => entry_iff (query := query) (o := o) h3' hn c e
    have hnd : (((imageCells cfg { m with windowH := wh, windowV := wv } q.1 q.2 (window wv)).filterMap
        (entry o points { m with windowH := wh, windowV := wv } query)).map Prod.fst).Nodup := by
      refine filterMap_fst_nodup _ _ (imageCells_nodup hh hv) ?_
      intro a _ b _ x y hx hy hxy
      have h8 := ((hcell a x).1 hx).2.1.2.1
      have h9 := ((hcell b y).1 hy).2.1.2.1
      rw [← hxy] at h9
      exact h8.unique h9
    have hmem : ∀ i d, (i, d) ∈ pre ++ suf ↔ (∃ c, InWindow cfg.borderH cfg.borderV m.cols m.rows wh wv q c ∧
        LastAt (fun j c => ∃ p, points[j]? = some p ∧ pixel cfg m.cols m.rows p = .ok c) points.length c i) ∧
        (∃ p, points[i]? = some p ∧ d = Pt.sqDist o p query) := by
      intro i d
      rw [← h5, List.mem_filterMap]
      constructor
      · rintro ⟨c, hc, he⟩
        obtain ⟨g1, g2, g3⟩ := (hcell c (i, d)).1 he
        exact ⟨⟨c, ⟨g1, mem_imageCells.1 hc⟩, g2⟩, g3⟩
      · rintro ⟨⟨c, ⟨g1, g2⟩, g3⟩, g4⟩
        exact ⟨c, mem_imageCells.2 g2, (hcell c (i, d)).2 ⟨g1, g3, g4⟩⟩
    have hnd' : (pre.map Prod.fst).Nodup := by
      have : ((pre ++ suf).map Prod.fst).Nodup := by rw [← h5]; exact hnd
      rw [List.map_append, List.nodup_append] at this
      exact this.1
    rw [h6]
    refine ⟨kBest_nodup _ _ _ hnd', ?_⟩
    rcases h7 with h7 | h7
    · left
      subst h7
      rw [List.append_nil] at hmem
      have := kBest_isNearest maxD cap pre _ hmem
      refine ⟨this.length_le, fun c hc => ?_, this.sorted, fun i d hS => ?_, fun hl i d hS => ?_⟩
      · have := this.genuine c hc; exact ⟨this.1.1, this.1.2, this.2⟩
      · exact this.best i d ⟨⟨hS.1, hS.2.1⟩, hS.2.2⟩
      · exact this.complete hl i d ⟨⟨hS.1, hS.2.1⟩, hS.2.2⟩
    · right
      have hlt : ∀ e ∈ kBest maxD cap pre, e.2 < maxD := by
        intro e he
        obtain ⟨rest, g1, -⟩ := kBest_split maxD cap pre
        simpa using (List.mem_filter.1 (g1.mem_iff.1 (List.mem_append_left _ he))).2
      have hvis : ∀ e ∈ kBest maxD cap pre, Visible o maxD cfg m.cols m.rows points wh wv q query e.1 e.2 := by
        intro e he
        have := (hmem e.1 e.2).1 (List.mem_append_left _ (mem_of_kBest he))
        exact ⟨this.1, this.2, hlt e he⟩
      unfold worstOf at h7
      split_ifs at h7 with hfull
      · exact ⟨fun e he => ⟨hvis e he, lt_of_le_of_lt (le_getLast (kBest_sorted _ _ _) hfull.2 e he) h7⟩, Or.inl hfull.1⟩
      · exact ⟨fun e he => ⟨hvis e he, (hlt e he).trans h7⟩, Or.inr h7⟩

end

/-- The hypothesis of `C53_nearest_partial` for `BorderRepeat`: the image is wider than the window. -/
theorem C53_repeat_separates (cols w x : Int) (h : 2 * w < cols) : Separates borderRepeat cols w x := by
  intro d d' h1 h2 h3 h4 h5
  unfold borderRepeat at h5
  split_ifs at h5 <;> omega

/-- The hypothesis of `C53_nearest_partial` for `BorderClamp` always holds. -/
theorem C53_clamp_separates (rows w x : Int) : Separates borderClamp rows w x := by
  intro d d' _ _ _ _ h5
  unfold borderClamp at h5
  omega

/-! ### concrete images -/

/-- A projection onto the first coordinate, with the shipped border policies. -/
def flatConfig : Config ℚ := ⟨fun p => (p.x, p.z), fun x n => toInt32 ⌊x * n⌋, borderRepeat, borderClamp⟩

def flatPoints : List (Pt ℚ) := [⟨0, 1, 0, 1⟩, ⟨1 / 2, 9, 0, 1⟩]

def flatQuery : Pt ℚ := ⟨1 / 2, 0, 0, 1⟩

def unwrap {α : Type} (d : α) : Res α → α
  | .ok a => a
  | .error _ => d

/-- The index of an image with the given number of columns and one row. -/
def flatIndex (cols : Nat) : Index := unwrap ⟨0, 0, [], 0, 0⟩ (build flatConfig cols 1 flatPoints)

/-- C53, violated part: in an image of 16 columns and with the default window, `BorderRepeat` visits a column twice, and the same point fills
both places of the result, while the other point of the window is left out. -/
theorem C53_narrow_violated :
    build flatConfig 16 1 flatPoints = .ok (flatIndex 16) ∧ (flatIndex 16).windowH = 10 ∧ (flatIndex 16).windowV = 5 ∧
    ∃ r, knnSearch (exactOps ℚ) 1000 flatConfig flatPoints (flatIndex 16) (-1) 2 [0, 0] [0, 0] flatQuery 0 = .ok r ∧
      r.found = [(0, 5 / 4), (0, 5 / 4)] ∧ ¬ (r.found.map Prod.fst).Nodup ∧
      Visible (exactOps ℚ) 1000 flatConfig 16 1 flatPoints 10 5 (8, 0) flatQuery 1 81 := by
  refine ⟨by decide +kernel, by decide +kernel, by decide +kernel,
    ⟨-1, 2, 2, [0, 0], [5 / 4, 5 / 4]⟩, by decide +kernel, by decide +kernel, by decide +kernel,
    ⟨(8, 0), ⟨by decide, 0, 0, by decide, by decide, by decide, by decide, by decide⟩, by decide, ⟨flatPoints[1], rfl, by decide +kernel⟩, ?_⟩,
    ⟨flatPoints[1], rfl, by decide +kernel⟩, by decide +kernel⟩
  intro j' h1 h2
  have h2' : j' < 2 := h2
  omega

/-- In an image of 21 columns the hypotheses of the theorems hold, and both points are found. -/
example : ∃ m r, build flatConfig 21 1 flatPoints = .ok m ∧ Asked (-1) 2 2 [0, 0] ([0, 0] : List ℚ) ∧
    pixel flatConfig 21 1 flatQuery = .ok (10, 0) ∧ Separates flatConfig.borderH (21 : Nat) 10 10 ∧ Separates flatConfig.borderV (1 : Nat) 5 0 ∧
    knnSearch (exactOps ℚ) 1000 flatConfig flatPoints { m with windowH := 10, windowV := 5 } (-1) 2 [0, 0] [0, 0] flatQuery 0 = .ok r ∧
    r.found = [(0, 5 / 4), (1, 81)] := by
  refine ⟨flatIndex 21, ⟨-1, 2, 2, [0, 1], [5 / 4, 81]⟩, by decide +kernel, ⟨by decide, by decide, by decide, by decide, by decide⟩,
    by decide +kernel, C53_repeat_separates _ _ _ (by decide), C53_clamp_separates _ _ _, by decide +kernel, by decide +kernel⟩

/-- A search that stops early: one point nearer than the bound is enough. -/
example : ∃ r, knnSearch (exactOps ℚ) 1000 flatConfig flatPoints (flatIndex 16) 1 (-1) [0] [0] flatQuery 2 = .ok r ∧ r.found = [(0, 5 / 4)] :=
  ⟨⟨1, -1, 1, [0], [5 / 4]⟩, by decide +kernel, by decide +kernel⟩

/-! ### the shipped projection -/

theorem equirectangular_range (p : Pt ℝ) :
    0 ≤ (equirectangular p).1 ∧ (equirectangular p).1 ≤ 1 ∧ 0 ≤ (equirectangular p).2 ∧ (equirectangular p).2 ≤ 1 := by
  unfold equirectangular
  simp only
  split_ifs with h
  · norm_num
  · generalize Complex.mk _ _ = z
    generalize p.y / _ = s
    have hpi := Real.pi_pos
    have h1 := Complex.neg_pi_lt_arg z
    have h2 := Complex.arg_le_pi z
    have h3 := Real.neg_pi_div_two_le_arcsin s
    have h4 := Real.arcsin_le_pi_div_two s
    have e1 : z.arg / (2 * Real.pi) + 1 / 2 = (z.arg + Real.pi) / (2 * Real.pi) := by field_simp
    have e2 : -Real.arcsin s / Real.pi + 1 / 2 = (Real.pi / 2 - Real.arcsin s) / Real.pi := by field_simp; ring
    refine ⟨?_, ?_, ?_, ?_⟩
    · rw [e1]; exact div_nonneg (by linarith) (by linarith)
    · rw [e1, div_le_one (by linarith)]; linarith
    · rw [e2]; exact div_nonneg (by linarith) (by linarith)
    · rw [e2, div_le_one (by linarith)]; linarith

/-- The shipped projection is the equirectangular one: a point less than about 3 cm from the origin lies in the middle of the image, and any other is found again from its pixel (longitude and latitude) and its distance. -/
theorem C53_projection (p : Pt ℝ) :
    (p.x ^ 2 + p.y ^ 2 + p.z ^ 2 < 1 / 1000 → equirectangular p = (1 / 2, 1 / 2)) ∧
    (1 / 1000 ≤ p.x ^ 2 + p.y ^ 2 + p.z ^ 2 → ∃ lon lat : ℝ, equirectangular p = (lon / (2 * Real.pi) + 1 / 2, lat / Real.pi + 1 / 2) ∧ -Real.pi < lon ∧ lon ≤ Real.pi ∧ -(Real.pi / 2) ≤ lat ∧ lat ≤ Real.pi / 2 ∧
      p.x = Real.sqrt (p.x ^ 2 + p.y ^ 2 + p.z ^ 2) * (Real.cos lat * Real.sin lon) ∧ p.y = Real.sqrt (p.x ^ 2 + p.y ^ 2 + p.z ^ 2) * -Real.sin lat ∧
      p.z = Real.sqrt (p.x ^ 2 + p.y ^ 2 + p.z ^ 2) * (Real.cos lat * Real.cos lon)) := by
  constructor
  · intro h
    simp only [equirectangular, if_pos h]
  · intro h
    have hn : 0 < Real.sqrt (p.x ^ 2 + p.y ^ 2 + p.z ^ 2) := Real.sqrt_pos.2 (by linarith)
    have hsq := Real.sq_sqrt (show 0 ≤ p.x ^ 2 + p.y ^ 2 + p.z ^ 2 by linarith)
    refine ⟨Complex.arg ⟨p.z / Real.sqrt (p.x ^ 2 + p.y ^ 2 + p.z ^ 2), p.x / Real.sqrt (p.x ^ 2 + p.y ^ 2 + p.z ^ 2)⟩, -Real.arcsin (p.y / Real.sqrt (p.x ^ 2 + p.y ^ 2 + p.z ^ 2)), ?_⟩
    have he : equirectangular p = (Complex.arg ⟨p.z / Real.sqrt (p.x ^ 2 + p.y ^ 2 + p.z ^ 2), p.x / Real.sqrt (p.x ^ 2 + p.y ^ 2 + p.z ^ 2)⟩ / (2 * Real.pi) + 1 / 2,
        -Real.arcsin (p.y / Real.sqrt (p.x ^ 2 + p.y ^ 2 + p.z ^ 2)) / Real.pi + 1 / 2) := by
      simp only [equirectangular, if_neg (not_lt.2 h)]
    set n := Real.sqrt (p.x ^ 2 + p.y ^ 2 + p.z ^ 2) with hnd
    set c : ℂ := ⟨p.z / n, p.x / n⟩ with hc
    have hs1 : (p.y / n) ^ 2 ≤ 1 := by
      rw [div_pow, div_le_one (by positivity), hsq]
      nlinarith [sq_nonneg p.x, sq_nonneg p.z]
    have hs2 : |p.y / n| ≤ 1 := (sq_le_one_iff_abs_le_one _).1 hs1
    have hcos : Real.cos (-Real.arcsin (p.y / n)) = ‖c‖ := by
      rw [Real.cos_neg, Real.cos_arcsin, Complex.norm_def, Complex.normSq_mk]
      congr 1
      field_simp
      rw [hsq]
      ring
    have hcr := Complex.norm_mul_cos_arg c
    have hci := Complex.norm_mul_sin_arg c
    refine ⟨he, Complex.neg_pi_lt_arg _, Complex.arg_le_pi _, by linarith [Real.arcsin_le_pi_div_two (p.y / n)], by linarith [Real.neg_pi_div_two_le_arcsin (p.y / n)], ?_, ?_, ?_⟩
    · rw [hcos, hci]
      simp only [hc]
      field_simp
    · rw [Real.sin_neg, neg_neg, Real.sin_arcsin (abs_le.1 hs2).1 (abs_le.1 hs2).2]
      field_simp
    · rw [hcos, hcr]
      simp only [hc]
      field_simp

/-- A point straight to the right lies three quarters across the image. -/
example : ∃ lon lat : ℝ, equirectangular ⟨2, 0, 0, 1⟩ = (lon / (2 * Real.pi) + 1 / 2, lat / Real.pi + 1 / 2) ∧ 2 = Real.sqrt (2 ^ 2 + 0 ^ 2 + 0 ^ 2) * (Real.cos lat * Real.sin lon) := by
  obtain ⟨lon, lat, h, _, _, _, _, h2, _⟩ := (C53_projection ⟨2, 0, 0, 1⟩).2 (by norm_num)
  exact ⟨lon, lat, h, h2⟩

theorem castReal_unit {x : ℝ} {n : Nat} (h0 : 0 ≤ x) (h1 : x ≤ 1) (hn : n < 2 ^ 31) : ∃ u : Int, castReal x n = .ok u ∧ 0 ≤ u ∧ u ≤ n := by
  have hx : 0 ≤ x * n := mul_nonneg h0 (Nat.cast_nonneg n)
  have hx1 : x * n ≤ n := by
    have : x * n ≤ 1 * n := mul_le_mul_of_nonneg_right h1 (Nat.cast_nonneg n)
    linarith
  have hf0 : 0 ≤ ⌊x * n⌋ := Int.floor_nonneg.2 hx
  have hf1 : ⌊x * n⌋ ≤ (n : Int) := by
    have := Int.floor_le_floor hx1
    rwa [Int.floor_natCast] at this
  refine ⟨⌊x * n⌋, ?_, hf0, hf1⟩
  unfold castReal
  rw [if_pos hx]
  exact toInt32_ok ⟨by omega, by omega⟩

theorem default_pixel (cols rows : Nat) (hc : cols < 2 ^ 31) (hr : rows < 2 ^ 31) (p : Pt ℝ) :
    ∃ q, pixel defaultConfig cols rows p = .ok q ∧ 0 ≤ q.1 ∧ q.1 ≤ cols ∧ 0 ≤ q.2 ∧ q.2 ≤ rows := by
  obtain ⟨h1, h2, h3, h4⟩ := equirectangular_range p
  obtain ⟨u, hu, hu0, hu1⟩ := castReal_unit h1 h2 hc
  obtain ⟨v, hv, hv0, hv1⟩ := castReal_unit h3 h4 hr
  refine ⟨(u, v), ?_, hu0, hu1, hv0, hv1⟩
  unfold pixel
  show (castReal (equirectangular p).1 cols >>= fun u => castReal (equirectangular p).2 rows >>= fun v => Except.ok (u, v)) = _
  rw [hu, ok_bind, hv, ok_bind]

/-- C53 for the shipped configuration in exact arithmetic: every cloud can be indexed, every query is answered without fault, and in an image
of more than 20 columns the answer consists of distinct points, the nearest of those visible in the window or a full set below `epsilon`. -/
theorem C53_default (o : Ops ℝ) (maxD : ℝ) (cols rows : Nat) (hc : cols < 2 ^ 31 - 10) (hr : rows < 2 ^ 31 - 5) (points : List (Pt ℝ))
    (hn : points.length < 2 ^ 32) :
    ∃ m, build defaultConfig cols rows points = .ok m ∧
      ∀ (N nn : Int) (cap : Nat) (indices : List Nat) (dists : List ℝ), Asked N nn cap indices dists → ∀ (query : Pt ℝ) (epsilon : ℝ),
        epsilon ≤ maxD →
        ∃ q r, pixel defaultConfig cols rows query = .ok q ∧
          knnSearch o maxD defaultConfig points m N nn indices dists query epsilon = .ok r ∧
          (20 < cols → (r.found.map Prod.fst).Nodup ∧
            (IsNearest (Visible o maxD defaultConfig cols rows points 10 5 q query) cap r.found ∨
              (r.found.length = cap ∧
                ∀ e ∈ r.found, Visible o maxD defaultConfig cols rows points 10 5 q query e.1 e.2 ∧ e.2 < epsilon))) := by
  obtain ⟨cells, hcells⟩ := insertFrom_ok (cfg := defaultConfig) (cols := cols) (rows := rows) points 0
    (List.replicate (rows * cols) invalidIndex) (by simp)
    (fun p _ => by obtain ⟨q, hq, -⟩ := default_pixel cols rows (by omega) (by omega) p; exact ⟨q, hq⟩)
  have hm : build defaultConfig cols rows points = .ok ⟨cols, rows, cells, 10, 5⟩ := by
    unfold build; rw [hcells, ok_bind]
  refine ⟨_, hm, fun N nn cap indices dists ha query epsilon heps => ?_⟩
  obtain ⟨q, hq, hq1, hq2, hq3, hq4⟩ := default_pixel cols rows (by omega) (by omega) query
  obtain ⟨r, hr'⟩ := C53_safe o maxD defaultConfig cols rows points _ hm 10 5 N nn cap indices dists ha query epsilon q hq
    (fun du _ _ => ⟨by omega, by omega⟩) (fun dv _ _ => ⟨by omega, by omega⟩)
  refine ⟨q, r, hq, hr', fun hcols => ?_⟩
  obtain ⟨h1, h2⟩ := C53_nearest_partial o maxD defaultConfig cols rows points _ hm hn 10 5 N nn cap indices dists ha query epsilon q hq
    (C53_repeat_separates _ _ _ (by omega)) (C53_clamp_separates _ _ _) r hr'
  refine ⟨h1, h2.imp_right fun h3 => ⟨?_, h3.1⟩⟩
  rcases h3.2 with h4 | h4
  · exact h4
  · exact absurd h4 (not_lt.2 heps)

/-- C53: the entries of the index map are words of 32 bits: the number of a point or the largest word. -/
theorem C53_words {D : Type} [LinearOrder D] (cfg : Config D) (cols rows : Nat) (points : List (Pt D)) (m : Index) (h : build cfg cols rows points = .ok m) :
    ∀ i ∈ m.cells, i < 2 ^ 32 ∧ (i = 2 ^ 32 - 1 ∨ i < points.length) := by
  have key : ∀ (ps : List (Pt D)) (n : Nat) (cells cells' : List Nat), (∀ i ∈ cells, i < 2 ^ 32 ∧ (i = 2 ^ 32 - 1 ∨ i < n)) → insertFrom cfg cols rows n ps cells = .ok cells' →
      ∀ i ∈ cells', i < 2 ^ 32 ∧ (i = 2 ^ 32 - 1 ∨ i < n + ps.length) := by
    intro ps
    induction ps with
    | nil => rintro n cells cells' h1 h2; rw [insertFrom] at h2; cases h2; simpa using h1
    | cons p ps ih =>
      intro n cells cells' h1 h2
      rw [insertFrom] at h2
      rcases h3 : insertPoint cfg cols rows cells p n with e | c
      · rw [h3] at h2; cases h2
      · rw [h3, ok_bind] at h2
        have h4 : ∀ i ∈ c, i < 2 ^ 32 ∧ (i = 2 ^ 32 - 1 ∨ i < n + 1) := by
          unfold insertPoint at h3
          rcases h5 : pixel cfg cols rows p with e | ⟨u, v⟩
          · rw [h5] at h3; cases h3
          · rw [h5, ok_bind] at h3
            simp only at h3
            split at h3
            · cases h3; intro i hi; obtain ⟨h6, h7⟩ := h1 i hi; omega
            · unfold wr at h3
              split at h3
              · cases h3
                intro i hi
                rcases List.mem_or_eq_of_mem_set hi with h6 | h6
                · obtain ⟨h7, h8⟩ := h1 i h6; omega
                · subst h6; unfold toU32
                  have := Nat.mod_le n (2 ^ 32)
                  have := Nat.mod_lt n (show 0 < 2 ^ 32 by norm_num)
                  omega
              · cases h3
        intro i hi
        obtain ⟨h5, h6⟩ := ih (n + 1) c cells' h4 h2 i hi
        refine ⟨h5, h6.imp_right fun h7 => ?_⟩
        simp only [List.length_cons]; omega
  unfold build at h
  rcases h1 : insertFrom cfg cols rows 0 points (List.replicate (rows * cols) invalidIndex) with e | c
  · rw [h1] at h; cases h
  · rw [h1, ok_bind] at h
    cases h
    have := key points 0 _ c (fun i hi => by rw [List.eq_of_mem_replicate hi]; unfold invalidIndex; omega) h1
    simpa using this

/-- C53 fails for 2^32 points: the number of the last point is the mark of an empty pixel. A cloud of 2^32 copies of one point gets the index map of
the empty cloud, so that no search finds anything. -/
theorem C53_many_violated {D : Type} [LinearOrder D] (cfg : Config D) (cols rows : Nat) (p : Pt D) (u v : Nat) (hp : pixel cfg cols rows p = .ok ((u : Int), (v : Int))) (hu : u < cols) (hv : v < rows) :
    build cfg cols rows (List.replicate (2 ^ 32) p) = build cfg cols rows [] := by
  have hlt : v * cols + u < rows * cols := by
    have : (v + 1) * cols ≤ rows * cols := Nat.mul_le_mul_right _ hv
    rw [Nat.add_mul] at this; omega
  have one : ∀ (n : Nat) (cells : List Nat), cells.length = rows * cols → insertPoint cfg cols rows cells p n = .ok (cells.set (v * cols + u) (toU32 n)) := by
    intro n cells hl
    unfold insertPoint
    rw [hp, ok_bind]
    simp only
    rw [if_neg (by omega)]
    simp only [Int.toNat_natCast]
    exact wr_of_lt _ (by omega)
  have key : ∀ (n i : Nat) (cells : List Nat), cells.length = rows * cols → insertFrom cfg cols rows i (List.replicate (n + 1) p) cells = .ok (cells.set (v * cols + u) (toU32 (i + n))) := by
    intro n
    induction n with
    | zero => intro i cells hl; rw [List.replicate_succ, List.replicate_zero, insertFrom, one i cells hl, ok_bind]; rfl
    | succ n ih =>
      intro i cells hl
      rw [List.replicate_succ, insertFrom, one i cells hl, ok_bind, ih (i + 1) _ (by simpa using hl), List.set_set]
      congr 3; omega
  have hN : (2 : Nat) ^ 32 = (2 ^ 32 - 1) + 1 := by norm_num
  unfold build
  rw [hN, key _ _ _ (by simp), ok_bind, insertFrom, ok_bind]
  congr 2
  have h1 : toU32 (0 + (2 ^ 32 - 1)) = invalidIndex := by unfold toU32 invalidIndex; norm_num
  rw [h1]
  apply List.ext_getElem (by simp)
  intro j h2 h3
  rw [List.getElem_set]
  split <;> simp

/-- A point in column 1 and row 2 of an image of 4 by 3 pixels. -/
example : build (D := ℚ) ⟨fun _ => (1, 2), fun x _ => .ok x.floor, borderRepeat, borderClamp⟩ 4 3 (List.replicate (2 ^ 32) ⟨0, 0, 0, 1⟩) =
    .ok ⟨4, 3, List.replicate 12 (2 ^ 32 - 1), 10, 5⟩ :=
  C53_many_violated _ 4 3 _ 1 2 rfl (by norm_num) (by norm_num)

/-- The image of the usual lidar resolution meets the hypotheses. -/
example : (1024 : Nat) < 2 ^ 31 - 10 ∧ (64 : Nat) < 2 ^ 31 - 5 ∧ 20 < 1024 := by decide

end Verif.Props
