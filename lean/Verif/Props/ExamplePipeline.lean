import Verif.Model.ExamplePipeline
import Verif.Props.Example
import Verif.Props.PipelineVoxel
import Verif.Props.Steps
import Verif.Props.Descent

/-!
C76: the template example, from the points to the result.
-/

set_option linter.unusedSectionVars false
set_option linter.unusedSimpArgs false
set_option linter.unnecessarySeqFocus false

namespace Verif.Props

open Matrix Verif Verif.Knn Verif.KdTree Verif.Proofs Verif.Proofs.RegMem Verif.Factors Verif.Reduction Verif.Optimizer Verif.PointCloud Verif.RegMem Verif.Spec Verif.Lie
open Verif.Pipeline Verif.Features Verif.Downsample Verif.Helper Verif.Example Verif.Proofs.Example

/-! ### traits -/

section Traits

variable {K : Type} [Field K] [LinearOrder K]

/-- C76. Through its traits the user-defined cloud behaves as a `PointCloud`: reading, writing (of points with last coordinate 1 and normals with last coordinate 0) and
resizing to at most the present size, including the accesses outside the cloud. -/
theorem C76_traits (c : MyCloud K) (i : Nat) :
    Example.getPoint c i = (view c).point i ∧ Example.getNormal c i = (view c).normal i ∧
    (∀ p, p 3 = 1 → (Example.setPoint c i p).map view = (view c).setPoint i p) ∧ (∀ n, n 3 = 0 → (Example.setNormal c i n).map view = (view c).setNormal i n) ∧
    (view c).size = c.length ∧ ∀ n ≤ c.length, view (Example.resize c n) = (view c).resize n := by
  refine ⟨?_, ?_, ?_, ?_, ?_, ?_⟩
  · unfold Example.getPoint Cloud.point getSlot view rd
    simp only [List.getElem?_map]
    cases c[i]? <;> rfl
  · unfold Example.getNormal Cloud.normal getSlot view rd
    simp only [List.getElem?_map]
    cases c[i]? <;> rfl
  · intro p hp
    unfold Example.setPoint Cloud.setPoint rd wr view
    simp only [List.length_map]
    by_cases hi : i < c.length
    · rw [List.getElem?_eq_getElem hi]
      simp only [hi, if_true]
      show Except.ok _ = Except.ok _
      simp only [Except.ok.injEq, view, Cloud.mk.injEq, List.length_set, and_true]
      constructor
      · rw [List.map_set]
        congr 2
        funext a
        fin_cases a <;> simp [head3, hp]
      · apply List.ext_getElem
        · simp
        · intro j h1 h2
          simp only [List.getElem_map, List.getElem_set]
          split
          · rename_i h; subst h; rfl
          · rfl
    · rw [List.getElem?_eq_none (by omega)]
      simp only [hi, if_false]
      rfl
  · intro n hn
    unfold Example.setNormal Cloud.setNormal rd wr view
    simp only [List.length_map]
    by_cases hi : i < c.length
    · rw [List.getElem?_eq_getElem hi]
      simp only [hi, if_true]
      show Except.ok _ = Except.ok _
      simp only [Except.ok.injEq, view, Cloud.mk.injEq, List.length_set, and_true]
      constructor
      · apply List.ext_getElem
        · simp
        · intro j h1 h2
          simp only [List.getElem_map, List.getElem_set]
          split
          · rename_i h; subst h; rfl
          · rfl
      · rw [List.map_set]
        congr 2
        funext a
        fin_cases a <;> simp [head3, hn]
    · rw [List.getElem?_eq_none (by omega)]
      simp only [hi, if_false]
      rfl
  · simp [view, Cloud.size]
  · intro n hn
    unfold view Cloud.resize resizeSlots Example.resize
    simp [Nat.sub_eq_zero_of_le hn, List.map_take, List.take_replicate, Nat.min_eq_left hn]

/-- C76. The general factor is a `RestrictDoFFactor` with roll and pitch masked. -/
theorem C76_general [IsStrictOrderedRing K] (lambda : K) : myGeneral lambda = (RestrictDoF.general ⟨lambda, ![0, 0, 1, 1, 1, 1]⟩ : General K) := by
  unfold myGeneral RestrictDoF.general
  congr 1
  funext T s
  congr 2
  ext i j
  by_cases h : i = j
  · subst h
    fin_cases i <;> simp
  · simp [Matrix.diagonal_apply_ne _ h]

/-- C76. The rejector never looks at the features of the source: changing them, or the whole source, changes no decision. -/
theorem C76_rejector_source (maxDistSq minCos : K) (target source source' : MyCloud K) :
    myRejector maxDistSq minCos target source = myRejector maxDistSq minCos target source' := rfl

end Traits

/-! ### normals -/

section Normals

variable {top : List (Nat × ℝ) → Nat} (htop : TopSpec top)

include htop in
theorem bruteKnn_ok (c : MyCloud ℝ) (slots : List (Option V4)) (q : V4) :
    ∃ nb, bruteKnn top c slots q 10 = .ok (nb.map Prod.fst) ∧ IsKnn (spaceDist (c.map MyPoint.point) q) c.length 10 nb := by
  obtain ⟨S, h1, h2⟩ := knnSearch_spec top htop c q 10 (List.replicate 10 0) (List.replicate 10 0) (by rw [toU64_nonneg (by omega) (by norm_num)]; simp) (by rw [toU64_nonneg (by omega) (by norm_num)]; simp)
  rw [toU64_nonneg (by omega) (by norm_num)] at h1
  refine ⟨S, ?_, h1⟩
  unfold bruteKnn
  rw [show SortOmp.toInt32 10 = 10 by decide, h2]
  show Except.ok _ = _
  rw [List.take_left' (by simp)]

theorem view_get (c : MyCloud ℝ) (i : Nat) : (view c).points[i]? = c[i]?.map (fun p => some ![p.point 0, p.point 1, p.point 2, 1]) := by simp [view]

theorem view_size (c : MyCloud ℝ) : (view c).size = c.length := by simp [view, Cloud.size]

/-- The indices found for a point lie in a cloud of `n` points, or there are too few of them to be used. -/
def IndicesFit (top : List (Nat × ℝ) → Nat) (searched : MyCloud ℝ) (n : Nat) (p : MyPoint ℝ) : Prop :=
  ∀ idx, bruteKnn top searched [] ![p.point 0, p.point 1, p.point 2, 1] 10 = .ok idx → idx.length < 5 ∨ ∀ j ∈ idx, j < n

include htop in
theorem frame_fits (eig : M3 → M3) (searched c : MyCloud ℝ) {i : Nat} {p : MyPoint ℝ} (hp : c[i]? = some p) (h : IndicesFit top searched c.length p) :
    ∃ f, localFrame eig (bruteKnn top searched) 10 ((view c).resize (view c).size) i = .ok f := by
  obtain ⟨nb, h1, h2⟩ := bruteKnn_ok htop searched [] ![p.point 0, p.point 1, p.point 2, 1]
  have hpt : ((view c).resize (view c).size).points[i]? = some (some ![p.point 0, p.point 1, p.point 2, 1]) := by
    rw [resize_points, view_get, hp]; rfl
  have hgp : ((view c).resize (view c).size).point i = .ok ![p.point 0, p.point 1, p.point 2, 1] := by
    unfold Cloud.point getSlot
    rw [rd_of_getElem? hpt, ok_bind]
    rfl
  rcases h _ h1 with hl | hl
  · refine ⟨none, ?_⟩
    unfold localFrame
    rw [if_neg (by omega), hgp, ok_bind]
    have : bruteKnn top searched ((view c).resize (view c).size).points ![p.point 0, p.point 1, p.point 2, 1] (10 : Int).toNat = .ok (nb.map Prod.fst) := h1
    rw [this, ok_bind, if_pos hl]
  · refine localFrame_defined (by omega) hpt (idx := nb.map Prod.fst) h1 fun j hj => ?_
    rw [resize_points, view_get, List.getElem?_eq_getElem (hl j hj)]
    exact ⟨_, rfl⟩

include htop in
theorem frame_oob (eig : M3 → M3) (searched c : MyCloud ℝ) {i : Nat} {p : MyPoint ℝ} (hp : c[i]? = some p) (h : ¬ IndicesFit top searched c.length p) :
    localFrame eig (bruteKnn top searched) 10 ((view c).resize (view c).size) i = .error .oob := by
  unfold IndicesFit at h
  push Not at h
  obtain ⟨idx, h1, h5, j, hj, hjl⟩ := h
  have hget : ∀ {a : Nat} {q : MyPoint ℝ}, c[a]? = some q → ((view c).resize (view c).size).point a = .ok ![q.point 0, q.point 1, q.point 2, 1] := by
    intro a q ha
    unfold Cloud.point getSlot
    rw [rd_of_getElem? (by rw [resize_points, view_get, ha]; rfl), ok_bind]
    rfl
  have hfold : ∀ (l : List Nat) (acc : V4 × M4), (∃ j ∈ l, c.length ≤ j) → l.foldlM (fun (acc : V4 × M4) j => (do
        let pt ← ((view c).resize (view c).size).point j
        .ok (acc.1 + pt, acc.2 + vecMulVec pt pt) : Res (V4 × M4))) acc = .error .oob := by
    intro l
    induction l with
    | nil => rintro _ ⟨j, hj, _⟩; cases hj
    | cons a l ih =>
      rintro acc ⟨j, hj, hjl⟩
      rw [List.foldlM_cons]
      by_cases ha : a < c.length
      · rw [hget (List.getElem?_eq_getElem ha), ok_bind, ok_bind]
        refine ih _ ⟨j, ?_, hjl⟩
        rcases List.mem_cons.1 hj with rfl | hj
        · omega
        · exact hj
      · have hpi : ((view c).resize (view c).size).point a = .error .oob := by
          unfold Cloud.point getSlot
          rw [resize_points]
          have : rd (view c).points a = .error .oob := by
            unfold rd
            rw [view_get, List.getElem?_eq_none (by omega)]
            rfl
          rw [this]
          rfl
        rw [hpi]
        rfl
  unfold localFrame
  rw [if_neg (by omega), hget hp, ok_bind]
  have : bruteKnn top searched ((view c).resize (view c).size).points ![p.point 0, p.point 1, p.point 2, 1] (10 : Int).toNat = .ok idx := h1
  rw [this, ok_bind, if_neg (by omega), hfold _ _ ⟨j, hj, hjl⟩]
  rfl

include htop in
/-- The estimation succeeds exactly if all neighbour indices fit. -/
theorem normals2_iff (e : Env) (searched c : MyCloud ℝ) {chunks : List (List Nat)} {sched : List Nat} {r : Res RCloud} (h : normals2 e top searched c chunks sched = some r) :
    (∃ c', r = .ok c' ∧ estimate normalSetter e.eig (fun _ => .ok (bruteKnn top searched)) 10 (view c) = .ok c') ↔ ∀ p ∈ c, IndicesFit top searched c.length p := by
  unfold normals2 at h
  split at h
  swap
  · cases h
  rename_i hch
  have hpar := C49_parallel _ _ _ _ _ _ _ (by rw [view_size]; exact hch) _ h
  constructor
  · rintro ⟨c', rfl, hest⟩ p hp
    obtain ⟨i, hi, rfl⟩ := List.mem_iff_getElem.1 hp
    by_contra hno
    have hoob := frame_oob htop e.eig searched c (List.getElem?_eq_getElem hi) hno
    obtain ⟨knn, hk, _, hv⟩ := estimate_values _ _ _ _ _ _ hest
    cases hk
    have := hv i
    rw [if_pos (by rw [view_size]; exact hi)] at this
    obtain ⟨_, f, _, hf, _⟩ := this
    rw [hoob] at hf
    cases hf
  · intro hfit
    obtain ⟨c', hc'⟩ := estimate_defined (S := normalSetter) (eig := e.eig) (mkTree := fun _ => .ok (bruteKnn top searched)) (k := 10) (cloud := view c) rfl (fun i hi => by
      rw [view_size] at hi
      exact frame_fits htop e.eig searched c (List.getElem?_eq_getElem hi) (hfit _ (List.getElem_mem hi)))
    rw [hc'] at hpar
    cases r with
    | error f => cases hpar
    | ok c2 => cases hpar; exact ⟨c', rfl, hc'⟩

theorem parOrder_head {α : Type} {sched : List Nat} {tasks : List (List α)} {order : List α} (h : parOrder sched tasks = some order) (hne : order ≠ []) :
    ∃ t ∈ tasks, t.head? = order.head? := by
  cases sched with
  | nil =>
    unfold parOrder at h
    split at h
    · cases h; exact absurd rfl hne
    · cases h
  | cons j js =>
    unfold parOrder at h
    split at h
    · rename_i a rest hj
      obtain ⟨o, _, rfl⟩ := Option.map_eq_some_iff.1 h
      exact ⟨_, List.mem_of_getElem? hj, rfl⟩
    · cases h

theorem parOrder_nil {α : Type} {sched : List Nat} {tasks : List (List α)} (h : parOrder sched tasks = some []) : ∀ t ∈ tasks, t = [] := by
  cases sched with
  | nil =>
    unfold parOrder at h
    split at h
    · rename_i hall
      intro t ht
      simpa using List.all_eq_true.1 hall t ht
    · cases h
  | cons j js =>
    unfold parOrder at h
    split at h
    · obtain ⟨o, _, h⟩ := Option.map_eq_some_iff.1 h
      cases h
    · cases h

include htop in
/-- If no point's neighbour indices fit, every execution of the loop reads outside the cloud. -/
theorem normals2_oob (e : Env) (searched c : MyCloud ℝ) {chunks : List (List Nat)} {sched : List Nat} {r : Res RCloud} (h : normals2 e top searched c chunks sched = some r)
    (hne : c ≠ []) (hno : ∀ p ∈ c, ¬ IndicesFit top searched c.length p) : r = .error .oob := by
  unfold normals2 at h
  split at h
  swap
  · cases h
  rename_i hch
  unfold estimatePar at h
  obtain ⟨order, ho, rfl⟩ := Option.map_eq_some_iff.1 h
  have hpos := List.length_pos_of_ne_nil hne
  have hone : order ≠ [] := by
    rintro rfl
    have hnil := parOrder_nil ho
    have h0 : (0 : Nat) ∈ chunks.flatten := hch.mem_iff.2 (List.mem_range.2 hpos)
    obtain ⟨ch, h1, h2⟩ := List.mem_flatten.1 h0
    have := hnil _ (List.mem_map.2 ⟨ch, h1, rfl⟩)
    rw [List.flatMap_eq_nil_iff] at this
    have := this 0 h2
    simp [Setter.acts] at this
  obtain ⟨t, ht, hh⟩ := parOrder_head ho hone
  obtain ⟨ch, h1, rfl⟩ := List.mem_map.1 ht
  rcases order with _ | ⟨a, order⟩
  · exact absurd rfl hone
  rcases ch with _ | ⟨i, ch⟩
  · simp at hh
  have ha : a = .frame i := by
    simp [Setter.acts] at hh
    exact hh.symm
  subst ha
  have hi : i < c.length := List.mem_range.1 (hch.mem_iff.1 (List.mem_flatten.2 ⟨_, h1, by simp⟩))
  dsimp only
  rw [ok_bind, List.foldlM_cons]
  have hstep : actStep e.eig (bruteKnn top searched) 10 ((view c).resize (view c).size, fun _ => none) (.frame i) = .error .oob := by
    show (localFrame e.eig (bruteKnn top searched) 10 ((view c).resize (view c).size) i >>= _) = _
    rw [frame_oob htop e.eig searched c (List.getElem?_eq_getElem hi) (hno _ (List.getElem_mem hi))]
    rfl
  rw [hstep]
  rfl

/-- What is known of the target after the estimation. -/
structure TargetReady (T : MyCloud ℝ) (ct : RCloud) : Prop where
  points : ct.points = (view T).points
  normals : ∀ k < T.length, ∃ n, ct.normals[k]? = some (some n) ∧ n 3 = 0 ∧ n ⬝ᵥ n ≤ 1

include htop in
/-- C76. The normals of a cloud that is searched itself: zero for fewer than five points; otherwise a unit normal of the surface through the (at most ten) nearest points, with the spread over them as small as possible. -/
theorem C76_target_normals {e : Env} (he : EnvMeets e) (T : MyCloud ℝ) {ct : RCloud} (h : estimate normalSetter e.eig (fun _ => .ok (bruteKnn top T)) 10 (view T) = .ok ct)
    {i : Nat} {p : MyPoint ℝ} (hp : T[i]? = some p) :
    ∃ nb n, IsKnn (spaceDist (T.map MyPoint.point) ![p.point 0, p.point 1, p.point 2, 1]) T.length 10 nb ∧ ct.normals[i]? = some (some n) ∧ (T.length < 5 → n = 0) ∧
      (5 ≤ T.length → n 3 = 0 ∧ ∃ ps : List (Fin 3 → ℝ), nb.map (fun c => (T.map MyPoint.point)[c.1]?) = ps.map some ∧
        head3 n ⬝ᵥ head3 n = 1 ∧ p.point ⬝ᵥ head3 n ≤ 0 ∧ ∀ x, x ⬝ᵥ x = 1 → spread ps (head3 n) ≤ spread ps x) := by
  obtain ⟨_, knn, hk, hn⟩ := C47_normals normalSetter rfl e.eig _ 10 _ ct h
  cases hk
  have hi : i < T.length := (List.getElem?_eq_some_iff.1 hp).1
  obtain ⟨v, idx, nrm, n1, n2, n3, n4, n5⟩ := hn i (by rw [view_size]; exact hi)
  have hv : v = ![p.point 0, p.point 1, p.point 2, 1] := by
    rw [view_get, hp] at n1
    simpa using n1.symm
  subst hv
  obtain ⟨nb, h1, h2⟩ := bruteKnn_ok htop T (view T).points ![p.point 0, p.point 1, p.point 2, 1]
  have n2' : bruteKnn top T (view T).points ![p.point 0, p.point 1, p.point 2, 1] 10 = .ok idx := n2
  rw [h1] at n2'
  cases n2'
  have hl := h2.length_eq
  simp only [List.length_map] at n4 n5
  refine ⟨nb, nrm, h2, n3, fun hl5 => n4 (by omega), fun hl5 => ?_⟩
  obtain ⟨ps, e1, hE⟩ := n5 (by omega)
  obtain ⟨g1, g2, g3, _, g5⟩ := hE (he.eig _ (sampleCov_psd _))
  have hdot : ∀ a b : V4, b 3 = 0 → a ⬝ᵥ b = head3 a ⬝ᵥ head3 b := by
    intro a b hb
    simp [dotProduct, Fin.sum_univ_four, Fin.sum_univ_three, head3, hb]
  refine ⟨g1, ps.map head3, ?_, by rw [← hdot _ _ g1]; exact g2, ?_, g5⟩
  · have := congrArg (List.map (fun o : Option (Option V4) => o.bind (fun o => o.map head3))) e1
    rw [List.map_map, List.map_map, List.map_map] at this
    rw [List.map_map]
    refine Eq.trans ?_ (this.trans ?_)
    · apply List.map_congr_left
      intro a _
      simp only [Function.comp, view_get, List.getElem?_map]
      cases T[a.1]? with
      | none => rfl
      | some q =>
        simp only [Option.map_some, Option.bind_some, Option.some.injEq]
        funext b
        fin_cases b <;> simp [head3]
    · rfl
  · rw [hdot _ _ g1] at g3
    have : head3 ![p.point 0, p.point 1, p.point 2, (1 : ℝ)] = p.point := by
      funext b
      fin_cases b <;> simp [head3]
    rwa [this] at g3

include htop in
theorem target_ready {e : Env} (he : EnvMeets e) (T : MyCloud ℝ) {ct : RCloud} (h : estimate normalSetter e.eig (fun _ => .ok (bruteKnn top T)) 10 (view T) = .ok ct) : TargetReady T ct := by
  refine ⟨(C49_points normalSetter e.eig _ 10 _ ct).1 h, fun k hk => ?_⟩
  obtain ⟨nb, n, _, h1, h2, h3⟩ := C76_target_normals htop he T h (List.getElem?_eq_getElem hk)
  refine ⟨n, h1, ?_⟩
  by_cases hl : T.length < 5
  · rw [h2 hl]
    simp
  · obtain ⟨g1, _, _, g2, _⟩ := h3 (by omega)
    refine ⟨g1, le_of_eq ?_⟩
    rw [← g2]
    simp [dotProduct, Fin.sum_univ_four, Fin.sum_univ_three, head3, g1]

theorem indicesFit_self {T : MyCloud ℝ} (htop : TopSpec top) (p : MyPoint ℝ) {n : Nat} (hn : T.length < 5 ∨ T.length ≤ n) : IndicesFit top T n p := by
  intro idx hidx
  obtain ⟨nb, h1, h2⟩ := bruteKnn_ok htop T [] ![p.point 0, p.point 1, p.point 2, 1]
  rw [h1] at hidx
  cases hidx
  rcases hn with hn | hn
  · left
    have := h2.length_eq
    simp
    omega
  · right
    intro j hj
    obtain ⟨c, hc, rfl⟩ := List.mem_map.1 hj
    have := h2.valid c hc
    omega

/-- Distinct indices do not fit into a smaller cloud. -/
theorem indicesFit_small {T : MyCloud ℝ} (htop : TopSpec top) (p : MyPoint ℝ) {n : Nat} (h5 : 5 ≤ T.length) (hn : n < 10) (hnT : n < T.length) : ¬ IndicesFit top T n p := by
  intro h
  obtain ⟨nb, h1, h2⟩ := bruteKnn_ok htop T [] ![p.point 0, p.point 1, p.point 2, 1]
  have hl := h2.length_eq
  rcases h _ h1 with h | h
  · simp at h; omega
  · have : nb.map Prod.fst ⊆ List.range n := fun j hj => List.mem_range.2 (h j hj)
    have := (h2.nodup.subperm this).length_le
    simp at this
    omega

end Normals

end Verif.Props
