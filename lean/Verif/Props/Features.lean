import Verif.Proofs.Features
import Verif.Spec.Registration
import Mathlib.LinearAlgebra.Matrix.NonsingularInverse
import Mathlib.LinearAlgebra.Matrix.Trace

/-! C47-C49: normal and covariance estimation. -/

set_option linter.unusedSectionVars false
set_option linter.unusedSimpArgs false
set_option linter.unnecessarySeqFocus false

namespace Verif.Props

open Matrix Verif Verif.PointCloud Verif.Factors Verif.Features Verif.Spec Verif.Proofs

/-! ### C49 -/

theorem resize_self (c : RCloud) : (c.resize c.size).points = c.points ∧ (c.resize c.size).normals.length = c.size ∧ (c.resize c.size).covs.length = c.size ∧
    (c.resize c.size).size = c.size := by
  have h : ∀ {α : Type} (l : List (Option α)) n, (resizeSlots l n).length = n := by
    intro α l n
    unfold resizeSlots
    simp only [List.length_append, List.length_take, List.length_replicate]
    omega
  have hp : (c.resize c.size).points = c.points := by
    simp [Cloud.resize, Cloud.size, resizeSlots]
  exact ⟨hp, h _ _, h _ _, by show (c.resize c.size).points.length = _; rw [hp]; rfl⟩

/-- Any order in which frames come before the writes has the effect of the serial loop. -/
theorem order_serial (S : Setter) (eig : M3 → M3) (knn : Search) (k : Int) (base : RCloud) (n : Nat) (hn : base.normals.length = n) (hc : base.covs.length = n)
    (order : List Act) (hreq : ∀ done a rest, order = done ++ a :: rest → ∀ b, needs b a → b ∈ done) (hmem : ∀ a, a ∈ order ↔ a ∈ (List.range n).flatMap S.acts) :
    (order.foldlM (actStep eig knn k) (base, fun _ => none) >>= fun s => .ok s.1 : Res RCloud).toOption =
      ((List.range n).foldlM (estimateOne S eig knn k) base).toOption := by
  obtain ⟨loc', hser⟩ := estimate_acts (S := S) (eig := eig) (knn := knn) (k := k) (List.range n) base (fun _ => none)
  have hfm : ∀ i, Act.frame i ∈ (List.range n).flatMap S.acts ↔ i < n := by
    intro i
    simp only [List.mem_flatMap, List.mem_range, Setter.acts]
    constructor
    · rintro ⟨j, hj, hm⟩
      cases hS1 : S.normals <;> cases hS2 : S.covs <;> simp [hS1, hS2] at hm <;> omega
    · intro hi
      exact ⟨i, hi, by simp⟩
  have hnm : ∀ i, Act.normal i ∈ (List.range n).flatMap S.acts → i < n := by
    intro i hi
    simp only [List.mem_flatMap, List.mem_range, Setter.acts] at hi
    obtain ⟨j, hj, hm⟩ := hi
    cases hS1 : S.normals <;> cases hS2 : S.covs <;> simp [hS1, hS2] at hm <;> omega
  have hcm : ∀ i, Act.cov i ∈ (List.range n).flatMap S.acts → i < n := by
    intro i hi
    simp only [List.mem_flatMap, List.mem_range, Setter.acts] at hi
    obtain ⟨j, hj, hm⟩ := hi
    cases hS1 : S.normals <;> cases hS2 : S.covs <;> simp [hS1, hS2] at hm <;> omega
  by_cases hall : ∀ i < n, ∃ f, localFrame eig knn k base i = .ok f
  · have hall' : ∃ f : Nat → Option M3, ∃ p : Nat → V4, ∀ i < n, localFrame eig knn k base i = .ok (f i) ∧ base.points[i]? = some (some (p i)) := by
      classical
      refine ⟨fun i => if h : i < n then (hall i h).choose else none, fun i => if h : i < n then (localFrame_point (hall i h).choose_spec).choose else 0, fun i hi => ?_⟩
      simp only [dif_pos hi]
      exact ⟨(hall i hi).choose_spec, (localFrame_point (hall i hi).choose_spec).choose_spec.2⟩
    obtain ⟨f, p, hfp⟩ := hall'
    obtain ⟨c1, l1, e1, p1, n1, v1⟩ := run_values hn hc (fun i hi => (hfp i hi).2) (fun i hi => (hfp i hi).1) order hreq
      (by
        intro i hi
        rw [hmem, hmem, hmem] at hi
        rcases hi with hi | hi | hi
        · exact (hfm i).1 hi
        · exact hnm i hi
        · exact hcm i hi) (fun _ => none)
    obtain ⟨c2, l2, e2, p2, n2, v2⟩ := run_values hn hc (fun i hi => (hfp i hi).2) (fun i hi => (hfp i hi).1) ((List.range n).flatMap S.acts)
      (fun done a rest h => acts_before S _ done a rest h)
      (by
        intro i hi
        rcases hi with hi | hi | hi
        · exact (hfm i).1 hi
        · exact hnm i hi
        · exact hcm i hi) (fun _ => none)
    have hcc : c1 = c2 := by
      have h1 : c1.points = c2.points := p1.trans p2.symm
      have h2 : c1.normals = c2.normals := by
        apply List.ext_getElem?
        intro i
        rw [n1, n2]
        simp only [hmem]
      have h3 : c1.covs = c2.covs := by
        apply List.ext_getElem?
        intro i
        rw [v1, v2]
        simp only [hmem]
      cases c1; cases c2
      simp only at h1 h2 h3
      rw [h1, h2, h3]
    rw [e1, ok_bind]
    rw [e2] at hser
    cases hr : (List.range n).foldlM (estimateOne S eig knn k) base with
    | error e => rw [hr, err_bind] at hser; cases hser
    | ok c3 =>
      rw [hr, ok_bind] at hser
      simp only [Except.ok.injEq, Prod.mk.injEq] at hser
      rw [hcc, hser.1]
  · have hno : ∀ o : List Act, (∀ a, a ∈ o ↔ a ∈ (List.range n).flatMap S.acts) → ∃ e, o.foldlM (actStep eig knn k) (base, fun _ => none) = .error e := by
      intro o ho
      cases hr : o.foldlM (actStep eig knn k) (base, fun _ => none) with
      | error e => exact ⟨e, rfl⟩
      | ok s =>
        exfalso
        apply hall
        intro i hi
        exact (run_frames o _ _ hr).2 i ((ho _).2 ((hfm i).2 hi))
    obtain ⟨e1, h1⟩ := hno order hmem
    obtain ⟨e2, h2⟩ := hno _ (fun a => Iff.rfl)
    rw [h1, err_bind]
    rw [h2] at hser
    cases hr : (List.range n).foldlM (estimateOne S eig knn k) base with
    | error e => rfl
    | ok c3 => rw [hr, ok_bind] at hser; cases hser

/-- Every execution of the OpenMP and TBB versions gives the cloud of the serial version, whatever the division of the iterations
and the interleaving; it faults only if the serial version does. -/
theorem C49_parallel (S : Setter) (eig : M3 → M3) (mkTree : RCloud → Res Search) (k : Int) (cloud : RCloud) (chunks : List (List Nat)) (sched : List Nat)
    (hch : chunks.flatten.Perm (List.range cloud.size)) (r : Res RCloud) (h : estimatePar S eig mkTree k cloud chunks sched = some r) :
    r.toOption = (estimate S eig mkTree k cloud).toOption := by
  unfold estimatePar at h
  obtain ⟨order, ho, rfl⟩ := Option.map_eq_some_iff.1 h
  obtain ⟨hp, hn, hc, hsz⟩ := resize_self cloud
  unfold estimate
  dsimp only
  cases mkTree (cloud.resize cloud.size) with
  | error e => rfl
  | ok knn =>
    rw [ok_bind, ok_bind, hsz]
    apply order_serial S eig knn k _ _ hn hc
    · intro done a rest hd b hb
      have := parOrder_before needs sched _ order [] ho (by
        intro t ht l1 a l2 hl b hb
        obtain ⟨c, _, rfl⟩ := List.mem_map.1 ht
        exact .inl (acts_before S c l1 a l2 hl b hb)) done a rest hd b hb
      rcases this with h1 | h1
      · exact h1
      · simp at h1
    · intro a
      rw [(parOrder_perm _ _ _ ho).mem_iff]
      simp only [List.mem_flatten, List.mem_map, List.mem_flatMap]
      constructor
      · rintro ⟨_, ⟨c, hc, rfl⟩, ha⟩
        obtain ⟨i, hi, ha⟩ := List.mem_flatMap.1 ha
        exact ⟨i, hch.mem_iff.1 (List.mem_flatten.2 ⟨c, hc, hi⟩), ha⟩
      · rintro ⟨i, hi, ha⟩
        obtain ⟨c, hc, hi⟩ := List.mem_flatten.1 (hch.mem_iff.2 hi)
        exact ⟨_, ⟨c, hc, rfl⟩, List.mem_flatMap.2 ⟨i, hi, ha⟩⟩

/-- The serial version: it does not touch the points, writes one value per point, and leaves an attribute it does not estimate as the
`resize` at its start left it. -/
theorem estimate_values (S : Setter) (eig : M3 → M3) (mkTree : RCloud → Res Search) (k : Int) (cloud c' : RCloud) (h : estimate S eig mkTree k cloud = .ok c') :
    ∃ knn, mkTree (cloud.resize cloud.size) = .ok knn ∧ c'.points = cloud.points ∧
      ∀ i, if i < cloud.size then ∃ p f, cloud.points[i]? = some (some p) ∧ localFrame eig knn k (cloud.resize cloud.size) i = .ok f ∧
          c'.normals[i]? = (if S.normals then some (some (nval p f)) else (cloud.resize cloud.size).normals[i]?) ∧
          c'.covs[i]? = (if S.covs then some (some (cval f)) else (cloud.resize cloud.size).covs[i]?)
        else c'.normals[i]? = none ∧ c'.covs[i]? = none := by
  obtain ⟨hp, hn, hc, hsz⟩ := resize_self cloud
  unfold estimate at h
  dsimp only at h
  cases hk : mkTree (cloud.resize cloud.size) with
  | error e => rw [hk, err_bind] at h; cases h
  | ok knn =>
    rw [hk, ok_bind, hsz] at h
    obtain ⟨loc', hser⟩ := estimate_acts (S := S) (eig := eig) (knn := knn) (k := k) (List.range cloud.size) (cloud.resize cloud.size) (fun _ => none)
    rw [h, ok_bind] at hser
    obtain ⟨h1, h2⟩ := run_frames _ _ _ hser
    have hfm : ∀ i, i < cloud.size → Act.frame i ∈ (List.range cloud.size).flatMap S.acts := by
      intro i hi
      simp only [List.mem_flatMap, List.mem_range, Setter.acts]
      exact ⟨i, hi, by simp⟩
    have hin : ∀ i, (Act.frame i ∈ (List.range cloud.size).flatMap S.acts ∨ Act.normal i ∈ (List.range cloud.size).flatMap S.acts ∨
        Act.cov i ∈ (List.range cloud.size).flatMap S.acts) → i < cloud.size := by
      intro i hi
      simp only [List.mem_flatMap, List.mem_range, Setter.acts] at hi
      rcases hi with ⟨j, hj, hm⟩ | ⟨j, hj, hm⟩ | ⟨j, hj, hm⟩ <;> cases hS1 : S.normals <;> cases hS2 : S.covs <;> simp [hS1, hS2] at hm <;> omega
    classical
    have hall : ∀ i, ∃ fp : Option M3 × V4, i < cloud.size → localFrame eig knn k (cloud.resize cloud.size) i = .ok fp.1 ∧ (cloud.resize cloud.size).points[i]? = some (some fp.2) := by
      intro i
      by_cases hi : i < cloud.size
      · obtain ⟨f, hf⟩ := h2 i (hfm i hi)
        obtain ⟨p, _, hp'⟩ := localFrame_point hf
        exact ⟨(f, p), fun _ => ⟨hf, hp'⟩⟩
      · exact ⟨(none, 0), fun hi' => absurd hi' hi⟩
    choose fp hfp using hall
    obtain ⟨c2, l2, e2, p2, n2, v2⟩ := run_values (base := cloud.resize cloud.size) (f := fun i => (fp i).1) (p := fun i => (fp i).2) hn hc
      (fun i hi => (hfp i hi).2) (fun i hi => (hfp i hi).1) ((List.range cloud.size).flatMap S.acts)
      (fun done a rest h => acts_before S _ done a rest h) hin (fun _ => none)
    rw [hser] at e2
    simp only [Except.ok.injEq, Prod.mk.injEq] at e2
    obtain ⟨rfl, rfl⟩ := e2
    refine ⟨knn, rfl, p2.trans hp, fun i => ?_⟩
    split
    · rename_i hi
      refine ⟨(fp i).2, (fp i).1, by rw [← hp]; exact (hfp i hi).2, (hfp i hi).1, ?_, ?_⟩
      · rw [n2]
        cases hS : S.normals with
        | true =>
          rw [if_pos]
          · rfl
          · simp only [List.mem_flatMap, List.mem_range, Setter.acts]
            exact ⟨i, hi, by simp [hS]⟩
        | false =>
          rw [if_neg]
          · rfl
          · simp only [List.mem_flatMap, List.mem_range, Setter.acts]
            rintro ⟨j, hj, hm⟩
            cases hS2 : S.covs <;> simp [hS, hS2] at hm
      · rw [v2]
        cases hS : S.covs with
        | true =>
          rw [if_pos]
          · rfl
          · simp only [List.mem_flatMap, List.mem_range, Setter.acts]
            exact ⟨i, hi, by simp [hS]⟩
        | false =>
          rw [if_neg]
          · rfl
          · simp only [List.mem_flatMap, List.mem_range, Setter.acts]
            rintro ⟨j, hj, hm⟩
            cases hS2 : S.normals <;> simp [hS, hS2] at hm
    · rename_i hi
      rw [n2, v2, if_neg (fun hm => hi (hin i (.inr (.inl hm)))), if_neg (fun hm => hi (hin i (.inr (.inr hm)))), List.getElem?_eq_none (by omega), List.getElem?_eq_none (by omega)]
      exact ⟨rfl, rfl⟩

/-- The coordinates are untouched, serially and in parallel. -/
theorem C49_points (S : Setter) (eig : M3 → M3) (mkTree : RCloud → Res Search) (k : Int) (cloud c' : RCloud) :
    (estimate S eig mkTree k cloud = .ok c' → c'.points = cloud.points) ∧
    (∀ chunks sched, chunks.flatten.Perm (List.range cloud.size) → estimatePar S eig mkTree k cloud chunks sched = some (.ok c') → c'.points = cloud.points) := by
  have h1 : estimate S eig mkTree k cloud = .ok c' → c'.points = cloud.points := by
    intro h
    obtain ⟨_, _, h1, _⟩ := estimate_values S eig mkTree k cloud c' h
    exact h1
  refine ⟨h1, fun chunks sched hch h => h1 ?_⟩
  have := C49_parallel S eig mkTree k cloud chunks sched hch _ h
  cases hr : estimate S eig mkTree k cloud with
  | error e => rw [hr] at this; cases this
  | ok c => rw [hr] at this; cases this; rfl

/-! ### the matrix handed to the eigen-solver -/

theorem sum_cross (x y : (Fin 3 → ℝ) → ℝ) (a b : ℝ) : ∀ l : List (Fin 3 → ℝ), (l.map (fun q => (x q - a) * (y q - b))).sum =
    (l.map (fun q => x q * y q)).sum - a * (l.map y).sum - b * (l.map x).sum + l.length * (a * b)
  | [] => by simp
  | q :: l => by
    simp only [List.map_cons, List.sum_cons, sum_cross x y a b l, List.length_cons]
    push_cast
    ring

theorem gather (cloud : RCloud) : ∀ (idx : List Nat) (acc r : V4 × M4),
    idx.foldlM (fun (acc : V4 × M4) j => (do
      let pt ← cloud.point j
      .ok (acc.1 + pt, acc.2 + vecMulVec pt pt) : Res (V4 × M4))) acc = .ok r →
    ∃ pts : List V4, idx.map (fun j => cloud.points[j]?) = pts.map (fun q => some (some q)) ∧
      r.1 = acc.1 + (pts).sum ∧ r.2 = acc.2 + (pts.map (fun q => vecMulVec q q)).sum
  | [], acc, r, h => by
    cases h
    exact ⟨[], rfl, by simp, by simp⟩
  | j :: idx, acc, r, h => by
    rw [List.foldlM_cons] at h
    cases hp : cloud.point j with
    | error e => simp only [hp, err_bind] at h; cases h
    | ok pt =>
      simp only [hp, ok_bind] at h
      obtain ⟨pts, h1, h2, h3⟩ := gather cloud idx _ r h
      have hpt : cloud.points[j]? = some (some pt) := by
        unfold Cloud.point getSlot at hp
        cases hr : cloud.points[j]? with
        | none => simp [rd, hr, bind, Except.bind] at hp
        | some x =>
          rw [rd_of_getElem? hr, ok_bind] at hp
          cases x with
          | none => cases hp
          | some v => cases hp; rfl
      refine ⟨pt :: pts, by simp [h1, hpt], ?_, ?_⟩
      · rw [h2, List.sum_cons, add_assoc]
      · rw [h3, List.map_cons, List.sum_cons, add_assoc]

theorem head3_castSucc (q : V4) (a : Fin 3) : head3 q a = q a.castSucc := by
  fin_cases a <;> rfl

theorem list_sum_apply (l : List V4) (i : Fin 4) : l.sum i = (l.map (fun q => q i)).sum := by
  induction l with
  | nil => rfl
  | cons q l ih => rw [List.sum_cons, List.map_cons, List.sum_cons, ← ih]; rfl

theorem list_sum_apply2 (l : List V4) (i j : Fin 4) : (l.map (fun q => vecMulVec q q)).sum i j = (l.map (fun q => q i * q j)).sum := by
  induction l with
  | nil => rfl
  | cons q l ih => rw [List.map_cons, List.sum_cons, List.map_cons, List.sum_cons, ← ih]; rfl

/-- The matrix handed to the eigen-solver is the sample covariance of the neighbours. -/
theorem scatter_sample (pts : List V4) (hne : pts.length ≠ 0) :
    block33 ((pts.length : ℝ)⁻¹ • ((pts.map (fun q => vecMulVec q q)).sum - vecMulVec ((pts.length : ℝ)⁻¹ • pts.sum) pts.sum)) = sampleCov (pts.map head3) := by
  have hn : (pts.length : ℝ) ≠ 0 := by exact_mod_cast hne
  ext a b
  have e : ∀ c : Fin 3, meanPoint (pts.map head3) c = (pts.map (fun q : V4 => q c.castSucc)).sum / pts.length := by
    intro c
    simp only [meanPoint, List.map_map, List.length_map]
    congr 2
    apply List.map_congr_left
    intro q _
    exact head3_castSucc q c
  simp only [block33, Matrix.smul_apply, Matrix.sub_apply, list_sum_apply2, vecMulVec_apply, Pi.smul_apply, list_sum_apply, smul_eq_mul]
  unfold sampleCov
  rw [sum_cross (fun q => q a) (fun q => q b) _ _ (pts.map head3)]
  simp only [List.map_map, List.length_map, e]
  have h1 : (pts.map ((fun q : Fin 3 → ℝ => q a * q b) ∘ head3)) = pts.map (fun q : V4 => q a.castSucc * q b.castSucc) := by
    apply List.map_congr_left
    intro q _
    simp only [Function.comp, head3_castSucc]
  have h2 : ∀ c : Fin 3, (pts.map ((fun q : Fin 3 → ℝ => q c) ∘ head3)) = pts.map (fun q : V4 => q c.castSucc) := by
    intro c
    apply List.map_congr_left
    intro q _
    simp only [Function.comp, head3_castSucc]
  rw [h1, h2, h2]
  field_simp
  ring

/-- What the frame of a point is. -/
theorem frame_meaning {eig : M3 → M3} {knn : Search} {k : Int} {cloud : RCloud} {i : Nat} {f : Option M3} {p : V4} (hp : cloud.points[i]? = some (some p))
    (h : localFrame eig knn k cloud i = .ok f) :
    ∃ idx, knn cloud.points p k.toNat = .ok idx ∧ 
      ((idx.length < 5 ∧ f = none) ∨ (5 ≤ idx.length ∧ ∃ pts : List V4, idx.map (fun j => cloud.points[j]?) = pts.map (fun q => some (some q)) ∧ f = some (eig (sampleCov (pts.map head3))))) := by
  unfold localFrame at h
  split at h
  · cases h
  · have hpt : cloud.point i = .ok p := by
      unfold Cloud.point getSlot
      rw [rd_of_getElem? hp, ok_bind]
      rfl
    rw [hpt, ok_bind] at h
    cases hk : knn cloud.points p k.toNat with
    | error e => rw [hk, err_bind] at h; cases h
    | ok idx =>
      rw [hk, ok_bind] at h
      refine ⟨idx, rfl, ?_⟩
      split at h
      · rename_i hl
        cases h
        exact .inl ⟨hl, rfl⟩
      · rename_i hl
        right
        refine ⟨by omega, ?_⟩
        cases hg : idx.foldlM (fun (acc : V4 × M4) j => (do
            let pt ← cloud.point j
            .ok (acc.1 + pt, acc.2 + vecMulVec pt pt) : Res (V4 × M4))) (0, 0) with
        | error e => rw [hg, err_bind] at h; cases h
        | ok r =>
          rw [hg, ok_bind] at h
          obtain ⟨pts, h1, h2, h3⟩ := gather cloud idx _ r hg
          have hlen : idx.length = pts.length := by
            have := congrArg List.length h1
            simpa using this
          refine ⟨pts, h1, ?_⟩
          simp only [Except.ok.injEq] at h
          rw [← h, h2, h3, hlen, zero_add, zero_add, scatter_sample pts (by omega)]

/-! ### eigenvectors -/

theorem spread_form (pts : List (Fin 3 → ℝ)) (hne : pts.length ≠ 0) (x : Fin 3 → ℝ) : spread pts x = pts.length * (x ⬝ᵥ sampleCov pts *ᵥ x) := by
  have hn : (pts.length : ℝ) ≠ 0 := by exact_mod_cast hne
  have key : ∀ (m : Fin 3 → ℝ) (l : List (Fin 3 → ℝ)), (l.map (fun q => ((q - m) ⬝ᵥ x) ^ 2)).sum =
      ∑ a, ∑ b, x a * x b * (l.map (fun q => (q a - m a) * (q b - m b))).sum := by
    intro m l
    induction l with
    | nil => simp
    | cons q l ih =>
      rw [List.map_cons, List.sum_cons, ih]
      simp only [List.map_cons, List.sum_cons, Fin.sum_univ_three, dotProduct, Pi.sub_apply]
      ring
  unfold spread
  rw [key]
  simp only [dotProduct, mulVec, sampleCov, Fin.sum_univ_three]
  field_simp

theorem sampleCov_psd (pts : List (Fin 3 → ℝ)) : SymPSD (sampleCov pts) := by
  refine ⟨?_, fun x => ?_⟩
  · ext a b
    simp only [transpose_apply, sampleCov]
    congr 2
    apply List.map_congr_left
    intro q _
    ring
  · by_cases hne : pts.length = 0
    · rw [List.length_eq_zero_iff] at hne
      subst hne
      simp [sampleCov, dotProduct, mulVec]
    · have h := spread_form pts hne x
      have hn : (0 : ℝ) < pts.length := by exact_mod_cast Nat.pos_of_ne_zero hne
      have h2 : 0 ≤ spread pts x := by
        unfold spread
        apply List.sum_nonneg
        intro y hy
        obtain ⟨q, _, rfl⟩ := List.mem_map.1 hy
        positivity
      rw [h] at h2
      exact nonneg_of_mul_nonneg_right h2 hn

theorem eigen_min {A V : M3} (h : EigenBasis A V) :
    (fun i => V i 0) ⬝ᵥ (fun i => V i 0) = 1 ∧ ∀ x : Fin 3 → ℝ, x ⬝ᵥ x = 1 → (fun i => V i 0) ⬝ᵥ A *ᵥ (fun i => V i 0) ≤ x ⬝ᵥ A *ᵥ x := by
  obtain ⟨horth, ev, hev, h01, h12⟩ := h
  have hv : (fun i => V i 0) ⬝ᵥ (fun i => V i 0) = 1 := by
    have := congrFun (congrFun horth 0) 0
    simp only [Matrix.mul_apply, transpose_apply, one_apply_eq] at this
    exact this
  have horth' : V * Vᵀ = 1 := mul_eq_one_comm.1 horth
  have hA : A = V * diagonal ev * Vᵀ := by rw [← hev, Matrix.mul_assoc, horth', Matrix.mul_one]
  refine ⟨hv, fun x hx => ?_⟩
  have h1 : A *ᵥ (fun i => V i 0) = ev 0 • (fun i => V i 0) := by
    have h2 : ∀ i, (A * V) i 0 = (V * diagonal ev) i 0 := fun i => by rw [hev]
    funext i
    have h3 := h2 i
    rw [mul_diagonal] at h3
    simp only [Pi.smul_apply, smul_eq_mul]
    rw [mul_comm, ← h3]
    rfl
  rw [h1, dotProduct_smul, hv, smul_eq_mul, mul_one]
  have hform : x ⬝ᵥ A *ᵥ x = (Vᵀ *ᵥ x) ⬝ᵥ diagonal ev *ᵥ (Vᵀ *ᵥ x) := by
    rw [hA, ← mulVec_mulVec, ← mulVec_mulVec, dotProduct_mulVec, ← mulVec_transpose]
  have hnorm : (Vᵀ *ᵥ x) ⬝ᵥ (Vᵀ *ᵥ x) = 1 := by
    rw [dotProduct_mulVec, ← mulVec_transpose, transpose_transpose, mulVec_mulVec, horth', one_mulVec, hx]
  rw [hform]
  generalize Vᵀ *ᵥ x = y at *
  simp only [dotProduct, mulVec_diagonal, Fin.sum_univ_three] at hnorm ⊢
  have e0 : ev 0 * (y 0 * y 0 + y 1 * y 1 + y 2 * y 2) = ev 0 := by rw [hnorm, mul_one]
  linarith [mul_nonneg (sub_nonneg.2 h01) (mul_self_nonneg (y 1)),
    mul_nonneg (sub_nonneg.2 (h01.trans h12)) (mul_self_nonneg (y 2))]

theorem normalized_unit {v : Fin 3 → ℝ} (h : v ⬝ᵥ v = 1) : normalized v = v := by
  unfold normalized
  rw [if_pos (by rw [h]; exact one_pos), h, Real.sqrt_one]
  funext i
  rw [div_one]

/-- Estimated normals. For every point there is the list of found neighbour indices. Fewer than five: the zero vector. Otherwise, if
the eigen-solver returned an eigenbasis of the sample covariance of the neighbours: a vector of length one with last component 0, plus or
minus the first eigenvector, pointing to the origin side; and along no other unit vector do the neighbours spread less. -/
theorem C47_normals (S : Setter) (hS : S.normals = true) (eig : M3 → M3) (mkTree : RCloud → Res Search) (k : Int) (cloud c' : RCloud)
    (h : estimate S eig mkTree k cloud = .ok c') :
    c'.normals.length = cloud.size ∧ ∃ knn, mkTree (cloud.resize cloud.size) = .ok knn ∧ ∀ i < cloud.size, ∃ p idx nrm, cloud.points[i]? = some (some p) ∧
      knn cloud.points p k.toNat = .ok idx ∧ c'.normals[i]? = some (some nrm) ∧ (idx.length < 5 → nrm = 0) ∧
      (5 ≤ idx.length → ∃ pts : List V4, idx.map (fun j => cloud.points[j]?) = pts.map (fun q => some (some q)) ∧
        (EigenBasis (sampleCov (pts.map head3)) (eig (sampleCov (pts.map head3))) →
          nrm 3 = 0 ∧ nrm ⬝ᵥ nrm = 1 ∧ p ⬝ᵥ nrm ≤ 0 ∧
          (head3 nrm = (fun a => eig (sampleCov (pts.map head3)) a 0) ∨ head3 nrm = -(fun a => eig (sampleCov (pts.map head3)) a 0)) ∧
          ∀ x, x ⬝ᵥ x = 1 → spread (pts.map head3) (head3 nrm) ≤ spread (pts.map head3) x)) := by
  obtain ⟨knn, h1, h2, h3⟩ := estimate_values S eig mkTree k cloud c' h
  obtain ⟨hp, _, _, _⟩ := resize_self cloud
  refine ⟨?_, knn, h1, fun i hi => ?_⟩
  · apply le_antisymm
    · by_contra hlt
      have := h3 cloud.size
      rw [if_neg (lt_irrefl _)] at this
      have h4 := this.1
      rw [List.getElem?_eq_none_iff] at h4
      omega
    · rcases Nat.eq_zero_or_pos cloud.size with h0 | h0
      · omega
      · have := h3 (cloud.size - 1)
        rw [if_pos (by omega)] at this
        obtain ⟨p, f, _, _, hn, _⟩ := this
        rw [hS, if_pos rfl] at hn
        have := (List.getElem?_eq_some_iff.1 hn).1
        omega
  · have := h3 i
    rw [if_pos hi] at this
    obtain ⟨p, f, hpi, hf, hn, _⟩ := this
    rw [hS, if_pos rfl] at hn
    obtain ⟨idx, hk, hcase⟩ := frame_meaning (by rw [hp]; exact hpi) hf
    rw [hp] at hk hcase
    refine ⟨p, idx, nval p f, hpi, hk, hn, ?_, ?_⟩
    · intro hlt
      rcases hcase with ⟨_, rfl⟩ | ⟨hge, _⟩
      · rfl
      · omega
    · intro hge
      rcases hcase with ⟨hlt, _⟩ | ⟨_, pts, hpts, rfl⟩
      · omega
      · refine ⟨pts, hpts, fun hE => ?_⟩
        obtain ⟨hv, hmin⟩ := eigen_min hE
        have hlen : (pts.map head3).length ≠ 0 := by
          have := congrArg List.length hpts
          simp only [List.length_map] at this ⊢
          omega
        generalize eig (sampleCov (pts.map head3)) = V at *
        have hnv : ∃ s : ℝ, (s = 1 ∨ s = -1) ∧ normalOf p V = s • ![V 0 0, V 1 0, V 2 0, 0] ∧ p ⬝ᵥ normalOf p V ≤ 0 := by
          unfold normalOf
          rw [normalized_unit hv]
          dsimp only
          split
          · rename_i hpos
            refine ⟨-1, .inr rfl, by simp, ?_⟩
            rw [dotProduct_neg]
            linarith
          · rename_i hpos
            exact ⟨1, .inl rfl, by simp, not_lt.1 hpos⟩
        obtain ⟨s, hs, hnv, hple⟩ := hnv
        have hh : head3 (nval p (some V)) = s • (fun a => V a 0) := by
          show head3 (normalOf p V) = _
          rw [hnv]
          funext a
          fin_cases a <;> simp [head3]
        refine ⟨?_, ?_, hple, ?_, fun x hx => ?_⟩
        · show normalOf p V 3 = 0
          rw [hnv]
          simp
        · show normalOf p V ⬝ᵥ normalOf p V = 1
          rw [hnv]
          simp only [dotProduct, Fin.sum_univ_three] at hv
          rcases hs with rfl | rfl <;> simp [dotProduct, Fin.sum_univ_four] <;> linarith
        · rcases hs with rfl | rfl
          · left; rw [hh, one_smul]
          · right; rw [hh, neg_one_smul]
        · rw [spread_form _ hlen, spread_form _ hlen, hh]
          have h5 := hmin x hx
          have h6 : (s • fun a => V a 0) ⬝ᵥ sampleCov (pts.map head3) *ᵥ (s • fun a => V a 0) = (fun a => V a 0) ⬝ᵥ sampleCov (pts.map head3) *ᵥ (fun a => V a 0) := by
            rw [mulVec_smul, dotProduct_smul, smul_dotProduct, smul_smul]
            rcases hs with rfl | rfl <;> simp
          rw [h6]
          exact mul_le_mul_of_nonneg_left h5 (Nat.cast_nonneg _)

/-! ### covariances -/

theorem covOf_block (V : M3) : block33 (covOf V) = V * diagonal ![1 / 1000, 1, 1] * Vᵀ ∧ ∀ a b : Fin 4, a = 3 ∨ b = 3 → covOf V a b = 0 := by
  refine ⟨?_, ?_⟩
  · ext a b
    simp [covOf, block33, setBlock33]
  · intro a b hab
    have : ¬(a.val < 3 ∧ b.val < 3) := by
      rcases hab with rfl | rfl <;> simp
    simp only [covOf, setBlock33, dif_neg this]
    rfl

/-- Seen from the first eigenvector alone. -/
theorem covOf_normal {V : M3} (h : Vᵀ * V = 1) : block33 (covOf V) = 1 - (999 / 1000 : ℝ) • vecMulVec (fun a => V a 0) (fun a => V a 0) := by
  have h' : V * Vᵀ = 1 := mul_eq_one_comm.1 h
  have hd : diagonal ![(1 / 1000 : ℝ), 1, 1] = 1 - (999 / 1000 : ℝ) • diagonal ![(1 : ℝ), 0, 0] := by
    ext a b
    fin_cases a <;> fin_cases b <;> simp [diagonal, Matrix.one_apply] <;> norm_num
  rw [(covOf_block V).1, hd, Matrix.mul_sub, Matrix.sub_mul, Matrix.mul_one, h', Matrix.mul_smul, Matrix.smul_mul]
  congr 2
  ext a b
  simp [Matrix.mul_apply, vecMulVec_apply, Fin.sum_univ_three, diagonal]

theorem form_border {C : M4} (h : ∀ a b : Fin 4, a = 3 ∨ b = 3 → C a b = 0) (x : V4) : x ⬝ᵥ C *ᵥ x = head3 x ⬝ᵥ block33 C *ᵥ head3 x := by
  have h3 : ∀ b, C 3 b = 0 := fun b => h 3 b (.inl rfl)
  have h3' : ∀ a, C a 3 = 0 := fun a => h a 3 (.inr rfl)
  simp only [dotProduct, mulVec, Fin.sum_univ_four, Fin.sum_univ_three, block33, head3, h3, h3']
  simp [Fin.castSucc]

/-- Estimated covariances. Fewer than five neighbours: `diag(1, 1, 1, 0)`. Otherwise the eigen-solver got the sample covariance of the
neighbours, which is symmetric positive semi-definite, and, if it returned orthonormal vectors, the stored matrix is symmetric positive
semi-definite with trace 2.001 and zero last row and column, its upper block is the identity minus 0.999 times the square of the first
eigenvector, and its quadratic form lies between 0.001 and 1 on unit vectors. -/
theorem C48_covariances (S : Setter) (hS : S.covs = true) (eig : M3 → M3) (mkTree : RCloud → Res Search) (k : Int) (cloud c' : RCloud)
    (h : estimate S eig mkTree k cloud = .ok c') :
    ∃ knn, mkTree (cloud.resize cloud.size) = .ok knn ∧ ∀ i < cloud.size, ∃ p idx C, cloud.points[i]? = some (some p) ∧
      knn cloud.points p k.toNat = .ok idx ∧ c'.covs[i]? = some (some C) ∧ (idx.length < 5 → C = diagonal ![1, 1, 1, 0]) ∧
      (5 ≤ idx.length → ∃ pts : List V4, idx.map (fun j => cloud.points[j]?) = pts.map (fun q => some (some q)) ∧ SymPSD (sampleCov (pts.map head3)) ∧
        ∀ V, V = eig (sampleCov (pts.map head3)) → block33 C = V * diagonal ![1 / 1000, 1, 1] * Vᵀ ∧ (∀ a b : Fin 4, a = 3 ∨ b = 3 → C a b = 0) ∧
          (Vᵀ * V = 1 → SymPSD C ∧ C.trace = 2001 / 1000 ∧ block33 C = 1 - (999 / 1000 : ℝ) • vecMulVec (fun a => V a 0) (fun a => V a 0) ∧
            ∀ x, 1 / 1000 * (x ⬝ᵥ x) ≤ x ⬝ᵥ block33 C *ᵥ x ∧ x ⬝ᵥ block33 C *ᵥ x ≤ x ⬝ᵥ x)) := by
  obtain ⟨knn, h1, h2, h3⟩ := estimate_values S eig mkTree k cloud c' h
  obtain ⟨hp, _, _, _⟩ := resize_self cloud
  refine ⟨knn, h1, fun i hi => ?_⟩
  have := h3 i
  rw [if_pos hi] at this
  obtain ⟨p, f, hpi, hf, _, hc⟩ := this
  rw [hS, if_pos rfl] at hc
  obtain ⟨idx, hk, hcase⟩ := frame_meaning (by rw [hp]; exact hpi) hf
  rw [hp] at hk hcase
  refine ⟨p, idx, cval f, hpi, hk, hc, ?_, ?_⟩
  · intro hlt
    rcases hcase with ⟨_, rfl⟩ | ⟨hge, _⟩
    · ext a b
      fin_cases a <;> fin_cases b <;> simp [cval, invalidCov, diagonal, Matrix.one_apply]
    · omega
  · intro hge
    rcases hcase with ⟨hlt, _⟩ | ⟨_, pts, hpts, rfl⟩
    · omega
    · refine ⟨pts, hpts, sampleCov_psd _, fun V hV => ?_⟩
      subst hV
      generalize eig (sampleCov (pts.map head3)) = V
      show block33 (covOf V) = _ ∧ (∀ a b : Fin 4, a = 3 ∨ b = 3 → covOf V a b = 0) ∧ (Vᵀ * V = 1 → SymPSD (covOf V) ∧ (covOf V).trace = _ ∧ block33 (covOf V) = _ ∧ _)
      obtain ⟨hb, hz⟩ := covOf_block V
      refine ⟨hb, hz, fun hV => ?_⟩
      have hn := covOf_normal hV
      have hv : (fun a => V a 0) ⬝ᵥ (fun a => V a 0) = 1 := by
        have := congrFun (congrFun hV 0) 0
        simp only [Matrix.mul_apply, transpose_apply, one_apply_eq] at this
        exact this
      have hform : ∀ x : Fin 3 → ℝ, x ⬝ᵥ block33 (covOf V) *ᵥ x = x ⬝ᵥ x - 999 / 1000 * ((fun a => V a 0) ⬝ᵥ x) ^ 2 := by
        intro x
        rw [hn]
        simp only [sub_mulVec, one_mulVec, smul_mulVec, dotProduct_sub, dotProduct_smul, smul_eq_mul]
        congr 2
        simp only [dotProduct, mulVec, vecMulVec_apply, Fin.sum_univ_three]
        ring
      have hcs : ∀ x : Fin 3 → ℝ, ((fun a => V a 0) ⬝ᵥ x) ^ 2 ≤ x ⬝ᵥ x := by
        intro x
        simp only [dotProduct, Fin.sum_univ_three] at hv ⊢
        nlinarith [sq_nonneg (V 0 0 * x 1 - V 1 0 * x 0), sq_nonneg (V 0 0 * x 2 - V 2 0 * x 0), sq_nonneg (V 1 0 * x 2 - V 2 0 * x 1)]
      have hbounds : ∀ x : Fin 3 → ℝ, 1 / 1000 * (x ⬝ᵥ x) ≤ x ⬝ᵥ block33 (covOf V) *ᵥ x ∧ x ⬝ᵥ block33 (covOf V) *ᵥ x ≤ x ⬝ᵥ x := by
        intro x
        rw [hform]
        have h1 := hcs x
        have h2 := sq_nonneg ((fun a => V a 0) ⬝ᵥ x)
        constructor <;> linarith
      refine ⟨⟨?_, fun x => ?_⟩, ?_, hn, hbounds⟩
      · have hs : (block33 (covOf V))ᵀ = block33 (covOf V) := by
          rw [hb, transpose_mul, transpose_mul, transpose_transpose, diagonal_transpose, Matrix.mul_assoc]
        ext a b
        rw [transpose_apply]
        by_cases ha : a = 3
        · rw [hz b a (.inr ha), hz a b (.inl ha)]
        · by_cases hb' : b = 3
          · rw [hz b a (.inl hb'), hz a b (.inr hb')]
          · have ha' : a.val < 3 := by omega
            have hb'' : b.val < 3 := by omega
            have := congrFun (congrFun hs ⟨a.val, ha'⟩) ⟨b.val, hb''⟩
            exact this
      · rw [form_border hz]
        have h1 := (hbounds (head3 x)).1
        have h2 : 0 ≤ head3 x ⬝ᵥ head3 x := by
          simp only [dotProduct, Fin.sum_univ_three]
          nlinarith [mul_self_nonneg (head3 x 0), mul_self_nonneg (head3 x 1), mul_self_nonneg (head3 x 2)]
        linarith
      · have h1 : (covOf V).trace = (block33 (covOf V)).trace := by
          simp only [Matrix.trace, Matrix.diag, Fin.sum_univ_four, Fin.sum_univ_three, hz 3 3 (.inl rfl), add_zero]
          rfl
        rw [h1, hn, trace_sub, trace_smul, trace_one]
        simp only [dotProduct, Fin.sum_univ_three] at hv
        simp only [Matrix.trace, Matrix.diag, vecMulVec_apply, Fin.sum_univ_three, smul_eq_mul, hv, Fintype.card_fin]
        norm_num

/-- The stored covariance does not depend on the signs of the eigenvectors. -/
theorem C48_signs (V : M3) (s : Fin 3 → ℝ) (hs : ∀ a, s a = 1 ∨ s a = -1) : covOf (V * diagonal s) = covOf V := by
  unfold covOf
  congr 1
  rw [transpose_mul, diagonal_transpose, Matrix.mul_assoc V, diagonal_mul_diagonal, Matrix.mul_assoc, ← Matrix.mul_assoc (diagonal _), diagonal_mul_diagonal, ← Matrix.mul_assoc]
  congr 2
  ext a b
  simp only [diagonal, of_apply]
  split
  · rcases hs a with h | h <;> rw [h] <;> ring
  · rfl

/-! ### example -/

/-- Five points of the plane `z = 1`: four corners of a square and its centre. -/
noncomputable def flatCloud : RCloud := ⟨[some ![1, 0, 1, 1], some ![-1, 0, 1, 1], some ![0, 2, 1, 1], some ![0, -2, 1, 1], some ![0, 0, 1, 1]], [], []⟩

/-- Every search finds all five points. -/
def allFive : Search := fun _ _ _ => .ok [0, 1, 2, 3, 4]

/-- The eigenbasis of their covariance. -/
def flatBasis : M3 := !![0, 1, 0; 0, 0, 1; 1, 0, 0]

theorem flat_cov : sampleCov [![1, 0, 1], ![-1, 0, 1], ![0, 2, 1], ![0, -2, 1], ![0, 0, 1]] = diagonal ![2 / 5, 8 / 5, 0] := by
  have hc : meanPoint [![1, 0, 1], ![-1, 0, 1], ![0, 2, 1], ![0, -2, 1], ![0, 0, 1]] = ![0, 0, 1] := by
    funext a
    fin_cases a <;> simp [meanPoint] <;> norm_num
  ext a b
  simp only [sampleCov, hc]
  fin_cases a <;> fin_cases b <;> simp [diagonal] <;> norm_num

example : EigenBasis (sampleCov [![1, 0, 1], ![-1, 0, 1], ![0, 2, 1], ![0, -2, 1], ![0, 0, 1]]) flatBasis := by
  rw [flat_cov]
  refine ⟨?_, ![0, 2 / 5, 8 / 5], ?_, by simp; norm_num, by simp; norm_num⟩
  · ext a b
    fin_cases a <;> fin_cases b <;> simp [flatBasis, Matrix.mul_apply, Fin.sum_univ_three, Matrix.one_apply]
  · ext a b
    fin_cases a <;> fin_cases b <;> simp [flatBasis, Matrix.mul_apply, Fin.sum_univ_three, diagonal]

/-- The estimation succeeds on them. -/
example : ∃ c', estimate normalCovarianceSetter (fun _ => flatBasis) (fun _ => .ok allFive) 10 flatCloud = .ok c' := ⟨_, rfl⟩

/-- Two threads take the points alternately, the second overtaking the first in the middle of a point; the execution is complete and
meets the hypotheses of `C49_parallel`. -/
example : [[0, 2], [1, 3, 4]].flatten.Perm (List.range flatCloud.size) ∧
    ∃ r, estimatePar normalCovarianceSetter (fun _ => flatBasis) (fun _ => .ok allFive) 10 flatCloud [[0, 2], [1, 3, 4]]
      [0, 1, 1, 0, 0, 1, 1, 1, 0, 1, 1, 0, 0, 1, 1] = some r :=
  ⟨by decide, _, rfl⟩

end Verif.Props
