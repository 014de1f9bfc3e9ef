import Verif.Props.Misfit

/-!
C86: the order of the points does not matter. With one thread `align` gives the same result for any order of its two inputs; descents on nearest pairs do not depend on the order; and with points that are
alone in their cells and a descent without ties, ICP gives the same result for any order and any number of threads.
-/

set_option linter.unusedSectionVars false
set_option linter.unusedSimpArgs false
set_option linter.unnecessarySeqFocus false

namespace Verif.Spec

open Matrix Verif Verif.Factors

/-- The only nearest target point, if one is within the gate: no ties. -/
def OnlyNearest (tgt : List Site) (gate : ℝ) (q : Fin 3 → ℝ) (o : Option Site) : Prop := NearestWithin tgt gate q o ∧ ∀ o', NearestWithin tgt gate q o' → o' = o

/-- A point without features. -/
def plainSite (p : Pt ℝ) : Site := ⟨xyz p, 0, 0⟩

/-- Every point is in the supported range and alone in its cell. -/
def Alone (leaf : ℝ) (pts : List (Pt ℝ)) : Prop := (∀ p ∈ pts, GridInRange leaf p) ∧ (pts.map (gridCell leaf)).Nodup

end Verif.Spec

namespace Verif.Props

open Matrix Verif Verif.Knn Verif.KdTree Verif.Proofs Verif.Proofs.RegMem Verif.Factors Verif.Reduction Verif.Optimizer Verif.PointCloud Verif.RegMem Verif.Spec Verif.Lie
open Verif.Pipeline Verif.Features Verif.Downsample Verif.Helper

/-! ### Descents -/

theorem perm_lift {A B : Type} {l : List (A × B)} {l' : List A} (h : (l.map Prod.fst).Perm l') : ∃ z : List (A × B), l.Perm z ∧ z.map Prod.fst = l' := by
  generalize hk : l.map Prod.fst = k at h
  induction h generalizing l with
  | nil => exact ⟨l, .refl _, hk⟩
  | cons a h ih =>
    cases l with
    | nil => cases hk
    | cons p l =>
      simp only [List.map_cons, List.cons.injEq] at hk
      obtain ⟨z, h1, h2⟩ := ih hk.2
      exact ⟨p :: z, h1.cons _, by rw [List.map_cons, h2, hk.1]⟩
  | swap a b t =>
    cases l with
    | nil => cases hk
    | cons p l =>
      cases l with
      | nil => simp at hk
      | cons q l =>
        simp only [List.map_cons, List.cons.injEq] at hk
        exact ⟨q :: p :: l, .swap _ _ _, by simp [hk.1, hk.2.1, hk.2.2]⟩
  | trans _ _ ih1 ih2 =>
    obtain ⟨z, h1, h2⟩ := ih1 hk
    obtain ⟨z', h3, h4⟩ := ih2 h2
    exact ⟨z', h1.trans h3, h4⟩

theorem zip_sum (z : List (Site × Option Site)) (f : Site → Site → ℝ) : pairSum (z.map Prod.fst) (z.map Prod.snd) f = (z.map fun p => match p.2 with | none => 0 | some t => f t p.1).sum := by
  unfold pairSum
  induction z with
  | nil => rfl
  | cons p z ih =>
    simp only [List.map_cons, List.zipWith_cons_cons, List.sum_cons, ih]
    rcases p with ⟨_, _ | _⟩ <;> rfl

/-- The same pairs in another order, or with features that the cost does not use, give the same system. -/
theorem linearised_carry {m : Metric} {M M' : (Fin 3 → ℝ) → Option Site → Prop} {src src' : List Site} (φ : Site → Site) (hpos : ∀ s, (φ s).pos = s.pos)
    (hw : ∀ L t s, pairWeight m L (φ t) (φ s) = pairWeight m L t s) (hM : ∀ q o, M q o → M' q (o.map φ)) (hp : (src.map φ).Perm src') {L : Pose ℝ} {partner : List (Option Site)}
    {H : Matrix (Fin 6) (Fin 6) ℝ} {b : Fin 6 → ℝ} (h : Linearised m M src L partner H b) :
    ∃ partner', Linearised m M' src' L partner' H b ∧ paired partner' = paired partner ∧ ∀ L' T, totalCost m src' partner' L' T = totalCost m src partner L' T := by
  have hlen : src.length = partner.length := h.matched.length_eq
  set z0 := (src.zip partner).map fun p => (φ p.1, p.2.map φ) with hz0
  have hz0f : z0.map Prod.fst = src.map φ := by
    rw [hz0, List.map_map]
    have : (Prod.fst ∘ fun p : Site × Option Site => (φ p.1, p.2.map φ)) = φ ∘ Prod.fst := rfl
    rw [this, ← List.map_map, List.map_fst_zip (by omega)]
  have hz0s : z0.map Prod.snd = partner.map (Option.map φ) := by
    rw [hz0, List.map_map]
    have : (Prod.snd ∘ fun p : Site × Option Site => (φ p.1, p.2.map φ)) = (Option.map φ) ∘ Prod.snd := rfl
    rw [this, ← List.map_map, List.map_snd_zip (by omega)]
  have hp' : (z0.map Prod.fst).Perm src' := by rw [hz0f]; exact hp
  obtain ⟨z, hz, rfl⟩ := perm_lift hp'
  have hsum : ∀ (f g : Site → Site → ℝ), (∀ t s, g (φ t) (φ s) = f t s) → pairSum (z.map Prod.fst) (z.map Prod.snd) g = pairSum src partner f := by
    intro f g hfg
    rw [zip_sum, ← (hz.map _).sum_eq, hz0, List.map_map]
    have e1 := zip_sum (src.zip partner) f
    rw [List.map_fst_zip (by omega), List.map_snd_zip (by omega)] at e1
    rw [e1]
    congr 1
    refine List.map_congr_left ?_
    rintro ⟨s, o⟩ _
    cases o with
    | none => rfl
    | some t => exact hfg t s
  have hdiff : ∀ T t s, pairDiff T (φ t) (φ s) = pairDiff T t s := by
    intro T t s
    unfold pairDiff
    rw [hpos, hpos]
  have hcost : ∀ L' T, totalCost m (z.map Prod.fst) (z.map Prod.snd) L' T = totalCost m src partner L' T := by
    intro L' T
    refine hsum _ _ fun t s => ?_
    unfold pairCost
    rw [hdiff, hw]
  have hspeed : ∀ x t s, pairSpeed L x (φ t) (φ s) = pairSpeed L x t s := by
    intro x t s
    unfold pairSpeed
    simp only [hdiff]
  refine ⟨z.map Prod.snd, ⟨?_, h.psd, fun x => ?_, fun x => ?_⟩, ?_, hcost⟩
  · have hall : ∀ p ∈ z, M' (move L p.1.pos) p.2 := by
      intro p hpz
      have hp0 := hz.mem_iff.2 hpz
      rw [hz0] at hp0
      obtain ⟨⟨s, o⟩, hso, rfl⟩ := List.mem_map.1 hp0
      show M' (move L (φ s).pos) (o.map φ)
      rw [hpos]
      exact hM _ _ ((List.forall₂_iff_zip.1 h.matched).2 hso)
    clear hz hp hp' hsum hcost
    induction z with
    | nil => exact .nil
    | cons p z ih => exact .cons (hall p (by simp)) (ih fun q hq => hall q (by simp [hq]))
  · rw [h.hess x]
    symm
    refine hsum _ _ fun t s => ?_
    rw [hspeed, hw]
  · simp only [hcost]
    exact h.grad x
  · unfold paired
    rw [← (hz.map Prod.snd).countP_eq, hz0s, List.countP_map]
    refine List.countP_congr fun o _ => ?_
    cases o <;> simp

/-- A descent carried over. -/
theorem run_carry {m : Metric} {M M' : (Fin 3 → ℝ) → Option Site → Prop} {src src' : List Site} (φ : Site → Site) (hpos : ∀ s, (φ s).pos = s.pos)
    (hw : ∀ L t s, pairWeight m L (φ t) (φ s) = pairWeight m L t s) (hM : ∀ q o, M q o → M' q (o.map φ)) (hp : (src.map φ).Perm src') {inner : Nat} {factor re te : ℝ} {n i : Nat} {lam : ℝ}
    {r res : Result ℝ} (h : LMRun m M src inner factor re te n i lam r res) : LMRun m M' src' inner factor re te n i lam r res := by
  induction h with
  | budget => exact .budget _ _ _
  | done n i lam r hc => exact .done _ _ _ _ hc
  | stuck n i lam r p H b d hc hlin hd =>
    obtain ⟨p', h1, h2, h3⟩ := linearised_carry φ hpos hw hM hp hlin
    rw [← h2, ← h3 r.T r.T]
    refine .stuck n i lam r p' H b d hc h1 fun k hk => ?_
    rw [h3, h3]
    exact hd k hk
  | step n i lam r r' p H b k d hc hlin hk hd hdk hle _ ih =>
    obtain ⟨p', h1, h2, h3⟩ := linearised_carry φ hpos hw hM hp hlin
    refine .step n i lam r r' p' H b k d hc h1 hk (fun j hj => ?_) hdk (by rw [h3, h3]; exact hle) ?_
    · rw [h3, h3]
      exact hd j hj
    · rw [h2, h3]
      exact ih

theorem nearest_members {tgt tgt' : List Site} (h : ∀ t, t ∈ tgt ↔ t ∈ tgt') (gate : ℝ) (q : Fin 3 → ℝ) (o : Option Site) : NearestWithin tgt gate q o → NearestWithin tgt' gate q o := by
  cases o with
  | none => exact fun hn t ht => hn t ((h t).2 ht)
  | some t => exact fun ⟨h1, h2, h3⟩ => ⟨(h t).1 h1, h2, fun t' ht' => h3 t' ((h t').2 ht')⟩

/-- C86. Descents on nearest pairs do not depend on the order of the two clouds: the same outcomes are possible. -/
theorem C86_descent {m : Metric} {tgt tgt' src src' : List Site} (hT : tgt.Perm tgt') (hS : src.Perm src') (gate : ℝ) {inner : Nat} {factor re te : ℝ} {n i : Nat} {lam : ℝ} {r res : Result ℝ} :
    LMRun m (NearestWithin tgt gate) src inner factor re te n i lam r res ↔ LMRun m (NearestWithin tgt' gate) src' inner factor re te n i lam r res := by
  have key : ∀ {tgt tgt' src src' : List Site}, tgt.Perm tgt' → src.Perm src' → LMRun m (NearestWithin tgt gate) src inner factor re te n i lam r res →
      LMRun m (NearestWithin tgt' gate) src' inner factor re te n i lam r res := by
    intro tgt tgt' src src' hT hS
    refine run_carry id (fun _ => rfl) (fun _ _ _ => rfl) (fun q o ho => ?_) (by rwa [List.map_id])
    rw [Option.map_id, id]
    exact nearest_members (fun t => hT.mem_iff) gate q o ho
  exact ⟨key hT hS, key hT.symm hS.symm⟩

/-! ### One thread -/

/-- C86. With one thread `align` gives the same outcome for any order of the points of target and source (each empty, or with at least one point in the range of the down-sampling), for every method. -/
theorem C86_serial {e : Env} (he : EnvMeets e) {T : Type} {d : Nat} (cast : T → ℝ) {target target' source source' : List (Fin (d + 3) → T)} {s : Setting}
    (hleaf : s.downsamplingResolution ≠ 0) (hone : s.numThreads = 1) (hT : target.Perm target') (hS : source.Perm source') (hfT : InputFits cast s.downsamplingResolution target)
    (hfS : InputFits cast s.downsamplingResolution source) (hrT : target = [] ∨ ∃ p ∈ target, GridInRange s.downsamplingResolution (vecPoint cast p))
    (hrS : source = [] ∨ ∃ p ∈ source, GridInRange s.downsamplingResolution (vecPoint cast p)) (xt xt' xs xs' : PrepExec) (y : RegExec) (initT : Pose ℝ) :
    Pipeline.align e xt xs y cast target source initT s = Pipeline.align e xt' xs' y cast target' source' initT s := by
  have key : ∀ {l l' : List (Fin (d + 3) → T)} (x x' : PrepExec), l.Perm l' → InputFits cast s.downsamplingResolution l →
      (l = [] ∨ ∃ p ∈ l, GridInRange s.downsamplingResolution (vecPoint cast p)) →
      preprocessVector e x cast l s.downsamplingResolution 10 s.numThreads = preprocessVector e x' cast l' s.downsamplingResolution 10 s.numThreads := by
    intro l l' x x' hp hf hr
    have hc : ∀ l : List (Fin (d + 3) → T), cloudPoints (⟨l.map (fun p => some (homogeneous cast p)), List.replicate l.length none, List.replicate l.length none⟩ : RCloud) =
        .ok (l.map (vecPoint cast)) := by
      intro l
      refine cloudPoints_of _ _ ?_
      rw [List.map_map]
      refine List.map_congr_left fun p _ => ?_
      rw [homogeneous_eq]
      rfl
    unfold preprocessVector
    rw [C50_constructor, C50_constructor]
    simp only
    unfold Pipeline.preprocess
    rw [hc, hc]
    simp only [if_pos hone]
    have hs : voxelgridSampling e.sort (l.map (vecPoint cast)) s.downsamplingResolution = voxelgridSampling e.sort (l'.map (vecPoint cast)) s.downsamplingResolution := by
      rcases hr with rfl | hr
      · rw [hp.nil_eq]
      · obtain ⟨out, h1, h2⟩ := C23_input_order he.sort he.sort hleaf (hp.map (vecPoint cast)) (by simpa using hf.2) (by simp [vecPoint]) (by simpa using hr)
        rw [h1, h2]
    rw [hs]
  unfold Pipeline.align
  rw [key xt xt' hT hfT hrT, key xs xs' hS hfS hrS]

/-! ### Points that are alone in their cells -/

theorem centroid_one (p : Pt ℝ) : centroid [p] = p := by
  cases p
  simp [centroid]

theorem cell_alone {leaf : ℝ} {pts : List (Pt ℝ)} (h : Alone leaf pts) {p : Pt ℝ} (hp : p ∈ pts) : cellPoints leaf pts (gridCell leaf p) = [p] := by
  obtain ⟨h1, h2⟩ := h
  unfold cellPoints
  induction pts with
  | nil => simp at hp
  | cons a pts ih =>
    simp only [List.map_cons, List.nodup_cons] at h2
    rcases List.mem_cons.1 hp with rfl | hp'
    · rw [List.filter_cons_of_pos (by simpa using h1 p (by simp)), List.filter_eq_nil_iff.2]
      intro b hb hb'
      simp only [decide_eq_true_eq] at hb'
      exact h2.1 (by rw [← hb'.2]; exact List.mem_map_of_mem hb)
    · rw [List.filter_cons_of_neg]
      · exact ih hp' (fun q hq => h1 q (by simp [hq])) h2.2
      · intro hb
        simp only [decide_eq_true_eq] at hb
        exact h2.1 (by rw [hb.2]; exact List.mem_map_of_mem hp')

theorem groups_alone {leaf : ℝ} : ∀ {G : List (List (Pt ℝ))}, (∀ g ∈ G, g ≠ [] ∧ ∃ c, ∀ p ∈ g, gridCell leaf p = c) → (G.flatten.map (gridCell leaf)).Nodup → G.map centroid = G.flatten
  | [], _, _ => rfl
  | g :: G, hg, hn => by
    obtain ⟨h1, c, h2⟩ := hg g (by simp)
    rw [List.flatten_cons, List.map_append] at hn
    have hg1 : ∃ p, g = [p] := by
      cases g with
      | nil => exact absurd rfl h1
      | cons p g =>
        cases g with
        | nil => exact ⟨p, rfl⟩
        | cons q g =>
          have := (List.nodup_append.1 hn).1
          rw [List.map_cons, List.map_cons, List.nodup_cons] at this
          exact absurd (by rw [h2 p (by simp), h2 q (by simp)]; simp) this.1
    obtain ⟨p, rfl⟩ := hg1
    rw [List.map_cons, centroid_one, groups_alone (fun g hg' => hg g (by simp [hg'])) (List.nodup_append.1 hn).2.1]
    rfl

/-- Points that are alone in their cells are kept as they are, by any number of threads. -/
theorem sampled_alone {threads : Int} {leaf : ℝ} {pts out : List (Pt ℝ)} (h : Sampled threads leaf pts out) (ha : Alone leaf pts) : out.Perm pts := by
  unfold Sampled at h
  rcases eq_or_ne pts [] with rfl | hne
  · split at h
    · rw [h.1 rfl]
    · rw [h.1 rfl]
  split at h
  · obtain ⟨cells, h1, h2, rfl⟩ := h.2.1 (by
      obtain ⟨p, hp⟩ := List.exists_mem_of_ne_nil _ hne
      exact ⟨p, hp, ha.1 p hp⟩)
    have hperm : cells.Perm (pts.map (gridCell leaf)) := by
      rw [List.perm_ext_iff_of_nodup h1 ha.2]
      intro c
      rw [h2 c, List.mem_map]
      exact ⟨fun ⟨p, a, _, b⟩ => ⟨p, a, b⟩, fun ⟨p, a, b⟩ => ⟨p, a, ha.1 p a, b⟩⟩
    refine (hperm.map _).trans ?_
    rw [List.map_map]
    have : pts.map ((fun c => centroid (cellPoints leaf pts c)) ∘ gridCell leaf) = pts.map id := List.map_congr_left fun p hp => by
      show centroid (cellPoints leaf pts (gridCell leaf p)) = p
      rw [cell_alone ha hp, centroid_one]
    rw [this, List.map_id]
  · obtain ⟨G, E, h1, h2, h3, h4, _⟩ := h.2 hne
    have hf : pts.filter (fun p => (open Classical in decide (GridInRange leaf p))) = pts := by
      rw [List.filter_eq_self]
      intro p hp
      simpa using ha.1 p hp
    rw [hf] at h2
    have hE : E = [] := by
      cases E with
      | nil => rfl
      | cons p E =>
        obtain ⟨a, b⟩ := h4 p (by simp)
        exact absurd (ha.1 p a) b
    rw [hE, List.append_nil, groups_alone h3 ((h2.map _).nodup_iff.2 ha.2)] at h1
    exact h1.trans h2

/-- C86. ICP on two vectors of points that are alone in their cells is a descent on the points themselves, in any order, for any number of threads and every complete execution. -/
theorem C86_alone {e : Env} (he : EnvMeets e) {T : Type} {d : Nat} (cast : T → ℝ) {target target' source source' : List (Fin (d + 3) → T)} {s : Setting} (hleaf : s.downsamplingResolution ≠ 0)
    (htype : s.type = .icp) (hgate : s.maxCorrespondenceDistance * s.maxCorrespondenceDistance < e.maxD) (hT : target'.Perm target) (hS : source'.Perm source)
    (hfT : InputFits cast s.downsamplingResolution target) (hfS : InputFits cast s.downsamplingResolution source) (haT : Alone s.downsamplingResolution (target.map (vecPoint cast)))
    (haS : Alone s.downsamplingResolution (source.map (vecPoint cast))) {initT : Pose ℝ}
    {xt xs : PrepExec} {y : RegExec} (hy : RunsToEnd y s.numThreads.toNat) {r : Res (Result ℝ)} (h : Pipeline.align e xt xs y cast target' source' initT s = some r)
    (hdef : ¬ (target' = [] ∧ source' ≠ [] ∧ 0 < s.maxIterations)) :
    ∃ res, r = .ok res ∧ LMRun .point (NearestWithin (target.map fun p => plainSite (vecPoint cast p)) (s.maxCorrespondenceDistance * s.maxCorrespondenceDistance))
      (source.map fun p => plainSite (vecPoint cast p)) 10 10 s.rotationEps s.translationEps s.maxIterations.toNat 0 (1 / 1000) (Result.init initT) res := by
  have fits : ∀ {l l' : List (Fin (d + 3) → T)}, l'.Perm l → InputFits cast s.downsamplingResolution l → InputFits cast s.downsamplingResolution l' := fun hp hf =>
    ⟨by rw [hp.length_eq]; exact hf.1, fun p hp' => hf.2 p (hp.mem_iff.1 hp')⟩
  have alone : ∀ {l l' : List (Fin (d + 3) → T)}, l'.Perm l → Alone s.downsamplingResolution (l.map (vecPoint cast)) → Alone s.downsamplingResolution (l'.map (vecPoint cast)) := fun hp ha =>
    ⟨fun p hp' => ha.1 p ((hp.map _).mem_iff.1 hp'), (((hp.map _).map _).nodup_iff).2 ha.2⟩
  have hmm : MethodMetric s.type .point := by rw [htype]; exact .icp
  obtain ⟨res, outT, outS, tgt, src, rfl, h1, h2, h3, h4, h5⟩ := C67_clouds he cast hleaf (fits hT hfT) (fits hS hfS) hmm hgate hy h hdef
  have pT := (sampled_alone h1 (alone hT haT)).trans (hT.map _)
  have pS := (sampled_alone h2 (alone hS haS)).trans (hS.map _)
  let φ : Site → Site := fun t => ⟨t.pos, 0, 0⟩
  have hφ : ∀ {out : List (Pt ℝ)} {l : List Site}, LocalSites out e.maxD 10 l → l.map φ = out.map plainSite := by
    intro out l hl
    have : l.map φ = (l.map Site.pos).map fun v => (⟨v, 0, 0⟩ : Site) := by rw [List.map_map]; rfl
    rw [this, hl.1, List.map_map]
    rfl
  have hsrc : (src.map φ).Perm (source.map fun p => plainSite (vecPoint cast p)) := by
    rw [hφ h4]
    have := pS.map plainSite
    rwa [List.map_map] at this
  have htgt : (tgt.map φ).Perm (target.map fun p => plainSite (vecPoint cast p)) := by
    rw [hφ h3]
    have := pT.map plainSite
    rwa [List.map_map] at this
  refine ⟨res, rfl, run_carry (M' := NearestWithin (target.map fun p => plainSite (vecPoint cast p)) (s.maxCorrespondenceDistance * s.maxCorrespondenceDistance)) φ (fun _ => rfl) (fun _ _ _ => rfl)
    (fun q o ho => by
      refine nearest_members (fun t => htgt.mem_iff) _ q _ ?_
      cases o with
      | none =>
        intro t ht
        obtain ⟨t0, h0, rfl⟩ := List.mem_map.1 ht
        exact ho t0 h0
      | some t =>
        refine ⟨List.mem_map_of_mem ho.1, ho.2.1, fun t' ht' => ?_⟩
        obtain ⟨t0, h0, rfl⟩ := List.mem_map.1 ht'
        exact ho.2.2 t0 h0) hsrc h5⟩

/-- C86. ICP on two vectors of points that are alone in their cells: if the descent on the points themselves meets no ties, its outcome is the result, for any order of the points, any number of
threads and every complete execution. -/
theorem C86_icp {e : Env} (he : EnvMeets e) {T : Type} {d : Nat} (cast : T → ℝ) {target target' source source' : List (Fin (d + 3) → T)} {s : Setting} (hleaf : s.downsamplingResolution ≠ 0)
    (htype : s.type = .icp) (hgate : s.maxCorrespondenceDistance * s.maxCorrespondenceDistance < e.maxD) (hT : target'.Perm target) (hS : source'.Perm source)
    (hfT : InputFits cast s.downsamplingResolution target) (hfS : InputFits cast s.downsamplingResolution source) (haT : Alone s.downsamplingResolution (target.map (vecPoint cast)))
    (haS : Alone s.downsamplingResolution (source.map (vecPoint cast))) {initT : Pose ℝ} {res0 : Result ℝ}
    (hrun : LMRun .point (OnlyNearest (target.map fun p => plainSite (vecPoint cast p)) (s.maxCorrespondenceDistance * s.maxCorrespondenceDistance)) (source.map fun p => plainSite (vecPoint cast p)) 10 10
      s.rotationEps s.translationEps s.maxIterations.toNat 0 (1 / 1000) (Result.init initT) res0)
    {xt xs : PrepExec} {y : RegExec} (hy : RunsToEnd y s.numThreads.toNat) {r : Res (Result ℝ)} (h : Pipeline.align e xt xs y cast target' source' initT s = some r)
    (hdef : ¬ (target' = [] ∧ source' ≠ [] ∧ 0 < s.maxIterations)) : r = .ok res0 := by
  obtain ⟨res, rfl, hrun2⟩ := C86_alone he cast hleaf htype hgate hT hS hfT hfS haT haS hy h hdef
  rw [C67_determined (by norm_num) (fun q o o' ho ho' => (ho.2 o' ho').symm) (by norm_num) hrun hrun2]

/-! ### A concrete case -/

/-- A single iteration only asks for partners at the initial pose. -/
theorem once_only {m : Metric} {M M' : (Fin 3 → ℝ) → Option Site → Prop} {src : List Site} {inner : Nat} {factor re te lam : ℝ} {T : Pose ℝ} {res : Result ℝ}
    (hM : ∀ s ∈ src, ∀ o, M (move T s.pos) o → M' (move T s.pos) o) (h : LMRun m M src inner factor re te 1 0 lam (Result.init T) res) :
    LMRun m M' src inner factor re te 1 0 lam (Result.init T) res := by
  have lin : ∀ {p H b}, Linearised m M src T p H b → Linearised m M' src T p H b := fun hl =>
    ⟨by
      rw [List.forall₂_iff_zip]
      refine ⟨hl.matched.length_eq, fun {s o} hso => hM s (List.of_mem_zip hso).1 o ((List.forall₂_iff_zip.1 hl.matched).2 hso)⟩, hl.psd, hl.hess, hl.grad⟩
  cases h with
  | done _ _ _ _ hc => cases hc
  | stuck _ _ _ _ p H b d hc hlin hd => exact .stuck _ _ _ _ p H b d hc (lin hlin) hd
  | step _ _ _ _ _ p H b k d hc hlin hk hd hdk hle hr =>
    refine .step _ _ _ _ _ p H b k d hc (lin hlin) hk hd hdk hle ?_
    cases hr with
    | budget => exact .budget _ _ _
    | done _ _ _ _ hc => exact .done _ _ _ _ hc

theorem nearest_only {tgt : List Site} {gate : ℝ} {q : Fin 3 → ℝ} {s : Site} (hs : s ∈ tgt) (hg : (s.pos - q) ⬝ᵥ (s.pos - q) ≤ gate)
    (hlt : ∀ t ∈ tgt, t ≠ s → (s.pos - q) ⬝ᵥ (s.pos - q) < (t.pos - q) ⬝ᵥ (t.pos - q)) {o : Option Site} (ho : NearestWithin tgt gate q o) : o = some s := by
  cases o with
  | none => exact absurd hg (not_le.2 (ho s hs))
  | some t =>
    by_contra hne
    exact absurd (ho.2.2 s hs) (not_le.2 (hlt t ho.1 fun h => hne (by rw [h])))

theorem parabola3_alone : Alone 1 (parabola3.map (vecPoint fun x : ℝ => x)) := by
  constructor
  · simp [parabola3, vecPoint, GridInRange, In21]
  · simp [parabola3, vecPoint, gridCell]

/-- Six points moved by a quarter: each has one nearest target point. One iteration of ICP gives one result for every order of the points, any number of threads and every execution. -/
example : ∃ (e : Env) (res0 : Result ℝ), EnvMeets e ∧ ∀ (target' source' : List (Fin (0 + 3) → ℝ)) (threads : Int) (xt xs : PrepExec) (y : RegExec) (r : Res (Result ℝ)), target'.Perm parabola3 →
    source'.Perm parabola3 → RunsToEnd y threads.toNat →
    Pipeline.align e xt xs y (fun x : ℝ => x) target' source' ⟨1, ![1 / 4, 0, 0]⟩ { Setting.default with type := .icp, downsamplingResolution := 1, maxIterations := 1, numThreads := threads } = some r →
    r = .ok res0 := by
  obtain ⟨e, he, hmax, _⟩ := env_exists 1000 (by norm_num) (0, 0)
  obtain ⟨xt, xs, y, r, hy, h⟩ := C61_executes he (fun x : ℝ => x) (s := { Setting.default with type := .icp, downsamplingResolution := 1, maxIterations := 1, numThreads := 2 }) (by simp) parabola3_fits
    parabola3_fits (by simp) ⟨1, ![1 / 4, 0, 0]⟩
  obtain ⟨res0, rfl, hrun⟩ := C86_alone he (fun x : ℝ => x) (by simp) (by rfl) (by rw [hmax]; norm_num [Setting.default]) (.refl _) (.refl _) parabola3_fits parabola3_fits parabola3_alone parabola3_alone hy h
    (by simp [parabola3])
  refine ⟨e, res0, he, fun target' source' threads xt xs y r hT hS hy h => ?_⟩
  refine C86_icp he (fun x : ℝ => x) (s := { Setting.default with type := .icp, downsamplingResolution := 1, maxIterations := 1, numThreads := threads }) (by simp) (by rfl) (by rw [hmax]; norm_num [Setting.default]) hT hS parabola3_fits parabola3_fits parabola3_alone parabola3_alone (once_only ?_ hrun) hy h ?_
  · intro s hs o ho
    refine ⟨ho, fun o' ho' => ?_⟩
    have hs' : s ∈ parabola3.map fun p => plainSite (vecPoint (fun x : ℝ => x) p) := hs
    have key : ∀ o, NearestWithin (parabola3.map fun p => plainSite (vecPoint (fun x : ℝ => x) p)) (1 * 1) (move ⟨1, ![1 / 4, 0, 0]⟩ s.pos) o → o = some s := by
      intro o ho
      refine nearest_only hs' ?_ ?_ ho
      · have : s.pos - move ⟨1, ![1 / 4, 0, 0]⟩ s.pos = -![1 / 4, 0, 0] := by
          simp [move]
        rw [this]
        simp [dotProduct, Fin.sum_univ_three]
        norm_num
      · intro t ht hts
        simp only [parabola3, List.map_cons, List.map_nil, List.mem_cons, List.not_mem_nil, or_false] at hs' ht
        rcases hs' with rfl | rfl | rfl | rfl | rfl | rfl <;> rcases ht with rfl | rfl | rfl | rfl | rfl | rfl <;> first
          | exact absurd rfl hts
          | (simp [plainSite, vecPoint, xyz, move, dotProduct, Fin.sum_univ_three]; norm_num)
    rw [key o ho, key o' ho']
  · rintro ⟨rfl, _⟩
    simp [parabola3] at hT

/-- With one thread: the hypotheses of `C86_serial` hold for a cloud and its reversal, and the alignment executes. -/
example : ∃ (e : Env) (xt xs : PrepExec) (y : RegExec) (r : Res (Result ℝ)), EnvMeets e ∧
    Pipeline.align e xt xs y (fun x : ℝ => x) parabola3 parabola3 ⟨1, ![1 / 4, 0, 0]⟩ { Setting.default with downsamplingResolution := 1, numThreads := 1 } = some r ∧
    Pipeline.align e xt xs y (fun x : ℝ => x) parabola3.reverse parabola3.reverse ⟨1, ![1 / 4, 0, 0]⟩ { Setting.default with downsamplingResolution := 1, numThreads := 1 } = some r := by
  obtain ⟨e, he, hmax, _⟩ := env_exists 1000 (by norm_num) (0, 0)
  obtain ⟨xt, xs, y, r, hy, h⟩ := C61_executes he (fun x : ℝ => x) (s := { Setting.default with downsamplingResolution := 1, numThreads := 1 }) (by simp) parabola3_fits
    parabola3_fits (by simp) ⟨1, ![1 / 4, 0, 0]⟩
  have hr : ∃ p ∈ parabola3, GridInRange 1 (vecPoint (fun x : ℝ => x) p) := ⟨![0, 0, 0], by simp [parabola3], parabola3_alone.1 _ (List.mem_map_of_mem (by simp [parabola3]))⟩
  refine ⟨e, xt, xs, y, r, he, h, ?_⟩
  rw [← C86_serial he (fun x : ℝ => x) (by simp) (by simp) (List.reverse_perm _).symm (List.reverse_perm _).symm parabola3_fits parabola3_fits (.inr hr) (.inr hr) xt xt xs xs y]
  exact h

end Verif.Props
