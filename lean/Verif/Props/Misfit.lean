import Verif.Spec.Misfit
import Verif.Props.DescentMap
import Verif.Props.Robust

/-!
C74: a registration with point-to-point ICP never returns a pose that is worse than the initial guess, with the nearest neighbours found anew.
-/

set_option linter.unusedSectionVars false
set_option linter.unusedSimpArgs false
set_option linter.unnecessarySeqFocus false

namespace Verif.Props

open Matrix Verif Verif.Knn Verif.KdTree Verif.Proofs Verif.Proofs.RegMem Verif.Factors Verif.Reduction Verif.Optimizer Verif.PointCloud Verif.RegMem Verif.Spec Verif.Lie
open Verif.Pipeline Verif.Features Verif.Downsample Verif.Helper

section Gap

variable {tgt src : List Site} {gate : ℝ}

theorem nearestGap_le_gate (q : Fin 3 → ℝ) : nearestGap tgt gate q ≤ gate := by
  unfold nearestGap
  induction tgt with
  | nil => simp
  | cons t l ih => simp only [List.map_cons, List.foldr_cons]; exact (min_le_right _ _).trans ih

theorem nearestGap_le {t : Site} (ht : t ∈ tgt) (q : Fin 3 → ℝ) : nearestGap tgt gate q ≤ (t.pos - q) ⬝ᵥ (t.pos - q) := by
  unfold nearestGap
  induction tgt with
  | nil => cases ht
  | cons u l ih =>
    simp only [List.map_cons, List.foldr_cons]
    rcases List.mem_cons.1 ht with rfl | h
    · exact min_le_left _ _
    · exact (min_le_right _ _).trans (ih h)

theorem nearestGap_ge {q : Fin 3 → ℝ} {x : ℝ} (hg : x ≤ gate) (h : ∀ t ∈ tgt, x ≤ (t.pos - q) ⬝ᵥ (t.pos - q)) : x ≤ nearestGap tgt gate q := by
  unfold nearestGap
  induction tgt with
  | nil => simpa using hg
  | cons u l ih =>
    simp only [List.map_cons, List.foldr_cons]
    exact le_min (h u (by simp)) (ih (fun t ht => h t (by simp [ht])))

/-- The capped distance of a point whose partner is known. -/
theorem nearestGap_none {q : Fin 3 → ℝ} (h : NearestWithin tgt gate q none) : nearestGap tgt gate q = gate :=
  le_antisymm (nearestGap_le_gate q) (nearestGap_ge (le_refl _) (fun t ht => (h t ht).le))

theorem nearestGap_some {q : Fin 3 → ℝ} {t : Site} (h : NearestWithin tgt gate q (some t)) : nearestGap tgt gate q = (t.pos - q) ⬝ᵥ (t.pos - q) :=
  le_antisymm (nearestGap_le h.1 q) (nearestGap_ge h.2.1 h.2.2)

/-- Pairs found at the pose `L`: their cost and the number of points without partner give the misfit at `L`, and bound it at every pose. -/
theorem misfit_pairs {partner : List (Option Site)} {L : Pose ℝ} (h : List.Forall₂ (fun s o => NearestWithin tgt gate (move L s.pos) o) src partner) (T : Pose ℝ) :
    misfit tgt src gate L = 2 * totalCost .point src partner L L + gate * (src.length - paired partner) ∧
    misfit tgt src gate T ≤ 2 * totalCost .point src partner L T + gate * (src.length - paired partner) := by
  induction h with
  | nil => simp [misfit, totalCost, pairSum, paired]
  | @cons s o src partner hso h ih =>
    obtain ⟨h1, h2⟩ := ih
    simp only [misfit, totalCost, pairSum, paired, List.map_cons, List.sum_cons, List.zipWith_cons_cons, List.length_cons] at h1 h2 ⊢
    cases o with
    | none =>
      rw [h1, nearestGap_none hso]
      have := nearestGap_le_gate (tgt := tgt) (gate := gate) (move T s.pos)
      simp only [List.countP_cons, Option.isSome_none, Bool.false_eq_true, if_false, add_zero, Nat.cast_add, Nat.cast_one, zero_add] at *
      constructor
      · ring
      · linarith
    | some t =>
      rw [h1, nearestGap_some hso]
      have := nearestGap_le (gate := gate) hso.1 (move T s.pos)
      simp only [List.countP_cons, Option.isSome_some, if_true, Nat.cast_add, Nat.cast_one, pairCost, pairWeight, pairDiff, one_mulVec] at *
      constructor
      · ring
      · linarith

end Gap

section Run

variable {tgt src : List Site} {gate : ℝ} {inner : Nat} {factor re te : ℝ}

/-- C74 for a descent on nearest pairs: from any intermediate state on, the misfit does not grow. -/
theorem C74_descent {n i : Nat} {lam : ℝ} {r res : Result ℝ} (h : LMRun .point (NearestWithin tgt gate) src inner factor re te n i lam r res) :
    misfit tgt src gate res.T ≤ misfit tgt src gate r.T := by
  induction h with
  | budget => exact le_refl _
  | done => exact le_refl _
  | stuck => exact le_refl _
  | step n i lam r r' p H b k d _ hlin hk hd hdk hle hrun ih =>
    obtain ⟨h1, h2⟩ := misfit_pairs hlin.matched (r.T.mul (se3Exp (d k)))
    refine ih.trans ?_
    simp only
    linarith

/-- The reported error and number of inliers bound the misfit of the returned pose, and are bounded by that of the initial guess. -/
theorem C74_reported {n i : Nat} {lam : ℝ} {r res : Result ℝ} (h : LMRun .point (NearestWithin tgt gate) src inner factor re te n i lam r res) (hn : 0 < n) (hc : r.converged = false) :
    misfit tgt src gate res.T ≤ 2 * res.error + gate * (src.length - res.numInliers) ∧ 2 * res.error + gate * (src.length - res.numInliers) ≤ misfit tgt src gate r.T := by
  induction h with
  | budget => omega
  | done n i lam r hc' => rw [hc] at hc'; cases hc'
  | stuck n i lam r p H b d _ hlin hd =>
    obtain ⟨h1, h2⟩ := misfit_pairs hlin.matched r.T
    exact ⟨h2, h1.ge⟩
  | step n i lam r r' p H b k d _ hlin hk hd hdk hle hrun ih =>
    obtain ⟨h1, h2⟩ := misfit_pairs hlin.matched (r.T.mul (se3Exp (d k)))
    by_cases hgo : 0 < n ∧ (open Classical in decide (SmallStep re te (d k))) = false
    · obtain ⟨a, b'⟩ := ih hgo.1 hgo.2
      refine ⟨a, b'.trans ?_⟩
      simp only
      linarith
    · generalize hr1 : (⟨r.T.mul (se3Exp (d k)), (open Classical in decide (SmallStep re te (d k))), i, paired p, H, b, totalCost .point src p r.T (r.T.mul (se3Exp (d k)))⟩ : Result ℝ) = r1 at hrun
      have hstop : r' = r1 := by
        rcases Nat.eq_zero_or_pos n with rfl | hn'
        · cases hrun <;> rfl
        · have hcv1 : r1.converged = true := by
            rw [← hr1]
            cases hb : (open Classical in decide (SmallStep re te (d k))) with
            | true => rfl
            | false => exact absurd ⟨hn', hb⟩ hgo
          cases hrun with
          | budget => rfl
          | done => rfl
          | stuck _ _ _ _ _ _ _ _ hc' => rw [hcv1] at hc'; cases hc'
          | step _ _ _ _ _ _ _ _ _ _ hc' => rw [hcv1] at hc'; cases hc'
      subst hstop
      subst hr1
      simp only
      exact ⟨h2, by linarith⟩

/-- More iterations never give a worse pose: `r1` is the outcome with budget `n` of a descent that meets no ties, `r2` the outcome with budget `m`. For `M q o := M' q o ∧ ∀ o', M' q o' → o' = o`
the rules agree. -/
theorem C74_budget (hf : 0 < factor) {M M' : (Fin 3 → ℝ) → Option Site → Prop} (hM : ∀ q o o', M q o → M' q o' → o = o') (hM' : ∀ q o, M' q o → NearestWithin tgt gate q o) :
    ∀ {n m i : Nat} {lam : ℝ} {r r1 r2 : Result ℝ}, 0 < lam → n ≤ m → LMRun .point M src inner factor re te n i lam r r1 → LMRun .point M' src inner factor re te m i lam r r2 →
      misfit tgt src gate r2.T ≤ misfit tgt src gate r1.T := by
  intro n m i lam r r1 r2 hl hnm h1 h2
  have weaken : ∀ {n i : Nat} {lam : ℝ} {r res : Result ℝ}, LMRun .point M' src inner factor re te n i lam r res → LMRun .point (NearestWithin tgt gate) src inner factor re te n i lam r res := by
    intro n i lam r res h
    have hlin : ∀ {L : Pose ℝ} {p : List (Option Site)} {H : Matrix (Fin 6) (Fin 6) ℝ} {b : Fin 6 → ℝ}, Linearised .point M' src L p H b → Linearised .point (NearestWithin tgt gate) src L p H b :=
      fun h => ⟨h.matched.imp (fun _ _ hso => hM' _ _ hso), h.psd, h.hess, h.grad⟩
    induction h with
    | budget i lam r => exact .budget i lam r
    | done n i lam r hc => exact .done n i lam r hc
    | stuck n i lam r p H b d hc hl hd => exact .stuck n i lam r p H b d hc (hlin hl) hd
    | step n i lam r r' p H b k d hc hl hk hd hdk hle _ ih => exact .step n i lam r r' p H b k d hc (hlin hl) hk hd hdk hle ih
  induction h1 generalizing m r2 with
  | budget i lam r => exact C74_descent (weaken h2)
  | done n i lam r hc =>
    cases h2 with
    | budget => exact le_refl _
    | done => exact le_refl _
    | stuck _ _ _ _ _ _ _ _ hc' => simp [hc] at hc'
    | step _ _ _ _ _ _ _ _ _ _ hc' => simp [hc] at hc'
  | stuck n i lam r p H b d hc hlin hd =>
    cases h2 with
    | budget => omega
    | done _ _ _ _ hc' => simp [hc] at hc'
    | stuck => exact le_refl _
    | step _ _ _ _ _ p' H' b' k d' hc' hlin' hk hd' hdk hle =>
      obtain ⟨rfl, rfl, rfl⟩ := linearised_unique hM hlin hlin'
      have := damped_unique hlin.psd (mul_pos hl (pow_pos hf k)) (hd k hk).1 hdk
      rw [← this] at hle
      exact absurd hle (not_le.2 (hd k hk).2)
  | step n i lam r r' p H b k d hc hlin hk hd hdk hle _ ih =>
    cases h2 with
    | budget => omega
    | done _ _ _ _ hc' => simp [hc] at hc'
    | stuck _ _ _ _ p' H' b' d' hc' hlin' hd' =>
      obtain ⟨rfl, rfl, rfl⟩ := linearised_unique hM hlin hlin'
      have := damped_unique hlin.psd (mul_pos hl (pow_pos hf k)) (hd' k hk).1 hdk
      rw [← this] at hle
      exact absurd hle (not_le.2 (hd' k hk).2)
    | step _ _ _ _ _ p' H' b' k' d' hc' hlin' hk' hd' hdk' hle' hrun =>
      obtain ⟨rfl, rfl, rfl⟩ := linearised_unique hM hlin hlin'
      have hkk : k = k' := by
        rcases lt_trichotomy k k' with hlt | heq | hgt
        · have := damped_unique hlin.psd (mul_pos hl (pow_pos hf k)) (hd' k hlt).1 hdk
          rw [← this] at hle
          exact absurd hle (not_le.2 (hd' k hlt).2)
        · exact heq
        · have := damped_unique hlin.psd (mul_pos hl (pow_pos hf k')) (hd k' hgt).1 hdk'
          rw [← this] at hle'
          exact absurd hle' (not_le.2 (hd k' hgt).2)
      subst hkk
      rw [← damped_unique hlin.psd (mul_pos hl (pow_pos hf k)) hdk hdk'] at hrun
      exact ih (div_pos (mul_pos hl (pow_pos hf k)) hf) (by omega) hrun

end Run

section Align

variable {e : Env} (he : EnvMeets e) {T : Type} {d : Nat} (cast : T → ℝ) {target source : List (Fin (d + 3) → T)} {s : Setting} (hleaf : s.downsamplingResolution ≠ 0)
  (hT : InputFits cast s.downsamplingResolution target) (hS : InputFits cast s.downsamplingResolution source)

include he hleaf hT hS in
/-- C74. `align` with ICP on two vectors of points, any number of threads and every complete execution: the summed squared distances of the sampled source points to their nearest sampled target
points, capped at the gate, are at the returned pose at most what they are at the initial guess; and error and number of inliers of the result lie between the two. -/
theorem C74_align (htype : s.type = .icp) (hgate : s.maxCorrespondenceDistance * s.maxCorrespondenceDistance < e.maxD) {xt xs : PrepExec} {y : RegExec}
    (hy : RunsToEnd y s.numThreads.toNat) {initT : Pose ℝ} {r : Res (Result ℝ)} (h : Pipeline.align e xt xs y cast target source initT s = some r)
    (hdef : ¬ (target = [] ∧ source ≠ [] ∧ 0 < s.maxIterations)) :
    ∃ res outT outS tgt src, r = .ok res ∧ Sampled s.numThreads s.downsamplingResolution (target.map (vecPoint cast)) outT ∧
      Sampled s.numThreads s.downsamplingResolution (source.map (vecPoint cast)) outS ∧ tgt.map Site.pos = outT.map xyz ∧ src.map Site.pos = outS.map xyz ∧
      misfit tgt src (s.maxCorrespondenceDistance ^ 2) res.T ≤ misfit tgt src (s.maxCorrespondenceDistance ^ 2) initT ∧
      (0 < s.maxIterations →
        misfit tgt src (s.maxCorrespondenceDistance ^ 2) res.T ≤ 2 * res.error + s.maxCorrespondenceDistance ^ 2 * (outS.length - res.numInliers) ∧
        2 * res.error + s.maxCorrespondenceDistance ^ 2 * (outS.length - res.numInliers) ≤ misfit tgt src (s.maxCorrespondenceDistance ^ 2) initT) := by
  obtain ⟨res, outT, outS, tgt, src, h1, h2, h3, h4, h5, h6⟩ := C67_clouds he cast hleaf hT hS (m := .point) (htype ▸ MethodMetric.icp) hgate hy h hdef
  have hlen : src.length = outS.length := by
    have := congrArg List.length h5.1
    rwa [List.length_map, List.length_map] at this
  rw [pow_two]
  generalize s.maxCorrespondenceDistance * s.maxCorrespondenceDistance = gate at h6 ⊢
  obtain ⟨r0, hr0, hc0, hT0⟩ : ∃ r0, r0 = Result.init initT ∧ r0.converged = false ∧ r0.T = initT := ⟨_, rfl, rfl, rfl⟩
  rw [← hr0] at h6
  rw [← hT0]
  have a1 := C74_descent h6
  refine ⟨res, outT, outS, tgt, src, h1, h2, h3, h4.1, h5.1, a1, fun hit => ?_⟩
  have hn : 0 < s.maxIterations.toNat := by omega
  have a2 := C74_reported h6 hn hc0
  rw [hlen] at a2
  exact a2

end Align

section Plane

/-! ### the other metrics -/

/-- One source point at the origin and two target points with normals along x, with the exact nearest neighbour. -/
noncomputable def sceneSwitch : Scene ℝ where
  srcPoint := fun _ => ![0, 0, 0, 1]
  tgtPoint := fun k => if k = 0 then ![1, 2, 0, 1] else ![29 / 10, 0, 0, 1]
  tgtNormal := fun _ => ![1, 0, 0, 0]
  srcCov := fun _ => diagonal ![1, 1, 1, 0]
  tgtCov := fun _ => diagonal ![1, 1, 1, 0]
  nn := fun q =>
    let d0 := (1 - q 0) ^ 2 + (2 - q 1) ^ 2 + (0 - q 2) ^ 2
    let d1 := (29 / 10 - q 0) ^ 2 + (0 - q 1) ^ 2 + (0 - q 2) ^ 2
    if d0 ≤ d1 then some (0, d0) else some (1, d1)

noncomputable def switchH : Matrix (Fin 6) (Fin 6) ℝ := diagonal ![0, 0, 0, 1, 0, 0]

theorem switch_apply (x : ℝ) (i : Nat) : Pose.apply ⟨1, ![x, 0, 0]⟩ (sceneSwitch.srcPoint i) = ![x, 0, 0, 1] := by
  funext j
  fin_cases j <;> simp [sceneSwitch, Pose.apply, Pose.matrix, mulVec, dotProduct, Fin.sum_univ_four]

theorem switch_jacobian : blocks (diagonal (head3 (![1, 0, 0, 0] : Fin 4 → ℝ)) * 1 * skew (head3 (![0, 0, 0, 1] : Fin 4 → ℝ))) (diagonal (head3 (![1, 0, 0, 0] : Fin 4 → ℝ)) * (-1)) =
    !![0, 0, 0, -1, 0, 0; 0, 0, 0, 0, 0, 0; 0, 0, 0, 0, 0, 0; 0, 0, 0, 0, 0, 0] := by
  ext i j
  fin_cases i <;> fin_cases j <;> simp [blocks, skew, head3, Matrix.mul_apply, Fin.sum_univ_three, Matrix.one_apply, diagonal]

theorem switch_linearize (x y : ℝ) (k : Nat) (f : PlaneICP) (hc : correspondence sceneSwitch nullRejector ⟨1, ![x, 0, 0]⟩ 0 = some k)
    (hy : sceneSwitch.tgtNormal k * (sceneSwitch.tgtPoint k - ![x, 0, 0, 1]) = ![y, 0, 0, 0]) :
    serialLinearize (planeFactor.linearize sceneSwitch nullRejector ⟨1, ![x, 0, 0]⟩) [f] = .ok ([⟨k, 0⟩], (switchH, ![0, 0, 0, -y, 0, 0], 1 / 2 * y ^ 2)) := by
  rw [serial_ok]
  simp only [reduceSpec, List.mapIdx_cons, List.mapIdx_nil, planeFactor, PlaneICP.linearize, hc, List.sum_cons, List.sum_nil, Option.getD_some, add_zero, switch_apply, hy]
  have hJ : blocks (diagonal (head3 (sceneSwitch.tgtNormal k)) * 1 * skew (head3 (sceneSwitch.srcPoint 0))) (diagonal (head3 (sceneSwitch.tgtNormal k)) * (-1)) =
      !![0, 0, 0, -1, 0, 0; 0, 0, 0, 0, 0, 0; 0, 0, 0, 0, 0, 0; 0, 0, 0, 0, 0, 0] := switch_jacobian
  rw [hJ]
  congr 2
  refine Prod.ext ?_ (Prod.ext ?_ ?_)
  · ext i j
    fin_cases i <;> fin_cases j <;> simp [switchH, Matrix.mul_apply, Fin.sum_univ_four, diagonal]
  · funext i
    fin_cases i <;> simp [mulVec, dotProduct, Fin.sum_univ_four]
  · simp [dotProduct, Fin.sum_univ_four, pow_two]

theorem switch_first (f : PlaneICP) :
    serialLinearize (planeFactor.linearize sceneSwitch nullRejector ⟨1, 0⟩) [f] = .ok ([⟨0, 0⟩], (switchH, ![0, 0, 0, -1, 0, 0], 1 / 2)) := by
  have h0 : (⟨1, 0⟩ : Pose ℝ) = ⟨1, ![0, 0, 0]⟩ := by
    congr 1
    funext i
    fin_cases i <;> rfl
  have hc : correspondence sceneSwitch nullRejector ⟨1, ![0, 0, 0]⟩ 0 = some 0 := by
    unfold correspondence
    rw [switch_apply]
    simp [sceneSwitch, nullRejector]
    norm_num
  rw [h0, switch_linearize 0 1 0 f hc (by funext i; fin_cases i <;> simp [sceneSwitch])]
  norm_num

theorem switch_second (f : PlaneICP) {x : ℝ} (h : 9 / 10 < x) :
    serialLinearize (planeFactor.linearize sceneSwitch nullRejector ⟨1, ![x, 0, 0]⟩) [f] = .ok ([⟨1, 0⟩], (switchH, ![0, 0, 0, -(29 / 10 - x), 0, 0], 1 / 2 * (29 / 10 - x) ^ 2)) := by
  have hc : correspondence sceneSwitch nullRejector ⟨1, ![x, 0, 0]⟩ 0 = some 1 := by
    unfold correspondence
    rw [switch_apply]
    have hlt : ¬ ((1 - x) ^ 2 + (2 - 0) ^ 2 + (0 - 0) ^ 2 ≤ (29 / 10 - x) ^ 2 + (0 - 0) ^ 2 + (0 - 0) ^ 2) := by nlinarith
    have hnn : sceneSwitch.nn ![x, 0, 0, 1] = some (1, (29 / 10 - x) ^ 2 + (0 - 0) ^ 2 + (0 - 0) ^ 2) := if_neg hlt
    rw [hnn]
    simp [nullRejector]
  exact switch_linearize x (29 / 10 - x) 1 f hc (by funext i; fin_cases i <;> simp [sceneSwitch])

theorem switch_error (x : ℝ) : serialError (planeFactor.error sceneSwitch ⟨1, ![x, 0, 0]⟩) [⟨0, 0⟩] = .ok (1 / 2 * (1 - x) ^ 2) := by
  rw [serialError_ok]
  simp only [errorSpec, List.map_cons, List.map_nil, List.sum_cons, List.sum_nil, add_zero, planeFactor, PlaneICP.error, switch_apply]
  rw [if_neg (by decide)]
  have : sceneSwitch.tgtNormal 0 * (sceneSwitch.tgtPoint 0 - ![x, 0, 0, 1]) = ![1 - x, 0, 0, 0] := by funext i; fin_cases i <;> simp [sceneSwitch]
  rw [this]
  simp [dotProduct, Fin.sum_univ_four, pow_two]

/-- C74 does not carry over to point-to-plane ICP. One iteration on `sceneSwitch` takes the source point to the plane of its partner and there the other target point is nearer: the error over nearest
pairs, found anew, is 1/2 at the initial guess and more than 3/2 at the returned pose, though the result reports an error below 1/2. -/
theorem C74_plane_rises (solve : Matrix (Fin 6) (Fin 6) ℝ → (Fin 6 → ℝ) → (Fin 6 → ℝ)) (hs : SolveContract solve) (conv : (Fin 6 → ℝ) → Bool) (st : LMSetting ℝ)
    (hi : st.maxIterations = 1) (hin : 0 < st.maxInner) (hl : 0 < st.initLambda) (hl' : st.initLambda ≤ 1 / 10) :
    ∃ (r : Result ℝ) (fs' : List PlaneICP) (log : List (Iteration PlaneICP ℝ)),
      alignLM planeFactor (registrationProblem planeFactor sceneSwitch nullRejector nullFactor solve se3Exp conv) st ⟨1, 0⟩ 1 = .ok (r, fs', log) ∧ r.error < 1 / 2 ∧
      ∀ f, (∃ fs0 H b, serialLinearize (planeFactor.linearize sceneSwitch nullRejector ⟨1, 0⟩) [f] = .ok (fs0, (H, b, 1 / 2))) ∧
        ∃ fs1 H b e, serialLinearize (planeFactor.linearize sceneSwitch nullRejector r.T) [f] = .ok (fs1, (H, b, e)) ∧ 3 / 2 < e := by
  obtain ⟨x, hx⟩ : ∃ x, x = 1 / (1 + st.initLambda) := ⟨_, rfl⟩
  have hpos : 0 < 1 + st.initLambda := by linarith
  have hxl : 9 / 10 < x := by
    rw [hx, lt_div_iff₀ hpos]
    linarith
  have hxu : x < 1 := by
    rw [hx, div_lt_one hpos]
    linarith
  have hpsd : SymPSD switchH := (C33_accumulated (C33_plane sceneSwitch nullRejector ⟨1, 0⟩) _ _ (fun _ _ => trivial) _ _ _ (switch_first ICP.init)).1.hess
  have hdelta : solve (switchH + st.initLambda • (1 : Matrix (Fin 6) (Fin 6) ℝ)) (-![0, 0, 0, -1, 0, 0]) = ![0, 0, 0, x, 0, 0] := by
    refine (posdef_exists_unique (damped_pos hpsd hl) _).unique (hs _ (damped_symm hpsd _) (damped_pos hpsd hl) _) ?_
    funext i
    fin_cases i <;> simp [switchH, mulVec, dotProduct, Fin.sum_univ_succ, Matrix.one_apply, diagonal]
    rw [hx]
    field_simp
  have hshift : Pose.mul ⟨1, 0⟩ (se3Exp ![0, 0, 0, x, 0, 0]) = ⟨1, ![x, 0, 0]⟩ := by
    rw [se3_translation _ (by funext i; fin_cases i <;> simp [rot])]
    simp only [Pose.mul, Pose.mk.injEq, one_mulVec, mul_one, true_and]
    funext i
    fin_cases i <;> simp [tra]
  obtain ⟨fuel, hfuel⟩ : ∃ fuel, st.maxInner.toNat = fuel + 1 := ⟨st.maxInner.toNat - 1, by omega⟩
  have hle : 1 / 2 * (1 - x) ^ 2 < 1 / 2 := by nlinarith
  have hinner : lmInner (registrationProblem planeFactor sceneSwitch nullRejector nullFactor solve se3Exp conv) st.lambdaFactor (Result.init (⟨1, 0⟩ : Pose ℝ)).T
      [⟨0, 0⟩] switchH ![0, 0, 0, -1, 0, 0] st.maxInner.toNat st.initLambda (1 / 2) =
      .ok ⟨st.initLambda / st.lambdaFactor, 1 / 2 * (1 - x) ^ 2, 1, some (![0, 0, 0, x, 0, 0], ⟨1, ![x, 0, 0]⟩)⟩ := by
    rw [hfuel, lmInner]
    simp only [Problem.delta, registrationProblem, Result.init, hdelta, hshift, switch_error, ok_bind, nullFactor]
    rw [if_pos hle.le]
  have hlin : (registrationProblem planeFactor sceneSwitch nullRejector nullFactor solve se3Exp conv).linearize (Result.init ⟨1, 0⟩).T (List.replicate 1 (planeFactor (K := ℝ)).init) =
      .ok ([⟨0, 0⟩], (switchH, ![0, 0, 0, -1, 0, 0], 1 / 2)) := switch_first ICP.init
  have hrun := lmLoop_step (fuel := 0) (i := 0) rfl hlin rfl hinner rfl rfl
  have key : ∀ y, lmLoop (registrationProblem planeFactor sceneSwitch nullRejector nullFactor solve se3Exp conv) st.lambdaFactor st.maxInner.toNat (0 + 1) 0 st.initLambda (Result.init ⟨1, 0⟩)
      (List.replicate 1 (planeFactor (K := ℝ)).init) = .ok y →
      alignLM planeFactor (registrationProblem planeFactor sceneSwitch nullRejector nullFactor solve se3Exp conv) st ⟨1, 0⟩ 1 =
      .ok (countInliers (registrationProblem planeFactor sceneSwitch nullRejector nullFactor solve se3Exp conv) y.1 y.2.1, y.2.1, y.2.2) := by
    intro y h
    unfold alignLM levenbergMarquardt
    rw [hi, show Int.toNat 1 = 0 + 1 from rfl, h]
    rfl
  refine ⟨_, _, _, key _ hrun, hle, fun f => ⟨⟨_, _, _, switch_first f⟩, _, _, _, _, switch_second f hxl, ?_⟩⟩
  nlinarith

end Plane

/-! ### example -/

/-- The premises of C74 are met by the parabola and a guess that is off by a half, on two threads, with default settings otherwise. -/
example : ∃ (e : Env) (xt xs : PrepExec) (y : RegExec) (res : Result ℝ) (tgt src : List Site), EnvMeets e ∧ RunsToEnd y 2 ∧
    Pipeline.align e xt xs y (fun x : ℝ => x) parabola3 parabola3 ⟨1, ![1 / 2, 0, 0]⟩ { Setting.default with type := .icp, downsamplingResolution := 1, numThreads := 2 } = some (.ok res) ∧
    misfit tgt src 1 res.T ≤ 2 * res.error + (src.length - res.numInliers) ∧ 2 * res.error + (src.length - res.numInliers) ≤ misfit tgt src 1 ⟨1, ![1 / 2, 0, 0]⟩ := by
  obtain ⟨e, he, hmax, _⟩ := env_exists 1000 (by norm_num) (0, 0)
  obtain ⟨xt, xs, y, r, hy, h⟩ := C61_executes he (fun x : ℝ => x) (s := { Setting.default with type := .icp, downsamplingResolution := 1, numThreads := 2 }) (by simp) parabola3_fits parabola3_fits
    (by simp) ⟨1, ![1 / 2, 0, 0]⟩
  obtain ⟨res, outT, outS, tgt, src, rfl, _, _, _, hsrc, _, h2⟩ := C74_align he (fun x : ℝ => x) (s := { Setting.default with type := .icp, downsamplingResolution := 1, numThreads := 2 }) (by simp)
    parabola3_fits parabola3_fits rfl (by rw [hmax]; norm_num [Setting.default]) hy h (by simp [parabola3])
  have hlen : src.length = outS.length := by
    have := congrArg List.length hsrc
    rwa [List.length_map, List.length_map] at this
  refine ⟨e, xt, xs, y, res, tgt, src, he, hy, h, ?_⟩
  have := h2 (by simp [Setting.default])
  rw [← hlen] at this
  simpa [Setting.default] using this

/-- With one target point the partners are unique, so `C74_budget` applies to all its descents. -/
example (t : Site) (gate : ℝ) (src : List Site) (n m : Nat) (h : n ≤ m) (T0 : Pose ℝ) (r1 r2 : Result ℝ)
    (h1 : LMRun .point (NearestWithin [t] gate) src 10 10 0 0 n 0 (1 / 1000) (Result.init T0) r1) (h2 : LMRun .point (NearestWithin [t] gate) src 10 10 0 0 m 0 (1 / 1000) (Result.init T0) r2) :
    misfit [t] src gate r2.T ≤ misfit [t] src gate r1.T := by
  refine C74_budget (by norm_num) ?_ (fun _ _ h => h) (by norm_num) h h1 h2
  intro q o o' ho ho'
  rcases o with _ | u <;> rcases o' with _ | u'
  · rfl
  · have a := ho u' ho'.1
    exact absurd ho'.2.1 (not_le.2 a)
  · have a := ho' u ho.1
    exact absurd ho.2.1 (not_le.2 a)
  · rw [List.mem_singleton.1 ho.1, List.mem_singleton.1 ho'.1]

end Verif.Props
