import Verif.Spec.GaussNewton
import Verif.Props.OrderFree
import Verif.Props.StiffHeld
import Verif.Props.Observability
import Mathlib.Analysis.Real.Pi.Bounds

/-!
C87: registration with the Gauss–Newton optimiser is the iteration `GNRun`; what its result describes; and it may return a pose that is worse than the initial guess.
-/

set_option linter.unusedSectionVars false
set_option linter.unusedSimpArgs false
set_option linter.unnecessarySeqFocus false

namespace Verif.Props

open Matrix Verif Verif.Knn Verif.KdTree Verif.Proofs Verif.Proofs.RegMem Verif.Factors Verif.Reduction Verif.Optimizer Verif.PointCloud Verif.RegMem Verif.Spec Verif.Lie
open Verif.Pipeline Verif.Features Verif.Downsample Verif.Helper

/-! ### The loop -/

section Loop

variable {nrm : Nat → Fin 3 → ℝ} {sc : Scene ℝ} {n : Nat} (hsc : Homogeneous sc n) {m : Metric} {F : Type} {pf : PointFactor F ℝ} {Inv : F → Prop} (hm : Measures sc n m pf Inv) {rej : Rejector ℝ}
  {M : (Fin 3 → ℝ) → Option Site → Prop}
  {solve : Matrix (Fin 6) (Fin 6) ℝ → (Fin 6 → ℝ) → (Fin 6 → ℝ)} (hs : SolveContract solve) (re te : ℝ)

include hsc hm hs in
theorem gn_run {lam : ℝ} (hlam : 0 < lam) : ∀ (fuel i : Nat) (r r' : Result ℝ) (fs fs' : List F) (log : List (Iteration F ℝ)),
    (fs.length = n ∧ ∀ f ∈ fs, Inv f) →
    gnLoop (registrationProblem pf sc rej nullFactor solve se3Exp (converged re te)) lam fuel i r fs = .ok (r', fs', log) →
    (∀ it ∈ log, ∀ i < n, M (move it.T0 (head3 (sc.srcPoint i))) ((correspondence sc rej it.T0 i).map (targetSite sc))) →
    GNRun m M (sourceSites sc nrm n) lam re te fuel i { r with numInliers := fs.countP pf.inlier } { r' with numInliers := fs'.countP pf.inlier } := by
  intro fuel
  induction fuel with
  | zero =>
    intro i r r' fs fs' log _ h _
    cases h
    exact .budget _ _
  | succ fuel ih =>
    intro i r r' fs fs' log hfs h hM
    rw [gnLoop] at h
    split at h
    · rename_i hc
      cases h
      exact .done _ _ _ hc
    · rename_i hc
      have hc : r.converged = false := by simpa using hc
      obtain ⟨⟨fs1, H, b, e⟩, h1, h⟩ := call_of_ok h
      obtain ⟨⟨r2, fs2, log2⟩, h3, h4⟩ := call_of_ok h
      cases h4
      have hMr := hM _ (List.mem_cons_self ..)
      obtain ⟨hlin, he, _, hfs1, hcount⟩ := system_linearised hsc hm r.T hMr fs fs1 hfs H b e h1
      have hd : Damped H b lam (solve (H + lam • (1 : Matrix (Fin 6) (Fin 6) ℝ)) (-b)) := hs _ (damped_symm hlin.psd _) (damped_pos hlin.psd hlam) (-b)
      have hrec := ih _ _ _ _ _ _ hfs1 h3 (fun it hit => hM it (List.mem_cons_of_mem _ hit))
      refine GNRun.step fuel i _ _ _ H b _ hc hlin hd ?_
      simp only [registrationProblem, nullFactor, Problem.delta, hcount, he, small_step] at hrec
      exact hrec

include hsc hm hs in
/-- A registration run by the Gauss–Newton optimiser is an iteration in the sense of `GNRun`. -/
theorem gn_registration {lam : ℝ} (hlam : 0 < lam) (maxIter : Int) (T0 : Pose ℝ) (r : Result ℝ) (fs' : List F) (log : List (Iteration F ℝ))
    (h : gaussNewton (registrationProblem pf sc rej nullFactor solve se3Exp (converged re te)) lam maxIter T0 (List.replicate n pf.init) = .ok (r, fs', log))
    (hM : ∀ it ∈ log, ∀ i < n, M (move it.T0 (head3 (sc.srcPoint i))) ((correspondence sc rej it.T0 i).map (targetSite sc))) :
    GNRun m M (sourceSites sc nrm n) lam re te maxIter.toNat 0 (Result.init T0) r := by
  obtain ⟨r0, rfl, hl⟩ := gn_unfold h
  have hinit : (List.replicate n pf.init).length = n ∧ ∀ f ∈ List.replicate n pf.init, Inv f :=
    ⟨by simp, fun f hf => by rw [List.eq_of_mem_replicate hf]; exact (hm.plain.sound rej T0).init⟩
  have h1 := gn_run (nrm := nrm) (M := M) hsc hm hs re te hlam _ _ _ _ _ _ _ hinit hl hM
  have h0 : (List.replicate n pf.init).countP pf.inlier = 0 := by
    rw [List.countP_eq_zero]
    intro f hf
    rw [List.eq_of_mem_replicate hf]
    cases hm <;> simp [icpFactor, planeFactor, gicpFactor, ICP.init, ICP.inlier, GICP.init, GICP.inlier]
  rw [h0] at h1
  exact h1

end Loop

/-! ### Clouds -/

section Clouds

variable {e : Env} (he : EnvMeets e)

include he in
/-- C87. `Registration::align` with the Gauss–Newton optimiser on two clouds with features and the k-d tree of the target, for any reduction and every complete execution: no fault, and the
result is that of a `GNRun` on the nearest pairs within the gate. -/
theorem C87_run {m : Metric} {needs : Needs} {F : Type} {mf : MemFactor F ℝ} {pf : PointFactor F ℝ} {Inv : F → Prop} (hmf : MetricFactor e.inv m needs mf pf Inv)
    {outT outS : List (Pt ℝ)} {k : Nat} {ct cs : RCloud} {t : KdTree.Tree ℝ} (execL execE : Pose ℝ → List F → Exec)
    (hL : ∀ T fs, fs.length = cs.size → (execL T fs).Complete cs.size) (hE : ∀ T fs, fs.length = cs.size → (execE T fs).Complete cs.size)
    {gate : ℝ} (hgate : gate < e.maxD) (re te : ℝ) {lam : ℝ} (hlam : 0 < lam) (maxIter : Int)
    (hN : outT.length < 2 ^ 32) (hT : LocalFeatures outT e.maxD k ct) (hS : LocalFeatures outS e.maxD k cs)
    (hTw : ∀ p ∈ outT, p.w = 1) (hSw : ∀ p ∈ outS, p.w = 1)
    (ht : outT ≠ [] → TreeOf e.builder outT t) (ht0 : outT = [] → t = ⟨[], [], none⟩) (initT : Pose ℝ) (hn : ¬ (outT = [] ∧ outS ≠ [] ∧ 0 < maxIter)) :
    ∃ out, RegMem.align mf (cloudWorld ct cs (kdNearest e.maxD outT t (outT.length + 1) e.junk)) ⟨distanceRejector gate, nullFactor, e.solve, se3Exp, converged re te⟩ execL execE (.gn lam maxIter)
        initT cs.size = .ok out ∧
      LocalSites outT e.maxD k (cloudSites ct) ∧ LocalSites outS e.maxD k (cloudSites cs) ∧
      GNRun m (NearestWithin (cloudSites ct) gate) (cloudSites cs) lam re te maxIter.toNat 0 (Result.init initT) out.1 := by
  obtain ⟨hSp, _, hSc⟩ := features_regular hS
  obtain ⟨_, hSs⟩ := features_points hS
  let w : World ℝ := cloudWorld ct cs (kdNearest e.maxD outT t (outT.length + 1) e.junk)
  let cfg : Config ℝ := ⟨distanceRejector gate, nullFactor, e.solve, se3Exp, converged re te⟩
  obtain ⟨hhom, hmeas, hsrc, hrule, hsound⟩ := clouds_scene he hmf hgate hN hT hS hTw hSw ht ht0 (scene w) rfl
  have hrun : ∃ out, RegMem.align mf w cfg execL execE (.gn lam maxIter) initT cs.size = .ok out ∧
      (RegMem.Method.gn lam maxIter).run (registrationProblem pf (scene w) cfg.rejector cfg.general cfg.solve cfg.exp cfg.converged) initT (List.replicate cs.size pf.init) = .ok out := by
    by_cases hne : outT = []
    · have hw : w = cloudWorld ⟨[], [], []⟩ cs (kdNearest e.maxD [] ⟨[], [], none⟩ (([] : List (Pt ℝ)).length + 1) e.junk) := by
        subst hne
        have h1 := features_empty hT
        subst h1
        have h2 := ht0 rfl
        subst h2
        rfl
      rw [hw]
      refine empty_idle hmf.ships cs hSp (fun _ => CovsRegular.set hSc) _ e.maxD e.junk cfg _ _ hL hE (.gn lam maxIter) initT ?_
      by_cases h0 : outS = []
      · left; rw [hSs, h0]; rfl
      · right
        show maxIter.toNat = 0
        by_contra hc
        exact hn ⟨hne, h0, by omega⟩
    · obtain ⟨out, ho, ho'⟩ := align_approx hmf.ships (hsound hne) cfg _ _ hL hE (.gn lam maxIter) initT
      have ho' := ho'.resolve_right (by rintro ⟨_, hf, _⟩; exact hf)
      exact ⟨out, ho', ho⟩
  obtain ⟨⟨res, fs', log⟩, h1, h2⟩ := hrun
  refine ⟨(res, fs', log), h1, cloud_sites hT, cloud_sites hS, ?_⟩
  rw [← hsrc]
  exact gn_registration hhom hmeas he.solve re te hlam maxIter initT res fs' log h2 (fun it _ => hrule it.T0)

end Clouds

/-! ### What the result says -/

/-- C87. The outcome is determined by the clouds where partners are. -/
theorem C87_determined {m : Metric} {M M' : (Fin 3 → ℝ) → Option Site → Prop} {src : List Site} {lam re te : ℝ} (hl : 0 < lam) (hM : ∀ q o o', M q o → M' q o' → o = o') :
    ∀ {n i : Nat} {r r1 r2 : Result ℝ}, GNRun m M src lam re te n i r r1 → GNRun m M' src lam re te n i r r2 → r1 = r2 := by
  intro n i r r1 r2 h1
  induction h1 generalizing r2 with
  | budget i r => intro h2; cases h2 <;> rfl
  | done n i r hc =>
    intro h2
    cases h2 with
    | budget => rfl
    | done => rfl
    | step _ _ _ _ _ _ _ _ hc' => rw [hc] at hc'; cases hc'
  | step n i r r' p H b d hc hlin hd _ ih =>
    intro h2
    cases h2 with
    | done _ _ _ hc' => rw [hc] at hc'; cases hc'
    | step _ _ _ _ p' H' b' d' hc' hlin' hd' hrun =>
      obtain ⟨rfl, rfl, rfl⟩ := linearised_unique hM hlin hlin'
      rw [← damped_unique hlin.psd hl hd hd'] at hrun
      exact ih hrun

/-- C87. Of a run that makes an iteration: matrix, vector, number of inliers and error describe the pose `L` *before* the last step, the returned pose is `L` moved by that step, and
`converged` says whether that step was small. -/
theorem C87_fields {m : Metric} {M : (Fin 3 → ℝ) → Option Site → Prop} {src : List Site} {lam re te : ℝ} {n i : Nat} {r res : Result ℝ}
    (h : GNRun m M src lam re te n i r res) (hn : 0 < n) (hc : r.converged = false) :
    ∃ L partner d, Linearised m M src L partner res.H res.b ∧ Damped res.H res.b lam d ∧ res.T = L.mul (se3Exp d) ∧ res.numInliers = paired partner ∧ res.error = totalCost m src partner L L ∧
      (res.converged = true ↔ SmallStep re te d) ∧ i ≤ res.iterations ∧ res.iterations < i + n ∧ (res.converged = false → res.iterations + 1 = i + n) := by
  induction h with
  | budget => omega
  | done n i r hc' => rw [hc] at hc'; cases hc'
  | step n i r r' p H b d _ hlin hd hrun ih =>
    generalize hr1 : (⟨r.T.mul (se3Exp d), (open Classical in decide (SmallStep re te d)), i, paired p, H, b, totalCost m src p r.T r.T⟩ : Result ℝ) = r1 at hrun ih
    have hself : ∃ L partner d, Linearised m M src L partner r1.H r1.b ∧ Damped r1.H r1.b lam d ∧ r1.T = L.mul (se3Exp d) ∧ r1.numInliers = paired partner ∧
        r1.error = totalCost m src partner L L ∧ (r1.converged = true ↔ SmallStep re te d) ∧ r1.iterations = i :=
      ⟨r.T, p, d, by subst hr1; exact hlin, by subst hr1; exact hd, by subst hr1; rfl, by subst hr1; rfl, by subst hr1; rfl, by subst hr1; simp, by subst hr1; rfl⟩
    by_cases hs : r1.converged = true
    · have hstop : r' = r1 := by
        cases hrun with
        | budget => rfl
        | done => rfl
        | step _ _ _ _ _ _ _ _ hc' => rw [hs] at hc'; cases hc'
      subst hstop
      obtain ⟨L, q, d', a1, a2, a3, a4, a5, a6, a7⟩ := hself
      exact ⟨L, q, d', a1, a2, a3, a4, a5, a6, by omega, by omega, fun h => by rw [hs] at h; cases h⟩
    · rcases Nat.eq_zero_or_pos n with rfl | hn'
      · have hstop : r' = r1 := by
          cases hrun <;> rfl
        subst hstop
        obtain ⟨L, q, d', a1, a2, a3, a4, a5, a6, a7⟩ := hself
        exact ⟨L, q, d', a1, a2, a3, a4, a5, a6, by omega, by omega, fun _ => by omega⟩
      · obtain ⟨L, q, d', a1, a2, a3, a4, a5, a6, a7, a8, a9⟩ := ih hn' (by simpa using hs)
        exact ⟨L, q, d', a1, a2, a3, a4, a5, a6, by omega, by omega, fun h => by have := a9 h; omega⟩

/-! ### It may get worse -/

theorem hess_pairs {M : (Fin 3 → ℝ) → Option Site → Prop} {src : List Site} {L : Pose ℝ} {p : List (Option Site)} {H : Matrix (Fin 6) (Fin 6) ℝ} {b : Fin 6 → ℝ}
    (h : Linearised .point M src L p H b) (x y : Fin 6 → ℝ) : x ⬝ᵥ H *ᵥ y = pairSum src p (fun t s => pairSpeed L x t s ⬝ᵥ pairSpeed L y t s) := by
  have h1 := h.hess (x + y)
  have h2 := h.hess x
  have h3 := h.hess y
  have hsym : y ⬝ᵥ H *ᵥ x = x ⬝ᵥ H *ᵥ y := by
    rw [dotProduct_comm, ← h.psd.symm, mulVec_transpose, ← dotProduct_mulVec, h.psd.symm]
  have hadd : ∀ t s, pairSpeed L (x + y) t s = pairSpeed L x t s + pairSpeed L y t s := by
    intro t s
    rw [speed_formula, speed_formula, speed_formula, ← mulVec_add]
    have e1 : rot (x + y) = rot x + rot y := by ext j; fin_cases j <;> rfl
    have e2 : tra (x + y) = tra x + tra y := by ext j; fin_cases j <;> rfl
    rw [e1, e2, mulVec_add]
    congr 1
    abel
  simp only [pairWeight, one_mulVec, hadd] at h1 h2 h3
  rw [mulVec_add, add_dotProduct, dotProduct_add, dotProduct_add, hsym, h2, h3] at h1
  have h4 : pairSum src p (fun t s => (pairSpeed L x t s + pairSpeed L y t s) ⬝ᵥ (pairSpeed L x t s + pairSpeed L y t s)) =
      pairSum src p (fun t s => pairSpeed L x t s ⬝ᵥ pairSpeed L x t s + pairSpeed L y t s ⬝ᵥ pairSpeed L y t s + 2 * (pairSpeed L x t s ⬝ᵥ pairSpeed L y t s)) := by
    congr 1
    funext t s
    rw [add_dotProduct, dotProduct_add, dotProduct_add, dotProduct_comm (pairSpeed L y t s) (pairSpeed L x t s)]
    ring
  rw [h4, pairSum_add, pairSum_add, pairSum_mul] at h1
  linarith

theorem grad_pairs {M : (Fin 3 → ℝ) → Option Site → Prop} {src : List Site} {L : Pose ℝ} {p : List (Option Site)} {H : Matrix (Fin 6) (Fin 6) ℝ} {b : Fin 6 → ℝ}
    (h : Linearised .point M src L p H b) (x : Fin 6 → ℝ) : b ⬝ᵥ x = pairSum src p (fun t s => pairDiff L t s ⬝ᵥ pairSpeed L x t s) := by
  refine (h.grad x).unique ?_
  unfold totalCost pairSum
  have hm := h.matched
  clear h
  induction hm with
  | nil => simpa using hasDerivAt_const (0 : ℝ) (0 : ℝ)
  | @cons s o src p h1 h2 ih =>
    simp only [List.zipWith_cons_cons, List.sum_cons]
    refine HasDerivAt.add ?_ ih
    cases o with
    | none => exact hasDerivAt_const _ _
    | some t =>
      have := cost_moves (m := .point) L x (t := t) (s := s) (weight_psd .point L (fun h => by cases h) (fun h => by cases h))
      simpa only [pairWeight, one_mulVec] using this

/-- Two source points on the x axis, and two target points at a distance of `a` from them, in opposite directions along y. -/
def twistSource : List Site := [⟨![1, 0, 0], 0, 0⟩, ⟨![-1, 0, 0], 0, 0⟩]
def twistTarget (a : ℝ) : List Site := [⟨![1, a, 0], 0, 0⟩, ⟨![-1, -a, 0], 0, 0⟩]

/-- C87. Unlike Levenberg–Marquardt (C74), Gauss–Newton may return a pose that is worse than the initial guess: with ICP on these points, any damping up to 1/10 and a large gate, one iteration from
the identity turns too far. The sum of squared distances to the nearest target points grows, while the reported error is still the one of the initial guess. -/
theorem C87_worse {lam : ℝ} (hl : 0 < lam) (hl' : lam ≤ 1 / 10) {gate : ℝ} (hg : 16 ≤ gate) {re te : ℝ} {res : Result ℝ}
    (h : GNRun .point (NearestWithin (twistTarget (5 * Real.pi / 6 * (1 + lam / 2))) gate) twistSource lam re te 1 0 (Result.init Pose.one) res) :
    2 * res.error = misfit (twistTarget (5 * Real.pi / 6 * (1 + lam / 2))) twistSource gate Pose.one ∧
      misfit (twistTarget (5 * Real.pi / 6 * (1 + lam / 2))) twistSource gate Pose.one + 1 / 2 < misfit (twistTarget (5 * Real.pi / 6 * (1 + lam / 2))) twistSource gate res.T := by
  set θ : ℝ := 5 * Real.pi / 6 with hθ
  set a : ℝ := θ * (1 + lam / 2) with ha
  have hθ1 : 2.6 < θ := by have := Real.pi_gt_d2; rw [hθ]; linarith
  have hθ2 : θ < 2.63 := by have := Real.pi_lt_d2; rw [hθ]; linarith
  have ha1 : 2.6 < a := by rw [ha]; nlinarith
  have ha2 : a < 2.77 := by rw [ha]; nlinarith
  have hcos : Real.cos θ = -(Real.sqrt 3 / 2) := by
    rw [hθ, show 5 * Real.pi / 6 = Real.pi - Real.pi / 6 by ring, Real.cos_pi_sub, Real.cos_pi_div_six]
  have hsin : Real.sin θ = 1 / 2 := by
    rw [hθ, show 5 * Real.pi / 6 = Real.pi - Real.pi / 6 by ring, Real.sin_pi_sub, Real.sin_pi_div_six]
  have hr1 : 1.73 < Real.sqrt 3 := by rw [Real.lt_sqrt (by norm_num)]; norm_num
  have hr2 : Real.sqrt 3 < 1.74 := by rw [Real.sqrt_lt (by norm_num) (by norm_num)]; norm_num
  have hmove : ∀ x : Fin 3 → ℝ, move (Pose.one : Pose ℝ) x = x := fun x => by simp [move, Pose.one]
  -- the pairs
  have near1 : ∀ o, NearestWithin (twistTarget a) gate ![1, 0, 0] o → o = some ⟨![1, a, 0], 0, 0⟩ := by
    intro o ho
    refine nearest_only (by simp [twistTarget]) ?_ ?_ ho
    · simp [dotProduct, Fin.sum_univ_three]
      nlinarith
    · intro t ht hne
      simp only [twistTarget, List.mem_cons, List.not_mem_nil, or_false] at ht
      rcases ht with rfl | rfl
      · exact absurd rfl hne
      · simp [dotProduct, Fin.sum_univ_three]
        norm_num
  have near2 : ∀ o, NearestWithin (twistTarget a) gate ![-1, 0, 0] o → o = some ⟨![-1, -a, 0], 0, 0⟩ := by
    intro o ho
    refine nearest_only (by simp [twistTarget]) ?_ ?_ ho
    · simp [dotProduct, Fin.sum_univ_three]
      nlinarith
    · intro t ht hne
      simp only [twistTarget, List.mem_cons, List.not_mem_nil, or_false] at ht
      rcases ht with rfl | rfl
      · simp [dotProduct, Fin.sum_univ_three]
      · exact absurd rfl hne
  have hlast : ∃ p H b d, Linearised .point (NearestWithin (twistTarget a) gate) twistSource Pose.one p H b ∧ Damped H b lam d ∧ res.T = Pose.one.mul (se3Exp d) ∧
      res.error = totalCost .point twistSource p Pose.one Pose.one := by
    cases h with
    | done _ _ _ hc => cases hc
    | step _ _ _ _ p H b d hc hlin hd hr =>
      refine ⟨p, H, b, d, hlin, hd, ?_⟩
      cases hr with
      | budget => exact ⟨rfl, rfl⟩
      | done => exact ⟨rfl, rfl⟩
  obtain ⟨p, H, b, d, hlin, hd, hT, he⟩ := hlast
  have hp : p = [some ⟨![1, a, 0], 0, 0⟩, some ⟨![-1, -a, 0], 0, 0⟩] := by
    have hm := hlin.matched
    unfold twistSource at hm
    cases hm with
    | cons m1 m2 =>
      cases m2 with
      | cons m2 m3 =>
        cases m3
        rw [hmove] at m1 m2
        rw [near1 _ m1, near2 _ m2]
  -- the step is a turn by `θ`
  have hspeed1 : ∀ x t, pairSpeed Pose.one x t ⟨![1, 0, 0], 0, 0⟩ = ![-x 3, -x 2 - x 4, x 1 - x 5] := by
    intro x t
    rw [speed_formula]
    ext j
    fin_cases j <;> simp [Pose.one, skew, rot, tra, mulVec, dotProduct, Fin.sum_univ_three]
  have hspeed2 : ∀ x t, pairSpeed Pose.one x t ⟨![-1, 0, 0], 0, 0⟩ = ![-x 3, x 2 - x 4, -x 1 - x 5] := by
    intro x t
    rw [speed_formula]
    ext j
    fin_cases j <;> simp [Pose.one, skew, rot, tra, mulVec, dotProduct, Fin.sum_univ_three]
  have hd0 : Damped H b lam ![0, 0, θ, 0, 0, 0] := by
    unfold Damped
    refine dotProduct_eq _ _ fun x => ?_
    rw [add_mulVec, smul_mulVec, one_mulVec, add_dotProduct, neg_dotProduct, grad_pairs hlin x, dotProduct_comm (H *ᵥ _), hess_pairs hlin, hp]
    simp only [twistSource, pairSum, List.zipWith_cons_cons, List.zipWith_nil_left, List.sum_cons, List.sum_nil, hspeed1, hspeed2, pairDiff, hmove]
    simp [dotProduct, Fin.sum_univ_three, Fin.sum_univ_six]
    rw [ha]
    ring
  have hdd : d = ![0, 0, θ, 0, 0, 0] := damped_unique hlin.psd hl hd hd0
  have hexp : ∀ x y : ℝ, move (se3Exp ![0, 0, θ, 0, 0, 0]) ![x, y, 0] = ![x * Real.cos θ - y * Real.sin θ, x * Real.sin θ + y * Real.cos θ, 0] := by
    intro x y
    obtain ⟨e1, e2⟩ := C42_closed_form ![0, 0, θ, 0, 0, 0] θ (by linarith) (by simp [rot, dotProduct, Fin.sum_univ_three]; ring) (by linarith)
    have hθ0 : θ ≠ 0 := by linarith
    have hrot : rot ![0, 0, θ, 0, 0, 0] = ![0, 0, θ] := rfl
    have htra : tra ![0, 0, θ, 0, 0, 0] = 0 := by ext j; fin_cases j <;> rfl
    unfold move
    rw [e2, htra, mulVec_zero, add_zero, e1, hrot]
    ext j
    fin_cases j <;> simp [skew, mulVec, dotProduct, Fin.sum_univ_three, Matrix.mul_apply, Matrix.one_apply] <;> field_simp <;> ring
  have hone : Pose.one.mul (se3Exp d) = se3Exp d := by simp [Pose.mul, Pose.one]
  rw [hone, hdd] at hT
  have hpairs := misfit_pairs hlin.matched (Pose.one : Pose ℝ)
  have hpaired : paired p = 2 := by rw [hp]; rfl
  have hold : misfit (twistTarget a) twistSource gate Pose.one = 2 * res.error := by
    rw [hpairs.1, hpaired, he]
    simp [twistSource]
  have hval : 2 * res.error = 2 * a ^ 2 := by
    rw [he, hp]
    simp only [totalCost, twistSource, pairSum, List.zipWith_cons_cons, List.zipWith_nil_left, List.sum_cons, List.sum_nil, pairCost, pairWeight, one_mulVec, pairDiff, hmove]
    simp [dotProduct, Fin.sum_univ_three]
    ring
  have hnew : ∀ x y : ℝ, (x = Real.cos θ ∧ y = Real.sin θ) ∨ (x = -Real.cos θ ∧ y = -Real.sin θ) → a ^ 2 + 1 / 2 ≤ nearestGap (twistTarget a) gate ![x, y, 0] := by
    intro x y hxy
    refine nearestGap_ge (by nlinarith) fun t ht => ?_
    simp only [twistTarget, List.mem_cons, List.not_mem_nil, or_false] at ht
    have hcs := Real.sin_sq_add_cos_sq θ
    rcases ht with rfl | rfl <;> rcases hxy with ⟨rfl, rfl⟩ | ⟨rfl, rfl⟩ <;> simp [dotProduct, Fin.sum_univ_three] <;> rw [hcos, hsin] at * <;> nlinarith
  refine ⟨hold.symm, ?_⟩
  rw [hold, hval, hT]
  have e1 := hexp 1 0
  have e2 := hexp (-1) 0
  simp only [one_mul, zero_mul, sub_zero, add_zero, neg_mul] at e1 e2
  have f1 := hnew _ _ (.inl ⟨rfl, rfl⟩)
  have f2 := hnew _ _ (.inr ⟨rfl, rfl⟩)
  simp only [misfit, twistSource, List.map_cons, List.map_nil, List.sum_cons, List.sum_nil, e1, e2]
  linarith

/-- The points of `C87_worse` with exact nearest neighbours. -/
noncomputable def sceneTwist (a : ℝ) : Scene ℝ where
  srcPoint := fun i => if i = 0 then ![1, 0, 0, 1] else ![-1, 0, 0, 1]
  tgtPoint := fun k => if k = 0 then ![1, a, 0, 1] else ![-1, -a, 0, 1]
  tgtNormal := 0
  srcCov := 0
  tgtCov := 0
  nn := fun q =>
    let d0 := (1 - q 0) ^ 2 + (a - q 1) ^ 2 + (0 - q 2) ^ 2
    let d1 := (-1 - q 0) ^ 2 + (-a - q 1) ^ 2 + (0 - q 2) ^ 2
    if d0 ≤ d1 then some (0, d0) else some (1, d1)

/-- C87. The registration of these points by the default Gauss–Newton optimiser (damping 1e-6, here one iteration), with a maximum distance of 4: it returns a pose with a larger sum of squared
distances than the initial guess. -/
theorem C87_worse_reached (solve : Matrix (Fin 6) (Fin 6) ℝ → (Fin 6 → ℝ) → (Fin 6 → ℝ)) (hs : SolveContract solve) (re te : ℝ) :
    ∃ (a : ℝ) (res : Result ℝ) (fs : List ICP) (log : List (Iteration ICP ℝ)),
      gaussNewton (registrationProblem icpFactor (sceneTwist a) (distanceRejector 16) nullFactor solve se3Exp (converged re te)) (1 / 10 ^ 6) 1 Pose.one (List.replicate 2 (icpFactor (K := ℝ)).init) =
        .ok (res, fs, log) ∧
      2 * res.error = misfit (twistTarget a) twistSource 16 Pose.one ∧ misfit (twistTarget a) twistSource 16 Pose.one + 1 / 2 < misfit (twistTarget a) twistSource 16 res.T := by
  refine ⟨5 * Real.pi / 6 * (1 + 1 / 10 ^ 6 / 2), ?_⟩
  generalize ha : 5 * Real.pi / 6 * (1 + 1 / 10 ^ 6 / 2) = a
  have htot : ∃ out, gaussNewton (registrationProblem icpFactor (sceneTwist a) (distanceRejector 16) nullFactor solve se3Exp (converged re te)) (1 / 10 ^ 6) 1 Pose.one
      (List.replicate 2 (icpFactor (K := ℝ)).init) = .ok out := by
    obtain ⟨⟨r, fs, log⟩, hx⟩ := gnLoop_total (P := registrationProblem icpFactor (sceneTwist a) (distanceRejector 16) nullFactor solve se3Exp (converged re te))
      (fun T fs => ⟨_, serial_ok _ _⟩) (lambda := 1 / 10 ^ 6) (fuel := (1 : Int).toNat) (i := 0) (r := Result.init Pose.one) (fs := List.replicate 2 (icpFactor (K := ℝ)).init)
    unfold gaussNewton
    rw [hx]
    exact ⟨_, rfl⟩
  obtain ⟨⟨res, fs, log⟩, hrun⟩ := htot
  refine ⟨res, fs, log, hrun, ?_⟩
  have hhom : Homogeneous (sceneTwist a) 2 := by
    refine ⟨?_, ?_, ?_⟩
    · intro q k d h
      simp only [sceneTwist] at h
      split at h <;> simp only [Option.some.injEq, Prod.mk.injEq] at h <;> rw [← h.1] <;> decide
    · intro i _
      simp only [sceneTwist]
      split <;> rfl
    · intro q k d _
      simp only [sceneTwist]
      split <;> rfl
  have hrule : ∀ (T : Pose ℝ), ∀ i < 2, NearestWithin (twistTarget a) 16 (move T (head3 ((sceneTwist a).srcPoint i)))
      ((correspondence (sceneTwist a) (distanceRejector 16) T i).map (targetSite (sceneTwist a))) := by
    intro T i _
    rw [← head3_apply T _ (by simp only [sceneTwist]; split <;> rfl)]
    unfold correspondence
    generalize T.apply ((sceneTwist a).srcPoint i) = q
    have e0 : ((![1, a, 0] : Fin 3 → ℝ) - head3 q) ⬝ᵥ (![1, a, 0] - head3 q) = (1 - q 0) ^ 2 + (a - q 1) ^ 2 + (0 - q 2) ^ 2 := by
      simp [dotProduct, Fin.sum_univ_three, head3]
      ring
    have e1 : ((![-1, -a, 0] : Fin 3 → ℝ) - head3 q) ⬝ᵥ (![-1, -a, 0] - head3 q) = (-1 - q 0) ^ 2 + (-a - q 1) ^ 2 + (0 - q 2) ^ 2 := by
      simp [dotProduct, Fin.sum_univ_three, head3]
      ring
    have t0 : targetSite (sceneTwist a) 0 = ⟨![1, a, 0], 0, 0⟩ := by
      simp only [targetSite, sceneTwist, if_pos]
      congr 1 <;> ext j <;> fin_cases j <;> rfl
    have t1 : targetSite (sceneTwist a) 1 = ⟨![-1, -a, 0], 0, 0⟩ := by
      simp only [targetSite, sceneTwist, if_neg one_ne_zero]
      congr 1 <;> ext j <;> fin_cases j <;> rfl
    by_cases hd : (1 - q 0) ^ 2 + (a - q 1) ^ 2 + (0 - q 2) ^ 2 ≤ (-1 - q 0) ^ 2 + (-a - q 1) ^ 2 + (0 - q 2) ^ 2
    · have : (sceneTwist a).nn q = some (0, (1 - q 0) ^ 2 + (a - q 1) ^ 2 + (0 - q 2) ^ 2) := by simp only [sceneTwist]; rw [if_pos hd]
      rw [this]
      simp only [distanceRejector, decide_eq_true_eq]
      split
      · rename_i hgt
        intro t ht
        simp only [twistTarget, List.mem_cons, List.not_mem_nil, or_false] at ht
        rcases ht with rfl | rfl
        · rw [e0]; exact hgt
        · rw [e1]; exact lt_of_lt_of_le hgt hd
      · rename_i hgt
        rw [Option.map_some, t0]
        refine ⟨by simp [twistTarget], by rw [e0]; exact not_lt.1 hgt, fun t ht => ?_⟩
        simp only [twistTarget, List.mem_cons, List.not_mem_nil, or_false] at ht
        rcases ht with rfl | rfl
        · exact le_refl _
        · rw [e0, e1]; exact hd
    · have : (sceneTwist a).nn q = some (1, (-1 - q 0) ^ 2 + (-a - q 1) ^ 2 + (0 - q 2) ^ 2) := by simp only [sceneTwist]; rw [if_neg hd]
      rw [this]
      simp only [distanceRejector, decide_eq_true_eq]
      have hd := not_le.1 hd
      split
      · rename_i hgt
        intro t ht
        simp only [twistTarget, List.mem_cons, List.not_mem_nil, or_false] at ht
        rcases ht with rfl | rfl
        · rw [e0]; exact lt_trans hgt hd
        · rw [e1]; exact hgt
      · rename_i hgt
        rw [Option.map_some, t1]
        refine ⟨by simp [twistTarget], by rw [e1]; exact not_lt.1 hgt, fun t ht => ?_⟩
        simp only [twistTarget, List.mem_cons, List.not_mem_nil, or_false] at ht
        rcases ht with rfl | rfl
        · rw [e0, e1]; exact le_of_lt hd
        · exact le_refl _
  have hg := gn_registration (nrm := 0) (M := NearestWithin (twistTarget a) 16) hhom (.point) hs re te (by norm_num) 1 Pose.one res fs log hrun (fun it _ => hrule it.T0)
  have hsrc : sourceSites (sceneTwist a) 0 2 = twistSource := by
    simp only [sourceSites, List.range_succ, List.range_zero, List.nil_append, List.cons_append, List.map_cons, List.map_nil, twistSource, sourceSite, sceneTwist]
    congr 1
  rw [hsrc] at hg
  subst ha
  exact C87_worse (by norm_num) (by norm_num) (le_refl _) hg

/-- The hypotheses of `C87_run` hold: Gauss–Newton GICP of a preprocessed cloud on itself, from a displaced pose, with the serial reduction; its result has the fields of `C87_fields`. -/
example : ∃ (e : Env) (x : PrepExec) (c : RCloud) (t : KdTree.Tree ℝ) (pts : List (Pt ℝ)) (res : Result ℝ) (L : Pose ℝ) (partner : List (Option Site)) (d : Fin 6 → ℝ),
    preprocessVector e x (fun x : ℝ => x) parabola3 1 10 1 = some (.ok (c, t)) ∧ cloudPoints c = .ok pts ∧
    (do let (r, _, _) ← RegMem.align (gicpMem e.inv) (cloudWorld c c (kdNearest e.maxD pts t (pts.length + 1) e.junk)) ⟨distanceRejector 1, nullFactor, e.solve, se3Exp, converged (1 / 10) (1 / 1000)⟩
          (fun _ _ => .serial) (fun _ _ => .serial) (.gn (1 / 10 ^ 6) 20) ⟨1, ![1 / 2, 0, 0]⟩ c.size
        return r) = Except.ok res ∧
    res.T = L.mul (se3Exp d) ∧ res.numInliers = paired partner ∧ res.error = totalCost .cov (cloudSites c) partner L L := by
  obtain ⟨e, he, hmax, _⟩ := env_exists 1000 (by norm_num) (0, 0)
  have hex : ∃ r, preprocessVector e ⟨[], [], []⟩ (fun x : ℝ => x) parabola3 1 10 1 = some r := by
    unfold preprocessVector
    rw [C50_constructor]
    simp only
    unfold Pipeline.preprocess
    rw [cloudPoints_of _ (parabola3.map (vecPoint fun x : ℝ => x)) (by
      rw [List.map_map]
      refine List.map_congr_left fun p _ => ?_
      rw [homogeneous_eq]
      rfl)]
    exact ⟨_, rfl⟩
  obtain ⟨r, hr⟩ := hex
  obtain ⟨out, c, t, rfl, _, a2, a3, a4, a5, a6, a7⟩ := vector_homogeneous he (fun x : ℝ => x) one_ne_zero parabola3_fits (k := 10) (by norm_num) 1 hr
  obtain ⟨⟨res, fs, log⟩, h1, _, _, h2⟩ := C87_run he (m := .cov) .cov (fun _ _ => Exec.serial) (fun _ _ => Exec.serial) (fun _ _ _ => trivial) (fun _ _ _ => trivial) (gate := 1)
    (by rw [hmax]; norm_num) (1 / 10) (1 / 1000) (lam := 1 / 10 ^ 6) (by norm_num) 20 a6 a2 a2 a7 a7 a3 a4 ⟨1, ![1 / 2, 0, 0]⟩ (by rintro ⟨h, h', _⟩; exact h' h)
  obtain ⟨L, partner, d, _, _, b3, b4, b5, _⟩ := C87_fields h2 (by norm_num) rfl
  refine ⟨e, _, c, t, out, res, L, partner, d, hr, (features_points a2).1, ?_, b3, b4, b5⟩
  rw [h1]
  rfl

end Verif.Props
