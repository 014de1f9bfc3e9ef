import Verif.Model.PythonFactors
import Verif.Props.PythonOdometry

/-!
C78: the factor classes of the Python module. A call computes the system of one source point and its partner; the sums over all points, taken with one and the same
factor object, are the system that `align` solves.
-/

set_option linter.unusedSectionVars false
set_option linter.unusedSimpArgs false
set_option linter.unnecessarySeqFocus false

namespace Verif.Props

open Matrix Verif Verif.Knn Verif.KdTree Verif.Proofs Verif.Proofs.RegMem Verif.Factors Verif.Reduction Verif.Optimizer Verif.PointCloud Verif.RegMem Verif.Spec Verif.Lie
open Verif.Pipeline Verif.Features Verif.Downsample Verif.Helper Verif.Python

/-! ### the state of the factor does not matter -/

theorem border_same {f g : GICP ℝ} (hf : ZeroBorder f) (hg : ZeroBorder g) (A : Matrix (Fin 3) (Fin 3) ℝ) : setBlock33 f.mahalanobis A = setBlock33 g.mahalanobis A := by
  ext a b
  unfold setBlock33
  split
  · rfl
  · rename_i h
    have hab : a = 3 ∨ b = 3 := by omega
    rw [hf a b hab, hg a b hab]

/-- The system of a source point does not depend on what the factor object did before. -/
theorem same_system {sc : Scene ℝ} {n : Nat} {m : Metric} {F : Type} {pf : PointFactor F ℝ} {Inv : F → Prop} (hm : Measures sc n m pf Inv) (rej : Rejector ℝ) (T : Pose ℝ) (i : Nat) {f g : F}
    (hf : Inv f) (hg : Inv g) : (pf.linearize sc rej T i f).2 = (pf.linearize sc rej T i g).2 := by
  cases hm with
  | point => rfl
  | plane => rfl
  | cov inv =>
    cases hc : correspondence sc rej T i with
    | none => simp only [gicpFactor, GICP.linearize, hc]
    | some k => simp only [gicpFactor, GICP.linearize, hc, border_same hf hg]

theorem linearize_ok {needs : Needs} {F : Type} {mf : MemFactor F ℝ} {pf : PointFactor F ℝ} (h : Ships needs mf pf) {w : World ℝ} {n : Nat} (hw : Sound (fun _ => False) w needs n) (T : Pose ℝ)
    {i : Nat} (hi : i < n) (gate : ℝ) (f : F) :
    Python.linearize mf w T i gate f = .ok ((pf.linearize (scene w) (distanceRejector gate) T i f).1, (pf.linearize (scene w) (distanceRejector gate) T i f).2.isSome,
      (pf.linearize (scene w) (distanceRejector gate) T i f).2.getD 0) := by
  have h1 := ((ships_sim h hw).1 (distanceRejector gate) T i f hi).1
  have h2 : mf.linearize w (distanceRejector gate) T i f = .ok (pf.linearize (scene w) (distanceRejector gate) T i f) := h1.resolve_right (by rintro ⟨_, hf, _⟩; exact hf)
  unfold Python.linearize
  rw [h2, ok_bind]
  rcases pf.linearize (scene w) (distanceRejector gate) T i f with ⟨f', _ | s⟩ <;> rfl

/-- The loop with one factor object computes what the reduction computes with one factor for each point. -/
theorem sum_reduce {needs : Needs} {m : Metric} {F : Type} {mf : MemFactor F ℝ} {pf : PointFactor F ℝ} {Inv : F → Prop} (h : Ships needs mf pf) {w : World ℝ} {n : Nat}
    (hw : Sound (fun _ => False) w needs n) (hm : Measures (scene w) n m pf Inv) (T : Pose ℝ) (gate : ℝ) {f : F} (hf : Inv f) (fs : List F) (hfs : fs.length = n) (hinv : ∀ g ∈ fs, Inv g) :
    ∃ f', sumFactors mf w n T gate f = .ok (f', (reduceSpec (pf.linearize (scene w) (distanceRejector gate) T) fs).2) ∧ Inv f' := by
  obtain ⟨s', hs, h1, h2⟩ := foldlM_inv (addFactor mf w T gate)
    (fun done st => Inv st.1 ∧ st.2 = (done.map (contrib (pf.linearize (scene w) (distanceRejector gate) T) fs)).sum) (List.range n) (f, 0) ⟨hf, by simp⟩ (by
      rintro done i rest hl ⟨f1, s1⟩ ⟨h1, h2⟩
      obtain ⟨hd, hlt⟩ := range_prefix hl
      simp only at h1 h2
      have hc : contrib (pf.linearize (scene w) (distanceRejector gate) T) fs i = (pf.linearize (scene w) (distanceRejector gate) T i f1).2.getD 0 := by
        unfold contrib
        have hlt' : i < fs.length := hfs ▸ hlt
        rw [List.getElem?_eq_getElem hlt']
        simp only [same_system hm (distanceRejector gate) T i (hinv _ (List.getElem_mem hlt')) h1]
      have hk := (hm.plain.sound (distanceRejector gate) T).keep i f1 h1
      unfold addFactor
      rw [linearize_ok h hw T hlt gate f1, ok_bind]
      simp only [List.map_append, List.sum_append, List.map_cons, List.map_nil, List.sum_cons, List.sum_nil, hc, ← h2]
      rcases hlin : pf.linearize (scene w) (distanceRejector gate) T i f1 with ⟨f2, _ | s⟩
      · rw [hlin] at hk
        exact ⟨_, rfl, hk, by simp⟩
      · rw [hlin] at hk
        exact ⟨_, rfl, hk, by simp⟩)
  refine ⟨s'.1, ?_, h1⟩
  unfold sumFactors
  rw [hs, ← contrib_sum, hfs, ← h2]

section Factors

variable {e : Env} (he : EnvMeets e) {m : Metric} {needs : Needs} {F : Type} {mf : MemFactor F ℝ} {pf : PointFactor F ℝ} {Inv : F → Prop} (hmf : MetricFactor e.inv m needs mf pf Inv)
  {outT outS : List (Pt ℝ)} {ct cs : RCloud} {tt ts : KdTree.Tree ℝ} (hT : PyPrepared e outT ct tt) (hS : PyPrepared e outS cs ts)

include hmf in
/-- C78. A new factor object meets the condition that the theorems put on the state of the object. -/
theorem C78_new : Inv mf.init := by
  cases hmf with
  | point => trivial
  | plane => trivial
  | cov => exact fun _ _ _ => rfl

include he hmf hT hS in
/-- C78. `linearize` of a source point of two preprocessed clouds, with the tree of the target, at any pose: the flag says whether a target point is within the distance set in the rejector, and `H`, `b`, `e` are Gauss-Newton matrix, gradient and cost
of the source point with a nearest target point; zero if there is none. -/
theorem C78_linearize {dist : ℝ} (hd : dist * dist < e.maxD) (hne : outT ≠ []) (T : Pose ℝ) {i : Nat} {s : Site} (hi : (cloudSites cs)[i]? = some s) {f : F} (hf : Inv f) :
    ∃ f' o H b err, Python.linearize mf (factorWorld e ct cs outT tt) T i (setMaxDistance dist) f = .ok (f', Option.isSome o, (H, b, err)) ∧ Inv f' ∧
      Linearised m (NearestWithin (cloudSites ct) (dist * dist)) [s] T [o] H b ∧ err = totalCost m [s] [o] T T ∧ (o = none → H = 0 ∧ b = 0 ∧ err = 0) := by
  obtain ⟨hhom, hmeas, hsrc, hrule, hsound⟩ := clouds_scene he hmf hd hT.count hT.feat hS.feat hT.unit hS.unit hT.tree hT.bare (scene (factorWorld e ct cs outT tt)) rfl
  have hw : Sound (fun _ => False) (factorWorld e ct cs outT tt) needs cs.size := hsound hne
  generalize hsc : scene (factorWorld e ct cs outT tt) = sc at hhom hmeas hsrc hrule
  have hlen : i < cs.size := by
    have := (List.getElem?_eq_some_iff.1 hi).1
    simpa [cloudSites] using this
  have hs : s = sourceSite sc (fun i => head3 (okOr 0 (cs.normal i))) i := by
    rw [← hsrc] at hi
    unfold sourceSites at hi
    rw [List.getElem?_map, List.getElem?_range hlen] at hi
    exact (Option.some.inj hi).symm
  have hMi := hrule T i hlen
  rw [linearize_ok hmf.ships hw T hlen (setMaxDistance dist) f, hsc]
  have hkeep := (hmeas.plain.sound (distanceRejector (setMaxDistance dist)) T).keep i f hf
  have hgood := (hmeas.plain.sound (distanceRejector (setMaxDistance dist)) T).good i f hf
  have hg : setMaxDistance dist = dist * dist := rfl
  rw [hg] at hkeep hgood ⊢
  have hpos : head3 (sc.srcPoint i) = s.pos := by rw [hs]; rfl
  rw [hpos] at hMi
  cases hc : correspondence sc (distanceRejector (dist * dist)) T i with
  | none =>
    obtain ⟨a1, _, _⟩ := factor_alone hhom hmeas hc f
    rw [hc] at hMi
    refine ⟨_, none, 0, 0, 0, by rw [a1]; rfl, hkeep, ⟨.cons hMi .nil, Verif.Spec.GoodSystem.zero.hess, fun x => by simp [pairSum], fun x => ?_⟩, by simp [totalCost, pairSum], fun _ => ⟨rfl, rfl, rfl⟩⟩
    simpa [totalCost, pairSum] using hasDerivAt_const (0 : ℝ) (0 : ℝ)
  | some k =>
    obtain ⟨f', H, b, err, a1, _, _, a4, a5, a6⟩ := factor_pair (nrm := fun i => head3 (okOr 0 (cs.normal i))) hhom hmeas hlen hc hf
    rw [hc] at hMi
    rw [a1] at hkeep
    have hgood' := hgood H b err (by rw [a1])
    rw [← hs] at a4 a5 a6
    refine ⟨f', some (targetSite sc k), H, b, err, by rw [a1]; rfl, hkeep, ⟨.cons hMi .nil, hgood'.hess, fun x => by simpa [pairSum] using a5 x, fun x => ?_⟩, by simpa [totalCost, pairSum] using a4, fun h => by cases h⟩
    simpa [totalCost, pairSum] using a6 x

include he hmf hT hS in
/-- C78. The loop over all source points with one factor object, in whatever state it is: the sums are the Gauss-Newton matrix, the gradient and the cost of the whole source with nearest partners, and the same for every state of the object. -/
theorem C78_sum {dist : ℝ} (hd : dist * dist < e.maxD) (hne : outT ≠ []) (T : Pose ℝ) :
    ∃ partner H b err, Linearised m (NearestWithin (cloudSites ct) (dist * dist)) (cloudSites cs) T partner H b ∧ err = totalCost m (cloudSites cs) partner T T ∧
      ∀ f, Inv f → ∃ f', sumFactors mf (factorWorld e ct cs outT tt) cs.size T (setMaxDistance dist) f = .ok (f', (H, b, err)) ∧ Inv f' := by
  obtain ⟨hhom, hmeas, hsrc, hrule, hsound⟩ := clouds_scene he hmf hd hT.count hT.feat hS.feat hT.unit hS.unit hT.tree hT.bare (scene (factorWorld e ct cs outT tt)) rfl
  have hw : Sound (fun _ => False) (factorWorld e ct cs outT tt) needs cs.size := hsound hne
  have hinit : ∀ g ∈ List.replicate cs.size pf.init, Inv g := fun g hg => by
    rw [List.eq_of_mem_replicate hg]
    exact (hmeas.plain.sound (distanceRejector (dist * dist)) T).init
  rcases hr : reduceSpec (pf.linearize (scene (factorWorld e ct cs outT tt)) (distanceRejector (dist * dist)) T) (List.replicate cs.size pf.init) with ⟨fs', H, b, err⟩
  have hser := serial_ok (pf.linearize (scene (factorWorld e ct cs outT tt)) (distanceRejector (dist * dist)) T) (List.replicate cs.size pf.init)
  rw [hr] at hser
  obtain ⟨h1, h2, _⟩ := system_linearised (nrm := fun i => head3 (okOr 0 (cs.normal i))) hhom hmeas T (hrule T) _ _ ⟨by simp, hinit⟩ H b err hser
  rw [hsrc] at h1 h2
  refine ⟨_, H, b, err, h1, h2, fun f hf => ?_⟩
  obtain ⟨f', h3, h4⟩ := sum_reduce hmf.ships hw hmeas T (dist * dist) hf (List.replicate cs.size pf.init) (by simp) hinit
  refine ⟨f', ?_, h4⟩
  rw [hr] at h3
  exact h3

include he hmf hT hS in
/-- `H` and `b` of a registration are the sums at the pose of the last linearisation. -/
theorem align_sums (execL execE : Pose ℝ → List F → Exec) (hL : ∀ T fs, fs.length = cs.size → (execL T fs).Complete cs.size) (hE : ∀ T fs, fs.length = cs.size → (execE T fs).Complete cs.size)
    {dist : ℝ} (hd : dist * dist < e.maxD) (hne : outT ≠ []) (re te : ℝ) {st : LMSetting ℝ} (hlam : 0 < st.initLambda) (hfac : 0 < st.lambdaFactor) (initT : Pose ℝ) {f : F} (hf : Inv f) :
    ∃ out, RegMem.align mf (factorWorld e ct cs outT tt) ⟨distanceRejector (dist * dist), nullFactor, e.solve, se3Exp, converged re te⟩ execL execE (.lm st) initT cs.size = .ok out ∧
      (st.maxIterations ≤ 0 ∧ out.1.T = initT ∨ ∃ L f' err, sumFactors mf (factorWorld e ct cs outT tt) cs.size L (setMaxDistance dist) f = .ok (f', (out.1.H, out.1.b, err)) ∧
        (out.1.T = L ∧ out.1.error = err ∨ ∃ lam d, 0 < lam ∧ Damped out.1.H out.1.b lam d ∧ out.1.T = L.mul (se3Exp d) ∧ out.1.error ≤ err)) := by
  obtain ⟨⟨res, fs', log⟩, sc, h1, h2, hhom, hmeas, hsrc, hrule, hsc⟩ := clouds_core he hmf execL execE hL hE hd re te nullFactor st hT.count hT.feat hS.feat hT.unit hS.unit hT.tree hT.bare initT
    (fun h => hne h.1)
  obtain ⟨_, _, _, _, hsound⟩ := clouds_scene he hmf hd hT.count hT.feat hS.feat hT.unit hS.unit hT.tree hT.bare sc hsc
  have hw : Sound (fun _ => False) (factorWorld e ct cs outT tt) needs cs.size := hsound hne
  refine ⟨_, h1, ?_⟩
  obtain ⟨r0, hr0, hl⟩ := lm_unfold h2
  have eT : res.T = r0.T := by rw [hr0]; rfl
  have eH : res.H = r0.H := by rw [hr0]; rfl
  have eb : res.b = r0.b := by rw [hr0]; rfl
  have ee : res.error = r0.error := by rw [hr0]; rfl
  simp only [eT, eH, eb, ee]
  have hinit : (List.replicate cs.size pf.init).length = cs.size ∧ ∀ g ∈ List.replicate cs.size pf.init, Inv g :=
    ⟨by simp, fun g hg => by rw [List.eq_of_mem_replicate hg]; exact (hmeas.plain.sound (distanceRejector (dist * dist)) initT).init⟩
  obtain ⟨hrun, hlog, hle, _⟩ := lmLoop_spec hl
  obtain ⟨_, hlast, hnil⟩ := lmLoop_steps (Q := fun fs => fs.length = cs.size ∧ ∀ g ∈ fs, Inv g) (by
    rintro T fs fs1 ⟨H, b, err⟩ hfs hlin
    exact (system_linearised (nrm := fun i => head3 (okOr 0 (cs.normal i))) hhom hmeas T (hrule T) fs fs1 hfs H b err hlin).2.2.2.1) hfac hlam hl hinit
  cases hg : log.getLast? with
  | none =>
    have hl0 : log = [] := List.getLast?_eq_none_iff.1 hg
    left
    refine ⟨?_, by rw [hnil hl0]; rfl⟩
    by_contra hc
    have := hrun.budget (by rw [hl0, List.length_nil]; omega)
    rw [hnil hl0, hl0] at this
    rcases this with h | ⟨it, h, _⟩
    · cases h
    · cases h
  | some it =>
    right
    obtain ⟨fs, ⟨H, b, err⟩, hq, hlin, hup, hstep⟩ := hlast it hg
    have hmem : it ∈ log := List.mem_of_getLast? hg
    have hup' : (H, b, err) = (r0.H, r0.b, it.e0) := hup
    obtain ⟨rfl, rfl, rfl⟩ : H = r0.H ∧ b = r0.b ∧ err = it.e0 := by simpa using hup'
    obtain ⟨f', hs, _⟩ := sum_reduce hmf.ships hw (hsc ▸ hmeas) it.T0 (dist * dist) hf fs hq.1 hq.2
    have hser := serial_ok (pf.linearize sc (distanceRejector (dist * dist)) it.T0) fs
    have hlin' : serialLinearize (pf.linearize sc (distanceRejector (dist * dist)) it.T0) fs = .ok (it.factors, (r0.H, r0.b, it.e0)) := hlin
    have hpsd := (system_linearised (nrm := fun i => head3 (okOr 0 (cs.normal i))) hhom hmeas it.T0 (hrule it.T0) fs _ hq _ _ _ hlin').1.psd
    rw [hlin'] at hser
    have hred := Except.ok.inj hser
    have hsc' : scene (factorWorld e ct cs outT tt) = sc := hsc.symm
    rw [hsc', ← hred] at hs
    obtain ⟨_, hE1, hT1, _⟩ := hrun.last it hg
    refine ⟨it.T0, f', it.e0, hs, ?_⟩
    obtain ⟨g1, g2⟩ := hle (fun _ _ => rfl) it hmem
    cases hst : it.step with
    | none =>
      left
      exact ⟨by rw [hT1, (hrun.iters it hmem).rejected hst], by rw [hE1, g2 hst]⟩
    | some d =>
      right
      obtain ⟨lam, hl0, hdl⟩ := hstep d hst
      refine ⟨lam, d, hl0, ?_, by rw [hT1, ((hrun.iters it hmem).accepted d hst).1]; rfl, by rw [hE1]; exact g1⟩
      rw [hdl]
      exact he.solve _ (damped_symm hpsd _) (damped_pos hpsd hl0) (-r0.b)

/-- The name of each method in Python. -/
inductive NamedMetric : String → Metric → Prop
  | icp : NamedMetric "ICP" .point
  | plane : NamedMetric "PLANE_ICP" .plane
  | gicp : NamedMetric "GICP" .cov

include he hmf hT hS in
/-- C78. `align` of two preprocessed clouds with any of the three methods, any number of threads and every complete execution: its `H` and `b` are the sums that the loop over the factors of that method computes at the pose `L` of the last iteration, in
whatever state the factor object is. The resulting pose is `L` itself, and the error the sum of the errors, if no step was accepted there; otherwise it is one step further: a step that solves the damped system of these `H` and `b` and does not
increase the error. -/
theorem C78_align {name : String} (hname : NamedMetric name m) {s : Setting} (hd : s.maxCorrespondenceDistance * s.maxCorrespondenceDistance < e.maxD) (hne : outT ≠ []) {y : RegExec}
    (hy : RunsToEnd y s.numThreads.toNat) (initT : Pose ℝ) {f : F} (hf : Inv f) :
    ∃ res, Python.alignClouds e y ct cs tt initT name s = .ok res ∧
      (s.maxIterations ≤ 0 ∧ res.T = initT ∨ ∃ L f' err, sumFactors mf (factorWorld e ct cs outT tt) cs.size L (setMaxDistance s.maxCorrespondenceDistance) f = .ok (f', (res.H, res.b, err)) ∧
        (res.T = L ∧ res.error = err ∨ ∃ lam d, 0 < lam ∧ Damped res.H res.b lam d ∧ res.T = L.mul (se3Exp d) ∧ res.error ≤ err)) := by
  have hrun : ∃ reg : Registration, reg.numThreads = s.numThreads ∧ reg.lm = ⟨s.maxIterations, 10, 1 / 1000, 10⟩ ∧ reg.maxDistSq = s.maxCorrespondenceDistance * s.maxCorrespondenceDistance ∧
      Python.alignClouds e y ct cs tt initT name s = runMethod e y mf (factorWorld e ct cs outT tt) reg initT cs.size := by
    unfold Python.alignClouds
    rw [(features_points hT.feat).1, ok_bind]
    cases hname <;> cases hmf <;> simp only [pyAlignCloud, parseType, alignCloud, runRegistration, Registration.default] <;> exact ⟨_, rfl, rfl, rfl, rfl⟩
  obtain ⟨reg, k1, k2, k3, hrun⟩ := hrun
  rw [hrun]
  have hL : ∀ (T : Pose ℝ) (fs : List F), fs.length = cs.size → (Exec.omp reg.numThreads.toNat (y.lin T fs).assign (y.lin T fs).sched (y.lin T fs).comb).Complete cs.size :=
    fun T fs hl => hl ▸ k1 ▸ (hy T fs).1
  have hE : ∀ (T : Pose ℝ) (fs : List F), fs.length = cs.size → (Exec.omp reg.numThreads.toNat (y.err T fs).assign (y.err T fs).sched (y.err T fs).comb).Complete cs.size :=
    fun T fs hl => hl ▸ k1 ▸ (hy T fs).2
  obtain ⟨out, h1, h2⟩ := align_sums he hmf hT hS _ _ hL hE hd hne reg.rotationEps reg.translationEps (st := reg.lm) (by rw [k2]; norm_num) (by rw [k2]; norm_num) initT hf
  refine ⟨out.1, ?_, by rw [k2] at h2; exact h2⟩
  unfold runMethod
  rw [k3, h1]
  rfl

/-! ### what is not checked -/

include hmf hS in
/-- C78. `source_index` is not checked: an index that is not one of the source reads outside of it, whatever the target. -/
theorem C78_index (target : RCloud) (treePts : List (Pt ℝ)) (t : KdTree.Tree ℝ) (T : Pose ℝ) {i : Nat} (hi : outS.length ≤ i) (gate : ℝ) (f : F) :
    Python.linearize mf (factorWorld e target cs treePts t) T i gate f = .error .oob := by
  have hp : cs.point i = .error .oob := by
    have h0 : cs.points[i]? = none := List.getElem?_eq_none (by rw [hS.feat.1]; simpa using hi)
    simp only [Cloud.point, getSlot, rd, h0]
    rfl
  have hs : RegMem.search (factorWorld e target cs treePts t) (distanceRejector gate) T i = .error .oob := by
    unfold RegMem.search factorWorld cloudWorld
    simp only [hp]
    rfl
  unfold Python.linearize
  cases hmf with
  | point => simp only [icpMem, icpLinearize, hs]; rfl
  | plane => simp only [planeMem, planeLinearize, hs]; rfl
  | cov => simp only [gicpMem, gicpLinearize, hs]; rfl

include hmf hT hS in
/-- C78. With a target without points the search reads the root of the tree, which is not set. -/
theorem C78_empty (hT0 : outT = []) (T : Pose ℝ) {i : Nat} (hi : i < outS.length) (gate : ℝ) (f : F) :
    Python.linearize mf (factorWorld e ct cs outT tt) T i gate f = .error .uninit := by
  obtain ⟨n, C, hp, _⟩ := features_at hS.feat (List.getElem?_eq_getElem hi)
  have hs : RegMem.search (factorWorld e ct cs outT tt) (distanceRejector gate) T i = .error .uninit := by
    unfold RegMem.search factorWorld cloudWorld
    simp only [hp, ok_bind, hT.bare hT0, hT0]
    rfl
  unfold Python.linearize
  cases hmf with
  | point => simp only [icpMem, icpLinearize, hs]; rfl
  | plane => simp only [planeMem, planeLinearize, hs]; rfl
  | cov => simp only [gicpMem, gicpLinearize, hs]; rfl

include he hmf hT hS in
/-- C78. Nor is it checked that the tree is one of the target: with the tree of another cloud, if some point of that cloud is within the gate and all such points have indices that the target does not have, the factor reads outside of the target. -/
theorem C78_foreign_tree {outO : List (Pt ℝ)} {co : RCloud} {t : KdTree.Tree ℝ} (hO : PyPrepared e outO co t) (T : Pose ℝ) {i : Nat} {s : Site} (hi : (cloudSites cs)[i]? = some s) {gate : ℝ} (hgate : gate < e.maxD)
    {j₀ : Nat} {o₀ : Site} (h₀ : (cloudSites co)[j₀]? = some o₀) (hn₀ : (o₀.pos - move T s.pos) ⬝ᵥ (o₀.pos - move T s.pos) ≤ gate)
    (hfar : ∀ j o, (cloudSites co)[j]? = some o → (o.pos - move T s.pos) ⬝ᵥ (o.pos - move T s.pos) ≤ gate → outT.length ≤ j) (f : F) :
    Python.linearize mf (factorWorld e ct cs outO t) T i gate f = .error .oob := by
  obtain ⟨hOpts, hOs⟩ := features_points hO.feat
  obtain ⟨_, hSs⟩ := features_points hS.feat
  obtain ⟨hOp, _, _⟩ := features_regular hO.feat
  have hlen : i < cs.size := by
    have := (List.getElem?_eq_some_iff.1 hi).1
    simpa [cloudSites] using this
  have hlenO : ∀ {j o}, (cloudSites co)[j]? = some o → j < co.size := fun {j o} h => by
    have := (List.getElem?_eq_some_iff.1 h).1
    simpa [cloudSites] using this
  have hne : outO ≠ [] := by
    rintro rfl
    have := hlenO h₀
    rw [hOs] at this
    exact absurd this (Nat.not_lt_zero _)
  have hgS := List.getElem?_eq_getElem (hSs ▸ hlen : i < outS.length)
  obtain ⟨nS, CS, hp, _⟩ := features_at hS.feat hgS
  have hspos : s.pos = head3 ![outS[i].x, outS[i].y, outS[i].z, outS[i].w] := by
    unfold cloudSites at hi
    rw [List.getElem?_map, List.getElem?_range hlen] at hi
    have := Option.some.inj hi
    rw [← this]
    simp only [hp, okOr]
  have hw1 : (![outS[i].x, outS[i].y, outS[i].z, outS[i].w] : Fin 4 → ℝ) 3 = 1 := hS.unit _ (List.mem_of_getElem? hgS)
  generalize (![outS[i].x, outS[i].y, outS[i].z, outS[i].w] : Fin 4 → ℝ) = p at hp hspos hw1
  have hq : head3 (T.apply p) = move T s.pos := by rw [head3_apply T p hw1, hspos]
  have hq3 : T.apply p 3 = 1 := by rw [apply_last, hw1]
  obtain ⟨o, m1, m2, m3⟩ := kdNearest_spec co e.builder he.nth (builder_find he) builder_leaf hOp (by rw [hOs]; exact List.length_pos_of_ne_nil hne) (by rw [hOs]; exact hO.count)
    outO hOpts t (hO.tree hne) e.maxD he.maxD (outO.length + 1) (by rw [hOs]; omega) e.junk (T.apply p)
  -- sites and stored points of the other cloud
  have hsite : ∀ {j : Nat} {o : Site}, (cloudSites co)[j]? = some o → ∃ q, co.points[j]? = some (some q) ∧ dist2 q (T.apply p) = (o.pos - move T s.pos) ⬝ᵥ (o.pos - move T s.pos) := by
    intro j o h
    have hj := hlenO h
    have hg := List.getElem?_eq_getElem (hOs ▸ hj : j < outO.length)
    obtain ⟨n, C, b1, _⟩ := features_at hO.feat hg
    refine ⟨_, by rw [hO.feat.1, List.getElem?_map, hg]; rfl, ?_⟩
    unfold cloudSites at h
    rw [List.getElem?_map, List.getElem?_range hj] at h
    have := Option.some.inj h
    rw [dist_head _ _ (by rw [hq3]; exact hO.unit _ (List.mem_of_getElem? hg)), hq, ← this]
    simp only [b1, okOr]
  obtain ⟨q₀, a1, a2⟩ := hsite h₀
  rcases o with _ | ⟨j, d⟩
  · exact absurd (m2 rfl j₀ q₀ a1) (not_le.2 (lt_of_le_of_lt (a2 ▸ hn₀) hgate))
  · obtain ⟨_, q, b1, b2, b3⟩ := m3 j d rfl
    have hj : j < co.size := (List.getElem?_eq_some_iff.1 b1).1
    have hsj : (cloudSites co)[j]? = some ⟨head3 (okOr 0 (co.point j)), head3 (okOr 0 (co.normal j)), block33 (okOr 0 (co.cov j))⟩ := by
      unfold cloudSites
      rw [List.getElem?_map, List.getElem?_range hj]
      rfl
    obtain ⟨q', c1, c2⟩ := hsite hsj
    rw [b1] at c1
    cases c1
    have hdg : d ≤ gate := le_trans (b3 j₀ q₀ a1) (a2 ▸ hn₀)
    have hout : outT.length ≤ j := hfar j _ hsj (by rw [← c2, ← b2]; exact hdg)
    have hs : RegMem.search (factorWorld e ct cs outO t) (distanceRejector gate) T i = .ok (T.apply p, some j) := by
      unfold RegMem.search factorWorld cloudWorld
      simp only [hp, ok_bind, m1]
      rw [if_neg (by simp [distanceRejector, hdg])]
    have n1 : (factorWorld e ct cs outO t).tgtPoint j = .error .oob := by
      show ct.point j = _
      have h0 : ct.points[j]? = none := List.getElem?_eq_none (by rw [hT.feat.1]; simpa using hout)
      simp only [Cloud.point, getSlot, rd, h0]
      rfl
    have n2 : (factorWorld e ct cs outO t).tgtNormal j = .error .oob := by
      show ct.normal j = _
      have h0 : ct.normals[j]? = none := List.getElem?_eq_none (by rw [hT.feat.2.1]; simpa using hout)
      simp only [Cloud.normal, getSlot, rd, h0]
      rfl
    have n3 : (factorWorld e ct cs outO t).tgtCov j = .error .oob := by
      show ct.cov j = _
      have h0 : ct.covs[j]? = none := List.getElem?_eq_none (by rw [hT.feat.2.2.1]; simpa using hout)
      simp only [Cloud.cov, getSlot, rd, h0]
      rfl
    unfold Python.linearize
    cases hmf with
    | point => simp only [icpMem, icpLinearize, hs, ok_bind, n1]; rfl
    | plane => simp only [planeMem, planeLinearize, hs, ok_bind, n2]; rfl
    | cov => simp only [gicpMem, gicpLinearize, hs, ok_bind, n3]; rfl

end Factors

/-- C78. A new rejector has a gate of 1 m; a negative distance is treated as its absolute value, it does not reject everything. -/
theorem C78_rejector (dist : ℝ) : rejectorInit = setMaxDistance 1 ∧ setMaxDistance dist = setMaxDistance |dist| ∧
    ∀ (T : Pose ℝ) (k i : Nat) (d : ℝ), 0 ≤ d → (distanceRejector (setMaxDistance dist) T k i (d * d) = false ↔ d ≤ |dist|) := by
  refine ⟨by simp [rejectorInit, setMaxDistance], by simp [setMaxDistance, abs_mul_abs_self], fun T k i d hd => ?_⟩
  unfold distanceRejector setMaxDistance
  rw [decide_eq_false_iff_not, not_lt, ← abs_mul_abs_self dist]
  exact ⟨fun h => by
    by_contra hc
    exact absurd h (not_le.2 (mul_self_lt_mul_self (abs_nonneg _) (not_le.1 hc))), fun h => mul_self_le_mul_self hd h⟩

/-! ### a concrete case -/

/-- Six points preprocessed from an array. -/
theorem parabola_prepared {e : Env} (he : EnvMeets e) : ∃ out c t, PyPrepared e out c t ∧ out ≠ [] := by
  obtain ⟨x, r, h⟩ := C70_executes he (.inl rfl) parabolaArray_rows (fun h => by cases h) (by simp [parabolaArray]) one_ne_zero parabola_ok.2.1 10
  obtain ⟨out, c, t, rfl, _, hl, h3, h4, hne, h6, h7⟩ := C70_preprocess he (.inl rfl) parabolaArray_rows (fun h => by cases h) (by simp [parabolaArray]) one_ne_zero parabola_ok.2.1 (k := 10) (by norm_num) h
  refine ⟨out, c, t, ⟨hl, h3, h4, lt_of_le_of_lt h6 (by simp [parabola]), h7⟩, ?_⟩
  simp [hne, parabola]

/-- The premises of C78 are met by the cloud of six points with each of the factors, also for the point with index 0. -/
example : ∃ (e : Env) (out : List (Pt ℝ)) (c : RCloud) (t : KdTree.Tree ℝ), EnvMeets e ∧ PyPrepared e out c t ∧ out ≠ [] ∧ (3 / 2 : ℝ) * (3 / 2) < e.maxD ∧ (∃ s, (cloudSites c)[0]? = some s) ∧
    (∃ f', ∃ s : Sys ℝ, sumFactors (gicpMem e.inv) (factorWorld e c c out t) c.size Pose.one (setMaxDistance (3 / 2)) GICP.init = .ok (f', s)) ∧
    Python.linearize icpMem (factorWorld e c c out t) Pose.one out.length rejectorInit ⟨npos, npos⟩ = .error .oob := by
  obtain ⟨e, he, hm, _⟩ := env_exists 1000 (by norm_num) (0, 0)
  obtain ⟨out, c, t, h, hne⟩ := parabola_prepared he
  have hd : (3 / 2 : ℝ) * (3 / 2) < e.maxD := by rw [hm]; norm_num
  have hsz := (features_points h.feat).2
  have hpos : 0 < c.size := by rw [hsz]; exact List.length_pos_of_ne_nil hne
  refine ⟨e, out, c, t, he, h, hne, hd, ⟨_, List.getElem?_eq_getElem (by simpa [cloudSites] using hpos)⟩, ?_, C78_index (.point (inv := e.inv)) h c out t Pose.one le_rfl _ _⟩
  obtain ⟨_, H, b, err, _, _, hall⟩ := C78_sum he (.cov (inv := e.inv)) h h hd hne Pose.one
  obtain ⟨f', h1, _⟩ := hall GICP.init (C78_new (.cov (inv := e.inv)))
  exact ⟨f', _, h1⟩

/-- A target without points and the tree of six points. -/
example : ∃ (e : Env) (out : List (Pt ℝ)) (c : RCloud) (t t0 : KdTree.Tree ℝ), EnvMeets e ∧ PyPrepared e out c t ∧ PyPrepared e [] ⟨[], [], []⟩ t0 ∧
    Python.linearize planeMem (factorWorld e ⟨[], [], []⟩ c out t) Pose.one 0 1 ⟨npos, npos⟩ = .error .oob := by
  obtain ⟨e, he, hm, _⟩ := env_exists 1000 (by norm_num) (0, 0)
  obtain ⟨out, c, t, h, hne⟩ := parabola_prepared he
  have hsz := (features_points h.feat).2
  have hpos : 0 < c.size := by rw [hsz]; exact List.length_pos_of_ne_nil hne
  have h0 : PyPrepared e [] ⟨[], [], []⟩ ⟨[], [], none⟩ := ⟨⟨rfl, rfl, rfl, by simp⟩, fun h => absurd rfl h, fun _ => rfl, by norm_num, by simp⟩
  have hs : (cloudSites c)[0]? = some _ := List.getElem?_eq_getElem (by simpa [cloudSites] using hpos)
  refine ⟨e, out, c, t, _, he, h, h0, C78_foreign_tree he (.plane (inv := e.inv)) h0 h h Pose.one hs (by rw [hm]; norm_num) hs ?_ (fun _ _ _ _ => Nat.zero_le _) _⟩
  simp [move, Pose.one]

end Verif.Props
