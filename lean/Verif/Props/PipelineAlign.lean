import Verif.Props.Pipeline
import Verif.Props.RegistrationMemoryExamples
import Verif.Props.RegistrationVoxel
import Verif.Props.PointCloud

/-!
C61: `align` on vectors of points, from the points to the result.
-/

set_option linter.unusedSectionVars false
set_option linter.unusedSimpArgs false
set_option linter.unnecessarySeqFocus false

namespace Verif.Spec

open Verif Verif.Pipeline Verif.Factors

/-- The point of a vector, with a fourth coordinate of 1. -/
def vecPoint {T : Type} {d : Nat} (cast : T → ℝ) (p : Fin (d + 3) → T) : Pt ℝ := ⟨cast (p 0), cast (p 1), cast (p 2), 1⟩

/-- Every call of the reduction runs to its end with `threads` threads. -/
def RunsToEnd (y : RegExec) (threads : Nat) : Prop :=
  ∀ {F : Type} (T : Pose ℝ) (fs : List F),
    (RegMem.Exec.omp threads (y.lin T fs).assign (y.lin T fs).sched (y.lin T fs).comb).Complete fs.length ∧
    (RegMem.Exec.omp threads (y.err T fs).assign (y.err T fs).sched (y.err T fs).comb).Complete fs.length

/-- The sample of `pts` that the preprocessing keeps, by number of threads. -/
def Sampled (threads : Int) (leaf : ℝ) (pts out : List (Pt ℝ)) : Prop := if threads = 1 then SerialSample leaf pts out else BlockSample leaf pts out

/-- A point of `out` is within the squared distance `gate` of `T p`. -/
def HasPartner (out : List (Pt ℝ)) (gate : ℝ) (T : Pose ℝ) (p : Pt ℝ) : Prop := ∃ q ∈ out, sqd q (RegMem.toPt (T.apply ![p.x, p.y, p.z, p.w])) ≤ gate

/-- `L` is a pose at which a run from `T0` with at most `n` iterations can linearise: `T0` moved by fewer than `n` steps. -/
def Visited (T0 : Pose ℝ) (n : Int) (L : Pose ℝ) : Prop := ∃ steps : List (Fin 6 → ℝ), steps.length < n.toNat ∧ L = Props.posesAfter T0 steps

/-- A run from `T0` with at most `n` iterations returns `T` and linearised last at `L`: at most one step from `L` to `T`; without iterations `T` and `L` are `T0`. -/
def EndsAt (T0 : Pose ℝ) (n : Int) (T L : Pose ℝ) : Prop :=
  (n ≤ 0 → T = T0 ∧ L = T0) ∧ (0 < n → Visited T0 n L ∧ (T = L ∨ ∃ d, T = L.mul (Lie.se3Exp d)))

end Verif.Spec

namespace Verif.Props

open Matrix Verif Verif.Knn Verif.KdTree Verif.Proofs Verif.Proofs.RegMem Verif.Factors Verif.Reduction Verif.Optimizer Verif.PointCloud Verif.RegMem Verif.Spec Verif.Lie
open Verif.Pipeline Verif.Features Verif.Downsample Verif.Helper

/-! ### preliminaries -/

theorem run_none {K : Type} [Field K] [LinearOrder K] {F : Type} (P : Problem F K) (meth : RegMem.Method K) (T0 : Pose K) (fs : List F)
    (out : Result K × List F × List (Iteration F K)) (hrun : meth.run P T0 fs = .ok out) (h0 : iterations meth = 0) : out.2.2 = [] := by
  cases meth with
  | lm st =>
    obtain ⟨⟨r, fs', log⟩, h1, h2⟩ := call_of_ok hrun
    have h0 : st.maxIterations.toNat = 0 := h0
    rw [h0] at h1
    cases h1
    cases h2
    rfl
  | gn lambda m =>
    obtain ⟨⟨r, fs', log⟩, h1, h2⟩ := call_of_ok hrun
    have h0 : m.toNat = 0 := h0
    rw [h0] at h1
    cases h1
    cases h2
    rfl

/-- The poses of a run of the Levenberg–Marquardt optimiser. -/
theorem run_poses {F : Type} (lin : Pose ℝ → List F → Res (List F × Sys ℝ)) (err : Pose ℝ → List F → Res ℝ) (g : General ℝ)
    (solve : Matrix (Fin 6) (Fin 6) ℝ → (Fin 6 → ℝ) → (Fin 6 → ℝ)) (conv : (Fin 6 → ℝ) → Bool) (inl : F → Bool) (st : LMSetting ℝ) (T0 : Pose ℝ) (fs : List F)
    (out : Result ℝ × List F × List (Iteration F ℝ)) (h : (RegMem.Method.lm st).run ⟨lin, err, g, solve, se3Exp, conv, inl⟩ T0 fs = .ok out) :
    (∀ it ∈ out.2.2, Visited T0 st.maxIterations it.T0) ∧ (∀ it, out.2.2.getLast? = some it → EndsAt T0 st.maxIterations out.1.T it.T0) ∧ (out.2.2 = [] → out.1.T = T0) := by
  obtain ⟨r, fs', log⟩ := out
  obtain ⟨r0, rfl, hrun⟩ := lm_unfold h
  obtain ⟨ok, _⟩ := lmLoop_spec hrun
  have hstep : ∀ it ∈ log, (it.step = none → it.T1 = it.T0) ∧ ∀ d, it.step = some d → it.T1 = it.T0.mul (se3Exp d) :=
    fun it hi => ⟨(ok.iters it hi).rejected, fun d hd => ((ok.iters it hi).accepted d hd).1⟩
  have hlen := ok.len
  have hvis : ∀ (j : Nat) (it : Iteration F ℝ), log[j]? = some it → Visited T0 st.maxIterations it.T0 := by
    intro j it hj
    have hjl := (List.getElem?_eq_some_iff.1 hj).1
    refine ⟨(log.take j).filterMap Iteration.step, ?_, ?_⟩
    · have h1 := List.length_filterMap_le Iteration.step (log.take j)
      rw [List.length_take] at h1
      omega
    · refine chain_poses se3Exp (log.take j) T0 it.T0 ⟨?_, ?_, ?_, ?_⟩ (fun a ha => hstep a (List.mem_of_mem_take ha))
      · intro a ha
        rw [List.head?_take] at ha
        split at ha
        · cases ha
        · exact ok.first a ha
      · intro i a b ha hb
        have hi : i + 1 < j := by
          have := (List.getElem?_eq_some_iff.1 hb).1
          rw [List.length_take] at this
          omega
        rw [List.getElem?_take_of_lt (by omega)] at ha
        rw [List.getElem?_take_of_lt hi] at hb
        exact (ok.chain i a b ha hb).1
      · intro a ha
        cases j with
        | zero => cases ha
        | succ i =>
          have ha : log[i]? = some a := by
            rw [List.getLast?_eq_getElem?, List.length_take, Nat.min_eq_left (by omega), List.getElem?_take_of_lt (by omega)] at ha
            exact ha
          exact (ok.chain i a it ha hj).1
      · intro h0
        have hj0 : j = 0 := by
          have := congrArg List.length h0
          rw [List.length_take, List.length_nil] at this
          omega
        subst hj0
        exact ok.first it (by rw [List.head?_eq_getElem?]; exact hj)
  refine ⟨fun it hi => ?_, fun it hl => ⟨fun hn => ?_, fun _ => ?_⟩, fun he => ?_⟩
  · obtain ⟨j, hj⟩ := List.getElem?_of_mem hi
    exact hvis j it hj
  · have : log ≠ [] := List.ne_nil_of_mem (List.mem_of_getLast? hl)
    have := List.length_pos_of_ne_nil this
    omega
  · obtain ⟨j, hj⟩ := List.getElem?_of_mem (List.mem_of_getLast? hl)
    refine ⟨hvis j it hj, ?_⟩
    have hT : r0.T = it.T1 := (ok.last it hl).2.2.1
    show r0.T = _ ∨ ∃ d, r0.T = _
    rw [hT]
    cases hs : it.step with
    | none => exact Or.inl ((hstep it (List.mem_of_getLast? hl)).1 hs)
    | some d => exact Or.inr ⟨d, (hstep it (List.mem_of_getLast? hl)).2 d hs⟩
  · show r0.T = T0
    rw [(ok.empty he).1]
    rfl

theorem run_ends {F : Type} (lin : Pose ℝ → List F → Res (List F × Sys ℝ)) (err : Pose ℝ → List F → Res ℝ) (g : General ℝ)
    (solve : Matrix (Fin 6) (Fin 6) ℝ → (Fin 6 → ℝ) → (Fin 6 → ℝ)) (conv : (Fin 6 → ℝ) → Bool) (inl : F → Bool) (st : LMSetting ℝ) (T0 : Pose ℝ) (fs : List F)
    (out : Result ℝ × List F × List (Iteration F ℝ)) (h : (RegMem.Method.lm st).run ⟨lin, err, g, solve, se3Exp, conv, inl⟩ T0 fs = .ok out) :
    ∃ L, EndsAt T0 st.maxIterations out.1.T L ∧ ∀ it, out.2.2.getLast? = some it → it.T0 = L := by
  obtain ⟨_, h1, h2⟩ := run_poses lin err g solve conv inl st T0 fs out h
  by_cases h0 : out.2.2 = []
  · refine ⟨T0, ⟨fun _ => ⟨h2 h0, rfl⟩, fun hn => ?_⟩, fun it hl => by rw [h0] at hl; cases hl⟩
    obtain ⟨it, hm, _⟩ := run_first _ _ _ _ _ h (by show 0 < st.maxIterations.toNat; omega)
    exact absurd h0 (List.ne_nil_of_mem hm)
  · refine ⟨(out.2.2.getLast h0).T0, h1 _ (List.getLast?_eq_some_getLast h0), fun it hl => ?_⟩
    rw [List.getLast?_eq_some_getLast h0] at hl
    cases hl
    rfl

/-- A registration on the tree of an empty cloud that never searches. -/
theorem empty_idle {F : Type} {needs : Needs} {mf : MemFactor F ℝ} {pf : PointFactor F ℝ} (h : Ships needs mf pf) (source : PCloud ℝ)
    (hsp : Spec.PointsSet source) (hcov : needs.covs = true → Spec.CovsSet source) (fuel : Nat) (maxD : ℝ) (junk : Nat × ℝ)
    (cfg : Config ℝ) (execL execE : Pose ℝ → List F → Exec) (hL : ∀ T fs, fs.length = source.size → (execL T fs).Complete source.size)
    (hE : ∀ T fs, fs.length = source.size → (execE T fs).Complete source.size) (meth : RegMem.Method ℝ) (T0 : Pose ℝ) (hidle : source.size = 0 ∨ iterations meth = 0) :
    ∃ out, RegMem.align mf (cloudWorld ⟨[], [], []⟩ source (kdNearest maxD [] ⟨[], [], none⟩ fuel junk)) cfg execL execE meth T0 source.size = .ok out ∧
      meth.run (registrationProblem pf (scene (cloudWorld ⟨[], [], []⟩ source (kdNearest maxD [] ⟨[], [], none⟩ fuel junk))) cfg.rejector cfg.general cfg.solve cfg.exp cfg.converged) T0
        (List.replicate source.size pf.init) = .ok out := by
  have hnn : ∀ q, kdNearest maxD [] ⟨[], [], none⟩ fuel junk q = .error .uninit := fun q => rfl
  have hw : Sound (· = .uninit) (cloudWorld (⟨[], [], []⟩ : PCloud ℝ) source (kdNearest maxD [] ⟨[], [], none⟩ fuel junk)) needs source.size :=
    { srcPoint := fun i hi => by
        obtain ⟨p, hp⟩ := hsp i hi
        exact ⟨p, by simp only [cloudWorld, Cloud.point, getSlot, rd, hp]; rfl⟩
      srcCov := fun hc i hi => by
        obtain ⟨p, hp⟩ := hcov hc i hi
        exact ⟨p, by simp only [cloudWorld, Cloud.cov, getSlot, rd, hp]; rfl⟩
      nn := fun q => Or.inr ⟨_, rfl, hnn q⟩
      found := fun q k d h => by
        have h : kdNearest maxD [] ⟨[], [], none⟩ fuel junk q = _ := h
        rw [hnn] at h; cases h }
  obtain ⟨out, h1, _⟩ := align_approx h hw cfg execL execE hL hE meth T0
  refine ⟨out, (align_ok_iff h hw cfg execL execE hL hE meth T0 _ h1).2 fun it hit i hi => ?_, h1⟩
  rcases hidle with h0 | h0
  · omega
  · rw [run_none _ _ _ _ _ h1 h0] at hit
    cases hit

theorem features_empty {maxD : ℝ} {k : Nat} {c : RCloud} (h : LocalFeatures [] maxD k c) : c = ⟨[], [], []⟩ := by
  obtain ⟨h1, h2, h3, _⟩ := h
  obtain ⟨a, b, d⟩ := c
  simp only [List.map_nil, List.length_nil, List.length_eq_zero_iff] at h1 h2 h3
  subst h1 h2 h3
  rfl

theorem features_points {out : List (Pt ℝ)} {maxD : ℝ} {k : Nat} {c : RCloud} (h : LocalFeatures out maxD k c) : cloudPoints c = .ok out ∧ c.size = out.length := by
  refine ⟨cloudPoints_of c out h.1, ?_⟩
  show c.points.length = _
  rw [h.1, List.length_map]

section Clouds

variable {e : Env} (he : EnvMeets e)

/-- The run of a configured registration on two preprocessed clouds. -/
theorem clouds_run (he : EnvMeets e) {F : Type} {needs : Needs} {mf : MemFactor F ℝ} {pf : PointFactor F ℝ} (h : Ships needs mf pf) (y : RegExec) (r : Registration) (hy : RunsToEnd y r.numThreads.toNat)
    {outT outS : List (Pt ℝ)} {k : Nat} {ct cs : RCloud} {t : KdTree.Tree ℝ} (hN : outT.length < 2 ^ 32) (hT : LocalFeatures outT e.maxD k ct) (hS : LocalFeatures outS e.maxD k cs)
    (ht : outT ≠ [] → TreeOf e.builder outT t) (ht0 : outT = [] → t = ⟨[], [], none⟩) (initT : Pose ℝ) :
    (outT = [] ∧ outS ≠ [] ∧ 0 < r.lm.maxIterations →
      runMethod e y mf (cloudWorld ct cs (kdNearest e.maxD outT t (outT.length + 1) e.junk)) r initT cs.size = .error .uninit) ∧
    (¬ (outT = [] ∧ outS ≠ [] ∧ 0 < r.lm.maxIterations) →
      ∃ res L, runMethod e y mf (cloudWorld ct cs (kdNearest e.maxD outT t (outT.length + 1) e.junk)) r initT cs.size = .ok res ∧ EndsAt initT r.lm.maxIterations res.T L ∧
        (0 < r.lm.maxIterations → outT ≠ [] → r.maxDistSq < e.maxD → open Classical in res.numInliers = outS.countP (fun p => decide (HasPartner outT r.maxDistSq L p)))) := by
  classical
  obtain ⟨hTp, hTn, hTc⟩ := features_regular hT
  obtain ⟨hSp, _, hSc⟩ := features_regular hS
  obtain ⟨hTpts, hTs⟩ := features_points hT
  obtain ⟨_, hSs⟩ := features_points hS
  have hL : ∀ (T : Pose ℝ) (fs : List F), fs.length = cs.size → (Exec.omp r.numThreads.toNat (y.lin T fs).assign (y.lin T fs).sched (y.lin T fs).comb).Complete cs.size :=
    fun T fs hl => hl ▸ (hy T fs).1
  have hE : ∀ (T : Pose ℝ) (fs : List F), fs.length = cs.size → (Exec.omp r.numThreads.toNat (y.err T fs).assign (y.err T fs).sched (y.err T fs).comb).Complete cs.size :=
    fun T fs hl => hl ▸ (hy T fs).2
  by_cases hne : outT = []
  · subst hne
    have := features_empty hT
    subst this
    rw [ht0 rfl]
    refine ⟨fun ⟨_, h2, h3⟩ => ?_, fun hn => ?_⟩
    · obtain ⟨t', _, h4, h5⟩ := C57_empty_target h e.builder cs hSp (by rw [hSs]; exact List.length_pos_of_ne_nil h2) (fun _ => CovsRegular.set hSc) (([] : List (Pt ℝ)).length + 1) 1 e.maxD e.junk
        ⟨distanceRejector r.maxDistSq, nullFactor, e.solve, se3Exp, converged r.rotationEps r.translationEps⟩ _ _ hL hE (.lm r.lm) (by show 0 < r.lm.maxIterations.toNat; omega) initT
      cases h4
      unfold runMethod
      rw [h5]
      rfl
    · obtain ⟨out, ho, hrun⟩ := empty_idle h cs hSp (fun _ => CovsRegular.set hSc) (([] : List (Pt ℝ)).length + 1) e.maxD e.junk
        ⟨distanceRejector r.maxDistSq, nullFactor, e.solve, se3Exp, converged r.rotationEps r.translationEps⟩ _ _ hL hE (.lm r.lm) initT (by
          by_cases h0 : outS = []
          · left; rw [hSs, h0]; rfl
          · right
            show r.lm.maxIterations.toNat = 0
            by_contra hc
            exact hn ⟨rfl, h0, by omega⟩)
      obtain ⟨L, hL, _⟩ := run_ends _ _ _ _ _ _ _ _ _ _ hrun
      refine ⟨out.1, L, ?_, hL, fun _ h0 => absurd rfl h0⟩
      unfold runMethod
      rw [ho]
      rfl
  · refine ⟨fun h0 => absurd h0.1 hne, fun _ => ?_⟩
    obtain ⟨pts, hp1, _, hp2⟩ := C57_kdtree_registration ct cs e.builder he.nth (builder_find he) builder_leaf hTp (by rw [hTs]; exact List.length_pos_of_ne_nil hne) (by rw [hTs]; exact hN) h
      hSp (fun _ => hTn) (fun _ => ⟨CovsRegular.set hTc, CovsRegular.set hSc⟩)
    rw [hTpts] at hp1
    cases hp1
    obtain ⟨res, fs', log, h1, h2⟩ := hp2 t (ht hne) e.maxD he.maxD (outT.length + 1) (by rw [hTs]; omega) e.junk
      ⟨distanceRejector r.maxDistSq, nullFactor, e.solve, se3Exp, converged r.rotationEps r.translationEps⟩ _ _ hL hE (.lm r.lm) initT
    have hw := kd_sound ct cs e.builder he.nth (builder_find he) builder_leaf hTp (by rw [hTs]; exact List.length_pos_of_ne_nil hne) (by rw [hTs]; exact hN) needs hSp (fun _ => hTn)
      (fun _ => ⟨CovsRegular.set hTc, CovsRegular.set hSc⟩) outT hTpts t (ht hne) e.maxD he.maxD (outT.length + 1) (by rw [hTs]; omega) e.junk
    obtain ⟨out, ho, ho'⟩ := align_approx h hw ⟨distanceRejector r.maxDistSq, nullFactor, e.solve, se3Exp, converged r.rotationEps r.translationEps⟩ _ _ hL hE (.lm r.lm) initT
    have ho' := ho'.resolve_right (by rintro ⟨_, hf, _⟩; exact hf)
    rw [h1] at ho'
    cases ho'
    obtain ⟨L, hends, hlast⟩ := run_ends _ _ _ _ _ _ _ _ _ _ ho
    refine ⟨res, L, ?_, hends, fun hit _ hmax => ?_⟩
    · unfold runMethod
      rw [h1]
      rfl
    · obtain ⟨_, h3⟩ := h2 r.maxDistSq rfl hmax
      have hlog : log ≠ [] := by
        obtain ⟨it, hm, _⟩ := run_first _ _ _ _ _ ho (by show 0 < r.lm.maxIterations.toNat; omega)
        exact List.ne_nil_of_mem hm
      rw [← hlast _ (List.getLast?_eq_some_getLast hlog)]
      rw [h3 _ (List.getLast?_eq_some_getLast hlog), hSs]
      have hget : ∀ (i : Nat) (p : Fin 4 → ℝ), cs.points[i]? = some (some p) ↔ ∃ q : Pt ℝ, outS[i]? = some q ∧ p = ![q.x, q.y, q.z, q.w] := by
        intro i p
        rw [hS.1, List.getElem?_map]
        cases outS[i]? with
        | none => simp
        | some q => simp [eq_comm]
      have hwithin : ∀ q : Fin 4 → ℝ, Spec.Within ct r.maxDistSq q ↔ ∃ p ∈ outT, sqd p (toPt q) ≤ r.maxDistSq := by
        intro q
        constructor
        · rintro ⟨j, p, hj, hd⟩
          rw [hT.1, List.getElem?_map] at hj
          obtain ⟨p', hp', hpe⟩ := Option.map_eq_some_iff.1 hj
          cases hpe
          refine ⟨p', List.mem_of_getElem? hp', ?_⟩
          rw [← sqd_toPt] at hd
          exact hd
        · rintro ⟨p, hp, hd⟩
          obtain ⟨j, hj⟩ := List.getElem?_of_mem hp
          refine ⟨j, ![p.x, p.y, p.z, p.w], by rw [hT.1, List.getElem?_map, hj]; rfl, ?_⟩
          rw [← sqd_toPt]
          exact hd
      have hcount : ∀ (l : List (Pt ℝ)) (f : Pt ℝ → Bool), (List.range l.length).countP (fun i => (l[i]?.map f).getD false) = l.countP f := by
        intro l f
        induction l with
        | nil => rfl
        | cons a l ih =>
          rw [List.length_cons, List.range_succ_eq_map, List.countP_cons, List.countP_map, List.countP_cons, ← ih]
          rfl
      rw [← hcount]
      refine List.countP_congr fun i hi => ?_
      have hi := List.mem_range.1 hi
      rw [List.getElem?_eq_getElem hi]
      simp only [decide_eq_true_eq, Option.map_some, Option.getD_some]
      constructor
      · rintro ⟨p, hp, hwi⟩
        obtain ⟨q, hq, rfl⟩ := (hget i p).1 hp
        rw [List.getElem?_eq_getElem hi] at hq
        cases hq
        exact (hwithin _).1 hwi
      · intro hp
        exact ⟨_, (hget i _).2 ⟨_, List.getElem?_eq_getElem hi, rfl⟩, (hwithin _).2 hp⟩

end Clouds

section Align

variable {e : Env} (he : EnvMeets e) {T : Type} {d : Nat} (cast : T → ℝ)

theorem homogeneous_eq (p : Fin (d + 3) → T) : (homogeneous cast p : Fin 4 → ℝ) = ofPt (vecPoint cast p) := by
  funext i
  fin_cases i <;> simp [homogeneous, ofPt, vecPoint] <;> rfl

/-- What one of the two inputs must meet: a point in each vector that fits the grid. -/
def InputFits (leaf : ℝ) (points : List (Fin (d + 3) → T)) : Prop := points.length < 2 ^ 32 ∧ ∀ p ∈ points, KeyDefined leaf (vecPoint cast p)

variable {leaf : ℝ} (hleaf : leaf ≠ 0) {points : List (Fin (d + 3) → T)} (hfit : InputFits cast leaf points) {k : Int} (hk : 1 ≤ k) (threads : Int)

include he hleaf hfit hk in
theorem vector_core {x : PrepExec} {r : Res (RCloud × KdTree.Tree ℝ)} (h : preprocessVector e x cast points leaf k threads = some r) :
    ∃ out c t, r = .ok (c, t) ∧ Sampled threads leaf (points.map (vecPoint cast)) out ∧ LocalFeatures out e.maxD k.toNat c ∧
      (out ≠ [] → TreeOf e.builder out t) ∧ (out = [] → t = ⟨[], [], none⟩) ∧ (out = [] ↔ points = []) ∧ out.length < 2 ^ 32 := by
  unfold preprocessVector at h
  rw [C50_constructor] at h
  simp only at h
  obtain ⟨out, c, t, h1, h2, h3, h4, h5, h6, h7, _⟩ := C59_preprocess he (pts := points.map (vecPoint cast)) (by simp [homogeneous_eq, Function.comp_def])
    (by simp [vecPoint]) (by rw [List.length_map]; exact hfit.1) hleaf (by simpa using hfit.2) hk threads h
  refine ⟨out, c, t, h1, h2, h3, h4, h5, by rw [h6]; simp, ?_⟩
  rw [List.length_map] at h7
  exact lt_of_le_of_lt h7 hfit.1

include he hleaf hfit hk in
theorem vector_same {x x' : PrepExec} {r r' : Res (RCloud × KdTree.Tree ℝ)} (h : preprocessVector e x cast points leaf k threads = some r)
    (h' : preprocessVector e x' cast points leaf k threads = some r') : ∃ c t c' t', r = .ok (c, t) ∧ r' = .ok (c', t') ∧ c.points.Perm c'.points := by
  unfold preprocessVector at h h'
  rw [C50_constructor] at h h'
  exact C59_same_points he (pts := points.map (vecPoint cast)) (by simp [homogeneous_eq, Function.comp_def])
    (by simp [vecPoint]) (by rw [List.length_map]; exact hfit.1) hleaf (by simpa using hfit.2) hk threads h h'

end Align

section Final

variable {e : Env} (he : EnvMeets e) {T : Type} {d : Nat} (cast : T → ℝ) {target source : List (Fin (d + 3) → T)} {s : Setting} (hleaf : s.downsamplingResolution ≠ 0)
  (hT : InputFits cast s.downsamplingResolution target) (hS : InputFits cast s.downsamplingResolution source)

/-- The three methods that run on point clouds. -/
def CloudMethod (t : RegType) : Prop := t = .icp ∨ t = .planeIcp ∨ t = .gicp

include he hleaf hT hS in
/-- C61, point clouds. `align` on two vectors of points, with ICP, point-to-plane ICP or GICP, any number of threads and every complete
execution: it is undefined (it reads the unset root of the target tree) if the target is empty, the source is not and at least one
iteration is allowed; otherwise it returns a result. The pose of the result is the initial guess moved by at most as many steps as iterations are allowed. With a target and a gate below the largest
`double`, the reported number of inliers is the number of sampled source points that the pose of the last linearisation, which is the initial guess or comes from it by steps
and is at most one step before the result, puts within the gate of a sampled target point. -/
theorem C61_clouds (htype : CloudMethod s.type) {xt xs : PrepExec} {y : RegExec} (hy : RunsToEnd y s.numThreads.toNat) {initT : Pose ℝ} {r : Res (Result ℝ)}
    (h : Pipeline.align e xt xs y cast target source initT s = some r) :
    (target = [] ∧ source ≠ [] ∧ 0 < s.maxIterations → r = .error .uninit) ∧
    (¬ (target = [] ∧ source ≠ [] ∧ 0 < s.maxIterations) → ∃ res L, r = .ok res ∧ EndsAt initT s.maxIterations res.T L ∧
      (0 < s.maxIterations → target ≠ [] → s.maxCorrespondenceDistance * s.maxCorrespondenceDistance < e.maxD →
        ∃ outT outS, Sampled s.numThreads s.downsamplingResolution (target.map (vecPoint cast)) outT ∧ Sampled s.numThreads s.downsamplingResolution (source.map (vecPoint cast)) outS ∧
          open Classical in res.numInliers = outS.countP (fun p => decide (HasPartner outT (s.maxCorrespondenceDistance * s.maxCorrespondenceDistance) L p)))) := by
  unfold Pipeline.align at h
  cases hpt : preprocessVector e xt cast target s.downsamplingResolution 10 s.numThreads with
  | none => rw [hpt] at h; cases h
  | some rt =>
    obtain ⟨outT, ct, t, rfl, a1, a2, a3, a4, a5, a6⟩ := vector_core he cast hleaf hT (k := 10) (by norm_num) s.numThreads hpt
    rw [hpt] at h
    simp only at h
    cases hps : preprocessVector e xs cast source s.downsamplingResolution 10 s.numThreads with
    | none => rw [hps] at h; cases h
    | some rs =>
      obtain ⟨outS, cs, ts, rfl, b1, b2, _, _, b5, _⟩ := vector_core he cast hleaf hS (k := 10) (by norm_num) s.numThreads hps
      rw [hps] at h
      simp only [Option.some.injEq] at h
      have hv : s.type ≠ .vgicp := by rcases htype with h | h | h <;> rw [h] <;> simp
      rw [if_neg hv] at h
      unfold alignClouds at h
      rw [(features_points a2).1, ok_bind] at h
      have key : ∃ (F : Type) (needs : Needs) (mf : MemFactor F ℝ) (pf : PointFactor F ℝ) (reg : Registration), Ships needs mf pf ∧ reg.numThreads = s.numThreads ∧ reg.lm.maxIterations = s.maxIterations ∧
          reg.maxDistSq = s.maxCorrespondenceDistance * s.maxCorrespondenceDistance ∧
          runMethod e y mf (cloudWorld ct cs (kdNearest e.maxD outT t (outT.length + 1) e.junk)) reg initT cs.size = r := by
        rcases htype with ht | ht | ht
        · simp only [alignCloud, ht, runRegistration, Registration.default] at h
          exact ⟨_, _, _, _, _, .icp, rfl, rfl, rfl, h⟩
        · simp only [alignCloud, ht, runRegistration, Registration.default] at h
          exact ⟨_, _, _, _, _, .plane, rfl, rfl, rfl, h⟩
        · simp only [alignCloud, ht, runRegistration, Registration.default] at h
          exact ⟨_, _, _, _, _, .gicp e.inv, rfl, rfl, rfl, h⟩
      obtain ⟨F, needs, mf, pf, reg, hsh, e1, e2, e3, rfl⟩ := key
      obtain ⟨c1, c2⟩ := clouds_run he hsh y reg (by rw [e1]; exact hy) a6 a2 b2 a3 a4 initT
      rw [e2] at c1
      rw [e2, e3] at c2
      refine ⟨fun ⟨g1, g2, g3⟩ => c1 ⟨a5.2 g1, fun h0 => g2 (b5.1 h0), g3⟩, fun hn => ?_⟩
      obtain ⟨res, L, d1, dL, d2⟩ := c2 (fun ⟨g1, g2, g3⟩ => hn ⟨a5.1 g1, fun h0 => g2 (b5.2 h0), g3⟩)
      refine ⟨res, L, d1, dL, fun g1 g2 g3 => ⟨outT, outS, a1, b1, ?_⟩⟩
      exact d2 g1 (fun h => g2 (a5.1 h)) g3

/-- C61: a type outside the enumeration aborts, after the preprocessing. -/
theorem C61_invalid_type {n : Nat} (htype : s.type = .other n) {xt xs : PrepExec} {y : RegExec} {initT : Pose ℝ} {r : Res (Result ℝ)} (he : EnvMeets e) (hleaf : s.downsamplingResolution ≠ 0)
    (hT : InputFits cast s.downsamplingResolution target) (hS : InputFits cast s.downsamplingResolution source)
    (h : Pipeline.align e xt xs y cast target source initT s = some r) : r = .error .abort := by
  unfold Pipeline.align at h
  cases hpt : preprocessVector e xt cast target s.downsamplingResolution 10 s.numThreads with
  | none => rw [hpt] at h; cases h
  | some rt =>
    obtain ⟨outT, ct, t, rfl, a1, a2, _⟩ := vector_core he cast hleaf hT (k := 10) (by norm_num) s.numThreads hpt
    rw [hpt] at h
    simp only at h
    cases hps : preprocessVector e xs cast source s.downsamplingResolution 10 s.numThreads with
    | none => rw [hps] at h; cases h
    | some rs =>
      obtain ⟨outS, cs, ts, rfl, _⟩ := vector_core he cast hleaf hS (k := 10) (by norm_num) s.numThreads hps
      rw [hps] at h
      simp only [Option.some.injEq] at h
      rw [if_neg (by rw [htype]; simp)] at h
      unfold alignClouds at h
      rw [(features_points a2).1, ok_bind] at h
      simp only [alignCloud, htype, runRegistration] at h
      exact h.symm

include he hleaf hT in
/-- C61, a cloud aligned with itself: from the identity, with ICP, point-to-plane ICP or GICP, whatever the executions of the two preprocessing runs (which may sample the points
in different orders) and of the registration, the result is the identity, converged, with zero error and every sampled point an inlier. -/
theorem C61_self (htype : CloudMethod s.type) (hne : target ≠ []) (hit : 0 < s.maxIterations) (hgate : s.maxCorrespondenceDistance * s.maxCorrespondenceDistance < e.maxD)
    (hre : 0 ≤ s.rotationEps) (hte : 0 ≤ s.translationEps) {xt xs : PrepExec} {y : RegExec} (hy : RunsToEnd y s.numThreads.toNat) {r : Res (Result ℝ)}
    (h : Pipeline.align e xt xs y cast target target Pose.one s = some r) :
    ∃ res out, r = .ok res ∧ Sampled s.numThreads s.downsamplingResolution (target.map (vecPoint cast)) out ∧ out ≠ [] ∧
      res.T = Pose.one ∧ res.converged = true ∧ res.error = 0 ∧ res.numInliers = out.length := by
  unfold Pipeline.align at h
  cases hpt : preprocessVector e xt cast target s.downsamplingResolution 10 s.numThreads with
  | none => rw [hpt] at h; cases h
  | some rt =>
    cases hps : preprocessVector e xs cast target s.downsamplingResolution 10 s.numThreads with
    | none =>
      obtain ⟨outT, ct, t, rfl, _⟩ := vector_core he cast hleaf hT (k := 10) (by norm_num) s.numThreads hpt
      rw [hpt, hps] at h; cases h
    | some rs =>
      obtain ⟨c1, t1, c2, t2, q1, q2, hperm⟩ := vector_same he cast hleaf hT (k := 10) (by norm_num) s.numThreads hpt hps
      obtain ⟨outT, ct, t, p1, a1, a2, a3, a4, a5, a6⟩ := vector_core he cast hleaf hT (k := 10) (by norm_num) s.numThreads hpt
      obtain ⟨outS, cs, ts, p2, b1, b2, _, _, b5, _⟩ := vector_core he cast hleaf hT (k := 10) (by norm_num) s.numThreads hps
      subst p1 p2
      simp only [Except.ok.injEq, Prod.mk.injEq] at q1 q2
      obtain ⟨rfl, rfl⟩ := q1
      obtain ⟨rfl, rfl⟩ := q2
      rw [hpt, hps] at h
      simp only [Option.some.injEq] at h
      have hv : s.type ≠ .vgicp := by rcases htype with h | h | h <;> rw [h] <;> simp
      rw [if_neg hv] at h
      unfold alignClouds at h
      rw [(features_points a2).1, ok_bind] at h
      obtain ⟨hTp, hTn, hTc⟩ := features_regular a2
      obtain ⟨hSp, _, hSc⟩ := features_regular b2
      have hTs := (features_points a2).2
      have hSs := (features_points b2).2
      have hneT : outT ≠ [] := fun h0 => hne (a5.1 h0)
      have key : ∃ (F : Type) (needs : Needs) (mf : MemFactor F ℝ) (pf : PointFactor F ℝ) (Inv : F → Prop) (reg : Registration), Usual needs mf pf Inv ∧ reg.numThreads = s.numThreads ∧
          reg.lm = ⟨s.maxIterations, 10, 1 / 1000, 10⟩ ∧ reg.rotationEps = s.rotationEps ∧ reg.translationEps = s.translationEps ∧
          reg.maxDistSq = s.maxCorrespondenceDistance * s.maxCorrespondenceDistance ∧
          runMethod e y mf (cloudWorld ct cs (kdNearest e.maxD outT t (outT.length + 1) e.junk)) reg Pose.one cs.size = r := by
        rcases htype with ht | ht | ht
        · simp only [alignCloud, ht, runRegistration, Registration.default] at h
          exact ⟨_, _, _, _, _, _, .icp, rfl, rfl, rfl, rfl, rfl, h⟩
        · simp only [alignCloud, ht, runRegistration, Registration.default] at h
          exact ⟨_, _, _, _, _, _, .plane, rfl, rfl, rfl, rfl, rfl, h⟩
        · simp only [alignCloud, ht, runRegistration, Registration.default] at h
          exact ⟨_, _, _, _, _, _, .gicp e.inv he.inv, rfl, rfl, rfl, rfl, rfl, h⟩
      obtain ⟨F, needs, mf, pf, Inv, reg, hus, e1, e2, e3, e4, e5, rfl⟩ := key
      have hL : ∀ (T : Pose ℝ) (fs : List F), fs.length = cs.size → (Exec.omp reg.numThreads.toNat (y.lin T fs).assign (y.lin T fs).sched (y.lin T fs).comb).Complete cs.size :=
        fun T fs hl => hl ▸ e1 ▸ (hy T fs).1
      have hE : ∀ (T : Pose ℝ) (fs : List F), fs.length = cs.size → (Exec.omp reg.numThreads.toNat (y.err T fs).assign (y.err T fs).sched (y.err T fs).comb).Complete cs.size :=
        fun T fs hl => hl ▸ e1 ▸ (hy T fs).2
      obtain ⟨res, fs', log, g1, g2, g3, g4, g5, _⟩ := C43_kdtree ct cs e.builder he.nth (builder_find he) builder_leaf hTp (by rw [hTs]; exact List.length_pos_of_ne_nil hneT) (by rw [hTs]; exact a6) hSp
        (fun i p hp => List.getElem?_of_mem (hperm.mem_iff.2 (List.mem_of_getElem? hp))) hus (fun _ => hTn) (fun _ => ⟨hTc, hSc⟩) outT (features_points a2).1 t (a3 hneT) e.maxD
        reg.maxDistSq (by rw [e5]; exact mul_self_nonneg _) (by rw [e5]; exact hgate) (outT.length + 1) (by rw [hTs]; omega) e.junk nullFactor .null e.solve he.solve reg.rotationEps reg.translationEps
        (by rw [e3]; exact hre) (by rw [e4]; exact hte) _ _ hL hE (.lm reg.lm) (by rw [e2]; exact ⟨by norm_num, by norm_num, by norm_num, hit⟩)
      refine ⟨res, outS, ?_, b1, fun h0 => hne (b5.1 h0), g2, g3, g4, by rw [g5, hSs]⟩
      unfold runMethod
      rw [g1]
      rfl

end Final

end Verif.Props
