import Verif.Proofs.VoxelAnyArith
import Verif.Props.PreprocessAnyArith

/-!
C103: voxel maps, and registration against them, in any arithmetic.
-/

set_option linter.unusedSectionVars false
set_option linter.unusedSimpArgs false
set_option linter.unnecessarySeqFocus false

namespace Verif.Spec

open Verif Verif.Machine Verif.PointCloud Verif.Knn

/-- Poses that the optimiser can come to from `T0`: each is the previous one changed by `step` with some increment. -/
inductive Reachable {P D : Type} (step : P → D → P) (T0 : P) : P → Prop
  | start : Reachable step T0 T0
  | next {T : P} (d : D) : Reachable step T0 T → Reachable step T0 (step T d)

/-- Every source point, transformed by `T`, has a cell that can be searched. -/
def PoseDefined {V P M C : Type} [LT V] [DecidableLT V] (o : Ops V) (s : Scalars V) (apply : P → (Fin 4 → V) → (Fin 4 → V)) (m : Voxel.VoxelMap V C) (source : Cloud (Fin 4 → V) M) (T : P) : Prop :=
  ∀ i < source.size, ∀ p, source.point i = .ok p → QueryDefined o s m (toPt (apply T p))

/-- `k` is the number of a point stored in the map. -/
def StoredPoint {V C : Type} (pts : C → List (Pt V)) (m : Voxel.VoxelMap V C) (k : Nat) : Prop := ∃ i v j, m.flat[i]? = some v ∧ j < (pts v.2).length ∧ k = i * 2 ^ 32 + j

/-- The voxel that points with covariances make of an earlier one, or of none: number, mean and mean covariance of all points, the earlier ones entering as their mean times their number. -/
def averaged {V P M : Type} (o : Ops V) (g : VoxelEval V P M) (T : P) (old : Option (GVoxel V M)) (l : List (Pt V × M)) : GVoxel V M :=
  let n0 := old.elim 0 GVoxel.numPoints
  let mean0 := old.elim (Pt.zero o) (fun v => scalePt o v.mean (g.count n0))
  let cov0 := old.elim g.zeroM (fun v => g.scaleM v.cov (g.count n0))
  ⟨true, n0 + l.length, Pt.sdiv o (l.foldl (fun a e => Pt.add o a e.1) mean0) (g.count (n0 + l.length)), g.divM (l.foldl (fun a e => g.addM a (g.conj T e.2)) cov0) (g.count (n0 + l.length))⟩

/-- The points of `is` that fit are appended to the voxel, with their attributes: a point is taken exactly if there is room and no point already there compares as closer than allowed. -/
structure Filled {V P M : Type} [LT V] [DecidableLT V] (o : Ops V) (g : VoxelEval V P M) (s : Voxel.FlatSetting V) (T : P) (tp : Nat → Pt V) (normal : Nat → Pt V) (cov : Nat → M) (is : List Nat) (old new : FVoxel V M) : Prop where
  kept : ∃ kept, kept.Sublist is ∧ new.points = old.points ++ kept.map tp ∧ new.normals = old.normals ++ (if s.hasNormals then kept.map (fun i => g.applyM T (normal i)) else []) ∧
    new.covs = old.covs ++ (if s.hasCovs then kept.map (fun i => g.conj T (cov i)) else []) ∧
    (∀ a i b, kept = a ++ i :: b → (old.points ++ a.map tp).length < s.maxNum ∧ ∀ p ∈ old.points ++ a.map tp, ¬ Pt.sqDist o p (tp i) < s.minSqDist) ∧
    ∀ i ∈ is, i ∉ kept → s.maxNum ≤ new.points.length ∨ ∃ p ∈ new.points, Pt.sqDist o p (tp i) < s.minSqDist

/-- A map of Gaussian voxels between two calls of `insert`. -/
def GaussianMap {V M : Type} (m : Voxel.VoxelMap V (GVoxel V M)) : Prop := MapConsistent m ∧ ∀ v ∈ m.flat, v.2.finalized = true

/-- A map of flat voxels: none holds too many points, and the attributes kept belong to the points. -/
def FlatMap {V M : Type} (s : Voxel.FlatSetting V) (m : Voxel.VoxelMap V (FVoxel V M)) : Prop :=
  MapConsistent m ∧ ∀ v ∈ m.flat, v.2.points.length ≤ s.maxNum ∧ (s.hasNormals = true → v.2.normals.length = v.2.points.length) ∧ (s.hasCovs = true → v.2.covs.length = v.2.points.length)

/-- The voxel maps of the library whose voxels have the attributes needed. The fourth argument lists the points of a voxel. -/
inductive LibraryMap {V P M : Type} [LT V] [LE V] [DecidableLT V] [DecidableLE V] (o : Ops V) (g : VoxelEval V P M) (needs : Proofs.RegMem.Needs) : (C : Type) → Cells V P M C → (C → List (Pt V)) → Voxel.VoxelMap V C → Prop
  | gaussian {m} (hn : needs.normals = false) (hm : GaussianMap m) (hlen : m.flat.length < 2 ^ 32) : LibraryMap o g needs (GVoxel V M) (gaussianCells o g) (fun v => [v.mean]) m
  | flat {m} (s : Voxel.FlatSetting V) (hn : needs.normals = true → s.hasNormals = true) (hc : needs.covs = true → s.hasCovs = true) (hm : FlatMap s m) (hmax : s.maxNum ≤ 2 ^ 32) (hlen : m.flat.length < 2 ^ 32) :
    LibraryMap o g needs (FVoxel V M) (flatCells o g s) FVoxel.points m

end Verif.Spec

namespace Verif.Props

open Verif Verif.Knn Verif.Proofs Verif.Proofs.RegMem Verif.Factors Verif.Reduction Verif.PointCloud Verif.RegMem Verif.Spec

/-! ### Registration in a world whose search may overflow -/

section Reduction

variable {F S : Type} [Zero S] [Add S]

/-- If one factor faults whatever it holds, every execution of the linearisation ends with that fault. Two results of a factor suffice to see it: the reduction cannot depend on what the factor would have returned. -/
theorem reduce_fails (linM : Nat → F → Res (F × Option S)) (e : Fault) (fs : List F) (hok : ∀ i f, i < fs.length → (∃ r, linM i f = .ok r) ∨ linM i f = .error e) (ex : Exec) (hex : ex.Complete fs.length)
    {i : Nat} (hi : i < fs.length) (hbad : ∀ f, linM i f = .error e) {a b : F} (hab : a ≠ b) : reduceLinearize linM ex fs = .error e := by
  let lin : F → Nat → F → F × Option S := fun x i f => match linM i f with
    | .ok r => r
    | .error _ => (x, none)
  have happ : ∀ x, Approx (fun f => f = e) (reduceLinearize linM ex fs) (pureLinearize (lin x) ex fs) := by
    intro x
    refine reduceLinearize_pure fs (fun j f hj => ?_) ex hex
    rcases hok j f hj with ⟨r, hr⟩ | hr
    · exact .inl (by simp only [lin, hr])
    · exact .inr ⟨e, rfl, hr⟩
  have hentry : ∀ x fs' s, pureLinearize (lin x) ex fs = .ok (fs', s) → fs'[i]? = some x := by
    intro x fs' s hr
    have hfaith : Faithful (lin x) fs (pureLinearize (lin x) ex fs) := by
      cases ex with
      | serial => exact serial_faithful (lin x) fs
      | omp n assign sched comb =>
        obtain ⟨h1, h2, h3, ⟨order, h4⟩, h5⟩ := hex
        have hr : ∃ r, ompLinearize (lin x) n assign sched fs = some r := by unfold ompLinearize; rw [h4]; exact ⟨_, rfl⟩
        obtain ⟨r, hr⟩ := hr
        simp only [pureLinearize, hr, Option.getD_some]
        exact omp_faithful (lin x) n h1 fs assign h2 h3 sched hr
      | tbb tree order => exact tbb_faithful (lin x) fs tree hex.1 order hex.2
    have key := hfaith ℕ (fun _ _ => True) trivial (fun _ _ _ _ _ _ => trivial) (fun i f => ((lin x i f).1, (lin x i f).2.map fun _ => 0)) (fun i f => ⟨rfl, by
      dsimp only
      cases (lin x i f).2 with
      | none => exact .none
      | some s => exact .some trivial⟩)
    rw [hr] at key
    obtain ⟨k1, -⟩ := key
    simp only [reduceSpec] at k1
    rw [k1]
    simp [List.getElem?_eq_getElem hi, lin, hbad]
  rcases happ a with h | ⟨f, rfl, h⟩
  · rcases happ b with h' | ⟨f, rfl, h'⟩
    · exfalso
      rcases hr : reduceLinearize linM ex fs with f | ⟨fs', s⟩
      · rw [hr] at h
        have := h.symm
        obtain ⟨fs2, s2, h2, -⟩ := reduce_inherits (fun i f => .ok (lin a i f)) fs (fun _ _ _ => ⟨_, rfl⟩) ex hex (fun _ => False) (by simp)
        rcases reduceLinearize_pure (E := fun _ => False) (linM := fun i f => .ok (lin a i f)) (lin := lin a) fs (fun _ _ _ => .inl rfl) ex hex with h3 | ⟨_, h3, _⟩
        · rw [h2, this] at h3; cases h3
        · exact h3
      · have h1 := hentry a fs' s (by rw [← h, hr])
        have h2 := hentry b fs' s (by rw [← h', hr])
        rw [h1] at h2
        exact hab (Option.some.inj h2)
    · exact h'
  · exact h

end Reduction

section Loops

variable {F V P H B D : Type} [Zero V] [Add V] [Mul V] [Div V] [LE V] [DecidableLE V] [Zero H] [Add H] [Zero B] [Add B]

/-- Linearisations succeed at the poses with `good` and end with `e` at the others. -/
structure RunsAt (p : Machine.Problem F V P H B D) (I J : List F → Prop) (good : P → Prop) (e : Fault) : Prop where
  lin : ∀ T fs, good T → I fs → ∃ fs' s, p.linearize T fs = .ok (fs', s) ∧ J fs'
  bad : ∀ T fs, ¬ good T → I fs → p.linearize T fs = .error e
  err : ∀ T fs, J fs → ∃ e, p.error T fs = .ok e
  again : ∀ fs, J fs → I fs

variable {p : Machine.Problem F V P H B D} {I J : List F → Prop} {good : P → Prop} {e : Fault}

theorem runsAt_inner (h : RunsAt p I J good e) (factor : V) (T : P) {fs : List F} (hfs : J fs) (A : H) (b : B) : ∀ (fuel : Nat) (lambda e : V), ∃ r, Machine.lmInner p factor T fs A b fuel lambda e = .ok r ∧
    ∀ d T', r.accepted = some (d, T') → T' = p.step T d
  | 0, lambda, e => ⟨_, rfl, fun _ _ h => by cases h⟩
  | fuel + 1, lambda, e => by
    obtain ⟨newE, he⟩ := h.err (p.step T (p.delta lambda A b)) fs hfs
    simp only [Machine.lmInner, he, bind, Except.bind]
    split
    · exact ⟨_, rfl, fun _ _ h => by cases h; rfl⟩
    · obtain ⟨r, hr, hr'⟩ := runsAt_inner h factor T hfs A b fuel (lambda * factor) (p.updateError (p.step T (p.delta lambda A b)) e)
      rw [hr]
      exact ⟨_, rfl, hr'⟩

/-- Either the loop ends, having linearised at good poses only, or it ends with the fault at a pose reached that is not good. -/
def Outcome (p : Machine.Problem F V P H B D) (I J : List F → Prop) (good : P → Prop) (e : Fault) (T0 : P) (fuel : Nat) (out : Res (Machine.Result V P H B × List F × List (Machine.Iteration F V P H B D))) : Prop :=
  (∃ r fs log, out = .ok (r, fs, log) ∧ I fs ∧ (∀ it ∈ log, J it.factors ∧ good it.T0 ∧ Reachable p.step T0 it.T0) ∧ log.length ≤ fuel ∧ (log ≠ [] → J fs)) ∨
    (out = .error e ∧ ∃ T, Reachable p.step T0 T ∧ ¬ good T)

theorem runsAt_lm (h : RunsAt p I J good e) (factor : V) (maxInner : Nat) (T0 : P) : ∀ (fuel i : Nat) (lambda : V) (r0 : Machine.Result V P H B) (fs0 : List F), I fs0 → Reachable p.step T0 r0.T →
    Outcome p I J good e T0 fuel (Machine.lmLoop p factor maxInner fuel i lambda r0 fs0)
  | 0, i, lambda, r0, fs0, h0, _ => .inl ⟨r0, fs0, [], rfl, h0, by simp, le_refl _, by simp⟩
  | fuel + 1, i, lambda, r0, fs0, h0, hT => by
    rcases hc : r0.converged with _ | _
    · by_cases hg : good r0.T
      · obtain ⟨fs1, s, hl, h1⟩ := h.lin r0.T fs0 hg h0
        rcases hs : p.updateLinearized r0.T s with ⟨A, b, e0⟩
        obtain ⟨inner, hi, hi'⟩ := runsAt_inner h factor r0.T h1 A b maxInner lambda e0
        simp only [Machine.lmLoop, hc, Bool.false_eq_true, if_false, hl, hs, hi, bind, Except.bind]
        rcases ha : inner.accepted with _ | ⟨d, newT⟩
        · exact .inl ⟨_, _, _, rfl, h.again _ h1, by simpa using ⟨h1, hg, hT⟩, by simp, fun _ => h1⟩
        · have hT' : Reachable p.step T0 newT := by rw [hi' d newT ha]; exact .next d hT
          rcases runsAt_lm h factor maxInner T0 fuel (i + 1) inner.lambda
            { r0 with converged := p.converged d, T := newT, iterations := i, H := A, b := b, error := inner.e } fs1 (h.again _ h1) hT' with ⟨r, fs, log, g1, g2, g3, g4, g5⟩ | ⟨g1, g2⟩
          · simp only [g1]
            refine .inl ⟨_, _, _, rfl, g2, ?_, by simpa using g4, fun _ => ?_⟩
            · intro it hit
              rcases List.mem_cons.1 hit with rfl | hit
              · exact ⟨h1, hg, hT⟩
              · exact g3 it hit
            · rcases log with _ | ⟨it, log⟩
              · -- nothing was done, the factors are those of this iteration
                have : fs = fs1 := by
                  cases fuel with
                  | zero => simp only [Machine.lmLoop, Except.ok.injEq, Prod.mk.injEq] at g1; exact g1.2.1.symm
                  | succ fuel =>
                    unfold Machine.lmLoop at g1
                    split at g1
                    · simp only [Except.ok.injEq, Prod.mk.injEq] at g1; exact g1.2.1.symm
                    · exfalso
                      revert g1
                      simp only [bind, Except.bind]
                      split
                      · simp
                      · split
                        · simp
                        · split
                          · simp
                          · split
                            · simp
                            · simp
                rw [this]; exact h1
              · exact g5 (by simp)
          · simp only [g1]
            exact .inr ⟨rfl, g2⟩
      · refine .inr ⟨?_, r0.T, hT, hg⟩
        simp only [Machine.lmLoop, hc, Bool.false_eq_true, if_false, h.bad r0.T fs0 hg h0, bind, Except.bind]
    · exact .inl ⟨r0, fs0, [], by simp [Machine.lmLoop, hc], h0, by simp, Nat.zero_le _, by simp⟩

theorem runsAt_gn (h : RunsAt p I J good e) (lambda : V) (T0 : P) : ∀ (fuel i : Nat) (r0 : Machine.Result V P H B) (fs0 : List F), I fs0 → Reachable p.step T0 r0.T →
    Outcome p I J good e T0 fuel (Machine.gnLoop p lambda fuel i r0 fs0)
  | 0, i, r0, fs0, h0, _ => .inl ⟨r0, fs0, [], rfl, h0, by simp, le_refl _, by simp⟩
  | fuel + 1, i, r0, fs0, h0, hT => by
    rcases hc : r0.converged with _ | _
    · by_cases hg : good r0.T
      · obtain ⟨fs1, s, hl, h1⟩ := h.lin r0.T fs0 hg h0
        rcases hs : p.updateLinearized r0.T s with ⟨A, b, e0⟩
        simp only [Machine.gnLoop, hc, Bool.false_eq_true, if_false, hl, hs, bind, Except.bind]
        rcases runsAt_gn h lambda T0 fuel (i + 1)
          { r0 with converged := p.converged (p.delta lambda A b), T := p.step r0.T (p.delta lambda A b), iterations := i, H := A, b := b, error := e0 } fs1 (h.again _ h1) (.next _ hT) with ⟨r, fs, log, g1, g2, g3, g4, g5⟩ | ⟨g1, g2⟩
        · simp only [g1]
          refine .inl ⟨_, _, _, rfl, g2, ?_, by simpa using g4, fun _ => ?_⟩
          · intro it hit
            rcases List.mem_cons.1 hit with rfl | hit
            · exact ⟨h1, hg, hT⟩
            · exact g3 it hit
          · rcases log with _ | ⟨it, log⟩
            · have : fs = fs1 := by
                cases fuel with
                | zero => simp only [Machine.gnLoop, Except.ok.injEq, Prod.mk.injEq] at g1; exact g1.2.1.symm
                | succ fuel =>
                  unfold Machine.gnLoop at g1
                  split at g1
                  · simp only [Except.ok.injEq, Prod.mk.injEq] at g1; exact g1.2.1.symm
                  · exfalso
                    revert g1
                    simp only [bind, Except.bind]
                    split
                    · simp
                    · split
                      · simp
                      · simp
              rw [this]; exact h1
            · exact g5 (by simp)
        · simp only [g1]
          exact .inr ⟨rfl, g2⟩
      · refine .inr ⟨?_, r0.T, hT, hg⟩
        simp only [Machine.gnLoop, hc, Bool.false_eq_true, if_false, h.bad r0.T fs0 hg h0, bind, Except.bind]
    · exact .inl ⟨r0, fs0, [], by simp [Machine.gnLoop, hc], h0, by simp, Nat.zero_le _, by simp⟩

theorem runsAt_method (h : RunsAt p I J good e) (meth : Machine.Method V) (T0 : P) {fs0 : List F} (h0 : I fs0) :
    ((∃ r fs log, meth.run p T0 fs0 = .ok (r, fs, log) ∧ I fs ∧ (∀ it ∈ log, J it.factors ∧ good it.T0 ∧ Reachable p.step T0 it.T0) ∧ log.length ≤ budget meth ∧ (log ≠ [] → J fs) ∧ r.numInliers = fs.countP p.inlier) ∨
      (meth.run p T0 fs0 = .error e ∧ ∃ T, Reachable p.step T0 T ∧ ¬ good T)) ∧
    (¬ good T0 → 0 < budget meth → meth.run p T0 fs0 = .error e) := by
  cases meth with
  | lm st =>
    constructor
    · rcases runsAt_lm h st.lambdaFactor st.maxInner.toNat T0 st.maxIterations.toNat 0 st.initLambda (Machine.Result.init T0) fs0 h0 .start with ⟨r, fs, log, g1, g2, g3, g4, g5⟩ | ⟨g1, g2⟩
      · refine .inl ⟨Machine.countInliers p r fs, fs, log, ?_, g2, g3, g4, g5, rfl⟩
        simp only [Machine.Method.run, Machine.levenbergMarquardt, g1, bind, Except.bind]
      · refine .inr ⟨?_, g2⟩
        simp only [Machine.Method.run, Machine.levenbergMarquardt, g1, bind, Except.bind]
    · intro hg hb
      obtain ⟨n, hn⟩ := Nat.exists_eq_succ_of_ne_zero (Nat.pos_iff_ne_zero.1 hb)
      have hn' : st.maxIterations.toNat = n + 1 := hn
      have := h.bad T0 fs0 hg h0
      simp only [Machine.Method.run, Machine.levenbergMarquardt, hn', Machine.lmLoop, Machine.Result.init, this, bind, Except.bind, Bool.false_eq_true, if_false]
  | gn lambda m =>
    constructor
    · rcases runsAt_gn h lambda T0 m.toNat 0 (Machine.Result.init T0) fs0 h0 .start with ⟨r, fs, log, g1, g2, g3, g4, g5⟩ | ⟨g1, g2⟩
      · refine .inl ⟨Machine.countInliers p r fs, fs, log, ?_, g2, g3, g4, g5, rfl⟩
        simp only [Machine.Method.run, Machine.gaussNewton, g1, bind, Except.bind]
      · refine .inr ⟨?_, g2⟩
        simp only [Machine.Method.run, Machine.gaussNewton, g1, bind, Except.bind]
    · intro hg hb
      obtain ⟨n, hn⟩ := Nat.exists_eq_succ_of_ne_zero (Nat.pos_iff_ne_zero.1 hb)
      have hn' : m.toNat = n + 1 := hn
      have := h.bad T0 fs0 hg h0
      simp only [Machine.Method.run, Machine.gaussNewton, hn', Machine.gnLoop, Machine.Result.init, this, bind, Except.bind, Bool.false_eq_true, if_false]

end Loops

section World

variable {V P H B M D : Type} [Zero V] [Add V] [Sub V] [Mul V] [Div V] [LE V] [DecidableLE V] [LT V] [DecidableLT V] [Zero H] [Add H] [Zero B] [Add B] {E : Machine.Eval V P H B M}

/-- A world in which source points `0, ..., nS - 1` and target points with `known` can be read, and a search either finds a known point, or nothing, or overflows, the latter exactly for queries that are not `ok`. -/
structure Serves (needs : Needs) (w : Machine.World V M) (nS : Nat) (known : Nat → Prop) (ok : (Fin 4 → V) → Prop) : Prop where
  src : ∀ i < nS, ∃ p, w.srcPoint i = .ok p
  srcCov : needs.covs = true → ∀ i < nS, ∃ m, w.srcCov i = .ok m
  point : ∀ k, known k → ∃ p, w.tgtPoint k = .ok p
  normal : needs.normals = true → ∀ k, known k → ∃ p, w.tgtNormal k = .ok p
  cov : needs.covs = true → ∀ k, known k → ∃ m, w.tgtCov k = .ok m
  notNone : ∀ k, known k → k ≠ npos
  nn : ∀ q, ok q → w.nn q = .ok none ∨ ∃ k d, known k ∧ w.nn q = .ok (some (k, d))
  nnBad : ∀ q, ¬ ok q → w.nn q = .error .intOverflow

/-- What one call of a factor does in such a world. -/
structure BehavesIn {F : Type} (mf : Machine.Factor F V P H B M) (w : Machine.World V M) (rej : Machine.Rejector V P) (nS : Nat) (known : Nat → Prop) (good : P → Nat → Prop) : Prop where
  lin : ∀ T i f, i < nS → good T i → ∃ f' o, mf.linearize w rej T i f = .ok (f', o) ∧ mf.source f' = i ∧ (mf.target f' = npos ∨ known (mf.target f'))
  bad : ∀ T i f, i < nS → ¬ good T i → mf.linearize w rej T i f = .error .intOverflow
  err : ∀ T f, mf.source f < nS → (mf.target f = npos ∨ known (mf.target f)) → ∃ e, mf.error w T f = .ok e

theorem factor_behavesIn {F : Type} {needs : Needs} {mf : Machine.Factor F V P H B M} (hf : LibraryFactor E F needs mf) {w : Machine.World V M} {nS : Nat} {known : Nat → Prop} {ok : (Fin 4 → V) → Prop}
    (hs : Serves needs w nS known ok) (rej : Machine.Rejector V P) : BehavesIn mf w rej nS known (fun T i => ∀ p, w.srcPoint i = .ok p → ok (E.apply T p)) := by
  have hsearch : ∀ T i, i < nS → ∃ p, w.srcPoint i = .ok p ∧ ((ok (E.apply T p) ∧ ∃ o, Machine.search E w rej T i = .ok (E.apply T p, o) ∧ ∀ k, o = some k → known k) ∨
      (¬ ok (E.apply T p) ∧ Machine.search E w rej T i = .error .intOverflow)) := by
    intro T i hi
    obtain ⟨p, hp⟩ := hs.src i hi
    refine ⟨p, hp, ?_⟩
    by_cases hok : ok (E.apply T p)
    · refine .inl ⟨hok, ?_⟩
      rcases hs.nn _ hok with h | ⟨k, d, hk, h⟩
      · exact ⟨none, by simp only [Machine.search, hp, h, bind, Except.bind], fun k hk => by cases hk⟩
      · cases hr : rej T k i d with
        | true => exact ⟨none, by simp only [Machine.search, hp, h, bind, Except.bind, hr, if_true], fun k hk => by cases hk⟩
        | false => exact ⟨some k, by simp only [Machine.search, hp, h, bind, Except.bind, hr, Bool.false_eq_true, if_false], fun j hj => by cases hj; exact hk⟩
    · exact .inr ⟨hok, by simp only [Machine.search, hp, hs.nnBad _ hok, bind, Except.bind]⟩
  have hgood : ∀ {T : P} {i : Nat} {p : Fin 4 → V}, w.srcPoint i = .ok p → ((∀ p, w.srcPoint i = .ok p → ok (E.apply T p)) ↔ ok (E.apply T p)) := by
    intro T i p hp
    exact ⟨fun h => h p hp, fun h p' hp' => by rw [hp] at hp'; cases hp'; exact h⟩
  induction hf with
  | icp =>
    refine ⟨fun T i f hi hg => ?_, fun T i f hi hg => ?_, fun T f hf1 hf2 => ?_⟩
    · obtain ⟨p, h1, ⟨-, o, h2, h3⟩ | ⟨h2, -⟩⟩ := hsearch T i hi
      · cases o with
        | none => exact ⟨⟨npos, i⟩, none, by simp only [Machine.icpFactor, Machine.icpLinearize, h2, bind, Except.bind], rfl, .inl rfl⟩
        | some k =>
          obtain ⟨tp, htp⟩ := hs.point k (h3 k rfl)
          refine ⟨⟨k, i⟩, some ?_, ?_, rfl, .inr (h3 k rfl)⟩
          rotate_left
          simp only [Machine.icpFactor, Machine.icpLinearize, h2, bind, Except.bind, htp, h1]
          rfl
      · exact absurd (hg p h1) h2
    · obtain ⟨p, h1, ⟨h2, -⟩ | ⟨-, h2⟩⟩ := hsearch T i hi
      · exact absurd ((hgood h1).2 h2) hg
      · simp only [Machine.icpFactor, Machine.icpLinearize, h2, bind, Except.bind]
    · rcases hf2 with h | h
      · exact ⟨0, by simp only [Machine.icpFactor] at h ⊢; simp only [Machine.icpError, h, if_true]⟩
      · obtain ⟨tp, htp⟩ := hs.point _ h
        obtain ⟨p, hp⟩ := hs.src _ hf1
        have hne := hs.notNone _ h
        refine ⟨E.half (E.sqNorm (tp - E.apply T p)), ?_⟩
        simp only [Machine.icpFactor] at htp hp h hne ⊢
        simp only [Machine.icpError, if_neg hne, htp, hp, bind, Except.bind]
  | plane =>
    refine ⟨fun T i f hi hg => ?_, fun T i f hi hg => ?_, fun T f hf1 hf2 => ?_⟩
    · obtain ⟨p, h1, ⟨-, o, h2, h3⟩ | ⟨h2, -⟩⟩ := hsearch T i hi
      · cases o with
        | none => exact ⟨⟨npos, i⟩, none, by simp only [Machine.planeFactor, Machine.planeLinearize, h2, bind, Except.bind], rfl, .inl rfl⟩
        | some k =>
          obtain ⟨tp, htp⟩ := hs.point k (h3 k rfl)
          obtain ⟨nv, hnv⟩ := hs.normal rfl k (h3 k rfl)
          refine ⟨⟨k, i⟩, some ?_, ?_, rfl, .inr (h3 k rfl)⟩
          rotate_left
          simp only [Machine.planeFactor, Machine.planeLinearize, h2, bind, Except.bind, htp, hnv, h1]
          rfl
      · exact absurd (hg p h1) h2
    · obtain ⟨p, h1, ⟨h2, -⟩ | ⟨-, h2⟩⟩ := hsearch T i hi
      · exact absurd ((hgood h1).2 h2) hg
      · simp only [Machine.planeFactor, Machine.planeLinearize, h2, bind, Except.bind]
    · rcases hf2 with h | h
      · exact ⟨0, by simp only [Machine.planeFactor] at h ⊢; simp only [Machine.planeError, h, if_true]⟩
      · obtain ⟨tp, htp⟩ := hs.point _ h
        obtain ⟨nv, hnv⟩ := hs.normal rfl _ h
        obtain ⟨p, hp⟩ := hs.src _ hf1
        have hne := hs.notNone _ h
        refine ⟨E.half (E.sqNorm (nv * (tp - E.apply T p))), ?_⟩
        simp only [Machine.planeFactor] at htp hp h hne hnv ⊢
        simp only [Machine.planeError, if_neg hne, htp, hp, hnv, bind, Except.bind]
  | gicp =>
    refine ⟨fun T i f hi hg => ?_, fun T i f hi hg => ?_, fun T f hf1 hf2 => ?_⟩
    · obtain ⟨p, h1, ⟨-, o, h2, h3⟩ | ⟨h2, -⟩⟩ := hsearch T i hi
      · cases o with
        | none => exact ⟨⟨npos, i, f.mahalanobis⟩, none, by simp only [Machine.gicpFactor, Machine.gicpLinearize, h2, bind, Except.bind], rfl, .inl rfl⟩
        | some k =>
          obtain ⟨tp, htp⟩ := hs.point k (h3 k rfl)
          obtain ⟨ct, hct⟩ := hs.cov rfl k (h3 k rfl)
          obtain ⟨cs, hcs⟩ := hs.srcCov rfl i hi
          refine ⟨⟨k, i, E.mahalanobis f.mahalanobis ct cs T⟩, some ?_, ?_, rfl, .inr (h3 k rfl)⟩
          rotate_left
          simp only [Machine.gicpFactor, Machine.gicpLinearize, h2, bind, Except.bind, htp, hct, hcs, h1]
          rfl
      · exact absurd (hg p h1) h2
    · obtain ⟨p, h1, ⟨h2, -⟩ | ⟨-, h2⟩⟩ := hsearch T i hi
      · exact absurd ((hgood h1).2 h2) hg
      · simp only [Machine.gicpFactor, Machine.gicpLinearize, h2, bind, Except.bind]
    · rcases hf2 with h | h
      · exact ⟨0, by simp only [Machine.gicpFactor] at h ⊢; simp only [Machine.gicpError, h, if_true]⟩
      · obtain ⟨tp, htp⟩ := hs.point _ h
        obtain ⟨p, hp⟩ := hs.src _ hf1
        have hne := hs.notNone _ h
        refine ⟨E.quad (tp - E.apply T p) f.mahalanobis, ?_⟩
        simp only [Machine.gicpFactor] at htp hp h hne ⊢
        simp only [Machine.gicpError, if_neg hne, htp, hp, bind, Except.bind]
  | @robust F needs mf wt sqrt _ ih =>
    have ih := ih hs
    refine ⟨fun T i f hi hg => ?_, fun T i f hi hg => ?_, fun T f hf1 hf2 => ?_⟩
    · obtain ⟨f', o, h1, h2, h3⟩ := ih.lin T i f hi hg
      cases o with
      | none => exact ⟨f', none, by simp only [Machine.robust, h1, bind, Except.bind], h2, h3⟩
      | some s =>
        obtain ⟨A, b, e⟩ := s
        exact ⟨f', _, by simp only [Machine.robust, h1, bind, Except.bind]; rfl, h2, h3⟩
    · simp only [Machine.robust, ih.bad T i f hi hg, bind, Except.bind]
    · obtain ⟨e, he⟩ := ih.err T f hf1 hf2
      exact ⟨wt (sqrt e) * e, by simp only [Machine.robust, he, bind, Except.bind]⟩

theorem libraryFactor_two {F : Type} {needs : Needs} {mf : Machine.Factor F V P H B M} (hf : LibraryFactor E F needs mf) : ∃ a b : F, a ≠ b := by
  induction hf with
  | icp => exact ⟨⟨0, 0⟩, ⟨1, 0⟩, by simp⟩
  | plane => exact ⟨(⟨0, 0⟩ : ICP), (⟨1, 0⟩ : ICP), by simp⟩
  | gicp => exact ⟨⟨0, 0, E.zeroM⟩, ⟨1, 0, E.zeroM⟩, by simp⟩
  | robust _ _ _ ih => exact ih

/-- The factors of `n` source points: the factor at position `i` belongs to source point `i`, and its target is a known point or none. -/
def ValidIn {F : Type} (mf : Machine.Factor F V P H B M) (n : Nat) (known : Nat → Prop) (fs : List F) : Prop :=
  fs.length = n ∧ ∀ (i : Nat) (f : F), fs[i]? = some f → mf.source f = i ∧ (mf.target f = npos ∨ known (mf.target f))

theorem align_serves {F : Type} {needs : Needs} {mf : Machine.Factor F V P H B M} (hf : LibraryFactor E F needs mf) {w : Machine.World V M} {nS : Nat} {known : Nat → Prop} {ok : (Fin 4 → V) → Prop}
    (hs : Serves needs w nS known ok) (cfg : Machine.Config V P H B D) (execL execE : P → List F → Exec) (hexL : ∀ T fs, (execL T fs).Complete fs.length) (hexE : ∀ T fs, (execE T fs).Complete fs.length) :
    RunsAt (Machine.problem mf w cfg execL execE) (fun fs => fs.length = nS) (ValidIn mf nS known) (fun T => ∀ i < nS, ∀ p, w.srcPoint i = .ok p → ok (E.apply T p)) .intOverflow := by
  have hbeh := factor_behavesIn hf hs cfg.rejector
  obtain ⟨a, b, hab⟩ := libraryFactor_two hf
  refine ⟨fun T fs hg hl => ?_, fun T fs hg hl => ?_, fun T fs hv => ?_, fun fs hv => hv.1⟩
  · obtain ⟨fs1, s, r1, r2, r3, -⟩ := reduce_inherits (mf.linearize w cfg.rejector T) fs
      (fun j f hj => by
        rw [hl] at hj
        obtain ⟨f', o, h, -⟩ := hbeh.lin T j f hj (hg j hj)
        exact ⟨_, h⟩) (execL T fs) (hexL _ _) (fun _ => False) (by simp)
    refine ⟨fs1, s, r1, by rw [r2, hl], ?_⟩
    intro i f hi
    have hi' : i < fs.length := by rw [← r2]; exact (List.getElem?_eq_some_iff.1 hi).1
    obtain ⟨r, hr, hr'⟩ := r3 i _ (List.getElem?_eq_getElem hi')
    obtain ⟨f', o, q1, q2, q3⟩ := hbeh.lin T i fs[i] (by rw [hl] at hi'; exact hi') (hg i (by rw [hl] at hi'; exact hi'))
    have hr0 : mf.linearize w cfg.rejector T i fs[i] = .ok r := hr
    rw [q1] at hr0
    cases hr0
    rw [hi] at hr'
    cases hr'
    exact ⟨q2, q3⟩
  · have : ∃ i < nS, ¬ ∀ p, w.srcPoint i = .ok p → ok (E.apply T p) := by
      by_contra h
      exact hg fun i hi => by by_contra h'; exact h ⟨i, hi, h'⟩
    obtain ⟨i, hi, hbad⟩ := this
    refine reduce_fails (mf.linearize w cfg.rejector T) .intOverflow fs (fun j f hj => ?_) (execL T fs) (hexL _ _) (i := i) (by rw [hl]; exact hi) (fun f => hbeh.bad T i f hi hbad) hab
    rw [hl] at hj
    by_cases hgj : ∀ p, w.srcPoint j = .ok p → ok (E.apply T p)
    · obtain ⟨f', o, h, -⟩ := hbeh.lin T j f hj hgj
      exact .inl ⟨_, h⟩
    · exact .inr (hbeh.bad T j f hj hgj)
  · refine reduceError_exists fs (fun f hfm => ?_) (execE T fs) (hexE T fs)
    obtain ⟨j, hj, rfl⟩ := List.mem_iff_getElem.1 hfm
    obtain ⟨v1, v2⟩ := hv.2 j _ (List.getElem?_eq_getElem hj)
    exact hbeh.err T _ (by rw [v1, ← hv.1]; exact hj) v2

end World


/-! ### insertion -/

section Insert

open Verif.Machine Verif.Proofs.Any

variable {V P M C : Type} [LT V] [DecidableLT V] [LE V] [DecidableLE V]

theorem consistent_content {m : Voxel.VoxelMap V C} (h : MapConsistent m) {v : Voxel.Info × C} (hv : v ∈ m.flat) : contentAt m.flat v.1.coord = some (v.1.lru, v.2) := by
  have hI : Indexed m.table m.flat := h
  have hnd : (m.flat.map (fun v => v.1.coord)).Nodup := hI.nodup
  unfold contentAt
  have hx : m.flat.find? (fun w => decide (w.1.coord = v.1.coord)) = some v := by
    rcases hf : m.flat.find? (fun w => decide (w.1.coord = v.1.coord)) with _ | w
    · have := List.find?_eq_none.1 hf v hv
      simp at this
    · have h1 := List.find?_some hf
      have h2 := List.mem_of_find?_eq_some hf
      rw [hf]
      exact congrArg some (List.inj_on_of_nodup_map hnd h2 hv (by simpa using h1))
  rw [hx]
  rfl

theorem content_mem {flat : List (Voxel.Info × C)} {c : Voxel.Coord} {x : Nat × C} (h : contentAt flat c = some x) : ∃ v ∈ flat, v.2 = x.2 := by
  unfold contentAt at h
  obtain ⟨v, hv, rfl⟩ := Option.map_eq_some_iff.1 h
  exact ⟨v, List.mem_of_find?_eq_some hv, rfl⟩

/-- What holds of new voxels and survives additions and finalisation holds of all voxels afterwards. -/
theorem inserted_invariant {cell : Nat → Voxel.Coord} {n : Nat} {step : C → Nat → C} {fresh : C} {finalize : C → C} {m m' : Voxel.VoxelMap V C} (h : Inserted cell n step fresh finalize m m') (Q : C → Prop)
    (hold : ∀ v ∈ m.flat, Q v.2) (hfresh : Q fresh) (hstep : ∀ v i, i < n → Q v → Q (step v i)) : ∀ v ∈ m'.flat, ∃ w, Q w ∧ v.2 = finalize w := by
  intro v hv
  have hc := consistent_content h.consistent hv
  rw [h.content] at hc
  obtain ⟨x, hx, hx'⟩ := Option.map_eq_some_iff.1 hc
  have hx := (Option.filter_eq_some_iff.1 hx).1
  have hxv : finalize x.2 = v.2 := (Prod.mk.inj hx').2
  refine ⟨x.2, ?_, hxv.symm⟩
  have hQ0 : Q ((contentAt m.flat v.1.coord).elim fresh Prod.snd) := by
    rcases ho : contentAt m.flat v.1.coord with _ | y
    · exact hfresh
    · obtain ⟨w, hw, hwy⟩ := content_mem ho
      show Q y.2
      rw [← hwy]
      exact hold w hw
  have hfold : ∀ (l : List Nat) (y : C), (∀ i ∈ l, i < n) → Q y → Q (l.foldl step y) := by
    intro l
    induction l with
    | nil => intro y _ hy; exact hy
    | cons i l ih =>
      intro y hl hy
      exact ih (step y i) (fun j hj => hl j (by simp [hj])) (hstep y i (hl i (by simp)) hy)
  unfold touched at hx
  have hmem : ∀ i ∈ (List.range n).filter (fun i => decide (cell i = v.1.coord)), i < n := fun i hi => List.mem_range.1 (List.mem_filter.1 hi).1
  rcases hl : (List.range n).filter (fun i => decide (cell i = v.1.coord)) with _ | ⟨i, is⟩
  · rw [hl] at hx
    rw [show contentAt m.flat v.1.coord = some x from hx] at hQ0
    exact hQ0
  · rw [hl] at hx hmem
    cases hx
    exact hfold _ _ hmem hQ0

theorem gaussian_fold (o : Ops V) (g : VoxelEval V P M) (T : P) (tp : Nat → Pt V) (cov : Nat → M) : ∀ (l : List Nat) (v : GVoxel V M), v.finalized = false →
    l.foldl (fun v i => v.add o g T (tp i) (cov i)) v = ⟨false, v.numPoints + l.length, l.foldl (fun a i => Pt.add o a (tp i)) v.mean, l.foldl (fun a i => g.addM a (g.conj T (cov i))) v.cov⟩
  | [], v, h => by cases v; simp only at h; subst h; rfl
  | i :: l, v, h => by
    have e : v.add o g T (tp i) (cov i) = ⟨false, v.numPoints + 1, Pt.add o v.mean (tp i), g.addM v.cov (g.conj T (cov i))⟩ := by
      cases v; simp only at h; subst h; rfl
    rw [List.foldl_cons, e, gaussian_fold o g T tp cov l _ rfl]
    simp only [List.length_cons, List.foldl_cons, GVoxel.mk.injEq, true_and, and_true]
    omega

theorem gaussian_touched (o : Ops V) (g : VoxelEval V P M) (T : P) (tp : Nat → Pt V) (cov : Nat → M) (old : Option (GVoxel V M)) (hold : ∀ v, old = some v → v.finalized = true) {l : List Nat} (hl : l ≠ []) :
    GVoxel.finalize o g (l.foldl (fun v i => v.add o g T (tp i) (cov i)) (old.getD ⟨false, 0, Pt.zero o, g.zeroM⟩)) = averaged o g T old (l.map (fun i => (tp i, cov i))) := by
  rcases old with _ | v
  · rw [Option.getD_none, gaussian_fold o g T tp cov l _ rfl]
    simp [GVoxel.finalize, averaged, List.foldl_map]
  · have hf := hold v rfl
    rcases l with _ | ⟨i, l⟩
    · exact absurd rfl hl
    · have e : v.add o g T (tp i) (cov i) = ⟨false, v.numPoints + 1, Pt.add o (scalePt o v.mean (g.count v.numPoints)) (tp i), g.addM (g.scaleM v.cov (g.count v.numPoints)) (g.conj T (cov i))⟩ := by
        cases v; simp only at hf; subst hf; rfl
      rw [Option.getD_some, List.foldl_cons, e, gaussian_fold o g T tp cov l _ rfl]
      have hn : v.numPoints + 1 + l.length = v.numPoints + (i :: l).length := by simp only [List.length_cons]; omega
      simp only [GVoxel.finalize, averaged, Bool.false_eq_true, if_false, Option.elim, List.foldl_map, List.length_map, List.map_cons, List.foldl_cons, hn, List.length_cons]

/-- The values a cloud holds. -/
theorem cloud_values {β : Type} {l : List (Option β)} {n : Nat} (h : ∀ i < n, ∃ p, l[i]? = some (some p)) (hne : Nonempty β) : ∃ f : Nat → β, ∀ i < n, getSlot l i = .ok (f i) := by
  obtain ⟨b⟩ := hne
  refine ⟨fun i => ((l[i]?).getD none).getD b, fun i hi => ?_⟩
  obtain ⟨p, hp⟩ := h i hi
  simp only [getSlot, rd, hp]
  rfl

/-- C103, insertion into a map of Gaussian voxels, in any arithmetic. If every transformed point has a cell with numbers in the range of `int`, the call ends without a fault: a cell keeps its voxel unless it receives
points, in which case its voxel is that of all points so far, and is marked as used; every `lruClearCycle` calls the voxels that were not used for long are removed. Otherwise the behaviour is undefined. -/
theorem C103_gaussian (o : Ops V) (s : Scalars V) (apply : P → (Fin 4 → V) → (Fin 4 → V)) (g : VoxelEval V P M) {m : Voxel.VoxelMap V (GVoxel V M)} (hm : GaussianMap m) (hcyc : m.lruClearCycle ≠ 0) {points : Cloud (Fin 4 → V) M} (T : P)
    {pt : Nat → (Fin 4 → V)} {cov : Nat → M} (hpt : ∀ i < points.size, points.point i = .ok (pt i)) (hcov : ∀ i < points.size, points.cov i = .ok (cov i)) :
    ((∀ i < points.size, VoxelDefined o s m.invLeaf (Machine.toPt (apply T (pt i)))) → ∃ m', insertCloud o s apply (gaussianCells o g) m points T = .ok m' ∧ GaussianMap m' ∧ m'.flat.length ≤ m.flat.length + points.size ∧
      m'.invLeaf = m.invLeaf ∧ m'.lruHorizon = m.lruHorizon ∧ m'.lruClearCycle = m.lruClearCycle ∧ m'.offsets = m.offsets ∧ m'.lruCounter = (m.lruCounter + 1) % 2 ^ 64 ∧
      ∀ c, contentAt m'.flat c = (match (List.range points.size).filter (fun i => decide (voxelOf o s m.invLeaf (Machine.toPt (apply T (pt i))) = c)) with
        | [] => contentAt m.flat c
        | i :: is => some (m.lruCounter, averaged o g T ((contentAt m.flat c).map Prod.snd) ((i :: is).map (fun i => (Machine.toPt (apply T (pt i)), cov i))))).filter (fun v => !stale m v.1)) ∧
    ((∃ i < points.size, ¬ VoxelDefined o s m.invLeaf (Machine.toPt (apply T (pt i)))) → insertCloud o s apply (gaussianCells o g) m points T = .error .intOverflow) := by
  have hadd : Adds apply (gaussianCells o g) T points (fun v i => v.add o g T (Machine.toPt (apply T (pt i))) (cov i)) := by
    intro i p v hi hp
    rw [hpt i hi] at hp
    cases hp
    simp only [gaussianCells, hcov i hi, ok_bind]
    rfl
  obtain ⟨h1, h2⟩ := insert_any (o := o) (s := s) hadd pt hpt m hm.1 hcyc
  refine ⟨fun hall => ?_, h2⟩
  obtain ⟨m', a1, a2, a3⟩ := h1 hall
  have hfin : ∀ v ∈ m'.flat, v.2.finalized = true := by
    intro v hv
    obtain ⟨w, -, hw⟩ := inserted_invariant a2 (fun _ => True) (fun _ _ => trivial) trivial (fun _ _ _ _ => trivial) v hv
    rw [hw]
    show (GVoxel.finalize o g w).finalized = true
    unfold GVoxel.finalize
    split
    · assumption
    · rfl
  refine ⟨m', a1, ⟨a2.consistent, hfin⟩, a3, a2.settings.1, a2.settings.2.1, a2.settings.2.2.1, a2.settings.2.2.2, a2.counter, fun c => ?_⟩
  rw [a2.content]
  have hold : ∀ v, (contentAt m.flat c).map Prod.snd = some v → v.finalized = true := by
    intro v hv
    obtain ⟨x, hx, rfl⟩ := Option.map_eq_some_iff.1 hv
    obtain ⟨w, hw, hwx⟩ := content_mem hx
    rw [← hwx]
    exact hm.2 w hw
  unfold touched
  rcases hl : (List.range points.size).filter (fun i => decide (voxelOf o s m.invLeaf (Machine.toPt (apply T (pt i))) = c)) with _ | ⟨i, is⟩
  · simp only
    rcases hc : contentAt m.flat c with _ | ⟨lru, v⟩
    · rfl
    · have hv := hold v (by rw [hc]; rfl)
      have : (gaussianCells o g : Cells V P M _).finalize v = v := by
        show GVoxel.finalize o g v = v
        unfold GVoxel.finalize
        rw [if_pos hv]
      by_cases hs : stale m lru
      · simp [Option.filter, hs]
      · simp [Option.filter, hs, this]
  · simp only
    have key := gaussian_touched o g T (fun i => Machine.toPt (apply T (pt i))) cov ((contentAt m.flat c).map Prod.snd) hold (l := i :: is) (by simp)
    have e : (contentAt m.flat c).elim (gaussianCells o g : Cells V P M _).fresh Prod.snd = (((contentAt m.flat c).map Prod.snd).getD ⟨false, 0, Pt.zero o, g.zeroM⟩ : GVoxel V M) := by
      cases contentAt m.flat c <;> rfl
    rw [← key, ← e]
    by_cases hs : stale m m.lruCounter
    · simp [Option.filter, hs]
    · simp [Option.filter, hs]
      rfl

theorem flat_fold (o : Ops V) (g : VoxelEval V P M) (s : Voxel.FlatSetting V) (T : P) (tp normal : Nat → Pt V) (cov : Nat → M) (step : FVoxel V M → Nat → FVoxel V M)
    (hstep : ∀ v i, step v i = if s.maxNum ≤ v.points.length ∨ v.points.any (fun p => decide (Pt.sqDist o p (tp i) < s.minSqDist)) then v
      else ⟨v.points ++ [tp i], v.normals ++ (if s.hasNormals then [g.applyM T (normal i)] else []), v.covs ++ (if s.hasCovs then [g.conj T (cov i)] else [])⟩) :
    ∀ (l : List Nat) (v : FVoxel V M), l.Nodup → Filled o g s T tp normal cov l v (l.foldl step v)
  | [], v, _ => ⟨[], .slnil, by simp, by simp, by simp, by simp, by simp⟩
  | i :: l, v, hnd => by
    rw [List.nodup_cons] at hnd
    obtain ⟨kept, k1, k2, k3, k4, k5, k6⟩ := (flat_fold o g s T tp normal cov step hstep l (step v i) hnd.2).kept
    rw [List.foldl_cons]
    have hi : i ∉ kept := fun h => hnd.1 (k1.subset h)
    by_cases hc : s.maxNum ≤ v.points.length ∨ v.points.any (fun p => decide (Pt.sqDist o p (tp i) < s.minSqDist))
    · have e : step v i = v := by rw [hstep, if_pos hc]
      rw [e] at k2 k3 k4 k5 k6 ⊢
      refine ⟨kept, k1.cons i, k2, k3, k4, k5, ?_⟩
      intro j hj hjk
      rcases List.mem_cons.1 hj with rfl | hj
      · rcases hc with hc | hc
        · left; rw [k2, List.length_append]; omega
        · right
          obtain ⟨p, hp, hpd⟩ := List.any_eq_true.1 hc
          exact ⟨p, by rw [k2]; exact List.mem_append_left _ hp, of_decide_eq_true hpd⟩
      · exact k6 j hj hjk
    · have e : step v i = ⟨v.points ++ [tp i], v.normals ++ (if s.hasNormals then [g.applyM T (normal i)] else []), v.covs ++ (if s.hasCovs then [g.conj T (cov i)] else [])⟩ := by rw [hstep, if_neg hc]
      rw [e] at k2 k3 k4 k5 k6 ⊢
      simp only at k2 k3 k4 k5
      refine ⟨i :: kept, k1.cons_cons i, ?_, ?_, ?_, ?_, ?_⟩
      · rw [k2, List.map_cons, List.append_assoc]; rfl
      · rw [k3]
        cases s.hasNormals
        · simp
        · simp [List.append_assoc]
      · rw [k4]
        cases s.hasCovs
        · simp
        · simp [List.append_assoc]
      · intro a j b hab
        rcases a with _ | ⟨a0, a⟩
        · simp only [List.nil_append, List.cons.injEq] at hab
          obtain ⟨rfl, rfl⟩ := hab
          simp only [List.map_nil, List.append_nil]
          refine ⟨by omega, fun p hp hlt => hc (.inr (List.any_eq_true.2 ⟨p, hp, decide_eq_true hlt⟩))⟩
        · simp only [List.cons_append, List.cons.injEq] at hab
          obtain ⟨rfl, hab⟩ := hab
          have := k5 a j b hab
          rw [List.append_assoc] at this
          exact this
      · intro j hj hjk
        rcases List.mem_cons.1 hj with rfl | hj
        · exact absurd (by simp) hjk
        · exact k6 j hj (fun h => hjk (by simp [h]))

/-- C103, insertion into a map of flat voxels, in any arithmetic. As for Gaussian voxels; the points of a cell are appended to its voxel, in order, as long as there is room and no point already there compares as too
close, with the attributes the map keeps. -/
theorem C103_flat (o : Ops V) (s : Scalars V) (apply : P → (Fin 4 → V) → (Fin 4 → V)) (g : VoxelEval V P M) (fs : Voxel.FlatSetting V) {m : Voxel.VoxelMap V (FVoxel V M)} (hm : FlatMap fs m) (hcyc : m.lruClearCycle ≠ 0)
    {points : Cloud (Fin 4 → V) M} (T : P) {pt normal : Nat → (Fin 4 → V)} {cov : Nat → M} (hpt : ∀ i < points.size, points.point i = .ok (pt i))
    (hnormal : fs.hasNormals = true → ∀ i < points.size, points.normal i = .ok (normal i)) (hcov : fs.hasCovs = true → ∀ i < points.size, points.cov i = .ok (cov i)) :
    ((∀ i < points.size, VoxelDefined o s m.invLeaf (Machine.toPt (apply T (pt i)))) → ∃ m', insertCloud o s apply (flatCells o g fs) m points T = .ok m' ∧ FlatMap fs m' ∧ m'.flat.length ≤ m.flat.length + points.size ∧
      m'.invLeaf = m.invLeaf ∧ m'.lruHorizon = m.lruHorizon ∧ m'.lruClearCycle = m.lruClearCycle ∧ m'.offsets = m.offsets ∧ m'.lruCounter = (m.lruCounter + 1) % 2 ^ 64 ∧
      ∀ c, match (List.range points.size).filter (fun i => decide (voxelOf o s m.invLeaf (Machine.toPt (apply T (pt i))) = c)) with
        | [] => contentAt m'.flat c = (contentAt m.flat c).filter (fun v => !stale m v.1)
        | i :: is => ∃ new, Filled o g fs T (fun i => Machine.toPt (apply T (pt i))) (fun i => Machine.toPt (normal i)) cov (i :: is) (((contentAt m.flat c).map Prod.snd).getD ⟨[], [], []⟩) new ∧
          contentAt m'.flat c = if stale m m.lruCounter then none else some (m.lruCounter, new)) ∧
    ((∃ i < points.size, ¬ VoxelDefined o s m.invLeaf (Machine.toPt (apply T (pt i)))) → insertCloud o s apply (flatCells o g fs) m points T = .error .intOverflow) := by
  let step : FVoxel V M → Nat → FVoxel V M := fun v i => if fs.maxNum ≤ v.points.length ∨ v.points.any (fun p => decide (Pt.sqDist o p (Machine.toPt (apply T (pt i))) < fs.minSqDist)) then v
      else ⟨v.points ++ [Machine.toPt (apply T (pt i))], v.normals ++ (if fs.hasNormals then [g.applyM T (Machine.toPt (normal i))] else []), v.covs ++ (if fs.hasCovs then [g.conj T (cov i)] else [])⟩
  have hadd : Adds apply (flatCells o g fs) T points step := by
    intro i p v hi hp
    rw [hpt i hi] at hp
    cases hp
    show FVoxel.add o g fs T points v _ i = _
    unfold FVoxel.add
    simp only [step]
    split
    · rfl
    · cases hn : fs.hasNormals <;> cases hcv : fs.hasCovs
      · simp only [Bool.false_eq_true, if_false, pure, Except.pure, ok_bind, List.append_nil]
      · simp only [Bool.false_eq_true, if_false, if_true, hcov hcv i hi, pure, Except.pure, ok_bind, List.append_nil]
      · simp only [Bool.false_eq_true, if_false, if_true, hnormal hn i hi, pure, Except.pure, ok_bind, List.append_nil]
      · simp only [Bool.false_eq_true, if_false, if_true, hnormal hn i hi, hcov hcv i hi, pure, Except.pure, ok_bind, List.append_nil]
  obtain ⟨h1, h2⟩ := insert_any (o := o) (s := s) hadd pt hpt m hm.1 hcyc
  refine ⟨fun hall => ?_, h2⟩
  obtain ⟨m', a1, a2, a3⟩ := h1 hall
  have hinv : ∀ v ∈ m'.flat, v.2.points.length ≤ fs.maxNum ∧ (fs.hasNormals = true → v.2.normals.length = v.2.points.length) ∧ (fs.hasCovs = true → v.2.covs.length = v.2.points.length) := by
    intro v hv
    obtain ⟨w, hw, hw'⟩ := inserted_invariant a2 (fun v => v.points.length ≤ fs.maxNum ∧ (fs.hasNormals = true → v.normals.length = v.points.length) ∧ (fs.hasCovs = true → v.covs.length = v.points.length)) hm.2
      ⟨Nat.zero_le _, fun _ => rfl, fun _ => rfl⟩ (fun v i _ hQ => by
        simp only [step]
        split
        · exact hQ
        · rename_i hc
          refine ⟨by simp only [List.length_append, List.length_singleton]; omega, fun h => ?_, fun h => ?_⟩
          · simp [h, hQ.2.1 h]
          · simp [h, hQ.2.2 h]) v hv
    have : v.2 = w := hw'
    rw [this]
    exact hw
  refine ⟨m', a1, ⟨a2.consistent, hinv⟩, a3, a2.settings.1, a2.settings.2.1, a2.settings.2.2.1, a2.settings.2.2.2, a2.counter, fun c => ?_⟩
  have hcontent := a2.content c
  have hid : ∀ x : Option (Nat × FVoxel V M), x.map (fun v => (v.1, (flatCells o g fs : Cells V P M _).finalize v.2)) = x := fun x => by cases x <;> rfl
  rw [hid] at hcontent
  unfold touched at hcontent
  rcases hl : (List.range points.size).filter (fun i => decide (voxelOf o s m.invLeaf (Machine.toPt (apply T (pt i))) = c)) with _ | ⟨i, is⟩
  · rw [hl] at hcontent
    exact hcontent
  · rw [hl] at hcontent
    have hnd : (i :: is).Nodup := by rw [← hl]; exact List.nodup_range.filter _
    have e : (contentAt m.flat c).elim (flatCells o g fs : Cells V P M _).fresh Prod.snd = (((contentAt m.flat c).map Prod.snd).getD ⟨[], [], []⟩ : FVoxel V M) := by
      cases contentAt m.flat c <;> rfl
    refine ⟨_, flat_fold o g fs T (fun i => Machine.toPt (apply T (pt i))) (fun i => Machine.toPt (normal i)) cov step (fun v i => rfl) (i :: is) _ hnd, ?_⟩
    rw [hcontent, e]
    by_cases hs : stale m m.lruCounter
    · simp [Option.filter, hs]
    · simp [Option.filter, hs]

/-- A new map is one to insert into, with eviction after every ten calls of what was not used in the last hundred. -/
theorem C103_new (o : Ops V) (s : Scalars V) (leaf : V) (fs : Voxel.FlatSetting V) : GaussianMap (newMap o s leaf : Voxel.VoxelMap V (GVoxel V M)) ∧ FlatMap fs (newMap o s leaf : Voxel.VoxelMap V (FVoxel V M)) ∧
    ∀ C : Type, (newMap o s leaf : Voxel.VoxelMap V C).invLeaf = o.div s.one leaf ∧ (newMap o s leaf : Voxel.VoxelMap V C).lruClearCycle = 10 ∧ (newMap o s leaf : Voxel.VoxelMap V C).lruHorizon = 100 ∧
      (newMap o s leaf : Voxel.VoxelMap V C).offsets = [(0, 0, 0)] ∧ ∀ c, contentAt (newMap o s leaf : Voxel.VoxelMap V C).flat c = none := by
  refine ⟨⟨fun c i => by simp [newMap], by simp [newMap]⟩, ⟨fun c i => by simp [newMap], by simp [newMap]⟩, fun C => ⟨rfl, rfl, rfl, rfl, fun c => rfl⟩⟩

end Insert


/-! ### search -/

section Search

open Verif.Machine Verif.Proofs.Any

variable {V P M C : Type} [LT V] [LE V] [DecidableLT V] [DecidableLE V] {o : Ops V} {g : VoxelEval V P M} {needs : Needs} {c : Cells V P M C} {pts : C → List (Pt V)} {m : Voxel.VoxelMap V C}

theorem flatSearch_any (o : Ops V) (q : Pt V) (tr : Nat → Nat) : ∀ (l : List (Pt V)) (i : Nat) (r : KnnResult V), flatSearch o q tr i l r = r.pushAll tr ((l.zipIdx i).map (fun e => (e.2, Pt.sqDist o e.1 q)))
  | [], _, _ => rfl
  | p :: l, i, r => by
    rw [flatSearch, List.zipIdx_cons, List.map_cons, KnnResult.pushAll]
    congr 1
    funext r'
    exact flatSearch_any o q tr l (i + 1) r'

theorem library_offers (h : LibraryMap o g needs C c pts m) : Offers o c pts ∧ MapConsistent m ∧ IdsFitAny pts m ∧
    ∀ v ∈ m.flat, ∀ j < (pts v.2).length, (needs.normals = true → ∃ n, c.normal v.2 j = .ok n) ∧ (needs.covs = true → ∃ x, c.cov v.2 j = .ok x) := by
  cases h with
  | gaussian hn hm hlen =>
    refine ⟨⟨fun v j p hp => ?_, fun v q tr r => ?_⟩, hm.1, ⟨hlen, fun v _ => by simp⟩, fun v _ j _ => ⟨fun h => ?_, fun _ => ⟨_, rfl⟩⟩⟩
    · rcases j with _ | j
      · simp only [List.getElem?_cons_zero, Option.some.injEq] at hp
        subst hp
        rfl
      · simp at hp
    · show r.push tr 0 _ = _
      simp only [List.zipIdx_cons, List.zipIdx_nil, List.map_cons, List.map_nil, KnnResult.pushAll]
      cases r.push tr 0 (Pt.sqDist o v.mean q) <;> rfl
    · rw [hn] at h; cases h
  | flat s hn hc hm hmax hlen =>
    refine ⟨⟨fun v j p hp => ?_, fun v q tr r => flatSearch_any o q tr v.points 0 r⟩, hm.1, ⟨hlen, fun v hv => (hm.2 v hv).1.trans hmax⟩, fun v hv j hj => ⟨fun h => ?_, fun h => ?_⟩⟩
    · exact rd_of_getElem? hp
    · have h1 := (hm.2 v hv).2.1 (hn h)
      refine ⟨v.2.normals[j]'(by rw [h1]; exact hj), ?_⟩
      show (if s.hasNormals then rd v.2.normals j else .error .exception) = _
      rw [if_pos (hn h)]
      exact rd_of_getElem? (List.getElem?_eq_getElem _)
    · have h1 := (hm.2 v hv).2.2 (hc h)
      refine ⟨v.2.covs[j]'(by rw [h1]; exact hj), ?_⟩
      show (if s.hasCovs then rd v.2.covs j else .error .exception) = _
      rw [if_pos (hc h)]
      exact rd_of_getElem? (List.getElem?_eq_getElem _)

theorem candidates_stored (s : Scalars V) (hI : MapConsistent m) (q : Pt V) : ∀ e ∈ candidates o s pts m q, StoredPoint pts m e.1 := by
  intro e he
  obtain ⟨off, -, he⟩ := List.mem_flatMap.1 he
  obtain ⟨x, hx, rfl⟩ := List.mem_map.1 he
  rcases storedAt_eq (pts := pts) hI (shiftCell (voxelOf o s m.invLeaf q) off) with ⟨-, h⟩ | ⟨i, v, -, h2, h3⟩
  · rw [h] at hx; cases hx
  · rw [h3] at hx
    obtain ⟨y, hy, rfl⟩ := List.mem_map.1 hx
    have := List.mem_zipIdx_iff_getElem?.1 hy
    exact ⟨i, v, y.2, h2, (List.getElem?_eq_some_iff.1 this).1, rfl⟩

/-- Different cells searched give different numbers. -/
theorem candidates_nodup (s : Scalars V) (hI : MapConsistent m) (hid : IdsFitAny pts m) (hoff : m.offsets.Nodup) (q : Pt V) : ((candidates o s pts m q).map Prod.fst).Nodup := by
  unfold candidates
  generalize voxelOf o s m.invLeaf q = center
  generalize m.offsets = offs at hoff
  have hmem : ∀ c' k, k ∈ (storedAt pts m.flat c').map Prod.fst → ∃ v, m.flat[k / 2 ^ 32]? = some v ∧ v.1.coord = c' := by
    intro c' k hk
    rcases storedAt_eq (pts := pts) hI c' with ⟨-, h⟩ | ⟨i, v, h1, h2, h3⟩
    · rw [h] at hk; cases hk
    · rw [h3] at hk
      simp only [List.map_map, List.mem_map, Function.comp_apply] at hk
      obtain ⟨y, hy, rfl⟩ := hk
      have hy' := (List.getElem?_eq_some_iff.1 (List.mem_zipIdx_iff_getElem?.1 hy)).1
      have hl := hid.2 v (List.mem_of_getElem? h2)
      obtain ⟨w, hw, hwc⟩ := (hI c' i).1 h1
      have e : (i * 2 ^ 32 + y.2) / 2 ^ 32 = i := by omega
      rw [e]
      exact ⟨w, hw, hwc⟩
  have heach : ∀ c', ((storedAt pts m.flat c').map Prod.fst).Nodup := by
    intro c'
    rcases storedAt_eq (pts := pts) hI c' with ⟨-, h⟩ | ⟨i, v, h1, h2, h3⟩
    · rw [h]; simp
    · rw [h3, List.map_map]
      have : ((pts v.2).zipIdx.map (Prod.fst ∘ fun e : Pt V × Nat => (i * 2 ^ 32 + e.2, e.1))) = (List.range (pts v.2).length).map (fun j => i * 2 ^ 32 + j) := by
        rw [List.range_eq_range', ← List.zipIdx_map_snd 0 (pts v.2), List.map_map]
        rfl
      rw [this]
      exact List.nodup_range.map (fun a b h => by simpa using h)
  induction offs with
  | nil => simp
  | cons off offs ih =>
    rw [List.nodup_cons] at hoff
    rw [List.flatMap_cons, List.map_append, List.nodup_append]
    refine ⟨?_, ih hoff.2, ?_⟩
    · rw [List.map_map]
      exact heach _
    · intro a ha b hb hab
      subst hab
      rw [List.map_map] at ha
      obtain ⟨v, hv, hvc⟩ := hmem _ a ha
      obtain ⟨e, he, hea⟩ := List.mem_map.1 hb
      obtain ⟨off', hoff', he⟩ := List.mem_flatMap.1 he
      obtain ⟨x, hx, hxe⟩ := List.mem_map.1 he
      obtain ⟨w, hw, hwc⟩ := hmem (shiftCell center off') a (List.mem_map.2 ⟨x, hx, by rw [← hea, ← hxe]⟩)
      rw [hv] at hw
      cases hw
      rw [hvc] at hwc
      have : off = off' := by
        unfold shiftCell at hwc
        simp only [Prod.mk.injEq, add_right_inj] at hwc
        exact Prod.ext hwc.1 (Prod.ext hwc.2.1 hwc.2.2)
      rw [this] at hoff
      exact hoff.1 hoff'

/-- C103, search in a voxel map, in any arithmetic, for `k` neighbours known at compile time (`N`) or at run time. If the cell of the query and the cells around it have numbers in the range of `int`, no fault happens, no
entry of the caller's arrays beyond the first `k` is touched, and what is found are points stored in those cells, with the distances computed for them: `k` of them, or all that compare as below the largest number.
Otherwise the behaviour is undefined. -/
theorem C103_search (s : Scalars V) (h : LibraryMap o g needs C c pts m) (maxD : V) {N nn : Int} {k : Nat} (hk : k = if 0 < N then N.toNat else nn.toNat) (hpos : 0 < k) (hnn : 0 < N → nn < 0)
    {ind : List Nat} {dis : List V} (hi : k ≤ ind.length) (hd : k ≤ dis.length) (q : Pt V) :
    (QueryDefined o s m q → ∃ r, searchMap o s c maxD m q N nn ind dis = .ok r ∧ r.numFound = r.found.length ∧ r.found.length ≤ k ∧
      r.indices = r.found.map Prod.fst ++ (List.replicate (k - r.found.length) INVALID ++ ind.drop k) ∧ r.distances = r.found.map Prod.snd ++ (List.replicate (k - r.found.length) maxD ++ dis.drop k) ∧
      (∃ drop, (r.found ++ drop).Perm (candidates o s pts m q)) ∧ (∀ e ∈ r.found, StoredPoint pts m e.1) ∧ min k ((candidates o s pts m q).countP (fun e => decide (¬ maxD ≤ e.2))) ≤ r.found.length ∧
      (m.offsets.Nodup → (r.found.map Prod.fst).Nodup) ∧ ((∀ a b : V, a < b → ¬ b < a) → (r.found.map Prod.snd).IsChain (fun a b => ¬ b < a))) ∧
    (¬ QueryDefined o s m q → searchMap o s c maxD m q N nn ind dis = .error .intOverflow) := by
  obtain ⟨ho, hI, hid, -⟩ := library_offers h
  obtain ⟨r0, g1, g2⟩ := construct_any maxD N ind dis nn k hk hpos hnn hi hd
  obtain ⟨c1, c2⟩ := cellOf_any o s m.invLeaf q
  constructor
  · rintro ⟨hq1, hq2⟩
    obtain ⟨s1, -⟩ := searchCells_any ho hI hid q (voxelOf o s m.invLeaf q) m.offsets r0 [] g2
    obtain ⟨r, L, p1, p2, ⟨drop, p3⟩, p4⟩ := pushAll_any (candidates o s pts m q) r0 [] g2
    have hfound : r.found = L := by
      unfold KnnResult.found
      rw [p2.found, p2.ind, p2.dis, List.zip_append (by simp), List.take_append_of_le_length (by simp), List.take_of_length_le (by simp)]
      exact (List.zip_of_prod rfl rfl).symm
    have hL : (L ++ drop).Perm (candidates o s pts m q) := by simpa using p3
    refine ⟨r, ?_, ?_⟩
    · unfold searchMap
      rw [c1 hq1, ok_bind, g1, ok_bind, s1 hq2]
      exact p1
    · rw [hfound]
      refine ⟨p2.found, p2.len, p2.ind, p2.dis, ⟨drop, hL⟩, fun e he => ?_, by simpa using p4, fun hoff => ?_, p2.ordered⟩
      · exact candidates_stored s hI q e (hL.mem_iff.1 (List.mem_append_left _ he))
      · have := (hL.map Prod.fst).nodup_iff.2 (candidates_nodup s hI hid hoff q)
        rw [List.map_append, List.nodup_append] at this
        exact this.1
  · intro hq
    unfold searchMap
    by_cases hq1 : VoxelDefined o s m.invLeaf q
    · rw [c1 hq1, ok_bind, g1, ok_bind]
      refine (searchCells_any ho hI hid q (voxelOf o s m.invLeaf q) m.offsets r0 [] g2).2 ?_
      by_contra hall
      exact hq ⟨hq1, fun off hoff => by by_contra hb; exact hall ⟨off, hoff, hb⟩⟩
    · rw [c2 hq1]
      rfl

end Search

/-! ### registration -/

section Align

open Verif.Machine Verif.Proofs.Any

variable {V P H B M D C : Type} [Zero V] [Add V] [Sub V] [Mul V] [Div V] [LE V] [DecidableLE V] [LT V] [DecidableLT V] [Zero H] [Add H] [Zero B] [Add B] {E : Machine.Eval V P H B M}
  {o : Ops V} {g : VoxelEval V P M} {needs : Needs} {c : Cells V P M C} {pts : C → List (Pt V)} {m : Voxel.VoxelMap V C}

theorem map_serves (s : Scalars V) (h : LibraryMap o g needs C c pts m) (maxD : V) {source : Cloud (Fin 4 → V) M} (hsrc : PointsSet source) (hcov : needs.covs = true → CovsSet source) (junk : Nat × V) :
    Serves needs (mapWorld o s c maxD m source junk) source.size (StoredPoint pts m) (fun q => QueryDefined o s m (Machine.toPt q)) := by
  obtain ⟨ho, hI, hid, hatt⟩ := library_offers h
  have hread : ∀ {i : Nat} {v : Voxel.Info × C} {j : Nat}, m.flat[i]? = some v → j < (pts v.2).length → rd m.flat (Voxel.voxelId (i * 2 ^ 32 + j)) = .ok v ∧ Voxel.pointId (i * 2 ^ 32 + j) = j := by
    intro i v j hv hj
    have hl := hid.2 v (List.mem_of_getElem? hv)
    rw [voxelId_eq i j (by omega), pointId_eq i j (by omega)]
    exact ⟨rd_of_getElem? hv, rfl⟩
  refine ⟨fun i hi => ?_, fun hn i hi => ?_, fun k hk => ?_, fun hn k hk => ?_, fun hn k hk => ?_, fun k hk => ?_, fun q hq => ?_, fun q hq => ?_⟩
  · obtain ⟨p, hp⟩ := hsrc i hi
    exact ⟨p, point_ok hp⟩
  · obtain ⟨x, hx⟩ := hcov hn i hi
    exact ⟨x, by simp only [mapWorld, Cloud.cov, getSlot, rd, hx]; rfl⟩
  · obtain ⟨i, v, j, h1, h2, rfl⟩ := hk
    obtain ⟨r1, r2⟩ := hread h1 h2
    have hp := ho.point v.2 j _ (List.getElem?_eq_getElem h2)
    exact ⟨_, by simp only [mapWorld, r1, r2, hp, bind, Except.bind]; rfl⟩
  · obtain ⟨i, v, j, h1, h2, rfl⟩ := hk
    obtain ⟨r1, r2⟩ := hread h1 h2
    obtain ⟨n, hn⟩ := (hatt v (List.mem_of_getElem? h1) j h2).1 hn
    exact ⟨_, by simp only [mapWorld, r1, r2, hn, bind, Except.bind]; rfl⟩
  · obtain ⟨i, v, j, h1, h2, rfl⟩ := hk
    obtain ⟨r1, r2⟩ := hread h1 h2
    obtain ⟨x, hx⟩ := (hatt v (List.mem_of_getElem? h1) j h2).2 hn
    exact ⟨x, by simp only [mapWorld, r1, r2, hx, bind, Except.bind]⟩
  · obtain ⟨i, v, j, h1, h2, rfl⟩ := hk
    have hl := hid.2 v (List.mem_of_getElem? h1)
    have hi := (List.getElem?_eq_some_iff.1 h1).1
    have := hid.1
    unfold npos
    omega
  · obtain ⟨r, a1, -, -, -, -, -, a7, -⟩ := (C103_search s h maxD (N := 1) (nn := -1) (k := 1) rfl (by decide) (by decide) (ind := [junk.1]) (dis := [junk.2]) (by simp) (by simp) (Machine.toPt q)).1 hq
    simp only [mapWorld, a1, bind, Except.bind, pure, Except.pure]
    rcases hf : r.found with _ | ⟨e, l⟩
    · exact .inl rfl
    · exact .inr ⟨e.1, e.2, a7 e (by rw [hf]; simp), rfl⟩
  · have := (C103_search s h maxD (N := 1) (nn := -1) (k := 1) rfl (by decide) (by decide) (ind := [junk.1]) (dis := [junk.2]) (by simp) (by simp) (Machine.toPt q)).2 hq
    simp only [mapWorld, this, bind, Except.bind]

/-- C103, registration against a voxel map, in any arithmetic, with every factor, rejector, optimiser, reduction and execution. Either the call ends without a fault, within the allowed iterations, each of them
started at a pose under which all source points have cells that can be searched and leaving in factor `i` source point `i` and a point of the map or none; or it reaches a pose under which one has not, where the behaviour
is undefined. If that is so for the initial guess, the behaviour is undefined. -/
theorem C103_align {F : Type} {mf : Machine.Factor F V P H B M} (hf : LibraryFactor E F needs mf) (s : Scalars V) (h : LibraryMap o g needs C c pts m) {source : Cloud (Fin 4 → V) M} (hsrc : PointsSet source)
    (hcov : needs.covs = true → CovsSet source) (maxD : V) (junk : Nat × V) (cfg : Machine.Config V P H B D) (execL execE : P → List F → Exec) (hexL : ∀ T fs, (execL T fs).Complete fs.length)
    (hexE : ∀ T fs, (execE T fs).Complete fs.length) (meth : Machine.Method V) (T0 : P) :
    ((∃ r fs log, Machine.align mf (mapWorld o s c maxD m source junk) cfg execL execE meth T0 source.size = .ok (r, fs, log) ∧ log.length ≤ budget meth ∧
        (∀ it ∈ log, Reachable cfg.step T0 it.T0 ∧ PoseDefined o s E.apply m source it.T0 ∧ ValidIn mf source.size (StoredPoint pts m) it.factors) ∧
        fs.length = source.size ∧ (log ≠ [] → ValidIn mf source.size (StoredPoint pts m) fs) ∧ r.numInliers = fs.countP mf.inlier ∧ r.numInliers ≤ source.size) ∨
      (Machine.align mf (mapWorld o s c maxD m source junk) cfg execL execE meth T0 source.size = .error .intOverflow ∧ ∃ T, Reachable cfg.step T0 T ∧ ¬ PoseDefined o s E.apply m source T)) ∧
    (¬ PoseDefined o s E.apply m source T0 → 0 < budget meth → Machine.align mf (mapWorld o s c maxD m source junk) cfg execL execE meth T0 source.size = .error .intOverflow) := by
  have hserve := map_serves s h maxD hsrc hcov junk
  have hruns := align_serves hf hserve cfg execL execE hexL hexE
  obtain ⟨h1, h2⟩ := runsAt_method hruns meth T0 (fs0 := List.replicate source.size mf.init) (by simp)
  refine ⟨?_, fun hb hbud => h2 hb hbud⟩
  rcases h1 with ⟨r, fs, log, g1, g2, g3, g4, g5, g6⟩ | ⟨g1, T, g2, g3⟩
  · refine .inl ⟨r, fs, log, g1, g4, fun it hit => ?_, g2, g5, g6, ?_⟩
    · obtain ⟨k1, k2, k3⟩ := g3 it hit
      exact ⟨k3, k2, k1⟩
    · rw [g6, ← g2]
      exact List.countP_le_length
  · exact .inr ⟨g1, T, g2, g3⟩

end Align


section Vgicp

open Verif.Machine Verif.Proofs.Any

variable {V M R P H B D F T : Type} {d : Nat} [LT V] [DecidableLT V] [LE V] [DecidableLE V] [One V] [Zero V] [Add V] [Sub V] [Mul V] [Div V] [Zero H] [Add H] [Zero B] [Add B]

/-- C103, VGICP on raw points, in any arithmetic. A target or source coordinate that cannot be converted in the voxel grid is undefined behaviour, on every execution. Otherwise there is an execution, and every one
ends, with clouds no larger than the input, in one of three ways: the target cloud has a point without a cell, which is undefined behaviour; or the registration against the map reaches a pose under which a
source point has no cell that can be searched, which is undefined behaviour; or there is no fault, within the allowed iterations. -/
theorem C103_vgicp {e : Machine.PrepEnv V M R} (he : Rearranges e) {E : Machine.Eval V P H B M} (g : VoxelEval V P M) (identity : P) {needs : Needs} {mf : Machine.Factor F V P H B M} (hf : LibraryFactor E F needs mf)
    (hn : needs.normals = false) (cast : T → V) {target source : List (Fin (d + 3) → T)} (hNt : target.length < 2 ^ 32) (hNs : source.length < 2 ^ 32) (resolution voxelResolution : V) (numThreads : Int) (junk : Nat × V)
    (cfg : Machine.Config V P H B D) (execL execE : P → List F → Exec) (hexL : ∀ T fs, (execL T fs).Complete fs.length) (hexE : ∀ T fs, (execE T fs).Complete fs.length) (meth : Machine.Method V) (T0 : P) :
    ((∀ p ∈ target ++ source, PointDefined e.ops e.scalars resolution (rawPoint cast p)) →
      (∃ xt xs r, alignVgicp e E g identity xt xs cast target source resolution voxelResolution numThreads mf junk cfg execL execE meth T0 = some r) ∧
      ∀ xt xs r, alignVgicp e E g identity xt xs cast target source resolution voxelResolution numThreads mf junk cfg execL execE meth T0 = some r →
        ∃ ct tt cs ts, preprocessVector e xt cast target resolution 10 numThreads = some (.ok (ct, tt)) ∧ preprocessVector e xs cast source resolution 10 numThreads = some (.ok (cs, ts)) ∧
          ct.size ≤ target.length ∧ cs.size ≤ source.length ∧ (source ≠ [] → 0 < cs.size) ∧
          ((∃ i < ct.size, ∀ p, ct.point i = .ok p → ¬ VoxelDefined e.ops e.scalars (e.ops.div e.scalars.one voxelResolution) (Machine.toPt (E.apply identity p))) → r = .error .intOverflow) ∧
          ((∀ i < ct.size, ∀ p, ct.point i = .ok p → VoxelDefined e.ops e.scalars (e.ops.div e.scalars.one voxelResolution) (Machine.toPt (E.apply identity p))) →
            ∃ m, createGaussian e.ops e.scalars E.apply g identity ct voxelResolution = .ok m ∧ m.flat.length ≤ ct.size ∧
              ((∃ res fs log, r = .ok (res, fs, log) ∧ log.length ≤ budget meth ∧ (∀ it ∈ log, Reachable cfg.step T0 it.T0 ∧ PoseDefined e.ops e.scalars E.apply m cs it.T0 ∧
                  ValidIn mf cs.size (StoredPoint (fun v => [v.mean]) m) it.factors) ∧ fs.length = cs.size ∧ res.numInliers = fs.countP mf.inlier ∧ res.numInliers ≤ source.length) ∨
                (r = .error .intOverflow ∧ ∃ T, Reachable cfg.step T0 T ∧ ¬ PoseDefined e.ops e.scalars E.apply m cs T)) ∧
              (¬ PoseDefined e.ops e.scalars E.apply m cs T0 → 0 < budget meth → r = .error .intOverflow))) ∧
    ((¬ ∀ p ∈ target ++ source, PointDefined e.ops e.scalars resolution (rawPoint cast p)) →
      ∀ xt xs r, alignVgicp e E g identity xt xs cast target source resolution voxelResolution numThreads mf junk cfg execL execE meth T0 = some r → r = .error .intOverflow) := by
  obtain ⟨t1, t2⟩ := preprocessVector_any (k := 10) he cast target hNt resolution (by decide) numThreads
  obtain ⟨s1, s2⟩ := preprocessVector_any (k := 10) he cast source hNs resolution (by decide) numThreads
  refine ⟨fun h => ?_, fun h xt xs r hr => ?_⟩
  · have ht := t1 (fun p hp => h p (by simp [hp]))
    have hs := s1 (fun p hp => h p (by simp [hp]))
    refine ⟨?_, fun xt xs r hr => ?_⟩
    · obtain ⟨xt, rt, ht1⟩ := ht.1
      obtain ⟨xs, rs, hs1⟩ := hs.1
      obtain ⟨ct, tt, -, rfl, -⟩ := ht.2 xt rt ht1
      obtain ⟨cs, ts, -, rfl, -⟩ := hs.2 xs rs hs1
      refine ⟨xt, xs, ?_⟩
      unfold alignVgicp
      rw [ht1]
      simp only []
      rw [hs1]
      exact ⟨_, rfl⟩
    · unfold alignVgicp at hr
      cases hvt : preprocessVector e xt cast target resolution 10 numThreads with
      | none => rw [hvt] at hr; cases hr
      | some rt =>
        obtain ⟨ct, tt, out, rfl, a1, a2, a3, a4, a5, a6, a7⟩ := ht.2 xt rt hvt
        cases hvs : preprocessVector e xs cast source resolution 10 numThreads with
        | none => rw [hvt, hvs] at hr; cases hr
        | some rs =>
          obtain ⟨cs, ts, -, rfl, b1, b2, b3, b4, b5, -⟩ := hs.2 xs rs hvs
          rw [hvt, hvs] at hr
          simp only [] at hr
          have hr := Option.some.inj hr
          refine ⟨ct, tt, cs, ts, rfl, rfl, a1, b1, b2, ?_⟩
          -- the values of the target cloud
          have hvals : ∃ (pt : Nat → (Fin 4 → V)) (cov : Nat → M), (∀ i < ct.size, ct.point i = .ok (pt i)) ∧ ∀ i < ct.size, ct.cov i = .ok (cov i) := by
            obtain ⟨pt, hpt⟩ := cloud_values a3 ⟨fun _ => (0 : V)⟩
            obtain ⟨cov, hcov⟩ := cloud_values a5 ⟨g.zeroM⟩
            exact ⟨pt, cov, hpt, hcov⟩
          obtain ⟨pt, cov, hpt, hcov⟩ := hvals
          obtain ⟨c1, c2⟩ := C103_gaussian e.ops e.scalars E.apply g (C103_new (M := M) e.ops e.scalars voxelResolution ⟨voxelResolution, 0, false, false⟩).1 (by simp [newMap]) (points := ct) identity hpt hcov
          refine ⟨fun hbad => ?_, fun hgood => ?_⟩
          · obtain ⟨i, hi, hb⟩ := hbad
            have := c2 ⟨i, hi, hb _ (hpt i hi)⟩
            rw [← hr]
            unfold createGaussian
            rw [this]
            rfl
          · obtain ⟨m, d1, d2, d3, d4, -, -, d5, -⟩ := c1 (fun i hi => hgood i hi _ (hpt i hi))
            have hlen : m.flat.length ≤ ct.size := by simpa [newMap] using d3
            refine ⟨m, d1, hlen, ?_⟩
            have hcg : createGaussian e.ops e.scalars E.apply g identity ct voxelResolution = .ok m := d1
            rw [hcg, ok_bind] at hr
            have hlm : LibraryMap e.ops g needs (GVoxel V M) (gaussianCells e.ops g) (fun v => [v.mean]) m := .gaussian hn d2 (by omega)
            obtain ⟨q1, q2⟩ := C103_align (D := D) hf e.scalars hlm b3 (fun _ => b5) e.maxD junk cfg execL execE hexL hexE meth T0
            refine ⟨?_, fun hb hbud => by rw [← hr]; exact q2 hb hbud⟩
            rcases q1 with ⟨res, fs, log, k1, k2, k3, k4, -, k5, k6⟩ | ⟨k1, k2⟩
            · exact .inl ⟨res, fs, log, by rw [← hr]; exact k1, k2, k3, k4, k5, by omega⟩
            · exact .inr ⟨by rw [← hr]; exact k1, k2⟩
  · unfold alignVgicp at hr
    by_cases htd : ∀ p ∈ target, PointDefined e.ops e.scalars resolution (rawPoint cast p)
    · have hsd : ¬ ∀ p ∈ source, PointDefined e.ops e.scalars resolution (rawPoint cast p) := fun hsd => h (fun p hp => by
        rcases List.mem_append.1 hp with hp | hp
        · exact htd p hp
        · exact hsd p hp)
      cases hvt : preprocessVector e xt cast target resolution 10 numThreads with
      | none => rw [hvt] at hr; cases hr
      | some rt =>
        obtain ⟨ct, tt, out, rfl, -⟩ := (t1 htd).2 xt rt hvt
        rw [hvt, s2 hsd xs] at hr
        exact (Option.some.inj hr).symm
    · rw [t2 htd xt] at hr
      exact (Option.some.inj hr).symm

end Vgicp

/-! ### exact arithmetic -/

section Exact

open Verif.Machine Verif.Proofs.Any

variable {K : Type} [Field K] [LinearOrder K] [IsStrictOrderedRing K] [FloorRing K]

theorem exact_cellOf (inv : K) (p : Pt K) : Machine.cellOf (exactOps K) (exactScalars K) inv p = Voxel.coordOf inv p := by
  unfold Machine.cellOf Voxel.coordOf fastFloor4
  simp only [exactFloor]
  have : Downsample.Machine.scaled (exactOps K) inv p = p.smul inv := rfl
  rw [this]
  cases fastFloor (p.smul inv).x <;> try rfl
  cases fastFloor (p.smul inv).y <;> try rfl
  cases fastFloor (p.smul inv).z <;> try rfl
  cases fastFloor (p.smul inv).w <;> rfl

/-- A map with other contents. -/
def mapContents {C W : Type} (f : C → W) (m : Voxel.VoxelMap K C) : Voxel.VoxelMap K W :=
  ⟨m.invLeaf, m.lruHorizon, m.lruClearCycle, m.lruCounter, m.offsets, m.flat.map (fun v => (v.1, f v.2)), m.table⟩

/-- `T * p` for the matrix of a pose. -/
def exactApply (T : Voxel.Mat4 K) (p : Fin 4 → K) : Fin 4 → K := Machine.ofPt (Voxel.mulPt T (Machine.toPt p))

/-- The expressions of the voxels without rounding. -/
def exactVoxels : VoxelEval K (Voxel.Mat4 K) (Voxel.Mat4 K) where
  count n := n
  zeroM := 0
  addM := (· + ·)
  scaleM m x := x • m
  divM m x := x⁻¹ • m
  conj T m := T * m * T.transpose
  applyM := Voxel.mulPt

/-- Voxels of the two models that do the same. -/
structure SameCells {C W : Type} (c : Cells K (Voxel.Mat4 K) (Voxel.Mat4 K) C) (k : Voxel.Contents K W) (f : C → W) (T : Voxel.Mat4 K) (points : Cloud (Fin 4 → K) (Voxel.Mat4 K)) (src : Nat → Voxel.SrcPt K) : Prop where
  fresh : f c.fresh = k.fresh
  add : ∀ v tp i, i < points.size → ∃ v', c.add T points v tp i = .ok v' ∧ f v' = k.add (f v) tp (src i) T
  finalize : ∀ v, f (c.finalize v) = k.finalize (f v)

theorem rd_mapped {A B : Type} (f : A → B) (l : List A) (i : Nat) : rd (l.map f) i = (rd l i).map f := by
  unfold rd
  rw [List.getElem?_map]
  cases l[i]? <;> rfl

theorem wr_mapped {A B : Type} (f : A → B) (l : List A) (i : Nat) (a : A) : wr (l.map f) i (f a) = (wr l i a).map (List.map f) := by
  unfold wr
  rw [List.length_map]
  split
  · simp [Except.map, List.map_set]
  · rfl

theorem exact_insertOne {C W : Type} {c : Cells K (Voxel.Mat4 K) (Voxel.Mat4 K) C} {k : Voxel.Contents K W} {f : C → W} {T : Voxel.Mat4 K} {points : Cloud (Fin 4 → K) (Voxel.Mat4 K)} {src : Nat → Voxel.SrcPt K}
    (h : SameCells c k f T points src) (m : Voxel.VoxelMap K C) {i : Nat} (hi : i < points.size) {p : Fin 4 → K} (hp : points.point i = .ok p) (hsrc : (src i).pt = Machine.toPt p) :
    (Machine.insertOne (exactOps K) (exactScalars K) exactApply c T points m i).map (mapContents f) = Voxel.insertOne k T (mapContents f m) (src i) := by
  unfold Machine.insertOne Voxel.insertOne
  rw [hp, ok_bind]
  simp only [exact_cellOf]
  have hpt : Machine.toPt (exactApply T p) = Voxel.mulPt T (src i).pt := by rw [hsrc]; rfl
  simp only [hpt]
  have hinv : (mapContents f m).invLeaf = m.invLeaf := rfl
  rw [hinv]
  rcases Voxel.coordOf m.invLeaf (Voxel.mulPt T (src i).pt) with e | coord
  · rfl
  simp only [ok_bind]
  have htab : (mapContents f m).table = m.table := rfl
  rw [htab]
  have main : ∀ (m1 : Voxel.VoxelMap K C) (idx : Nat), (do
      let x ← rd m1.flat idx
      let v ← c.add T points x.2 (Voxel.mulPt T (src i).pt) i
      let flat ← wr m1.flat idx ({ x.1 with lru := m1.lruCounter }, v)
      pure { m1 with flat := flat } : Res (Voxel.VoxelMap K C)).map (mapContents f) = (do
      let x ← rd (mapContents f m1).flat idx
      let flat ← wr (mapContents f m1).flat idx ({ x.1 with lru := m1.lruCounter }, k.add x.2 (Voxel.mulPt T (src i).pt) (src i) T)
      pure { mapContents f m1 with flat := flat }) := by
    intro m1 idx
    show _ = (do
      let x ← rd (m1.flat.map (fun v => (v.1, f v.2))) idx
      let flat ← wr (m1.flat.map (fun v => (v.1, f v.2))) idx ({ x.1 with lru := m1.lruCounter }, k.add x.2 (Voxel.mulPt T (src i).pt) (src i) T)
      pure { mapContents f m1 with flat := flat } : Res (Voxel.VoxelMap K W))
    rw [rd_mapped]
    rcases rd m1.flat idx with e | x
    · rfl
    obtain ⟨v', h1, h2⟩ := h.add x.2 (Voxel.mulPt T (src i).pt) i hi
    simp only [ok_bind, Except.map]
    rw [h1, ok_bind]
    have := wr_mapped (fun v : Voxel.Info × C => (v.1, f v.2)) m1.flat idx ({ x.1 with lru := m1.lruCounter }, v')
    simp only [h2] at this
    rw [this]
    rcases wr m1.flat idx ({ x.1 with lru := m1.lruCounter }, v') with e | flat
    · rfl
    · rfl
  cases Voxel.find m.table coord with
  | some j => exact main m j
  | none =>
    have := main { m with table := (coord, m.flat.length) :: m.table, flat := m.flat ++ [((⟨m.lruCounter, coord⟩ : Voxel.Info), c.fresh)] } m.flat.length
    simp only at this ⊢
    have e : mapContents f { m with table := (coord, m.flat.length) :: m.table, flat := m.flat ++ [((⟨m.lruCounter, coord⟩ : Voxel.Info), c.fresh)] } =
        { mapContents f m with table := (coord, (mapContents f m).flat.length) :: m.table, flat := (mapContents f m).flat ++ [((⟨(mapContents f m).lruCounter, coord⟩ : Voxel.Info), k.fresh)] } := by
      simp only [mapContents, List.map_append, List.map_cons, List.map_nil, h.fresh, List.length_map]
    rw [e] at this
    have hl : (mapContents f m).flat.length = m.flat.length := List.length_map _
    rw [hl] at this ⊢
    exact this

theorem exact_evict {C W : Type} (f : C → W) (m : Voxel.VoxelMap K C) : (evictStale m).map (mapContents f) = Voxel.evict (mapContents f m) := by
  have hre : ∀ (l : List (Voxel.Info × C)) (i : Nat) (t : List (Voxel.Coord × Nat)), Voxel.rehashFrom i (l.map (fun v => (v.1, f v.2))) t = Voxel.rehashFrom i l t := by
    intro l
    induction l with
    | nil => intro i t; rfl
    | cons v l ih => intro i t; exact ih _ _
  unfold evictStale Voxel.evict
  by_cases h1 : m.lruClearCycle = 0
  · simp only [if_pos h1]
    exact (if_pos h1).symm
  · simp only [if_neg h1]
    refine Eq.trans ?_ (if_neg h1).symm
    by_cases h2 : (m.lruCounter + 1) % 2 ^ 64 % m.lruClearCycle = 0
    · simp only [if_pos h2]
      refine Eq.trans ?_ (if_pos h2).symm
      have hfil : (m.flat.map (fun v => (v.1, f v.2))).filter (fun v => !Voxel.isStale m.lruHorizon ((m.lruCounter + 1) % 2 ^ 64) v.1) =
          (m.flat.filter (fun v => !Voxel.isStale m.lruHorizon ((m.lruCounter + 1) % 2 ^ 64) v.1)).map (fun v => (v.1, f v.2)) := by
        rw [List.filter_map]; rfl
      simp only [mapContents, Except.map, hfil, hre]
    · simp only [if_neg h2]
      exact (if_neg h2).symm

theorem exact_insertCloud {C W : Type} {c : Cells K (Voxel.Mat4 K) (Voxel.Mat4 K) C} {k : Voxel.Contents K W} {f : C → W} {T : Voxel.Mat4 K} {points : Cloud (Fin 4 → K) (Voxel.Mat4 K)} {src : Nat → Voxel.SrcPt K}
    (h : SameCells c k f T points src) (m : Voxel.VoxelMap K C) (hsrc : ∀ i < points.size, points.point i = .ok (Machine.ofPt (src i).pt)) :
    (insertCloud (exactOps K) (exactScalars K) exactApply c m points T).map (mapContents f) = Voxel.insert k (mapContents f m) ((List.range points.size).map src) T := by
  have hloop : ∀ (is : List Nat) (m : Voxel.VoxelMap K C), (∀ i ∈ is, i < points.size) →
      (Machine.insertLoop (exactOps K) (exactScalars K) exactApply c T points m is).map (mapContents f) = Voxel.insertLoop k T (mapContents f m) (is.map src) := by
    intro is
    induction is with
    | nil => intro m _; rfl
    | cons i is ih =>
      intro m hlt
      have h1 := exact_insertOne h m (hlt i (by simp)) (hsrc i (hlt i (by simp))) rfl
      rw [Machine.insertLoop, List.map_cons, Voxel.insertLoop, ← h1]
      rcases Machine.insertOne (exactOps K) (exactScalars K) exactApply c T points m i with e | m1
      · rfl
      · exact ih m1 (fun j hj => hlt j (by simp [hj]))
  unfold insertCloud Voxel.insert
  rw [← hloop _ m (fun i hi => List.mem_range.1 hi)]
  rcases Machine.insertLoop (exactOps K) (exactScalars K) exactApply c T points m (List.range points.size) with e | m1
  · rfl
  · simp only [ok_bind, Except.map]
    have := exact_evict f m1
    rw [← this]
    rcases evictStale m1 with e | m2
    · rfl
    · simp only [ok_bind, Except.map]
      show Except.ok _ = Except.ok _
      congr 1
      simp only [mapContents, Voxel.finalizeAll, List.map_map]
      congr 1
      refine List.map_congr_left fun v _ => ?_
      simp only [Function.comp_apply, h.finalize]

/-- The Gaussian voxel of the earlier model. -/
def toGaussian (v : GVoxel K (Voxel.Mat4 K)) : Voxel.GaussianVoxel K := ⟨v.finalized, v.numPoints, v.mean, v.cov⟩

/-- The flat voxel of the earlier model. -/
def toFlat (v : FVoxel K (Voxel.Mat4 K)) : Voxel.FlatVoxel K := ⟨v.points, v.normals, v.covs⟩

/-- C103, relation to the earlier model: without rounding, insertion into maps of both kinds of voxels and search are those of `Model/VoxelMap.lean`. -/
theorem C103_exact (fs : Voxel.FlatSetting K) (T : Voxel.Mat4 K) {points : Cloud (Fin 4 → K) (Voxel.Mat4 K)} {src : Nat → Voxel.SrcPt K} (hp : ∀ i < points.size, points.point i = .ok (Machine.ofPt (src i).pt))
    (hn : ∀ i < points.size, points.normal i = .ok (Machine.ofPt (src i).normal)) (hc : ∀ i < points.size, points.cov i = .ok (src i).cov) (mg : Voxel.VoxelMap K (GVoxel K (Voxel.Mat4 K)))
    (mf : Voxel.VoxelMap K (FVoxel K (Voxel.Mat4 K))) (leaf maxD : K) (q : Pt K) (N nn : Int) (ind : List Nat) (dis : List K) :
    (insertCloud (exactOps K) (exactScalars K) exactApply (gaussianCells (exactOps K) exactVoxels) mg points T).map (mapContents toGaussian) = Voxel.insert Voxel.gaussianContents (mapContents toGaussian mg) ((List.range points.size).map src) T ∧
    (insertCloud (exactOps K) (exactScalars K) exactApply (flatCells (exactOps K) exactVoxels fs) mf points T).map (mapContents toFlat) = Voxel.insert (Voxel.flatContents fs) (mapContents toFlat mf) ((List.range points.size).map src) T ∧
    searchMap (exactOps K) (exactScalars K) (gaussianCells (exactOps K) (exactVoxels (K := K))) maxD mg q N nn ind dis = Voxel.search Voxel.gaussianContents maxD (mapContents toGaussian mg) q N nn ind dis ∧
    searchMap (exactOps K) (exactScalars K) (flatCells (exactOps K) (exactVoxels (K := K)) fs) maxD mf q N nn ind dis = Voxel.search (Voxel.flatContents fs) maxD (mapContents toFlat mf) q N nn ind dis ∧
    mapContents (toGaussian (K := K)) (newMap (exactOps K) (exactScalars K) leaf) = Voxel.VoxelMap.new leaf ∧ mapContents (toFlat (K := K)) (newMap (exactOps K) (exactScalars K) leaf) = Voxel.VoxelMap.new leaf := by
  have hsearch : ∀ {C W : Type} (c : Cells K (Voxel.Mat4 K) (Voxel.Mat4 K) C) (k : Voxel.Contents K W) (f : C → W) (hcs : ∀ v q tr r, c.search v q tr r = k.search (f v) q tr r) (m : Voxel.VoxelMap K C),
      searchMap (exactOps K) (exactScalars K) c maxD m q N nn ind dis = Voxel.search k maxD (mapContents f m) q N nn ind dis := by
    intro C W c k f hcs m
    have hloop : ∀ (center : Voxel.Coord) (offs : List Voxel.Coord) (r : KnnResult K), searchCells c m q center offs r = Voxel.searchOffsets k (mapContents f m) q center offs r := by
      intro center offs
      induction offs with
      | nil => intro r; rfl
      | cons off offs ih =>
        intro r
        rw [searchCells, Voxel.searchOffsets]
        rcases Voxel.addCoord center off with e | coord
        · rfl
        simp only [ok_bind]
        have htab : (mapContents f m).table = m.table := rfl
        rw [htab]
        cases Voxel.find m.table coord with
        | none => exact ih r
        | some idx =>
          simp only
          have hrd : rd (mapContents f m).flat idx = (rd m.flat idx).map (fun v => (v.1, f v.2)) := rd_mapped _ _ _
          rw [hrd]
          rcases rd m.flat idx with e | v
          · rfl
          simp only [ok_bind, Except.map, hcs]
          rcases k.search (f v.2) q (Voxel.calcIndex idx) r with e | r1
          · rfl
          · exact ih r1
    unfold searchMap Voxel.search
    rw [exact_cellOf]
    have hinv : (mapContents f m).invLeaf = m.invLeaf := rfl
    have hoffs : (mapContents f m).offsets = m.offsets := rfl
    rw [hinv, hoffs]
    simp only [hloop]
  have hg : SameCells (gaussianCells (exactOps K) exactVoxels) Voxel.gaussianContents toGaussian T points src := by
    refine ⟨rfl, fun v tp i hi => ?_, fun v => ?_⟩
    · refine ⟨v.add (exactOps K) exactVoxels T tp (src i).cov, by simp only [gaussianCells, hc i hi, ok_bind]; rfl, ?_⟩
      rcases v with ⟨fin, n, mean, cov⟩
      cases fin <;> rfl
    · rcases v with ⟨fin, n, mean, cov⟩
      cases fin <;> rfl
  have hfl : SameCells (flatCells (exactOps K) exactVoxels fs) (Voxel.flatContents fs) toFlat T points src := by
    refine ⟨rfl, fun v tp i hi => ?_, fun v => rfl⟩
    show ∃ v', FVoxel.add (exactOps K) exactVoxels fs T points v tp i = .ok v' ∧ toFlat v' = Voxel.FlatVoxel.add fs (toFlat v) tp (src i) T
    unfold FVoxel.add Voxel.FlatVoxel.add
    by_cases hcond : fs.maxNum ≤ v.points.length ∨ v.points.any (fun p => decide (Pt.sqDist (exactOps K) p tp < fs.minSqDist))
    · exact ⟨v, by rw [if_pos hcond], by rw [if_pos (show fs.maxNum ≤ (toFlat v).points.length ∨ (toFlat v).points.any (fun p => decide (Pt.sqDist (exactOps K) p tp < fs.minSqDist)) from hcond)]⟩
    · rw [if_neg hcond, if_neg (show ¬ (fs.maxNum ≤ (toFlat v).points.length ∨ (toFlat v).points.any (fun p => decide (Pt.sqDist (exactOps K) p tp < fs.minSqDist))) from hcond)]
      cases fs.hasNormals <;> cases fs.hasCovs <;> simp only [Bool.false_eq_true, if_false, if_true, hn i hi, hc i hi, ok_bind, pure, Except.pure] <;> exact ⟨_, rfl, rfl⟩
  exact ⟨exact_insertCloud hg mg hp, exact_insertCloud hfl mf hp, hsearch _ _ _ (fun v q tr r => rfl) mg,
    hsearch _ _ _ (fun v q tr r => by
      show flatSearch (exactOps K) q tr 0 v.points r = Voxel.flatSearchFrom q tr 0 v.points r
      have : ∀ (l : List (Pt K)) (i : Nat) (r : KnnResult K), flatSearch (exactOps K) q tr i l r = Voxel.flatSearchFrom q tr i l r := by
        intro l
        induction l with
        | nil => intro i r; rfl
        | cons p l ih =>
          intro i r
          rw [flatSearch, Voxel.flatSearchFrom]
          congr 1
          funext r'
          exact ih (i + 1) r'
      exact this _ _ _) mf, rfl, rfl⟩

end Exact


/-! ### rational numbers with NaN -/

section Example

open QN Verif.Machine

def qnVoxels : VoxelEval QN QN QN := ⟨fun n => num n, num 0, (· + ·), (· * ·), (· / ·), fun _ m => m, fun _ v => v⟩

/-- Two points in one cell of size 10 and one in another. -/
def qnScan : Cloud (Fin 4 → QN) QN := qnCloud [qnPoint (num 1) (num 2), qnPoint (num 3) (num 2), qnPoint (num 25) (num 0)]

def qnScanPoint : Nat → (Fin 4 → QN)
  | 0 => qnPoint (num 1) (num 2)
  | 1 => qnPoint (num 3) (num 2)
  | _ => qnPoint (num 25) (num 0)

theorem qnScan_points : ∀ i < qnScan.size, qnScan.point i = .ok (qnScanPoint i) := by
  intro i hi
  have hi : i < 3 := hi
  interval_cases i <;> rfl

theorem qnScan_normals : ∀ i < qnScan.size, qnScan.normal i = .ok ![num 1, num 0, num 0, num 0] := by
  intro i hi
  have hi : i < 3 := hi
  interval_cases i <;> rfl

theorem qnScan_covs : ∀ i < qnScan.size, qnScan.cov i = .ok (num 1) := by
  intro i hi
  have hi : i < 3 := hi
  interval_cases i <;> rfl

theorem qnScan_defined : ∀ i < qnScan.size, VoxelDefined qnOps qnScalars (num (1 / 10)) (Machine.toPt (qnEval.apply (num 0) (qnScanPoint i))) := by
  intro i hi
  have hi : i < 3 := hi
  interval_cases i
  · exact ⟨⟨0, by decide +kernel, by decide +kernel, by decide +kernel⟩, ⟨0, by decide +kernel, by decide +kernel, by decide +kernel⟩, ⟨0, by decide +kernel, by decide +kernel, by decide +kernel⟩,
      ⟨0, by decide +kernel, by decide +kernel, by decide +kernel⟩⟩
  · exact ⟨⟨0, by decide +kernel, by decide +kernel, by decide +kernel⟩, ⟨0, by decide +kernel, by decide +kernel, by decide +kernel⟩, ⟨0, by decide +kernel, by decide +kernel, by decide +kernel⟩,
      ⟨0, by decide +kernel, by decide +kernel, by decide +kernel⟩⟩
  · exact ⟨⟨2, by decide +kernel, by decide +kernel, by decide +kernel⟩, ⟨0, by decide +kernel, by decide +kernel, by decide +kernel⟩, ⟨0, by decide +kernel, by decide +kernel, by decide +kernel⟩,
      ⟨0, by decide +kernel, by decide +kernel, by decide +kernel⟩⟩

/-- The scan becomes a map of Gaussian voxels; the voxel of the first cell holds the mean of its two points. -/
theorem qn_gaussian : ∃ m, createGaussian qnOps qnScalars qnEval.apply qnVoxels (num 0) qnScan (num 10) = .ok m ∧ GaussianMap m ∧ m.flat.length ≤ 3 ∧ m.invLeaf = num (1 / 10) ∧ m.offsets = [(0, 0, 0)] ∧
    contentAt m.flat (0, 0, 0) = some (0, ⟨true, 2, ⟨num 2, num 2, num 0, num 1⟩, num 1⟩) := by
  have hinv : (newMap qnOps qnScalars (num 10) : Voxel.VoxelMap QN (GVoxel QN QN)).invLeaf = num (1 / 10) := by decide +kernel
  obtain ⟨m, h1, h2, h3, h4, -, -, h5, -, h6⟩ := (C103_gaussian qnOps qnScalars qnEval.apply qnVoxels (C103_new (M := QN) qnOps qnScalars (num 10) ⟨num 0, 0, false, false⟩).1 (by simp [newMap]) (points := qnScan) (num 0)
    qnScan_points qnScan_covs).1 (by rw [hinv]; exact qnScan_defined)
  refine ⟨m, h1, h2, h3, by rw [h4, hinv], h5, ?_⟩
  rw [h6, hinv]
  have : (List.range qnScan.size).filter (fun i => decide (voxelOf qnOps qnScalars (num (1 / 10)) (Machine.toPt (qnEval.apply (num 0) (qnScanPoint i))) = (0, 0, 0))) = [0, 1] := by decide +kernel
  rw [this]
  have hv : averaged qnOps qnVoxels (num 0) ((contentAt (newMap qnOps qnScalars (num 10) : Voxel.VoxelMap QN (GVoxel QN QN)).flat (0, 0, 0)).map Prod.snd)
      ([0, 1].map (fun i => (Machine.toPt (qnEval.apply (num 0) (qnScanPoint i)), num 1))) = ⟨true, 2, ⟨num 2, num 2, num 0, num 1⟩, num 1⟩ := by
    have e : ∀ {a b : GVoxel QN QN}, a.finalized = b.finalized → a.numPoints = b.numPoints → a.mean.x = b.mean.x → a.mean.y = b.mean.y → a.mean.z = b.mean.z → a.mean.w = b.mean.w → a.cov = b.cov → a = b := by
      rintro ⟨a1, a2, ⟨a3, a4, a5, a6⟩, a7⟩ ⟨b1, b2, ⟨b3, b4, b5, b6⟩, b7⟩ rfl rfl rfl rfl rfl rfl rfl
      rfl
    apply e <;> decide +kernel
  simp only []
  rw [hv]
  rfl

/-- The same scan in a map of flat voxels with room for one point. -/
example : ∃ m', insertCloud qnOps qnScalars qnEval.apply (flatCells qnOps qnVoxels ⟨num (1 / 2), 1, true, true⟩) (newMap qnOps qnScalars (num 10)) qnScan (num 0) = .ok m' ∧ FlatMap ⟨num (1 / 2), 1, true, true⟩ m' := by
  have hinv : (newMap qnOps qnScalars (num 10) : Voxel.VoxelMap QN (FVoxel QN QN)).invLeaf = num (1 / 10) := by decide +kernel
  obtain ⟨m', h1, h2, -⟩ := (C103_flat qnOps qnScalars qnEval.apply qnVoxels ⟨num (1 / 2), 1, true, true⟩ (C103_new (M := QN) qnOps qnScalars (num 10) _).2.1 (by simp [newMap]) (points := qnScan) (num 0)
    qnScan_points (fun _ => qnScan_normals) (fun _ => qnScan_covs)).1 (by rw [hinv]; exact qnScan_defined)
  exact ⟨m', h1, h2⟩

/-- A search for three neighbours in this map: the arrays of the caller have five entries. -/
example : ∃ m r, createGaussian qnOps qnScalars qnEval.apply qnVoxels (num 0) qnScan (num 10) = .ok m ∧
    searchMap qnOps qnScalars (gaussianCells qnOps qnVoxels) (num 1000000) m ⟨num 5, num 5, num 5, num 1⟩ (-1) 3 [7, 7, 7, 7, 7] [num 0, num 0, num 0, num 0, num 0] = .ok r ∧ r.found.length ≤ 3 ∧
    r.indices.drop 3 = [7, 7] := by
  obtain ⟨m, h1, h2, h3, h4, h5, -⟩ := qn_gaussian
  have hmap : LibraryMap qnOps qnVoxels ⟨false, true⟩ (GVoxel QN QN) (gaussianCells qnOps qnVoxels) (fun v => [v.mean]) m := .gaussian rfl h2 (by omega)
  obtain ⟨r, r1, r2, r3, r4, -⟩ := (C103_search qnScalars hmap (num 1000000) (N := -1) (nn := 3) (k := 3) rfl (by decide) (by decide) (ind := [7, 7, 7, 7, 7]) (dis := [num 0, num 0, num 0, num 0, num 0])
    (by decide) (by decide) ⟨num 5, num 5, num 5, num 1⟩).1 (by
      refine ⟨?_, ?_⟩
      · rw [h4]
        exact ⟨⟨0, by decide +kernel, by decide +kernel, by decide +kernel⟩, ⟨0, by decide +kernel, by decide +kernel, by decide +kernel⟩, ⟨0, by decide +kernel, by decide +kernel, by decide +kernel⟩,
          ⟨0, by decide +kernel, by decide +kernel, by decide +kernel⟩⟩
      · rw [h4, h5]
        intro off hoff
        obtain rfl : off = (0, 0, 0) := by simpa using hoff
        unfold CoordFits shiftCell
        decide +kernel)
  refine ⟨m, r, h1, r1, r3, ?_⟩
  rw [r4, ← List.append_assoc, List.drop_append_of_le_length (by simp; omega)]
  rw [List.drop_of_length_le (by simp; omega)]
  rfl

/-- One NaN in the source and the registration against this map is undefined, with every factor. -/
example (wt sqrt : QN → QN) (execL execE : QN → List (Machine.GICP QN) → Exec) (hexL : ∀ T fs, (execL T fs).Complete fs.length) (hexE : ∀ T fs, (execE T fs).Complete fs.length) :
    ∃ m, createGaussian qnOps qnScalars qnEval.apply qnVoxels (num 0) qnScan (num 10) = .ok m ∧
      Machine.align (Machine.robust qnEval wt sqrt (Machine.gicpFactor qnEval)) (mapWorld qnOps qnScalars (gaussianCells qnOps qnVoxels) (num 1000000) m (qnCloud [qnPoint (num 2) (num 3), qnPoint nan (num 2)]) (0, num 0)) qnConfig
        execL execE (.lm qnSetting) (num 0) 2 = .error .intOverflow := by
  obtain ⟨m, h1, h2, h3, h4, h5, -⟩ := qn_gaussian
  have hmap : LibraryMap qnOps qnVoxels ⟨false, true⟩ (GVoxel QN QN) (gaussianCells qnOps qnVoxels) (fun v => [v.mean]) m := .gaussian rfl h2 (by omega)
  have hs := qnCloud_supplied ⟨false, true⟩ [] [qnPoint (num 2) (num 3), qnPoint nan (num 2)]
  refine ⟨m, h1, (C103_align (LibraryFactor.robust wt sqrt (LibraryFactor.gicp (E := qnEval))) qnScalars hmap hs.sourcePoints (fun h => hs.sourceCovs h) (num 1000000) (0, num 0) qnConfig execL execE hexL hexE (.lm qnSetting) (num 0)).2 ?_ (by decide)⟩
  intro h
  obtain ⟨⟨⟨n, hn, -⟩, -⟩, -⟩ := h 1 (by decide) _ rfl
  cases hn

/-- Without it the call ends. -/
example (execL execE : QN → List ICP → Exec) (hexL : ∀ T fs, (execL T fs).Complete fs.length) (hexE : ∀ T fs, (execE T fs).Complete fs.length) :
    ∃ m, createGaussian qnOps qnScalars qnEval.apply qnVoxels (num 0) qnScan (num 10) = .ok m ∧ ∀ T0,
      (∃ r, Machine.align (Machine.icpFactor qnEval) (mapWorld qnOps qnScalars (gaussianCells qnOps qnVoxels) (num 1000000) m (qnCloud [qnPoint (num 2) (num 3)]) (0, num 0)) qnConfig execL execE (.lm qnSetting) T0 1 = .ok r) ∨
      Machine.align (Machine.icpFactor qnEval) (mapWorld qnOps qnScalars (gaussianCells qnOps qnVoxels) (num 1000000) m (qnCloud [qnPoint (num 2) (num 3)]) (0, num 0)) qnConfig execL execE (.lm qnSetting) T0 1 = .error .intOverflow := by
  obtain ⟨m, h1, h2, h3, h4, h5, -⟩ := qn_gaussian
  have hmap : LibraryMap qnOps qnVoxels ⟨false, false⟩ (GVoxel QN QN) (gaussianCells qnOps qnVoxels) (fun v => [v.mean]) m := .gaussian rfl h2 (by omega)
  have hs := qnCloud_supplied ⟨false, false⟩ [] [qnPoint (num 2) (num 3)]
  refine ⟨m, h1, fun T0 => ?_⟩
  rcases (C103_align (LibraryFactor.icp (E := qnEval)) qnScalars hmap hs.sourcePoints (fun h => hs.sourceCovs h) (num 1000000) (0, num 0) qnConfig execL execE hexL hexE (.lm qnSetting) T0).1 with ⟨r, fs, log, h, -⟩ | ⟨h, -⟩
  · exact .inl ⟨_, h⟩
  · exact .inr h

/-- VGICP on raw points: one NaN in the target is undefined behaviour on every number of threads. -/
example (numThreads : Int) : ∀ xt xs r, alignVgicp (d := 0) qnEnv qnEval qnVoxels (num 0) xt xs qnCast [![some 1, none, some 2]] (qnRaw [(1, 2, 3), (5, 8, 13)]) (num 1) (num 10) numThreads
      (Machine.gicpFactor qnEval) (0, num 0) qnConfig (fun _ _ => .serial) (fun _ _ => .serial) (.lm qnSetting) (num 0) = some r → r = .error .intOverflow := by
  refine (C103_vgicp (R := QN) (d := 0) qnEnv_rearranges (E := qnEval) qnVoxels (num 0) .gicp rfl qnCast (by simp) (by simp [qnRaw]) (num 1) (num 10) numThreads (0, num 0) qnConfig (fun _ _ => .serial) (fun _ _ => .serial)
    (fun _ _ => trivial) (fun _ _ => trivial) (.lm qnSetting) (num 0)).2 (fun h => ?_)
  obtain ⟨-, ⟨n, h1, -⟩, -⟩ := h ![some 1, none, some 2] (by simp)
  cases h1

/-- An empty target is no fault for VGICP: the hypotheses hold, there is an execution, and the map is empty. -/
example (numThreads : Int) : ∃ xt xs r, alignVgicp (d := 0) qnEnv qnEval qnVoxels (num 0) xt xs qnCast [] (qnRaw [(1, 2, 3)]) (num 1) (num 10) numThreads
      (Machine.gicpFactor qnEval) (0, num 0) qnConfig (fun _ _ => .serial) (fun _ _ => .serial) (.lm qnSetting) (num 0) = some r := by
  refine ((C103_vgicp (R := QN) (d := 0) qnEnv_rearranges (E := qnEval) qnVoxels (num 0) .gicp rfl qnCast (by simp) (by simp [qnRaw]) (num 1) (num 10) numThreads (0, num 0) qnConfig (fun _ _ => .serial) (fun _ _ => .serial)
    (fun _ _ => trivial) (fun _ _ => trivial) (.lm qnSetting) (num 0)).1 (fun p hp => ?_)).1
  have key : ∀ n : Nat, n < 1000 → CoordDefined qnEnv.scalars (qnEnv.ops.mul (num n) (qnEnv.ops.div qnEnv.scalars.one (num 1))) := by
    intro n hn
    have : qnEnv.ops.mul (num n) (qnEnv.ops.div qnEnv.scalars.one (num 1)) = num n := by
      show num ((n : ℚ) * (1 / 1)) = num n
      norm_num
    rw [this]
    exact qn_defined n (by omega)
  simp only [qnRaw, List.map_cons, List.map_nil, List.nil_append, List.mem_cons, List.not_mem_nil, or_false] at hp
  subst hp
  exact ⟨key 1 (by decide), key 2 (by decide), key 3 (by decide), key 1 (by decide)⟩

end Example

end Verif.Props
