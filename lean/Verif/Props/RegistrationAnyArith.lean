import Verif.Props.NanSource

/-!
C100: building the kd-tree and registration do not fault, whatever the arithmetic: overflow, infinities, NaN, and rounding in any way. Only memory accesses matter.
-/

set_option linter.unusedSectionVars false
set_option linter.unusedSimpArgs false
set_option linter.unnecessarySeqFocus false

namespace Verif.Spec

open Verif Verif.Factors Verif.Machine

/-- The factors of `n` source points: the factor at position `i` belongs to source point `i`, and its target is one of `m` points or none (the largest `size_t`). -/
def ValidFactors {F V P H B M : Type} (mf : Machine.Factor F V P H B M) (n m : Nat) (fs : List F) : Prop :=
  fs.length = n ∧ ∀ (i : Nat) (f : F), fs[i]? = some f → mf.source f = i ∧ (mf.target f = 2 ^ 64 - 1 ∨ mf.target f < m)

end Verif.Spec

namespace Verif.Props

open Verif Verif.Knn Verif.KdTree Verif.Proofs Verif.Proofs.RegMem Verif.Factors Verif.Reduction Verif.PointCloud Verif.RegMem Verif.Spec

section Loops

variable {F V P H B D : Type} [Zero V] [Add V] [Mul V] [Div V] [LE V] [DecidableLE V] [Zero H] [Add H] [Zero B] [Add B]

/-- Linearisations succeed on factors with `I` and leave factors with `J`, on which errors can be evaluated. -/
structure Runs (p : Machine.Problem F V P H B D) (I J : List F → Prop) : Prop where
  lin : ∀ T fs, I fs → ∃ fs' s, p.linearize T fs = .ok (fs', s) ∧ J fs'
  err : ∀ T fs, J fs → ∃ e, p.error T fs = .ok e
  again : ∀ fs, J fs → I fs

variable {p : Machine.Problem F V P H B D} {I J : List F → Prop}

theorem runs_inner (h : Runs p I J) (factor : V) (T : P) {fs : List F} (hfs : J fs) (A : H) (b : B) : ∀ (fuel : Nat) (lambda e : V), ∃ r, Machine.lmInner p factor T fs A b fuel lambda e = .ok r
  | 0, lambda, e => ⟨_, rfl⟩
  | fuel + 1, lambda, e => by
    obtain ⟨newE, he⟩ := h.err (p.step T (p.delta lambda A b)) fs hfs
    simp only [Machine.lmInner, he, bind, Except.bind]
    split
    · exact ⟨_, rfl⟩
    · obtain ⟨r, hr⟩ := runs_inner h factor T hfs A b fuel (lambda * factor) (p.updateError (p.step T (p.delta lambda A b)) e)
      rw [hr]
      exact ⟨_, rfl⟩

theorem runs_lm (h : Runs p I J) (factor : V) (maxInner : Nat) : ∀ (fuel i : Nat) (lambda : V) (r0 : Machine.Result V P H B) (fs0 : List F), I fs0 →
    ∃ r fs log, Machine.lmLoop p factor maxInner fuel i lambda r0 fs0 = .ok (r, fs, log) ∧ I fs ∧ (∀ it ∈ log, J it.factors) ∧ log.length ≤ fuel
  | 0, i, lambda, r0, fs0, h0 => ⟨r0, fs0, [], rfl, h0, by simp, le_refl _⟩
  | fuel + 1, i, lambda, r0, fs0, h0 => by
    rcases hc : r0.converged with _ | _
    · obtain ⟨fs1, s, hl, h1⟩ := h.lin r0.T fs0 h0
      rcases hs : p.updateLinearized r0.T s with ⟨A, b, e⟩
      obtain ⟨inner, hi⟩ := runs_inner h factor r0.T h1 A b maxInner lambda e
      simp only [Machine.lmLoop, hc, Bool.false_eq_true, if_false, hl, hs, hi, bind, Except.bind]
      rcases ha : inner.accepted with _ | ⟨d, newT⟩
      · exact ⟨_, _, _, rfl, h.again _ h1, by simpa using h1, by simp⟩
      · obtain ⟨r, fs, log, g1, g2, g3, g4⟩ := runs_lm h factor maxInner fuel (i + 1) inner.lambda
          { r0 with converged := p.converged d, T := newT, iterations := i, H := A, b := b, error := inner.e } fs1 (h.again _ h1)
        simp only [g1]
        exact ⟨_, _, _, rfl, g2, by simpa using ⟨h1, g3⟩, by simpa using g4⟩
    · exact ⟨r0, fs0, [], by simp [Machine.lmLoop, hc], h0, by simp, Nat.zero_le _⟩

theorem runs_gn (h : Runs p I J) (lambda : V) : ∀ (fuel i : Nat) (r0 : Machine.Result V P H B) (fs0 : List F), I fs0 →
    ∃ r fs log, Machine.gnLoop p lambda fuel i r0 fs0 = .ok (r, fs, log) ∧ I fs ∧ (∀ it ∈ log, J it.factors) ∧ log.length ≤ fuel
  | 0, i, r0, fs0, h0 => ⟨r0, fs0, [], rfl, h0, by simp, le_refl _⟩
  | fuel + 1, i, r0, fs0, h0 => by
    rcases hc : r0.converged with _ | _
    · obtain ⟨fs1, s, hl, h1⟩ := h.lin r0.T fs0 h0
      rcases hs : p.updateLinearized r0.T s with ⟨A, b, e⟩
      simp only [Machine.gnLoop, hc, Bool.false_eq_true, if_false, hl, hs, bind, Except.bind]
      obtain ⟨r, fs, log, g1, g2, g3, g4⟩ := runs_gn h lambda fuel (i + 1)
        { r0 with converged := p.converged (p.delta lambda A b), T := p.step r0.T (p.delta lambda A b), iterations := i, H := A, b := b, error := e } fs1 (h.again _ h1)
      simp only [g1]
      exact ⟨_, _, _, rfl, g2, by simpa using ⟨h1, g3⟩, by simpa using g4⟩
    · exact ⟨r0, fs0, [], by simp [Machine.gnLoop, hc], h0, by simp, Nat.zero_le _⟩

/-- The iteration budget of an optimiser. -/
def budget : Machine.Method V → Nat
  | .lm st => st.maxIterations.toNat
  | .gn _ m => m.toNat

theorem runs_method (h : Runs p I J) (meth : Machine.Method V) (T0 : P) {fs0 : List F} (h0 : I fs0) :
    ∃ r fs log, meth.run p T0 fs0 = .ok (r, fs, log) ∧ I fs ∧ (∀ it ∈ log, J it.factors) ∧ log.length ≤ budget meth ∧ r.numInliers = fs.countP p.inlier := by
  cases meth with
  | lm st =>
    obtain ⟨r, fs, log, g1, g2, g3, g4⟩ := runs_lm h st.lambdaFactor st.maxInner.toNat st.maxIterations.toNat 0 st.initLambda (Machine.Result.init T0) fs0 h0
    refine ⟨Machine.countInliers p r fs, fs, log, ?_, g2, g3, g4, rfl⟩
    simp only [Machine.Method.run, Machine.levenbergMarquardt, g1, bind, Except.bind]
  | gn lambda m =>
    obtain ⟨r, fs, log, g1, g2, g3, g4⟩ := runs_gn h lambda m.toNat 0 (Machine.Result.init T0) fs0 h0
    refine ⟨Machine.countInliers p r fs, fs, log, ?_, g2, g3, g4, rfl⟩
    simp only [Machine.Method.run, Machine.gaussNewton, g1, bind, Except.bind]

end Loops

section Main

variable {V P H B M D : Type} [Zero V] [Add V] [Sub V] [Mul V] [Div V] [LE V] [DecidableLE V] [LT V] [DecidableLT V] [Zero H] [Add H] [Zero B] [Add B] {E : Machine.Eval V P H B M}

/-- C100. Whatever the arithmetic does, building the kd-tree of the target and registering with any factor, robust kernel, rejector, general factor, optimiser and reduction of the library does not fault:
no access is out of range and nothing uninitialised is read. The number of iterations stays in the budget, every factor belongs to its source point and has a target point of the cloud or none. -/
theorem C100_no_fault {F : Type} {needs : Needs} {mf : Machine.Factor F V P H B M} (hf : LibraryFactor E F needs mf) {target source : Cloud (Fin 4 → V) M} (hs : Supplied needs target source)
    (hne : 0 < target.size) (hN : target.size < 2 ^ 32)
    (b : Builder V) (hnth : ∀ l n, (b.nthElement l n).Perm l) (hfind : FindAxisSpec (fun _ => True) b.findAxis) (hm : SafeLeafSize b.maxLeafSize)
    {fuelB fuel : Nat} (hfB : target.size < fuelB) (hfuel : target.size ≤ fuel) :
    ∃ points t, Machine.cloudPoints target = .ok points ∧ KdTree.construct E.ops b fuelB points = .ok t ∧
      ∀ (maxD : V) (junk : Nat × V) (cfg : Machine.Config V P H B D) (execL execE : P → List F → Exec), (∀ T fs, (execL T fs).Complete fs.length) → (∀ T fs, (execE T fs).Complete fs.length) →
        ∀ (meth : Machine.Method V) (T0 : P), ∃ r fs log,
          Machine.align mf (Machine.cloudWorld target source (Machine.kdNearest E maxD points t fuel junk)) cfg execL execE meth T0 source.size = .ok (r, fs, log) ∧
          log.length ≤ budget meth ∧ (∀ it ∈ log, ValidFactors mf source.size target.size it.factors) ∧ fs.length = source.size ∧ r.numInliers = fs.countP mf.inlier ∧ r.numInliers ≤ source.size := by
  obtain ⟨pts, hp1, hp2⟩ := machine_cloudPoints target hs.targetPoints
  have hsz : target.size = pts.length := hp2.symm
  rw [hsz] at hne hN hfB hfuel
  obtain ⟨t, kt, c1, c2, c3, c4, c5, c6, c7, -⟩ := construct_shape E.ops b pts (List.ne_nil_of_length_pos hne) hN hnth hfind hm fuelB hfB
  have hbuilt : Built E pts t fuel := ⟨kt, c2, c3, c4, fun j hj => List.mem_range.1 (c5.mem_iff.1 hj), c6, by omega⟩
  obtain ⟨last, hlast⟩ : ∃ k, t.indices.getLast? = some k := by
    rw [c4]
    have : kt.items ≠ [] := by
      intro h
      have := c5.length_eq
      rw [h] at this
      simp at this
      omega
    exact ⟨_, List.getLast?_eq_some_getLast this⟩
  refine ⟨pts, t, hp1, c1, ?_⟩
  intro maxD junk cfg execL execE hexL hexE meth T0
  have hbeh := factor_behaves (nan := False) False.elim hf hs hp2 hN hbuilt maxD junk (rej := cfg.rejector) False.elim hlast
  let w := Machine.cloudWorld target source (Machine.kdNearest E maxD pts t fuel junk)
  have hruns : Runs (Machine.problem mf w cfg execL execE) (fun fs => fs.length = source.size) (ValidFactors mf source.size target.size) := by
    refine ⟨fun T fs hl => ?_, fun T fs hv => ?_, fun fs hv => hv.1⟩
    · obtain ⟨fs1, s, r1, r2, r3, -⟩ := reduce_inherits (mf.linearize w cfg.rejector T) fs
        (fun j f hj => by
          rw [hl] at hj
          obtain ⟨f', o, h, -⟩ := hbeh.lin T j f hj
          exact ⟨_, h⟩) (execL T fs) (hexL _ _) (fun _ => False) (by simp)
      refine ⟨fs1, s, r1, by rw [r2, hl], ?_⟩
      intro i f hi
      have hi' : i < fs.length := by rw [← r2]; exact (List.getElem?_eq_some_iff.1 hi).1
      obtain ⟨r, hr, hr'⟩ := r3 i _ (List.getElem?_eq_getElem hi')
      obtain ⟨f', o, q1, q2, q3, -⟩ := hbeh.lin T i fs[i] (by rw [hl] at hi'; exact hi')
      have hr0 : mf.linearize w cfg.rejector T i fs[i] = .ok r := hr
      have q0 : mf.linearize w cfg.rejector T i fs[i] = .ok (f', o) := q1
      rw [q0] at hr0
      cases hr0
      rw [hi] at hr'
      cases hr'
      exact ⟨q2, q3⟩
    · refine reduceError_exists fs (fun f hfm => ?_) (execE T fs) (hexE T fs)
      obtain ⟨j, hj, rfl⟩ := List.mem_iff_getElem.1 hfm
      obtain ⟨v1, v2⟩ := hv.2 j _ (List.getElem?_eq_getElem hj)
      exact hbeh.err T _ (by rw [v1, ← show source.size = source.points.length from rfl, ← hv.1]; exact hj) v2
  obtain ⟨r, fs, log, g1, g2, g3, g4, g5⟩ := runs_method hruns meth T0 (fs0 := List.replicate source.size mf.init) (by simp)
  refine ⟨r, fs, log, g1, g4, g3, g2, g5, ?_⟩
  rw [g5, ← g2]
  exact List.countP_le_length

/-- Both projections of the library find an axis, whatever the arithmetic. -/
theorem C100_projections (m : Int) (hm : toU64 m ≠ 0) (solve : List (Pt V) → V × V × V) :
    FindAxisSpec (fun _ => True) (findAxis E.ops m) ∧ FindAxisSpec (fun _ => True) (findNormal solve m) := by
  refine ⟨?_, findNormal_spec _ solve (fun _ => trivial) m hm⟩
  intro points range hne hv
  obtain ⟨pts, h, -⟩ := scanPoints_ok points range m hm hne hv
  unfold findAxis
  rw [h]
  exact ⟨_, rfl, trivial⟩

end Main

/-- NaN in the target, in the source and in the initial guess, with generalised ICP, a robust kernel, the default projection and Gauss-Newton. -/
example (wt sqrt : QN → QN) : ∃ points t, Machine.cloudPoints (qnCloud [qnPoint (.num 1) .nan, qnPoint (.num 2) (.num 0)]) = .ok points ∧
    KdTree.construct qnOps ⟨20, findAxis qnOps 128, fun l _ => l⟩ 3 points = .ok t ∧ ∃ r fs log,
      Machine.align (Machine.robust qnEval wt sqrt (Machine.gicpFactor qnEval)) (Machine.cloudWorld (qnCloud [qnPoint (.num 1) .nan, qnPoint (.num 2) (.num 0)]) (qnSource [qnPoint .nan .nan])
        (Machine.kdNearest qnEval (.num 1000000) points t 3 (0, .num 0))) qnConfig (fun _ _ => .serial) (fun _ _ => .serial) (.gn (.num 0) 5) .nan 4 = .ok (r, fs, log) ∧ log.length ≤ 5 := by
  obtain ⟨points, t, h1, h2, h3⟩ := C100_no_fault (D := QN) (E := qnEval) (.robust wt sqrt .gicp) (target := qnCloud [qnPoint (.num 1) .nan, qnPoint (.num 2) (.num 0)])
    (source := qnSource [qnPoint .nan .nan]) (qnCloud_supplied _ _ _) (by decide) (by decide) ⟨20, findAxis qnOps 128, fun l _ => l⟩ (fun _ _ => List.Perm.refl _)
    (C100_projections (E := qnEval) 128 (by decide) (fun _ => (.nan, .nan, .nan))).1 (by unfold SafeLeafSize toU64; decide) (fuelB := 3) (fuel := 3) (by decide) (by decide)
  obtain ⟨r, fs, log, h4, h5, -⟩ := h3 (.num 1000000) (0, .num 0) qnConfig (fun _ _ => .serial) (fun _ _ => .serial) (fun _ _ => trivial) (fun _ _ => trivial) (.gn (.num 0) 5) .nan
  exact ⟨points, t, h1, h2, r, fs, log, h4, h5⟩

end Verif.Props
