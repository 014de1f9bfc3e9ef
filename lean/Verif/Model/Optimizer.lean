import Verif.Model.Reduction
import Verif.Model.Factors

/-!
Model of `include/small_gicp/registration/optimizer.hpp`, `registration_result.hpp` and `registration.hpp`. Arithmetic is exact
(`K` an ordered field); the reduction, the factor state, the linear solver, `se3_exp` and the termination test are parameters.
Verbose output is not modelled. The loops return, besides the result, a ghost record of what happened.
-/

namespace Verif.Optimizer

open Matrix Verif Verif.Factors

variable {K : Type} [Field K] [LinearOrder K]

/-- What `optimize` calls. `linearize` and `error` are those of the reduction on the current factors; `solve A r` is
`A.ldlt().solve(r)`; `exp` is `se3_exp`; `converged` is `TerminationCriteria::converged`. -/
structure Problem (F K : Type) where
  linearize : Pose K → List F → Res (List F × Sys K)
  error : Pose K → List F → Res K
  general : General K
  solve : Matrix (Fin 6) (Fin 6) K → (Fin 6 → K) → (Fin 6 → K)
  exp : (Fin 6 → K) → Pose K
  converged : (Fin 6 → K) → Bool
  inlier : F → Bool

/-- `RegistrationResult` (registration_result.hpp:11-30). -/
structure Result (K : Type) where
  T : Pose K
  converged : Bool
  iterations : Nat
  numInliers : Nat
  H : Matrix (Fin 6) (Fin 6) K
  b : Fin 6 → K
  error : K

/-- `RegistrationResult(T)` (registration_result.hpp:12-19). -/
def Result.init (T : Pose K) : Result K := ⟨T, false, 0, 0, 0, 0, 0⟩

/-- Ghost record of one outer iteration: pose and factors it linearised at, the linearised error after the general factor, the
number of error evaluations, the applied step (if any), the pose and the error afterwards. -/
structure Iteration (F K : Type) where
  T0 : Pose K
  factors : List F
  e0 : K
  evals : Nat
  step : Option (Fin 6 → K)
  T1 : Pose K
  e1 : K

/-- `(H + lambda * Identity).ldlt().solve(-b)` (optimizer.hpp:46, 109). -/
def Problem.delta {F : Type} (P : Problem F K) (lambda : K) (H : Matrix (Fin 6) (Fin 6) K) (b : Fin 6 → K) : Fin 6 → K :=
  P.solve (H + lambda • (1 : Matrix (Fin 6) (Fin 6) K)) (-b)

/-- The loop of `GaussNewtonOptimizer::optimize` (optimizer.hpp:40-58). `fuel` is the number of iterations left until
`i < max_iterations` fails. -/
def gnLoop {F : Type} (P : Problem F K) (lambda : K) : (fuel i : Nat) → Result K → List F → Res (Result K × List F × List (Iteration F K))
  | 0, _, r, fs => .ok (r, fs, [])
  | fuel + 1, i, r, fs =>
    if r.converged then .ok (r, fs, [])
    else do
      let (fs1, s) ← P.linearize r.T fs
      let (H, b, e) := P.general.updateLinearized r.T s
      let d := P.delta lambda H b
      let T1 := r.T.mul (P.exp d)
      let r1 : Result K := { r with converged := P.converged d, T := T1, iterations := i, H := H, b := b, error := e }
      let (r2, fs2, log) ← gnLoop P lambda fuel (i + 1) r1 fs1
      .ok (r2, fs2, ⟨r.T, fs1, e, 0, some d, T1, e⟩ :: log)

/-- `num_inliers` (optimizer.hpp:60, 146). -/
def countInliers {F : Type} (P : Problem F K) (r : Result K) (fs : List F) : Result K := { r with numInliers := fs.countP P.inlier }

/-- `GaussNewtonOptimizer::optimize` (optimizer.hpp:24-63). A non-positive `max_iterations` makes no iteration. -/
def gaussNewton {F : Type} (P : Problem F K) (lambda : K) (maxIterations : Int) (T0 : Pose K) (fs : List F) : Res (Result K × List F × List (Iteration F K)) := do
  let (r, fs', log) ← gnLoop P lambda maxIterations.toNat 0 (Result.init T0) fs
  .ok (countInliers P r fs', fs', log)

/-- Result of the lambda loop. -/
structure Inner (K : Type) where
  lambda : K
  e : K
  evals : Nat
  accepted : Option ((Fin 6 → K) × Pose K)

/-- The lambda loop of `LevenbergMarquardtOptimizer::optimize` (optimizer.hpp:107-134). The reference error `e` is handed to
`update_error`, as in the code. A zero `lambda_factor` makes the exact quotient meaningless; no theorem depends on that value. -/
def lmInner {F : Type} (P : Problem F K) (factor : K) (T : Pose K) (fs : List F) (H : Matrix (Fin 6) (Fin 6) K) (b : Fin 6 → K) :
    (fuel : Nat) → (lambda e : K) → Res (Inner K)
  | 0, lambda, e => .ok ⟨lambda, e, 0, none⟩
  | fuel + 1, lambda, e => do
    let d := P.delta lambda H b
    let newT := T.mul (P.exp d)
    let newE ← P.error newT fs
    let e' := P.general.updateError newT e
    if newE ≤ e' then .ok ⟨lambda / factor, newE, 1, some (d, newT)⟩
    else do
      let r ← lmInner P factor T fs H b fuel (lambda * factor) e'
      .ok { r with evals := r.evals + 1 }

/-- The outer loop (optimizer.hpp:100-144). -/
def lmLoop {F : Type} (P : Problem F K) (factor : K) (maxInner : Nat) :
    (fuel i : Nat) → (lambda : K) → Result K → List F → Res (Result K × List F × List (Iteration F K))
  | 0, _, _, r, fs => .ok (r, fs, [])
  | fuel + 1, i, lambda, r, fs =>
    if r.converged then .ok (r, fs, [])
    else do
      let (fs1, s) ← P.linearize r.T fs
      let (H, b, e) := P.general.updateLinearized r.T s
      let inner ← lmInner P factor r.T fs1 H b maxInner lambda e
      match inner.accepted with
      | none =>
        let r1 : Result K := { r with iterations := i, H := H, b := b, error := inner.e }
        .ok (r1, fs1, [⟨r.T, fs1, e, inner.evals, none, r.T, inner.e⟩])
      | some (d, newT) =>
        let r1 : Result K := { r with converged := P.converged d, T := newT, iterations := i, H := H, b := b, error := inner.e }
        let (r2, fs2, log) ← lmLoop P factor maxInner fuel (i + 1) inner.lambda r1 fs1
        .ok (r2, fs2, ⟨r.T, fs1, e, inner.evals, some d, newT, inner.e⟩ :: log)

/-- Settings of `LevenbergMarquardtOptimizer` (optimizer.hpp:72, 151-155). -/
structure LMSetting (K : Type) where
  maxIterations : Int
  maxInner : Int
  initLambda : K
  lambdaFactor : K

/-- `LevenbergMarquardtOptimizer::optimize` (optimizer.hpp:83-149). -/
def levenbergMarquardt {F : Type} (P : Problem F K) (st : LMSetting K) (T0 : Pose K) (fs : List F) : Res (Result K × List F × List (Iteration F K)) := do
  let (r, fs', log) ← lmLoop P st.lambdaFactor st.maxInner.toNat st.maxIterations.toNat 0 st.initLambda (Result.init T0) fs
  .ok (countInliers P r fs', fs', log)

/-! ### Registration::align -/

/-- The optimisation problem of `Registration<PointFactor, SerialReduction, ...>`: the reduction on a scene. -/
def registrationProblem {F : Type} (pf : PointFactor F K) (sc : Scene K) (rej : Rejector K) (general : General K)
    (solve : Matrix (Fin 6) (Fin 6) K → (Fin 6 → K) → (Fin 6 → K)) (exp : (Fin 6 → K) → Pose K) (converged : (Fin 6 → K) → Bool) : Problem F K :=
  ⟨fun T fs => Verif.Reduction.serialLinearize (pf.linearize sc rej T) fs, fun T fs => Verif.Reduction.serialError (pf.error sc T) fs,
   general, solve, exp, converged, pf.inlier⟩

/-- `Registration::align` with the LM optimiser (registration.hpp:33-43): one factor per source point. -/
def alignLM {F : Type} (pf : PointFactor F K) (P : Problem F K) (st : LMSetting K) (T0 : Pose K) (sourceSize : Nat) :
    Res (Result K × List F × List (Iteration F K)) :=
  levenbergMarquardt P st T0 (List.replicate sourceSize pf.init)

/-- `Registration::align` with the Gauss-Newton optimiser. -/
def alignGN {F : Type} (pf : PointFactor F K) (P : Problem F K) (lambda : K) (maxIterations : Int) (T0 : Pose K) (sourceSize : Nat) :
    Res (Result K × List F × List (Iteration F K)) :=
  gaussNewton P lambda maxIterations T0 (List.replicate sourceSize pf.init)

end Verif.Optimizer
