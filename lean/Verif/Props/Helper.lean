import Verif.Spec.Helper
import Verif.Props.Optimizer

/-! C45: the helper library and the Python `align` functions honour the registration settings. -/

set_option linter.unusedSectionVars false
set_option linter.unusedSimpArgs false

namespace Verif.Props

open Matrix Verif Verif.Proofs Verif.Factors Verif.Spec Verif.Reduction Verif.Optimizer Verif.Lie Verif.Helper

/-- For the three cloud methods `align` on clouds honours every setting; VGICP is refused (see `C45_identity_violated`) and an invalid
type aborts. -/
theorem C45_cloud_partial (s : Setting) (T0 : Pose ℝ) :
    ((s.type = .icp ∨ s.type = .planeIcp ∨ s.type = .gicp) → Honours s T0 (alignCloud T0 s)) ∧
    (∀ n, s.type = .other n → alignCloud T0 s = .abort) := by
  refine ⟨fun h => ?_, fun n h => by simp [alignCloud, h]⟩
  rcases h with h | h | h <;> simp only [alignCloud, h] <;>
    exact ⟨_, _, _, rfl, ⟨by simp [methodOf, Registration.default, h], by simp [h], rfl, rfl, (pow_two _).symm, rfl, rfl, rfl, rfl, rfl, rfl, rfl⟩⟩

/-- `align` on a voxel map honours a VGICP setting if the requested correspondence distance is the default 1; in general it honours
the setting with the distance replaced by 1. -/
theorem C45_voxelmap_partial (s : Setting) (T0 : Pose ℝ) (ht : s.type = .vgicp) :
    Honours { s with maxCorrespondenceDistance := 1 } T0 (alignVoxelmap T0 s) ∧
    (Honours s T0 (alignVoxelmap T0 s) ↔ s.maxCorrespondenceDistance ^ 2 = 1) := by
  refine ⟨⟨_, _, _, rfl, ⟨by simp [methodOf, Registration.default, ht], by simp [ht], rfl, rfl, by simp [Registration.default], rfl, rfl, rfl, rfl, rfl, rfl, rfl⟩⟩, ?_⟩
  constructor
  · rintro ⟨r, t, T, he, h⟩
    unfold alignVoxelmap at he
    simp only [Outcome.run.injEq] at he
    obtain ⟨rfl, -, -⟩ := he
    exact h.distance.symm
  · intro h
    exact ⟨_, _, _, rfl, ⟨by simp [methodOf, Registration.default, ht], by simp [ht], rfl, rfl, by rw [h]; rfl, rfl, rfl, rfl, rfl, rfl, rfl, rfl⟩⟩

/-- The preprocessing uses the requested resolution and number of neighbours throughout, estimates features on the requested number of
threads, and downsamples on the requested number of threads if that is 1 or 4. -/
theorem C45_preprocess_partial (res : ℝ) (k threads : Int) :
    (∃ t, preprocess res k threads = [.downsample res t, .tree, .features k threads]) ∧
    (threads = 1 ∨ threads = 4 → preprocess res k threads = [.downsample res threads, .tree, .features k threads]) := by
  unfold preprocess
  refine ⟨?_, ?_⟩
  · split
    · rename_i h; exact ⟨1, by rw [h]⟩
    · exact ⟨_, rfl⟩
  · rintro (rfl | rfl) <;> rfl

/-- Any other requested number of threads is not used for the downsampling. -/
theorem C45_threads_violated (res : ℝ) (k threads : Int) (h1 : threads ≠ 1) (h4 : threads ≠ 4) :
    Step.downsample res threads ∉ preprocess res k threads := by
  unfold preprocess defaultDownsamplingThreads
  rw [if_neg h1]
  simp [h4]

/-- `align` on vectors of points: both clouds are preprocessed with the requested resolution, VGICP builds a voxel map of the requested
resolution, and the registration honours the settings except for the distance of VGICP. -/
theorem C45_points_partial (s : Setting) (T0 : Pose ℝ) (ht : ∀ n, s.type ≠ .other n) :
    (∀ st ∈ (alignPoints T0 s).1, ∀ l t, st = .downsample l t → l = s.downsamplingResolution) ∧
    (∀ st ∈ (alignPoints T0 s).1, ∀ k t, st = .features k t → k = 10 ∧ t = s.numThreads) ∧
    ((∃ l, Step.voxelmap l ∈ (alignPoints T0 s).1) ↔ s.type = .vgicp) ∧
    (∀ l, Step.voxelmap l ∈ (alignPoints T0 s).1 → l = s.voxelResolution) ∧
    (s.type ≠ .vgicp → Honours s T0 (alignPoints T0 s).2) ∧
    (s.type = .vgicp → Honours { s with maxCorrespondenceDistance := 1 } T0 (alignPoints T0 s).2) := by
  obtain ⟨t, hp⟩ := (C45_preprocess_partial s.downsamplingResolution 10 s.numThreads).1
  by_cases hv : s.type = .vgicp
  · simp only [alignPoints, if_pos hv, hp]
    refine ⟨?_, ?_, ?_, ?_, fun h => absurd hv h, fun _ => (C45_voxelmap_partial s T0 hv).1⟩
    · rintro st h l t' rfl; simp at h; exact h.1
    · rintro st h l t' rfl; simp at h; exact h
    · simp [hv]
    · intro l h; simpa using h
  · simp only [alignPoints, if_neg hv, hp]
    refine ⟨?_, ?_, ?_, ?_, fun _ => (C45_cloud_partial s T0).1 ?_, fun h => absurd h hv⟩
    · rintro st h l t' rfl; simp at h; exact h.1
    · rintro st h l t' rfl; simp at h; exact h
    · simp [hv]
    · intro l h; simp at h
    · cases h : s.type with
      | other n => exact absurd h (ht n)
      | vgicp => exact absurd h hv
      | _ => simp

/-- The registration names of the Python interface. -/
def pyName : RegType → Option String
  | .icp => some "ICP"
  | .planeIcp => some "PLANE_ICP"
  | .gicp => some "GICP"
  | .vgicp => some "VGICP"
  | .other _ => none

theorem parse_name (b : Bool) (t : RegType) (name : String) :
    parseType b name = some t ↔ pyName t = some name ∧ (t = .vgicp → b = true) := by
  have h1 : ∀ {a b : String}, decide (a = b) = false → a ≠ b := fun h => of_decide_eq_false h
  unfold parseType
  by_cases h : name = "ICP"
  · subst h; cases t <;> simp [pyName]
  rw [if_neg h]
  by_cases h2 : name = "PLANE_ICP"
  · subst h2; cases t <;> simp [pyName]
  rw [if_neg h2]
  by_cases h3 : name = "GICP"
  · subst h3; cases t <;> simp [pyName]
  rw [if_neg h3]
  by_cases h4 : name = "VGICP"
  · subst h4; cases t <;> cases b <;> simp [pyName]
  · rw [if_neg (fun h => h4 h.2)]
    cases t <;> simp [pyName, Ne.symm h, Ne.symm h2, Ne.symm h3, Ne.symm h4]

/-- The Python functions: a known name selects the method it stands for and every argument reaches the registration (for the voxel map
also the correspondence distance); an unknown name or a matrix of the wrong width yields the identity and nothing is run. -/
theorem C45_python (T0 : Pose ℝ) (s : Setting) (name : String) (tcols scols : Nat) :
    (∀ t, pyName t = some name → t ≠ .vgicp → Honours { s with type := t } T0 (pyAlignCloud T0 name s)) ∧
    ((∀ t, pyName t = some name → t = .vgicp) → pyAlignCloud T0 name s = .identity) ∧
    (∀ t, pyName t = some name → (tcols = 3 ∨ tcols = 4) → (scols = 3 ∨ scols = 4) → pyAlignPoints tcols scols T0 name s = alignPoints T0 { s with type := t }) ∧
    ((∀ t, pyName t ≠ some name) ∨ ¬ (tcols = 3 ∨ tcols = 4) ∨ ¬ (scols = 3 ∨ scols = 4) → pyAlignPoints tcols scols T0 name s = ([], .identity)) ∧
    Honours { s with type := .vgicp } T0 (pyAlignVoxelmap T0 s) := by
  refine ⟨fun t hn hv => ?_, fun h => ?_, fun t hn ht hs => ?_, fun h => ?_, ?_⟩
  · have hp := (parse_name false t name).2 ⟨hn, fun h => absurd h hv⟩
    unfold pyAlignCloud
    rw [hp]
    cases t with
    | other n => simp [pyName] at hn
    | vgicp => exact absurd rfl hv
    | _ =>
      simp only [alignCloud]
      exact ⟨_, _, _, rfl, ⟨rfl, by simp, rfl, rfl, (pow_two _).symm, rfl, rfl, rfl, rfl, rfl, rfl, rfl⟩⟩
  · unfold pyAlignCloud
    cases hp : parseType false name with
    | none => rfl
    | some t =>
      obtain ⟨hn, hv⟩ := (parse_name _ _ _).1 hp
      exact absurd (hv (h t hn)) (by simp)
  · unfold pyAlignPoints
    rw [if_neg (by omega), if_neg (by omega), (parse_name true t name).2 ⟨hn, fun _ => rfl⟩]
  · unfold pyAlignPoints
    split
    · rfl
    · split
      · rfl
      · rcases h with h | h | h
        · cases hp : parseType true name with
          | none => rfl
          | some t => exact absurd ((parse_name _ _ _).1 hp).1 (h t)
        · omega
        · omega
  · exact ⟨_, _, _, rfl, ⟨rfl, by simp, rfl, rfl, (pow_two _).symm, rfl, rfl, rfl, rfl, rfl, rfl, rfl⟩⟩

/-! ### effect of an honoured setting -/

/-- What a caller sees of a run: it linearises at a sequence of poses starting at the initial guess. -/
structure Effect (s : Setting) (T0 : Pose ℝ) (sc : Scene ℝ) (n : Nat) (r : Result ℝ) (poses : List (Pose ℝ)) : Prop where
  start : ∀ T, poses.head? = some T → T = T0
  budget : poses.length ≤ s.maxIterations.toNat
  nonempty : 0 < s.maxIterations → poses ≠ []
  inliers : ∀ T, poses.getLast? = some T → r.numInliers = (List.range n).countP (gated sc (s.maxCorrespondenceDistance ^ 2) T)
  stop : r.converged = true → ∃ T d, poses.getLast? = some T ∧ r.T = T.mul (se3Exp d) ∧
    Real.sqrt (d 0 ^ 2 + d 1 ^ 2 + d 2 ^ 2) ≤ s.rotationEps ∧ Real.sqrt (d 3 ^ 2 + d 4 ^ 2 + d 5 ^ 2) ≤ s.translationEps

theorem run_effect {F : Type} {pf : PointFactor F ℝ} (hpf : Shipped pf) (s : Setting) (T0 : Pose ℝ) (sc : Scene ℝ) (hn : SearchIndices sc) (n : Nat)
    (solve : Matrix (Fin 6) (Fin 6) ℝ → (Fin 6 → ℝ) → (Fin 6 → ℝ)) (st : LMSetting ℝ) (hst : st.maxIterations = s.maxIterations) :
    ∃ r poses, (alignLM pf (registrationProblem pf sc (distanceRejector (s.maxCorrespondenceDistance ^ 2)) nullFactor solve se3Exp
      (converged s.rotationEps s.translationEps)) st T0 n).map Prod.fst = .ok r ∧ Effect s T0 sc n r poses := by
  obtain ⟨⟨r0, fs', log⟩, hrun⟩ := lmLoop_total (P := registrationProblem pf sc (distanceRejector (s.maxCorrespondenceDistance ^ 2)) nullFactor solve se3Exp (converged s.rotationEps s.translationEps))
    (fun T fs => ⟨_, serial_ok _ fs⟩) (fun T fs => ⟨_, serialError_ok _ fs⟩) (factor := st.lambdaFactor) (maxInner := st.maxInner.toNat)
    (fuel := st.maxIterations.toNat) (i := 0) (lambda := st.initLambda) (r := Result.init T0) (fs := List.replicate n pf.init)
  have h : alignLM pf (registrationProblem pf sc (distanceRejector (s.maxCorrespondenceDistance ^ 2)) nullFactor solve se3Exp (converged s.rotationEps s.translationEps)) st T0 n =
      .ok (countInliers (registrationProblem pf sc (distanceRejector (s.maxCorrespondenceDistance ^ 2)) nullFactor solve se3Exp (converged s.rotationEps s.translationEps)) r0 fs', fs', log) := by
    unfold alignLM levenbergMarquardt
    rw [hrun, ok_bind]
  refine ⟨_, log.map Iteration.T0, by rw [h]; rfl, ?_⟩
  obtain ⟨g1, g2, -⟩ := C39_genuine solve se3Exp s.rotationEps s.translationEps _ _ _ _ T0 _ fs' _ log (.inl ⟨st, h⟩)
  obtain ⟨b1, -, -, b4⟩ := C39_budget _ st T0 _ fs' _ log h
  have hchain := (C38_descent_partial _ noOwnError_null (consistent_registration hpf sc hn _ nullFactor solve se3Exp _) st T0 _ fs' _ log h).1
  refine ⟨?_, by rw [List.length_map, ← hst]; exact b1, ?_, ?_, ?_⟩
  · intro T hT
    rw [List.head?_map] at hT
    obtain ⟨a, ha, rfl⟩ := Option.map_eq_some_iff.1 hT
    exact hchain.start a ha
  · intro hpos he
    have hl : log = [] := List.map_eq_nil_iff.1 he
    subst hl
    rcases b4 (by simp only [List.length_nil]; omega) with hc | ⟨it, hi, -⟩
    · obtain ⟨it, d, hi, -⟩ := g1.1 hc
      cases hi
    · cases hi
  · intro T hT
    rw [List.getLast?_map] at hT
    obtain ⟨a, ha, rfl⟩ := Option.map_eq_some_iff.1 hT
    exact C31_result hpf sc hn _ nullFactor solve se3Exp _ T0 n _ fs' log (.inl ⟨st, h⟩) a ha
  · intro hc
    obtain ⟨it, d, hi, hd, h1, h2⟩ := g1.1 hc
    exact ⟨it.T0, d, by rw [List.getLast?_map, hi]; rfl, g2 it d hi hd, h1, h2⟩

/-- A call that honours the settings runs to completion and behaves as they say: it starts at the given pose, linearises at most
`max_iterations` times, its inliers are the source points with a neighbour within `max_correspondence_distance`, and it reports
convergence only after a step within both thresholds. -/
theorem C45_effect (inv : Matrix (Fin 3) (Fin 3) ℝ → Matrix (Fin 3) (Fin 3) ℝ) (solve : Matrix (Fin 6) (Fin 6) ℝ → (Fin 6 → ℝ) → (Fin 6 → ℝ))
    (sc : Scene ℝ) (hn : SearchIndices sc) (n : Nat) (s : Setting) (T0 : Pose ℝ) (o : Outcome) (ho : Honours s T0 o) :
    ∃ r poses, execute inv solve sc n o = .ok r ∧ Effect s T0 sc n r poses := by
  obtain ⟨reg, t, T, rfl, h⟩ := ho
  obtain ⟨-, -, rfl, -, hd, hr, htr, hi, -⟩ := h
  simp only [execute, hd, hr, htr]
  cases hm : reg.method with
  | icp => exact run_effect .icp s T sc hn n solve reg.lm hi
  | planeIcp => exact run_effect .plane s T sc hn n solve reg.lm hi
  | gicp => exact run_effect (.gicp inv) s T sc hn n solve reg.lm hi

/-! ### violations -/

/-- One source point at the origin and one voxel at distance 9/10. -/
noncomputable def sceneApart : Scene ℝ where
  srcPoint := fun _ => ![0, 0, 0, 1]
  tgtPoint := fun _ => ![9 / 10, 0, 0, 1]
  tgtNormal := fun _ => ![0, 0, 1, 0]
  srcCov := fun _ => diagonal ![1, 1, 1, 0]
  tgtCov := fun _ => diagonal ![1, 1, 1, 0]
  nn := fun q => some (0, (q 0 - 9 / 10) ^ 2 + q 1 ^ 2 + q 2 ^ 2)

/-- VGICP with a correspondence distance of 1/2 and one iteration. -/
noncomputable def settingNear : Setting := { Setting.default with type := .vgicp, maxCorrespondenceDistance := 1 / 2, maxIterations := 1 }

theorem apart_inliers (solve : Matrix (Fin 6) (Fin 6) ℝ → (Fin 6 → ℝ) → (Fin 6 → ℝ)) (inv : Matrix (Fin 3) (Fin 3) ℝ → Matrix (Fin 3) (Fin 3) ℝ)
    (s : Setting) (hs : s.maxIterations = 1) (o : Outcome) (ho : Honours s Pose.one o) :
    ∃ r, execute inv solve sceneApart 1 o = .ok r ∧ r.numInliers = if 81 / 100 ≤ s.maxCorrespondenceDistance ^ 2 then 1 else 0 := by
  obtain ⟨r, poses, he, hE⟩ := C45_effect inv solve sceneApart (by intro q k d h; simp only [sceneApart, Option.some.injEq, Prod.mk.injEq] at h; rw [← h.1]; decide) 1 s Pose.one o ho
  refine ⟨r, he, ?_⟩
  have hb := hE.budget
  have hne := hE.nonempty (by omega)
  rw [hs] at hb
  match poses, hb, hne, hE with
  | [T], _, _, hE =>
    obtain rfl := hE.start T rfl
    rw [hE.inliers Pose.one rfl]
    have : gated sceneApart (s.maxCorrespondenceDistance ^ 2) Pose.one 0 = decide (81 / 100 ≤ s.maxCorrespondenceDistance ^ 2) := by
      simp only [gated, sceneApart]
      congr 2
      simp [Pose.one, Pose.apply, Pose.matrix, mulVec, dotProduct, Fin.sum_univ_four, vecHead, vecTail]
      norm_num
    simp only [List.range_one, List.countP_cons, List.countP_nil, this, decide_eq_true_eq, zero_add]
  | [], _, hne, _ => exact absurd rfl hne
  | _ :: _ :: _, hb, _, _ => simp at hb

/-- VGICP through the helper library ignores `max_correspondence_distance`: a pair at distance 9/10 is counted as inlier although the
requested distance is 1/2, which no run honouring the settings would do. -/
theorem C45_vgicp_violated (solve : Matrix (Fin 6) (Fin 6) ℝ → (Fin 6 → ℝ) → (Fin 6 → ℝ)) (inv : Matrix (Fin 3) (Fin 3) ℝ → Matrix (Fin 3) (Fin 3) ℝ) :
    (alignPoints Pose.one settingNear).2 = alignVoxelmap Pose.one settingNear ∧
    (∃ r, execute inv solve sceneApart 1 (alignVoxelmap Pose.one settingNear) = .ok r ∧ r.numInliers = 1) ∧
    ∀ o, Honours settingNear Pose.one o → ∃ r, execute inv solve sceneApart 1 o = .ok r ∧ r.numInliers = 0 := by
  refine ⟨by simp [alignPoints, settingNear], ?_, ?_⟩
  · obtain ⟨r, h1, h2⟩ := apart_inliers solve inv { settingNear with maxCorrespondenceDistance := 1 } rfl _ (C45_voxelmap_partial settingNear Pose.one rfl).1
    exact ⟨r, h1, by rw [h2, if_pos (by norm_num)]⟩
  · intro o ho
    obtain ⟨r, h1, h2⟩ := apart_inliers solve inv settingNear rfl o ho
    exact ⟨r, h1, by rw [h2, if_neg (by norm_num [settingNear])]⟩

/-- `align` on clouds with type VGICP returns the identity pose whatever the clouds and the initial guess are. -/
theorem C45_identity_violated (solve : Matrix (Fin 6) (Fin 6) ℝ → (Fin 6 → ℝ) → (Fin 6 → ℝ)) (inv : Matrix (Fin 3) (Fin 3) ℝ → Matrix (Fin 3) (Fin 3) ℝ)
    (sc : Scene ℝ) (n : Nat) (s : Setting) (T0 : Pose ℝ) (ht : s.type = .vgicp) :
    ¬ Honours s T0 (alignCloud T0 s) ∧ ∃ r, execute inv solve sc n (alignCloud T0 s) = .ok r ∧ r.T = Pose.one ∧ r.numInliers = 0 ∧ r.converged = false := by
  simp only [alignCloud, ht]
  exact ⟨(by rintro ⟨_, _, _, h, _⟩; cases h), _, rfl, rfl, rfl, rfl⟩

/-! ### examples -/

/-- The default settings meet the hypotheses of `C45_cloud_partial` and, through it, of `C45_effect`. -/
example (T0 : Pose ℝ) : Honours Setting.default T0 (alignCloud T0 Setting.default) := (C45_cloud_partial _ _).1 (.inr (.inr rfl))

/-- `settingNear` meets the hypotheses of `C45_voxelmap_partial`, `C45_points_partial` and `C45_identity_violated`. -/
example : settingNear.type = .vgicp ∧ ∀ n, settingNear.type ≠ .other n := ⟨rfl, fun _ h => by cases h⟩

/-- Two threads meet the hypotheses of `C45_threads_violated`. -/
example : Step.downsample (1 / 4) 2 ∉ preprocess (1 / 4) 10 2 := C45_threads_violated _ _ _ (by decide) (by decide)

end Verif.Props
