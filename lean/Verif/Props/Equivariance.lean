import Verif.Proofs.Equivariance
import Verif.Props.Optimizer

/-! C44: moving the target frame. -/

set_option linter.unusedSectionVars false
set_option linter.unusedSimpArgs false

namespace Verif.Props

open Matrix Verif Verif.Proofs Verif.Factors Verif.Spec Verif.Reduction Verif.Optimizer

variable {K : Type} [Field K] [LinearOrder K] [IsStrictOrderedRing K] {F : Type}

/-- `sc'` is `sc` with the target moved by `G`: points and normals by `G`, covariances by conjugation; the search commutes with the
motion. Points are homogeneous and covariances have a zero border, as everywhere in the library. -/
structure TargetMoved (G : Pose K) (sc sc' : Scene K) : Prop where
  orth : G.Rᵀ * G.R = 1
  srcPoint : sc'.srcPoint = sc.srcPoint
  srcCov : sc'.srcCov = sc.srcCov
  tgtPoint : ∀ k, sc'.tgtPoint k = G.apply (sc.tgtPoint k)
  tgtNormal : ∀ k, sc'.tgtNormal k = G.apply (sc.tgtNormal k)
  tgtCov : ∀ k, sc'.tgtCov k = G.matrix * sc.tgtCov k * G.matrixᵀ
  nn : ∀ q, sc'.nn (G.apply q) = sc.nn q
  srcW : ∀ i, sc.srcPoint i 3 = 1
  tgtW : ∀ k, sc.tgtPoint k 3 = 1
  tgtN : ∀ k, sc.tgtNormal k 3 = 0
  srcBorder : ∀ i a b, a = 3 ∨ b = 3 → sc.srcCov i a b = 0
  tgtBorder : ∀ k a b, a = 3 ∨ b = 3 → sc.tgtCov k a b = 0

/-- A rejector that does not look at the pose. -/
def PoseFree (rej : Rejector K) : Prop := ∀ T T' k i d, rej T k i d = rej T' k i d

theorem moved_correspondence {G : Pose K} {sc sc' : Scene K} (h : TargetMoved G sc sc') {rej : Rejector K} (hr : PoseFree rej) (T : Pose K) (i : Nat) :
    correspondence sc' rej (G.mul T) i = correspondence sc rej T i := by
  unfold correspondence
  rw [h.srcPoint, pose_mul_apply, h.nn]
  split
  · rfl
  · rename_i k d _
    rw [hr (G.mul T) T]

theorem moved_residual {G : Pose K} {sc sc' : Scene K} (h : TargetMoved G sc sc') (T : Pose K) (k i : Nat) :
    head3 (sc'.tgtPoint k - (G.mul T).apply (sc'.srcPoint i)) = G.R *ᵥ head3 (sc.tgtPoint k - T.apply (sc.srcPoint i)) ∧
    (sc'.tgtPoint k - (G.mul T).apply (sc'.srcPoint i)) 3 = 0 ∧ (sc.tgtPoint k - T.apply (sc.srcPoint i)) 3 = 0 := by
  rw [h.srcPoint, h.tgtPoint, pose_mul_apply]
  refine ⟨pose_apply_sub G _ _ ?_, ?_, ?_⟩
  · rw [pose_apply_three, h.tgtW, h.srcW]
  · simp only [Pi.sub_apply, pose_apply_three, h.tgtW, h.srcW, sub_self]
  · simp only [Pi.sub_apply, pose_apply_three, h.tgtW, h.srcW, sub_self]

/-- The rotated Jacobian. -/
theorem moved_jacobian (G T : Pose K) (p : Fin 4 → K) :
    top (blocks ((G.mul T).R * skew (head3 p)) (-(G.mul T).R)) = G.R * top (blocks (T.R * skew (head3 p)) (-T.R)) := by
  have h := (top_blocks (T.R * skew (head3 p)) (-T.R)).2 G.R
  rw [← h]
  simp only [Pose.mul, Matrix.mul_assoc, Matrix.mul_neg]

theorem dot_rot {R : Matrix (Fin 3) (Fin 3) K} (hR : Rᵀ * R = 1) (u v : Fin 3 → K) : (R *ᵥ u) ⬝ᵥ (R *ᵥ v) = u ⬝ᵥ v := by
  rw [dotProduct_mulVec, ← mulVec_transpose, mulVec_mulVec, hR, one_mulVec]

/-- ICP behaves alike. -/
theorem C44_icp_factor {G : Pose K} {sc sc' : Scene K} (h : TargetMoved G sc sc') {rej : Rejector K} (hr : PoseFree rej) :
    Related icpFactor icpFactor sc sc' rej rej G (fun f f' => f' = f) := by
  refine ⟨rfl, ?_, ?_, fun f f' hf => by rw [hf]⟩
  · rintro T i f f' rfl
    simp only [icpFactor, ICP.linearize, moved_correspondence h hr]
    cases hc : correspondence sc rej T i with
    | none => exact ⟨rfl, rfl⟩
    | some k =>
      refine ⟨rfl, ?_⟩
      obtain ⟨h1, h2, h3⟩ := moved_residual h T k i
      have hj := moved_jacobian G T (sc.srcPoint i)
      simp only [Option.some.injEq, Prod.mk.injEq]
      rw [dot_top _ _ h3, dot_top _ _ h2, gram_top _ _ (top_blocks _ _).1, gram_top _ _ (top_blocks _ _).1, gram_top_vec _ _ (top_blocks _ _).1,
        gram_top_vec _ _ (top_blocks _ _).1, h1, dot_rot h.orth]
      rw [h.srcPoint, hj]
      refine ⟨?_, ?_, rfl⟩
      · rw [transpose_mul, Matrix.mul_assoc, ← Matrix.mul_assoc G.Rᵀ, h.orth, Matrix.one_mul]
      · rw [transpose_mul, mulVec_mulVec, Matrix.mul_assoc, h.orth, Matrix.mul_one]
  · rintro T f f' rfl
    simp only [icpFactor, ICP.error]
    obtain ⟨h1, h2, h3⟩ := moved_residual h T f'.target f'.source
    rw [dot_top _ _ h3, dot_top _ _ h2, h1, dot_rot h.orth]

/-- Related GICP states: same indices, conjugated weights. -/
def GicpRel (G : Pose K) (f f' : GICP K) : Prop :=
  f'.target = f.target ∧ f'.source = f.source ∧ ZeroBorder f ∧ ZeroBorder f' ∧
    (f.target ≠ npos → block33 f'.mahalanobis = G.R * block33 f.mahalanobis * G.Rᵀ)

theorem orth_comm {R : Matrix (Fin 3) (Fin 3) K} (hR : Rᵀ * R = 1) : R * Rᵀ = 1 := mul_eq_one_comm.1 hR

theorem moved_fused {G : Pose K} {sc sc' : Scene K} (h : TargetMoved G sc sc') (T : Pose K) (k i : Nat) :
    fusedCov sc' (G.mul T) k i = G.R * fusedCov sc T k i * G.Rᵀ := by
  unfold fusedCov
  rw [h.tgtCov, h.srcCov, pose_mul_matrix, transpose_mul]
  have hb : ∀ a b : Fin 4, a = 3 ∨ b = 3 → (sc.tgtCov k + T.matrix * sc.srcCov i * T.matrixᵀ) a b = 0 := by
    intro a b hab
    rw [Matrix.add_apply, h.tgtBorder k a b hab, (block_conj T _ (h.srcBorder i)).2 a b hab, add_zero]
  rw [← (block_conj G _ hb).1]
  congr 1
  simp only [Matrix.mul_add, Matrix.add_mul, Matrix.mul_assoc]

theorem moved_inverse {inv : Matrix (Fin 3) (Fin 3) K → Matrix (Fin 3) (Fin 3) K} (hinv : InverseContract inv) {R A : Matrix (Fin 3) (Fin 3) K} (hR : Rᵀ * R = 1)
    (hA : ∃ B, A * B = 1) : inv (R * A * Rᵀ) = R * inv A * Rᵀ := by
  have h1 := hinv A hA
  have h2 : R * A * Rᵀ * (R * inv A * Rᵀ) = 1 := by
    have : R * A * Rᵀ * (R * inv A * Rᵀ) = R * A * (Rᵀ * R) * inv A * Rᵀ := by simp only [Matrix.mul_assoc]
    rw [this, hR, Matrix.mul_one, Matrix.mul_assoc R A, h1, Matrix.mul_one, orth_comm hR]
  have h3 := hinv _ ⟨_, h2⟩
  have h4 : (R * inv A * Rᵀ) * (R * A * Rᵀ) = 1 := mul_eq_one_comm.1 h2
  calc inv (R * A * Rᵀ) = (R * inv A * Rᵀ) * (R * A * Rᵀ) * inv (R * A * Rᵀ) := by rw [h4, Matrix.one_mul]
    _ = R * inv A * Rᵀ := by rw [Matrix.mul_assoc, h3, Matrix.mul_one]

/-- Quadratic forms with a bordered weight, seen in three dimensions. -/
theorem bordered_forms {M : Matrix (Fin 4) (Fin 4) K} (hM : ∀ i j : Fin 4, i = 3 ∨ j = 3 → M i j = 0) (J : Matrix (Fin 4) (Fin 6) K) (hJ : ∀ j, J 3 j = 0) (r : Fin 4 → K) (hr : r 3 = 0) :
    Jᵀ * M * J = (top J)ᵀ * block33 M * top J ∧ (Jᵀ * M) *ᵥ r = ((top J)ᵀ * block33 M) *ᵥ head3 r ∧ r ⬝ᵥ M *ᵥ r = head3 r ⬝ᵥ block33 M *ᵥ head3 r := by
  refine ⟨?_, ?_, ?_⟩
  · rw [Matrix.mul_assoc, gram_top _ _ hJ, (bordered_mul M hM J).1, Matrix.mul_assoc]
  · rw [← mulVec_mulVec, gram_top_vec _ _ hJ, (bordered_mulVec M hM r).1, mulVec_mulVec]
  · rw [dot_top _ _ hr, (bordered_mulVec M hM r).1]

theorem rotated_forms {R : Matrix (Fin 3) (Fin 3) K} (hR : Rᵀ * R = 1) (M : Matrix (Fin 3) (Fin 3) K) (J : Matrix (Fin 3) (Fin 6) K) (r : Fin 3 → K) :
    (R * J)ᵀ * (R * M * Rᵀ) * (R * J) = Jᵀ * M * J ∧ ((R * J)ᵀ * (R * M * Rᵀ)) *ᵥ (R *ᵥ r) = (Jᵀ * M) *ᵥ r ∧
    (R *ᵥ r) ⬝ᵥ (R * M * Rᵀ) *ᵥ (R *ᵥ r) = r ⬝ᵥ M *ᵥ r := by
  have h1 : (R * J)ᵀ * (R * M * Rᵀ) = Jᵀ * M * Rᵀ := by
    rw [transpose_mul, Matrix.mul_assoc, ← Matrix.mul_assoc Rᵀ, ← Matrix.mul_assoc Rᵀ, hR, Matrix.one_mul, ← Matrix.mul_assoc]
  refine ⟨?_, ?_, ?_⟩
  · rw [h1, Matrix.mul_assoc, ← Matrix.mul_assoc Rᵀ, hR, Matrix.one_mul]
  · rw [h1, mulVec_mulVec, Matrix.mul_assoc, hR, Matrix.mul_one]
  · have h2 : (R * M * Rᵀ) *ᵥ (R *ᵥ r) = R *ᵥ (M *ᵥ r) := by
      rw [mulVec_mulVec, Matrix.mul_assoc, hR, Matrix.mul_one, ← mulVec_mulVec]
    rw [h2, dot_rot hR]

theorem gicp_lin_none {sc : Scene K} {rej : Rejector K} {T : Pose K} {i : Nat} (inv : Matrix (Fin 3) (Fin 3) K → Matrix (Fin 3) (Fin 3) K) (hc : correspondence sc rej T i = none) (f : GICP K) :
    GICP.linearize inv sc rej T i f = (⟨npos, i, f.mahalanobis⟩, none) := by
  unfold GICP.linearize
  rw [hc]

theorem gicp_lin_some {sc : Scene K} {rej : Rejector K} {T : Pose K} {i k : Nat} (inv : Matrix (Fin 3) (Fin 3) K → Matrix (Fin 3) (Fin 3) K) (hc : correspondence sc rej T i = some k) (f : GICP K) :
    GICP.linearize inv sc rej T i f = (⟨k, i, setBlock33 f.mahalanobis (inv (fusedCov sc T k i))⟩,
      some ((blocks (T.R * skew (head3 (sc.srcPoint i))) (-T.R))ᵀ * setBlock33 f.mahalanobis (inv (fusedCov sc T k i)) * blocks (T.R * skew (head3 (sc.srcPoint i))) (-T.R),
        ((blocks (T.R * skew (head3 (sc.srcPoint i))) (-T.R))ᵀ * setBlock33 f.mahalanobis (inv (fusedCov sc T k i))) *ᵥ (sc.tgtPoint k - T.apply (sc.srcPoint i)),
        1 / 2 * ((sc.tgtPoint k - T.apply (sc.srcPoint i)) ⬝ᵥ setBlock33 f.mahalanobis (inv (fusedCov sc T k i)) *ᵥ (sc.tgtPoint k - T.apply (sc.srcPoint i))))) := by
  unfold GICP.linearize
  rw [hc]

theorem gicp_moved_lin {G : Pose K} {sc sc' : Scene K} (h : TargetMoved G sc sc') {rej : Rejector K} (hr : PoseFree rej)
    (inv : Matrix (Fin 3) (Fin 3) K → Matrix (Fin 3) (Fin 3) K) (hinv : InverseContract inv)
    (hreg : ∀ T i k, correspondence sc rej T i = some k → ∃ B, fusedCov sc T k i * B = 1) (T : Pose K) (i : Nat) (f f' : GICP K) (hf : GicpRel G f f') :
    GicpRel G (GICP.linearize inv sc rej T i f).1 (GICP.linearize inv sc' rej (G.mul T) i f').1 ∧
    (GICP.linearize inv sc rej T i f).2 = (GICP.linearize inv sc' rej (G.mul T) i f').2 := by
  obtain ⟨e1, e2, b1, b2, hm⟩ := hf
  have hc' := moved_correspondence h hr T i
  rcases hc : correspondence sc rej T i with _ | k
  · rw [hc] at hc'
    rw [gicp_lin_none inv hc, gicp_lin_none inv hc']
    exact ⟨⟨rfl, rfl, b1, b2, fun hne => absurd rfl hne⟩, rfl⟩
  · rw [hc] at hc'
    have hinv' : inv (fusedCov sc' (G.mul T) k i) = G.R * inv (fusedCov sc T k i) * G.Rᵀ := by
      rw [moved_fused h, moved_inverse hinv h.orth (hreg T i k hc)]
    obtain ⟨h1, h2, h3⟩ := moved_residual h T k i
    have hj := moved_jacobian G T (sc.srcPoint i)
    rw [gicp_lin_some inv hc, gicp_lin_some inv hc', hinv']
    generalize inv (fusedCov sc T k i) = m
    have z1 := bordered_setBlock b1 m
    have z2 := bordered_setBlock b2 (G.R * m * G.Rᵀ)
    have s1 := block_setBlock f.mahalanobis m
    have s2 := block_setBlock f'.mahalanobis (G.R * m * G.Rᵀ)
    generalize setBlock33 f.mahalanobis m = M at *
    generalize setBlock33 f'.mahalanobis (G.R * m * G.Rᵀ) = M' at *
    refine ⟨⟨rfl, rfl, z1, z2, fun _ => ?_⟩, ?_⟩
    · show block33 M' = G.R * block33 M * G.Rᵀ
      rw [s1, s2]
    · obtain ⟨q1, q2, q3⟩ := bordered_forms z1 (blocks (T.R * skew (head3 (sc.srcPoint i))) (-T.R)) (top_blocks _ _).1 (sc.tgtPoint k - T.apply (sc.srcPoint i)) h3
      obtain ⟨p1, p2, p3⟩ := bordered_forms z2 (blocks ((G.mul T).R * skew (head3 (sc'.srcPoint i))) (-(G.mul T).R)) (top_blocks _ _).1
        (sc'.tgtPoint k - (G.mul T).apply (sc'.srcPoint i)) h2
      obtain ⟨r1, r2, r3⟩ := rotated_forms h.orth m (top (blocks (T.R * skew (head3 (sc.srcPoint i))) (-T.R))) (head3 (sc.tgtPoint k - T.apply (sc.srcPoint i)))
      rw [s2] at p1 p2 p3
      rw [s1] at q1 q2 q3
      rw [h1] at p2 p3
      rw [h.srcPoint] at p1 p2 p3
      rw [hj] at p1 p2
      rw [r1] at p1
      rw [r2] at p2
      rw [r3] at p3
      rw [h.srcPoint]
      dsimp only
      rw [p1, p2, p3, q1, q2, q3]

theorem gicp_moved_err {G : Pose K} {sc sc' : Scene K} (h : TargetMoved G sc sc') (T : Pose K) (f f' : GICP K) (hf : GicpRel G f f') :
    GICP.error sc T f = GICP.error sc' (G.mul T) f' := by
  obtain ⟨e1, e2, b1, b2, hm⟩ := hf
  unfold GICP.error
  rw [e1, e2]
  by_cases hf : f.target = npos
  · rw [if_pos hf, if_pos hf]
  · rw [if_neg hf, if_neg hf]
    obtain ⟨h1, h2, h3⟩ := moved_residual h T f.target f.source
    obtain ⟨_, _, q3⟩ := bordered_forms b1 (0 : Matrix (Fin 4) (Fin 6) K) (fun _ => rfl) (sc.tgtPoint f.target - T.apply (sc.srcPoint f.source)) h3
    obtain ⟨_, _, p3⟩ := bordered_forms b2 (0 : Matrix (Fin 4) (Fin 6) K) (fun _ => rfl) (sc'.tgtPoint f.target - (G.mul T).apply (sc'.srcPoint f.source)) h2
    obtain ⟨_, _, r3⟩ := rotated_forms h.orth (block33 f.mahalanobis) (0 : Matrix (Fin 3) (Fin 6) K) (head3 (sc.tgtPoint f.target - T.apply (sc.srcPoint f.source)))
    dsimp only
    rw [q3, p3, hm hf, h1, r3]

/-- GICP behaves alike, provided the fused covariances are invertible. -/
theorem C44_gicp_factor {G : Pose K} {sc sc' : Scene K} (h : TargetMoved G sc sc') {rej : Rejector K} (hr : PoseFree rej)
    (inv : Matrix (Fin 3) (Fin 3) K → Matrix (Fin 3) (Fin 3) K) (hinv : InverseContract inv)
    (hreg : ∀ T i k, correspondence sc rej T i = some k → ∃ B, fusedCov sc T k i * B = 1) :
    Related (gicpFactor inv) (gicpFactor inv) sc sc' rej rej G (GicpRel G) where
  init := ⟨rfl, rfl, fun _ _ _ => rfl, fun _ _ _ => rfl, fun hne => absurd rfl hne⟩
  lin := gicp_moved_lin h hr inv hinv hreg
  err := gicp_moved_err h
  inl := by
    rintro f f' ⟨e1, _⟩
    show decide (f.target ≠ npos) = decide (f'.target ≠ npos)
    rw [e1]

/-- Robust kernels keep the relation. -/
theorem C44_robust_factor {pf pf' : PointFactor F K} {sc sc' : Scene K} {rej rej' : Rejector K} {G : Pose K} {Rel : F → F → Prop} (w sqrt : K → K)
    (h : Related pf pf' sc sc' rej rej' G Rel) : Related (robustFactor w sqrt pf) (robustFactor w sqrt pf') sc sc' rej rej' G Rel := by
  refine ⟨h.init, ?_, ?_, h.inl⟩
  · intro T i f f' hf
    obtain ⟨h1, h2⟩ := h.lin T i f f' hf
    simp only [robustFactor, robustLinearize]
    rcases hl : pf.linearize sc rej T i f with ⟨f1, s⟩
    rcases hl' : pf'.linearize sc' rej' (G.mul T) i f' with ⟨f1', s'⟩
    rw [hl, hl'] at h1 h2
    simp only at h1 h2
    subst h2
    rcases s with _ | ⟨H, b, e⟩
    · exact ⟨h1, rfl⟩
    · exact ⟨h1, rfl⟩
  · intro T f f' hf
    simp only [robustFactor, robustError, h.err T f f' hf]

theorem related_simulates {pf pf' : PointFactor F K} {sc sc' : Scene K} {rej rej' : Rejector K} {G : Pose K} {Rel : F → F → Prop}
    (h : Related pf pf' sc sc' rej rej' G Rel) (g : General K) (hg : ∀ T T' s, g.updateLinearized T s = g.updateLinearized T' s)
    (hge : ∀ T T' e, g.updateError T e = g.updateError T' e)
    (solve : Matrix (Fin 6) (Fin 6) K → (Fin 6 → K) → (Fin 6 → K)) (exp : (Fin 6 → K) → Pose K) (conv : (Fin 6 → K) → Bool) :
    Simulates (registrationProblem pf sc rej g solve exp conv) (registrationProblem pf' sc' rej' g solve exp conv) G (List.Forall₂ Rel) := by
  refine ⟨?_, ?_, fun T s => hg _ _ s, fun T e => hge _ _ e, rfl, rfl, rfl, ?_⟩
  · intro T fs fs' fs1 s hR hl
    simp only [registrationProblem] at hl ⊢
    rw [serial_ok] at hl ⊢
    simp only [Except.ok.injEq, reduceSpec, Prod.mk.injEq] at hl
    obtain ⟨rfl, rfl⟩ := hl
    have gen : ∀ (fs fs' : List F) (k : Nat), List.Forall₂ Rel fs fs' →
        List.Forall₂ Rel (fs.mapIdx (fun i f => (pf.linearize sc rej T (i + k) f).1)) (fs'.mapIdx (fun i f => (pf'.linearize sc' rej' (G.mul T) (i + k) f).1)) ∧
        fs.mapIdx (fun i f => (pf.linearize sc rej T (i + k) f).2.getD 0) = fs'.mapIdx (fun i f => (pf'.linearize sc' rej' (G.mul T) (i + k) f).2.getD 0) := by
      intro fs fs' k hR
      induction hR generalizing k with
      | nil => exact ⟨.nil, rfl⟩
      | cons ha hl ih =>
        obtain ⟨h1, h2⟩ := ih (k + 1)
        rw [List.mapIdx_cons, List.mapIdx_cons, List.mapIdx_cons, List.mapIdx_cons]
        simp only [Nat.add_assoc, Nat.add_comm 1 k] at h1 h2 ⊢
        obtain ⟨l1, l2⟩ := h.lin T (0 + k) _ _ ha
        refine ⟨.cons l1 h1, ?_⟩
        rw [l2, h2]
    obtain ⟨h1, h2⟩ := gen fs fs' 0 hR
    simp only [Nat.add_zero] at h1 h2
    refine ⟨_, ?_, h1⟩
    unfold reduceSpec
    rw [h2]
  · intro T fs fs' e hR hl
    simp only [registrationProblem] at hl ⊢
    rw [serialError_ok] at hl ⊢
    rw [← hl]
    congr 1
    unfold errorSpec
    congr 1
    clear hl
    induction hR with
    | nil => rfl
    | cons ha hl ih => rw [List.map_cons, List.map_cons, ih, h.err T _ _ ha]
  · intro fs fs' hR
    induction hR with
    | nil => rfl
    | cons ha hl ih =>
      rw [List.countP_cons, List.countP_cons, ih]
      show _ + (if pf.inlier _ = true then 1 else 0) = _ + (if pf'.inlier _ = true then 1 else 0)
      rw [h.inl _ _ ha]

theorem forall₂_replicate {Rel : F → F → Prop} {a b : F} (h : Rel a b) : ∀ n, List.Forall₂ Rel (List.replicate n a) (List.replicate n b)
  | 0 => .nil
  | n + 1 => by rw [List.replicate_succ, List.replicate_succ]; exact .cons h (forall₂_replicate h n)

/-- Whole runs: if the factors behave alike, the run in the moved frame, started at the moved guess, returns the same result except
that the pose is moved by `G` - the same H, b, error, iteration count, convergence flag and number of inliers. -/
theorem C44_run {pf : PointFactor F K} {sc sc' : Scene K} {rej : Rejector K} {G : Pose K} {Rel : F → F → Prop} (h : Related pf pf sc sc' rej rej G Rel) (g : General K)
    (hg : ∀ T T' s, g.updateLinearized T s = g.updateLinearized T' s) (hge : ∀ T T' e, g.updateError T e = g.updateError T' e)
    (solve : Matrix (Fin 6) (Fin 6) K → (Fin 6 → K) → (Fin 6 → K)) (exp : (Fin 6 → K) → Pose K) (conv : (Fin 6 → K) → Bool) (T0 : Pose K) (n : Nat) :
    (∀ st r fs log, alignLM pf (registrationProblem pf sc rej g solve exp conv) st T0 n = .ok (r, fs, log) →
      ∃ fs' log', alignLM pf (registrationProblem pf sc' rej g solve exp conv) st (G.mul T0) n = .ok ({ r with T := G.mul r.T }, fs', log') ∧ log'.length = log.length) ∧
    (∀ lambda m r fs log, alignGN pf (registrationProblem pf sc rej g solve exp conv) lambda m T0 n = .ok (r, fs, log) →
      ∃ fs' log', alignGN pf (registrationProblem pf sc' rej g solve exp conv) lambda m (G.mul T0) n = .ok ({ r with T := G.mul r.T }, fs', log') ∧ log'.length = log.length) := by
  have hsim := related_simulates h g hg hge solve exp conv
  refine ⟨?_, ?_⟩
  · intro st r fs log hr
    obtain ⟨r0, rfl, hrun⟩ := lm_unfold hr
    obtain ⟨fs', log', h1, h2, h3⟩ := lmLoop_sim hsim (forall₂_replicate h.init n) hrun
    refine ⟨fs', log', ?_, h3⟩
    unfold alignLM levenbergMarquardt
    rw [show (Result.init (G.mul T0) : Result K) = moveResult G (Result.init T0) from rfl, h1, ok_bind]
    simp only [countInliers, moveResult, hsim.inl _ _ h2]
  · intro lambda m r fs log hr
    obtain ⟨r0, rfl, hrun⟩ := gn_unfold hr
    obtain ⟨fs', log', h1, h2, h3⟩ := gnLoop_sim hsim (forall₂_replicate h.init n) hrun
    refine ⟨fs', log', ?_, h3⟩
    unfold alignGN gaussNewton
    rw [show (Result.init (G.mul T0) : Result K) = moveResult G (Result.init T0) from rfl, h1, ok_bind]
    simp only [countInliers, moveResult, hsim.inl _ _ h2]

/-! ### point-to-plane -/

/-- One point at distance one along y from a target with normal x. -/
def scenePlane : Scene ℚ where
  srcPoint := fun _ => ![0, 0, 0, 1]
  tgtPoint := fun _ => ![0, 1, 0, 1]
  tgtNormal := fun _ => ![1, 0, 0, 0]
  srcCov := fun _ => 0
  tgtCov := fun _ => 0
  nn := fun _ => some (0, 1)

/-- The same, target turned by the rotation with cosine 3/5 and sine 4/5. -/
def scenePlaneTurned : Scene ℚ where
  srcPoint := fun _ => ![0, 0, 0, 1]
  tgtPoint := fun _ => ![-4 / 5, 3 / 5, 0, 1]
  tgtNormal := fun _ => ![3 / 5, 4 / 5, 0, 0]
  srcCov := fun _ => 0
  tgtCov := fun _ => 0
  nn := fun _ => some (0, 1)

def turn : Pose ℚ := ⟨!![3 / 5, -4 / 5, 0; 4 / 5, 3 / 5, 0; 0, 0, 1], 0⟩

theorem turned_moved : TargetMoved turn scenePlane scenePlaneTurned := by
  refine ⟨?_, rfl, rfl, ?_, ?_, ?_, fun _ => rfl, fun _ => rfl, fun _ => rfl, fun _ => rfl, fun _ _ _ _ => rfl, fun _ _ _ _ => rfl⟩
  · ext i j
    fin_cases i <;> fin_cases j <;> simp [turn, Matrix.mul_apply, Fin.sum_univ_three, Matrix.one_apply] <;> norm_num
  · intro k
    funext i
    fin_cases i <;> simp [turn, scenePlane, scenePlaneTurned, Pose.apply, Pose.matrix, mulVec, dotProduct, Fin.sum_univ_four]
  · intro k
    funext i
    fin_cases i <;> simp [turn, scenePlane, scenePlaneTurned, Pose.apply, Pose.matrix, mulVec, dotProduct, Fin.sum_univ_four]
  · intro k
    simp [scenePlane, scenePlaneTurned]

/-- Point-to-plane ICP is not equivariant: turning target and guess changes the reported error of a one-iteration run from 0 to
144/625, whatever the solver. -/
theorem C44_plane_violated (solve : Matrix (Fin 6) (Fin 6) ℚ → (Fin 6 → ℚ) → (Fin 6 → ℚ)) (exp : (Fin 6 → ℚ) → Pose ℚ) (conv : (Fin 6 → ℚ) → Bool) (lambda : ℚ) :
    TargetMoved turn scenePlane scenePlaneTurned ∧
    ∃ r fs log r' fs' log', alignGN planeFactor (registrationProblem planeFactor scenePlane nullRejector nullFactor solve exp conv) lambda 1 Pose.one 1 = .ok (r, fs, log) ∧
      alignGN planeFactor (registrationProblem planeFactor scenePlaneTurned nullRejector nullFactor solve exp conv) lambda 1 (turn.mul Pose.one) 1 = .ok (r', fs', log') ∧
      r.error = 0 ∧ r'.error = 144 / 625 := by
  refine ⟨turned_moved, ?_⟩
  have key : ∀ (sc : Scene ℚ) (T0 : Pose ℚ), correspondence sc nullRejector T0 0 = some 0 →
      ∃ r fs log, alignGN planeFactor (registrationProblem planeFactor sc nullRejector nullFactor solve exp conv) lambda 1 T0 1 = .ok (r, fs, log) ∧
        r.error = 1 / 2 * ((sc.tgtNormal 0 * (sc.tgtPoint 0 - T0.apply (sc.srcPoint 0))) ⬝ᵥ (sc.tgtNormal 0 * (sc.tgtPoint 0 - T0.apply (sc.srcPoint 0)))) := by
    intro sc T0 hc
    have hlin : (registrationProblem planeFactor sc nullRejector nullFactor solve exp conv).linearize T0 (List.replicate 1 ICP.init) =
        .ok (reduceSpec (PlaneICP.linearize sc nullRejector T0) (List.replicate 1 ICP.init)) :=
      serial_ok (PlaneICP.linearize sc nullRejector T0) (List.replicate 1 ICP.init)
    have hspec : reduceSpec (PlaneICP.linearize sc nullRejector T0) (List.replicate 1 ICP.init) =
        ([⟨0, 0⟩], ((PlaneICP.linearize sc nullRejector T0 0 ICP.init).2.getD 0).1, ((PlaneICP.linearize sc nullRejector T0 0 ICP.init).2.getD 0).2.1,
          1 / 2 * ((sc.tgtNormal 0 * (sc.tgtPoint 0 - T0.apply (sc.srcPoint 0))) ⬝ᵥ (sc.tgtNormal 0 * (sc.tgtPoint 0 - T0.apply (sc.srcPoint 0))))) := by
      simp [reduceSpec, PlaneICP.linearize, hc]
    rw [hspec] at hlin
    have hstep := gnLoop_step (fuel := 0) (i := 0) (lambda := lambda) (r := Result.init T0) rfl hlin rfl rfl
    unfold alignGN gaussNewton
    rw [show (1 : Int).toNat = 0 + 1 from rfl, show (planeFactor : PointFactor PlaneICP ℚ).init = ICP.init from rfl, hstep]
    exact ⟨_, _, _, rfl, rfl⟩
  obtain ⟨r, fs, log, h1, h2⟩ := key scenePlane Pose.one rfl
  obtain ⟨r', fs', log', h1', h2'⟩ := key scenePlaneTurned (turn.mul Pose.one) rfl
  refine ⟨r, fs, log, r', fs', log', h1, h1', ?_, ?_⟩
  · rw [h2]
    simp [scenePlane, Pose.one, Pose.apply, Pose.matrix, mulVec, dotProduct, Fin.sum_univ_four, vecHead, vecTail]
  · rw [h2']
    simp [scenePlaneTurned, turn, Pose.mul, Pose.one, Pose.apply, Pose.matrix, mulVec, dotProduct, Fin.sum_univ_four, vecHead, vecTail]
    norm_num

/-- The hypotheses of the ICP theorem hold for the turned scene. -/
example : Related icpFactor icpFactor scenePlane scenePlaneTurned (distanceRejector (2 : ℚ)) (distanceRejector 2) turn (fun f f' => f' = f) :=
  C44_icp_factor turned_moved (fun _ _ _ _ _ => rfl)

/-- A scene with covariances: the target is isotropic, the source has none. -/
def sceneIso (t n : Fin 4 → ℚ) : Scene ℚ where
  srcPoint := fun _ => ![0, 0, 0, 1]
  tgtPoint := fun _ => t
  tgtNormal := fun _ => n
  srcCov := fun _ => 0
  tgtCov := fun _ => diagonal ![1, 1, 1, 0]
  nn := fun _ => some (0, 1)

/-- The hypotheses of the GICP theorem hold there, for any inverse meeting its contract. -/
example (inv : Matrix (Fin 3) (Fin 3) ℚ → Matrix (Fin 3) (Fin 3) ℚ) (hinv : InverseContract inv) :
    Related (gicpFactor inv) (gicpFactor inv) (sceneIso ![0, 1, 0, 1] ![1, 0, 0, 0]) (sceneIso ![-4 / 5, 3 / 5, 0, 1] ![3 / 5, 4 / 5, 0, 0]) (distanceRejector 2) (distanceRejector 2) turn
      (GicpRel turn) := by
  refine C44_gicp_factor (rej := distanceRejector 2) (G := turn) (sc := sceneIso ![0, 1, 0, 1] ![1, 0, 0, 0]) (sc' := sceneIso ![-4 / 5, 3 / 5, 0, 1] ![3 / 5, 4 / 5, 0, 0]) ⟨turned_moved.orth, rfl, rfl, turned_moved.tgtPoint, turned_moved.tgtNormal, ?_, fun _ => rfl, fun _ => rfl, fun _ => rfl, fun _ => rfl, fun _ _ _ _ => rfl, ?_⟩
    (fun _ _ _ _ _ => rfl) inv hinv ?_
  · intro k
    ext i j
    fin_cases i <;> fin_cases j <;>
      simp [sceneIso, turn, Pose.matrix, Matrix.mul_apply, Fin.sum_univ_four, diagonal, vecHead, vecTail] <;> norm_num
  · intro k a b hab
    fin_cases a <;> fin_cases b <;> simp [sceneIso, diagonal] at hab ⊢
  · intro T i k _
    refine ⟨1, ?_⟩
    ext a b
    fin_cases a <;> fin_cases b <;> simp [fusedCov, sceneIso, block33, diagonal, Matrix.one_apply]

end Verif.Props
