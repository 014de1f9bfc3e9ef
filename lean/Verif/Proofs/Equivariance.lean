import Verif.Proofs.Stationary

/-! Moving the target frame: factors and optimiser runs. -/

set_option linter.unusedSectionVars false

namespace Verif.Proofs

open Matrix Verif Verif.Factors Verif.Optimizer Verif.Spec

variable {K : Type} [Field K] [LinearOrder K] [IsStrictOrderedRing K] {F : Type}

/-- The first three rows. -/
def top {n : Type} (A : Matrix (Fin 4) n K) : Matrix (Fin 3) n K := fun i j => A i.castSucc j

theorem head3_eq (v : Fin 4 → K) : head3 v = fun i => v i.castSucc := by
  funext i; fin_cases i <;> rfl

theorem gram_top {m n : Type} (A : Matrix (Fin 4) m K) (B : Matrix (Fin 4) n K) (hA : ∀ j, A 3 j = 0) : Aᵀ * B = (top A)ᵀ * top B := by
  ext i j
  simp only [Matrix.mul_apply, transpose_apply, top]
  rw [Fin.sum_univ_castSucc]
  simp [show Fin.last 3 = (3 : Fin 4) from rfl, hA]

theorem gram_top_vec {m : Type} (A : Matrix (Fin 4) m K) (v : Fin 4 → K) (hA : ∀ j, A 3 j = 0) : Aᵀ *ᵥ v = (top A)ᵀ *ᵥ head3 v := by
  rw [head3_eq]
  ext i
  simp only [mulVec, dotProduct, transpose_apply, top]
  rw [Fin.sum_univ_castSucc]
  simp [show Fin.last 3 = (3 : Fin 4) from rfl, hA]

theorem dot_top (u v : Fin 4 → K) (hu : u 3 = 0) : u ⬝ᵥ v = head3 u ⬝ᵥ head3 v := by
  simp only [head3_eq, dotProduct]
  rw [Fin.sum_univ_castSucc]
  simp [show Fin.last 3 = (3 : Fin 4) from rfl, hu]

theorem bordered_mul {n : Type} (M : Matrix (Fin 4) (Fin 4) K) (hM : ∀ i j : Fin 4, i = 3 ∨ j = 3 → M i j = 0) (B : Matrix (Fin 4) n K) :
    top (M * B) = block33 M * top B ∧ ∀ j, (M * B) 3 j = 0 := by
  refine ⟨?_, fun j => ?_⟩
  · ext i j
    simp only [Matrix.mul_apply, top, block33]
    rw [Fin.sum_univ_castSucc]
    simp [show Fin.last 3 = (3 : Fin 4) from rfl, hM i.castSucc 3 (.inr rfl)]
  · rw [Matrix.mul_apply]
    apply Finset.sum_eq_zero
    intro k _
    rw [hM 3 k (.inl rfl), zero_mul]

theorem bordered_mulVec (M : Matrix (Fin 4) (Fin 4) K) (hM : ∀ i j : Fin 4, i = 3 ∨ j = 3 → M i j = 0) (v : Fin 4 → K) :
    head3 (M *ᵥ v) = block33 M *ᵥ head3 v ∧ (M *ᵥ v) 3 = 0 := by
  refine ⟨?_, ?_⟩
  · simp only [head3_eq]
    ext i
    simp only [mulVec, dotProduct, block33]
    rw [Fin.sum_univ_castSucc]
    simp [show Fin.last 3 = (3 : Fin 4) from rfl, hM i.castSucc 3 (.inr rfl)]
  · simp only [mulVec, dotProduct]
    apply Finset.sum_eq_zero
    intro k _
    rw [hM 3 k (.inl rfl), zero_mul]

theorem pose_mul_matrix (A B : Pose K) : (A.mul B).matrix = A.matrix * B.matrix := by
  ext i j
  fin_cases i <;> fin_cases j <;> simp [Pose.matrix, Pose.mul, Matrix.mul_apply, Fin.sum_univ_succ, mulVec, dotProduct] <;> ring

theorem pose_mul_apply (A B : Pose K) (p : Fin 4 → K) : (A.mul B).apply p = A.apply (B.apply p) := by
  simp only [Pose.apply, pose_mul_matrix, mulVec_mulVec]

theorem pose_apply_three (T : Pose K) (p : Fin 4 → K) : T.apply p 3 = p 3 := by
  simp [Pose.apply, Pose.matrix, mulVec, dotProduct, Fin.sum_univ_four]

/-- A difference of two homogeneous points only sees the rotation. -/
theorem pose_apply_sub (G : Pose K) (p q : Fin 4 → K) (h : p 3 = q 3) : head3 (G.apply p - G.apply q) = G.R *ᵥ head3 (p - q) := by
  funext i
  fin_cases i <;> simp [head3, Pose.apply, Pose.matrix, mulVec, dotProduct, Fin.sum_univ_four, Fin.sum_univ_three, h] <;> ring

theorem top_blocks (A B : Matrix (Fin 3) (Fin 3) K) : (∀ j, blocks A B 3 j = 0) ∧ ∀ R : Matrix (Fin 3) (Fin 3) K, top (blocks (R * A) (R * B)) = R * top (blocks A B) := by
  refine ⟨fun j => rfl, fun R => ?_⟩
  ext i j
  simp only [top, blocks, Matrix.mul_apply]
  by_cases hj : j.val < 3 <;> simp [hj]

/-- The upper block of a bordered matrix under conjugation with a pose. -/
theorem block_conj (T : Pose K) (C : Matrix (Fin 4) (Fin 4) K) (hC : ∀ i j : Fin 4, i = 3 ∨ j = 3 → C i j = 0) :
    block33 (T.matrix * C * T.matrixᵀ) = T.R * block33 C * T.Rᵀ ∧ ∀ i j : Fin 4, i = 3 ∨ j = 3 → (T.matrix * C * T.matrixᵀ) i j = 0 := by
  have hz : ∀ i, C i 3 = 0 ∧ C 3 i = 0 := fun i => ⟨hC i 3 (.inr rfl), hC 3 i (.inl rfl)⟩
  have hrow : ∀ (i : Fin 3) (k : Fin 3), T.matrix i.castSucc k.castSucc = T.R i k := by
    intro i k; fin_cases i <;> fin_cases k <;> rfl
  have hlast : ∀ k : Fin 3, T.matrix 3 k.castSucc = 0 := by intro k; fin_cases k <;> rfl
  refine ⟨?_, ?_⟩
  · ext i j
    simp only [block33, Matrix.mul_apply, transpose_apply, Fin.sum_univ_castSucc (n := 3), hrow]
    simp [show Fin.last 3 = (3 : Fin 4) from rfl, hz]
  · intro i j hij
    rcases hij with rfl | rfl
    · simp only [Matrix.mul_apply, transpose_apply, Fin.sum_univ_castSucc (n := 3), hlast]
      simp [show Fin.last 3 = (3 : Fin 4) from rfl, hz]
    · simp only [Matrix.mul_apply, transpose_apply, Fin.sum_univ_castSucc (n := 3), hlast]
      simp [show Fin.last 3 = (3 : Fin 4) from rfl, hz]

theorem block_setBlock (M : Matrix (Fin 4) (Fin 4) K) (A : Matrix (Fin 3) (Fin 3) K) : block33 (setBlock33 M A) = A := by
  ext i j
  simp [block33, setBlock33]

theorem bordered_setBlock {M : Matrix (Fin 4) (Fin 4) K} (hM : ∀ i j : Fin 4, i = 3 ∨ j = 3 → M i j = 0) (A : Matrix (Fin 3) (Fin 3) K) :
    ∀ i j : Fin 4, i = 3 ∨ j = 3 → setBlock33 M A i j = 0 := by
  intro i j hij
  unfold setBlock33
  rw [dif_neg (by omega)]
  exact hM i j hij

/-- What it takes for two factors (in two scenes) to behave alike at corresponding poses. -/
structure Related (pf pf' : PointFactor F K) (sc sc' : Scene K) (rej rej' : Rejector K) (G : Pose K) (Rel : F → F → Prop) : Prop where
  init : Rel pf.init pf'.init
  lin : ∀ T i f f', Rel f f' → Rel (pf.linearize sc rej T i f).1 (pf'.linearize sc' rej' (G.mul T) i f').1 ∧
    (pf.linearize sc rej T i f).2 = (pf'.linearize sc' rej' (G.mul T) i f').2
  err : ∀ T f f', Rel f f' → pf.error sc T f = pf'.error sc' (G.mul T) f'
  inl : ∀ f f', Rel f f' → pf.inlier f = pf'.inlier f'

/-- Two problems that behave alike at corresponding poses. -/
structure Simulates (P P' : Problem F K) (G : Pose K) (Rel : List F → List F → Prop) : Prop where
  lin : ∀ T fs fs' fs1 s, Rel fs fs' → P.linearize T fs = .ok (fs1, s) → ∃ fs1', P'.linearize (G.mul T) fs' = .ok (fs1', s) ∧ Rel fs1 fs1'
  err : ∀ T fs fs' e, Rel fs fs' → P.error T fs = .ok e → P'.error (G.mul T) fs' = .ok e
  gen : ∀ T s, P'.general.updateLinearized (G.mul T) s = P.general.updateLinearized T s
  genErr : ∀ T e, P'.general.updateError (G.mul T) e = P.general.updateError T e
  solve : P'.solve = P.solve
  exp : P'.exp = P.exp
  converged : P'.converged = P.converged
  inl : ∀ fs fs', Rel fs fs' → fs.countP P.inlier = fs'.countP P'.inlier

/-- The result seen from the moved target frame. -/
def moveResult (G : Pose K) (r : Result K) : Result K := { r with T := G.mul r.T }

theorem lmInner_sim {P P' : Problem F K} {G : Pose K} {Rel : List F → List F → Prop} (h : Simulates P P' G Rel) {factor : K} {T : Pose K} {fs fs' : List F}
    (hr : Rel fs fs') {H : Matrix (Fin 6) (Fin 6) K} {b : Fin 6 → K} :
    ∀ {fuel : Nat} {lambda e : K} {r : Inner K}, lmInner P factor T fs H b fuel lambda e = .ok r →
      lmInner P' factor (G.mul T) fs' H b fuel lambda e = .ok { r with accepted := r.accepted.map (fun x => (x.1, G.mul x.2)) } := by
  intro fuel
  induction fuel with
  | zero =>
    intro lambda e r hi
    unfold lmInner at hi ⊢
    cases hi
    rfl
  | succ fuel ih =>
    intro lambda e r hi
    unfold lmInner at hi ⊢
    have hd : P'.delta lambda H b = P.delta lambda H b := by unfold Problem.delta; rw [h.solve]
    simp only [hd, h.exp, pose_mul_assoc, h.genErr] at hi ⊢
    obtain ⟨newE, hE, hi⟩ := res_bind hi
    rw [h.err _ _ _ _ hr hE, ok_bind]
    by_cases hle : newE ≤ P.general.updateError (T.mul (P.exp (P.delta lambda H b))) e
    · rw [if_pos hle] at hi ⊢
      cases hi
      rfl
    · rw [if_neg hle] at hi ⊢
      obtain ⟨r', hr', hi⟩ := res_bind hi
      cases hi
      rw [ih hr', ok_bind]

theorem lmLoop_sim {P P' : Problem F K} {G : Pose K} {Rel : List F → List F → Prop} (h : Simulates P P' G Rel) {factor : K} {maxInner : Nat} :
    ∀ {fuel i : Nat} {lambda : K} {r r' : Result K} {fs fsG fs' : List F} {log : List (Iteration F K)}, Rel fs fsG →
      lmLoop P factor maxInner fuel i lambda r fs = .ok (r', fs', log) →
      ∃ fsG' logG, lmLoop P' factor maxInner fuel i lambda (moveResult G r) fsG = .ok (moveResult G r', fsG', logG) ∧ Rel fs' fsG' ∧ logG.length = log.length := by
  intro fuel
  induction fuel with
  | zero =>
    intro i lambda r r' fs fsG fs' log hR hl
    unfold lmLoop at hl
    cases hl
    exact ⟨fsG, [], rfl, hR, rfl⟩
  | succ fuel ih =>
    intro i lambda r r' fs fsG fs' log hR hl
    unfold lmLoop at hl
    by_cases hc : r.converged = true
    · rw [if_pos hc] at hl
      cases hl
      refine ⟨fsG, [], ?_, hR, rfl⟩
      unfold lmLoop
      rw [if_pos (by exact hc)]
    · rw [if_neg hc] at hl
      obtain ⟨⟨fs1, s⟩, hlin, hl⟩ := res_bind hl
      simp only at hl
      obtain ⟨inner, hin, hl⟩ := res_bind hl
      obtain ⟨fsG1, hlinG, hR1⟩ := h.lin _ _ _ _ _ hR hlin
      have hinG := lmInner_sim h hR1 hin
      unfold lmLoop
      rw [if_neg (by exact hc)]
      rw [show (moveResult G r).T = G.mul r.T from rfl, hlinG, ok_bind]
      simp only [h.gen]
      rw [hinG, ok_bind]
      cases ha : inner.accepted with
      | none =>
        rw [ha] at hl
        simp only [Except.ok.injEq, Prod.mk.injEq] at hl
        obtain ⟨rfl, rfl, rfl⟩ := hl
        exact ⟨fsG1, _, rfl, hR1, rfl⟩
      | some dT =>
        obtain ⟨d, newT⟩ := dT
        rw [ha] at hl
        simp only at hl
        obtain ⟨⟨r2, fs2, log2⟩, hrec, hl⟩ := res_bind hl
        simp only [Except.ok.injEq, Prod.mk.injEq] at hl
        obtain ⟨rfl, rfl, rfl⟩ := hl
        obtain ⟨fsG2, logG, k1, k2, k3⟩ := ih hR1 hrec
        simp only [Option.map_some, h.converged]
        simp only [moveResult] at k1 ⊢
        rw [k1, ok_bind]
        exact ⟨fsG2, _, rfl, k2, by simp [k3]⟩

theorem gnLoop_sim {P P' : Problem F K} {G : Pose K} {Rel : List F → List F → Prop} (h : Simulates P P' G Rel) {lambda : K} :
    ∀ {fuel i : Nat} {r r' : Result K} {fs fsG fs' : List F} {log : List (Iteration F K)}, Rel fs fsG →
      gnLoop P lambda fuel i r fs = .ok (r', fs', log) →
      ∃ fsG' logG, gnLoop P' lambda fuel i (moveResult G r) fsG = .ok (moveResult G r', fsG', logG) ∧ Rel fs' fsG' ∧ logG.length = log.length := by
  intro fuel
  induction fuel with
  | zero =>
    intro i r r' fs fsG fs' log hR hl
    unfold gnLoop at hl
    cases hl
    exact ⟨fsG, [], rfl, hR, rfl⟩
  | succ fuel ih =>
    intro i r r' fs fsG fs' log hR hl
    unfold gnLoop at hl
    by_cases hc : r.converged = true
    · rw [if_pos hc] at hl
      cases hl
      refine ⟨fsG, [], ?_, hR, rfl⟩
      unfold gnLoop
      rw [if_pos (by exact hc)]
    · rw [if_neg hc] at hl
      obtain ⟨⟨fs1, s⟩, hlin, hl⟩ := res_bind hl
      simp only at hl
      obtain ⟨⟨r2, fs2, log2⟩, hrec, hl⟩ := res_bind hl
      simp only [Except.ok.injEq, Prod.mk.injEq] at hl
      obtain ⟨rfl, rfl, rfl⟩ := hl
      obtain ⟨fsG1, hlinG, hR1⟩ := h.lin _ _ _ _ _ hR hlin
      obtain ⟨fsG2, logG, k1, k2, k3⟩ := ih hR1 hrec
      have hd : ∀ H b, P'.delta lambda H b = P.delta lambda H b := by intro H b; unfold Problem.delta; rw [h.solve]
      unfold gnLoop
      rw [if_neg (by exact hc)]
      rw [show (moveResult G r).T = G.mul r.T from rfl, hlinG, ok_bind]
      simp only [h.gen, hd, h.exp, h.converged, pose_mul_assoc]
      simp only [moveResult] at k1 ⊢
      rw [k1, ok_bind]
      exact ⟨fsG2, _, rfl, k2, by simp [k3]⟩

end Verif.Proofs
