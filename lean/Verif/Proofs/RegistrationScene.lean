import Verif.Proofs.RegistrationMemory
import Verif.Props.Optimizer

/-! The total scene of a world, and the simulation of the factors. -/

set_option linter.unusedSectionVars false
set_option linter.unusedSimpArgs false

namespace Verif.Proofs.RegMem

open Matrix Verif Verif.Proofs Verif.Factors Verif.Reduction Verif.Optimizer Verif.RegMem

variable {K : Type} [Field K] [LinearOrder K]

/-- Value of a successful operation. -/
def okOr {α : Type} (d : α) : Res α → α
  | .ok a => a
  | .error _ => d

/-- The world with total accesses. -/
def scene (w : World K) : Scene K where
  srcPoint := fun i => okOr 0 (w.srcPoint i)
  tgtPoint := fun i => okOr 0 (w.tgtPoint i)
  tgtNormal := fun i => okOr 0 (w.tgtNormal i)
  srcCov := fun i => okOr 0 (w.srcCov i)
  tgtCov := fun i => okOr 0 (w.tgtCov i)
  nn := fun q => okOr none (w.nn q)

/-- Attributes a factor type reads: target normals, covariances of both clouds. -/
structure Needs where
  normals : Bool
  covs : Bool

/-- Target `k` can be read. -/
def Readable (w : World K) (needs : Needs) (k : Nat) : Prop :=
  (∃ p, w.tgtPoint k = .ok p) ∧ (needs.normals = true → ∃ v, w.tgtNormal k = .ok v) ∧ (needs.covs = true → ∃ c, w.tgtCov k = .ok c)

/-- The source attributes of the first `n` points and whatever the search finds can be read; the search fails with faults of `E` only. -/
structure Sound (E : Fault → Prop) (w : World K) (needs : Needs) (n : Nat) : Prop where
  srcPoint : ∀ i < n, ∃ p, w.srcPoint i = .ok p
  srcCov : needs.covs = true → ∀ i < n, ∃ c, w.srcCov i = .ok c
  nn : ∀ q, (∃ o, w.nn q = .ok o) ∨ ∃ e, E e ∧ w.nn q = .error e
  found : ∀ q k d, w.nn q = .ok (some (k, d)) → k ≠ npos ∧ Readable w needs k

/-- The factor types of the library in both models, and what they read. -/
inductive Ships : Needs → {F : Type} → MemFactor F K → PointFactor F K → Prop where
  | icp : Ships ⟨false, false⟩ icpMem icpFactor
  | plane : Ships ⟨true, false⟩ planeMem planeFactor
  | gicp (inv : Matrix (Fin 3) (Fin 3) K → Matrix (Fin 3) (Fin 3) K) : Ships ⟨false, true⟩ (gicpMem inv) (gicpFactor inv)
  | robust {needs : Needs} {F : Type} (wt sqrt : K → K) {mf : MemFactor F K} {pf : PointFactor F K} : Ships needs mf pf →
      Ships needs (robustMem wt sqrt mf) (robustFactor wt sqrt pf)

theorem Ships.shipped {needs : Needs} {F : Type} {mf : MemFactor F K} {pf : PointFactor F K} (h : Ships needs mf pf) : Props.Shipped pf := by
  induction h with
  | icp => exact .icp
  | plane => exact .plane
  | gicp inv => exact .gicp inv
  | robust wt sqrt _ ih => exact .robust wt sqrt ih

theorem Ships.same {needs : Needs} {F : Type} {mf : MemFactor F K} {pf : PointFactor F K} (h : Ships needs mf pf) :
    mf.init = pf.init ∧ mf.inlier = pf.inlier ∧ mf.target = pf.target := by
  induction h with
  | icp => exact ⟨rfl, rfl, rfl⟩
  | plane => exact ⟨rfl, rfl, rfl⟩
  | gicp inv => exact ⟨rfl, rfl, rfl⟩
  | robust wt sqrt _ ih => exact ih

/-- Both indices of a factor can be used for reading. -/
def Usable {F : Type} (mf : MemFactor F K) (w : World K) (needs : Needs) (n : Nat) (f : F) : Prop :=
  mf.target f = npos ∨ (Readable w needs (mf.target f) ∧ mf.source f < n)

variable {E : Fault → Prop} {w : World K} {needs : Needs} {n : Nat}

theorem Sound.search (hw : Sound E w needs n) (rej : Rejector K) (T : Pose K) (i : Nat) (hi : i < n) :
    Approx E (RegMem.search w rej T i) (.ok (T.apply ((scene w).srcPoint i), correspondence (scene w) rej T i)) := by
  obtain ⟨p, hp⟩ := hw.srcPoint i hi
  have hsp : (scene w).srcPoint i = p := by simp [scene, hp, okOr]
  unfold RegMem.search correspondence
  rw [hp, ok_bind, hsp]
  rcases hw.nn (T.apply p) with ⟨o, h⟩ | ⟨e, he, h⟩
  · left
    have hnn : (scene w).nn (T.apply p) = o := by simp [scene, h, okOr]
    rw [h, ok_bind, hnn]
    rcases o with _ | ⟨k, d⟩
    · rfl
    · simp only
      split <;> rfl
  · right
    exact ⟨e, he, by rw [h]; rfl⟩

theorem Sound.corr (hw : Sound E w needs n) {rej : Rejector K} {T : Pose K} {i k : Nat} (h : correspondence (scene w) rej T i = some k) :
    k ≠ npos ∧ Readable w needs k := by
  unfold correspondence at h
  rcases hn : (scene w).nn (T.apply ((scene w).srcPoint i)) with _ | ⟨k', d⟩
  · rw [hn] at h; cases h
  · rw [hn] at h
    simp only at h
    split at h
    · cases h
    · simp only [Option.some.injEq] at h
      subst h
      rcases hw.nn (T.apply ((scene w).srcPoint i)) with ⟨o, ho⟩ | ⟨e, _, ho⟩
      · have : (scene w).nn (T.apply ((scene w).srcPoint i)) = o := by
          show okOr none (w.nn _) = o
          rw [ho]; rfl
        rw [hn] at this
        rw [← this] at ho
        exact hw.found _ _ _ ho
      · have : (scene w).nn (T.apply ((scene w).srcPoint i)) = none := by
          show okOr none (w.nn _) = none
          rw [ho]; rfl
        rw [hn] at this
        cases this

theorem Sound.src (hw : Sound E w needs n) {i : Nat} (hi : i < n) : w.srcPoint i = .ok ((scene w).srcPoint i) := by
  obtain ⟨p, hp⟩ := hw.srcPoint i hi
  simp [scene, hp, okOr]

theorem Readable.point {k : Nat} (h : Readable w needs k) : w.tgtPoint k = .ok ((scene w).tgtPoint k) := by
  obtain ⟨⟨p, hp⟩, _⟩ := h
  simp [scene, hp, okOr]

theorem Readable.normal {k : Nat} (h : Readable w needs k) (hn : needs.normals = true) : w.tgtNormal k = .ok ((scene w).tgtNormal k) := by
  obtain ⟨p, hp⟩ := h.2.1 hn
  simp [scene, hp, okOr]

theorem Readable.cov {k : Nat} (h : Readable w needs k) (hn : needs.covs = true) : w.tgtCov k = .ok ((scene w).tgtCov k) := by
  obtain ⟨p, hp⟩ := h.2.2 hn
  simp [scene, hp, okOr]

theorem Sound.scov (hw : Sound E w needs n) (hn : needs.covs = true) {i : Nat} (hi : i < n) : w.srcCov i = .ok ((scene w).srcCov i) := by
  obtain ⟨p, hp⟩ := hw.srcCov hn i hi
  simp [scene, hp, okOr]

/-- Simulation of the factors. -/
theorem ships_sim {F : Type} {mf : MemFactor F K} {pf : PointFactor F K} (h : Ships needs mf pf) (hw : Sound E w needs n) :
    (∀ rej T i f, i < n → Approx E (mf.linearize w rej T i f) (.ok (pf.linearize (scene w) rej T i f)) ∧
      mf.source (pf.linearize (scene w) rej T i f).1 = i ∧
      (mf.target (pf.linearize (scene w) rej T i f).1 = match correspondence (scene w) rej T i with | none => npos | some k => k)) ∧
    (∀ T f, Usable mf w needs n f → mf.error w T f = .ok (pf.error (scene w) T f)) := by
  induction h with
  | icp =>
    refine ⟨fun rej T i f hi => ⟨?_, ?_⟩, fun T f hf => ?_⟩
    · have hs := hw.search rej T i hi
      have hc := fun k => hw.corr (rej := rej) (T := T) (i := i) (k := k)
      show Approx E (icpLinearize w rej T i f) (.ok (ICP.linearize (scene w) rej T i f))
      unfold icpLinearize ICP.linearize
      rcases hcor : correspondence (scene w) rej T i with _ | k
      · rw [hcor] at hs
        exact hs.call
      · rw [hcor] at hs
        refine Eq.subst (motive := Approx E _) ?_ hs.call
        have hr := (hc k hcor).2
        simp only [hr.point, hw.src hi, ok_bind]
    · show (ICP.linearize (scene w) rej T i f).1.source = i ∧ (ICP.linearize (scene w) rej T i f).1.target = _
      unfold ICP.linearize
      rcases correspondence (scene w) rej T i with _ | k <;> exact ⟨rfl, rfl⟩
    · show icpError w T f = .ok (ICP.error (scene w) T f)
      unfold icpError ICP.error
      split
      · rfl
      · rename_i hne
        rcases hf with hf | ⟨h1, h2⟩
        · exact absurd hf hne
        · have h1 : Readable w _ f.target := h1
          have h2 : f.source < n := h2
          simp only [h1.point, hw.src h2, ok_bind]
  | plane =>
    refine ⟨fun rej T i f hi => ⟨?_, ?_⟩, fun T f hf => ?_⟩
    · have hs := hw.search rej T i hi
      have hc := fun k => hw.corr (rej := rej) (T := T) (i := i) (k := k)
      show Approx E (planeLinearize w rej T i f) (.ok (PlaneICP.linearize (scene w) rej T i f))
      unfold planeLinearize PlaneICP.linearize
      rcases hcor : correspondence (scene w) rej T i with _ | k
      · rw [hcor] at hs
        exact hs.call
      · rw [hcor] at hs
        refine Eq.subst (motive := Approx E _) ?_ hs.call
        have hr := (hc k hcor).2
        simp only [hr.point, hr.normal rfl, hw.src hi, ok_bind]
    · show (PlaneICP.linearize (scene w) rej T i f).1.source = i ∧ (PlaneICP.linearize (scene w) rej T i f).1.target = _
      unfold PlaneICP.linearize
      rcases correspondence (scene w) rej T i with _ | k <;> exact ⟨rfl, rfl⟩
    · show planeError w T f = .ok (PlaneICP.error (scene w) T f)
      unfold planeError PlaneICP.error
      split
      · rfl
      · rename_i hne
        rcases hf with hf | ⟨h1, h2⟩
        · exact absurd hf hne
        · have h1 : Readable w _ f.target := h1
          have h2 : f.source < n := h2
          simp only [h1.point, h1.normal rfl, hw.src h2, ok_bind]
  | gicp inv =>
    refine ⟨fun rej T i f hi => ⟨?_, ?_⟩, fun T f hf => ?_⟩
    · have hs := hw.search rej T i hi
      have hc := fun k => hw.corr (rej := rej) (T := T) (i := i) (k := k)
      show Approx E (gicpLinearize inv w rej T i f) (.ok (GICP.linearize inv (scene w) rej T i f))
      unfold gicpLinearize GICP.linearize
      rcases hcor : correspondence (scene w) rej T i with _ | k
      · rw [hcor] at hs
        exact hs.call
      · rw [hcor] at hs
        refine Eq.subst (motive := Approx E _) ?_ hs.call
        have hr := (hc k hcor).2
        simp only [hr.point, hr.cov rfl, hw.scov rfl hi, hw.src hi, ok_bind]
        rfl
    · show (GICP.linearize inv (scene w) rej T i f).1.source = i ∧ (GICP.linearize inv (scene w) rej T i f).1.target = _
      unfold GICP.linearize
      rcases correspondence (scene w) rej T i with _ | k <;> exact ⟨rfl, rfl⟩
    · show gicpError w T f = .ok (GICP.error (scene w) T f)
      unfold gicpError GICP.error
      split
      · rfl
      · rename_i hne
        rcases hf with hf | ⟨h1, h2⟩
        · exact absurd hf hne
        · have h1 : Readable w _ f.target := h1
          have h2 : f.source < n := h2
          simp only [h1.point, hw.src h2, ok_bind]
  | robust wt sqrt hs ih =>
    rename_i needs F mf pf
    obtain ⟨h1, h2⟩ := ih hw
    refine ⟨fun rej T i f hi => ⟨?_, ?_⟩, fun T f hf => ?_⟩
    · obtain ⟨h3, _⟩ := h1 rej T i f hi
      show Approx E (mf.linearize w rej T i f >>= _) (.ok (robustLinearize wt sqrt (pf.linearize (scene w) rej T) i f))
      refine Eq.subst (motive := Approx E _) ?_ h3.call
      unfold robustLinearize
      rcases pf.linearize (scene w) rej T i f with ⟨f', _ | ⟨H, b, e⟩⟩ <;> rfl
    · obtain ⟨_, h4⟩ := h1 rej T i f hi
      have : (robustLinearize wt sqrt (pf.linearize (scene w) rej T) i f).1 = (pf.linearize (scene w) rej T i f).1 := by
        unfold robustLinearize
        rcases pf.linearize (scene w) rej T i f with ⟨f', _ | ⟨H, b, e⟩⟩ <;> rfl
      show mf.source (robustLinearize wt sqrt (pf.linearize (scene w) rej T) i f).1 = i ∧ mf.target (robustLinearize wt sqrt (pf.linearize (scene w) rej T) i f).1 = _
      rw [this]
      exact h4
    · have h5 := h2 T f hf
      show (mf.error w T f >>= _) = _
      rw [h5]
      rfl

theorem init_usable {F : Type} {mf : MemFactor F K} {pf : PointFactor F K} (h : Ships needs mf pf) : mf.target mf.init = npos := by
  induction h with
  | icp => rfl
  | plane => rfl
  | gicp inv => rfl
  | robust wt sqrt _ ih => exact ih

/-- Registration on real containers: the outcome on the total scene, or a fault of the search. The former always exists. -/
theorem align_approx {F : Type} {mf : MemFactor F K} {pf : PointFactor F K} (h : Ships needs mf pf) (hw : Sound E w needs n) (cfg : Config K)
    (execL execE : Pose K → List F → Exec) (hL : ∀ T fs, fs.length = n → (execL T fs).Complete n) (hE : ∀ T fs, fs.length = n → (execE T fs).Complete n)
    (meth : Method K) (T0 : Pose K) :
    ∃ out, meth.run (registrationProblem pf (scene w) cfg.rejector cfg.general cfg.solve cfg.exp cfg.converged) T0 (List.replicate n pf.init) = .ok out ∧
      Approx E (RegMem.align mf w cfg execL execE meth T0 n) (.ok out) := by
  obtain ⟨h1, h2⟩ := ships_sim h hw
  obtain ⟨hi1, hi2, _⟩ := h.same
  obtain ⟨out, ho⟩ := run_total (registrationProblem pf (scene w) cfg.rejector cfg.general cfg.solve cfg.exp cfg.converged)
    (fun T fs => ⟨_, serial_ok _ fs⟩) (fun T fs => ⟨_, serialError_ok _ fs⟩) meth T0 (List.replicate n pf.init)
  refine ⟨out, ho, ?_⟩
  have hp : RegMem.problem mf w cfg execL execE = { registrationProblem pf (scene w) cfg.rejector cfg.general cfg.solve cfg.exp cfg.converged with
      linearize := fun T fs => reduceLinearize (mf.linearize w cfg.rejector T) (execL T fs) fs
      error := fun T fs => reduceError (mf.error w T) (execE T fs) fs } := by
    unfold RegMem.problem registrationProblem
    rw [hi2]
  unfold RegMem.align
  rw [hp, hi1, ← ho]
  refine run_approx _ _ _ (fun fs => fs.length = n ∧ ∀ f ∈ fs, Usable mf w needs n f) ?_ ?_ ?_ meth T0 _ ?_
  · rintro T fs ⟨hl, _⟩
    exact reduceLinearize_approx fs (fun i f hi => (h1 cfg.rejector T i f (by omega)).1) _ (by rw [hl]; exact hL T fs hl)
  · rintro T fs fs' s ⟨hl, _⟩ hlin
    have hlin : serialLinearize (pf.linearize (scene w) cfg.rejector T) fs = .ok (fs', s) := hlin
    rw [serial_ok] at hlin
    simp only [Spec.reduceSpec, Except.ok.injEq, Prod.mk.injEq] at hlin
    rw [← hlin.1]
    refine ⟨by simp [hl], fun f hf => ?_⟩
    rw [List.mem_mapIdx] at hf
    obtain ⟨i, hi, rfl⟩ := hf
    obtain ⟨_, hsrc, htgt⟩ := h1 cfg.rejector T i fs[i] (by omega)
    unfold Usable
    rw [hsrc, htgt]
    rcases hc : correspondence (scene w) cfg.rejector T i with _ | k
    · exact Or.inl rfl
    · exact Or.inr ⟨(hw.corr hc).2, by omega⟩
  · rintro T fs ⟨hl, hu⟩
    exact reduceError_ok fs (fun f hf => h2 T f (hu f hf)) _ (by rw [hl]; exact hE T fs hl)
  · refine ⟨by simp, fun f hf => ?_⟩
    rw [(List.mem_replicate.1 hf).2, ← hi1]
    exact Or.inl (init_usable h)

end Verif.Proofs.RegMem
