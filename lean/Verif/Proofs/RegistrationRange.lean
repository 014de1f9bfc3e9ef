import Verif.Proofs.RegistrationScene

/-! When exactly a search that can fail lets a registration finish. -/

set_option linter.unusedSectionVars false
set_option linter.unusedSimpArgs false

namespace Verif.Proofs.RegMem

open Matrix Verif Verif.Proofs Verif.Factors Verif.Reduction Verif.Optimizer Verif.RegMem

/-! ### a finished reduction has called every factor -/

section Visits

variable {F S : Type} [AddCommMonoid S]

theorem foldlM_visits {σ α : Type} (f : σ → α → Res σ) : ∀ (l : List α) (s s' : σ), l.foldlM f s = .ok s' → ∀ a ∈ l, ∃ s1 s2, f s1 a = .ok s2
  | [], _, _, _, _, ha => by cases ha
  | b :: l, s, s', h, a, ha => by
    rw [List.foldlM_cons] at h
    rcases hb : f s b with e | s1
    · rw [hb] at h; cases h
    · rw [hb, ok_bind] at h
      rcases List.mem_cons.1 ha with rfl | ha
      · exact ⟨s, s1, hb⟩
      · exact foldlM_visits f l s1 s' h a ha

theorem shuffle_mem {α : Type} {l1 l2 l : List α} (h : Shuffle l1 l2 l) (a : α) : a ∈ l ↔ a ∈ l1 ∨ a ∈ l2 := by
  induction h with
  | nil => simp
  | left _ ih => simp only [List.mem_cons, ih]; tauto
  | right _ ih => simp only [List.mem_cons, ih]; tauto

theorem trace_visits {t : RTree} {pos b : BodyId} {order : List TbbAct} (h : Trace t pos b order) : ∀ {first last : Nat}, Covers t first last →
    ∀ i, first ≤ i → i < last → ∃ c, TbbAct.lin c i ∈ order := by
  induction h with
  | range =>
    intro first last hc i h1 h2
    cases hc
    rename_i b' _ _ _
    refine ⟨b', ?_⟩
    unfold rangeActs
    refine List.mem_cons_of_mem _ (List.mem_append_left _ (List.mem_flatMap.2 ⟨i, ?_, by simp⟩))
    rw [List.mem_range'_1]
    omega
  | seq _ _ ih1 ih2 =>
    intro first last hc i h1 h2
    cases hc with
    | seq ha hb =>
      rename_i m
      by_cases hm : i < m
      · obtain ⟨c, hc⟩ := ih1 ha i h1 hm
        exact ⟨c, List.mem_append_left _ hc⟩
      · obtain ⟨c, hc⟩ := ih2 hb i (by omega) h2
        exact ⟨c, List.mem_append_right _ hc⟩
  | fork _ _ hs ih1 ih2 =>
    intro first last hc i h1 h2
    cases hc with
    | fork ha hb =>
      rename_i m
      by_cases hm : i < m
      · obtain ⟨c, hc⟩ := ih1 ha i h1 hm
        exact ⟨c, List.mem_append_left _ ((shuffle_mem hs _).2 (Or.inl hc))⟩
      · obtain ⟨c, hc⟩ := ih2 hb i (by omega) h2
        exact ⟨c, List.mem_append_left _ ((shuffle_mem hs _).2 (Or.inr (List.mem_cons_of_mem _ hc)))⟩

theorem call_of_ok {α β : Type} {x : Res α} {k : α → Res β} {b : β} (h : x >>= k = .ok b) : ∃ a, x = .ok a ∧ k a = .ok b := by
  rcases x with e | a
  · cases h
  · exact ⟨a, rfl, h⟩

theorem reduce_visits {linM : Nat → F → Res (F × Option S)} {ex : Exec} {fs : List F} {a : List F × S} (hex : ex.Complete fs.length)
    (h : reduceLinearize linM ex fs = .ok a) : ∀ i < fs.length, ∃ f r, linM i f = .ok r := by
  intro i hi
  cases ex with
  | serial =>
    obtain ⟨s1, s2, hs⟩ := foldlM_visits _ _ _ _ h i (List.mem_range.2 hi)
    obtain ⟨f, _, hs⟩ := call_of_ok hs
    obtain ⟨r, hr, _⟩ := call_of_ok hs
    exact ⟨f, r, hr⟩
  | omp n assign sched comb =>
    obtain ⟨_, _, h3, ⟨order, h4⟩, _⟩ := hex
    simp only [reduceLinearize, h4] at h
    obtain ⟨st, h, _⟩ := call_of_ok h
    have hmem : ∃ t, OmpAct.lin t i ∈ order := by
      have hp := parOrder_perm _ _ _ h4
      have h5 := ompTasks_idx assign id
      have h6 : i ∈ order.filterMap ompIdx := by
        rw [(hp.filterMap ompIdx).mem_iff]
        have h7 : i ∈ assign.flatten := h3.mem_iff.2 (List.mem_range.2 hi)
        rw [← h5] at h7
        exact h7
      obtain ⟨act, ha, hb⟩ := List.mem_filterMap.1 h6
      cases act with
      | lin t j =>
        simp only [ompIdx, Option.some.injEq] at hb
        exact ⟨t, hb ▸ ha⟩
      | acc t => cases hb
    obtain ⟨t, ht⟩ := hmem
    obtain ⟨s1, s2, hs⟩ := foldlM_visits _ _ _ _ h _ ht
    simp only [RegMem.ompAct] at hs
    obtain ⟨f, _, hs⟩ := call_of_ok hs
    obtain ⟨r, hr, _⟩ := call_of_ok hs
    exact ⟨f, r, hr⟩
  | tbb tree order =>
    obtain ⟨h1, h2⟩ := hex
    obtain ⟨c, hc⟩ := trace_visits h2 h1 i (by omega) hi
    simp only [reduceLinearize] at h
    obtain ⟨st, h, _⟩ := call_of_ok h
    obtain ⟨s1, s2, hs⟩ := foldlM_visits _ _ _ _ h _ hc
    simp only [RegMem.tbbAct] at hs
    obtain ⟨f, _, hs⟩ := call_of_ok hs
    obtain ⟨r, hr, _⟩ := call_of_ok hs
    exact ⟨f, r, hr⟩

end Visits

/-! ### runs that agree on the poses visited -/

section Agree

variable {F K : Type} [Field K] [LinearOrder K]

theorem gnLoop_agree (P : Problem F K) (linM : Pose K → List F → Res (List F × Sys K)) (errM : Pose K → List F → Res K) (Q : List F → Prop)
    (hQ : ∀ T fs fs' s, Q fs → P.linearize T fs = .ok (fs', s) → Q fs') (lambda : K) :
    ∀ (fuel i : Nat) (r : Result K) (fs : List F) (out : Result K × List F × List (Iteration F K)), Q fs → gnLoop P lambda fuel i r fs = .ok out →
      (∀ it ∈ out.2.2, ∀ fs, Q fs → linM it.T0 fs = P.linearize it.T0 fs) → gnLoop { P with linearize := linM, error := errM } lambda fuel i r fs = .ok out
  | 0, _, _, _, _, _, h, _ => h
  | fuel + 1, i, r, fs, out, hq, h, hag => by
    unfold gnLoop at h ⊢
    split
    · rename_i hc
      rw [if_pos hc] at h
      exact h
    · rename_i hc
      rw [if_neg hc] at h
      obtain ⟨⟨fs1, s⟩, h1, h⟩ := call_of_ok h
      simp only at h
      obtain ⟨⟨r2, fs2, log⟩, h2, h⟩ := call_of_ok h
      simp only [Except.ok.injEq] at h
      subst h
      simp only at hag
      have := hag _ (List.mem_cons_self ..) fs hq
      simp only at this ⊢
      rw [this, h1, ok_bind]
      simp only
      have hd : ∀ H b, ({ P with linearize := linM, error := errM } : Problem F K).delta lambda H b = P.delta lambda H b := fun _ _ => rfl
      simp only [hd]
      rw [gnLoop_agree P linM errM Q hQ lambda fuel (i + 1) _ fs1 _ (hQ _ _ _ _ hq h1) h2 (fun it hit => hag it (List.mem_cons_of_mem _ hit))]
      rfl

theorem lmLoop_agree (P : Problem F K) (linM : Pose K → List F → Res (List F × Sys K)) (errM : Pose K → List F → Res K) (Q : List F → Prop)
    (hQ : ∀ T fs fs' s, Q fs → P.linearize T fs = .ok (fs', s) → Q fs') (he : ∀ T fs, Q fs → errM T fs = P.error T fs) (factor : K) (maxInner : Nat) :
    ∀ (fuel i : Nat) (lambda : K) (r : Result K) (fs : List F) (out : Result K × List F × List (Iteration F K)), Q fs →
      lmLoop P factor maxInner fuel i lambda r fs = .ok out → (∀ it ∈ out.2.2, ∀ fs, Q fs → linM it.T0 fs = P.linearize it.T0 fs) →
      lmLoop { P with linearize := linM, error := errM } factor maxInner fuel i lambda r fs = .ok out
  | 0, _, _, _, _, _, _, h, _ => h
  | fuel + 1, i, lambda, r, fs, out, hq, h, hag => by
    unfold lmLoop at h ⊢
    split
    · rename_i hc
      rw [if_pos hc] at h
      exact h
    · rename_i hc
      rw [if_neg hc] at h
      obtain ⟨⟨fs1, s⟩, h1, h⟩ := call_of_ok h
      simp only at h
      obtain ⟨inner, h2, h⟩ := call_of_ok h
      have hq1 := hQ _ _ _ _ hq h1
      have hlin : linM r.T fs = .ok (fs1, s) := by
        rcases hacc : inner.accepted with _ | ⟨d, newT⟩
        · rw [hacc] at h
          simp only [Except.ok.injEq] at h
          subst h
          rw [hag _ (List.mem_cons_self ..) fs hq]
          exact h1
        · rw [hacc] at h
          simp only at h
          obtain ⟨⟨r2, fs2, log⟩, _, h⟩ := call_of_ok h
          simp only [Except.ok.injEq] at h
          subst h
          rw [hag _ (List.mem_cons_self ..) fs hq]
          exact h1
      simp only
      rw [hlin, ok_bind]
      simp only
      rw [lmInner_eq P linM errM fs1 (fun T => he T fs1 hq1), h2, ok_bind]
      rcases hacc : inner.accepted with _ | ⟨d, newT⟩
      · rw [hacc] at h
        exact h
      · rw [hacc] at h
        simp only at h ⊢
        obtain ⟨⟨r2, fs2, log⟩, h3, h⟩ := call_of_ok h
        simp only [Except.ok.injEq] at h
        subst h
        rw [lmLoop_agree P linM errM Q hQ he factor maxInner fuel (i + 1) _ _ fs1 _ hq1 h3 (fun it hit => hag it (List.mem_cons_of_mem _ hit))]
        rfl

theorem run_agree (P : Problem F K) (linM : Pose K → List F → Res (List F × Sys K)) (errM : Pose K → List F → Res K) (Q : List F → Prop)
    (hQ : ∀ T fs fs' s, Q fs → P.linearize T fs = .ok (fs', s) → Q fs') (he : ∀ T fs, Q fs → errM T fs = P.error T fs) (meth : Method K) (T0 : Pose K)
    (fs : List F) (h : Q fs) (out : Result K × List F × List (Iteration F K)) (hrun : meth.run P T0 fs = .ok out)
    (hag : ∀ it ∈ out.2.2, ∀ fs, Q fs → linM it.T0 fs = P.linearize it.T0 fs) : meth.run { P with linearize := linM, error := errM } T0 fs = .ok out := by
  cases meth with
  | lm st =>
    obtain ⟨⟨r, fs', log⟩, h1, h2⟩ := call_of_ok hrun
    simp only [Except.ok.injEq] at h2
    subst h2
    show (lmLoop _ _ _ _ _ _ _ _ >>= _) = _
    rw [lmLoop_agree P linM errM Q hQ he _ _ _ _ _ _ _ _ h h1 hag]
    rfl
  | gn lambda m =>
    obtain ⟨⟨r, fs', log⟩, h1, h2⟩ := call_of_ok hrun
    simp only [Except.ok.injEq] at h2
    subst h2
    show (gnLoop _ _ _ _ _ _ >>= _) = _
    rw [gnLoop_agree P linM errM Q hQ _ _ _ _ _ _ h h1 hag]
    rfl

/-- How often the optimiser may iterate. -/
def iterations : Method K → Nat
  | .lm st => st.maxIterations.toNat
  | .gn _ m => m.toNat

/-- The first linearisation is at the initial guess. -/
theorem run_first (P : Problem F K) (meth : Method K) (T0 : Pose K) (fs : List F) (out : Result K × List F × List (Iteration F K))
    (hrun : meth.run P T0 fs = .ok out) (hpos : 0 < iterations meth) : ∃ it ∈ out.2.2, it.T0 = T0 := by
  cases meth with
  | lm st =>
    obtain ⟨⟨r, fs', log⟩, h1, h2⟩ := call_of_ok hrun
    simp only [Except.ok.injEq] at h2
    subst h2
    obtain ⟨m, hm⟩ : ∃ m, st.maxIterations.toNat = m + 1 := ⟨_, (Nat.succ_pred_eq_of_pos hpos).symm⟩
    rw [hm] at h1
    unfold lmLoop at h1
    rw [if_neg (by simp [Result.init])] at h1
    obtain ⟨⟨fs1, s⟩, _, h1⟩ := call_of_ok h1
    simp only at h1
    obtain ⟨inner, _, h1⟩ := call_of_ok h1
    rcases hacc : inner.accepted with _ | ⟨d, newT⟩
    · rw [hacc] at h1
      simp only [Except.ok.injEq, Prod.mk.injEq] at h1
      obtain ⟨_, _, rfl⟩ := h1
      exact ⟨_, List.mem_cons_self .., rfl⟩
    · rw [hacc] at h1
      simp only at h1
      obtain ⟨⟨r2, fs2, log2⟩, _, h1⟩ := call_of_ok h1
      simp only [Except.ok.injEq, Prod.mk.injEq] at h1
      obtain ⟨_, _, rfl⟩ := h1
      exact ⟨_, List.mem_cons_self .., rfl⟩
  | gn lambda m =>
    obtain ⟨⟨r, fs', log⟩, h1, h2⟩ := call_of_ok hrun
    simp only [Except.ok.injEq] at h2
    subst h2
    obtain ⟨k, hk⟩ : ∃ k, m.toNat = k + 1 := ⟨_, (Nat.succ_pred_eq_of_pos hpos).symm⟩
    rw [hk] at h1
    unfold gnLoop at h1
    rw [if_neg (by simp [Result.init])] at h1
    obtain ⟨⟨fs1, s⟩, _, h1⟩ := call_of_ok h1
    simp only at h1
    obtain ⟨⟨r2, fs2, log2⟩, _, h1⟩ := call_of_ok h1
    simp only [Except.ok.injEq, Prod.mk.injEq] at h1
    obtain ⟨_, _, rfl⟩ := h1
    exact ⟨_, List.mem_cons_self .., rfl⟩

end Agree

/-! ### align -/

variable {K : Type} [Field K] [LinearOrder K] [IsStrictOrderedRing K] {E : Fault → Prop} {w : World K} {needs : Needs} {n : Nat}

/-- The world with a search that finds nothing where the real one fails. -/
def patched (w : World K) : World K := { w with nn := fun q => .ok (okOr none (w.nn q)) }

theorem Sound.patched (hw : Sound E w needs n) : Sound (fun _ => False) (RegMem.patched w) needs n where
  srcPoint := hw.srcPoint
  srcCov := hw.srcCov
  nn q := Or.inl ⟨_, rfl⟩
  found q k d h := by
    have h : (.ok (okOr none (w.nn q)) : Res (Option (Nat × K))) = .ok (some (k, d)) := h
    simp only [Except.ok.injEq] at h
    rcases hn : w.nn q with e | o
    · rw [hn] at h; cases h
    · rw [hn] at h
      have h : o = some (k, d) := h
      subst h
      exact hw.found q k d hn

theorem search_patched {rej : Rejector K} {T : Pose K} {i : Nat} {p : Fin 4 → K} (hp : w.srcPoint i = .ok p) {o : Option (Nat × K)} (ho : w.nn (T.apply p) = .ok o) :
    RegMem.search w rej T i = RegMem.search (RegMem.patched w) rej T i := by
  unfold RegMem.search
  have h1 : (RegMem.patched w).srcPoint i = .ok p := hp
  have h2 : (RegMem.patched w).nn (T.apply p) = .ok o := by
    show Except.ok (okOr none (w.nn (T.apply p))) = _
    rw [ho]; rfl
  rw [hp, h1, ok_bind, ok_bind, ho, h2]

theorem linearize_patched {F : Type} {mf : MemFactor F K} {pf : PointFactor F K} (h : Ships needs mf pf) {rej : Rejector K} {T : Pose K} {i : Nat}
    {p : Fin 4 → K} (hp : w.srcPoint i = .ok p) {o : Option (Nat × K)} (ho : w.nn (T.apply p) = .ok o) (f : F) :
    mf.linearize w rej T i f = mf.linearize (RegMem.patched w) rej T i f := by
  have hs := search_patched (rej := rej) hp ho
  induction h with
  | icp =>
    show icpLinearize w rej T i f = icpLinearize (RegMem.patched w) rej T i f
    unfold icpLinearize
    rw [hs]
    rfl
  | plane =>
    show planeLinearize w rej T i f = planeLinearize (RegMem.patched w) rej T i f
    unfold planeLinearize
    rw [hs]
    rfl
  | gicp inv =>
    show gicpLinearize inv w rej T i f = gicpLinearize inv (RegMem.patched w) rej T i f
    unfold gicpLinearize
    rw [hs]
    rfl
  | robust wt sqrt _ ih =>
    rename_i mf pf _
    show (mf.linearize w rej T i f >>= _) = (mf.linearize (RegMem.patched w) rej T i f >>= _)
    rw [ih f]

theorem linearize_searches {F : Type} {mf : MemFactor F K} {pf : PointFactor F K} (h : Ships needs mf pf) {rej : Rejector K} {T : Pose K} {i : Nat}
    {p : Fin 4 → K} (hp : w.srcPoint i = .ok p) {f : F} {r : F × Option (Sys K)} (hr : mf.linearize w rej T i f = .ok r) : ∃ o, w.nn (T.apply p) = .ok o := by
  have hs : ∀ {a}, RegMem.search w rej T i = .ok a → ∃ o, w.nn (T.apply p) = .ok o := by
    intro a ha
    unfold RegMem.search at ha
    rw [hp, ok_bind] at ha
    obtain ⟨o, ho, _⟩ := call_of_ok ha
    exact ⟨o, ho⟩
  induction h with
  | icp =>
    have hr : icpLinearize w rej T i f = .ok r := hr
    unfold icpLinearize at hr
    obtain ⟨a, ha, _⟩ := call_of_ok hr
    exact hs ha
  | plane =>
    have hr : planeLinearize w rej T i f = .ok r := hr
    unfold planeLinearize at hr
    obtain ⟨a, ha, _⟩ := call_of_ok hr
    exact hs ha
  | gicp inv =>
    have hr : gicpLinearize inv w rej T i f = .ok r := hr
    unfold gicpLinearize at hr
    obtain ⟨a, ha, _⟩ := call_of_ok hr
    exact hs ha
  | robust wt sqrt _ ih =>
    obtain ⟨a, ha, _⟩ := call_of_ok hr
    exact ih ha

/-- The registration finishes exactly when every search of the run on the total scene is defined. -/
theorem align_ok_iff {F : Type} {mf : MemFactor F K} {pf : PointFactor F K} (h : Ships needs mf pf) (hw : Sound E w needs n) (cfg : Config K)
    (execL execE : Pose K → List F → Exec) (hL : ∀ T fs, fs.length = n → (execL T fs).Complete n) (hE : ∀ T fs, fs.length = n → (execE T fs).Complete n)
    (meth : Method K) (T0 : Pose K) (out : Result K × List F × List (Iteration F K))
    (hrun : meth.run (registrationProblem pf (scene w) cfg.rejector cfg.general cfg.solve cfg.exp cfg.converged) T0 (List.replicate n pf.init) = .ok out) :
    RegMem.align mf w cfg execL execE meth T0 n = .ok out ↔
      ∀ it ∈ out.2.2, ∀ i < n, ∃ o, w.nn (it.T0.apply ((scene w).srcPoint i)) = .ok o := by
  obtain ⟨h1, h2⟩ := ships_sim h hw
  obtain ⟨hp1, _⟩ := ships_sim h hw.patched
  obtain ⟨hi1, hi2, _⟩ := h.same
  have hp : RegMem.problem mf w cfg execL execE = { registrationProblem pf (scene w) cfg.rejector cfg.general cfg.solve cfg.exp cfg.converged with
      linearize := fun T fs => reduceLinearize (mf.linearize w cfg.rejector T) (execL T fs) fs
      error := fun T fs => reduceError (mf.error w T) (execE T fs) fs } := by
    unfold RegMem.problem registrationProblem
    rw [hi2]
  have hkeep : ∀ T fs fs' s, (fs.length = n ∧ ∀ f ∈ fs, Usable mf w needs n f) →
      (registrationProblem pf (scene w) cfg.rejector cfg.general cfg.solve cfg.exp cfg.converged).linearize T fs = .ok (fs', s) →
      (fs'.length = n ∧ ∀ f ∈ fs', Usable mf w needs n f) := by
    rintro T fs fs' s ⟨hl, _⟩ hlin
    have hlin : serialLinearize (pf.linearize (scene w) cfg.rejector T) fs = .ok (fs', s) := hlin
    rw [serial_ok] at hlin
    simp only [Spec.reduceSpec, Except.ok.injEq, Prod.mk.injEq] at hlin
    rw [← hlin.1]
    refine ⟨by simp [hl], fun f hf => ?_⟩
    rw [List.mem_mapIdx] at hf
    obtain ⟨i, hi, rfl⟩ := hf
    obtain ⟨_, hsrc, htgt⟩ := h1 cfg.rejector T i fs[i] (by omega)
    unfold Usable
    rw [hsrc, htgt]
    rcases hc : correspondence (scene w) cfg.rejector T i with _ | k
    · exact Or.inl rfl
    · exact Or.inr ⟨(hw.corr hc).2, by omega⟩
  have hinit : (List.replicate n pf.init).length = n ∧ ∀ f ∈ List.replicate n pf.init, Usable mf w needs n f := by
    refine ⟨by simp, fun f hf => ?_⟩
    rw [(List.mem_replicate.1 hf).2, ← hi1]
    exact Or.inl (init_usable h)
  constructor
  · intro hal
    obtain ⟨r, fs', log⟩ := out
    have hkeep' : ∀ T fs fs' s, (fs.length = n ∧ ∀ f ∈ fs, Usable mf w needs n f) → (RegMem.problem mf w cfg execL execE).linearize T fs = .ok (fs', s) →
        (fs'.length = n ∧ ∀ f ∈ fs', Usable mf w needs n f) := by
      rintro T fs fs' s hq hlin
      refine hkeep T fs fs' s hq ?_
      have happ := reduceLinearize_approx (E := E) (linM := mf.linearize w cfg.rejector T) (lin := pf.linearize (scene w) cfg.rejector T) fs
        (fun i f hi => (h1 cfg.rejector T i f (by omega)).1) (execL T fs) (by rw [hq.1]; exact hL T fs hq.1)
      have hlin : reduceLinearize (mf.linearize w cfg.rejector T) (execL T fs) fs = .ok (fs', s) := hlin
      rcases happ with happ | ⟨e, _, happ⟩
      · rw [hlin] at happ
        exact happ.symm
      · rw [hlin] at happ; cases happ
    have key : ∀ it ∈ log, ∃ fs0 s, fs0.length = n ∧ (RegMem.problem mf w cfg execL execE).linearize it.T0 fs0 = .ok (it.factors, s) := by
      intro it hit
      have hinit' : (List.replicate n mf.init).length = n ∧ ∀ f ∈ List.replicate n mf.init, Usable mf w needs n f := by rw [hi1]; exact hinit
      cases meth with
      | lm st =>
        obtain ⟨r0, rfl, hr⟩ := Props.lm_unfold hal
        obtain ⟨_, fs0, s, hq, hlin, _⟩ := (lmLoop_keep hkeep' hr hinit').2 it hit
        exact ⟨fs0, s, hq.1, hlin⟩
      | gn lambda m =>
        obtain ⟨r0, rfl, hr⟩ := Props.gn_unfold hal
        obtain ⟨_, fs0, s, hq, hlin, _⟩ := (gnLoop_keep hkeep' hr hinit').2 it hit
        exact ⟨fs0, s, hq.1, hlin⟩
    intro it hit i hi
    obtain ⟨fs0, s, hl, hlin⟩ := key it hit
    obtain ⟨f, r, hr⟩ := reduce_visits (by rw [hl]; exact hL _ _ hl) hlin i (by omega)
    exact linearize_searches h (hw.src hi) hr
  · intro hdef
    unfold RegMem.align
    rw [hp, hi1]
    refine run_agree _ _ _ (fun fs => fs.length = n ∧ ∀ f ∈ fs, Usable mf w needs n f) hkeep ?_ meth T0 _ hinit out hrun ?_
    · rintro T fs ⟨hl, hu⟩
      exact reduceError_ok fs (fun f hf => h2 T f (hu f hf)) _ (by rw [hl]; exact hE T fs hl)
    · rintro it hit fs ⟨hl, _⟩
      have := reduceLinearize_approx (E := fun _ => False) (linM := mf.linearize w cfg.rejector it.T0) (lin := pf.linearize (scene w) cfg.rejector it.T0) fs
        (fun i f hi => by
          obtain ⟨o, ho⟩ := hdef it hit i (by omega)
          rw [linearize_patched h (hw.src (by omega)) ho f]
          exact (hp1 cfg.rejector it.T0 i f (by omega)).1) (execL it.T0 fs) (by rw [hl]; exact hL _ fs hl)
      exact this.resolve_right (by rintro ⟨_, hf, _⟩; exact hf)

end Verif.Proofs.RegMem
