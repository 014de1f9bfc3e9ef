import Verif.Model.RegistrationMemory
import Verif.Props.Reduction
import Verif.Props.Factors

/-! Registration on real containers behaves as on the total scene of `Model/Factors.lean`, or stops with a fault of the search. -/

set_option linter.unusedSectionVars false
set_option linter.unusedSimpArgs false

namespace Verif.Proofs.RegMem

open Matrix Verif Verif.Proofs Verif.Factors Verif.Reduction Verif.Optimizer Verif.RegMem

/-- Equal outcomes, or a fault of the class `E`. -/
def Approx (E : Fault → Prop) {α : Type} (x y : Res α) : Prop := x = y ∨ ∃ e, E e ∧ x = .error e

variable {E : Fault → Prop}

theorem Approx.rfl {α : Type} {x : Res α} : Approx E x x := Or.inl (Eq.refl x)

theorem Approx.bind {α β : Type} {x y : Res α} {f g : α → Res β} (h : Approx E x y) (hf : ∀ a, y = .ok a → Approx E (f a) (g a)) :
    Approx E (x >>= f) (y >>= g) := by
  rcases h with h | ⟨e, he, h⟩
  · subst h
    rcases x with e | a
    · exact Or.inl (Eq.refl _)
    · exact hf a (Eq.refl _)
  · subst h
    exact Or.inr ⟨e, he, Eq.refl _⟩

theorem Approx.call {α β : Type} {x : Res α} {v : α} {f : α → Res β} (h : Approx E x (.ok v)) : Approx E (x >>= f) (f v) := by
  rcases h with h | ⟨e, he, h⟩
  · subst h; exact Or.inl (Eq.refl _)
  · subst h; exact Or.inr ⟨e, he, Eq.refl _⟩

theorem foldlM_approx {σ α : Type} (f g : σ → α → Res σ) (I : σ → Prop)
    (h : ∀ s a, I s → Approx E (f s a) (g s a) ∧ ∀ s', g s a = .ok s' → I s') :
    ∀ (l : List α) (s : σ), I s → Approx E (l.foldlM f s) (l.foldlM g s)
  | [], _, _ => Approx.rfl
  | a :: l, s, hs => by
    rw [List.foldlM_cons, List.foldlM_cons]
    exact (h s a hs).1.bind (fun s' h' => foldlM_approx f g I h l s' ((h s a hs).2 s' h'))

theorem rd_length {α : Type} {l : List α} {i : Nat} {a : α} (h : rd l i = .ok a) : i < l.length := by
  unfold rd at h
  split at h
  · rename_i hx; exact (List.getElem?_eq_some_iff.1 hx).1
  · cases h

theorem rd_mem {α : Type} {l : List α} {i : Nat} {a : α} (h : rd l i = .ok a) : a ∈ l := by
  unfold rd at h
  split at h
  · rename_i hx; cases h; exact List.mem_of_getElem? hx
  · cases h

theorem wr_length {α : Type} {l l' : List α} {i : Nat} {a : α} (h : wr l i a = .ok l') : l'.length = l.length := by
  unfold wr at h
  split at h
  · cases h; simp
  · cases h

theorem bind_ok {α β : Type} {x : Res α} {f : α → Res β} {b : β} (h : (x >>= f) = .ok b) : ∃ a, x = .ok a ∧ f a = .ok b := by
  rcases x with e | a
  · cases h
  · exact ⟨a, rfl, h⟩

section Reductions

section AnySum

variable {F S : Type} [Zero S] [Add S]

theorem serialStep_approx {linM : Nat → F → Res (F × Option S)} {lin : Nat → F → F × Option S} {n : Nat}
    (hlin : ∀ i f, i < n → Approx E (linM i f) (.ok (lin i f))) (st : List F × S) (i : Nat) (hst : st.1.length = n) :
    Approx E (RegMem.serialStep linM st i) (Reduction.serialStep lin st i) ∧ ∀ s', Reduction.serialStep lin st i = .ok s' → s'.1.length = n := by
  constructor
  · unfold RegMem.serialStep Reduction.serialStep
    refine Approx.rfl.bind (fun f hf => ?_)
    have hi := rd_length hf
    exact (hlin i f (by omega)).call
  · intro s' h
    unfold Reduction.serialStep at h
    obtain ⟨f, _, h⟩ := bind_ok h
    obtain ⟨fs, h1, h⟩ := bind_ok h
    have := wr_length h1
    split at h <;> cases h <;> simp only <;> omega

theorem ompAct_approx {linM : Nat → F → Res (F × Option S)} {lin : Nat → F → F × Option S} {n : Nat}
    (hlin : ∀ i f, i < n → Approx E (linM i f) (.ok (lin i f))) (st : OmpState F S) (a : OmpAct) (hst : st.factors.length = n) :
    Approx E (RegMem.ompAct linM st a) (Reduction.ompAct lin st a) ∧ ∀ s', Reduction.ompAct lin st a = .ok s' → s'.factors.length = n := by
  constructor
  · cases a with
    | lin t i =>
      unfold RegMem.ompAct Reduction.ompAct
      refine Approx.rfl.bind (fun f hf => ?_)
      have hi := rd_length hf
      exact (hlin i f (by omega)).call
    | acc t => exact Approx.rfl
  · intro s' h
    cases a with
    | lin t i =>
      unfold Reduction.ompAct at h
      obtain ⟨f, _, h⟩ := bind_ok h
      obtain ⟨fs, h1, h⟩ := bind_ok h
      obtain ⟨ls, h2, h⟩ := bind_ok h
      have := wr_length h1
      cases h
      simp only
      omega
    | acc t =>
      unfold Reduction.ompAct at h
      obtain ⟨o, _, h⟩ := bind_ok h
      cases o with
      | none => cases h; exact hst
      | some s =>
        obtain ⟨old, _, h⟩ := bind_ok h
        obtain ⟨sums, _, h⟩ := bind_ok h
        cases h
        exact hst

theorem tbbAct_approx {linM : Nat → F → Res (F × Option S)} {lin : Nat → F → F × Option S} {I : List F → Prop}
    (hlin : ∀ fs i f, I fs → rd fs i = .ok f → Approx E (linM i f) (.ok (lin i f)))
    (hI : ∀ fs i f fs', I fs → rd fs i = .ok f → wr fs i (lin i f).1 = .ok fs' → I fs') (st : TbbState F S) (a : TbbAct) (hst : I st.factors) :
    Approx E (RegMem.tbbAct linM st a) (Reduction.tbbAct lin st a) ∧ ∀ s', Reduction.tbbAct lin st a = .ok s' → I s'.factors := by
  cases a with
  | split c => exact ⟨Approx.rfl, fun s' h => by cases h; exact hst⟩
  | enter b => exact ⟨Approx.rfl, fun s' h => by cases h; exact hst⟩
  | leave b => exact ⟨Approx.rfl, fun s' h => by cases h; exact hst⟩
  | join b c => exact ⟨Approx.rfl, fun s' h => by cases h; exact hst⟩
  | add b =>
    refine ⟨Approx.rfl, fun s' h => ?_⟩
    simp only [Reduction.tbbAct] at h
    split at h <;> cases h <;> exact hst
  | lin b i =>
    constructor
    · unfold RegMem.tbbAct Reduction.tbbAct
      refine Approx.rfl.bind (fun f hf => ?_)
      exact (hlin _ i f hst hf).call
    · intro s' h
      unfold Reduction.tbbAct at h
      obtain ⟨f, h0, h⟩ := bind_ok h
      obtain ⟨fs, h1, h⟩ := bind_ok h
      cases h
      exact hI _ _ _ _ hst h0 h1

/-- The reductions with factors that cannot fail. -/
def pureLinearize (lin : Nat → F → F × Option S) (ex : Exec) (fs : List F) : Res (List F × S) :=
  match ex with
  | .serial => serialLinearize lin fs
  | .omp n assign sched _ => (ompLinearize lin n assign sched fs).getD (.error .abort)
  | .tbb _ order => tbbLinearize lin order fs

def pureError (err : F → S) (ex : Exec) (fs : List F) : Res S :=
  match ex with
  | .serial => serialError err fs
  | .omp _ assign _ comb => ompError err assign comb fs
  | .tbb _ order => tbbError err order fs

/-- Every execution of a linearisation has the outcome of that with total factors, or a fault of the factors. -/
theorem reduceLinearize_pure {linM : Nat → F → Res (F × Option S)} {lin : Nat → F → F × Option S} (fs : List F)
    (hlin : ∀ i f, i < fs.length → Approx E (linM i f) (.ok (lin i f))) (ex : Exec) (hex : ex.Complete fs.length) :
    Approx E (reduceLinearize linM ex fs) (pureLinearize lin ex fs) := by
  cases ex with
  | serial => exact foldlM_approx _ _ (fun st => st.1.length = fs.length) (fun st i h => serialStep_approx hlin st i h) _ _ rfl
  | omp n assign sched comb =>
    obtain ⟨h1, h2, h3, ⟨order, h4⟩, h5⟩ := hex
    simp only [reduceLinearize, pureLinearize, ompLinearize, h4, Option.getD_some]
    exact Approx.bind (foldlM_approx _ _ (fun st => st.factors.length = fs.length) (fun st a h => ompAct_approx hlin st a h) _ _ rfl)
      (fun _ _ => Approx.rfl)
  | tbb tree order =>
    obtain ⟨h1, h2⟩ := hex
    simp only [reduceLinearize, pureLinearize, tbbLinearize]
    refine Approx.bind (foldlM_approx _ _ (fun st => st.factors.length = fs.length) (fun st a h => ?_) _ _ rfl) (fun _ _ => Approx.rfl)
    refine tbbAct_approx (I := fun l => l.length = fs.length) (fun l i f hl hf => hlin i f (by have := rd_length hf; omega)) ?_ st a h
    intro l i f l' hl _ hw
    rw [wr_length hw, hl]

theorem foldlM_congr' {σ α : Type} (f g : σ → α → Res σ) (h : ∀ s a, f s a = g s a) (l : List α) (s : σ) : l.foldlM f s = l.foldlM g s := by
  have : f = g := funext (fun s => funext (fun a => h s a))
  rw [this]

theorem reduceError_pure {errM : F → Res S} {err : F → S} (fs : List F) (herr : ∀ f ∈ fs, errM f = .ok (err f)) (ex : Exec) :
    reduceError errM ex fs = pureError err ex fs := by
  have hstep : ∀ (sum : S) (i : Nat), (rd fs i >>= fun f => errM f >>= fun e => (pure (sum + e) : Res S)) = (rd fs i >>= fun f => pure (sum + err f)) := by
    intro sum i
    rcases hr : rd fs i with e | f
    · rfl
    · rw [ok_bind, ok_bind, herr f (rd_mem hr), ok_bind]
  cases ex with
  | serial => exact foldlM_congr' _ _ hstep _ _
  | omp n assign sched comb =>
    simp only [reduceError, pureError, ompError]
    congr 1
    refine congrArg (fun g => List.mapM g assign) (funext (fun is => ?_))
    exact foldlM_congr' _ _ hstep _ _
  | tbb tree order =>
    simp only [reduceError, pureError, tbbError, tbbLinearize]
    have key : ∀ (l : List TbbAct) (st : TbbState F S), st.factors = fs →
        l.foldlM (RegMem.tbbAct (fun _ f => do let e ← errM f; return (f, some e))) st =
        l.foldlM (Reduction.tbbAct (fun _ f => (f, some (err f)))) st := by
      intro l st hst
      have := foldlM_approx (E := fun _ => False) (RegMem.tbbAct (fun _ f => do let e ← errM f; return (f, some e)))
        (Reduction.tbbAct (fun _ f => (f, some (err f)))) (fun st => st.factors = fs) (fun st a h => by
          refine tbbAct_approx (I := fun l => l = fs) ?_ ?_ st a h
          · intro l i f hl hf
            subst hl
            left
            rw [herr f (rd_mem hf)]
            rfl
          · intro l i f l' hl hf hw
            subst hl
            unfold wr at hw
            split at hw
            · cases hw
              unfold rd at hf
              split at hf
              · rename_i hx
                cases hf
                obtain ⟨h, rfl⟩ := List.getElem?_eq_some_iff.1 hx
                exact List.set_getElem_self h
              · cases hf
            · cases hw) l st hst
      rcases this with h | ⟨_, h, _⟩
      · exact h
      · exact h.elim
    rw [key order _ rfl]
    rcases order.foldlM (Reduction.tbbAct (fun _ f => (f, some (err f)))) (⟨fs, fun _ => ⟨0, 0, none⟩⟩ : TbbState F S) with e | st
    · rfl
    · rfl

end AnySum

variable {F S : Type} [AddCommMonoid S]

/-- Every execution of a linearisation has the outcome of the serial reduction with total factors, or a fault of the factors. -/
theorem reduceLinearize_approx {linM : Nat → F → Res (F × Option S)} {lin : Nat → F → F × Option S} (fs : List F)
    (hlin : ∀ i f, i < fs.length → Approx E (linM i f) (.ok (lin i f))) (ex : Exec) (hex : ex.Complete fs.length) :
    Approx E (reduceLinearize linM ex fs) (serialLinearize lin fs) := by
  have h := reduceLinearize_pure fs hlin ex hex
  cases ex with
  | serial => exact h
  | omp n assign sched comb =>
    obtain ⟨h1, h2, h3, ⟨order, h4⟩, h5⟩ := hex
    have hr : ompLinearize lin n assign sched fs = some (do
        let st ← order.foldlM (Reduction.ompAct lin) ⟨fs, List.replicate n none, List.replicate n 0⟩
        let s ← ompGather n st.sums
        return (st.factors, s)) := by unfold ompLinearize; rw [h4]
    rw [← Props.C30_omp lin n h1 fs assign h2 h3 sched hr]
    simpa only [pureLinearize, hr, Option.getD_some] using h
  | tbb tree order =>
    obtain ⟨h1, h2⟩ := hex
    rw [← Props.C30_tbb lin fs tree h1 order h2]
    exact h

/-- Every execution of an error evaluation gives the sum over the factors. -/
theorem reduceError_ok {errM : F → Res S} {err : F → S} (fs : List F) (herr : ∀ f ∈ fs, errM f = .ok (err f)) (ex : Exec)
    (hex : ex.Complete fs.length) : reduceError errM ex fs = serialError err fs := by
  rw [reduceError_pure fs herr ex]
  cases ex with
  | serial => rfl
  | omp n assign sched comb =>
    obtain ⟨h1, h2, h3, _, h5⟩ := hex
    exact (Props.C30_error err fs).2.1 assign comb h3 h5
  | tbb tree order =>
    obtain ⟨h1, h2⟩ := hex
    exact (Props.C30_error err fs).2.2 tree order h1 h2

end Reductions

section Optimisers

variable {F K : Type} [Field K] [LinearOrder K]

theorem gnLoop_approx (P : Problem F K) (linM : Pose K → List F → Res (List F × Sys K)) (errM : Pose K → List F → Res K) (Q : List F → Prop)
    (hl : ∀ T fs, Q fs → Approx E (linM T fs) (P.linearize T fs)) (hQ : ∀ T fs fs' s, Q fs → P.linearize T fs = .ok (fs', s) → Q fs') (lambda : K) :
    ∀ (fuel i : Nat) (r : Result K) (fs : List F), Q fs →
      Approx E (gnLoop { P with linearize := linM, error := errM } lambda fuel i r fs) (gnLoop P lambda fuel i r fs)
  | 0, _, _, _, _ => Approx.rfl
  | fuel + 1, i, r, fs, h => by
    unfold gnLoop
    split
    · exact Approx.rfl
    · refine (hl r.T fs h).bind (fun a ha => ?_)
      obtain ⟨fs1, s⟩ := a
      exact (gnLoop_approx P linM errM Q hl hQ lambda fuel (i + 1) _ fs1 (hQ _ _ _ _ h ha)).bind (fun _ _ => Approx.rfl)

theorem lmInner_eq (P : Problem F K) (linM : Pose K → List F → Res (List F × Sys K)) (errM : Pose K → List F → Res K) (fs : List F)
    (he : ∀ T, errM T fs = P.error T fs) (factor : K) (T : Pose K) (H : Matrix (Fin 6) (Fin 6) K) (b : Fin 6 → K) :
    ∀ (fuel : Nat) (lambda e : K), lmInner { P with linearize := linM, error := errM } factor T fs H b fuel lambda e = lmInner P factor T fs H b fuel lambda e
  | 0, _, _ => rfl
  | fuel + 1, lambda, e => by
    have hd : ({ P with linearize := linM, error := errM } : Problem F K).delta lambda H b = P.delta lambda H b := rfl
    unfold lmInner
    simp only [he, hd, lmInner_eq P linM errM fs he factor T H b fuel]

theorem lmLoop_approx (P : Problem F K) (linM : Pose K → List F → Res (List F × Sys K)) (errM : Pose K → List F → Res K) (Q : List F → Prop)
    (hl : ∀ T fs, Q fs → Approx E (linM T fs) (P.linearize T fs)) (hQ : ∀ T fs fs' s, Q fs → P.linearize T fs = .ok (fs', s) → Q fs')
    (he : ∀ T fs, Q fs → errM T fs = P.error T fs) (factor : K) (maxInner : Nat) :
    ∀ (fuel i : Nat) (lambda : K) (r : Result K) (fs : List F), Q fs →
      Approx E (lmLoop { P with linearize := linM, error := errM } factor maxInner fuel i lambda r fs) (lmLoop P factor maxInner fuel i lambda r fs)
  | 0, _, _, _, _, _ => Approx.rfl
  | fuel + 1, i, lambda, r, fs, h => by
    unfold lmLoop
    split
    · exact Approx.rfl
    · refine (hl r.T fs h).bind (fun a ha => ?_)
      obtain ⟨fs1, s⟩ := a
      have h1 := hQ _ _ _ _ h ha
      simp only
      rw [lmInner_eq P linM errM fs1 (fun T => he T fs1 h1)]
      refine Approx.rfl.bind (fun inner _ => ?_)
      split
      · exact Approx.rfl
      · exact (lmLoop_approx P linM errM Q hl hQ he factor maxInner fuel (i + 1) _ _ fs1 h1).bind (fun _ _ => Approx.rfl)

theorem run_approx (P : Problem F K) (linM : Pose K → List F → Res (List F × Sys K)) (errM : Pose K → List F → Res K) (Q : List F → Prop)
    (hl : ∀ T fs, Q fs → Approx E (linM T fs) (P.linearize T fs)) (hQ : ∀ T fs fs' s, Q fs → P.linearize T fs = .ok (fs', s) → Q fs')
    (he : ∀ T fs, Q fs → errM T fs = P.error T fs) (meth : Method K) (T0 : Pose K) (fs : List F) (h : Q fs) :
    Approx E (meth.run { P with linearize := linM, error := errM } T0 fs) (meth.run P T0 fs) := by
  cases meth with
  | lm st => exact (lmLoop_approx P linM errM Q hl hQ he _ _ _ _ _ _ _ h).bind (fun _ _ => Approx.rfl)
  | gn lambda m => exact (gnLoop_approx P linM errM Q hl hQ lambda _ _ _ _ h).bind (fun _ _ => Approx.rfl)

/-- Optimisation cannot fail when the reduction does not. -/
theorem run_total (P : Problem F K) (hl : ∀ T fs, ∃ a, P.linearize T fs = .ok a) (he : ∀ T fs, ∃ e, P.error T fs = .ok e) (meth : Method K)
    (T0 : Pose K) (fs : List F) : ∃ out, meth.run P T0 fs = .ok out := by
  have inner : ∀ (factor : K) (T : Pose K) (fs : List F) (H : Matrix (Fin 6) (Fin 6) K) (b : Fin 6 → K) (fuel : Nat) (lambda e : K),
      ∃ r, lmInner P factor T fs H b fuel lambda e = .ok r := by
    intro factor T fs H b fuel
    induction fuel with
    | zero => exact fun _ _ => ⟨_, rfl⟩
    | succ fuel ih =>
      intro lambda e
      unfold lmInner
      obtain ⟨ne, h⟩ := he (T.mul (P.exp (P.delta lambda H b))) fs
      simp only [h, ok_bind]
      split
      · exact ⟨_, rfl⟩
      · obtain ⟨r, hr⟩ := ih (lambda * factor) (P.general.updateError (T.mul (P.exp (P.delta lambda H b))) e)
        rw [hr]
        exact ⟨_, rfl⟩
  have lm : ∀ (factor : K) (maxInner fuel i : Nat) (lambda : K) (r : Result K) (fs : List F), ∃ out, lmLoop P factor maxInner fuel i lambda r fs = .ok out := by
    intro factor maxInner fuel
    induction fuel with
    | zero => exact fun _ _ _ _ => ⟨_, rfl⟩
    | succ fuel ih =>
      intro i lambda r fs
      unfold lmLoop
      split
      · exact ⟨_, rfl⟩
      · obtain ⟨⟨fs1, s⟩, h⟩ := hl r.T fs
        rw [h, ok_bind]
        simp only
        obtain ⟨inn, h2⟩ := inner factor r.T fs1 (P.general.updateLinearized r.T s).1 (P.general.updateLinearized r.T s).2.1 maxInner lambda
          (P.general.updateLinearized r.T s).2.2
        rw [h2, ok_bind]
        split
        · exact ⟨_, rfl⟩
        · rename_i d newT _
          obtain ⟨o, h3⟩ := ih (i + 1) inn.lambda _ fs1
          rw [h3]
          exact ⟨_, rfl⟩
  have gn : ∀ (lambda : K) (fuel i : Nat) (r : Result K) (fs : List F), ∃ out, gnLoop P lambda fuel i r fs = .ok out := by
    intro lambda fuel
    induction fuel with
    | zero => exact fun _ _ _ => ⟨_, rfl⟩
    | succ fuel ih =>
      intro i r fs
      unfold gnLoop
      split
      · exact ⟨_, rfl⟩
      · obtain ⟨⟨fs1, s⟩, h⟩ := hl r.T fs
        rw [h, ok_bind]
        simp only
        obtain ⟨o, h3⟩ := ih (i + 1) _ fs1
        rw [h3]
        exact ⟨_, rfl⟩
  cases meth with
  | lm st =>
    obtain ⟨o, h⟩ := lm st.lambdaFactor st.maxInner.toNat st.maxIterations.toNat 0 st.initLambda (Result.init T0) fs
    unfold Method.run levenbergMarquardt
    simp only [h, ok_bind]
    exact ⟨_, rfl⟩
  | gn lambda m =>
    obtain ⟨o, h⟩ := gn lambda m.toNat 0 (Result.init T0) fs
    unfold Method.run gaussNewton
    simp only [h, ok_bind]
    exact ⟨_, rfl⟩

end Optimisers

end Verif.Proofs.RegMem
