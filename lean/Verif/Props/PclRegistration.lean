import Verif.Spec.PclRegistration
import Verif.Proofs.Parallel
import Mathlib.Data.Rat.Defs
import Mathlib.Algebra.Order.Ring.Rat
import Mathlib.Algebra.Field.Rat
import Mathlib.Algebra.Order.Field.Basic
import Mathlib.Tactic.NormNum
import Mathlib.Data.List.Induction

/-! C51, C52: the PCL wrapper. -/

set_option linter.unusedSectionVars false
set_option linter.unusedSimpArgs false
set_option linter.unnecessarySeqFocus false

namespace Verif.Props

open Verif Verif.Pcl Verif.Spec Verif.Proofs

variable {P Tree C Map K G : Type} [Field K] [LinearOrder K]

/-! ### C51 -/

/-- What the object holds for one cloud, against what the user has said about it. -/
structure SideInv (E : Env P Tree C Map K) (k : Int) (res : K) (cloud : Option Nat) (tree : Option Tree) (covs : List C) (map : Option Map) (s : Option (Side C)) : Prop where
  hcloud : cloud = s.map Side.cloud
  htree : ∀ x, s = some x → tree = some (E.mkTree (E.heap x.cloud))
  hcovs : ∀ x, s = some x → (covs = [] ∧ x.user = none) ∨ (covs = covsOf E k x ∧ covs.length = (E.heap x.cloud).length)
  unused : ∀ x, s = some x → x.used = false → x.user = none → covs = []
  hmap : ∀ x m, s = some x → map = some m → x.mapped = true ∧ x.used = true ∧ m = E.mkMap res (E.heap x.cloud) (covsOf E k x)

theorem sideInv_none (E : Env P Tree C Map K) (k : Int) (res : K) (tree : Option Tree) (covs : List C) (map : Option Map) :
    SideInv E k res none tree covs map (none : Option (Side C)) := by
  refine ⟨rfl, ?_, ?_, ?_, ?_⟩ <;> intros <;> simp_all

/-- Handing over a cloud. -/
theorem sideInv_cloud {E : Env P Tree C Map K} {k : Int} {res : K} {cloud : Option Nat} {tree : Option Tree} {covs : List C} {map : Option Map} {s : Option (Side C)}
    (h : SideInv E k res cloud tree covs map s) (c new : Option Nat) (t : Tree) (hne : cloud ≠ c) (hb : baseSetInput E cloud c = .ok new) (ht : buildTree E new = .ok t) :
    SideInv E k res new (some t) [] none (giveCloud E c s) := by
  have hc := h.hcloud
  subst hc
  unfold giveCloud
  rw [if_neg hne]
  cases c with
  | none => simp [baseSetInput] at hb
  | some c =>
    simp only [baseSetInput, Except.ok.injEq] at hb
    subst hb
    simp only
    by_cases ha : E.accepts c = true
    · rw [if_pos ha] at ht
      rw [if_pos ha, if_pos ha]
      simp only [buildTree, Except.ok.injEq] at ht
      refine ⟨rfl, ?_, ?_, ?_, ?_⟩
      · rintro x ⟨⟩; rw [← ht]
      · rintro x ⟨⟩; exact .inl ⟨rfl, rfl⟩
      · rintro x ⟨⟩ _ _; rfl
      · rintro x m ⟨⟩ hm; cases hm
    · rw [if_neg ha] at ht
      rw [if_neg ha, if_neg ha]
      cases s with
      | none => simp [buildTree] at ht
      | some s =>
        simp only [Option.map_some, buildTree, Except.ok.injEq] at ht ⊢
        refine ⟨rfl, ?_, ?_, ?_, ?_⟩
        · rintro x ⟨⟩; rw [← ht]
        · rintro x ⟨⟩; exact .inl ⟨rfl, rfl⟩
        · rintro x ⟨⟩ _ _; rfl
        · rintro x m ⟨⟩ hm; cases hm

theorem giveCloud_same {E : Env P Tree C Map K} {k : Int} {res : K} {cloud : Option Nat} {tree : Option Tree} {covs : List C} {map : Option Map} {s : Option (Side C)}
    (h : SideInv E k res cloud tree covs map s) : giveCloud E cloud s = s := by
  unfold giveCloud
  rw [if_pos h.hcloud.symm]

/-- Handing over covariances, unless a voxel map has been built from the old ones. -/
theorem sideInv_covs {E : Env P Tree C Map K} {k : Int} {res : K} {x : Side C} {tree : Option Tree} {covs : List C} {map : Option Map}
    (h : SideInv E k res (some x.cloud) tree covs map (some x)) (new : List C) (hl : new.length = (E.heap x.cloud).length) (hm : x.mapped = false) :
    SideInv E k res (some x.cloud) tree new map (some { x with user := some new }) := by
  refine ⟨rfl, ?_, ?_, ?_, ?_⟩
  · rintro y ⟨⟩; exact h.htree x rfl
  · rintro y ⟨⟩; exact .inr ⟨rfl, hl⟩
  · rintro y ⟨⟩ _ hu; cases hu
  · rintro y m ⟨⟩ he
    have := (h.hmap x m rfl he).1
    rw [hm] at this; cases this

/-- Changing the number of neighbours, if no estimate is in use. -/
theorem sideInv_k {E : Env P Tree C Map K} {k k' : Int} {res : K} {cloud : Option Nat} {tree : Option Tree} {covs : List C} {map : Option Map} {s : Option (Side C)}
    (h : SideInv E k res cloud tree covs map s) (hs : k' = k ∨ ∀ x, s = some x → x.used = false ∨ x.user.isSome = true) :
    SideInv E k' res cloud tree covs map s := by
  rcases hs with rfl | hs
  · exact h
  have hsame : ∀ x, s = some x → x.user.isSome = true → covsOf E k' x = covsOf E k x := by
    intro x _ hu
    unfold covsOf
    obtain ⟨u, hu⟩ := Option.isSome_iff_exists.1 hu
    rw [hu]; rfl
  refine ⟨h.hcloud, h.htree, ?_, h.unused, ?_⟩
  · intro x hx
    rcases h.hcovs x hx with hc | ⟨h1, h2⟩
    · exact .inl hc
    · by_cases hu : x.user.isSome = true
      · exact .inr ⟨by rw [hsame x hx hu]; exact h1, h2⟩
      · have hn : x.user = none := by simpa using hu
        exact .inl ⟨h.unused x hx ((hs x hx).resolve_right hu) hn, hn⟩
  · intro x m hx hm
    obtain ⟨h1, h2, h3⟩ := h.hmap x m hx hm
    rcases hs x hx with hu | hu
    · rw [hu] at h2; cases h2
    · exact ⟨h1, h2, by rw [hsame x hx hu]; exact h3⟩

/-- Changing the resolution, if no voxel map is in use. -/
theorem sideInv_res {E : Env P Tree C Map K} {k : Int} {res res' : K} {cloud : Option Nat} {tree : Option Tree} {covs : List C} {map : Option Map} {s : Option (Side C)}
    (h : SideInv E k res cloud tree covs map s) (hs : res' = res ∨ ∀ x, s = some x → x.mapped = false) :
    SideInv E k res' cloud tree covs map s := by
  rcases hs with rfl | hs
  · exact h
  refine ⟨h.hcloud, h.htree, h.hcovs, h.unused, ?_⟩
  intro x m hx hm
  have := (h.hmap x m hx hm).1
  rw [hs x hx] at this; cases this

/-- The covariances after lines 210-215 are the expected ones. -/
theorem covs_ready {E : Env P Tree C Map K} (hE : ∀ pts t k, (E.estimate pts t k).length = pts.length) {k : Int} {res : K} {x : Side C} {tree : Option Tree} {covs : List C} {map : Option Map}
    (h : SideInv E k res (some x.cloud) tree covs map (some x)) :
    (covs.length ≠ (E.heap x.cloud).length → E.estimate (E.heap x.cloud) (E.mkTree (E.heap x.cloud)) k = covsOf E k x) ∧
    (¬ covs.length ≠ (E.heap x.cloud).length → covs = covsOf E k x) ∧ (covsOf E k x).length = (E.heap x.cloud).length := by
  rcases h.hcovs x rfl with ⟨h1, h2⟩ | ⟨h1, h2⟩
  · have he : covsOf E k x = E.estimate (E.heap x.cloud) (E.mkTree (E.heap x.cloud)) k := by unfold covsOf; rw [h2]; rfl
    have hl := hE (E.heap x.cloud) (E.mkTree (E.heap x.cloud)) k
    refine ⟨fun _ => he.symm, fun hn => ?_, by rw [he]; exact hl⟩
    have hz : (E.heap x.cloud).length = 0 := by rw [h1] at hn; simpa using (not_not.1 hn).symm
    rw [he, h1]
    rw [hz] at hl
    exact (List.length_eq_zero_iff.1 hl).symm
  · exact ⟨fun hn => absurd h2 hn, fun _ => h1, by rw [← h1]; exact h2⟩

/-- The object against the history. -/
structure Inv (E : Env P Tree C Map K) (st : State Tree C Map K) (h : History C) : Prop where
  source : SideInv E st.params.kCorrespondences st.params.voxelResolution st.input st.sourceTree st.sourceCovs st.sourceMap h.source
  target : SideInv E st.params.kCorrespondences st.params.voxelResolution st.target st.targetTree st.targetCovs st.targetMap h.target
  type : st.params.type = if h.voxelised then "VGICP" else "GICP"

theorem inv_init (E : Env P Tree C Map K) (n : Int) : Inv E (State.init n) (History.init : History C) :=
  ⟨sideInv_none E _ _ _ _ _, sideInv_none E _ _ _ _ _, rfl⟩

/-- A call that does not change what cached data were computed from. The number of neighbours may change (to another value) only while
no cloud has been aligned with estimated covariances, the voxel resolution only while no cloud has been aligned with VGICP, and
covariances may be handed over only for a cloud that has not been aligned with VGICP. -/
def SafeOp (E : Env P Tree C Map K) (p : Params K) (h : History C) : Op C K G → Prop
  | .setNumNeighborsForCovariance k => max k 5 = p.kCorrespondences ∨
      ∀ x, h.source = some x ∨ h.target = some x → x.used = false ∨ x.user.isSome = true
  | .setVoxelResolution r => (if p.voxelResolution ≤ 0 then 1 else r) = p.voxelResolution ∨ ∀ x, h.source = some x ∨ h.target = some x → x.mapped = false
  | .setSourceCovariances covs => ∀ x, h.source = some x → x.mapped = false ∨ covs.length ≠ (E.heap x.cloud).length
  | .setTargetCovariances covs => ∀ x, h.target = some x → x.mapped = false ∨ covs.length ≠ (E.heap x.cloud).length
  | _ => True

/-- Marking a cloud as aligned. -/
theorem sideInv_used {E : Env P Tree C Map K} {k : Int} {res : K} {x : Side C} {tree : Option Tree} {covs : List C} {map : Option Map}
    (h : SideInv E k res (some x.cloud) tree covs map (some x)) (hr : (covsOf E k x).length = (E.heap x.cloud).length) (vox : Bool) (map' : Option Map)
    (hm : map' = map ∨ (vox = true ∧ map' = some (E.mkMap res (E.heap x.cloud) (covsOf E k x)))) :
    SideInv E k res (some x.cloud) tree (covsOf E k x) map' (some { x with used := true, mapped := x.mapped || vox }) := by
  refine ⟨rfl, ?_, ?_, ?_, ?_⟩
  · rintro y ⟨⟩; exact h.htree x rfl
  · rintro y ⟨⟩; exact .inr ⟨rfl, hr⟩
  · rintro y ⟨⟩ hu; cases hu
  · rintro y m ⟨⟩ he
    rcases hm with rfl | ⟨hv, rfl⟩
    · obtain ⟨h1, h2, h3⟩ := h.hmap x m rfl he
      exact ⟨by simp [h1], rfl, h3⟩
    · cases he
      exact ⟨by simp [hv], rfl, rfl⟩

/-- An alignment uses what it should and keeps the invariant. -/
theorem align_inv {E : Env P Tree C Map K} (hE : ∀ pts t k, (E.estimate pts t k).length = pts.length) {st : State Tree C Map K} {h : History C} (hi : Inv E st h) (guess : G) :
    ∃ st', step E st (.align false guess) = .ok (st', expected E st.params h guess) ∧ Inv E st' (h.step E (.align false guess : Op C K G)) ∧ st'.params = st.params := by
  obtain ⟨p, input, target, stree, ttree, scovs, tcovs, smap, tmap⟩ := st
  obtain ⟨src, tgt, vox⟩ := h
  obtain ⟨hs, ht, hty⟩ := hi
  simp only at hs ht hty
  have hsc := hs.hcloud
  have htc := ht.hcloud
  cases src with
  | none =>
    simp only [Option.map_none] at hsc
    subst hsc
    refine ⟨_, by simp only [step, expected, reduceCtorEq, or_true, true_or, if_true], ?_, rfl⟩
    simp only [History.step]
    exact ⟨hs, ht, hty⟩
  | some s =>
    cases tgt with
    | none =>
      simp only [Option.map_none] at htc
      subst htc
      refine ⟨_, by simp only [step, expected, reduceCtorEq, or_true, true_or, if_true], ?_, rfl⟩
      simp only [History.step]
      exact ⟨hs, ht, hty⟩
    | some t =>
      simp only [Option.map_some] at hsc htc
      subst hsc
      subst htc
      have hst := hs.htree s rfl
      have htt := ht.htree t rfl
      subst hst
      subst htt
      obtain ⟨s1, s2, s3⟩ := covs_ready hE hs
      obtain ⟨t1, t2, t3⟩ := covs_ready hE ht
      have hsrc : ensureSourceCovs E s.cloud ⟨p, some s.cloud, some t.cloud, some (E.mkTree (E.heap s.cloud)), some (E.mkTree (E.heap t.cloud)), scovs, tcovs, smap, tmap⟩ =
          .ok ⟨p, some s.cloud, some t.cloud, some (E.mkTree (E.heap s.cloud)), some (E.mkTree (E.heap t.cloud)), covsOf E p.kCorrespondences s, tcovs, smap, tmap⟩ := by
        unfold ensureSourceCovs
        split
        · rename_i hn; simp only [deref, ok_bind, s1 hn]
        · rename_i hn; rw [← s2 hn]
      have htgt : ensureTargetCovs E t.cloud ⟨p, some s.cloud, some t.cloud, some (E.mkTree (E.heap s.cloud)), some (E.mkTree (E.heap t.cloud)), covsOf E p.kCorrespondences s, tcovs, smap, tmap⟩ =
          .ok ⟨p, some s.cloud, some t.cloud, some (E.mkTree (E.heap s.cloud)), some (E.mkTree (E.heap t.cloud)), covsOf E p.kCorrespondences s, covsOf E p.kCorrespondences t, smap, tmap⟩ := by
        unfold ensureTargetCovs
        split
        · rename_i hn; simp only [deref, ok_bind, t1 hn]
        · rename_i hn; rw [← t2 hn]
      simp only [step, reduceCtorEq, or_self, if_false, computeTransformation, deref, ok_bind, Bool.false_eq_true]
      rw [hsrc, ok_bind, htgt, ok_bind]
      simp only [register, deref, ok_bind]
      simp only [hty]
      cases vox with
      | false =>
        simp only [Bool.false_eq_true, if_false, if_true]
        refine ⟨_, by simp only [expected, hty, Bool.false_eq_true, if_false]; rfl, ?_, rfl⟩
        simp only [History.step, Bool.false_eq_true, if_false]
        exact ⟨sideInv_used hs s3 false _ (.inl rfl), sideInv_used ht t3 false _ (.inl rfl), hty⟩
      | true =>
        have hmap : ∀ {x : Side C} {tree covs} {map : Option Map}, SideInv E p.kCorrespondences p.voxelResolution (some x.cloud) tree covs map (some x) →
            map.getD (E.mkMap p.voxelResolution (E.heap x.cloud) (covsOf E p.kCorrespondences x)) = E.mkMap p.voxelResolution (E.heap x.cloud) (covsOf E p.kCorrespondences x) := by
          intro x tree covs map hx
          cases hm : map with
          | none => rfl
          | some m => exact (hx.hmap x m rfl hm).2.2
        simp only [if_true, show ("VGICP" = "GICP") = False by decide, if_false]
        refine ⟨_, by simp only [expected, hty, if_true, hmap ht, hmap hs]; rfl, ?_, rfl⟩
        simp only [History.step, Bool.false_eq_true, if_false]
        exact ⟨sideInv_used hs s3 true _ (.inr ⟨rfl, rfl⟩), sideInv_used ht t3 true _ (.inr ⟨rfl, rfl⟩), hty⟩

/-- Every call that does not change what cached data were computed from keeps the invariant. -/
theorem step_inv {E : Env P Tree C Map K} (hE : ∀ pts t k, (E.estimate pts t k).length = pts.length) {st st' : State Tree C Map K} {h : History C} (hi : Inv E st h) (op : Op C K G)
    (hsafe : SafeOp E st.params h op) {c : Option (Call P Tree C Map K G)} (hr : step E st op = .ok (st', c)) : Inv E st' (h.step E op) := by
  obtain ⟨hs, ht, hty⟩ := hi
  cases op with
  | setInputSource cloud =>
    simp only [step, setInputSource] at hr
    by_cases he : st.input = cloud
    · rw [if_pos he] at hr
      cases hr
      simp only [History.step]
      rw [← he, giveCloud_same hs]
      exact ⟨hs, ht, hty⟩
    · rw [if_neg he] at hr
      cases hb : baseSetInput E st.input cloud with
      | error e => rw [hb] at hr; cases hr
      | ok new =>
        rw [hb, ok_bind] at hr
        cases hbt : buildTree E new with
        | error e => rw [hbt] at hr; cases hr
        | ok t =>
          rw [hbt, ok_bind] at hr
          cases hr
          exact ⟨sideInv_cloud hs cloud new t he hb hbt, ht, hty⟩
  | setInputTarget cloud =>
    simp only [step, setInputTarget] at hr
    by_cases he : st.target = cloud
    · rw [if_pos he] at hr
      cases hr
      simp only [History.step]
      rw [← he, giveCloud_same ht]
      exact ⟨hs, ht, hty⟩
    · rw [if_neg he] at hr
      cases hb : baseSetInput E st.target cloud with
      | error e => rw [hb] at hr; cases hr
      | ok new =>
        rw [hb, ok_bind] at hr
        cases hbt : buildTree E new with
        | error e => rw [hbt] at hr; cases hr
        | ok t =>
          rw [hbt, ok_bind] at hr
          cases hr
          exact ⟨hs, sideInv_cloud ht cloud new t he hb hbt, hty⟩
  | setSourceCovariances covs =>
    simp only [step, Except.ok.injEq, Prod.mk.injEq] at hr
    obtain ⟨rfl, -⟩ := hr
    have hc := hs.hcloud
    cases hx : h.source with
    | none =>
      rw [hx] at hc hs
      simp only [setSourceCovariances, hc, History.step, hx, giveCovs, Option.map_none]
      exact ⟨by simpa only [Option.map_none] using hs, ht, hty⟩
    | some x =>
      rw [hx] at hc hs
      simp only [Option.map_some] at hc
      rw [hc] at hs
      simp only [setSourceCovariances, hc, History.step, hx, giveCovs, Option.map_some]
      by_cases hl : covs.length = (E.heap x.cloud).length
      · rw [if_neg (not_not.2 hl), if_pos hl]
        exact ⟨by simpa only [hc] using sideInv_covs hs covs hl ((hsafe x hx).resolve_right (not_not.2 hl)), ht, hty⟩
      · rw [if_pos hl, if_neg hl]
        exact ⟨by simpa only [hc] using hs, ht, hty⟩
  | setTargetCovariances covs =>
    simp only [step, Except.ok.injEq, Prod.mk.injEq] at hr
    obtain ⟨rfl, -⟩ := hr
    have hc := ht.hcloud
    cases hx : h.target with
    | none =>
      rw [hx] at hc ht
      simp only [setTargetCovariances, hc, History.step, hx, giveCovs, Option.map_none]
      exact ⟨hs, by simpa only [Option.map_none] using ht, hty⟩
    | some x =>
      rw [hx] at hc ht
      simp only [Option.map_some] at hc
      rw [hc] at ht
      simp only [setTargetCovariances, hc, History.step, hx, giveCovs, Option.map_some]
      by_cases hl : covs.length = (E.heap x.cloud).length
      · rw [if_neg (not_not.2 hl), if_pos hl]
        exact ⟨hs, by simpa only [hc] using sideInv_covs ht covs hl ((hsafe x hx).resolve_right (not_not.2 hl)), hty⟩
      · rw [if_pos hl, if_neg hl]
        exact ⟨hs, by simpa only [hc] using ht, hty⟩
  | swapSourceAndTarget => cases hr; exact ⟨ht, hs, hty⟩
  | clearSource => cases hr; exact ⟨sideInv_none E _ _ _ _ _, ht, hty⟩
  | clearTarget => cases hr; exact ⟨hs, sideInv_none E _ _ _ _ _, hty⟩
  | setNumNeighborsForCovariance k =>
    cases hr
    have hk : (setNumNeighborsForCovariance k st.params).kCorrespondences = max k 5 := by
      simp only [setNumNeighborsForCovariance]
      split <;> omega
    have hs' := sideInv_k (k' := max k 5) hs (hsafe.imp id fun h x hx => h x (.inl hx))
    have ht' := sideInv_k (k' := max k 5) ht (hsafe.imp id fun h x hx => h x (.inr hx))
    rw [← hk] at hs' ht'
    exact ⟨hs', ht', hty⟩
  | setVoxelResolution r =>
    cases hr
    have hs' := sideInv_res (res' := if st.params.voxelResolution ≤ 0 then 1 else r) hs (hsafe.imp id fun h x hx => h x (.inl hx))
    have ht' := sideInv_res (res' := if st.params.voxelResolution ≤ 0 then 1 else r) ht (hsafe.imp id fun h x hx => h x (.inr hx))
    exact ⟨hs', ht', hty⟩
  | setRegistrationType t =>
    cases hr
    have hp : (setRegistrationType t st.params).kCorrespondences = st.params.kCorrespondences ∧ (setRegistrationType t st.params).voxelResolution = st.params.voxelResolution := by
      unfold setRegistrationType
      split
      · exact ⟨rfl, rfl⟩
      · split <;> exact ⟨rfl, rfl⟩
    refine ⟨by simpa only [hp.1, hp.2, History.step] using hs, by simpa only [hp.1, hp.2, History.step] using ht, ?_⟩
    simp only [History.step, setRegistrationType]
    by_cases h1 : t = "GICP"
    · subst h1; simp
    · by_cases h2 : t = "VGICP"
      · subst h2; simp
      · simp only [h1, h2, if_false]; exact hty
  | align aliased guess =>
    cases aliased with
    | false =>
      obtain ⟨st1, h1, h2, -⟩ := align_inv hE ⟨hs, ht, hty⟩ guess
      rw [h1] at hr
      cases hr
      exact h2
    | true =>
      have : st' = st ∧ h.step E (.align true guess : Op C K G) = h := by
        refine ⟨?_, ?_⟩
        · simp only [step] at hr
          by_cases hn : st.input = none ∨ st.target = none
          · rw [if_pos hn] at hr; cases hr; rfl
          · rw [if_neg hn] at hr
            cases hin : st.input with
            | none => exact absurd (.inl hin) hn
            | some a =>
              cases htn : st.target with
              | none => exact absurd (.inr htn) hn
              | some b =>
                simp only [computeTransformation, hin, htn, deref, ok_bind, if_true, Except.ok.injEq, Prod.mk.injEq] at hr
                exact hr.1.symm
        · simp only [History.step, if_true]
          split <;> rfl
      rw [this.1, this.2]
      exact ⟨hs, ht, hty⟩
  | _ => cases hr; exact ⟨hs, ht, hty⟩

theorem run_append (E : Env P Tree C Map K) : ∀ (a b : List (Op C K G)) (st : State Tree C Map K), run E st (a ++ b) = (do
    let (st1, c1) ← run E st a
    let (st2, c2) ← run E st1 b
    .ok (st2, c1 ++ c2))
  | [], b, st => by
    simp only [List.nil_append, run, ok_bind]
    cases run E st b <;> rfl
  | op :: a, b, st => by
    simp only [List.cons_append, run]
    cases step E st op with
    | error e => rfl
    | ok x =>
      simp only [ok_bind]
      rw [run_append E a b x.1]
      cases run E x.1 a with
      | error e => rfl
      | ok y =>
        simp only [ok_bind]
        cases run E y.1 b <;> rfl

/-- No call of a history changes what cached data were computed from. -/
def Safe (E : Env P Tree C Map K) (n0 : Int) (ops : List (Op C K G)) : Prop :=
  ∀ pre op post, ops = pre ++ op :: post → ∀ st cs, run E (State.init n0) pre = .ok (st, cs) → SafeOp E st.params (history E pre) op

theorem safe_inv {E : Env P Tree C Map K} (hE : ∀ pts t k, (E.estimate pts t k).length = pts.length) (n0 : Int) (ops : List (Op C K G)) :
    Safe E n0 ops → ∀ st cs, run E (State.init n0) ops = .ok (st, cs) → Inv E st (history E ops) := by
  induction ops using List.reverseRecOn with
  | nil =>
    intro _ st cs hr
    cases hr
    exact inv_init E n0
  | append_singleton ops op ih =>
    intro hsafe st cs hr
    rw [run_append] at hr
    cases h1 : run E (State.init n0) ops with
    | error e => rw [h1] at hr; cases hr
    | ok x =>
      rw [h1, ok_bind] at hr
      simp only [run] at hr
      cases h2 : step E x.1 op with
      | error e => rw [h2] at hr; cases hr
      | ok y =>
        rw [h2] at hr
        cases hr
        have hi := ih (fun pre o post he => hsafe pre o (post ++ [op]) (by rw [he]; simp)) x.1 x.2 h1
        rw [show history E (ops ++ [op]) = (history E ops).step E op by simp [history]]
        exact step_inv hE hi op (hsafe ops op [] rfl x.1 x.2 h1) h2

/-- After any history of calls in which nothing that cached data depend on was changed behind them (`Safe`), an alignment runs, and it
runs on exactly the data a fresh object would use: the clouds set last, their covariances (handed over, or estimated with the current
number of neighbours), their search tree, a voxel map of the current resolution and the current parameters. Missing: histories that are
not `Safe` (false, see the `C51_*_violated` theorems). -/
theorem C51_fresh_partial (E : Env P Tree C Map K) (hE : ∀ pts t k, (E.estimate pts t k).length = pts.length) (n0 : Int) (ops : List (Op C K G)) (hsafe : Safe E n0 ops)
    (st : State Tree C Map K) (cs : List (Option (Call P Tree C Map K G))) (hr : run E (State.init n0) ops = .ok (st, cs)) (guess : G) :
    ∃ st', step E st (.align false guess) = .ok (st', expected E st.params (history E ops) guess) := by
  obtain ⟨st', h, -⟩ := align_inv hE (safe_inv hE n0 ops hsafe st cs hr) guess
  exact ⟨st', h⟩

/-- What holds for one cloud after any history. -/
structure SideOk (E : Env P Tree C Map K) (cloud : Option Nat) (tree : Option Tree) (covs : List C) (s : Option (Side C)) : Prop where
  hcloud : cloud = s.map Side.cloud
  htree : ∀ c, cloud = some c → tree = some (E.mkTree (E.heap c))
  hcovs : ∀ c, cloud = some c → covs = [] ∨ covs.length = (E.heap c).length

theorem sideOk_cloud {E : Env P Tree C Map K} {cloud : Option Nat} {tree : Option Tree} {covs : List C} {s : Option (Side C)}
    (h : SideOk E cloud tree covs s) (c new : Option Nat) (t : Tree) (hne : cloud ≠ c) (hb : baseSetInput E cloud c = .ok new) (ht : buildTree E new = .ok t) :
    SideOk E new (some t) [] (giveCloud E c s) := by
  have hc := h.hcloud
  subst hc
  unfold giveCloud
  rw [if_neg hne]
  cases c with
  | none => simp [baseSetInput] at hb
  | some c =>
    simp only [baseSetInput, Except.ok.injEq] at hb
    subst hb
    refine ⟨?_, ?_, fun _ _ => .inl rfl⟩
    · simp only
      split <;> simp [Option.map_map, Function.comp_def]
    · intro d hd
      rw [hd] at ht
      simp only [buildTree, Except.ok.injEq] at ht
      rw [ht]

theorem sideOk_covs {E : Env P Tree C Map K} {cloud : Option Nat} {tree : Option Tree} {covs : List C} {s : Option (Side C)}
    (h : SideOk E cloud tree covs s) (new covs' : List C)
    (hc : ∀ c, cloud = some c → covs' = covs ∨ (covs' = new ∧ new.length = (E.heap c).length)) :
    SideOk E cloud tree covs' (giveCovs E new s) := by
  refine ⟨?_, h.htree, ?_⟩
  · rw [h.hcloud]
    cases s with
    | none => rfl
    | some x =>
      simp only [giveCovs, Option.map_some]
      split <;> rfl
  · intro c he
    rcases hc c he with rfl | ⟨rfl, hl⟩
    · exact h.hcovs c he
    · exact .inr hl

/-- The object after any history. -/
structure Ok (E : Env P Tree C Map K) (st : State Tree C Map K) (h : History C) : Prop where
  source : SideOk E st.input st.sourceTree st.sourceCovs h.source
  target : SideOk E st.target st.targetTree st.targetCovs h.target
  type : st.params.type = if h.voxelised then "VGICP" else "GICP"

theorem align_ok {E : Env P Tree C Map K} (hE : ∀ pts t k, (E.estimate pts t k).length = pts.length) {st : State Tree C Map K} {h : History C} (hi : Ok E st h) (guess : G) :
    ∃ st' c, step E st (.align false guess) = .ok (st', c) ∧ Ok E st' (h.step E (.align false guess : Op C K G)) ∧
      (c.isSome = true ↔ h.source.isSome = true ∧ h.target.isSome = true) ∧
      ∀ c', c = some c' → ∃ s t, h.source = some s ∧ h.target = some t ∧ c'.sourcePoints = E.heap s.cloud ∧ c'.sourceCovs.length = (E.heap s.cloud).length ∧
        ∀ pts covs tree, c'.target = .cloud pts covs tree → pts = E.heap t.cloud ∧ covs.length = (E.heap t.cloud).length ∧ tree = E.mkTree (E.heap t.cloud) := by
  obtain ⟨p, input, target, stree, ttree, scovs, tcovs, smap, tmap⟩ := st
  obtain ⟨src, tgt, vox⟩ := h
  obtain ⟨hs, ht, hty⟩ := hi
  simp only at hs ht hty
  have hsc := hs.hcloud
  have htc := ht.hcloud
  cases src with
  | none =>
    simp only [Option.map_none] at hsc
    subst hsc
    refine ⟨⟨p, none, target, stree, ttree, scovs, tcovs, smap, tmap⟩, none, by simp only [step, reduceCtorEq, or_true, true_or, if_true], ⟨hs, ht, hty⟩, by simp, by simp⟩
  | some s =>
    cases tgt with
    | none =>
      simp only [Option.map_none] at htc
      subst htc
      refine ⟨⟨p, input, none, stree, ttree, scovs, tcovs, smap, tmap⟩, none, by simp only [step, reduceCtorEq, or_true, true_or, if_true], ⟨hs, ht, hty⟩, by simp, by simp⟩
    | some t =>
      simp only [Option.map_some] at hsc htc
      subst hsc
      subst htc
      have hst := hs.htree _ rfl
      have htt := ht.htree _ rfl
      subst hst
      subst htt
      obtain ⟨sc, hsl, hsrc⟩ : ∃ sc : List C, sc.length = (E.heap s.cloud).length ∧
          ensureSourceCovs E s.cloud ⟨p, some s.cloud, some t.cloud, some (E.mkTree (E.heap s.cloud)), some (E.mkTree (E.heap t.cloud)), scovs, tcovs, smap, tmap⟩ =
          .ok ⟨p, some s.cloud, some t.cloud, some (E.mkTree (E.heap s.cloud)), some (E.mkTree (E.heap t.cloud)), sc, tcovs, smap, tmap⟩ := by
        unfold ensureSourceCovs
        split
        · exact ⟨_, hE _ _ _, rfl⟩
        · rename_i hn; exact ⟨_, not_not.1 hn, rfl⟩
      obtain ⟨tc, htl, htgt⟩ : ∃ tc : List C, tc.length = (E.heap t.cloud).length ∧
          ensureTargetCovs E t.cloud ⟨p, some s.cloud, some t.cloud, some (E.mkTree (E.heap s.cloud)), some (E.mkTree (E.heap t.cloud)), sc, tcovs, smap, tmap⟩ =
          .ok ⟨p, some s.cloud, some t.cloud, some (E.mkTree (E.heap s.cloud)), some (E.mkTree (E.heap t.cloud)), sc, tc, smap, tmap⟩ := by
        unfold ensureTargetCovs
        split
        · exact ⟨_, hE _ _ _, rfl⟩
        · rename_i hn; exact ⟨_, not_not.1 hn, rfl⟩
      have hs' : SideOk E (some s.cloud) (some (E.mkTree (E.heap s.cloud))) sc (some { s with used := true, mapped := s.mapped || vox }) :=
        ⟨rfl, fun c hc => by cases hc; rfl, fun c hc => by cases hc; exact .inr hsl⟩
      have ht' : SideOk E (some t.cloud) (some (E.mkTree (E.heap t.cloud))) tc (some { t with used := true, mapped := t.mapped || vox }) :=
        ⟨rfl, fun c hc => by cases hc; rfl, fun c hc => by cases hc; exact .inr htl⟩
      simp only [step, reduceCtorEq, or_self, if_false, computeTransformation, deref, ok_bind, Bool.false_eq_true]
      rw [hsrc, ok_bind, htgt, ok_bind]
      simp only [register, deref, ok_bind]
      simp only [hty]
      cases vox with
      | false =>
        simp only [Bool.false_eq_true, if_false, if_true]
        refine ⟨_, _, rfl, ?_, by simp, ?_⟩
        · simp only [History.step, Bool.false_eq_true, if_false]
          exact ⟨hs', ht', hty⟩
        · rintro c' ⟨⟩
          refine ⟨s, t, rfl, rfl, rfl, hsl, ?_⟩
          rintro pts covs tree ⟨⟩
          exact ⟨rfl, htl, rfl⟩
      | true =>
        simp only [if_true, show ("VGICP" = "GICP") = False by decide, if_false]
        refine ⟨_, _, rfl, ?_, by simp, ?_⟩
        · simp only [History.step, Bool.false_eq_true, if_false]
          exact ⟨hs', ht', hty⟩
        · rintro c' ⟨⟩
          refine ⟨s, t, rfl, rfl, rfl, hsl, ?_⟩
          rintro pts covs tree hc
          cases hc

theorem step_ok {E : Env P Tree C Map K} (hE : ∀ pts t k, (E.estimate pts t k).length = pts.length) {st st' : State Tree C Map K} {h : History C} (hi : Ok E st h) (op : Op C K G)
    {c : Option (Call P Tree C Map K G)} (hr : step E st op = .ok (st', c)) : Ok E st' (h.step E op) := by
  obtain ⟨hs, ht, hty⟩ := hi
  cases op with
  | setInputSource cloud =>
    simp only [step, setInputSource] at hr
    by_cases he : st.input = cloud
    · rw [if_pos he] at hr
      cases hr
      simp only [History.step, giveCloud]
      rw [if_pos (by rw [← he, hs.hcloud])]
      exact ⟨hs, ht, hty⟩
    · rw [if_neg he] at hr
      cases hb : baseSetInput E st.input cloud with
      | error e => rw [hb] at hr; cases hr
      | ok new =>
        rw [hb, ok_bind] at hr
        cases hbt : buildTree E new with
        | error e => rw [hbt] at hr; cases hr
        | ok t =>
          rw [hbt, ok_bind] at hr
          cases hr
          exact ⟨sideOk_cloud hs cloud new t he hb hbt, ht, hty⟩
  | setInputTarget cloud =>
    simp only [step, setInputTarget] at hr
    by_cases he : st.target = cloud
    · rw [if_pos he] at hr
      cases hr
      simp only [History.step, giveCloud]
      rw [if_pos (by rw [← he, ht.hcloud])]
      exact ⟨hs, ht, hty⟩
    · rw [if_neg he] at hr
      cases hb : baseSetInput E st.target cloud with
      | error e => rw [hb] at hr; cases hr
      | ok new =>
        rw [hb, ok_bind] at hr
        cases hbt : buildTree E new with
        | error e => rw [hbt] at hr; cases hr
        | ok t =>
          rw [hbt, ok_bind] at hr
          cases hr
          exact ⟨hs, sideOk_cloud ht cloud new t he hb hbt, hty⟩
  | setSourceCovariances covs =>
    simp only [step, Except.ok.injEq, Prod.mk.injEq] at hr
    obtain ⟨rfl, -⟩ := hr
    have hc : ∀ c, st.input = some c → (setSourceCovariances E covs st).sourceCovs = st.sourceCovs ∨ ((setSourceCovariances E covs st).sourceCovs = covs ∧ covs.length = (E.heap c).length) := by
      intro c hc
      simp only [setSourceCovariances, hc]
      split
      · exact .inl rfl
      · rename_i hl; exact .inr ⟨rfl, not_not.1 hl⟩
    have hrest : setSourceCovariances E covs st = { st with sourceCovs := (setSourceCovariances E covs st).sourceCovs } := by
      unfold setSourceCovariances
      split
      · rfl
      · split <;> rfl
    rw [hrest]
    exact ⟨sideOk_covs hs covs _ hc, ht, hty⟩
  | setTargetCovariances covs =>
    simp only [step, Except.ok.injEq, Prod.mk.injEq] at hr
    obtain ⟨rfl, -⟩ := hr
    have hc : ∀ c, st.target = some c → (setTargetCovariances E covs st).targetCovs = st.targetCovs ∨ ((setTargetCovariances E covs st).targetCovs = covs ∧ covs.length = (E.heap c).length) := by
      intro c hc
      simp only [setTargetCovariances, hc]
      split
      · exact .inl rfl
      · rename_i hl; exact .inr ⟨rfl, not_not.1 hl⟩
    have hrest : setTargetCovariances E covs st = { st with targetCovs := (setTargetCovariances E covs st).targetCovs } := by
      unfold setTargetCovariances
      split
      · rfl
      · split <;> rfl
    rw [hrest]
    exact ⟨hs, sideOk_covs ht covs _ hc, hty⟩
  | swapSourceAndTarget => cases hr; exact ⟨ht, hs, hty⟩
  | clearSource => cases hr; exact ⟨⟨rfl, fun c hc => (by cases hc), fun c hc => (by cases hc)⟩, ht, hty⟩
  | clearTarget => cases hr; exact ⟨hs, ⟨rfl, fun c hc => (by cases hc), fun c hc => (by cases hc)⟩, hty⟩
  | setRegistrationType t =>
    cases hr
    refine ⟨hs, ht, ?_⟩
    simp only [History.step, setRegistrationType]
    by_cases h1 : t = "GICP"
    · subst h1; simp
    · by_cases h2 : t = "VGICP"
      · subst h2; simp
      · simp only [h1, h2, if_false]; exact hty
  | align aliased guess =>
    cases aliased with
    | false =>
      obtain ⟨st1, c1, h1, h2, -⟩ := align_ok hE ⟨hs, ht, hty⟩ guess
      rw [h1] at hr
      cases hr
      exact h2
    | true =>
      have : st' = st ∧ h.step E (.align true guess : Op C K G) = h := by
        refine ⟨?_, ?_⟩
        · simp only [step] at hr
          by_cases hn : st.input = none ∨ st.target = none
          · rw [if_pos hn] at hr; cases hr; rfl
          · rw [if_neg hn] at hr
            cases hin : st.input with
            | none => exact absurd (.inl hin) hn
            | some a =>
              cases htn : st.target with
              | none => exact absurd (.inr htn) hn
              | some b =>
                simp only [computeTransformation, hin, htn, deref, ok_bind, if_true, Except.ok.injEq, Prod.mk.injEq] at hr
                exact hr.1.symm
        · simp only [History.step, if_true]
          split <;> rfl
      rw [this.1, this.2]
      exact ⟨hs, ht, hty⟩
  | _ => cases hr; exact ⟨hs, ht, hty⟩

theorem run_ok_inv {E : Env P Tree C Map K} (hE : ∀ pts t k, (E.estimate pts t k).length = pts.length) : ∀ (ops : List (Op C K G)) (st : State Tree C Map K) (h : History C), Ok E st h →
    ∀ st' cs, run E st ops = .ok (st', cs) → Ok E st' (ops.foldl (History.step E) h)
  | [], st, h, hi, st', cs, hr => by cases hr; exact hi
  | op :: ops, st, h, hi, st', cs, hr => by
    simp only [run] at hr
    cases h2 : step E st op with
    | error e => rw [h2] at hr; cases hr
    | ok y =>
      rw [h2, ok_bind] at hr
      cases h3 : run E y.1 ops with
      | error e => simp only [h3] at hr; cases hr
      | ok z =>
        simp only [h3, ok_bind] at hr
        cases hr
        exact run_ok_inv hE ops y.1 _ (step_ok hE hi op h2) _ _ h3

/-- After every history, without exception, an alignment runs without error exactly if both clouds are set, its points and its search
tree are those of the clouds set last, and there is one covariance per point. -/
theorem C51_clouds (E : Env P Tree C Map K) (hE : ∀ pts t k, (E.estimate pts t k).length = pts.length) (n0 : Int) (ops : List (Op C K G))
    (st : State Tree C Map K) (cs : List (Option (Call P Tree C Map K G))) (hr : run E (State.init n0) ops = .ok (st, cs)) (guess : G) :
    ∃ st' c, step E st (.align false guess) = .ok (st', c) ∧
      (c.isSome = true ↔ (history E ops).source.isSome = true ∧ (history E ops).target.isSome = true) ∧
      ∀ c', c = some c' → ∃ s t, (history E ops).source = some s ∧ (history E ops).target = some t ∧
        c'.sourcePoints = E.heap s.cloud ∧ c'.sourceCovs.length = (E.heap s.cloud).length ∧
        ∀ pts covs tree, c'.target = .cloud pts covs tree → pts = E.heap t.cloud ∧ covs.length = (E.heap t.cloud).length ∧ tree = E.mkTree (E.heap t.cloud) := by
  have h0 : Ok E (State.init n0 : State Tree C Map K) History.init :=
    ⟨⟨rfl, fun c hc => (by cases hc), fun c hc => (by cases hc)⟩, ⟨rfl, fun c hc => (by cases hc), fun c hc => (by cases hc)⟩, rfl⟩
  obtain ⟨st', c, h1, -, h2, h3⟩ := align_ok hE (run_ok_inv hE ops _ _ h0 st cs hr) guess
  exact ⟨st', c, h1, h2, h3⟩

/-- A history that only hands over accepted clouds never fails. -/
theorem C51_no_fault (E : Env P Tree C Map K) (hE : ∀ pts t k, (E.estimate pts t k).length = pts.length) (n0 : Int) (ops : List (Op C K G))
    (hops : ∀ op ∈ ops, ∀ c, op = .setInputSource c ∨ op = .setInputTarget c → ∃ i, c = some i ∧ E.accepts i = true) :
    ∃ st cs, run E (State.init n0) ops = .ok (st, cs) := by
  have h0 : Ok E (State.init n0 : State Tree C Map K) History.init :=
    ⟨⟨rfl, fun c hc => (by cases hc), fun c hc => (by cases hc)⟩, ⟨rfl, fun c hc => (by cases hc), fun c hc => (by cases hc)⟩, rfl⟩
  have hstep : ∀ (st : State Tree C Map K) (h : History C) (op : Op C K G), Ok E st h →
      (∀ c, op = .setInputSource c ∨ op = .setInputTarget c → ∃ i, c = some i ∧ E.accepts i = true) → ∃ y, step E st op = .ok y := by
    intro st h op hi hop
    cases op with
    | setInputSource c =>
      obtain ⟨i, rfl, ha⟩ := hop c (.inl rfl)
      simp only [step, setInputSource]
      split
      · exact ⟨_, rfl⟩
      · simp only [baseSetInput, ha, if_true, ok_bind, buildTree]; exact ⟨_, rfl⟩
    | setInputTarget c =>
      obtain ⟨i, rfl, ha⟩ := hop c (.inr rfl)
      simp only [step, setInputTarget]
      split
      · exact ⟨_, rfl⟩
      · simp only [baseSetInput, ha, if_true, ok_bind, buildTree]; exact ⟨_, rfl⟩
    | align aliased guess =>
      cases aliased with
      | false => obtain ⟨st', c, h1, -⟩ := align_ok hE hi guess; exact ⟨_, h1⟩
      | true =>
        simp only [step]
        split
        · exact ⟨_, rfl⟩
        · rename_i hn
          cases hin : st.input with
          | none => exact absurd (.inl hin) hn
          | some a =>
            cases htn : st.target with
            | none => exact absurd (.inr htn) hn
            | some b =>
              simp only [computeTransformation, hin, htn, deref, ok_bind, if_true]
              exact ⟨_, rfl⟩
    | _ => exact ⟨_, rfl⟩
  have gen : ∀ (ops : List (Op C K G)) (st : State Tree C Map K) (h : History C), Ok E st h →
      (∀ op ∈ ops, ∀ c, op = .setInputSource c ∨ op = .setInputTarget c → ∃ i, c = some i ∧ E.accepts i = true) → ∃ st' cs, run E st ops = .ok (st', cs) := by
    intro ops
    induction ops with
    | nil => intro st h _ _; exact ⟨_, _, rfl⟩
    | cons op ops ih =>
      intro st h hi hall
      obtain ⟨⟨st1, c1⟩, h1⟩ := hstep st h op hi (hall op List.mem_cons_self)
      obtain ⟨st2, cs, h2⟩ := ih st1 _ (step_ok hE hi op h1) (fun o ho => hall o (List.mem_cons_of_mem _ ho))
      exact ⟨st2, c1 :: cs, by simp only [run, h1, ok_bind, h2]⟩
  exact gen ops _ _ h0 hops

/-- Swapping exchanges everything that belongs to a cloud and nothing else; swapping twice changes nothing. -/
theorem C51_swap (st : State Tree C Map K) :
    (swapSourceAndTarget st).input = st.target ∧ (swapSourceAndTarget st).target = st.input ∧
    (swapSourceAndTarget st).sourceTree = st.targetTree ∧ (swapSourceAndTarget st).targetTree = st.sourceTree ∧
    (swapSourceAndTarget st).sourceCovs = st.targetCovs ∧ (swapSourceAndTarget st).targetCovs = st.sourceCovs ∧
    (swapSourceAndTarget st).sourceMap = st.targetMap ∧ (swapSourceAndTarget st).targetMap = st.sourceMap ∧
    (swapSourceAndTarget st).params = st.params ∧ swapSourceAndTarget (swapSourceAndTarget st) = st :=
  ⟨rfl, rfl, rfl, rfl, rfl, rfl, rfl, rfl, rfl, rfl⟩

/-! ### C51: what goes wrong -/

/-- Two-point clouds; trees, covariances and maps record what they were made from. -/
def recording : Env Nat (List Nat) (Int × Nat) (ℚ × List Nat × List (Int × Nat)) ℚ where
  heap := fun i => [i, i + 10]
  accepts := fun _ => true
  mkTree := id
  estimate := fun pts _ k => pts.map fun x => (k, x)
  mkMap := fun r pts covs => (r, pts, covs)

abbrev RecOp := Op (Int × Nat) ℚ Unit

/-- Two clouds are set and aligned with VGICP. -/
def alignedOps : List RecOp := [.setInputTarget (some 1), .setInputSource (some 2), .setRegistrationType "VGICP", .align false ()]

/-- After a VGICP alignment a new voxel resolution has no effect on the next one: the map still has resolution 1. -/
theorem C51_resolution_violated : ∃ st cs st' c, run recording (State.init 10) (alignedOps ++ [.setVoxelResolution 2]) = .ok (st, cs) ∧
    step recording st (.align false ()) = .ok (st', some c) ∧ st.params.voxelResolution = 2 ∧
    c.target = .voxelmap (1, [1, 11], [(20, 1), (20, 11)]) ∧
    some c ≠ expected recording st.params (history recording (alignedOps ++ [.setVoxelResolution 2])) () := by
  refine ⟨_, _, _, _, rfl, rfl, ?_, rfl, ?_⟩
  · simp [setVoxelResolution, setRegistrationType, State.init]
  · intro h
    have := congrArg (Option.map Call.target) h
    revert this
    decide +kernel

/-- Covariances handed over for the target after a VGICP alignment are ignored by the next one. -/
theorem C51_covariances_violated : ∃ st cs st' c, run recording (State.init 10) (alignedOps ++ [.setTargetCovariances [(7, 7), (8, 8)]]) = .ok (st, cs) ∧
    step recording st (.align false ()) = .ok (st', some c) ∧ st.targetCovs = [(7, 7), (8, 8)] ∧
    c.target = .voxelmap (1, [1, 11], [(20, 1), (20, 11)]) ∧
    some c ≠ expected recording st.params (history recording (alignedOps ++ [.setTargetCovariances [(7, 7), (8, 8)]])) () := by
  refine ⟨_, _, _, _, rfl, rfl, rfl, rfl, ?_⟩
  intro h
  have := congrArg (Option.map Call.target) h
  revert this
  decide +kernel

/-- So are covariances handed over for the source, once source and target are swapped. -/
theorem C51_swapped_covariances_violated : ∃ st cs st' c,
    run recording (State.init 10) (alignedOps ++ [.setSourceCovariances [(7, 7), (8, 8)], .swapSourceAndTarget]) = .ok (st, cs) ∧
    step recording st (.align false ()) = .ok (st', some c) ∧ st.targetCovs = [(7, 7), (8, 8)] ∧
    c.target = .voxelmap (1, [2, 12], [(20, 2), (20, 12)]) := ⟨_, _, _, _, rfl, rfl, rfl, rfl⟩

/-- A new number of neighbours has no effect on clouds that have been aligned: their covariances stay those of 20 neighbours. -/
theorem C51_neighbours_violated : ∃ st cs st' c, run recording (State.init 10) (alignedOps ++ [.setRegistrationType "GICP", .setNumNeighborsForCovariance 10]) = .ok (st, cs) ∧
    step recording st (.align false ()) = .ok (st', some c) ∧ st.params.kCorrespondences = 10 ∧
    c.target = .cloud [1, 11] [(20, 1), (20, 11)] [1, 11] ∧ c.sourceCovs = [(20, 2), (20, 12)] := ⟨_, _, _, _, rfl, rfl, rfl, rfl, rfl⟩

/-! ### C52 -/

theorem step_params {E : Env P Tree C Map K} {st st' : State Tree C Map K} {op : Op C K G} {c : Option (Call P Tree C Map K G)} (hr : step E st op = .ok (st', c)) :
    st'.params = match op with
      | .setNumThreads n => setNumThreads n st.params
      | .setNumNeighborsForCovariance k => setNumNeighborsForCovariance k st.params
      | .setVoxelResolution r => setVoxelResolution r st.params
      | .setRotationEpsilon e => setRotationEpsilon e st.params
      | .setRegistrationType t => setRegistrationType t st.params
      | .setVerbosity v => setVerbosity v st.params
      | .setMaxCorrespondenceDistance d => { st.params with corrDist := d }
      | .setTransformationEpsilon e => { st.params with translationEps := e }
      | .setMaximumIterations n => { st.params with maxIterations := n }
      | _ => st.params := by
  cases op with
  | setInputSource cloud =>
    simp only [step, setInputSource] at hr
    split at hr
    · cases hr; rfl
    · cases hb : baseSetInput E st.input cloud with
      | error e => rw [hb] at hr; cases hr
      | ok new =>
        rw [hb, ok_bind] at hr
        cases hbt : buildTree E new with
        | error e => rw [hbt] at hr; cases hr
        | ok t => rw [hbt, ok_bind] at hr; cases hr; rfl
  | setInputTarget cloud =>
    simp only [step, setInputTarget] at hr
    split at hr
    · cases hr; rfl
    · cases hb : baseSetInput E st.target cloud with
      | error e => rw [hb] at hr; cases hr
      | ok new =>
        rw [hb, ok_bind] at hr
        cases hbt : buildTree E new with
        | error e => rw [hbt] at hr; cases hr
        | ok t => rw [hbt, ok_bind] at hr; cases hr; rfl
  | setSourceCovariances covs =>
    cases hr
    simp only [setSourceCovariances]
    split
    · rfl
    · split <;> rfl
  | setTargetCovariances covs =>
    cases hr
    simp only [setTargetCovariances]
    split
    · rfl
    · split <;> rfl
  | align aliased guess =>
    have hc : ∀ y, computeTransformation E aliased guess st = .ok y → y.1.params = st.params := by
      intro y hy
      unfold computeTransformation at hy
      cases hin : deref st.input with
      | error e => rw [hin] at hy; cases hy
      | ok a =>
        cases htn : deref st.target with
        | error e => rw [hin, htn] at hy; cases hy
        | ok b =>
          rw [hin, htn, ok_bind, ok_bind] at hy
          cases aliased with
          | true => cases hy
          | false =>
            simp only [Bool.false_eq_true, if_false] at hy
            cases h1 : ensureSourceCovs E a st with
            | error e => rw [h1] at hy; cases hy
            | ok s1 =>
              rw [h1, ok_bind] at hy
              cases h2 : ensureTargetCovs E b s1 with
              | error e => rw [h2] at hy; cases hy
              | ok s2 =>
                rw [h2, ok_bind] at hy
                have e1 : s1.params = st.params := by
                  unfold ensureSourceCovs at h1
                  split at h1
                  · cases hd : deref st.sourceTree with
                    | error e => rw [hd] at h1; cases h1
                    | ok t => rw [hd, ok_bind] at h1; cases h1; rfl
                  · cases h1; rfl
                have e2 : s2.params = s1.params := by
                  unfold ensureTargetCovs at h2
                  split at h2
                  · cases hd : deref s1.targetTree with
                    | error e => rw [hd] at h2; cases h2
                    | ok t => rw [hd, ok_bind] at h2; cases h2; rfl
                  · cases h2; rfl
                unfold register at hy
                split at hy
                · cases hd : deref s2.targetTree with
                  | error e => rw [hd] at hy; cases hy
                  | ok t => rw [hd, ok_bind] at hy; cases hy; exact e2.trans e1
                · split at hy
                  · cases hy; exact e2.trans e1
                  · cases hy; exact e2.trans e1
    simp only [step] at hr
    split at hr
    · cases hr; rfl
    · split at hr
      · cases hr; rfl
      · exact hc _ hr
  | _ => cases hr; rfl

/-- Property of the parameters that every setter keeps holds after every history. -/
theorem params_inv {E : Env P Tree C Map K} (Q : Params K → Prop) (ok : Op C K G → Prop)
    (hstep : ∀ st st' op c, Q st.params → ok op → step E st op = .ok (st', c) → Q st'.params) :
    ∀ (ops : List (Op C K G)) (st st' : State Tree C Map K) (cs : List (Option (Call P Tree C Map K G))), Q st.params → (∀ op ∈ ops, ok op) → run E st ops = .ok (st', cs) → Q st'.params
  | [], st, st', cs, h, _, hr => by cases hr; exact h
  | op :: ops, st, st', cs, h, ho, hr => by
    simp only [run] at hr
    cases h2 : step E st op with
    | error e => rw [h2] at hr; cases hr
    | ok y =>
      rw [h2, ok_bind] at hr
      cases h3 : run E y.1 ops with
      | error e => simp only [h3] at hr; cases hr
      | ok z =>
        simp only [h3, ok_bind] at hr
        cases hr
        exact params_inv Q ok hstep ops y.1 _ _ (hstep st y.1 op y.2 h (ho op List.mem_cons_self) h2) (fun o h => ho o (List.mem_cons_of_mem _ h)) h3

/-- After every history the number of threads is at least 1, the number of neighbours at least 5 and the type GICP or VGICP; the voxel
resolution is positive if only positive ones were requested. Missing: an invalid resolution is not refused (`C52_resolution_violated`). -/
theorem C52_parameters_partial [IsStrictOrderedRing K] (E : Env P Tree C Map K) (n0 : Int) (ops : List (Op C K G)) (st : State Tree C Map K)
    (cs : List (Option (Call P Tree C Map K G))) (hr : run E (State.init n0) ops = .ok (st, cs)) :
    1 ≤ st.params.numThreads ∧ 5 ≤ st.params.kCorrespondences ∧ (st.params.type = "GICP" ∨ st.params.type = "VGICP") ∧
    ((∀ r, Op.setVoxelResolution r ∈ ops → 0 < r) → 0 < st.params.voxelResolution) := by
  refine ⟨?_, ?_, ?_, fun hpos => ?_⟩
  · refine params_inv (fun p => 1 ≤ p.numThreads) (fun _ => True) ?_ ops _ _ cs (by simp [State.init]) (fun _ _ => trivial) hr
    intro st st' op c h _ hs
    rw [step_params hs]
    cases op <;> simp only [setNumNeighborsForCovariance, setVoxelResolution, setRotationEpsilon, setVerbosity] <;> try exact h
    · simp only [setNumThreads]; split <;> omega
    · unfold setRegistrationType; split
      · exact h
      · split <;> exact h
  · refine params_inv (fun p => 5 ≤ p.kCorrespondences) (fun _ => True) ?_ ops _ _ cs (by simp [State.init]) (fun _ _ => trivial) hr
    intro st st' op c h _ hs
    rw [step_params hs]
    cases op <;> simp only [setNumThreads, setVoxelResolution, setRotationEpsilon, setVerbosity] <;> try exact h
    · simp only [setNumNeighborsForCovariance]; split <;> omega
    · unfold setRegistrationType; split
      · exact h
      · split <;> exact h
  · refine params_inv (fun p => p.type = "GICP" ∨ p.type = "VGICP") (fun _ => True) ?_ ops _ _ cs (.inl rfl) (fun _ _ => trivial) hr
    intro st st' op c h _ hs
    rw [step_params hs]
    cases op <;> simp only [setNumThreads, setNumNeighborsForCovariance, setVoxelResolution, setRotationEpsilon, setVerbosity] <;> try exact h
    · rename_i t
      unfold setRegistrationType
      split
      · rename_i h1; exact .inl h1
      · split
        · rename_i h1; exact .inr h1
        · exact h
  · refine params_inv (fun p => 0 < p.voxelResolution) (fun op => ∀ r, op = .setVoxelResolution r → 0 < r) ?_ ops _ _ cs (by simp [State.init])
      (fun op ho r he => hpos r (he ▸ ho)) hr
    intro st st' op c h hop hs
    rw [step_params hs]
    cases op <;> simp only [setNumThreads, setNumNeighborsForCovariance, setRotationEpsilon, setVerbosity] <;> try exact h
    · rename_i r
      simp only [setVoxelResolution]
      rw [if_neg (not_le.2 h)]
      exact hop r rfl
    · unfold setRegistrationType; split
      · exact h
      · split <;> exact h

/-- Valid values are stored; other parameters are left alone. -/
theorem C52_stored (p : Params K) :
    (∀ n, 1 ≤ n → setNumThreads n p = { p with numThreads := n }) ∧ (∀ n, n < 1 → setNumThreads n p = { p with numThreads := 1 }) ∧
    (∀ k, 5 ≤ k → setNumNeighborsForCovariance k p = { p with kCorrespondences := k }) ∧ (∀ k, k < 5 → setNumNeighborsForCovariance k p = { p with kCorrespondences := 5 }) ∧
    (∀ t, t = "GICP" ∨ t = "VGICP" → setRegistrationType t p = { p with type := t }) ∧ (∀ t, t ≠ "GICP" → t ≠ "VGICP" → setRegistrationType t p = p) ∧
    (∀ r, 0 < p.voxelResolution → setVoxelResolution r p = { p with voxelResolution := r }) := by
  refine ⟨?_, ?_, ?_, ?_, ?_, ?_, ?_⟩
  · intro n h; simp only [setNumThreads]; rw [if_neg (by omega)]
  · intro n h; simp only [setNumThreads]; rw [if_pos (by omega)]
  · intro n h; simp only [setNumNeighborsForCovariance]; rw [if_neg (by omega)]
  · intro n h; simp only [setNumNeighborsForCovariance]; rw [if_pos (by omega)]
  · rintro t (rfl | rfl)
    · rfl
    · simp [setRegistrationType]
  · intro t h1 h2; simp only [setRegistrationType, h1, h2, if_false]
  · intro r h; simp only [setVoxelResolution]; rw [if_neg (not_le.2 h)]

/-- A non-positive resolution is stored, and a valid one requested after it is replaced by 1. -/
theorem C52_resolution_violated : (∃ st cs, run recording (State.init 10) ([.setVoxelResolution (-2)] : List RecOp) = .ok (st, cs) ∧ st.params.voxelResolution = -2) ∧
    (∃ st cs, run recording (State.init 10) ([.setVoxelResolution (-2), .setVoxelResolution 3] : List RecOp) = .ok (st, cs) ∧ st.params.voxelResolution = 1) := by
  refine ⟨⟨_, _, rfl, ?_⟩, ⟨_, _, rfl, ?_⟩⟩
  · decide +kernel
  · decide +kernel

/-! ### examples -/

/-- A history with a change of clouds, handed-over covariances, a swap and two alignments that is `Safe`. -/
def safeOps : List RecOp :=
  [.setNumNeighborsForCovariance 10, .setVoxelResolution 2, .setInputTarget (some 1), .setInputSource (some 2), .setSourceCovariances [(7, 7), (8, 8)],
   .setRegistrationType "VGICP", .align false (), .swapSourceAndTarget, .setInputSource (some 3)]

example : ∃ st cs, run recording (State.init 10) safeOps = .ok (st, cs) := ⟨_, _, rfl⟩

example : Safe recording 10 safeOps := by
  intro pre op post he st cs hr
  match pre, he, hr with
  | [], he, _ => cases he; exact .inr (by rintro x (h | h) <;> cases h)
  | [_], he, _ => cases he; exact .inr (by rintro x (h | h) <;> cases h)
  | [_, _], he, _ => cases he; trivial
  | [_, _, _], he, _ => cases he; trivial
  | [_, _, _, _], he, _ => cases he; rintro x h; cases h; exact .inl rfl
  | [_, _, _, _, _], he, _ => cases he; trivial
  | [_, _, _, _, _, _], he, _ => cases he; trivial
  | [_, _, _, _, _, _, _], he, _ => cases he; trivial
  | [_, _, _, _, _, _, _, _], he, _ => cases he; trivial
  | _ :: _ :: _ :: _ :: _ :: _ :: _ :: _ :: _ :: _, he, _ =>
    have := congrArg List.length he
    simp [safeOps] at this

/-- The recording environment meets the contract on the number of covariances. -/
example (pts t k) : (recording.estimate pts t k).length = pts.length := by simp [recording]

end Verif.Props
