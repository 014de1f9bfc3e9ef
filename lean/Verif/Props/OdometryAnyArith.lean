import Verif.Model.OdometryMachine
import Verif.Props.KdParallelAny
import Verif.Props.VoxelAnyArith

/-!
C104: the odometry engines in any arithmetic. The only thing that can go wrong is the conversion of a scaled coordinate to `int`.
-/

set_option linter.unusedSectionVars false
set_option linter.unusedSimpArgs false
set_option linter.unnecessarySeqFocus false

namespace Verif.Spec

open Verif Verif.Machine Verif.PointCloud

/-- `bs` goes along with `as`: it is as long, its first element is in the relation `first` to the first one of `as`, and each further one is in the relation `next` to what comes before it. -/
def InStep {A B : Type} (first : A → B → Prop) (next : A → B → A → B → Prop) (as : List A) (bs : List B) : Prop :=
  as.length = bs.length ∧ (∀ a b, as[0]? = some a → bs[0]? = some b → first a b) ∧
  ∀ (i : Nat) a b a' b', as[i]? = some a → bs[i]? = some b → as[i + 1]? = some a' → bs[i + 1]? = some b' → next a b a' b'

/-- What preprocessing makes of a frame: the sampled points, their tree, and the cloud with covariances. -/
structure FrameData (V M : Type) where
  points : List (Pt V)
  tree : KdTree.Tree V
  cloud : Cloud (Fin 4 → V) M

variable {V P H B D M R : Type} [LT V] [DecidableLT V] [LE V] [DecidableLE V]

/-- `d` is what one thread makes of the cloud `c`: sampling, tree, covariances. -/
def SerialFrame (e : OdomEnv V P H B D M R) (o : OdomParams V) (c : Cloud (Fin 4 → V) M) (d : FrameData V M) : Prop :=
  ∃ pts, cloudPoints c = .ok pts ∧ voxelgridSampling e.prep.ops e.prep.scalars e.prep.sort pts o.downsamplingResolution = .ok d.points ∧
    KdTree.construct e.prep.ops e.prep.builder (d.points.length + 1) d.points = .ok d.tree ∧
    estimate e.prep.features Features.covarianceSetter (kdKnn e.prep d.tree) o.numNeighbors (sampledCloud d.points) = .ok d.cloud

/-- The scaled coordinates of all points can be converted by the sampler. -/
def SampleDefined (e : OdomEnv V P H B D M R) (o : OdomParams V) (c : Cloud (Fin 4 → V) M) : Prop :=
  ∀ (i : Nat) p, c.points[i]? = some (some p) → PointDefined e.prep.ops e.prep.scalars o.downsamplingResolution (toPt p)

/-- `t` answers every search as `t0` does. -/
def SameAnswers (ops : Ops V) (pts : List (Pt V)) (t t0 : KdTree.Tree V) : Prop :=
  ∀ (maxD : V) (fuel : Nat) (N k : Int) (indices : List Nat) (dists : List V) (q : Pt V) (eps : V), KdTree.knnSearch ops maxD pts t fuel N k indices dists q eps = KdTree.knnSearch ops maxD pts t0 fuel N k indices dists q eps

/-- A frame with points, whose functions run to their end. -/
structure FrameGiven (e : OdomEnv V P H B D M R) (o : OdomParams V) (f : Frame V P M) : Prop where
  set : PointsSet f.cloud
  some : 0 < f.cloud.size
  few : f.cloud.size < 2 ^ 32
  lin : ∀ T fs, (f.exec.lin T fs).Complete fs.length
  err : ∀ T fs, (f.exec.err T fs).Complete fs.length
  tree : ∀ d, SerialFrame e o f.cloud d → frameTree e.prep f.exec.tree d.points ≠ none
  loop : ∀ d, SerialFrame e o f.cloud d → ∀ chunks sched, f.exec.loop = .parallel chunks sched → chunks.flatten.Perm (List.range d.points.length) ∧
    parOrder sched (chunks.map (fun c => c.flatMap Features.covarianceSetter.acts)) ≠ none

/-- Every point of the cloud, transformed by `T`, has a cell with numbers in the range of `int`. -/
def InsertDefined {V P M : Type} [LT V] [DecidableLT V] (o : Ops V) (s : Scalars V) (apply : P → (Fin 4 → V) → (Fin 4 → V)) (invLeaf : V) (points : Cloud (Fin 4 → V) M) (T : P) : Prop :=
  ∀ i < points.size, ∀ p, points.point i = .ok p → VoxelDefined o s invLeaf (toPt (apply T p))

/-- The voxels of the maps of the engines: Gaussian voxels, or flat voxels with covariances and without normals. -/
inductive OdomCells {V P M : Type} [LT V] [LE V] [DecidableLT V] [DecidableLE V] (o : Ops V) (g : VoxelEval V P M) : (C : Type) → Cells V P M C → (C → List (Pt V)) → Prop
  | gaussian : OdomCells o g (GVoxel V M) (gaussianCells o g) (fun v => [v.mean])
  | flat (s : Voxel.FlatSetting V) (hn : s.hasNormals = false) (hc : s.hasCovs = true) (hmax : s.maxNum ≤ 2 ^ 32) : OdomCells o g (FVoxel V M) (flatCells o g s) FVoxel.points

end Verif.Spec

namespace Verif.Props

open Verif Verif.Knn Verif.KdTree Verif.Proofs Verif.Proofs.Any Verif.Proofs.RegMem Verif.Factors Verif.Reduction Verif.PointCloud Verif.RegMem Verif.Spec Verif.Features
open Verif.OdometryPipeline (TreeExec LoopExec)

/-! ### the loop over the frames -/

theorem get_snoc {α : Type} {l : List α} {x y : α} {i : Nat} : (l ++ [x])[i]? = some y ↔ l[i]? = some y ∨ (i = l.length ∧ x = y) := by
  by_cases h : i < l.length
  · rw [List.getElem?_append_left h]
    refine ⟨.inl, ?_⟩
    rintro (h' | ⟨rfl, -⟩)
    · exact h'
    · omega
  · rw [List.getElem?_append_right (by omega), List.getElem?_eq_none (l := l) (by omega)]
    by_cases e : i = l.length
    · subst e; simp
    · rw [List.getElem?_eq_none (by simp; omega)]
      simp [e]

theorem inStep_nil {A B : Type} {first : A → B → Prop} {next : A → B → A → B → Prop} : InStep first next [] [] := ⟨rfl, by simp, by simp⟩

theorem inStep_snoc {A B : Type} {first : A → B → Prop} {next : A → B → A → B → Prop} {as : List A} {bs : List B} (h : InStep first next as bs) {a : A} {b : B} (h0 : as = [] → first a b)
    (h1 : ∀ a0 b0, as.getLast? = some a0 → bs.getLast? = some b0 → next a0 b0 a b) : InStep first next (as ++ [a]) (bs ++ [b]) := by
  obtain ⟨hl, hf, hn⟩ := h
  refine ⟨by simp [hl], fun x y hx hy => ?_, fun i x y x' y' hx hy hx' hy' => ?_⟩
  · rw [get_snoc] at hx hy
    rcases hx with hx | ⟨hx, rfl⟩
    · rcases hy with hy | ⟨hy, rfl⟩
      · exact hf x y hx hy
      · have := (List.getElem?_eq_some_iff.1 hx).1
        omega
    · rcases hy with hy | ⟨hy, rfl⟩
      · have := (List.getElem?_eq_some_iff.1 hy).1
        omega
      · exact h0 (List.length_eq_zero_iff.1 hx.symm)
  · rw [get_snoc] at hx' hy'
    rcases hx' with hx' | ⟨hx', rfl⟩
    · have := (List.getElem?_eq_some_iff.1 hx').1
      rcases hy' with hy' | ⟨hy', rfl⟩
      · rw [get_snoc] at hx hy
        rcases hx with hx | ⟨hx, -⟩
        · rcases hy with hy | ⟨hy, -⟩
          · exact hn i x y x' y' hx hy hx' hy'
          · omega
        · omega
      · omega
    · rcases hy' with hy' | ⟨hy', rfl⟩
      · have := (List.getElem?_eq_some_iff.1 hy').1
        omega
      · rw [get_snoc] at hx hy
        rcases hx with hx | ⟨hx, -⟩
        · rcases hy with hy | ⟨hy, -⟩
          · refine h1 x y ?_ ?_
            · rw [List.getLast?_eq_getElem?, ← hx, show as.length - 1 = i by omega]
            · rw [List.getLast?_eq_getElem?, ← hy, show bs.length - 1 = i by omega]
          · omega
        · omega

section Loop

variable {C Q S P : Type} {sample : C → Res Q} {step : S → Q → Res (S × P)}

/-- The loop either handles every frame, or stops at one. -/
theorem online_outcome (Inv : List C → S → List P → Prop) (Bad : List C → C → S → List P → Fault → Prop) (s0 : S) (frames : List C) (h0 : Inv [] s0 [])
    (hstep : ∀ done f rest, frames = done ++ f :: rest → ∀ s tr, Inv done s tr → (∃ s' T, (do let d ← sample f; step s d) = .ok (s', T) ∧ Inv (done ++ [f]) s' (tr ++ [T])) ∨
      ∃ er, (do let d ← sample f; step s d) = .error er ∧ Bad done f s tr er) :
    (∃ s tr, Machine.online sample step s0 (frames.map some) = .ok (s, List.replicate frames.length none, tr) ∧ Inv frames s tr) ∨
    ∃ done f rest s tr er, frames = done ++ f :: rest ∧ Inv done s tr ∧ Machine.online sample step s0 (frames.map some) = .error er ∧ Bad done f s tr er := by
  have main : ∀ (F : S × List (Option C) × List P → Nat → Res (S × List (Option C) × List P)),
      (∀ st i c, st.2.1[i]? = some (some c) → F st i = (do
        let d ← sample c
        let r ← step st.1 d
        let ps ← wr st.2.1 i none
        return (r.1, ps, st.2.2 ++ [r.2]))) →
      ∀ (rest done : List C) (s : S) (tr : List P), frames = done ++ rest → Inv done s tr →
      (∃ s' tr', (List.range' done.length rest.length).foldlM F (s, List.replicate done.length none ++ rest.map some, tr) = .ok (s', List.replicate frames.length none, tr') ∧ Inv frames s' tr') ∨
      ∃ done' f rest' s' tr' er, frames = done' ++ f :: rest' ∧ Inv done' s' tr' ∧
        (List.range' done.length rest.length).foldlM F (s, List.replicate done.length none ++ rest.map some, tr) = .error er ∧ Bad done' f s' tr' er := by
    intro F hF rest
    induction rest with
    | nil =>
      intro done s tr hfr hinv
      rw [List.append_nil] at hfr
      subst hfr
      exact .inl ⟨s, tr, by simp [pure, Except.pure], hinv⟩
    | cons f rest ih =>
      intro done s tr hfr hinv
      have hq : (List.replicate done.length (none : Option C) ++ (f :: rest).map some)[done.length]? = some (some f) := by
        rw [List.getElem?_append_right (by simp)]
        simp
      have hw : wr (List.replicate done.length (none : Option C) ++ (f :: rest).map some) done.length none = .ok (List.replicate (done ++ [f]).length none ++ rest.map some) := by
        unfold wr
        rw [if_pos (by simp), List.set_append_right _ _ (by simp), List.length_append, List.length_singleton, List.replicate_succ']
        simp
      rw [List.length_cons, List.range'_succ, List.foldlM_cons, hF _ _ f hq]
      rcases hstep done f rest hfr s tr hinv with ⟨s', T, h1, h2⟩ | ⟨er, h1, h2⟩
      · have hgo : (do let d ← sample f; let r ← step s d; let ps ← wr (List.replicate done.length (none : Option C) ++ (f :: rest).map some) done.length none; return (r.1, ps, tr ++ [r.2]) : Res (S × List (Option C) × List P)) =
            .ok (s', List.replicate (done ++ [f]).length none ++ rest.map some, tr ++ [T]) := by
          rcases hd : sample f with er | d
          · rw [hd] at h1; cases h1
          · rw [hd, ok_bind] at h1
            rw [ok_bind, h1, ok_bind, hw, ok_bind]
            rfl
        simp only []
        rw [hgo, ok_bind]
        have := ih (done ++ [f]) s' (tr ++ [T]) (by rw [hfr]; simp) h2
        rw [List.length_append, List.length_singleton] at this
        rw [List.length_append, List.length_singleton]
        exact this
      · refine .inr ⟨done, f, rest, s, tr, er, hfr, hinv, ?_, h2⟩
        rcases hd : sample f with er' | d
        · rw [hd] at h1
          cases h1
          rfl
        · rw [hd, ok_bind] at h1
          rw [ok_bind]
          simp only []
          rw [h1]
          rfl
  unfold Machine.online
  rw [List.range_eq_range', List.length_map]
  refine main _ (fun st i c hc => ?_) frames [] s0 [] rfl h0
  simp only [rd, hc, ok_bind]

end Loop

/-! ### one frame -/

section Frame

variable {V P H B D M R : Type} [LT V] [DecidableLT V] [LE V] [DecidableLE V] {e : Machine.OdomEnv V P H B D M R} {o : Machine.OdomParams V}

theorem builder_axis (e : Machine.PrepEnv V M R) : FindAxisSpec (fun _ => True) e.builder.findAxis := by
  intro points range hne hv
  obtain ⟨pts, h, -⟩ := scanPoints_ok points range 128 (by unfold toU64; decide) hne hv
  show ∃ p, findAxis e.ops 128 points range = .ok p ∧ True
  unfold findAxis
  rw [h]
  exact ⟨_, rfl, trivial⟩

theorem frameTree_any (he : Rearranges e.prep) {x : TreeExec} {out : List (Pt V)} (hN : out.length < 2 ^ 32) (h : Machine.frameTree e.prep x out ≠ none) {t0 : KdTree.Tree V}
    (ht : KdTree.construct e.prep.ops e.prep.builder (out.length + 1) out = .ok t0) : ∃ t, Machine.frameTree e.prep x out = some (.ok t) ∧ SameAnswers e.prep.ops out t t0 := by
  cases x with
  | sequential => exact ⟨t0, by rw [Machine.frameTree, ht], fun _ _ _ _ _ _ _ _ => rfl⟩
  | parallel sched =>
    unfold Machine.frameTree at h ⊢
    by_cases hne : out = []
    · subst hne
      cases ht
      exact ⟨_, rfl, fun _ _ _ _ _ _ _ _ => rfl⟩
    · have hl : ¬ out.length = 0 := fun h => hne (List.length_eq_zero_iff.1 h)
      simp only [if_neg hl] at h ⊢
      obtain ⟨t1, h1, h2⟩ := C07_any_arithmetic e.prep.ops e.prep.builder hne hN he.nth (builder_axis _) (by show 3 ≤ toU64 20; decide)
      rw [ht] at h1
      cases h1
      cases hr : runSchedule e.prep.ops e.prep.builder out sched (parInit out) with
      | none => rw [hr] at h; exact absurd rfl h
      | some res =>
        obtain ⟨ps, rfl, -, -, h3⟩ := h2 sched res hr
        rw [hr] at h
        simp only [] at h ⊢
        cases hp : parFinish ps with
        | none => rw [hp] at h; exact absurd rfl h
        | some t => exact ⟨t, rfl, (h3 t hp).2.2⟩

theorem kdKnn_same {out : List (Pt V)} {t t0 : KdTree.Tree V} (h : SameAnswers e.prep.ops out t t0) {slots : List (Option (Fin 4 → V))} (hs : slots = out.map (fun p => some (Machine.ofPt p))) (q : Fin 4 → V) (k : Nat) :
    Machine.kdKnn e.prep t slots q k = Machine.kdKnn e.prep t0 slots q k := by
  unfold Machine.kdKnn
  rw [cloudPoints_any ⟨slots, [], []⟩ out hs, ok_bind, ok_bind, h]

/-- The features depend on the answers of the search on this cloud only. -/
theorem estimate_same (fe : Machine.FeatureEval V M R) (S : Setter) {knn knn' : Machine.Search V} (k : Int) (c : Cloud (Fin 4 → V) M) (h : ∀ q n, knn c.points q n = knn' c.points q n) :
    Machine.estimate fe S knn k c = Machine.estimate fe S knn' k c := by
  have hset : ∀ {c : Cloud (Fin 4 → V) M} {i : Nat} {v : Fin 4 → V} {c' : Cloud (Fin 4 → V) M}, c.setNormal i v = .ok c' → c'.points = c.points := by
    intro c i v c' hc
    unfold Cloud.setNormal at hc
    cases hw : wr c.normals i (some v) with
    | error er => rw [hw] at hc; cases hc
    | ok l => rw [hw] at hc; cases hc; rfl
  have hsetC : ∀ {c : Cloud (Fin 4 → V) M} {i : Nat} {v : M} {c' : Cloud (Fin 4 → V) M}, c.setCov i v = .ok c' → c'.points = c.points := by
    intro c i v c' hc
    unfold Cloud.setCov at hc
    cases hw : wr c.covs i (some v) with
    | error er => rw [hw] at hc; cases hc
    | ok l => rw [hw] at hc; cases hc; rfl
  have hN : ∀ {c : Cloud (Fin 4 → V) M} {i : Nat} {f : Option R} {c' : Cloud (Fin 4 → V) M}, Machine.writeNormal fe c i f = .ok c' → c'.points = c.points := by
    intro c i f c' hc
    cases f with
    | none => exact hset hc
    | some r =>
      simp only [Machine.writeNormal] at hc
      cases hp : c.point i with
      | error er => rw [hp] at hc; cases hc
      | ok p => rw [hp, ok_bind] at hc; exact hset hc
  have hC : ∀ {c : Cloud (Fin 4 → V) M} {i : Nat} {f : Option R} {c' : Cloud (Fin 4 → V) M}, Machine.writeCov fe c i f = .ok c' → c'.points = c.points := by
    intro c i f c' hc
    cases f <;> exact hsetC hc
  have hone : ∀ (d : Cloud (Fin 4 → V) M) i, d.points = c.points → Machine.estimateOne fe S knn k d i = Machine.estimateOne fe S knn' k d i := by
    intro d i hd
    unfold Machine.estimateOne Machine.localFrame
    simp only [hd, h]
  have hpres : ∀ (d d' : Cloud (Fin 4 → V) M) i, Machine.estimateOne fe S knn k d i = .ok d' → d'.points = d.points := by
    intro d d' i hd
    unfold Machine.estimateOne at hd
    cases hf : Machine.localFrame fe knn k d i with
    | error er => rw [hf] at hd; cases hd
    | ok f =>
      rw [hf, ok_bind] at hd
      unfold Machine.writeFeatures at hd
      have hlast : ∀ d1 : Cloud (Fin 4 → V) M, d1.points = d.points → (if S.covs = true then Machine.writeCov fe d1 i f else .ok d1) = .ok d' → d'.points = d.points := by
        intro d1 e1 h1
        split at h1
        · rw [hC h1, e1]
        · cases h1; exact e1
      cases hS : S.normals with
      | false =>
        rw [hS] at hd
        exact hlast d rfl hd
      | true =>
        rw [hS] at hd
        simp only [if_true] at hd
        cases h1 : Machine.writeNormal fe d i f with
        | error er => rw [h1] at hd; cases hd
        | ok d1 =>
          rw [h1, ok_bind] at hd
          exact hlast d1 (hN h1) hd
  have hfold : ∀ (l : List Nat) (d : Cloud (Fin 4 → V) M), d.points = c.points → l.foldlM (Machine.estimateOne fe S knn k) d = l.foldlM (Machine.estimateOne fe S knn' k) d := by
    intro l
    induction l with
    | nil => intro d _; rfl
    | cons i l ih =>
      intro d hd
      rw [List.foldlM_cons, List.foldlM_cons, ← hone d i hd]
      cases hs : Machine.estimateOne fe S knn k d i with
      | error er => rfl
      | ok d' =>
        rw [ok_bind, ok_bind]
        exact ih d' ((hpres d d' i hs).trans hd)
  exact hfold _ _ (resize_any c).1

/-- C104, one frame. If its scaled coordinates can be converted, every execution of sampling, tree and covariances ends without a fault, with the cloud that one thread computes and a tree with the same answers; the cloud is
not empty, not larger than the frame, and its covariances are set. If not, the behaviour is undefined. -/
theorem C104_frame (he : Rearranges e.prep) (hk : 0 < o.numNeighbors) {f : Machine.Frame V P M} (hf : FrameGiven e o f) :
    (SampleDefined e o f.cloud → ∃ d p, SerialFrame e o f.cloud d ∧ (do let s ← Machine.sampleFrame e o f; Machine.prepareFrame e o s) = .ok p ∧ p.exec = f.exec ∧ p.cloud = d.cloud ∧
      SameAnswers e.prep.ops d.points p.tree d.tree ∧ Machine.cloudPoints d.cloud = .ok d.points ∧ d.cloud.size = d.points.length ∧ 0 < d.cloud.size ∧ d.cloud.size ≤ f.cloud.size ∧ PointsSet d.cloud ∧ CovsSet d.cloud) ∧
    (¬ SampleDefined e o f.cloud → Machine.sampleFrame e o f = .error .intOverflow) := by
  have hsz : f.cloud.size = f.cloud.points.length := rfl
  obtain ⟨pts, hp⟩ : ∃ pts : List (Pt V), f.cloud.points = pts.map (fun p => some (Machine.ofPt p)) := by
    refine ⟨f.cloud.points.filterMap (Option.map Machine.toPt), ?_⟩
    have : ∀ l : List (Option (Fin 4 → V)), (∀ x ∈ l, x ≠ none) → l = (l.filterMap (Option.map Machine.toPt)).map (fun p => some (Machine.ofPt p)) := by
      intro l
      induction l with
      | nil => intro _; rfl
      | cons x l ih =>
        intro h
        cases x with
        | none => exact absurd rfl (h none (by simp))
        | some x =>
          rw [List.filterMap_cons]
          simp only [Option.map_some, List.map_cons]
          rw [← ih (fun y hy => h y (by simp [hy]))]
          congr 2
          funext i
          fin_cases i <;> rfl
    apply this
    intro x hx hn
    obtain ⟨i, hi, rfl⟩ := List.getElem_of_mem hx
    obtain ⟨p, hp⟩ := hf.set i hi
    rw [List.getElem?_eq_getElem hi, hn] at hp
    cases hp
  have hc := cloudPoints_any f.cloud pts hp
  have hlen : pts.length = f.cloud.size := by rw [hsz, hp]; simp
  have hdef : SampleDefined e o f.cloud ↔ ∀ p ∈ pts, PointDefined e.prep.ops e.prep.scalars o.downsamplingResolution p := by
    unfold SampleDefined
    rw [hp]
    constructor
    · intro h p hm
      obtain ⟨i, hi⟩ := List.getElem?_of_mem hm
      exact h i (Machine.ofPt p) (by simp [hi])
    · intro h i p hi
      rw [List.getElem?_map] at hi
      obtain ⟨q, hq, hqp⟩ := Option.map_eq_some_iff.1 hi
      cases hqp
      exact h q (List.mem_of_getElem? hq)
  obtain ⟨hs1, hs2⟩ := sampling_any e.prep.ops e.prep.scalars he.sort pts o.downsamplingResolution
  refine ⟨fun h => ?_, fun h => ?_⟩
  · obtain ⟨out, a1, a2, a3⟩ := hs1 (hdef.1 h)
    have hne : pts ≠ [] := by
      rintro rfl
      have := hf.some
      rw [← hlen] at this
      simp at this
    have hN : out.length < 2 ^ 32 := by
      have := hf.few
      omega
    obtain ⟨t0, c, b1, b2, b3, b4, b5, -, b7, -⟩ := sampled_setter he covarianceSetter (k := o.numNeighbors) hN hk
    have hd : SerialFrame e o f.cloud ⟨out, t0, c⟩ := ⟨pts, hc, a1, b1, b2⟩
    obtain ⟨t, g1, g2⟩ := frameTree_any he hN (hf.tree _ hd) b1
    have hest : Machine.estimate e.prep.features covarianceSetter (Machine.kdKnn e.prep t) o.numNeighbors (Machine.sampledCloud out) = .ok c := by
      rw [← b2]
      exact estimate_same _ _ _ _ (fun q n => kdKnn_same g2 rfl q n)
    have hcov : Machine.covariances e.prep f.exec.loop t o.numNeighbors (Machine.sampledCloud out) = some (.ok c) := by
      unfold Machine.covariances
      cases hl : f.exec.loop with
      | sequential => simp only [hest]
      | parallel chunks sched =>
        obtain ⟨k1, k2⟩ := hf.loop _ hd chunks sched hl
        have hsc : (Machine.sampledCloud out : Cloud (Fin 4 → V) M).size = out.length := by simp [Machine.sampledCloud, Cloud.size]
        simp only []
        rw [if_pos (by rw [hsc]; exact k1)]
        obtain ⟨t1, e1, hknn⟩ := sampled_tree he hN hk
        rw [b1] at e1
        cases e1
        have hone : out ≠ [] := a3 hne
        obtain ⟨c', q1, -, -, -, -, -, -, q2⟩ := C102_features e.prep.features covarianceSetter (Machine.kdKnn e.prep t) (le_of_lt hk) (Machine.sampledCloud out : Cloud (Fin 4 → V) M)
          (fun i hi => by
            have hi' : i < out.length := by simpa [Machine.sampledCloud] using hi
            exact ⟨Machine.ofPt out[i], by simp [Machine.sampledCloud, hi']⟩)
          (fun i p _ => by
            obtain ⟨idx, r1, r2⟩ := hknn p hone
            exact ⟨idx, (kdKnn_same g2 rfl p _).trans r1, fun j hj => by rw [hsc]; exact r2 j hj⟩)
        rw [hest] at q1
        cases q1
        cases hr : Machine.estimatePar e.prep.features covarianceSetter (Machine.kdKnn e.prep t) o.numNeighbors (Machine.sampledCloud out : Cloud (Fin 4 → V) M) chunks sched with
        | none =>
          unfold Machine.estimatePar at hr
          exact absurd (Option.map_eq_none_iff.1 hr) k2
        | some r => rw [q2 chunks sched (by rw [hsc]; exact k1) r hr]
    refine ⟨⟨out, t0, c⟩, ⟨f.exec, c, t⟩, hd, ?_, rfl, rfl, g2, b3, b4, ?_, by show c.size ≤ _; omega, b5, b7 rfl⟩
    · unfold Machine.sampleFrame Machine.prepareFrame
      simp only [hc, a1, ok_bind, pure, Except.pure]
      rw [cloudPoints_any (Machine.sampledCloud out) out rfl, ok_bind, g1, Option.getD_some, ok_bind, hcov, Option.getD_some, ok_bind]
    · show 0 < c.size
      rw [b4]
      exact List.length_pos_of_ne_nil (a3 hne)
  · unfold Machine.sampleFrame
    rw [hc, ok_bind, hs2 (fun h' => h (hdef.2 h'))]
    rfl

end Frame

/-! ### a frame against the one before it -/

section FrameToFrame

variable {V P H B D M R : Type} [LT V] [DecidableLT V] [LE V] [DecidableLE V] [Zero V] [Add V] [Sub V] [Mul V] [Div V] [Zero H] [Add H] [Zero B] [Add B] {e : Machine.OdomEnv V P H B D M R} {o : Machine.OdomParams V}

/-- What is known of a prepared frame. -/
structure Ready (e : Machine.OdomEnv V P H B D M R) (o : Machine.OdomParams V) (f : Machine.Frame V P M) (d : FrameData V M) : Prop where
  serial : SerialFrame e o f.cloud d
  points : Machine.cloudPoints d.cloud = .ok d.points
  size : d.cloud.size = d.points.length
  pos : 0 < d.cloud.size
  le : d.cloud.size ≤ f.cloud.size
  set : PointsSet d.cloud
  covs : CovsSet d.cloud

theorem frame_ready (he : Rearranges e.prep) (hk : 0 < o.numNeighbors) {f : Machine.Frame V P M} (hf : FrameGiven e o f) (h : SampleDefined e o f.cloud) :
    ∃ s d p, Machine.sampleFrame e o f = .ok s ∧ Machine.prepareFrame e o s = .ok p ∧ Ready e o f d ∧ p.exec = f.exec ∧ p.cloud = d.cloud ∧ SameAnswers e.prep.ops d.points p.tree d.tree ∧ s.exec = f.exec := by
  obtain ⟨d, p, h1, h2, h3, h4, h5, h6, h7, h8, h9, h10, h11⟩ := (C104_frame he hk hf).1 h
  cases hs : Machine.sampleFrame e o f with
  | error er => rw [hs] at h2; cases h2
  | ok s =>
    rw [hs, ok_bind] at h2
    refine ⟨s, d, p, rfl, h2, ⟨h1, h6, h7, h8, h9, h10, h11⟩, h3, h4, h5, ?_⟩
    unfold Machine.sampleFrame at hs
    cases hc : Machine.cloudPoints f.cloud with
    | error er => rw [hc] at hs; cases hs
    | ok pts =>
      rw [hc, ok_bind] at hs
      cases hv : Machine.voxelgridSampling e.prep.ops e.prep.scalars e.prep.sort pts o.downsamplingResolution with
      | error er => rw [hv] at hs; cases hs
      | ok out =>
        rw [hv, ok_bind] at hs
        cases hs
        rfl

/-- Frame `f'` is registered to frame `f` on the tree of `f`, both prepared by one thread, from the identity and within the allowed iterations; `T'` is the product. -/
def RegisteredTo (e : Machine.OdomEnv V P H B D M R) (o : Machine.OdomParams V) (f : Machine.Frame V P M) (T : P) (f' : Machine.Frame V P M) (T' : P) : Prop :=
  ∃ d d' r fs log, SerialFrame e o f.cloud d ∧ SerialFrame e o f'.cloud d' ∧
    Machine.align (Machine.gicpFactor e.eval) (Machine.cloudWorld d.cloud d'.cloud (Machine.kdNearest e.eval e.prep.maxD d.points d.tree (d.points.length + 1) e.junk))
      { e.registration with rejector := Machine.distanceRejector (o.maxCorrespondenceDistance * o.maxCorrespondenceDistance) } f'.exec.lin f'.exec.err e.meth e.identity d'.cloud.size = .ok (r, fs, log) ∧
    T' = e.mul T r.T ∧ log.length ≤ budget e.meth ∧ (∀ it ∈ log, ValidFactors (Machine.gicpFactor e.eval) d'.cloud.size d.cloud.size it.factors) ∧ r.numInliers ≤ d'.cloud.size

theorem register_any (he : Rearranges e.prep) (hops : e.eval.ops = e.prep.ops) {f f' : Machine.Frame V P M} (hf : FrameGiven e o f) (hf' : FrameGiven e o f') {d d' : FrameData V M} (hd : Ready e o f d) (hd' : Ready e o f' d')
    {p p' : Machine.Prepared V P M} (hp : p.cloud = d.cloud) (ht : SameAnswers e.prep.ops d.points p.tree d.tree) (hp' : p'.cloud = d'.cloud) (hx : p'.exec = f'.exec) (T : P) :
    ∃ r, Machine.registerFrames e o p p' = .ok r ∧ RegisteredTo e o f T f' (e.mul T r) := by
  have hfind : FindAxisSpec (fun _ => True) e.prep.builder.findAxis := by
    intro points range hne hv
    obtain ⟨pts, h, -⟩ := scanPoints_ok points range 128 (by unfold toU64; decide) hne hv
    show ∃ p, findAxis e.prep.ops 128 points range = .ok p ∧ True
    unfold findAxis
    rw [h]
    exact ⟨_, rfl, trivial⟩
  obtain ⟨pts, t, h1, h2, h3⟩ := C100_no_fault (D := D) (E := e.eval) LibraryFactor.gicp (target := d.cloud) (source := d'.cloud) ⟨hd.set, hd'.set, by simp, fun _ => hd.covs, fun _ => hd'.covs⟩ hd.pos
    (lt_of_le_of_lt hd.le hf.few) e.prep.builder he.nth hfind (by show 3 ≤ toU64 20; decide) (fuelB := d.points.length + 1) (fuel := d.points.length + 1) (by rw [hd.size]; omega) (by rw [hd.size]; omega)
  rw [hd.points] at h1
  cases h1
  obtain ⟨_, -, -, hc, -⟩ := hd.serial
  rw [hops, hc] at h2
  cases h2
  obtain ⟨r, fs, log, g1, g2, g3, g4, g5, g6⟩ := h3 e.prep.maxD e.junk (Machine.gated e o) f'.exec.lin f'.exec.err hf'.lin hf'.err e.meth e.identity
  have hnn : Machine.kdNearest e.eval e.prep.maxD d.points p.tree (d.points.length + 1) e.junk = Machine.kdNearest e.eval e.prep.maxD d.points d.tree (d.points.length + 1) e.junk := by
    funext q
    unfold Machine.kdNearest nearestNeighborSearch
    rw [hops, ht]
  refine ⟨r.T, ?_, d, d', r, fs, log, hd.serial, hd'.serial, g1, rfl, g2, g3, g6⟩
  unfold Machine.registerFrames
  rw [hp, hp', hx, hd.points, ok_bind, hnn, g1]
  rfl

/-- C104, the engines that register each frame to the one before it on a kd-tree, in any arithmetic. If the scaled coordinates of all points can be converted, every execution handles all frames without a fault and
resets their pointers; the first pose is the identity and each further pose is the product of the one before it with the result of the registration of the two frames, both as prepared by one thread. If one of the
coordinates cannot be converted, the behaviour is undefined. -/
theorem C104_odometry (he : Rearranges e.prep) (hops : e.eval.ops = e.prep.ops) (hk : 0 < o.numNeighbors) {frames : List (Machine.Frame V P M)} (hf : ∀ f ∈ frames, FrameGiven e o f) :
    ((∀ f ∈ frames, SampleDefined e o f.cloud) → ∃ s tr, Machine.gicpOnline e o (frames.map some) = .ok (s, List.replicate frames.length none, tr) ∧
      InStep (fun _ T => T = e.identity) (RegisteredTo e o) frames tr) ∧
    ((¬ ∀ f ∈ frames, SampleDefined e o f.cloud) → Machine.gicpOnline e o (frames.map some) = .error .intOverflow) := by
  let Inv : List (Machine.Frame V P M) → Machine.FrameToFrame P (Machine.Prepared V P M) → List P → Prop := fun done s tr =>
    (∀ f ∈ done, SampleDefined e o f.cloud) ∧ InStep (fun _ T => T = e.identity) (RegisteredTo e o) done tr ∧ (done = [] → s = ⟨none, e.identity⟩) ∧
    ∀ f, done.getLast? = some f → tr.getLast? = some s.T ∧ ∃ d p, s.target = some p ∧ FrameGiven e o f ∧ Ready e o f d ∧ p.cloud = d.cloud ∧ SameAnswers e.prep.ops d.points p.tree d.tree
  have key := online_outcome (sample := Machine.sampleFrame e o) (step := Machine.frameToFrame e.mul (Machine.prepareFrame e o) (Machine.registerFrames e o)) Inv
    (fun _ f _ _ er => er = .intOverflow ∧ ¬ SampleDefined e o f.cloud) ⟨none, e.identity⟩ frames ⟨by simp, inStep_nil, fun _ => rfl, by simp⟩ (by
      intro done f rest hfr s tr hinv
      have hgf : FrameGiven e o f := hf f (by rw [hfr]; simp)
      by_cases hdef : SampleDefined e o f.cloud
      · left
        obtain ⟨c, d, p, a1, a2, a3, a4, a5, a6, -⟩ := frame_ready he hk hgf hdef
        obtain ⟨i1, i2, i3, i4⟩ := hinv
        rw [a1, ok_bind]
        unfold Machine.frameToFrame
        rw [a2, ok_bind]
        rcases List.eq_nil_or_concat done with rfl | ⟨done', f0, rfl⟩
        · rw [i3 rfl]
          obtain rfl : tr = [] := List.length_eq_zero_iff.1 i2.1.symm
          exact ⟨⟨some p, e.identity⟩, e.identity, rfl, by simpa using hdef, inStep_snoc i2 (fun _ => rfl) (by simp), by simp, fun f' hf' => ⟨by simp, d, p, rfl, by
            simp at hf'
            subst hf'
            exact ⟨hgf, a3, a5, a6⟩⟩⟩
        · obtain ⟨j1, d0, p0, j2, j3, j4, j5, j6⟩ := i4 f0 (by simp)
          obtain ⟨r, r1, r2⟩ := register_any he hops j3 hgf j4 a3 j5 j6 a5 a4 s.T
          rw [j2]
          simp only []
          rw [r1, ok_bind]
          refine ⟨⟨some p, e.mul s.T r⟩, e.mul s.T r, rfl, ?_, inStep_snoc i2 (by simp) ?_, by simp, fun f' hf' => ⟨by simp, d, p, rfl, by
            simp at hf'
            subst hf'
            exact ⟨hgf, a3, a5, a6⟩⟩⟩
          · intro g hg
            rcases List.mem_append.1 hg with hg | hg
            · exact i1 g hg
            · rw [List.mem_singleton.1 hg]
              exact hdef
          · intro f1 T1 hf1 hT1
            rw [j1] at hT1
            cases hT1
            simp at hf1
            subst hf1
            exact r2
      · right
        refine ⟨.intOverflow, ?_, rfl, hdef⟩
        rw [(C104_frame he hk hgf).2 hdef]
        rfl)
  refine ⟨fun hall => ?_, fun hno => ?_⟩
  · rcases key with ⟨s, tr, k1, k2⟩ | ⟨done, f, rest, s, tr, er, k1, -, -, -, k2⟩
    · exact ⟨s, tr, k1, k2.2.1⟩
    · exact absurd (hall f (by rw [k1]; simp)) k2
  · rcases key with ⟨s, tr, k1, k2⟩ | ⟨done, f, rest, s, tr, er, k1, -, k2, rfl, -⟩
    · exact absurd k2.1 hno
    · exact k2

end FrameToFrame

/-! ### voxel maps -/

section Maps

open Verif.Machine

variable {V P H B D M R C : Type} [LT V] [DecidableLT V] [LE V] [DecidableLE V] {o : Ops V} {g : VoxelEval V P M} {c : Cells V P M C} {pts : C → List (Pt V)}

/-- What insertion of clouds with covariances keeps of a map. -/
theorem cells_insert (h : OdomCells o g C c pts) (s : Scalars V) (apply : P → (Fin 4 → V) → (Fin 4 → V)) :
    ∃ Good : Voxel.VoxelMap V C → Prop, (∀ leaf, Good (newMap o s leaf)) ∧ (∀ m, Good m → m.flat.length < 2 ^ 32 → LibraryMap o g ⟨false, true⟩ C c pts m) ∧
      ∀ (m : Voxel.VoxelMap V C) (points : Cloud (Fin 4 → V) M) (T : P), Good m → 0 < points.size → PointsSet points → CovsSet points →
        (InsertDefined o s apply m.invLeaf points T → ∃ m', insertCloud o s apply c m points T = .ok m' ∧ Good m' ∧ m'.flat.length ≤ m.flat.length + points.size ∧ m'.invLeaf = m.invLeaf) ∧
        (¬ InsertDefined o s apply m.invLeaf points T → insertCloud o s apply c m points T = .error .intOverflow) := by
  have hvals : ∀ points : Cloud (Fin 4 → V) M, 0 < points.size → PointsSet points → CovsSet points →
      ∃ (pt : Nat → (Fin 4 → V)) (cov : Nat → M), (∀ i < points.size, points.point i = .ok (pt i)) ∧ ∀ i < points.size, points.cov i = .ok (cov i) := by
    intro points h0 h1 h2
    obtain ⟨p0, -⟩ := h1 0 h0
    obtain ⟨m0, -⟩ := h2 0 h0
    obtain ⟨pt, hp⟩ := cloud_values h1 ⟨p0⟩
    obtain ⟨cov, hc⟩ := cloud_values h2 ⟨m0⟩
    exact ⟨pt, cov, hp, hc⟩
  have hiff : ∀ (points : Cloud (Fin 4 → V) M) (pt : Nat → (Fin 4 → V)) (inv : V) (T : P), (∀ i < points.size, points.point i = .ok (pt i)) →
      (InsertDefined o s apply inv points T ↔ ∀ i < points.size, VoxelDefined o s inv (Machine.toPt (apply T (pt i)))) := by
    intro points pt inv T hp
    constructor
    · intro h i hi
      exact h i hi _ (hp i hi)
    · intro h i hi p hpi
      rw [hp i hi] at hpi
      cases hpi
      exact h i hi
  cases h with
  | gaussian =>
    refine ⟨fun m => GaussianMap m ∧ m.lruClearCycle = 10, fun leaf => ⟨(C103_new o s leaf ⟨leaf, 0, false, false⟩).1, rfl⟩, fun m hm hl => .gaussian rfl hm.1 hl, ?_⟩
    intro m points T hm h0 h1 h2
    obtain ⟨pt, cov, hp, hc⟩ := hvals points h0 h1 h2
    obtain ⟨a1, a2⟩ := C103_gaussian o s apply g hm.1 (by rw [hm.2]; decide) T hp hc
    rw [hiff points pt _ T hp]
    refine ⟨fun h => ?_, fun h => a2 ?_⟩
    · obtain ⟨m', b1, b2, b3, b4, -, b5, -⟩ := a1 h
      exact ⟨m', b1, ⟨b2, by rw [b5, hm.2]⟩, b3, b4⟩
    · simpa using h
  | flat fs hn hcv hmax =>
    refine ⟨fun m => FlatMap fs m ∧ m.lruClearCycle = 10, fun leaf => ⟨(C103_new o s leaf fs).2.1, rfl⟩, fun m hm hl => .flat fs (by simp) (fun _ => hcv) hm.1 hmax hl, ?_⟩
    intro m points T hm h0 h1 h2
    obtain ⟨pt, cov, hp, hc⟩ := hvals points h0 h1 h2
    obtain ⟨a1, a2⟩ := C103_flat o s apply g fs hm.1 (by rw [hm.2]; decide) T (normal := pt) hp (by simp [hn]) (fun _ => hc)
    rw [hiff points pt _ T hp]
    refine ⟨fun h => ?_, fun h => a2 ?_⟩
    · obtain ⟨m', b1, b2, b3, b4, -, b5, -⟩ := a1 h
      exact ⟨m', b1, ⟨b2, by rw [b5, hm.2]⟩, b3, b4⟩
    · simpa using h

end Maps

section Model

open Verif.Machine

variable {V P H B D M R C : Type} [LT V] [DecidableLT V] [LE V] [DecidableLE V] [Zero V] [Add V] [Sub V] [Mul V] [Div V] [Zero H] [Add H] [Zero B] [Add B] {e : OdomEnv V P H B D M R} {o : OdomParams V}
  {c : Cells V P M C} {pts : C → List (Pt V)}

/-- The first frame, as prepared by one thread, makes the map. -/
def MapStarted (e : OdomEnv V P H B D M R) (c : Cells V P M C) (o : OdomParams V) (f : Frame V P M) (x : Voxel.VoxelMap V C × P) : Prop :=
  x.2 = e.identity ∧ ∃ d, SerialFrame e o f.cloud d ∧ insertCloud e.prep.ops e.prep.scalars e.eval.apply c (newMap e.prep.ops e.prep.scalars o.voxelResolution) d.cloud e.identity = .ok x.1

/-- Frame `f'` is registered to the map from the pose of the frame before it, within the allowed iterations, and inserted into the map with the result. -/
def MapContinued (e : OdomEnv V P H B D M R) (c : Cells V P M C) (pts : C → List (Pt V)) (o : OdomParams V) (_ : Frame V P M) (x : Voxel.VoxelMap V C × P) (f' : Frame V P M) (x' : Voxel.VoxelMap V C × P) : Prop :=
  ∃ d r fs log, SerialFrame e o f'.cloud d ∧
    Machine.align (gicpFactor e.eval) (mapWorld e.prep.ops e.prep.scalars c e.prep.maxD x.1 d.cloud e.junk) e.registration f'.exec.lin f'.exec.err e.meth x.2 d.cloud.size = .ok (r, fs, log) ∧ x'.2 = r.T ∧
    log.length ≤ budget e.meth ∧ (∀ it ∈ log, Reachable e.registration.step x.2 it.T0 ∧ PoseDefined e.prep.ops e.prep.scalars e.eval.apply x.1 d.cloud it.T0 ∧
      ValidIn (gicpFactor e.eval) d.cloud.size (StoredPoint pts x.1) it.factors) ∧ r.numInliers ≤ d.cloud.size ∧
    insertCloud e.prep.ops e.prep.scalars e.eval.apply c x.1 d.cloud x'.2 = .ok x'.1

/-- Why a frame after the map and pose `prev` cannot be handled: a coordinate that the sampler cannot convert, a pose of the optimiser under which a point has no cell that can be searched, or a point without a cell to be
inserted into. -/
def MapStuck (e : OdomEnv V P H B D M R) (c : Cells V P M C) (o : OdomParams V) (prev : Option (Voxel.VoxelMap V C × P)) (f : Frame V P M) : Prop :=
  ¬ SampleDefined e o f.cloud ∨ ∃ d, SerialFrame e o f.cloud d ∧ (match prev with
    | none => ¬ InsertDefined e.prep.ops e.prep.scalars e.eval.apply (e.prep.ops.div e.prep.scalars.one o.voxelResolution) d.cloud e.identity
    | some x => (∃ T, Reachable e.registration.step x.2 T ∧ ¬ PoseDefined e.prep.ops e.prep.scalars e.eval.apply x.1 d.cloud T) ∨
      ∃ r fs log, Machine.align (gicpFactor e.eval) (mapWorld e.prep.ops e.prep.scalars c e.prep.maxD x.1 d.cloud e.junk) e.registration f.exec.lin f.exec.err e.meth x.2 d.cloud.size = .ok (r, fs, log) ∧
        ¬ InsertDefined e.prep.ops e.prep.scalars e.eval.apply x.1.invLeaf d.cloud r.T)

theorem frame_alone (he : Rearranges e.prep) (hk : 0 < o.numNeighbors) {f : Frame V P M} (hf : FrameGiven e o f) (h : SampleDefined e o f.cloud) :
    ∃ s d p, sampleFrame e o f = .ok s ∧ prepareFrame e o ⟨{ s.exec with tree := .sequential }, s.cloud⟩ = .ok p ∧ Ready e o f d ∧ p.cloud = d.cloud ∧ s.exec = f.exec := by
  obtain ⟨s, d, p, h1, -, -, -, -, -, h2⟩ := frame_ready he hk hf h
  obtain ⟨s', d', p', g1, g2, g3, -, g4, -, -⟩ := frame_ready (f := ⟨{ f.exec with tree := .sequential }, f.cloud⟩) he hk
    ⟨hf.set, hf.some, hf.few, hf.lin, hf.err, fun d hd => by simp [frameTree], hf.loop⟩ h
  have : s' = ⟨{ s.exec with tree := .sequential }, s.cloud⟩ := by
    unfold sampleFrame at h1 g1
    simp only [] at g1
    cases hc : cloudPoints f.cloud with
    | error er => rw [hc] at h1; cases h1
    | ok q =>
      rw [hc, ok_bind] at h1 g1
      cases hv : voxelgridSampling e.prep.ops e.prep.scalars e.prep.sort q o.downsamplingResolution with
      | error er => rw [hv] at h1; cases h1
      | ok out =>
        rw [hv, ok_bind] at h1 g1
        cases h1
        cases g1
        rfl
  subst this
  exact ⟨s, d', p', h1, g2, ⟨g3.serial, g3.points, g3.size, g3.pos, g3.le, g3.set, g3.covs⟩, g4, h2⟩

/-- C104, the engines that register each frame to the voxel map of all frames so far, in any arithmetic. Either every frame is handled without a fault: the first one makes the map at the identity, each further one is
registered to the map from the pose before it and then inserted at the result. Or this is so up to some frame, at which the behaviour is undefined for one of the reasons of `MapStuck`. -/
theorem C104_model (he : Rearranges e.prep) (hk : 0 < o.numNeighbors) (hcells : OdomCells e.prep.ops e.voxels C c pts) {frames : List (Frame V P M)} (hf : ∀ f ∈ frames, FrameGiven e o f)
    (hsum : (frames.map (fun f => f.cloud.size)).sum < 2 ^ 32) :
    (∃ s maps, modelOnline e c o (frames.map some) = .ok (s, List.replicate frames.length none, maps.map Prod.snd) ∧ InStep (MapStarted e c o) (MapContinued e c pts o) frames maps ∧
      ∀ x, maps.getLast? = some x → s = ⟨some x.1, x.2⟩) ∨
    ∃ done f rest maps, frames = done ++ f :: rest ∧ InStep (MapStarted e c o) (MapContinued e c pts o) done maps ∧ modelOnline e c o (frames.map some) = .error .intOverflow ∧ MapStuck e c o maps.getLast? f := by
  obtain ⟨Good, hnew, hlib, hins⟩ := cells_insert hcells e.prep.scalars e.eval.apply
  let Inv : List (Frame V P M) → ScanToModel V P C → List P → Prop := fun done s tr =>
    ∃ maps : List (Voxel.VoxelMap V C × P), tr = maps.map Prod.snd ∧ InStep (MapStarted e c o) (MapContinued e c pts o) done maps ∧ (maps = [] → s = ⟨none, e.identity⟩) ∧
      ∀ x, maps.getLast? = some x → s = ⟨some x.1, x.2⟩ ∧ Good x.1 ∧ x.1.flat.length ≤ (done.map (fun f => f.cloud.size)).sum
  have key := online_outcome (sample := sampleFrame e o) (step := modelStep e c o) Inv
    (fun _ f s _ er => er = .intOverflow ∧ MapStuck e c o (s.map.map (fun m => (m, s.T))) f) ⟨none, e.identity⟩ frames ⟨[], rfl, inStep_nil, fun _ => rfl, by simp⟩ (by
      intro done f rest hfr s tr hinv
      have hgf : FrameGiven e o f := hf f (by rw [hfr]; simp)
      by_cases hdef : SampleDefined e o f.cloud
      swap
      · right
        refine ⟨.intOverflow, ?_, rfl, .inl hdef⟩
        rw [(C104_frame he hk hgf).2 hdef]
        rfl
      obtain ⟨q, d, p, a1, a2, a3, a4, a5⟩ := frame_alone he hk hgf hdef
      obtain ⟨maps, rfl, i2, i3, i4⟩ := hinv
      rw [a1, ok_bind]
      unfold modelStep
      rw [a2, ok_bind, a4]
      rcases List.eq_nil_or_concat maps with rfl | ⟨maps', x, rfl⟩
      · rw [i3 rfl]
        have hdone : done = [] := List.length_eq_zero_iff.1 i2.1
        obtain ⟨b1, b2⟩ := hins (newMap e.prep.ops e.prep.scalars o.voxelResolution) d.cloud e.identity (hnew _) a3.pos a3.set a3.covs
        simp only []
        by_cases hi : InsertDefined e.prep.ops e.prep.scalars e.eval.apply (e.prep.ops.div e.prep.scalars.one o.voxelResolution) d.cloud e.identity
        · left
          obtain ⟨m, c1, c2, c3, -⟩ := b1 hi
          rw [c1, ok_bind]
          refine ⟨⟨some m, e.identity⟩, e.identity, rfl, [(m, e.identity)], rfl, inStep_snoc i2 (fun _ => ⟨rfl, d, a3.serial, c1⟩) (by simp), by simp, ?_⟩
          rintro x hx
          cases hx
          refine ⟨rfl, c2, ?_⟩
          subst hdone
          simp only [newMap, List.length_nil, Nat.zero_add] at c3
          simpa using c3.trans a3.le
        · right
          refine ⟨.intOverflow, ?_, rfl, .inr ⟨d, a3.serial, hi⟩⟩
          rw [b2 hi]
          rfl
      · obtain ⟨rfl, hgood, hlen⟩ := i4 x (by simp)
        have hsmall : (done.map (fun f => f.cloud.size)).sum + f.cloud.size < 2 ^ 32 := by
          rw [hfr] at hsum
          simp only [List.map_append, List.map_cons, List.sum_append, List.sum_cons] at hsum
          omega
        have hL := hlib x.1 hgood (by omega)
        obtain ⟨al, -⟩ := C103_align (D := D) (E := e.eval) LibraryFactor.gicp e.prep.scalars hL a3.set (fun _ => a3.covs) e.prep.maxD e.junk e.registration f.exec.lin f.exec.err hgf.lin hgf.err e.meth x.2
        simp only []
        unfold alignToMap
        rw [a5]
        rcases al with ⟨r, fs, log, g1, g2, g3, -, -, -, g4⟩ | ⟨g1, T, g2, g3⟩
        · rw [g1, ok_bind]
          simp only [pure, Except.pure, ok_bind]
          obtain ⟨b1, b2⟩ := hins x.1 d.cloud r.T hgood a3.pos a3.set a3.covs
          by_cases hi : InsertDefined e.prep.ops e.prep.scalars e.eval.apply x.1.invLeaf d.cloud r.T
          · left
            obtain ⟨m, c1, c2, c3, -⟩ := b1 hi
            rw [c1, ok_bind]
            refine ⟨⟨some m, r.T⟩, r.T, rfl, maps'.concat x ++ [(m, r.T)], by simp, inStep_snoc i2 ?_ ?_, by simp, ?_⟩
            · rintro rfl
              have := i2.1
              simp at this
            · intro f0 x0 hf0 hx0
              have : x0 = x := by simpa using hx0.symm
              subst this
              exact ⟨d, r, fs, log, a3.serial, g1, rfl, g2, g3, g4, c1⟩
            · intro y hy
              have : y = (m, r.T) := by simpa using hy.symm
              subst this
              refine ⟨rfl, c2, ?_⟩
              have := a3.le
              simp only [List.map_append, List.sum_append, List.map_cons, List.map_nil, List.sum_cons, List.sum_nil]
              omega
          · right
            refine ⟨.intOverflow, ?_, rfl, .inr ⟨d, a3.serial, .inr ⟨r, fs, log, g1, hi⟩⟩⟩
            rw [b2 hi]
            rfl
        · right
          refine ⟨.intOverflow, ?_, rfl, .inr ⟨d, a3.serial, .inl ⟨T, g2, g3⟩⟩⟩
          rw [g1]
          rfl)
  rcases key with ⟨s, tr, k1, maps, rfl, k2, -, k3⟩ | ⟨done, f, rest, s, tr, er, k1, ⟨maps, -, k2, k3, k4⟩, k5, rfl, k6⟩
  · exact .inl ⟨s, maps, k1, k2, fun x hx => (k3 x hx).1⟩
  · refine .inr ⟨done, f, rest, maps, k1, k2, k5, ?_⟩
    have : maps.getLast? = s.map.map (fun m => (m, s.T)) := by
      cases hm : maps.getLast? with
      | none =>
        rw [k3 (List.getLast?_eq_none_iff.1 hm)]
        rfl
      | some x =>
        rw [(k4 x hm).1]
        rfl
    rw [this]
    exact k6

end Model

/-! ### a frame against the voxel map of the one before it -/

section Vgicp

open Verif.Machine

variable {V P H B D M R : Type} [LT V] [DecidableLT V] [LE V] [DecidableLE V] [Zero V] [Add V] [Sub V] [Mul V] [Div V] [Zero H] [Add H] [Zero B] [Add B] {e : OdomEnv V P H B D M R} {o : OdomParams V}

/-- `d` and `m` are the frame as prepared by one thread and its voxel map. -/
def FrameMap (e : OdomEnv V P H B D M R) (o : OdomParams V) (f : Frame V P M) (d : FrameData V M) (m : Voxel.VoxelMap V (GVoxel V M)) : Prop :=
  SerialFrame e o f.cloud d ∧ createGaussian e.prep.ops e.prep.scalars e.eval.apply e.voxels e.identity d.cloud o.voxelResolution = .ok m

/-- Frame `f'` is registered to the voxel map of frame `f`, from the identity and within the allowed iterations; `T'` is the product. -/
def RegisteredToMap (e : OdomEnv V P H B D M R) (o : OdomParams V) (f : Frame V P M) (T : P) (f' : Frame V P M) (T' : P) : Prop :=
  ∃ d m d' m' r fs log, FrameMap e o f d m ∧ FrameMap e o f' d' m' ∧
    Machine.align (gicpFactor e.eval) (mapWorld e.prep.ops e.prep.scalars (gaussianCells e.prep.ops e.voxels) e.prep.maxD m d'.cloud e.junk)
      { e.registration with rejector := distanceRejector (o.maxCorrespondenceDistance * o.maxCorrespondenceDistance) } f'.exec.lin f'.exec.err e.meth e.identity d'.cloud.size = .ok (r, fs, log) ∧
    T' = e.mul T r.T ∧ log.length ≤ budget e.meth ∧ (∀ it ∈ log, Reachable e.registration.step e.identity it.T0 ∧ PoseDefined e.prep.ops e.prep.scalars e.eval.apply m d'.cloud it.T0 ∧
      ValidIn (gicpFactor e.eval) d'.cloud.size (StoredPoint (fun v : GVoxel V M => [v.mean]) m) it.factors) ∧ r.numInliers ≤ d'.cloud.size

/-- Why a frame after `prev` cannot be handled: a coordinate that the sampler cannot convert, a point without a cell, or a pose of the optimiser under which a point has no cell that can be searched. -/
def FrameStuck (e : OdomEnv V P H B D M R) (o : OdomParams V) (prev : Option (Frame V P M)) (f : Frame V P M) : Prop :=
  ¬ SampleDefined e o f.cloud ∨ ∃ d, SerialFrame e o f.cloud d ∧ (¬ InsertDefined e.prep.ops e.prep.scalars e.eval.apply (e.prep.ops.div e.prep.scalars.one o.voxelResolution) d.cloud e.identity ∨
    ∃ f0 d0 m0, prev = some f0 ∧ FrameMap e o f0 d0 m0 ∧ ∃ T, Reachable e.registration.step e.identity T ∧ ¬ PoseDefined e.prep.ops e.prep.scalars e.eval.apply m0 d.cloud T)

/-- C104, the engines that register each frame to the voxel map of the one before it, in any arithmetic. Either every frame is handled without a fault, each further pose being the product of the one before it with the result
of the registration; or this is so up to some frame, at which the behaviour is undefined for one of the reasons of `FrameStuck`. -/
theorem C104_vgicp (he : Rearranges e.prep) (hk : 0 < o.numNeighbors) {frames : List (Frame V P M)} (hf : ∀ f ∈ frames, FrameGiven e o f) :
    (∃ s tr, vgicpOnline e o (frames.map some) = .ok (s, List.replicate frames.length none, tr) ∧
      InStep (fun f T => T = e.identity ∧ ∃ d m, FrameMap e o f d m) (RegisteredToMap e o) frames tr) ∨
    ∃ done f rest tr, frames = done ++ f :: rest ∧ InStep (fun f T => T = e.identity ∧ ∃ d m, FrameMap e o f d m) (RegisteredToMap e o) done tr ∧ vgicpOnline e o (frames.map some) = .error .intOverflow ∧
      FrameStuck e o done.getLast? f := by
  obtain ⟨Good, hnew, hlib, hins⟩ := cells_insert (V := V) (P := P) (M := M) (OdomCells.gaussian (o := e.prep.ops) (g := e.voxels)) e.prep.scalars e.eval.apply
  let Inv : List (Frame V P M) → FrameToFrame P (MapFrame V P M) → List P → Prop := fun done s tr =>
    InStep (fun f T => T = e.identity ∧ ∃ d m, FrameMap e o f d m) (RegisteredToMap e o) done tr ∧ (done = [] → s = ⟨none, e.identity⟩) ∧
    ∀ f, done.getLast? = some f → tr.getLast? = some s.T ∧ ∃ d p, s.target = some p ∧ FrameMap e o f d p.map ∧ Good p.map ∧ p.map.flat.length < 2 ^ 32
  have key := online_outcome (sample := sampleFrame e o) (step := frameToFrame e.mul (prepareMapFrame e o) (registerMapFrames e o)) Inv
    (fun done f _ _ er => er = .intOverflow ∧ FrameStuck e o done.getLast? f) ⟨none, e.identity⟩ frames ⟨inStep_nil, fun _ => rfl, by simp⟩ (by
      intro done f rest hfr s tr hinv
      have hgf : FrameGiven e o f := hf f (by rw [hfr]; simp)
      by_cases hdef : SampleDefined e o f.cloud
      swap
      · right
        refine ⟨.intOverflow, ?_, rfl, .inl hdef⟩
        rw [(C104_frame he hk hgf).2 hdef]
        rfl
      obtain ⟨q, d, p, a1, a2, a3, a4, a5, a6, a7⟩ := frame_ready he hk hgf hdef
      obtain ⟨i2, i3, i4⟩ := hinv
      rw [a1, ok_bind]
      obtain ⟨b1, b2⟩ := hins (newMap e.prep.ops e.prep.scalars o.voxelResolution) d.cloud e.identity (hnew _) a3.pos a3.set a3.covs
      by_cases hi : InsertDefined e.prep.ops e.prep.scalars e.eval.apply (e.prep.ops.div e.prep.scalars.one o.voxelResolution) d.cloud e.identity
      swap
      · right
        refine ⟨.intOverflow, ?_, rfl, .inr ⟨d, a3.serial, .inl hi⟩⟩
        unfold frameToFrame prepareMapFrame createGaussian
        rw [a2, ok_bind, a5, b2 hi]
        rfl
      obtain ⟨m, c1, c2, c3, -⟩ := b1 hi
      have hm : FrameMap e o f d m := ⟨a3.serial, c1⟩
      have hml : m.flat.length < 2 ^ 32 := by
        simp only [newMap, List.length_nil, Nat.zero_add] at c3
        have := a3.le
        have := hgf.few
        omega
      have hprep : prepareMapFrame e o q = .ok ⟨f.exec, d.cloud, m⟩ := by
        unfold prepareMapFrame createGaussian
        rw [a2, ok_bind, a5, c1, ok_bind, a7]
        rfl
      unfold frameToFrame
      rw [hprep, ok_bind]
      rcases List.eq_nil_or_concat done with rfl | ⟨done', f0, rfl⟩
      · left
        rw [i3 rfl]
        obtain rfl : tr = [] := List.length_eq_zero_iff.1 i2.1.symm
        exact ⟨⟨some ⟨f.exec, d.cloud, m⟩, e.identity⟩, e.identity, rfl, inStep_snoc i2 (fun _ => ⟨rfl, d, m, hm⟩) (by simp), by simp, fun f' hf' => ⟨by simp, d, _, rfl, by
          simp at hf'
          subst hf'
          exact ⟨hm, c2, hml⟩⟩⟩
      · obtain ⟨j1, d0, p0, j2, j3, j4, j5⟩ := i4 f0 (by simp)
        obtain ⟨al, -⟩ := C103_align (D := D) (E := e.eval) LibraryFactor.gicp e.prep.scalars (hlib p0.map j4 j5) a3.set (fun _ => a3.covs) e.prep.maxD e.junk (Machine.gated e o) f.exec.lin f.exec.err hgf.lin hgf.err e.meth e.identity
        rw [j2]
        simp only []
        unfold registerMapFrames alignToMap
        simp only []
        rcases al with ⟨r, fs, log, g1, g2, g3, -, -, -, g4⟩ | ⟨g1, T, g2, g3⟩
        · left
          rw [g1, ok_bind]
          simp only [pure, Except.pure, ok_bind]
          refine ⟨_, e.mul s.T r.T, rfl, inStep_snoc i2 (by simp) ?_, by simp, fun f' hf' => ⟨by simp, d, _, rfl, by
            simp at hf'
            subst hf'
            exact ⟨hm, c2, hml⟩⟩⟩
          intro f1 T1 hf1 hT1
          rw [j1] at hT1
          cases hT1
          simp at hf1
          subst hf1
          exact ⟨d0, p0.map, d, m, r, fs, log, j3, hm, g1, rfl, g2, g3, g4⟩
        · right
          refine ⟨.intOverflow, ?_, rfl, .inr ⟨d, a3.serial, .inr ⟨f0, d0, p0.map, by simp, j3, T, g2, g3⟩⟩⟩
          rw [g1]
          rfl)
  rcases key with ⟨s, tr, k1, k2, -⟩ | ⟨done, f, rest, s, tr, er, k1, ⟨k2, -⟩, k5, rfl, k6⟩
  · exact .inl ⟨s, tr, k1, k2⟩
  · exact .inr ⟨done, f, rest, tr, k1, k2, k5, k6⟩

end Vgicp

/-! ### every frame can be processed in parallel -/

section Runs

open Verif.Machine

variable {V P H B D M R : Type} [LT V] [DecidableLT V] [LE V] [DecidableLE V] {e : OdomEnv V P H B D M R} {o : OdomParams V}

/-- One thread always comes to the end. -/
theorem frameGiven_sequential {c : Cloud (Fin 4 → V) M} (hset : PointsSet c) (hpos : 0 < c.size) (hfew : c.size < 2 ^ 32) : FrameGiven e o (⟨⟨.sequential, .sequential, fun _ _ => .serial, fun _ _ => .serial⟩, c⟩ : Frame V P M) where
  set := hset
  some := hpos
  few := hfew
  lin := fun _ _ => trivial
  err := fun _ _ => trivial
  tree := fun _ _ => by simp [frameTree]
  loop := fun _ _ _ _ h => by cases h

/-- Whatever the points are, the threads that build the tree and those that estimate the covariances can come to the end: the hypotheses on the executions exclude no input. -/
theorem frameGiven_parallel (he : Rearranges e.prep) (hk : 0 < o.numNeighbors) {c : Cloud (Fin 4 → V) M} (hset : PointsSet c) (hpos : 0 < c.size) (hfew : c.size < 2 ^ 32) :
    ∃ s1 chunks s2, FrameGiven e o (⟨⟨.parallel s1, .parallel chunks s2, fun _ _ => .serial, fun _ _ => .serial⟩, c⟩ : Frame V P M) := by
  by_cases hd : ∃ d, SerialFrame e o c d
  swap
  · exact ⟨[], [], [], hset, hpos, hfew, fun _ _ => trivial, fun _ _ => trivial, fun d h => absurd ⟨d, h⟩ hd, fun d h => absurd ⟨d, h⟩ hd⟩
  obtain ⟨d, hd⟩ := hd
  have huniq : ∀ d', SerialFrame e o c d' → d'.points = d.points := by
    rintro d' ⟨pts', b1, b2, -⟩
    obtain ⟨pts, a1, a2, -⟩ := hd
    rw [a1] at b1
    cases b1
    rw [a2] at b2
    exact (Except.ok.inj b2).symm
  have hseq := frameGiven_sequential (e := e) (o := o) (P := P) hset hpos hfew
  have hdef : SampleDefined e o c := by
    by_contra hn
    have h := (C104_frame he hk hseq).2 hn
    obtain ⟨pts, a1, a2, -⟩ := hd
    simp only [sampleFrame] at h
    rw [a1, ok_bind, a2, ok_bind] at h
    cases h
  obtain ⟨d', -, a1, -, -, -, -, -, a2, a3, a4, -⟩ := (C104_frame he hk hseq).1 hdef
  rw [a2] at a3 a4
  rw [huniq d' a1] at a3 a4
  obtain ⟨s1, ps, t, h1, h2⟩ := parallel_completes e.prep.ops e.prep.builder (points := d.points) (List.ne_nil_of_length_pos a3) (lt_of_le_of_lt a4 hfew) he.nth (builder_axis _) (by show 3 ≤ toU64 20; decide)
  obtain ⟨s2, h3⟩ := parOrder_seq (([List.range d.points.length] : List (List Nat)).map (fun c => c.flatMap Features.covarianceSetter.acts))
  refine ⟨s1, [List.range d.points.length], s2, hset, hpos, hfew, fun _ _ => trivial, fun _ _ => trivial, fun d' hd' => ?_, fun d' hd' chunks sched hx => ?_⟩
  · rw [huniq d' hd']
    simp only [frameTree]
    rw [if_neg (by omega), h1]
    simp [h2]
  · cases hx
    rw [huniq d' hd', h3]
    exact ⟨by simp, by simp⟩

end Runs

section Example

open Verif.Machine QN

/-- The settings of the engines over the rationals with NaN; a pose is a shift. -/
def qnOdom : OdomEnv QN QN QN QN QN QN QN := ⟨qnEnv, qnEval, qnVoxels, num 0, (· + ·), qnConfig, .lm qnSetting, (0, num 0)⟩

def qnParams : OdomParams QN := ⟨5, num 1, num 2, num 3⟩

def qnFrames (l l' : List (Fin 4 → QN)) : List (Frame QN QN QN) := [⟨⟨.sequential, .sequential, fun _ _ => .serial, fun _ _ => .serial⟩, qnCloud l⟩, ⟨⟨.sequential, .sequential, fun _ _ => .serial, fun _ _ => .serial⟩, qnCloud l'⟩]

theorem qnFrames_given {l l' : List (Fin 4 → QN)} (h : 0 < l.length ∧ l.length < 100) (h' : 0 < l'.length ∧ l'.length < 100) : ∀ f ∈ qnFrames l l', FrameGiven qnOdom qnParams f := by
  have key : ∀ l : List (Fin 4 → QN), 0 < l.length ∧ l.length < 100 → FrameGiven qnOdom qnParams ⟨⟨.sequential, .sequential, fun _ _ => .serial, fun _ _ => .serial⟩, qnCloud l⟩ := by
    intro l hl
    have hs : (qnCloud l).size = l.length := by simp [qnCloud, Cloud.size]
    refine frameGiven_sequential (fun i hi => ?_) (by rw [hs]; exact hl.1) (by rw [hs]; omega)
    simp only [qnCloud, List.length_map] at hi ⊢
    rw [List.getElem?_map, List.getElem?_eq_getElem (by simpa using hi)]
    exact ⟨_, rfl⟩
  intro f hf
  simp only [qnFrames, List.mem_cons, List.not_mem_nil, or_false] at hf
  rcases hf with rfl | rfl
  · exact key l h
  · exact key l' h'

theorem qn_whole (n : Nat) (hn : n < 1000) : CoordDefined qnOdom.prep.scalars (qnOdom.prep.ops.mul (num n) (qnOdom.prep.ops.div qnOdom.prep.scalars.one qnParams.downsamplingResolution)) := by
  have : qnOdom.prep.ops.mul (num n) (qnOdom.prep.ops.div qnOdom.prep.scalars.one qnParams.downsamplingResolution) = num n := by
    show num ((n : ℚ) * (1 / 1)) = num n
    norm_num
  rw [this]
  exact qn_defined n (by omega)

def qnXY (l : List (Nat × Nat)) : List (Fin 4 → QN) := l.map fun x => qnPoint (num x.1) (num x.2)

theorem qn_sampled {l : List (Nat × Nat)} (hl : ∀ x ∈ l, x.1 < 1000 ∧ x.2 < 1000) : SampleDefined qnOdom qnParams (qnCloud (qnXY l)) := by
  intro i p hp
  simp only [qnCloud, qnXY, List.getElem?_map, Option.map_map] at hp
  obtain ⟨x, hx, h⟩ := Option.map_eq_some_iff.1 hp
  cases h
  have h := hl x (List.mem_of_getElem? hx)
  exact ⟨qn_whole x.1 h.1, qn_whole x.2 h.2, by have := qn_whole 0 (by decide); rw [Nat.cast_zero] at this; exact this,
    by have := qn_whole 1 (by decide); rw [Nat.cast_one] at this; exact this⟩

/-- Two frames of numbers: two poses, the first one the identity. -/
example : ∃ s T, gicpOnline qnOdom qnParams ((qnFrames (qnXY [(1, 2), (5, 3), (9, 9)]) (qnXY [(2, 2), (6, 3), (11, 9)])).map some) =
    .ok (s, [none, none], [num 0, T]) := by
  obtain ⟨s, tr, h1, h2, h3, -⟩ := (C104_odometry (e := qnOdom) (o := qnParams) qnEnv_rearranges rfl (by decide) (qnFrames_given (l := qnXY [(1, 2), (5, 3), (9, 9)]) (l' := qnXY [(2, 2), (6, 3), (11, 9)]) (by simp [qnXY]) (by simp [qnXY]))).1 (by
    intro f hf
    simp only [qnFrames, List.mem_cons, List.not_mem_nil, or_false] at hf
    rcases hf with rfl | rfl
    · exact qn_sampled (l := [(1, 2), (5, 3), (9, 9)]) (by decide)
    · exact qn_sampled (l := [(2, 2), (6, 3), (11, 9)]) (by decide))
  obtain ⟨T0, T, rfl⟩ : ∃ a b, tr = [a, b] := List.length_eq_two.1 h2.symm
  refine ⟨s, T, ?_⟩
  rw [h1, h3 _ T0 rfl rfl]
  rfl

/-- A NaN in the second one: undefined behaviour. -/
example : gicpOnline qnOdom qnParams ((qnFrames (qnXY [(1, 2), (5, 3), (9, 9)]) [qnPoint (num 2) (num 2), qnPoint nan (num 3)]).map some) = .error .intOverflow := by
  refine (C104_odometry (e := qnOdom) (o := qnParams) qnEnv_rearranges rfl (by decide) (qnFrames_given (by simp [qnXY]) (by simp))).2 fun h => ?_
  have := h _ (List.mem_cons_of_mem _ (List.mem_singleton.2 rfl)) 1 (qnPoint nan (num 3)) rfl
  obtain ⟨n, h1, -⟩ := this.1
  cases h1

/-- The maps of Gaussian and of flat voxels. -/
example : (∃ (s : ScanToModel QN QN (GVoxel QN QN)) (maps : List (Voxel.VoxelMap QN (GVoxel QN QN) × QN)), modelOnline qnOdom (gaussianCells qnEnv.ops qnVoxels) qnParams ((qnFrames [qnPoint (num 1) (num 2)] [qnPoint (num 2) (num 2)]).map some) = .ok (s, [none, none], maps.map Prod.snd)) ∨
    modelOnline qnOdom (gaussianCells qnEnv.ops qnVoxels) qnParams ((qnFrames [qnPoint (num 1) (num 2)] [qnPoint (num 2) (num 2)]).map some) = .error .intOverflow := by
  rcases C104_model (e := qnOdom) (o := qnParams) qnEnv_rearranges (by decide) OdomCells.gaussian (qnFrames_given (l := [qnPoint (num 1) (num 2)]) (l' := [qnPoint (num 2) (num 2)]) (by decide) (by decide)) (by decide) with
    ⟨s, maps, h, -⟩ | ⟨-, -, -, -, -, -, h, -⟩
  · exact .inl ⟨s, maps, h⟩
  · exact .inr h

example := C104_model (e := qnOdom) (o := qnParams) qnEnv_rearranges (by decide) (OdomCells.flat ⟨num (1 / 2), 10, false, true⟩ rfl rfl (by decide))
  (qnFrames_given (l := [qnPoint (num 1) (num 2)]) (l' := [qnPoint (num 2) (num 2)]) (by decide) (by decide)) (by decide)

example := C104_vgicp (e := qnOdom) (o := qnParams) qnEnv_rearranges (by decide) (qnFrames_given (l := [qnPoint (num 1) (num 2)]) (l' := [qnPoint (num 2) (num 2)]) (by decide) (by decide))

end Example

end Verif.Props
