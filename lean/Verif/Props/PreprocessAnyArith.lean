import Verif.Proofs.PreprocessAnyArith
import Verif.Props.KnnAnyArith
import Verif.Props.DownsamplingRounding
import Verif.Props.Features
import Verif.Props.PointCloud

/-!
C102: preprocessing and registration of raw points in any arithmetic. The only thing that can go wrong is the conversion of a scaled coordinate to `int`.
-/

set_option linter.unusedSectionVars false
set_option linter.unusedSimpArgs false
set_option linter.unnecessarySeqFocus false

namespace Verif.Spec

open Verif Verif.Machine

/-- What is assumed about the standard library and `quick_sort_omp`: sorting and selecting rearrange. -/
structure Rearranges {V M R : Type} (e : PrepEnv V M R) : Prop where
  sort : ∀ l, (e.sort l).Perm l
  sortOmp : ∀ l, (e.sortOmp l).Perm l
  nth : ∀ l n, (e.nthElement l n).Perm l

end Verif.Spec

namespace Verif.Props

open Matrix Verif Verif.Knn Verif.KdTree Verif.Proofs Verif.Proofs.Any Verif.Features Verif.Factors Verif.Reduction Verif.PointCloud Verif.RegMem Verif.Spec

section Features

variable {V M R : Type}

theorem resize_any (c : Cloud (Fin 4 → V) M) : (c.resize c.size).points = c.points ∧ (c.resize c.size).normals.length = c.size ∧ (c.resize c.size).covs.length = c.size := by
  have h : ∀ {α : Type} (l : List (Option α)) n, (resizeSlots l n).length = n := by
    intro α l n
    unfold resizeSlots
    simp only [List.length_append, List.length_take, List.length_replicate]
    omega
  exact ⟨by simp [Cloud.resize, Cloud.size, resizeSlots], h _ _, h _ _⟩

/-- C102, features. If the search finds indices of points of the cloud, estimating normals and covariances succeeds in any arithmetic, leaves the points alone and sets what it is asked to set, to the values of the local frame of each
point, and nothing else; and every execution of the parallel versions gives the very same cloud. -/
theorem C102_features (fe : Machine.FeatureEval V M R) (S : Setter) (knn : Machine.Search V) {k : Int} (hk : 0 ≤ k) (cloud : Cloud (Fin 4 → V) M) (hset : PointsSet cloud)
    (hknn : ∀ (i : Nat) (p : Fin 4 → V), cloud.points[i]? = some (some p) → ∃ idx, knn cloud.points p k.toNat = .ok idx ∧ ∀ j ∈ idx, j < cloud.size) :
    ∃ c, Machine.estimate fe S knn k cloud = .ok c ∧ c.points = cloud.points ∧ (S.normals = true → NormalsSet c) ∧ (S.covs = true → CovsSet c) ∧
      (S.normals = false → c.normals = (cloud.resize cloud.size).normals) ∧ (S.covs = false → c.covs = (cloud.resize cloud.size).covs) ∧
      (∀ i < cloud.size, ∃ p f, cloud.points[i]? = some (some p) ∧ Machine.localFrame fe knn k cloud i = .ok f ∧ (S.normals = true → c.normals[i]? = some (some (f.elim fe.zero (fe.normal p)))) ∧
        (S.covs = true → c.covs[i]? = some (some (f.elim fe.invalidCov fe.cov)))) ∧
      ∀ chunks sched, chunks.flatten.Perm (List.range cloud.size) → ∀ r, Machine.estimatePar fe S knn k cloud chunks sched = some r → r = .ok c := by
  obtain ⟨hp, hn, hc⟩ := resize_any cloud
  have hframe : ∀ i, ∃ fp : Option R × (Fin 4 → V), i < cloud.size → Machine.localFrame fe knn k (cloud.resize cloud.size) i = .ok fp.1 ∧ (cloud.resize cloud.size).points[i]? = some (some fp.2) := by
    intro i
    by_cases hi : i < cloud.size
    · obtain ⟨p, hp'⟩ := hset i hi
      obtain ⟨idx, h1, h2⟩ := hknn i p hp'
      obtain ⟨f, hf⟩ := frame_defined (fe := fe) (knn := knn) hk (c := cloud.resize cloud.size) (i := i) (p := p) (by rw [hp]; exact hp') (idx := idx) (by rw [hp]; exact h1)
        (fun j hj => by rw [hp]; exact hset j (h2 j hj))
      exact ⟨(f, p), fun _ => ⟨hf, by rw [hp]; exact hp'⟩⟩
    · by_cases h0 : 0 < cloud.size
      · obtain ⟨p, -⟩ := hset 0 h0
        exact ⟨(none, p), fun h => absurd h hi⟩
      · exact ⟨(none, fe.zero), fun h => absurd h hi⟩
  choose fp hfp using hframe
  have hserial := foldlM_inv (Machine.estimateOne fe S knn k) (fun done c => c.points = cloud.points ∧ c.normals.length = cloud.size ∧ c.covs.length = cloud.size ∧
      (∀ i, c.normals[i]? = if i ∈ done ∧ S.normals = true then some (some (normalValue fe (fp i).2 (fp i).1)) else (cloud.resize cloud.size).normals[i]?) ∧
      (∀ i, c.covs[i]? = if i ∈ done ∧ S.covs = true then some (some (covValue fe (fp i).1)) else (cloud.resize cloud.size).covs[i]?))
    (List.range cloud.size) (cloud.resize cloud.size) ⟨hp, hn, hc, fun i => by simp, fun i => by simp⟩ (by
      rintro done a rest hl c ⟨h1, h2, h3, h4, h5⟩
      have ha : a < cloud.size := by
        have : a ∈ List.range cloud.size := by rw [hl]; simp
        exact List.mem_range.1 this
      obtain ⟨hf, hpa⟩ := hfp a ha
      have hN := writeNormal_ok (fe := fe) (c := c) (i := a) (by rw [h1, ← hp]; exact hpa) (by omega) (fp a).1
      have hstep : Machine.estimateOne fe S knn k c a = .ok ⟨c.points, if S.normals then c.normals.set a (some (normalValue fe (fp a).2 (fp a).1)) else c.normals,
          if S.covs then c.covs.set a (some (covValue fe (fp a).1)) else c.covs⟩ := by
        unfold Machine.estimateOne
        rw [frame_points (c' := cloud.resize cloud.size) (by rw [h1, hp]), hf, ok_bind]
        unfold Machine.writeFeatures
        cases hS : S.normals with
        | false =>
          simp only [Bool.false_eq_true, if_false, ok_bind]
          cases hS2 : S.covs with
          | false => simp only [Bool.false_eq_true, if_false]
          | true =>
            simp only [if_true]
            exact writeCov_ok (by omega) _
        | true =>
          simp only [if_true]
          rw [hN, ok_bind]
          cases hS2 : S.covs with
          | false => simp only [Bool.false_eq_true, if_false]
          | true =>
            simp only [if_true]
            exact writeCov_ok (c := { c with normals := c.normals.set a (some (normalValue fe (fp a).2 (fp a).1)) }) (by show a < c.covs.length; omega) _
      refine ⟨_, hstep, h1, by simp only []; split <;> simp [h2], by simp only []; split <;> simp [h3], fun i => ?_, fun i => ?_⟩
      · cases hS : S.normals with
        | false => simpa [hS] using h4 i
        | true =>
          simp only [if_true, List.getElem?_set, List.mem_append, List.mem_singleton, and_true]
          by_cases e : a = i
          · subst e
            simp [h2, ha]
          · simp [e, Ne.symm e, h4 i, hS]
      · cases hS : S.covs with
        | false => simpa [hS] using h5 i
        | true =>
          simp only [if_true, List.getElem?_set, List.mem_append, List.mem_singleton, and_true]
          by_cases e : a = i
          · subst e
            simp [h3, ha]
          · simp [e, Ne.symm e, h5 i, hS])
  obtain ⟨c, hc1, hc2, hc3, hc4, hc5, hc6⟩ := hserial
  have hsize : c.points.length = cloud.size := by rw [hc2]; rfl
  refine ⟨c, hc1, hc2, fun hS i hi => ⟨_, (hc5 i).trans (if_pos ⟨List.mem_range.2 (by omega), hS⟩)⟩, fun hS i hi => ⟨_, (hc6 i).trans (if_pos ⟨List.mem_range.2 (by omega), hS⟩)⟩,
    fun hS => List.ext_getElem? fun i => (hc5 i).trans (if_neg (by simp [hS])), fun hS => List.ext_getElem? fun i => (hc6 i).trans (if_neg (by simp [hS])), fun i hi => ?_, ?_⟩
  · obtain ⟨f1, f2⟩ := hfp i hi
    refine ⟨(fp i).2, (fp i).1, by rw [← hp]; exact f2, by rw [frame_points hp.symm]; exact f1, fun hS => (hc5 i).trans ((if_pos ⟨List.mem_range.2 hi, hS⟩).trans ?_),
      fun hS => (hc6 i).trans ((if_pos ⟨List.mem_range.2 hi, hS⟩).trans ?_)⟩
    · cases (fp i).1 <;> rfl
    · cases (fp i).1 <;> rfl
  intro chunks sched hch r hr
  unfold Machine.estimatePar at hr
  obtain ⟨order, ho, rfl⟩ := Option.map_eq_some_iff.1 hr
  have hmem : ∀ a, a ∈ order ↔ a ∈ (List.range cloud.size).flatMap S.acts := by
    intro a
    rw [(parOrder_perm _ _ _ ho).mem_iff]
    simp only [List.mem_flatten, List.mem_map, List.mem_flatMap]
    constructor
    · rintro ⟨_, ⟨c, hc, rfl⟩, ha⟩
      obtain ⟨i, hi, ha⟩ := List.mem_flatMap.1 ha
      exact ⟨i, hch.mem_iff.1 (List.mem_flatten.2 ⟨c, hc, hi⟩), ha⟩
    · rintro ⟨i, hi, ha⟩
      obtain ⟨c, hc, hi⟩ := List.mem_flatten.1 (hch.mem_iff.2 hi)
      exact ⟨_, ⟨c, hc, rfl⟩, List.mem_flatMap.2 ⟨i, hi, ha⟩⟩
  have hN : ∀ i, Act.normal i ∈ order ↔ i ∈ List.range cloud.size ∧ S.normals = true := by
    intro i
    rw [hmem]
    simp only [List.mem_flatMap, List.mem_range, Setter.acts]
    constructor
    · rintro ⟨j, hj, hm⟩
      cases hS1 : S.normals <;> cases hS2 : S.covs <;> simp [hS1, hS2] at hm <;> simp <;> omega
    · rintro ⟨hi, hS⟩
      exact ⟨i, hi, by simp [hS]⟩
  have hC : ∀ i, Act.cov i ∈ order ↔ i ∈ List.range cloud.size ∧ S.covs = true := by
    intro i
    rw [hmem]
    simp only [List.mem_flatMap, List.mem_range, Setter.acts]
    constructor
    · rintro ⟨j, hj, hm⟩
      cases hS1 : S.normals <;> cases hS2 : S.covs <;> simp [hS1, hS2] at hm <;> simp <;> omega
    · rintro ⟨hi, hS⟩
      exact ⟨i, hi, by simp [hS]⟩
  obtain ⟨c2, l2, e2, p2, n2, v2⟩ := run_any (fe := fe) (knn := knn) (k := k) (base := cloud.resize cloud.size) (f := fun i => (fp i).1) (p := fun i => (fp i).2) hn hc
    (fun i hi => (hfp i hi).2) (fun i hi => (hfp i hi).1) order
    (by
      intro done a rest hd b hb
      have := parOrder_before needs sched _ order [] ho (by
        intro t ht l1 a l2 hl b hb
        obtain ⟨c, _, rfl⟩ := List.mem_map.1 ht
        exact .inl (acts_before S c l1 a l2 hl b hb)) done a rest hd b hb
      rcases this with h1 | h1
      · exact h1
      · simp at h1)
    (by
      intro i hi
      rcases hi with hi | hi | hi
      · rw [hmem] at hi
        simp only [List.mem_flatMap, List.mem_range, Setter.acts] at hi
        obtain ⟨j, hj, hm⟩ := hi
        cases hS1 : S.normals <;> cases hS2 : S.covs <;> simp [hS1, hS2] at hm <;> omega
      · exact List.mem_range.1 ((hN i).1 hi).1
      · exact List.mem_range.1 ((hC i).1 hi).1) (fun _ => none)
  rw [e2, ok_bind]
  congr 1
  have h1 : c2.points = c.points := by rw [p2, hp, hc2]
  have h2 : c2.normals = c.normals := by
    apply List.ext_getElem?
    intro i
    rw [n2, hc5]
    simp only [hN]
  have h3 : c2.covs = c.covs := by
    apply List.ext_getElem?
    intro i
    rw [v2, hc6]
    simp only [hC]
  cases c2; cases c
  simp only at h1 h2 h3
  rw [h1, h2, h3]

end Features

section Preprocess

variable {V M R : Type} [LT V] [DecidableLT V] [LE V] [DecidableLE V]

theorem toPt_ofPt_any (p : Pt V) : Machine.toPt (Machine.ofPt p) = p := rfl

theorem cloudPoints_any (c : Cloud (Fin 4 → V) M) (out : List (Pt V)) (h : c.points = out.map (fun p => some (Machine.ofPt p))) : Machine.cloudPoints c = .ok out := by
  have hsz : c.size = out.length := by unfold Cloud.size; rw [h]; simp
  have hv : ∀ i ∈ List.range c.size, ∀ (hi : i < out.length), (do let p ← c.point i; return Machine.toPt p : Res (Pt V)) = .ok out[i] := by
    intro i _ hi
    have : c.points[i]? = some (some (Machine.ofPt out[i])) := by rw [h]; simp [hi]
    rw [point_ok this, ok_bind, toPt_ofPt_any]
    rfl
  rcases Nat.eq_zero_or_pos out.length with h0 | h0
  · have : out = [] := List.eq_nil_of_length_eq_zero h0
    subst this
    unfold Machine.cloudPoints
    rw [hsz]
    rfl
  · unfold Machine.cloudPoints
    rw [mapM_ok _ (fun i => if hi : i < out.length then out[i] else out[0]) _ (fun i hi => by
      have hi' : i < out.length := by rw [← hsz]; exact List.mem_range.1 hi
      simp only [dif_pos hi']
      exact hv i hi hi')]
    congr 1
    apply List.ext_getElem
    · simp [hsz]
    · intro i h1 h2
      simp [h2]

/-- The tree of the sampled points, and what its search finds. -/
theorem sampled_tree {e : Machine.PrepEnv V M R} (he : Rearranges e) {out : List (Pt V)} (hN : out.length < 2 ^ 32) {k : Int} (hk : 0 < k) :
    ∃ t, KdTree.construct e.ops e.builder (out.length + 1) out = .ok t ∧ ∀ q, out ≠ [] → ∃ idx, Machine.kdKnn e t (Machine.sampledCloud out : Cloud (Fin 4 → V) M).points q k.toNat = .ok idx ∧
      ∀ j ∈ idx, j < out.length := by
  have hfind : FindAxisSpec (fun _ => True) e.builder.findAxis := by
    intro points range hne hv
    obtain ⟨pts, h, -⟩ := scanPoints_ok points range 128 (by unfold toU64; decide) hne hv
    show ∃ p, findAxis e.ops 128 points range = .ok p ∧ True
    unfold findAxis
    rw [h]
    exact ⟨_, rfl, trivial⟩
  by_cases hne : out = []
  · subst hne
    exact ⟨⟨[], [], none⟩, rfl, fun q h => absurd rfl h⟩
  · obtain ⟨t, h1, h2⟩ := C101_knn e.ops e.builder (points := out) hne hN he.nth hfind (by show 3 ≤ toU64 20; decide) (fuelB := out.length + 1) (fuel := out.length + 1) (by omega) (by omega)
    refine ⟨t, h1, fun q _ => ?_⟩
    obtain ⟨r, h3, h4, -⟩ := h2 e.maxD (-1) (k.toNat : Int) k.toNat (by rw [if_neg (by decide), Int.toNat_natCast]) (by omega) (by omega) (List.replicate k.toNat 0) (List.replicate k.toNat e.ops.zero) (by simp) (by simp) (Machine.toPt q) e.ops.zero
    refine ⟨r.found.map Prod.fst, ?_, fun j hj => ?_⟩
    · unfold Machine.kdKnn
      rw [cloudPoints_any ⟨(Machine.sampledCloud out : Cloud (Fin 4 → V) M).points, [], []⟩ out rfl, ok_bind, h3]
      rfl
    · obtain ⟨c, hc, rfl⟩ := List.mem_map.1 hj
      obtain ⟨p, hp, -⟩ := h4.genuine c hc
      exact (List.getElem?_eq_some_iff.1 hp).1

/-- Tree and features of the sampled points, for any choice of features. -/
theorem sampled_setter {e : Machine.PrepEnv V M R} (he : Rearranges e) (S : Setter) {out : List (Pt V)} (hN : out.length < 2 ^ 32) {k : Int} (hk : 0 < k) :
    ∃ t c, KdTree.construct e.ops e.builder (out.length + 1) out = .ok t ∧ Machine.estimate e.features S (Machine.kdKnn e t) k (Machine.sampledCloud out) = .ok c ∧
      Machine.cloudPoints c = .ok out ∧ c.size = out.length ∧ PointsSet c ∧ (S.normals = true → NormalsSet c) ∧ (S.covs = true → CovsSet c) ∧
      ∀ chunks sched, chunks.flatten.Perm (List.range out.length) → ∀ r, Machine.estimatePar e.features S (Machine.kdKnn e t) k (Machine.sampledCloud out) chunks sched = some r → r = .ok c := by
  have hs : (Machine.sampledCloud out : Cloud (Fin 4 → V) M).size = out.length := by simp [Machine.sampledCloud, Cloud.size]
  have hget : ∀ i : Nat, (Machine.sampledCloud out : Cloud (Fin 4 → V) M).points[i]? = out[i]?.map (fun p => some (Machine.ofPt p)) := by
    intro i
    simp [Machine.sampledCloud]
  have hset : PointsSet (Machine.sampledCloud out : Cloud (Fin 4 → V) M) := by
    intro i hi
    have hi' : i < out.length := by rw [← hs]; exact hi
    exact ⟨Machine.ofPt out[i], by rw [hget, List.getElem?_eq_getElem hi']; rfl⟩
  obtain ⟨t, ht, hknn⟩ := sampled_tree he hN hk
  obtain ⟨c, h1, h2, h3, h4, -, -, -, h5⟩ := C102_features e.features S (Machine.kdKnn e t) (le_of_lt hk) (Machine.sampledCloud out) hset (fun i p hp => by
    have hi : out ≠ [] := by
      rintro rfl
      simp [Machine.sampledCloud] at hp
    obtain ⟨idx, a1, a2⟩ := hknn p hi
    exact ⟨idx, a1, fun j hj => by rw [hs]; exact a2 j hj⟩)
  refine ⟨t, c, ht, h1, cloudPoints_any c out h2, by unfold Cloud.size; rw [h2]; exact hs, ?_, h3, h4, ?_⟩
  · intro i hi
    rw [h2] at hi ⊢
    exact hset i hi
  · intro chunks sched hch
    rw [← hs] at hch
    exact h5 chunks sched hch

/-- Tree and features of the sampled points. -/
theorem sampled_any {e : Machine.PrepEnv V M R} (he : Rearranges e) {out : List (Pt V)} (hN : out.length < 2 ^ 32) {k : Int} (hk : 0 < k) :
    ∃ t c, KdTree.construct e.ops e.builder (out.length + 1) out = .ok t ∧ Machine.estimate e.features normalCovarianceSetter (Machine.kdKnn e t) k (Machine.sampledCloud out) = .ok c ∧
      Machine.cloudPoints c = .ok out ∧ c.size = out.length ∧ PointsSet c ∧ NormalsSet c ∧ CovsSet c ∧
      ∀ chunks sched, chunks.flatten.Perm (List.range out.length) → ∀ r, Machine.estimatePar e.features normalCovarianceSetter (Machine.kdKnn e t) k (Machine.sampledCloud out) chunks sched = some r → r = .ok c := by
  obtain ⟨t, c, h1, h2, h3, h4, h5, h6, h7, h8⟩ := sampled_setter he normalCovarianceSetter hN hk
  exact ⟨t, c, h1, h2, h3, h4, h5, h6 rfl, h7 rfl, h8⟩

/-- C102. `preprocess_points` in any arithmetic. If the scaled coordinates of all points can be converted to `int`, every execution, serial or parallel, ends without a fault, with a cloud that is no larger than the
input, empty only if the input is, with all points, normals and covariances set, and with the kd-tree of this cloud. If one of them cannot be converted, the behaviour is undefined. -/
theorem C102_preprocess {e : Machine.PrepEnv V M R} (he : Rearranges e) {cloud : Cloud (Fin 4 → V) M} {points : List (Pt V)} (hpts : Machine.cloudPoints cloud = .ok points) (hN : points.length < 2 ^ 32)
    (resolution : V) {k : Int} (hk : 0 < k) (numThreads : Int) :
    ((∀ p ∈ points, PointDefined e.ops e.scalars resolution p) →
      (∃ x r, Machine.preprocess e x cloud resolution k numThreads = some r) ∧
      ∀ x r, Machine.preprocess e x cloud resolution k numThreads = some r → ∃ c t out, r = .ok (c, t) ∧ c.size ≤ points.length ∧ (points ≠ [] → 0 < c.size) ∧ PointsSet c ∧ NormalsSet c ∧ CovsSet c ∧
        Machine.cloudPoints c = .ok out ∧ KdTree.construct e.ops e.builder (out.length + 1) out = .ok t) ∧
    ((¬ ∀ p ∈ points, PointDefined e.ops e.scalars resolution p) → ∀ x, Machine.preprocess e x cloud resolution k numThreads = some (.error .intOverflow)) := by
  unfold Machine.preprocess
  simp only [hpts]
  by_cases hth : numThreads = 1
  · simp only [if_pos hth]
    obtain ⟨hs1, hs2⟩ := sampling_any e.ops e.scalars he.sort points resolution
    refine ⟨fun h => ?_, fun h x => ?_⟩
    · obtain ⟨out, a1, a2, a3⟩ := hs1 h
      obtain ⟨t, c, b1, b2, b3, b4, b5, b6, b7, -⟩ := sampled_any (k := k) he (out := out) (by omega) hk
      refine ⟨⟨⟨[], [], []⟩, _, rfl⟩, fun x r hr => ?_⟩
      rw [a1, ok_bind, b1, ok_bind, b2, ok_bind] at hr
      refine ⟨c, t, out, (Option.some.inj hr).symm, by omega, fun hne => ?_, b5, b6, b7, b3, b1⟩
      rw [b4]
      exact List.length_pos_of_ne_nil (a3 hne)
    · rw [hs2 h]
      rfl
  · simp only [if_neg hth]
    obtain ⟨hs1, hs2⟩ := samplingPar_any e.ops e.scalars he.sortOmp ompCut_isCut points resolution
    refine ⟨fun h => ?_, fun h x => ?_⟩
    · obtain ⟨hall, sched, out, hex⟩ := hs1 h
      refine ⟨?_, fun x r hr => ?_⟩
      · obtain ⟨t, c, b1, b2, b3, b4, b5, b6, b7, b8⟩ := sampled_any (k := k) he (out := out) (by
          obtain ⟨out', h1, h2, -⟩ := hall sched _ hex
          cases h1
          omega) hk
        obtain ⟨s2, hs⟩ := parOrder_seq (([List.range out.length] : List (List Nat)).map (fun c => c.flatMap normalCovarianceSetter.acts))
        refine ⟨⟨sched, [List.range out.length], s2⟩, ?_⟩
        rw [hex]
        simp only []
        rw [if_pos (by simp), b1]
        simp only [Machine.estimatePar, hs]
        exact ⟨_, rfl⟩
      · cases hv : Machine.voxelgridSamplingPar e.ops e.scalars e.sortOmp Downsample.ompCut x.blocks points resolution with
        | none => rw [hv] at hr; cases hr
        | some q =>
          obtain ⟨out, rfl, a2, a3⟩ := hall x.blocks q hv
          rw [hv] at hr
          simp only [] at hr
          split at hr
          · rename_i hch
            obtain ⟨t, c, b1, b2, b3, b4, b5, b6, b7, b8⟩ := sampled_any (k := k) he (out := out) (by omega) hk
            rw [b1] at hr
            simp only [] at hr
            obtain ⟨q, hq, rfl⟩ := Option.map_eq_some_iff.1 hr
            have := b8 x.chunks x.sched hch q hq
            subst this
            refine ⟨c, t, out, rfl, by omega, fun hne => ?_, b5, b6, b7, b3, b1⟩
            rw [b4]
            exact List.length_pos_of_ne_nil (a3 hne)
          · cases hr
    · rw [hs2 h]

end Preprocess

section Align

variable {V M R P H B D F T : Type} {d : Nat} [LT V] [DecidableLT V] [LE V] [DecidableLE V] [One V] [Zero V] [Add V] [Sub V] [Mul V] [Div V] [Zero H] [Add H] [Zero B] [Add B]

/-- The points a vector of raw points becomes (point_cloud.hpp:26-31): three coordinates converted, the fourth is 1. -/
def rawPoint (cast : T → V) (p : Fin (d + 3) → T) : Pt V := ⟨cast (p ⟨0, by omega⟩), cast (p ⟨1, by omega⟩), cast (p ⟨2, by omega⟩), 1⟩

theorem raw_cloud (cast : T → V) (l : List (Fin (d + 3) → T)) : ∃ c : Cloud (Fin 4 → V) M, Cloud.ofPoints (homogeneous cast) l = .ok c ∧ Machine.cloudPoints c = .ok (l.map (rawPoint cast)) := by
  refine ⟨_, C50_constructor _ _, cloudPoints_any _ _ ?_⟩
  simp only [List.map_map]
  apply List.map_congr_left
  intro p _
  simp only [Function.comp, Option.some.injEq]
  funext i
  fin_cases i <;> rfl

theorem preprocessVector_any {e : Machine.PrepEnv V M R} (he : Rearranges e) (cast : T → V) (l : List (Fin (d + 3) → T)) (hN : l.length < 2 ^ 32) (resolution : V) {k : Int} (hk : 0 < k) (numThreads : Int) :
    ((∀ p ∈ l, PointDefined e.ops e.scalars resolution (rawPoint cast p)) →
      (∃ x r, Machine.preprocessVector e x cast l resolution k numThreads = some r) ∧
      ∀ x r, Machine.preprocessVector e x cast l resolution k numThreads = some r → ∃ c t out, r = .ok (c, t) ∧ c.size ≤ l.length ∧ (l ≠ [] → 0 < c.size) ∧ PointsSet c ∧ NormalsSet c ∧ CovsSet c ∧
        Machine.cloudPoints c = .ok out ∧ KdTree.construct e.ops e.builder (out.length + 1) out = .ok t) ∧
    ((¬ ∀ p ∈ l, PointDefined e.ops e.scalars resolution (rawPoint cast p)) → ∀ x, Machine.preprocessVector e x cast l resolution k numThreads = some (.error .intOverflow)) := by
  obtain ⟨c, h1, h2⟩ := raw_cloud (M := M) cast l
  have hc := C102_preprocess (k := k) he h2 (by simpa using hN) resolution hk numThreads
  unfold Machine.preprocessVector
  simp only [h1]
  simpa using hc

/-- C102, registration of raw points. In any arithmetic, `align` on two vectors of points with one of the registration types on clouds has no fault but the conversion of a coordinate to `int` in the voxel grid. If
all conversions are defined and the target is not empty, every execution ends, with at most as many iterations as allowed, and with at most as many inliers as there are source points; and there is an execution. -/
theorem C102_align {e : Machine.PrepEnv V M R} (he : Rearranges e) {E : Machine.Eval V P H B M} (hops : E.ops = e.ops) {needs : RegMem.Needs} {mf : Machine.Factor F V P H B M} (hf : LibraryFactor E F needs mf) (cast : T → V)
    {target source : List (Fin (d + 3) → T)} (hne : target ≠ []) (hNt : target.length < 2 ^ 32) (hNs : source.length < 2 ^ 32) (resolution : V) (numThreads : Int) (junk : Nat × V) (cfg : Machine.Config V P H B D)
    (execL execE : P → List F → Exec) (hexL : ∀ T fs, (execL T fs).Complete fs.length) (hexE : ∀ T fs, (execE T fs).Complete fs.length) (meth : Machine.Method V) (T0 : P) :
    ((∀ p ∈ target ++ source, PointDefined e.ops e.scalars resolution (rawPoint cast p)) →
      (∃ xt xs r, Machine.alignVectors e E xt xs cast target source resolution numThreads mf junk cfg execL execE meth T0 = some r) ∧
      ∀ xt xs r, Machine.alignVectors e E xt xs cast target source resolution numThreads mf junk cfg execL execE meth T0 = some r →
        ∃ res fs log, r = .ok (res, fs, log) ∧ log.length ≤ budget meth ∧ fs.length ≤ source.length ∧ (source ≠ [] → fs ≠ []) ∧ res.numInliers = fs.countP mf.inlier ∧ res.numInliers ≤ source.length) ∧
    ((¬ ∀ p ∈ target ++ source, PointDefined e.ops e.scalars resolution (rawPoint cast p)) →
      ∀ xt xs r, Machine.alignVectors e E xt xs cast target source resolution numThreads mf junk cfg execL execE meth T0 = some r → r = .error .intOverflow) := by
  obtain ⟨t1, t2⟩ := preprocessVector_any (k := 10) he cast target hNt resolution (by decide) numThreads
  obtain ⟨s1, s2⟩ := preprocessVector_any (k := 10) he cast source hNs resolution (by decide) numThreads
  have hfind : FindAxisSpec (fun _ => True) e.builder.findAxis := by
    have := (C100_projections (E := E) 128 (by unfold toU64; decide) (fun _ => (0, 0, 0))).1
    rw [hops] at this
    exact this
  refine ⟨fun h => ?_, fun h xt xs r hr => ?_⟩
  · have ht := t1 (fun p hp => h p (by simp [hp]))
    have hs := s1 (fun p hp => h p (by simp [hp]))
    refine ⟨?_, fun xt xs r hr => ?_⟩
    · obtain ⟨xt, rt, ht1⟩ := ht.1
      obtain ⟨xs, rs, hs1⟩ := hs.1
      obtain ⟨ct, tt, -, rfl, -⟩ := ht.2 xt rt ht1
      obtain ⟨cs, ts, -, rfl, -⟩ := hs.2 xs rs hs1
      refine ⟨xt, xs, ?_⟩
      unfold Machine.alignVectors
      rw [ht1]
      simp only []
      rw [hs1]
      exact ⟨_, rfl⟩
    · unfold Machine.alignVectors at hr
      cases hvt : Machine.preprocessVector e xt cast target resolution 10 numThreads with
      | none => rw [hvt] at hr; cases hr
      | some rt =>
        obtain ⟨ct, tt, out, rfl, a1, a2, a3, a4, a5, a6, a7⟩ := ht.2 xt rt hvt
        cases hvs : Machine.preprocessVector e xs cast source resolution 10 numThreads with
        | none => rw [hvt, hvs] at hr; cases hr
        | some rs =>
          obtain ⟨cs, ts, -, rfl, b1, b2, b3, b4, b5, -⟩ := hs.2 xs rs hvs
          rw [hvt, hvs] at hr
          simp only [] at hr
          obtain ⟨pts, t', g1, g2, g3⟩ := C100_no_fault (D := D) hf (target := ct) (source := cs) ⟨a3, b3, fun _ => a4, fun _ => a5, fun _ => b5⟩ (a2 hne) (by omega) e.builder he.nth hfind
            (by show 3 ≤ toU64 20; decide) (fuelB := ct.size + 1) (fuel := ct.size + 1) (by omega) (by omega)
          obtain rfl : pts = out := by rw [g1] at a6; exact Except.ok.inj a6
          have hlen : pts.length = ct.size := by
            obtain ⟨q, q1, q2⟩ := machine_cloudPoints ct a3
            rw [g1] at q1
            cases q1
            exact q2
          rw [hops, ← hlen] at g2
          obtain rfl : t' = tt := by rw [g2] at a7; exact Except.ok.inj a7
          obtain ⟨res, fs, log, k1, k2, -, k4, k5, k6⟩ := g3 e.maxD junk cfg execL execE hexL hexE meth T0
          rw [g1, ok_bind] at hr
          rw [← hlen] at k1
          rw [k1] at hr
          refine ⟨res, fs, log, (Option.some.inj hr).symm, k2, by omega, fun hne2 he2 => ?_, k5, by omega⟩
          have := b2 hne2
          rw [he2] at k4
          simp at k4
          omega
  · unfold Machine.alignVectors at hr
    by_cases htd : ∀ p ∈ target, PointDefined e.ops e.scalars resolution (rawPoint cast p)
    · have hsd : ¬ ∀ p ∈ source, PointDefined e.ops e.scalars resolution (rawPoint cast p) := fun hsd => h (fun p hp => by
        rcases List.mem_append.1 hp with hp | hp
        · exact htd p hp
        · exact hsd p hp)
      cases hvt : Machine.preprocessVector e xt cast target resolution 10 numThreads with
      | none => rw [hvt] at hr; cases hr
      | some rt =>
        obtain ⟨ct, tt, out, rfl, -⟩ := (t1 htd).2 xt rt hvt
        rw [hvt, s2 hsd xs] at hr
        exact (Option.some.inj hr).symm
    · rw [t2 htd xt] at hr
      exact (Option.some.inj hr).symm

end Align

section Exact

variable {K : Type} [Field K] [LinearOrder K] [IsStrictOrderedRing K] [FloorRing K]

/-- Conversions without rounding: every number has a truncation, and it may be out of range. -/
def exactScalars (K : Type) [Field K] [LinearOrder K] [FloorRing K] : Machine.Scalars K := ⟨1, fun x => some (if 0 ≤ x then ⌊x⌋ else ⌈x⌉), fun n => (n : K)⟩

theorem exactFloor (x : K) : Machine.fastFloor (exactScalars K) x = fastFloor x := by
  unfold Machine.fastFloor fastFloor truncToInt exactScalars
  simp only []

theorem exactKey (o : Ops K) (inv : K) (p : Pt K) : Machine.voxelKey o (exactScalars K) inv p = Downsample.Machine.voxelKey o inv p := by
  unfold Machine.voxelKey Downsample.Machine.voxelKey fastFloor4
  simp only [exactFloor]
  cases fastFloor (Downsample.Machine.scaled o inv p).x <;> try rfl
  cases fastFloor (Downsample.Machine.scaled o inv p).y <;> try rfl
  cases fastFloor (Downsample.Machine.scaled o inv p).z <;> try rfl
  cases fastFloor (Downsample.Machine.scaled o inv p).w <;> rfl

/-- C102, relation to the earlier models: with conversions without rounding the samplers are those of `Model/DownsamplingMachine.lean`. -/
theorem C102_exact_sampling (o : Ops K) (sort : List (Nat × Nat) → List (Nat × Nat)) (cut : List (Nat × Nat) → List (List (Nat × Nat))) (sched : List Nat) (points : List (Pt K)) {leaf : K} (hleaf : leaf ≠ 0) :
    Machine.voxelgridSampling o (exactScalars K) sort points leaf = Downsample.Machine.voxelgridSampling o sort points leaf ∧
    Machine.voxelgridSamplingPar o (exactScalars K) sort cut sched points leaf = Downsample.Machine.voxelgridSamplingPar o sort cut sched points leaf := by
  have hcp : ∀ inv, Machine.coordPt o (exactScalars K) inv points = Downsample.Machine.coordPt o inv points := by
    intro inv
    unfold Machine.coordPt Downsample.Machine.coordPt
    simp only [exactKey]
  constructor
  · unfold Machine.voxelgridSampling Downsample.Machine.voxelgridSampling
    simp only [hcp, if_neg hleaf]
    rfl
  · unfold Machine.voxelgridSamplingPar Downsample.Machine.voxelgridSamplingPar
    simp only [hcp, if_neg hleaf]
    rfl

/-- The features over the real numbers (as in `Model/Features.lean`). -/
noncomputable def realFeatures (eig : M3 → M3) : Machine.FeatureEval ℝ M4 M3 where
  zero := 0
  add := (· + ·)
  zeroM := 0
  addOuter A p := A + vecMulVec p p
  eigenvectors sum cross n := eig (block33 ((n : ℝ)⁻¹ • (cross - vecMulVec ((n : ℝ)⁻¹ • sum) sum)))
  normal := normalOf
  cov := covOf
  invalidCov := invalidCov

theorem realFrame (eig : M3 → M3) (knn : Search) (k : Int) (c : RCloud) (i : Nat) : Machine.localFrame (realFeatures eig) knn k c i = localFrame eig knn k c i := rfl

theorem realNormal (eig : M3 → M3) (c : RCloud) (i : Nat) (f : Option M3) : Machine.writeNormal (realFeatures eig) c i f = writeNormal c i f := by cases f <;> rfl

theorem realCov (eig : M3 → M3) (c : RCloud) (i : Nat) (f : Option M3) : Machine.writeCov (realFeatures eig) c i f = writeCov c i f := by cases f <;> rfl

theorem realAct (eig : M3 → M3) (knn : Search) (k : Int) : Machine.actStep (realFeatures eig) knn k = actStep eig knn k := by
  funext s a
  cases a with
  | frame i => rfl
  | normal i =>
    simp only [Machine.actStep, actStep, realNormal]
    cases s.2 i <;> rfl
  | cov i =>
    simp only [Machine.actStep, actStep, realCov]
    cases s.2 i <;> rfl

/-- C102, relation to the earlier models: over the real numbers the estimation is that of `Model/Features.lean`. -/
theorem C102_exact_features (S : Setter) (eig : M3 → M3) (knn : Search) (k : Int) (cloud : RCloud) (chunks : List (List Nat)) (sched : List Nat) :
    Machine.estimate (realFeatures eig) S knn k cloud = estimate S eig (fun _ => .ok knn) k cloud ∧
    Machine.estimatePar (realFeatures eig) S knn k cloud chunks sched = estimatePar S eig (fun _ => .ok knn) k cloud chunks sched := by
  have hsz := (resize_self cloud).2.2.2
  constructor
  · unfold Machine.estimate estimate
    rw [ok_bind, hsz]
    congr 1
    funext c i
    unfold Machine.estimateOne estimateOne
    rw [realFrame]
    cases localFrame eig knn k c i with
    | error e => rfl
    | ok f =>
      simp only [ok_bind]
      unfold Machine.writeFeatures Setter.write
      simp only [realNormal, realCov]
  · unfold Machine.estimatePar estimatePar
    congr 1
    funext order
    rw [realAct]
    rfl

end Exact

/-! ### rational numbers with NaN -/

section Example

open QN

instance : One QN := ⟨num 1⟩

def qnScalars : Machine.Scalars QN where
  one := num 1
  trunc := fun x => Option.map (fun q : ℚ => if 0 ≤ q then q.floor else q.ceil) x
  ofInt n := num n

/-- An eigen-solver that only returns NaN. -/
def qnFeatures : Machine.FeatureEval QN QN QN where
  zero := fun _ => num 0
  add p q := fun i => p i + q i
  zeroM := num 0
  addOuter A p := A + p 0 * p 0
  eigenvectors _ _ _ := nan
  normal p r := fun i => p i * r
  cov r := r
  invalidCov := num 1

def qnEnv : Machine.PrepEnv QN QN QN := ⟨qnOps, qnScalars, qnFeatures, num 1000000, fun l _ => l, id, id⟩

theorem qnEnv_rearranges : Rearranges qnEnv := ⟨fun _ => .refl _, fun _ => .refl _, fun _ _ => .refl _⟩

theorem qn_defined (n : Nat) (h : n < 1000000) : CoordDefined qnScalars (num n) := by
  have hn : ¬ (num (n : ℚ) : QN) < qnScalars.ofInt (n : Int) := by
    show ¬ (num (n : ℚ) : QN) < num ((n : Int) : ℚ)
    rw [Int.cast_natCast]
    intro h
    exact lt_irrefl (n : ℚ) (of_decide_eq_true h)
  refine ⟨n, ?_, ?_, by omega, ?_⟩
  · show some (if 0 ≤ (n : ℚ) then (n : ℚ).floor else (n : ℚ).ceil) = some (n : Int)
    rw [if_pos (Nat.cast_nonneg n)]
    exact congrArg some (Int.floor_natCast (R := ℚ) n)
  · rw [if_neg hn]
    omega
  · rw [if_neg hn]
    omega

/-- Raw points with natural coordinates. -/
def qnRaw (l : List (Nat × Nat × Nat)) : List (Fin 3 → Option Nat) := l.map fun p => ![some p.1, some p.2.1, some p.2.2]

/-- The conversion of a coordinate; `none` stands for NaN. -/
def qnCast : Option Nat → QN
  | none => nan
  | some n => num n

/-- Two target points and a source point: whatever the solvers compute, no execution on any number of threads faults, and there is one. -/
example (wt sqrt : QN → QN) (numThreads : Int) : (∃ xt xs r, Machine.alignVectors (d := 0) qnEnv qnEval xt xs qnCast (qnRaw [(1, 2, 3), (5, 8, 13)]) (qnRaw [(1, 2, 4)]) (num 1) numThreads
      (Machine.robust qnEval wt sqrt (Machine.gicpFactor qnEval)) (0, num 0) qnConfig (fun _ _ => .serial) (fun _ _ => .serial) (.lm qnSetting) (num 0) = some r) ∧
    ∀ xt xs r, Machine.alignVectors (d := 0) qnEnv qnEval xt xs qnCast (qnRaw [(1, 2, 3), (5, 8, 13)]) (qnRaw [(1, 2, 4)]) (num 1) numThreads
      (Machine.robust qnEval wt sqrt (Machine.gicpFactor qnEval)) (0, num 0) qnConfig (fun _ _ => .serial) (fun _ _ => .serial) (.lm qnSetting) (num 0) = some r →
      ∃ res fs log, r = .ok (res, fs, log) ∧ log.length ≤ 20 ∧ res.numInliers ≤ 1 := by
  have h := (C102_align (R := QN) (d := 0) qnEnv_rearranges (E := qnEval) rfl (.robust wt sqrt .gicp) qnCast (target := qnRaw [(1, 2, 3), (5, 8, 13)]) (source := qnRaw [(1, 2, 4)]) (by simp [qnRaw])
    (by simp [qnRaw]) (by simp [qnRaw]) (num 1) numThreads (0, num 0) qnConfig (fun _ _ => .serial) (fun _ _ => .serial) (fun _ _ => trivial) (fun _ _ => trivial) (.lm qnSetting) (num 0)).1 (by
      intro p hp
      have key : ∀ n : Nat, n < 1000 → CoordDefined qnEnv.scalars (qnEnv.ops.mul (num n) (qnEnv.ops.div qnEnv.scalars.one (num 1))) := by
        intro n hn
        have : qnEnv.ops.mul (num n) (qnEnv.ops.div qnEnv.scalars.one (num 1)) = num n := by
          show num ((n : ℚ) * (1 / 1)) = num n
          norm_num
        rw [this]
        exact qn_defined n (by omega)
      simp only [qnRaw, List.map_cons, List.map_nil, List.cons_append, List.nil_append, List.mem_cons, List.not_mem_nil, or_false] at hp
      rcases hp with rfl | rfl | rfl
      · exact ⟨key 1 (by decide), key 2 (by decide), key 3 (by decide), key 1 (by decide)⟩
      · exact ⟨key 5 (by decide), key 8 (by decide), key 13 (by decide), key 1 (by decide)⟩
      · exact ⟨key 1 (by decide), key 2 (by decide), key 4 (by decide), key 1 (by decide)⟩)
  refine ⟨h.1, fun xt xs r hr => ?_⟩
  obtain ⟨res, fs, log, h1, h2, -, -, -, h3⟩ := h.2 xt xs r hr
  exact ⟨res, fs, log, h1, h2, h3⟩

/-- One NaN in the source is undefined behaviour on every number of threads. -/
example (numThreads : Int) : ∀ xt xs r, Machine.alignVectors (d := 0) qnEnv qnEval xt xs qnCast (qnRaw [(1, 2, 3), (5, 8, 13)]) [![some 1, none, some 2]] (num 1) numThreads
      (Machine.icpFactor qnEval) (0, num 0) qnConfig (fun _ _ => .serial) (fun _ _ => .serial) (.lm qnSetting) (num 0) = some r → r = .error .intOverflow := by
  refine (C102_align (R := QN) (d := 0) qnEnv_rearranges (E := qnEval) rfl .icp qnCast (by simp [qnRaw])
    (by simp [qnRaw]) (by simp) (num 1) numThreads (0, num 0) qnConfig (fun _ _ => .serial) (fun _ _ => .serial) (fun _ _ => trivial) (fun _ _ => trivial) (.lm qnSetting) (num 0)).2 (fun h => ?_)
  obtain ⟨-, ⟨n, h1, -⟩, -⟩ := h ![some 1, none, some 2] (by simp)
  cases h1

end Example

end Verif.Props
