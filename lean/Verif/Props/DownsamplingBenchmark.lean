import Verif.Model.DownsamplingBenchmark
import Verif.Props.KdtreeBenchmark
import Verif.Props.Dataset
import Verif.Props.BenchmarkProgram
import Verif.Props.RegistrationMemory

/-!
C91. The benchmark of the voxel grids: which resolutions are compared, whatever the rounding of the loop variable, what the numbers of points in its lines are, and that the times
add up to the time elapsed.
-/

set_option linter.unusedSectionVars false
set_option linter.unusedSimpArgs false
set_option linter.unnecessarySeqFocus false

namespace Verif.Spec

open Verif Verif.DownsamplingBenchmark

variable {K : Type} [Field K] [LinearOrder K]

/-- Two numbers near `0.1` and `1.51`, and an addition with a small relative error. This is so for single and double precision. -/
structure NearDecimal (tenth bound : K) (add : K → K → K) : Prop where
  tenth : |tenth - 1 / 10| ≤ 1 / 10 ^ 7
  bound : |bound - 151 / 100| ≤ 1 / 10 ^ 7
  add : ∀ a b, |add a b - (a + b)| ≤ |a + b| / 10 ^ 7

/-- The points of a scan, with 1 as the fourth component. -/
def scanPoints (value : Files.F32 → K) (ps : List Files.V4) : List (Pt K) := ps.map (fun v => ⟨value v.x, value v.y, value v.z, 1⟩)

/-- Every coordinate is less than a hundred kilometres. -/
def Within100km (ps : List (Pt K)) : Prop := ∀ p ∈ ps, |p.x| < 100000 ∧ |p.y| < 100000 ∧ |p.z| < 100000

/-- The statistics of numbers: mean, deviation and the last one; without numbers NaN and 0. -/
def Shows (sqrt : K → K) (l : List K) (p : Printed K) : Prop :=
  p.meanStd = (if l = [] then none else some (averageOf l, sqrt (varianceOf l))) ∧ p.last = l.getLast?.getD 0

/-- A line for numbers of points, with the milliseconds between the readings of the clock before the first and after each of them. -/
def LineShows (sqrt : K → K) (clock : Nat → Int) (counts : List Nat) (line : Line K) : Prop :=
  Shows sqrt ((List.range counts.length).map (fun i => ((clock (i + 1) - clock i : Int) : K) / 1000000)) line.times ∧
  Shows sqrt (counts.map (fun n : Nat => (n : K))) line.points

variable [FloorRing K]

/-- The lines of a group at a resolution: the serial variant leaves one point for each cell that holds points; OMP has up to one more for each block of 1024 points after the
first; TBB has at least one for each cell, and no more than there are points. -/
def GroupShows (sqrt : K → K) (clock : Nat → Nat → Int) (tbb : Bool) (leaf : K) (clouds : List (List (Pt K))) (lines : List (Line K)) : Prop :=
  ∃ a b rest, lines = a :: b :: rest ∧ LineShows sqrt (clock 0) (clouds.map (fun ps => (occupied leaf ps).card)) a ∧
    (∃ counts, List.Forall₂ (fun ps n => (occupied leaf ps).card ≤ n ∧ n ≤ (occupied leaf ps).card + ((ps.length + 1023) / 1024 - 1)) clouds counts ∧ LineShows sqrt (clock 1) counts b) ∧
    if tbb then ∃ t counts, rest = [t] ∧ List.Forall₂ (fun ps n => (occupied leaf ps).card ≤ n ∧ n ≤ ps.length) clouds counts ∧ LineShows sqrt (clock 2) counts t
    else rest = []

/-- An option with its value, as it is written and as it is meant. -/
inductive SizeOption where
  | numThreads (text : List Char) (n : Int)
  | maxFrames (text : List Char) (n : Nat)

def SizeOption.words : SizeOption → List (List Char)
  | .numThreads t _ => ["--num_threads".toList, t]
  | .maxFrames t _ => ["--max_num_frames".toList, t]

def SizeOption.Valid (stoi : List Char → Res Int) (stoul : List Char → Res Nat) : SizeOption → Prop
  | .numThreads t n => stoi t = .ok n ∧ ¬ Dashed t
  | .maxFrames t n => stoul t = .ok n ∧ ¬ Dashed t

/-- The number of frames that was given last, or 1000. -/
def maxFramesOf (opts : List SizeOption) : Nat := ((opts.filterMap (fun o => match o with | .maxFrames _ n => some n | _ => none)).getLast?).getD 1000

/-- The number of threads that was given last, or 4. -/
def threadsOf (opts : List SizeOption) : Int := ((opts.filterMap (fun o => match o with | .numThreads _ n => some n | _ => none)).getLast?).getD 4

end Verif.Spec

namespace Verif.Props

open Verif Verif.Benchmark Verif.Downsample Verif.DownsamplingBenchmark Verif.Spec Verif.Proofs Verif.RegMem Verif.PointCloud Verif.Files

variable {K : Type} [Field K] [LinearOrder K] [IsStrictOrderedRing K] [FloorRing K]

/-! ### points in range -/

theorem in21_of_abs {x leaf : K} (hl : 99 / 1000 ≤ leaf) (hx : |x| < 100000) : In21 ⌊x / leaf⌋ := by
  have h0 : 0 < leaf := by linarith
  obtain ⟨h1, h2⟩ := abs_lt.1 hx
  refine ⟨Int.le_floor.2 ?_, Int.le_sub_one_iff.2 (Int.floor_lt.2 ?_)⟩
  · rw [le_div_iff₀ h0]; push_cast; linarith
  · rw [div_lt_iff₀ h0]; push_cast; linarith

theorem inRange_of_within {ps : List (Pt K)} (h : Within100km ps) (hw : ∀ p ∈ ps, p.w = 1) {leaf : K} (hl : 99 / 1000 ≤ leaf) : ∀ p ∈ ps, GridInRange leaf p := by
  intro p hp
  obtain ⟨h1, h2, h3⟩ := h p hp
  refine ⟨in21_of_abs hl h1, in21_of_abs hl h2, in21_of_abs hl h3, in21_of_abs hl ?_⟩
  rw [hw p hp, abs_one]
  norm_num

/-! ### numbers of points -/

theorem occupied_nil (leaf : K) : (occupied leaf ([] : List (Pt K))).card = 0 := rfl

theorem serial_count {sort : List (Nat × Nat) → List (Nat × Nat)} (hsort : SortSpec sort) {leaf : K} (hleaf : leaf ≠ 0) {ps : List (Pt K)} (hw : ∀ p ∈ ps, p.w = 1)
    (hr : ∀ p ∈ ps, GridInRange leaf p) : ∃ out, voxelgridSampling sort ps leaf = .ok out ∧ out.length = (occupied leaf ps).card := by
  by_cases hne : ps = []
  · subst hne
    exact ⟨[], rfl, rfl⟩
  · obtain ⟨p, hp⟩ := List.exists_mem_of_ne_nil ps hne
    have h := sizeAt_cells hsort hleaf (fun p hp => keyDefined_of_inRange (hr p hp)) hw ⟨p, hp, hr p hp⟩
    unfold KdtreeBenchmark.sizeAt at h
    cases hv : voxelgridSampling sort ps leaf with
    | error e => rw [hv] at h; cases h
    | ok d =>
      rw [hv] at h
      exact ⟨d, rfl, by simpa [bind, Except.bind, pure, Except.pure] using h⟩

theorem parallel_count {sort : List (Nat × Nat) → List (Nat × Nat)} (hsort : SortSpec sort) {cut : List (Nat × Nat) → List (List (Nat × Nat))} (hcut : IsCut cut) {leaf : K}
    (hleaf : leaf ≠ 0) {ps : List (Pt K)} (hw : ∀ p ∈ ps, p.w = 1) (hr : ∀ p ∈ ps, GridInRange leaf p) {B : Nat} (hB : ∀ l, l.length = ps.length → (cut l).length ≤ B)
    {sched : List Nat} {r} (h : voxelgridSamplingPar sort cut sched ps leaf = some r) :
    ∃ out, r = .ok out ∧ (occupied leaf ps).card ≤ out.length ∧ out.length ≤ (occupied leaf ps).card + (B - 1) ∧ out.length ≤ ps.length := by
  by_cases hne : ps = []
  · subst hne
    have : r = .ok [] := by simpa [voxelgridSamplingPar] using h.symm
    exact ⟨[], this, by simp [occupied_nil], by simp, by simp⟩
  · obtain ⟨G, g1, g2, g3, g4, g5⟩ := C24_parallel_partition hsort hcut hleaf (fun p hp => keyDefined_of_inRange (hr p hp)) hw hne hr hB
    obtain ⟨out, rfl, hp⟩ := g5 sched r h
    have hl : out.length = G.length := by rw [hp.length_eq, List.length_map]
    have hG : G.length ≤ G.flatten.length := by
      clear g1 g3 g4 g5 hp hl
      induction G with
      | nil => simp
      | cons g G ih =>
        have h1 : 0 < g.length := List.length_pos_iff.2 (g2 g (by simp)).1
        have h2 := ih (fun x hx => g2 x (by simp [hx]))
        rw [List.flatten_cons, List.length_append, List.length_cons]
        omega
    rw [g1.length_eq] at hG
    exact ⟨out, rfl, by omega, by omega, by omega⟩

theorem parallel_runs {sort : List (Nat × Nat) → List (Nat × Nat)} (hsort : SortSpec sort) {cut : List (Nat × Nat) → List (List (Nat × Nat))} (hcut : IsCut cut) {leaf : K}
    (hleaf : leaf ≠ 0) {ps : List (Pt K)} (hw : ∀ p ∈ ps, p.w = 1) (hr : ∀ p ∈ ps, GridInRange leaf p) : ∃ sched out, voxelgridSamplingPar sort cut sched ps leaf = some (.ok out) := by
  by_cases hne : ps = []
  · subst hne
    exact ⟨[], [], rfl⟩
  · have hk : ∀ p ∈ ps, KeyDefined leaf p := fun p hp => keyDefined_of_inRange (hr p hp)
    obtain ⟨s0, h0, _⟩ := C25_slots_disjoint hsort hcut hk hw (coordPt_eq hk)
    obtain ⟨js, out, h⟩ := C24_every_schedule_finishes hsort hcut hleaf hk hw hne [] (coordPt_eq hk) h0 rfl
    exact ⟨_, _, h⟩

/-! ### one measurement -/

theorem shows_pushed (sqrt : K → K) (l : List K) : Shows sqrt l (printed sqrt (l.foldl Summarizer.push (Summarizer.init false))) := by
  have ms := C79_mean_std false sqrt l
  by_cases h : l = []
  · subst h
    exact ⟨by rw [if_pos rfl]; exact (ms.2 rfl).1, rfl⟩
  · obtain ⟨h1, _, h3⟩ := ms.1 h
    exact ⟨by rw [if_neg h]; exact h1, by rw [← h3]; rfl⟩

theorem next_some {A B : Type} {x : Option (Res A)} {f : A → Option (Res B)} {r : Res B} (h : next x f = some r) :
    (∃ e, x = some (.error e) ∧ r = .error e) ∨ ∃ a, x = some (.ok a) ∧ f a = some r := by
  unfold next at h
  split at h
  · cases h
  · exact .inl ⟨_, rfl, by simpa using h.symm⟩
  · exact .inr ⟨_, rfl, h⟩

/-- The loop of a measurement: the counts are those of the clouds, in their order, and each time is the difference of two readings of the clock that follow each other. -/
theorem loop_shows (clock : Nat → Int) (downsample : Nat → PCloud K → Option (Res (List (Pt K)))) (P : PCloud K → Nat → Prop) :
    ∀ (clouds : List (PCloud K)) (i : Nat) (v : Locals K) (r), v.sw.t2 = clock i →
      (∀ c ∈ clouds, ∀ i r, downsample i c = some r → ∃ d, r = .ok d ∧ P c d.length) → benchmarkLoop clock downsample i clouds v = some r →
      ∃ (v' : Locals K) (counts : List Nat), r = .ok v' ∧ List.Forall₂ P clouds counts ∧
        v'.times = ((List.range counts.length).map (fun j => ((clock (i + j + 1) - clock (i + j) : Int) : K) / 1000000)).foldl Summarizer.push v.times ∧
        v'.numPoints = (counts.map (fun n : Nat => (n : K))).foldl Summarizer.push v.numPoints := by
  intro clouds
  induction clouds with
  | nil =>
    intro i v r _ _ h
    have : r = .ok v := by simpa [benchmarkLoop] using h.symm
    exact ⟨v, [], this, .nil, rfl, rfl⟩
  | cons c cs ih =>
    intro i v r hi hd h
    unfold benchmarkLoop at h
    rcases next_some h with ⟨e, h1, _⟩ | ⟨d, h1, h2⟩
    · obtain ⟨d, hd', _⟩ := hd c (by simp) i _ h1
      cases hd'
    · obtain ⟨d', hd', hp⟩ := hd c (by simp) i _ h1
      cases hd'
      obtain ⟨v', counts, e1, e2, e3, e4⟩ := ih (i + 1) _ r rfl (fun c hc => hd c (by simp [hc])) h2
      refine ⟨v', d.length :: counts, e1, .cons hp e2, ?_, ?_⟩
      · rw [e3, List.length_cons, List.range_succ_eq_map, List.map_cons, List.foldl_cons, List.map_map]
        simp only [Stopwatch.lap, Stopwatch.msec, hi, Nat.add_zero, Function.comp_def]
        congr 1
        refine List.map_congr_left fun j _ => ?_
        rw [show i + 1 + j = i + (j + 1) by omega]
      · rw [e4, List.map_cons, List.foldl_cons]

theorem benchmark_shows (sqrt : K → K) (clock : Nat → Int) (downsample : Nat → PCloud K → Option (Res (List (Pt K)))) (P : PCloud K → Nat → Prop) {clouds : List (PCloud K)} {r}
    (hd : ∀ c ∈ clouds, ∀ i r, downsample i c = some r → ∃ d, r = .ok d ∧ P c d.length) (h : benchmark sqrt clock downsample clouds = some r) :
    ∃ line counts, r = .ok line ∧ List.Forall₂ P clouds counts ∧ LineShows sqrt clock counts line := by
  unfold benchmark at h
  rcases next_some h with ⟨e, h1, _⟩ | ⟨v, h1, h2⟩
  · obtain ⟨_, _, e1, _⟩ := loop_shows clock downsample P clouds 0 _ _ rfl hd h1
    cases e1
  · obtain ⟨v', counts, e1, e2, e3, e4⟩ := loop_shows clock downsample P clouds 0 _ _ rfl hd h1
    cases e1
    refine ⟨⟨printed sqrt v.times, printed sqrt v.numPoints⟩, counts, by simpa using h2.symm, e2, ?_, ?_⟩
    · simp only [e3, Nat.zero_add]
      exact shows_pushed sqrt _
    · simp only [e4]
      exact shows_pushed sqrt _

/-! ### a group -/

/-- The cloud holds these points. -/
def HoldsPts (c : PCloud K) (ps : List (Pt K)) : Prop := cloudPoints c = .ok ps

theorem forall₂_clouds {P : List (Pt K) → Nat → Prop} {Q : PCloud K → Nat → Prop} {clouds : List (PCloud K)} {pts : List (List (Pt K))} {counts : List Nat}
    (hc : List.Forall₂ HoldsPts clouds pts) (h : List.Forall₂ Q clouds counts) (hQ : ∀ c ps n, HoldsPts c ps → Q c n → P ps n) : List.Forall₂ P pts counts := by
  induction hc generalizing counts with
  | nil => cases h; exact .nil
  | cons h1 _ ih =>
    cases h with
    | cons h2 h3 => exact .cons (hQ _ _ _ h1 h2) (ih h3)

theorem forall₂_eq_map {f : List (Pt K) → Nat} {pts : List (List (Pt K))} {counts : List Nat} (h : List.Forall₂ (fun ps n => n = f ps) pts counts) : counts = pts.map f := by
  induction h with
  | nil => rfl
  | cons h1 _ ih => rw [h1, ih, List.map_cons]

variable {s : Setup K} {clouds : List (PCloud K)} {pts : List (List (Pt K))}

/-- **C91, a group of lines.** At a resolution of at least 0.099, for clouds within a hundred kilometres, every run of a group prints the lines specified. -/
theorem C91_group (h1 : SortSpec s.sort) (h2 : SortSpec s.sortOmp) (h3 : SortSpec s.sortTbb) (h4 : ∀ g i, IsCut (s.exec g i).tbbCut) (hc : List.Forall₂ HoldsPts clouds pts)
    (hw : ∀ ps ∈ pts, ∀ p ∈ ps, p.w = 1) (hr : ∀ ps ∈ pts, Within100km ps) {leaf : K} (hl : 99 / 1000 ≤ leaf) (g : Nat) {r} (h : group s g leaf clouds = some r) :
    ∃ lines, r = .ok lines ∧ GroupShows s.sqrt (s.clock g) s.withTbb leaf pts lines := by
  have hleaf : leaf ≠ 0 := by intro e; rw [e] at hl; norm_num at hl
  have hpt : ∀ c ∈ clouds, ∃ ps, HoldsPts c ps ∧ (∀ p ∈ ps, p.w = 1) ∧ ∀ p ∈ ps, GridInRange leaf p := by
    intro c hcm
    obtain ⟨i, hi, rfl⟩ := List.mem_iff_getElem.1 hcm
    have hi' : i < pts.length := by rw [← hc.length_eq]; exact hi
    have := (List.forall₂_iff_get.1 hc).2 i hi hi'
    have hm : pts[i] ∈ pts := List.getElem_mem hi'
    exact ⟨pts[i], this, hw _ hm, inRange_of_within (hr _ hm) (hw _ hm) hl⟩
  have ser : ∀ c ∈ clouds, ∀ (_ : Nat) r, serialVariant s.sort leaf c = some r → ∃ d, r = .ok d ∧ ∀ ps, HoldsPts c ps → d.length = (occupied leaf ps).card := by
    intro c hcm _ r hrun
    obtain ⟨ps, a1, a2, a3⟩ := hpt c hcm
    obtain ⟨out, o1, o2⟩ := serial_count h1 hleaf a2 a3
    unfold serialVariant at hrun
    rw [show cloudPoints c = .ok ps from a1, ok_bind, o1] at hrun
    refine ⟨out, by simpa using hrun.symm, fun qs hq => ?_⟩
    have : qs = ps := by have := hq.symm.trans a1; simpa using this
    rw [this, o2]
  have par : ∀ (sort : List (Nat × Nat) → List (Nat × Nat)) (cut : Nat → List (Nat × Nat) → List (List (Nat × Nat))) (sched : Nat → List Nat) (B : Nat → Nat), SortSpec sort →
      (∀ i, IsCut (cut i)) → (∀ i l, (cut i l).length ≤ B l.length) →
      ∀ c ∈ clouds, ∀ (i : Nat) r, parallelVariant sort (cut i) (sched i) leaf c = some r →
        ∃ d, r = .ok d ∧ ∀ ps, HoldsPts c ps → (occupied leaf ps).card ≤ d.length ∧ d.length ≤ (occupied leaf ps).card + (B ps.length - 1) ∧ d.length ≤ ps.length := by
    intro sort cut sched B hsort hcut hB c hcm i r hrun
    obtain ⟨ps, a1, a2, a3⟩ := hpt c hcm
    unfold parallelVariant at hrun
    rw [show cloudPoints c = .ok ps from a1] at hrun
    obtain ⟨out, o1, o2⟩ := parallel_count hsort (hcut i) hleaf a2 a3 (B := B ps.length) (fun l hl => by rw [← hl]; exact hB i l) hrun
    refine ⟨out, o1, fun qs hq => ?_⟩
    have : qs = ps := by have := hq.symm.trans a1; simpa using this
    rw [this]
    exact o2
  have hopm := par s.sortOmp (fun _ => ompCut) (fun i => (s.exec g i).ompSched) (fun n => (n + 1023) / 1024) h2 (fun _ => ompCut_isCut) (fun _ l => (C24_omp_block_count l).le)
  have cutLen : ∀ i l, ((s.exec g i).tbbCut l).length ≤ l.length := by
    intro i l
    obtain ⟨c1, c2⟩ := h4 g i l
    conv_rhs => rw [← c1]
    generalize (s.exec g i).tbbCut l = G at c2
    induction G with
    | nil => simp
    | cons b G ih =>
      have b1 : 0 < b.length := List.length_pos_iff.2 (c2 b (by simp))
      have b2 := ih (fun x hx => c2 x (by simp [hx]))
      rw [List.flatten_cons, List.length_append, List.length_cons]
      omega
  have htbb := par s.sortTbb (fun i => (s.exec g i).tbbCut) (fun i => (s.exec g i).tbbSched) (fun n => n) h3 (fun i => h4 g i) cutLen
  unfold group at h
  have A := fun {r} => benchmark_shows s.sqrt (s.clock g 0) (fun _ c => serialVariant s.sort leaf c) (fun c n => ∀ ps, HoldsPts c ps → n = (occupied leaf ps).card) (clouds := clouds) (r := r)
    (fun c hcm i r hrun => ser c hcm i r hrun)
  have B := fun {r} => benchmark_shows s.sqrt (s.clock g 1) (fun i c => parallelVariant s.sortOmp ompCut (s.exec g i).ompSched leaf c) (fun c n => ∀ ps, HoldsPts c ps →
    (occupied leaf ps).card ≤ n ∧ n ≤ (occupied leaf ps).card + ((ps.length + 1023) / 1024 - 1) ∧ n ≤ ps.length) (clouds := clouds) (r := r) (fun c hcm i r hrun => hopm c hcm i r hrun)
  have C := fun {r} => benchmark_shows s.sqrt (s.clock g 2) (fun i c => parallelVariant s.sortTbb (s.exec g i).tbbCut (s.exec g i).tbbSched leaf c) (fun c n => ∀ ps, HoldsPts c ps →
    (occupied leaf ps).card ≤ n ∧ n ≤ (occupied leaf ps).card + (ps.length - 1) ∧ n ≤ ps.length) (clouds := clouds) (r := r) (fun c hcm i r hrun => htbb c hcm i r hrun)
  rcases next_some h with ⟨e, q1, _⟩ | ⟨a, q1, q2⟩
  · obtain ⟨_, _, e1, _⟩ := A q1
    cases e1
  obtain ⟨_, ca, e1, fa, sa⟩ := A q1
  cases e1
  have fa' := forall₂_eq_map (f := fun ps => (occupied leaf ps).card) (forall₂_clouds hc fa (fun c ps n x y => y ps x))
  rw [fa'] at sa
  rcases next_some q2 with ⟨e, q3, _⟩ | ⟨b, q3, q4⟩
  · obtain ⟨_, _, e1, _⟩ := B q3
    cases e1
  obtain ⟨_, cb, e1, fb, sb⟩ := B q3
  cases e1
  have fb' := forall₂_clouds (P := fun ps n => (occupied leaf ps).card ≤ n ∧ n ≤ (occupied leaf ps).card + ((ps.length + 1023) / 1024 - 1)) hc fb
    (fun c ps n x y => ⟨(y ps x).1, (y ps x).2.1⟩)
  cases ht : s.withTbb with
  | false =>
    rw [ht] at q4
    exact ⟨[a, b], by simpa using q4.symm, a, b, [], rfl, sa, ⟨cb, fb', sb⟩, by simp⟩
  | true =>
    rw [ht, if_pos rfl] at q4
    rcases next_some q4 with ⟨e, q5, _⟩ | ⟨t, q5, q6⟩
    · obtain ⟨_, _, e1, _⟩ := C q5
      cases e1
    obtain ⟨_, ct, e1, ft, st⟩ := C q5
    cases e1
    have ft' := forall₂_clouds (P := fun ps n => (occupied leaf ps).card ≤ n ∧ n ≤ ps.length) hc ft (fun c ps n x y => ⟨(y ps x).1, (y ps x).2.2⟩)
    exact ⟨[a, b, t], by simpa using q6.symm, a, b, [t], rfl, sa, ⟨cb, fb', sb⟩, by rw [if_pos rfl]; exact ⟨t, ct, rfl, ft', st⟩⟩

/-! ### the resolutions -/

/-- The values of the variable of the loop. -/
def leafAt (s : Setup K) : Nat → K
  | 0 => s.tenth
  | j + 1 => s.add (leafAt s j) s.tenth

theorem leafAt_near (hs : NearDecimal s.tenth s.bound s.add) (j : Nat) (hj : j ≤ 15) : |leafAt s j - ((j : K) + 1) / 10| ≤ 3 * ((j : K) + 1) / 10 ^ 7 := by
  induction j with
  | zero =>
    have := hs.tenth
    simp only [leafAt, Nat.cast_zero, zero_add]
    refine this.trans ?_
    norm_num
  | succ j ih =>
    have h1 := ih (by omega)
    have h2 := hs.tenth
    have h3 := hs.add (leafAt s j) s.tenth
    have hj' : (j : K) ≤ 14 := by exact_mod_cast (by omega : j ≤ 14)
    have hj0 : (0 : K) ≤ (j : K) := by positivity
    rw [abs_le] at h1 h2
    have h4 : |leafAt s j + s.tenth| ≤ 2 := by
      rw [abs_le]
      constructor <;> nlinarith [h1.1, h1.2, h2.1, h2.2]
    have h5 : |s.add (leafAt s j) s.tenth - (leafAt s j + s.tenth)| ≤ 2 / 10 ^ 7 := h3.trans (by
      rw [div_le_div_iff_of_pos_right (by norm_num)]; exact h4)
    rw [abs_le] at h5
    simp only [leafAt]
    push_cast
    rw [abs_le]
    constructor <;> linarith [h1.1, h1.2, h2.1, h2.2, h5.1, h5.2]

theorem leafAt_bound (hs : NearDecimal s.tenth s.bound s.add) (j : Nat) (hj : j ≤ 15) : (leafAt s j ≤ s.bound ↔ j < 15) ∧ 99 / 1000 ≤ leafAt s j ∧ |leafAt s j - ((j : K) + 1) / 10| ≤ 1 / 10 ^ 5 := by
  have h1 := leafAt_near hs j hj
  have h2 := hs.bound
  have hj0 : (0 : K) ≤ (j : K) := by positivity
  have hj15 : (j : K) ≤ 15 := by exact_mod_cast hj
  have h3 : |leafAt s j - ((j : K) + 1) / 10| ≤ 1 / 10 ^ 5 := h1.trans (by rw [div_le_div_iff₀ (by norm_num) (by norm_num)]; linarith)
  refine ⟨?_, ?_, h3⟩
  · rw [abs_le] at h2 h3
    constructor
    · intro h
      by_contra hn
      obtain rfl : j = 15 := by omega
      push_cast at h3
      linarith [h2.2, h3.1]
    · intro h
      have hj14 : (j : K) ≤ 14 := by exact_mod_cast (by omega : j ≤ 14)
      linarith [h2.1, h3.2]
  · rw [abs_le] at h3
    linarith [h3.1]

/-- **C91, resolutions.** Whatever the rounding of doubles, the loop over the resolutions makes 15 groups, and the resolution of the `j`-th is `j / 10` up to `10^-5`; 16 tests of its
condition are made. -/
theorem C91_resolutions (hs : NearDecimal s.tenth s.bound s.add) (P : Nat → K → List (Line K) → Prop)
    (hP : ∀ g leaf r, 99 / 1000 ≤ leaf → group s g leaf clouds = some r → ∃ ls, r = .ok ls ∧ P g leaf ls) (hn : 16 ≤ s.iterations) {r}
    (h : resolutionLoop s clouds s.iterations 1 s.tenth = some r) :
    ∃ out, r = .ok out ∧ out.length = 15 ∧ ∀ (j : Nat) leaf ls, out[j]? = some (leaf, ls) → |leaf - ((j : K) + 1) / 10| ≤ 1 / 10 ^ 5 ∧ 99 / 1000 ≤ leaf ∧ P (j + 1) leaf ls := by
  have key : ∀ (d j n : Nat) r, j + d = 15 → d < n → resolutionLoop s clouds n (j + 1) (leafAt s j) = some r →
      ∃ out, r = .ok out ∧ out.length = d ∧ ∀ (i : Nat) leaf ls, out[i]? = some (leaf, ls) → |leaf - (((j + i : Nat) : K) + 1) / 10| ≤ 1 / 10 ^ 5 ∧ 99 / 1000 ≤ leaf ∧ P (j + i + 1) leaf ls := by
    intro d
    induction d with
    | zero =>
      intro j n r hj hd h
      obtain ⟨n, rfl⟩ : ∃ m, n = m + 1 := ⟨n - 1, by omega⟩
      obtain rfl : j = 15 := by omega
      have hb : ¬ leafAt s 15 ≤ s.bound := fun h' => absurd ((leafAt_bound hs 15 le_rfl).1.1 h') (by omega)
      rw [resolutionLoop, if_neg hb] at h
      exact ⟨[], by simpa using h.symm, rfl, by simp⟩
    | succ d ih =>
      intro j n r hj hd h
      obtain ⟨n, rfl⟩ : ∃ m, n = m + 1 := ⟨n - 1, by omega⟩
      obtain ⟨b1, b2, b3⟩ := leafAt_bound hs j (by omega)
      rw [resolutionLoop, if_pos (b1.2 (by omega))] at h
      rcases next_some h with ⟨e, q1, _⟩ | ⟨ls, q1, q2⟩
      · obtain ⟨_, e1, _⟩ := hP _ _ _ b2 q1
        cases e1
      obtain ⟨_, e1, p1⟩ := hP _ _ _ b2 q1
      cases e1
      rcases next_some q2 with ⟨e, q3, _⟩ | ⟨rest, q3, q4⟩
      · obtain ⟨_, e1, _⟩ := ih (j + 1) n _ (by omega) (by omega) q3
        cases e1
      obtain ⟨_, e1, l1, l2⟩ := ih (j + 1) n _ (by omega) (by omega) q3
      cases e1
      refine ⟨(leafAt s j, ls) :: rest, by simpa using q4.symm, by simp [l1], ?_⟩
      intro i leaf ls' hi
      cases i with
      | zero =>
        simp only [List.getElem?_cons_zero, Option.some.injEq, Prod.mk.injEq] at hi
        obtain ⟨rfl, rfl⟩ := hi
        exact ⟨b3, b2, p1⟩
      | succ i =>
        rw [List.getElem?_cons_succ] at hi
        have := l2 i leaf ls' hi
        rw [show j + 1 + i = j + (i + 1) by omega] at this
        exact this
  obtain ⟨out, e, l, p⟩ := key 15 0 s.iterations r rfl (by omega) h
  exact ⟨out, e, l, fun j leaf ls hj => by simpa using p j leaf ls hj⟩

/-! ### what the lines say -/

theorem sum_range_clock (clock : Nat → Int) (n : Nat) : ((List.range n).map (fun i => ((clock (i + 1) - clock i : Int) : K) / 1000000)).sum = ((clock n - clock 0 : Int) : K) / 1000000 := by
  induction n with
  | zero => simp
  | succ n ih =>
    rw [List.range_succ, List.map_append, List.sum_append, ih]
    simp only [List.map_cons, List.map_nil, List.sum_cons, List.sum_nil, add_zero]
    push_cast
    ring

/-- **C91, times.** The mean time of a line, times the number of clouds, is the time elapsed between the first and the last reading of the clock. -/
theorem C91_times {sqrt : K → K} {clock : Nat → Int} {counts : List Nat} {line : Line K} (h : LineShows sqrt clock counts line) {mean std : K} (hm : line.times.meanStd = some (mean, std)) :
    mean * counts.length = ((clock counts.length - clock 0 : Int) : K) / 1000000 := by
  have h1 := h.1.1
  rw [hm] at h1
  split at h1
  · cases h1
  · rename_i hne
    have hn : (counts.length : K) ≠ 0 := by
      intro e
      apply hne
      have : counts.length = 0 := by exact_mod_cast e
      rw [this]
      rfl
    simp only [Option.some.injEq, Prod.mk.injEq] at h1
    rw [h1.1, averageOf, sum_range_clock, List.length_map, List.length_range, div_mul_cancel₀ _ hn]

theorem sum_le_of_forall₂ {A : Type} {f g : A → K} {l : List A} {counts : List Nat} (h : List.Forall₂ (fun a (n : Nat) => f a ≤ (n : K) ∧ (n : K) ≤ g a) l counts) :
    (l.map f).sum ≤ (counts.map (fun n : Nat => (n : K))).sum ∧ (counts.map (fun n : Nat => (n : K))).sum ≤ (l.map g).sum := by
  induction h with
  | nil => simp
  | cons h1 _ ih =>
    simp only [List.map_cons, List.sum_cons]
    exact ⟨add_le_add h1.1 ih.1, add_le_add h1.2 ih.2⟩

/-- **C91, order of the variants.** In each group the mean number of points of OMP is not below the one of the serial variant, and above it by at most the mean number of blocks of
1024 points, less one; the one of TBB is not below it either. -/
theorem C91_order {sqrt : K → K} {clock : Nat → Nat → Int} {tbb : Bool} {leaf : K} {pts : List (List (Pt K))} {lines : List (Line K)} (h : GroupShows sqrt clock tbb leaf pts lines) (hne : pts ≠ []) :
    ∃ (a b : Line K) (ma da mb db : K), lines[0]? = some a ∧ lines[1]? = some b ∧ a.points.meanStd = some (ma, da) ∧ b.points.meanStd = some (mb, db) ∧
      ma = averageOf (pts.map (fun ps => ((occupied leaf ps).card : K))) ∧ ma ≤ mb ∧ mb ≤ ma + averageOf (pts.map (fun ps => (((ps.length + 1023) / 1024 - 1 : Nat) : K))) ∧
      (tbb = true → ∃ t mt dt, lines[2]? = some t ∧ t.points.meanStd = some (mt, dt) ∧ ma ≤ mt ∧ mt ≤ averageOf (pts.map (fun ps => (ps.length : K)))) := by
  obtain ⟨a, b, rest, rfl, ha, ⟨cb, fb, hb⟩, hrest⟩ := h
  have hn : (0 : K) < pts.length := by exact_mod_cast List.length_pos_iff.2 hne
  have pos : ∀ {counts : List Nat}, counts.length = pts.length → counts.map (fun n : Nat => (n : K)) ≠ [] := by
    intro counts hl e
    rw [List.map_eq_nil_iff] at e
    rw [e] at hl
    exact hne (List.length_eq_zero_iff.1 hl.symm)
  have h1 := ha.2.1
  rw [if_neg (pos (by simp))] at h1
  have h2 := hb.2.1
  rw [if_neg (pos fb.length_eq.symm)] at h2
  have sb := sum_le_of_forall₂ (K := K) (f := fun ps => ((occupied leaf ps).card : K)) (g := fun ps => ((occupied leaf ps).card : K) + (((ps.length + 1023) / 1024 - 1 : Nat) : K))
    (fb.imp fun ps n h => ⟨by exact_mod_cast h.1, by exact_mod_cast h.2⟩)
  have ea : (pts.map (fun ps => (occupied leaf ps).card)).map (fun n : Nat => (n : K)) = pts.map (fun ps => ((occupied leaf ps).card : K)) := by rw [List.map_map]; rfl
  rw [ea] at h1
  refine ⟨a, b, _, _, _, _, rfl, rfl, h1, h2, rfl, ?_, ?_, fun ht => ?_⟩
  · unfold averageOf
    rw [List.length_map, List.length_map, ← fb.length_eq, div_le_div_iff_of_pos_right hn]
    exact sb.1
  · unfold averageOf
    rw [List.length_map, List.length_map, List.length_map, ← fb.length_eq, ← add_div, div_le_div_iff_of_pos_right hn, ← List.sum_map_add]
    exact sb.2
  · rw [if_pos ht] at hrest
    obtain ⟨t, ct, rfl, ft, st⟩ := hrest
    have h3 := st.2.1
    rw [if_neg (pos ft.length_eq.symm)] at h3
    have sc := sum_le_of_forall₂ (K := K) (f := fun ps => ((occupied leaf ps).card : K)) (g := fun ps => (ps.length : K)) (ft.imp fun ps n h => ⟨by exact_mod_cast h.1, by exact_mod_cast h.2⟩)
    refine ⟨t, _, _, rfl, h3, ?_, ?_⟩
    · unfold averageOf
      rw [List.length_map, List.length_map, ← ft.length_eq, div_le_div_iff_of_pos_right hn]
      exact sc.1
    · unfold averageOf
      rw [List.length_map, List.length_map, ← ft.length_eq, div_le_div_iff_of_pos_right hn]
      exact sc.2

/-! ### the program -/

section Program

variable {stoi : Text → Res Int} {stoul : Text → Res Nat}

theorem size_keywords : kwNumThreads = "--num_threads".toList ∧ kwMaxNumFrames = "--max_num_frames".toList := by decide

theorem size_scan_skip {w : Text} (hw : ¬ Dashed w) (o : DownsamplingBenchmark.Options) (rest : List Text) :
    DownsamplingBenchmark.scan stoi stoul o (w :: rest) = DownsamplingBenchmark.scan stoi stoul o rest := by
  have h (k : Text) (hk : Dashed k) : w ≠ k := fun h => hw (h ▸ hk)
  rw [DownsamplingBenchmark.scan, if_neg (h kwNumThreads ⟨_, rfl⟩), if_neg (h kwMaxNumFrames ⟨_, rfl⟩), if_neg (fun h => hw ((dashed_iff w).2 h))]

theorem size_scan_unknown {w : Text} (hd : Dashed w) (hw : w ∉ ["--num_threads".toList, "--max_num_frames".toList]) (o : DownsamplingBenchmark.Options) (rest : List Text) :
    DownsamplingBenchmark.scan stoi stoul o (w :: rest) = .ok none := by
  obtain ⟨k1, k2⟩ := size_keywords
  simp only [List.mem_cons, List.not_mem_nil, or_false, not_or] at hw
  rw [← k1, ← k2] at hw
  rw [DownsamplingBenchmark.scan, if_neg hw.1, if_neg hw.2, if_pos ((dashed_iff w).1 hd)]

theorem size_scan_missing {w : Text} (hw : w ∈ ["--num_threads".toList, "--max_num_frames".toList]) (o : DownsamplingBenchmark.Options) :
    DownsamplingBenchmark.scan stoi stoul o [w] = .error .nullDeref := by
  obtain ⟨k1, k2⟩ := size_keywords
  rw [← k1, ← k2] at hw
  simp only [List.mem_cons, List.not_mem_nil, or_false] at hw
  rcases hw with rfl | rfl
  · rw [DownsamplingBenchmark.scan, if_pos rfl]; rfl
  · rw [DownsamplingBenchmark.scan, if_neg (by decide), if_pos rfl]; rfl

/-- Options with values in any order: each variable gets the value given last, then the rest is read. -/
theorem size_scan_options (rest : List Text) : ∀ (opts : List SizeOption), (∀ x ∈ opts, x.Valid stoi stoul) →
    DownsamplingBenchmark.scan stoi stoul .default (opts.flatMap SizeOption.words ++ rest) = DownsamplingBenchmark.scan stoi stoul ⟨threadsOf opts, maxFramesOf opts⟩ rest := by
  obtain ⟨k1, k2⟩ := size_keywords
  have one : ∀ (x : SizeOption), x.Valid stoi stoul → ∀ (o : DownsamplingBenchmark.Options) (rest : List Text), DownsamplingBenchmark.scan stoi stoul o (x.words ++ rest) =
      DownsamplingBenchmark.scan stoi stoul (match x with | .numThreads _ n => { o with numThreads := n } | .maxFrames _ n => { o with maxNumFrames := n }) rest := by
    intro x hx o rest
    cases x with
    | numThreads t n =>
      obtain ⟨h1, h2⟩ := hx
      rw [SizeOption.words, ← k1, List.cons_append, List.cons_append, List.nil_append, DownsamplingBenchmark.scan, if_pos rfl, nextArg, ok_bind, h1, ok_bind, size_scan_skip h2]
    | maxFrames t n =>
      obtain ⟨h1, h2⟩ := hx
      rw [SizeOption.words, ← k2, List.cons_append, List.cons_append, List.nil_append, DownsamplingBenchmark.scan, if_neg (by decide), if_pos rfl, nextArg, ok_bind, h1, ok_bind, size_scan_skip h2]
  intro opts
  induction opts using List.reverseRecOn generalizing rest with
  | nil => intro _; rfl
  | append_singleton opts x ih =>
    intro h
    rw [List.flatMap_append, List.append_assoc, ih _ (fun y hy => h y (by simp [hy]))]
    simp only [List.flatMap_cons, List.flatMap_nil, List.append_nil]
    rw [one x (h x (by simp))]
    cases x <;> simp [threadsOf, maxFramesOf]

end Program

theorem holds_converted {value : F32 → K} {ps : List V4} {c : PCloud K} (h : c.points = ps.map (fun v => some ![value v.x, value v.y, value v.z, 1])) : HoldsPts c (scanPoints value ps) := by
  have hset : PointsSet c := by
    intro i hi
    rw [h, List.length_map] at hi
    exact ⟨_, by rw [h, List.getElem?_map, List.getElem?_eq_getElem hi]; rfl⟩
  obtain ⟨pts, h1, h2, h3⟩ := cloudPoints_ok c hset
  unfold HoldsPts
  rw [h1]
  congr 1
  have hl : pts.length = ps.length := by rw [h2]; show c.points.length = _; rw [h, List.length_map]
  refine List.ext_getElem? fun i => ?_
  by_cases hi : i < ps.length
  · rw [scanPoints, List.getElem?_map, List.getElem?_eq_getElem hi, Option.map_some, h3]
    exact ⟨_, by rw [h, List.getElem?_map, List.getElem?_eq_getElem hi]; rfl, rfl⟩
  · rw [List.getElem?_eq_none (by omega), List.getElem?_eq_none (by simp [scanPoints]; omega)]

theorem converted_hold {value : F32 → K} : ∀ {frames : List (List V4)} {clouds : List (PCloud K)},
    clouds.map (·.points) = frames.map (fun ps => ps.map (fun v => some ![value v.x, value v.y, value v.z, 1])) → List.Forall₂ HoldsPts clouds (frames.map (scanPoints value))
  | [], [], _ => .nil
  | [], _ :: _, h => by simp at h
  | _ :: _, [], h => by simp at h
  | ps :: frames, c :: clouds, h => by
    simp only [List.map_cons, List.cons.injEq] at h
    exact .cons (holds_converted h.1) (converted_hold h.2)

/-- What the program needs: sorts that sort, divisions into blocks, the value of the float 1, arithmetic of the loop near the decimal numbers, and enough iterations followed. -/
structure SetupMeets (s : Setup K) : Prop where
  text : SortsTexts s.sortText
  serial : SortSpec s.sort
  omp : SortSpec s.sortOmp
  tbb : SortSpec s.sortTbb
  cut : ∀ g i, IsCut (s.exec g i).tbbCut
  one : s.value ⟨0, 0, 0x80, 0x3f⟩ = 1
  near : NearDecimal s.tenth s.bound s.add
  iterations : 16 ≤ s.iterations

section Main

variable {stoi : Text → Res Int} (s : Setup K) (disk : Disk) (prog data : Text) (hdata : ¬ Dashed data) (opts : List SizeOption) (hopts : ∀ x ∈ opts, x.Valid s.stoi s.stoul)

include hdata hopts in
theorem size_line (rest : List Text) : DownsamplingBenchmark.scan s.stoi s.stoul .default (data :: (opts.flatMap SizeOption.words ++ rest)) =
    DownsamplingBenchmark.scan s.stoi s.stoul ⟨threadsOf opts, maxFramesOf opts⟩ rest := by
  rw [size_scan_skip hdata, size_scan_options rest opts hopts]

include hdata hopts in
/-- **C91, wrong command lines.** An option that is not known ends the program with the value 1; an option without its value makes it read the null pointer at the end of `argv`;
without a path it returns 0. -/
theorem C91_command_line :
    (∀ w rest, Dashed w → w ∉ ["--num_threads".toList, "--max_num_frames".toList] →
      DownsamplingBenchmark.main s disk (prog :: data :: (opts.flatMap SizeOption.words ++ w :: rest)) = some (.ok ⟨1, none, []⟩)) ∧
    (∀ w, w ∈ ["--num_threads".toList, "--max_num_frames".toList] →
      DownsamplingBenchmark.main s disk (prog :: data :: (opts.flatMap SizeOption.words ++ [w])) = some (.error .nullDeref)) ∧
    ∀ argv, argv.length ≤ 1 → DownsamplingBenchmark.main s disk argv = some (.ok ⟨0, none, []⟩) := by
  refine ⟨fun w rest hd hw => ?_, fun w hw => ?_, fun argv h => ?_⟩
  · have e := size_line s data hdata opts hopts (w :: rest)
    rw [size_scan_unknown hd hw] at e
    unfold DownsamplingBenchmark.main
    rw [if_neg (by simp)]
    simp only [List.drop_succ_cons, List.drop_zero, e]
    rfl
  · have e := size_line s data hdata opts hopts [w]
    rw [size_scan_missing hw] at e
    unfold DownsamplingBenchmark.main
    rw [if_neg (by simp)]
    simp only [List.drop_succ_cons, List.drop_zero, e]
    rfl
  · unfold DownsamplingBenchmark.main
    rw [if_pos (by omega)]

include hdata hopts in
theorem size_main : DownsamplingBenchmark.main s disk (prog :: data :: opts.flatMap SizeOption.words) =
    next (some (kittiDataset s.sortText disk data (maxFramesOf opts))) fun frames =>
      next (some (convert s.value frames true)) fun cs =>
      next (group s 0 (1 / 2) cs.1) fun warm =>
      next (resolutionLoop s cs.1 s.iterations 1 s.tenth) fun rest =>
      some (.ok ⟨0, some (frames.length, printed s.sqrt (summarize frames (fun ps => (ps.length : K)))), (1 / 2, warm) :: rest⟩) := by
  have e := size_line s data hdata opts hopts []
  rw [List.append_nil] at e
  unfold DownsamplingBenchmark.main
  rw [if_neg (by simp)]
  simp only [List.drop_succ_cons, List.drop_zero, e]
  rfl

include hdata hopts in
/-- **C91, program.** With valid options, every run of the program ends as follows. If the directory cannot be read, with an exception. Otherwise it reads the first files of the directory
(1000, or as many as given); if all coordinates are less than a hundred kilometres, it prints the statistics of the sizes, a group for the resolution 0.5, and groups for 0.1, 0.2, …, 1.5, up
to rounding. -/
theorem C91_program (hm : SetupMeets s) {r} (h : DownsamplingBenchmark.main s disk (prog :: data :: opts.flatMap SizeOption.words) = some r) :
    (disk.dir data = none → r = .error .exception) ∧
    ∀ names, disk.dir data = some names → ∃ (files : List Text) (frames : List (List V4)),
      datasetFiles s.sortText disk data (maxFramesOf opts) = .ok files ∧ List.Forall₂ (fun f ps => HoldsPoints (disk.file f) ps) files frames ∧
      ((∀ ps ∈ frames, Within100km (scanPoints s.value ps)) →
        ∃ sizes warm rest, r = .ok ⟨0, some (frames.length, sizes), (1 / 2, warm) :: rest⟩ ∧ Shows s.sqrt (frames.map (fun ps => (ps.length : K))) sizes ∧
          GroupShows s.sqrt (s.clock 0) s.withTbb (1 / 2) (frames.map (scanPoints s.value)) warm ∧ rest.length = 15 ∧
          ∀ (j : Nat) leaf lines, rest[j]? = some (leaf, lines) → |leaf - ((j : K) + 1) / 10| ≤ 1 / 10 ^ 5 ∧
            GroupShows s.sqrt (s.clock (j + 1)) s.withTbb leaf (frames.map (scanPoints s.value)) lines) := by
  rw [size_main s disk prog data hdata opts hopts] at h
  refine ⟨fun hd => ?_, fun names hd => ?_⟩
  · unfold kittiDataset at h
    rw [(C80_files hm.text disk data (maxFramesOf opts)).1 hd] at h
    exact (Option.some.inj h).symm
  · obtain ⟨all, _, _, h3⟩ := (C80_files hm.text disk data (maxFramesOf opts)).2 names hd
    obtain ⟨frames, h4, h5⟩ := C80_frames disk data (maxFramesOf opts) h3
    obtain ⟨clouds, h6, _, _, h7, _⟩ := C80_convert (M := Matrix (Fin 4) (Fin 4) K) s.value hm.one disk h5
    refine ⟨_, frames, h3, h5, fun hb => ?_⟩
    rw [h4] at h
    change next (some (convert s.value frames true)) _ = some r at h
    rw [h6] at h
    change next (group s 0 (1 / 2) clouds) _ = some r at h
    have hc := converted_hold h7
    have hw : ∀ ps ∈ frames.map (scanPoints s.value), ∀ p ∈ ps, p.w = 1 := by
      intro ps hps p hp
      obtain ⟨qs, _, rfl⟩ := List.mem_map.1 hps
      obtain ⟨v, _, rfl⟩ := List.mem_map.1 hp
      rfl
    have hr : ∀ ps ∈ frames.map (scanPoints s.value), Within100km ps := by
      intro ps hps
      obtain ⟨qs, hq, rfl⟩ := List.mem_map.1 hps
      exact hb qs hq
    have G := fun g leaf r (hl : 99 / 1000 ≤ leaf) => C91_group (s := s) hm.serial hm.omp hm.tbb hm.cut hc hw hr hl g (r := r)
    rcases next_some h with ⟨e, q1, _⟩ | ⟨warm, q1, q2⟩
    · obtain ⟨_, e1, _⟩ := G _ _ _ (by norm_num) q1
      cases e1
    obtain ⟨_, e1, w1⟩ := G _ _ _ (by norm_num) q1
    cases e1
    have R := fun {r} => C91_resolutions (s := s) (clouds := clouds) hm.near (fun g leaf ls => GroupShows s.sqrt (s.clock g) s.withTbb leaf (frames.map (scanPoints s.value)) ls) G hm.iterations (r := r)
    rcases next_some q2 with ⟨e, q3, _⟩ | ⟨rest, q3, q4⟩
    · obtain ⟨_, e1, _⟩ := R q3
      cases e1
    obtain ⟨_, e1, l1, l2⟩ := R q3
    cases e1
    refine ⟨_, warm, rest, (Option.some.inj q4).symm, ?_, w1, l1, fun j leaf lines hj => ⟨(l2 j leaf lines hj).1, (l2 j leaf lines hj).2.2⟩⟩
    rw [summarize_push]
    exact shows_pushed s.sqrt _

end Main

/-! ### runs -/

theorem loop_runs (clock : Nat → Int) (downsample : Nat → PCloud K → Option (Res (List (Pt K)))) : ∀ (clouds : List (PCloud K)) (k : Nat) (v : Locals K),
    (∀ i c, clouds[i]? = some c → ∃ d, downsample (k + i) c = some (.ok d)) → ∃ v', benchmarkLoop clock downsample k clouds v = some (.ok v')
  | [], _, v, _ => ⟨v, rfl⟩
  | c :: cs, k, v, h => by
    obtain ⟨d, hd⟩ := h 0 c rfl
    obtain ⟨v', hv⟩ := loop_runs clock downsample cs (k + 1) ⟨v.sw.lap (clock (k + 1)), v.times.push (v.sw.lap (clock (k + 1))).msec, v.numPoints.push (d.length : K)⟩ (fun i c hc => by
      have := h (i + 1) c hc
      rwa [show k + (i + 1) = k + 1 + i by omega] at this)
    refine ⟨v', ?_⟩
    rw [Nat.add_zero] at hd
    rw [benchmarkLoop, hd]
    exact hv

theorem benchmark_runs (sqrt : K → K) (clock : Nat → Int) (downsample : Nat → PCloud K → Option (Res (List (Pt K)))) (clouds : List (PCloud K))
    (h : ∀ i c, clouds[i]? = some c → ∃ d, downsample i c = some (.ok d)) : ∃ l, benchmark sqrt clock downsample clouds = some (.ok l) := by
  obtain ⟨v', hv⟩ := loop_runs clock downsample clouds 0 ⟨.start (clock 0), .init false, .init false⟩ (fun i c hc => by rw [Nat.zero_add]; exact h i c hc)
  exact ⟨_, by unfold benchmark; rw [hv]; rfl⟩

/-- **C91, runs.** The program can run to its end on such data, however TBB divides its arrays. -/
theorem C91_executes (s : Setup K) (hm : SetupMeets s) (disk : Disk) (prog data : Text) (hdata : ¬ Dashed data) (opts : List SizeOption) (hopts : ∀ x ∈ opts, x.Valid s.stoi s.stoul)
    {files : List Text} {frames : List (List V4)} (hfiles : datasetFiles s.sortText disk data (maxFramesOf opts) = .ok files)
    (hframes : List.Forall₂ (fun f ps => HoldsPoints (disk.file f) ps) files frames) (hb : ∀ ps ∈ frames, Within100km (scanPoints s.value ps)) :
    ∃ exec : Nat → Nat → DownsamplingBenchmark.Exec, (∀ g i, (exec g i).tbbCut = (s.exec g i).tbbCut) ∧
      ∃ e, DownsamplingBenchmark.main { s with exec := exec } disk (prog :: data :: opts.flatMap SizeOption.words) = some (.ok e) := by
  obtain ⟨frames', h4, h5⟩ := C80_frames disk data (maxFramesOf opts) hfiles
  obtain rfl : frames = frames' := holds_frames_unique disk hframes h5
  obtain ⟨clouds, h6, _, _, h7, _⟩ := C80_convert (M := Matrix (Fin 4) (Fin 4) K) s.value hm.one disk h5
  have hc := converted_hold h7
  have hpt : ∀ (i : Nat) (c : PCloud K), clouds[i]? = some c → ∃ ps, HoldsPts c ps ∧ (∀ p ∈ ps, p.w = 1) ∧ Within100km ps := by
    intro i c hi
    obtain ⟨hl, rfl⟩ := List.getElem?_eq_some_iff.1 hi
    have hl' : i < (frames.map (scanPoints s.value)).length := by rw [← hc.length_eq]; exact hl
    have := (List.forall₂_iff_get.1 hc).2 i hl hl'
    obtain ⟨qs, hq, e⟩ := List.mem_map.1 (List.getElem_mem hl')
    refine ⟨_, this, ?_, ?_⟩
    · intro p hp
      simp only [List.get_eq_getElem, ← e] at hp
      obtain ⟨v, _, rfl⟩ := List.mem_map.1 hp
      rfl
    · simp only [List.get_eq_getElem, ← e]
      exact hb qs hq
  have run : ∀ (sort : List (Nat × Nat) → List (Nat × Nat)) (cut : Nat → Nat → List (Nat × Nat) → List (List (Nat × Nat))), SortSpec sort → (∀ g i, IsCut (cut g i)) →
      ∀ (leaf : Nat → K), (∀ g, 99 / 1000 ≤ leaf g ∨ 15 < g) → ∀ g i, ∃ sched, g ≤ 15 → ∀ c, clouds[i]? = some c → ∃ d, parallelVariant sort (cut g i) sched (leaf g) c = some (.ok d) := by
    intro sort cut hsort hcut leaf hl g i
    rcases Nat.lt_or_ge 15 g with hg | hg
    · exact ⟨[], fun h => absurd h (by omega)⟩
    have hlg : 99 / 1000 ≤ leaf g := (hl g).resolve_right (by omega)
    have hleaf : leaf g ≠ 0 := by intro e; rw [e] at hlg; norm_num at hlg
    cases hci : clouds[i]? with
    | none => exact ⟨[], fun _ c h => by cases h⟩
    | some c =>
      obtain ⟨ps, a1, a2, a3⟩ := hpt i c hci
      obtain ⟨sched, out, ho⟩ := parallel_runs hsort (hcut g i) hleaf a2 (inRange_of_within a3 a2 hlg)
      refine ⟨sched, fun _ c' h => ?_⟩
      cases h
      refine ⟨out, ?_⟩
      unfold parallelVariant
      rw [show cloudPoints c = .ok ps from a1]
      exact ho
  let leaf : Nat → K := fun g => match g with | 0 => 1 / 2 | j + 1 => leafAt s j
  have hleaf : ∀ g, 99 / 1000 ≤ leaf g ∨ 15 < g := by
    intro g
    cases g with
    | zero => left; show (99 / 1000 : K) ≤ 1 / 2; norm_num
    | succ j =>
      by_cases hj : j ≤ 15
      · exact .inl (leafAt_bound hm.near j hj).2.1
      · exact .inr (by omega)
  choose so hso using run s.sortOmp (fun _ _ => ompCut) hm.omp (fun _ _ => ompCut_isCut) leaf hleaf
  choose st hst using run s.sortTbb (fun g i => (s.exec g i).tbbCut) hm.tbb hm.cut leaf hleaf
  refine ⟨fun g i => ⟨so g i, (s.exec g i).tbbCut, st g i⟩, fun _ _ => rfl, ?_⟩
  set s' : Setup K := { s with exec := fun g i => ⟨so g i, (s.exec g i).tbbCut, st g i⟩ } with hs'
  have grp : ∀ g ≤ 15, ∃ ls, group s' g (leaf g) clouds = some (.ok ls) := by
    intro g hg
    have hlg : 99 / 1000 ≤ leaf g := (hleaf g).resolve_right (by omega)
    have hl0 : leaf g ≠ 0 := by intro e; rw [e] at hlg; norm_num at hlg
    obtain ⟨a, ha⟩ := benchmark_runs s'.sqrt (s'.clock g 0) (fun _ c => serialVariant s'.sort (leaf g) c) clouds (fun i c hi => by
      obtain ⟨ps, a1, a2, a3⟩ := hpt i c hi
      obtain ⟨out, o1, _⟩ := serial_count hm.serial hl0 a2 (inRange_of_within a3 a2 hlg)
      refine ⟨out, ?_⟩
      unfold serialVariant
      rw [show cloudPoints c = .ok ps from a1, ok_bind]
      exact congrArg some o1)
    obtain ⟨b, hb'⟩ := benchmark_runs s'.sqrt (s'.clock g 1) (fun i c => parallelVariant s'.sortOmp ompCut (s'.exec g i).ompSched (leaf g) c) clouds (fun i c hi => hso g i hg c hi)
    obtain ⟨t, ht⟩ := benchmark_runs s'.sqrt (s'.clock g 2) (fun i c => parallelVariant s'.sortTbb (s'.exec g i).tbbCut (s'.exec g i).tbbSched (leaf g) c) clouds (fun i c hi => hst g i hg c hi)
    unfold group
    rw [ha, next, hb', next]
    cases s'.withTbb with
    | false => exact ⟨[a, b], rfl⟩
    | true => exact ⟨[a, b, t], by rw [if_pos rfl, ht]; rfl⟩
  have hleafAt : ∀ j, leafAt s' j = leafAt s j := by
    intro j
    induction j with
    | zero => rfl
    | succ j ih => simp only [leafAt, ih]; rfl
  have loop : ∀ (d j n : Nat), j + d = 15 → d < n → ∃ out, resolutionLoop s' clouds n (j + 1) (leafAt s j) = some (.ok out) := by
    intro d
    induction d with
    | zero =>
      intro j n hj hd
      obtain ⟨n, rfl⟩ : ∃ m, n = m + 1 := ⟨n - 1, by omega⟩
      obtain rfl : j = 15 := by omega
      have hbd : ¬ leafAt s 15 ≤ s'.bound := fun h' => absurd ((leafAt_bound hm.near 15 le_rfl).1.1 h') (by omega)
      exact ⟨[], by rw [resolutionLoop, if_neg hbd]⟩
    | succ d ih =>
      intro j n hj hd
      obtain ⟨n, rfl⟩ : ∃ m, n = m + 1 := ⟨n - 1, by omega⟩
      obtain ⟨b1, _⟩ := leafAt_bound hm.near j (by omega)
      have hb1 : leafAt s j ≤ s'.bound := b1.2 (by omega)
      obtain ⟨ls, hls⟩ := grp (j + 1) (by omega)
      obtain ⟨out, hout⟩ := ih (j + 1) n (by omega) (by omega)
      refine ⟨(leafAt s j, ls) :: out, ?_⟩
      rw [resolutionLoop, if_pos hb1, show group s' (j + 1) (leafAt s j) clouds = some (.ok ls) from hls, next, show s'.add (leafAt s j) s'.tenth = leafAt s (j + 1) from rfl, hout]
      rfl
  obtain ⟨warm, hwarm⟩ := grp 0 (by omega)
  obtain ⟨rest, hrest⟩ := loop 15 0 s'.iterations rfl hm.iterations
  refine ⟨⟨0, some (frames.length, printed s'.sqrt (summarize frames (fun ps => (ps.length : K)))), (1 / 2, warm) :: rest⟩, ?_⟩
  rw [size_main s' disk prog data hdata opts hopts]
  have e1 : kittiDataset s'.sortText disk data (maxFramesOf opts) = .ok frames := h4
  have e2 : convert s'.value frames true = .ok (clouds, []) := h6
  rw [e1, next, e2, next]
  change next (group s' 0 (1 / 2) clouds) _ = _
  rw [show group s' 0 (1 / 2) clouds = some (.ok warm) from hwarm, next]
  change next (resolutionLoop s' clouds s'.iterations 1 s'.tenth) _ = _
  rw [show resolutionLoop s' clouds s'.iterations 1 s'.tenth = some (.ok rest) from hrest]
  rfl

/-! ### a case -/

/-- The program with TBB, for the scan of three points of C88 and a number that is not one. -/
def sizeSetup : Setup ℚ where
  stoi t := if t = ['2'] then .ok 2 else .error .exception
  stoul t := if t = ['2'] then .ok 2 else .error .exception
  sortText l := l.mergeSort (fun a b => decide (a ≤ b))
  value := threeValue
  sort := keySort
  sortOmp := keySort
  sortTbb := keySort
  exec g _ := ⟨List.replicate (if g ≤ 9 then 4 else 3) 0, cut2, [1, 0, 0, 1, 0]⟩
  clock g v i := g + v + i * 1000000
  sqrt x := x
  withTbb := true
  tenth := 1 / 10 + 1 / 10 ^ 8
  bound := 151 / 100
  add a b := (a + b) * (1 + 1 / 10 ^ 8)
  iterations := 20

theorem sizeSetup_meets : SetupMeets sizeSetup where
  text := sortsTexts_exists
  serial := keySort_spec
  omp := keySort_spec
  tbb := keySort_spec
  cut _ _ := cut2_isCut
  one := by decide +kernel
  near := by
    refine ⟨by decide +kernel, by decide +kernel, fun a b => ?_⟩
    have e : (a + b) * (1 + 1 / 10 ^ 8) - (a + b) = (a + b) * (1 / 10 ^ 8) := by ring
    show |(a + b) * (1 + 1 / 10 ^ 8) - (a + b)| ≤ |a + b| / 10 ^ 7
    rw [e, abs_mul, abs_of_pos (by norm_num : (0 : ℚ) < 1 / 10 ^ 8)]
    have := abs_nonneg (a + b)
    rw [mul_one_div]
    exact div_le_div_of_nonneg_left this (by norm_num) (by norm_num)
  iterations := by decide

/-- `downsampling_benchmark d --max_num_frames 2` on a directory with one scan of three points: the program returns 0 and prints 16 groups of three lines; in the last of them the serial
variant and OMP leave two points, TBB, with two blocks, three. -/
example : ((DownsamplingBenchmark.main sizeSetup (threeDisk false) [['p'], ['d'], "--max_num_frames".toList, ['2']]).bind fun r => r.toOption.map fun e =>
      (e.code, e.frames.map (fun f => (f.1, f.2.last)), e.groups.map (fun g => g.2.map (fun l => (l.points.last, l.times.last)))))
    = some (0, some (1, 3), List.replicate 10 [(3, 1), (3, 1), (3, 1)] ++ List.replicate 6 [(2, 1), (2, 1), (3, 1)]) := by decide +kernel

example : (SizeOption.maxFrames ['2'] 2).Valid sizeSetup.stoi sizeSetup.stoul ∧ ¬ Dashed (['d'] : Text) ∧ [SizeOption.maxFrames ['2'] 2].flatMap SizeOption.words = ["--max_num_frames".toList, ['2']] :=
  ⟨⟨rfl, fun ⟨_, h⟩ => by cases h⟩, (fun ⟨_, h⟩ => by cases h), rfl⟩

/-- All coordinates of the scan are small enough. -/
example : Within100km (scanPoints sizeSetup.value (threeScan false)) := by
  unfold Within100km
  decide +kernel

/-- The order of C91 for a group with a cloud. -/
example : GroupShows (K := ℚ) (fun x => x) (fun _ _ => 0) false 1 [[⟨0, 0, 0, 1⟩]] [⟨⟨some (0, 0), 0⟩, ⟨some (1, 0), 1⟩⟩, ⟨⟨some (0, 0), 0⟩, ⟨some (1, 0), 1⟩⟩] := by
  have h : (occupied (1 : ℚ) [⟨0, 0, 0, 1⟩]).card = 1 := by decide +kernel
  have hs : LineShows (K := ℚ) (fun x => x) (fun _ => 0) [1] ⟨⟨some (0, 0), 0⟩, ⟨some (1, 0), 1⟩⟩ := by
    refine ⟨⟨?_, ?_⟩, ⟨?_, ?_⟩⟩ <;> simp [averageOf, varianceOf]
  refine ⟨_, _, [], rfl, ?_, ⟨[1], .cons ?_ .nil, hs⟩, ?_⟩
  · rw [List.map_cons, List.map_nil, h]
    exact hs
  · rw [h]
    decide
  · simp

end Verif.Props
