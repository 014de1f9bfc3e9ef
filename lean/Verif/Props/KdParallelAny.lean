import Verif.Props.KdParallel
import Verif.Props.KnnAnyArith

/-!
C07 once more: the parallel builders in any arithmetic, also with NaN coordinates, and with any `std::nth_element` that permutes.
-/

set_option linter.unusedSectionVars false
set_option linter.unusedSimpArgs false

namespace Verif.Props

open Verif Verif.Knn Verif.KdTree Verif.Proofs

section

variable {D : Type} {Q : Proj D → Prop}

/-- `construct_shape` with the number of nodes. -/
theorem construct_counts (o : Ops D) (b : Builder D) (points : List (Pt D)) (hne : points ≠ []) (hN : points.length < 2 ^ 32) (hnth : ∀ l n, (b.nthElement l n).Perm l)
    (hfind : FindAxisSpec Q b.findAxis) (hm : 3 ≤ toU64 b.maxLeafSize) :
    ∃ t kt, KdTree.construct o b (points.length + 1) points = .ok t ∧ t.root = some 0 ∧ Represents t.nodes t.indices 0 kt ∧ t.indices = kt.items ∧ t.nodes.length = kt.size ∧ kt.size ≤ points.length ∧
      Global o b points kt (parInit points) (work kt) := by
  have hpos : 0 < points.length := List.length_pos_of_ne_nil hne
  obtain ⟨kt, hb, hperm, hfull, hdep, hsz, hspl⟩ := buildT_shape o b points hnth hfind hm (points.length + 1) (List.range points.length) (by simp) (by rw [List.length_range]; omega) (fun i hi => List.mem_range.1 hi)
  rw [List.length_range] at hdep hsz
  have hsl : slice (List.range points.length) 0 points.length = List.range points.length := by
    unfold slice; simp [List.take_of_length_le]
  obtain ⟨s', dt, hc, he, hr, hsp, hno, hid, hnc, hin, hnl, _⟩ := createNode_ok o b points hnth (points.length + 1) 0 points.length
    ⟨List.range points.length, List.replicate points.length Node.fresh, 0⟩ kt (by omega) (by simp) (by simpa using hN)
    (by simpa using hN) (by rw [hsl]; exact hb) (by simp only [List.length_replicate]; omega)
    (by intro j _ hj; simp only [List.length_replicate] at hj; simp [hj])
  have hlen : kt.items.length = points.length := by rw [hperm.length_eq, List.length_range]
  have hin' : s'.indices = kt.items := by
    rw [hin]; unfold overwrite; simp
  refine ⟨⟨s'.indices, s'.nodes.take s'.nodeCount, some 0⟩, kt, ?_, rfl, ?_, hin', ?_, by omega, Global.init hb⟩
  · unfold KdTree.construct buildTree
    rw [if_neg (by omega)]
    simp only [bind, Except.bind, pure, Except.pure]
    rw [hc]
  · simp only
    have : dt.NodesOK (s'.nodes.take s'.nodeCount) := by
      apply hno.congr
      intro i hi
      have := hid i hi
      simp only at this
      rw [List.getElem?_take_of_lt (by omega)]
    have hr' := DT.represents (indices := s'.indices) dt 0 this hsp
      (by rw [← DT.items_erase, he, hin']; omega)
      (by rw [← DT.items_erase, he, hin']; unfold slice; simp)
    rw [he, hr] at hr'
    exact hr'
  · simp only [List.length_take, hnl, List.length_replicate, hnc]; omega

end

section

variable {D : Type} [LT D] [LE D] [DecidableLT D] [DecidableLE D] {Q : Proj D → Prop}

/-- C07 in any arithmetic: nothing is assumed of the numbers and their comparisons (they may be NaN), nor of `std::nth_element` but that it permutes. Whatever steps a schedule has taken, none has left the arrays or read
uninitialised memory, at most `5 N` steps were taken, and unless the root activation has returned, some activation can move. Once it has returned, the index array is that of the single-threaded builder and every search
returns what it returns on the tree of the single-threaded builder. -/
theorem C07_any_arithmetic (o : Ops D) (b : Builder D) {points : List (Pt D)} (hne : points ≠ []) (hN : points.length < 2 ^ 32) (hnth : ∀ l n, (b.nthElement l n).Perm l) (hfind : FindAxisSpec Q b.findAxis)
    (hm : SafeLeafSize b.maxLeafSize) :
    ∃ t0, KdTree.construct o b (points.length + 1) points = .ok t0 ∧
      ∀ (sched : List (List Bool)) (res : Res (Proc D × BuildState D)), runSchedule o b points sched (parInit points) = some res →
        ∃ ps, res = .ok ps ∧ sched.length ≤ 5 * points.length ∧ (parFinish ps = none → ∃ path res', step o b points path ps.1 ps.2 = some res') ∧
          ∀ t, parFinish ps = some t → t.indices = t0.indices ∧ t.nodes.length = t0.nodes.length ∧
            ∀ (maxD : D) (fuel : Nat) (N k : Int) (indices : List Nat) (dists : List D) (q : Pt D) (eps : D),
              knnSearch o maxD points t fuel N k indices dists q eps = knnSearch o maxD points t0 fuel N k indices dists q eps := by
  obtain ⟨t0, kt, c1, c2, c3, c4, c5, hsz, hg⟩ := construct_counts o b points hne hN hnth hfind hm
  refine ⟨t0, c1, fun sched res hrun => ?_⟩
  obtain ⟨ps, e, h1, h2⟩ := Global.run hnth hN hsz sched hg hrun
  refine ⟨ps, e, ?_, ?_, fun t ht => ?_⟩
  · have := work_le_size kt; omega
  · intro hf
    -- the root is never in the state `stored`
    have hroot : ∀ (sched : List (List Bool)) (ps ps' : Proc D × BuildState D), ps.1.isStored = false →
        runSchedule o b points sched ps = some (.ok ps') → ps'.1.isStored = false := by
      intro sched
      induction sched with
      | nil => intro ps ps' h hr; simp only [runSchedule, Option.some.injEq, Except.ok.injEq] at hr; rw [← hr]; exact h
      | cons path sched ih =>
        intro ps ps' h hr
        unfold runSchedule at hr
        rcases hst : step o b points path ps.1 ps.2 with _ | (er | q)
        · rw [hst] at hr; cases hr
        · rw [hst] at hr; cases hr
        · rw [hst] at hr
          exact ih q ps' (step_ne_stored path ps.1 ps.2 hst).1 hr
    subst e
    have hns := hroot sched _ _ rfl hrun
    apply step_progress
    · intro c hc
      obtain ⟨p, s⟩ := ps
      simp only at hc; subst hc
      simp [parFinish] at hf
    · intro c hc; rw [hc] at hns; simp [Proc.isStored] at hns
  · obtain ⟨r, g1, g2, g3, g4, g5⟩ := h1.finish ht
    refine ⟨by rw [g3, c4], by rw [g4, c5], ?_⟩
    intro maxD fuel N k indices dists q eps
    unfold knnSearch
    rw [g1, c2]
    simp only [fun r0 => searchNode_congr o points t t0 q eps g2 c3 fuel r0]

/-- Every schedule can be continued to a complete execution. -/
theorem parallel_completes (o : Ops D) (b : Builder D) {points : List (Pt D)} (hne : points ≠ []) (hN : points.length < 2 ^ 32) (hnth : ∀ l n, (b.nthElement l n).Perm l) (hfind : FindAxisSpec Q b.findAxis)
    (hm : SafeLeafSize b.maxLeafSize) : ∃ sched ps t, runSchedule o b points sched (parInit points) = some (.ok ps) ∧ parFinish ps = some t := by
  obtain ⟨t0, -, h⟩ := C07_any_arithmetic o b hne hN hnth hfind hm
  have hext : ∀ (s1 s2 : List (List Bool)) (ps ps' : Proc D × BuildState D), runSchedule o b points s1 ps = some (.ok ps') → runSchedule o b points (s1 ++ s2) ps = runSchedule o b points s2 ps' := by
    intro s1 s2
    induction s1 with
    | nil => intro ps ps' hr; simp only [runSchedule, Option.some.injEq, Except.ok.injEq] at hr; rw [← hr]; rfl
    | cons path s1 ih =>
      intro ps ps' hr
      unfold runSchedule at hr
      show runSchedule o b points (path :: (s1 ++ s2)) ps = _
      rw [runSchedule]
      rcases hst : step o b points path ps.1 ps.2 with _ | (er | q)
      · rw [hst] at hr; cases hr
      · rw [hst] at hr; cases hr
      · rw [hst] at hr
        exact ih q ps' hr
  have main : ∀ (n : Nat) (sched : List (List Bool)) ps, 5 * points.length + 1 - sched.length ≤ n → runSchedule o b points sched (parInit points) = some (.ok ps) →
      ∃ sched ps t, runSchedule o b points sched (parInit points) = some (.ok ps) ∧ parFinish ps = some t := by
    intro n
    induction n with
    | zero =>
      intro sched ps hn hr
      obtain ⟨_, _, hle, _⟩ := h sched _ hr
      omega
    | succ n ih =>
      intro sched ps hn hr
      obtain ⟨_, e, hle, hgo, _⟩ := h sched _ hr
      cases e
      rcases hf : parFinish ps with _ | t
      · obtain ⟨path, res', hst⟩ := hgo hf
        have hr' : runSchedule o b points (sched ++ [path]) (parInit points) = some res' := by
          rw [hext _ _ _ _ hr, runSchedule, hst]
          cases res' <;> rfl
        obtain ⟨ps', rfl, _⟩ := h _ _ hr'
        exact ih (sched ++ [path]) ps' (by simp; omega) hr'
      · exact ⟨sched, ps, t, hr, hf⟩
  exact main _ [] _ le_rfl rfl

end

/-- Five points, one of them NaN: the tasks of the parallel builder can be run to the end, and the tree answers every search as the serial one does. -/
example : ∃ sched ps t t0, runSchedule qnOps ⟨3, findAxis qnOps 128, fun l _ => l⟩ qnLine sched (parInit qnLine) = some (.ok ps) ∧ parFinish ps = some t ∧
    KdTree.construct qnOps ⟨3, findAxis qnOps 128, fun l _ => l⟩ 6 qnLine = .ok t0 ∧ sched.length ≤ 25 ∧
    knnSearch qnOps (.num 1000000) qnLine t 5 (-1) 2 [7, 7, 7, 7] [.nan, .nan, .nan, .nan] ⟨.num 5, .num 0, .num 0, .num 1⟩ (.num 0) =
      knnSearch qnOps (.num 1000000) qnLine t0 5 (-1) 2 [7, 7, 7, 7] [.nan, .nan, .nan, .nan] ⟨.num 5, .num 0, .num 0, .num 1⟩ (.num 0) := by
  have hf := (C100_projections (E := qnEval) 128 (by decide) (fun _ => (.nan, .nan, .nan))).1
  obtain ⟨sched, ps, t, h1, h2⟩ := parallel_completes qnOps ⟨3, findAxis qnOps 128, fun l _ => l⟩ (points := qnLine) (by decide) (by decide) (fun _ _ => List.Perm.refl _) hf (by unfold SafeLeafSize toU64; decide)
  obtain ⟨t0, h3, h4⟩ := C07_any_arithmetic qnOps ⟨3, findAxis qnOps 128, fun l _ => l⟩ (points := qnLine) (by decide) (by decide) (fun _ _ => List.Perm.refl _) hf (by unfold SafeLeafSize toU64; decide)
  obtain ⟨ps', e, h5, -, h6⟩ := h4 _ _ h1
  cases e
  exact ⟨sched, ps, t, t0, h1, h2, h3, h5, (h6 t h2).2.2 _ _ _ _ _ _ _ _⟩

end Verif.Props
