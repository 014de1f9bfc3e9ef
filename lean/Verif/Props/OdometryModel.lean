import Verif.Model.OdometryModel
import Verif.Props.OdometryPipeline
import Verif.Props.PipelineVoxel
import Verif.Props.RegistrationMap

/-! C65: odometry against a voxel map that accumulates the frames. -/

set_option linter.unusedSectionVars false
set_option linter.unusedSimpArgs false
set_option linter.unnecessarySeqFocus false

namespace Verif.Spec

open Matrix Verif Verif.Factors Verif.KdTree Verif.Voxel

/-- What is inserted for a frame with sampled points `out`: these points, each with the covariance of its neighbourhood. -/
def FrameSource (out : List (Pt ℝ)) (maxD : ℝ) (k : Nat) (src : List (SrcPt ℝ)) : Prop :=
  src.map SrcPt.pt = out ∧ ∃ c, LocalFeatures out maxD k c ∧ c.covs = src.map (fun s => some s.cov)

/-- A trajectory against an accumulated map. `calls` are the insertions, one for each frame: its sampled points with their covariances, with the pose of the frame. The first pose is the
identity, each pose is the one before it moved by at most 20 optimiser steps, and it is the same if no sampled point, moved by the pose before, is within distance 1 of a point which the map of
the earlier frames stores in its cell. Nothing is stretched by more than rounding of small steps allows. -/
structure ModelTrajectory {V : Type} (c : Contents ℝ V) (pts : V → List (Pt ℝ)) (leaf resolution maxD : ℝ) (k : Nat) (ptss : List (List (Pt ℝ)))
    (calls : List (List (SrcPt ℝ) × Mat4 ℝ)) (tr : List (Pose ℝ)) : Prop where
  poses : tr.length = ptss.length
  insertions : calls.length = ptss.length
  inserted : ∀ (i : Nat) ps call T, ptss[i]? = some ps → calls[i]? = some call → tr[i]? = some T →
    call.2 = T.matrix ∧ (∀ s ∈ call.1, CellDefined (1 / resolution) (moved T s.pt)) ∧ ∃ out, SerialSample leaf ps out ∧ FrameSource out maxD k call.1
  first : ∀ T, tr[0]? = some T → T = Pose.one
  next : ∀ (i : Nat) T T', tr[i]? = some T → tr[i + 1]? = some T' → ∃ steps : List (Fin 6 → ℝ), steps.length ≤ 20 ∧ T' = Props.posesAfter T steps
  still : ∀ (i : Nat) call T T' m, calls[i + 1]? = some call → tr[i]? = some T → tr[i + 1]? = some T' → Proofs.insertCalls c (VoxelMap.new resolution) (calls.take (i + 1)) = .ok m →
    (∀ s ∈ call.1, ∀ id x, Held pts m (moved T s.pt) id x → 1 < sqd x (moved T s.pt)) → T' = T
  stretch : ∀ (i : Nat) T, tr[i]? = some T → 20 * i ≤ 2 ^ 31 → StretchAtMost T.R (1 + 1e-34)

/-- After a trajectory for the frames before it, a sampled point of some frame has no `int` cell when moved by a pose within 20 steps of the last one. -/
def LeavesRange {V : Type} (c : Contents ℝ V) (pts : V → List (Pt ℝ)) (leaf resolution maxD : ℝ) (k : Nat) (ptss : List (List (Pt ℝ))) : Prop :=
  ∃ (i : Nat) (ps out : List (Pt ℝ)) (calls : List (List (SrcPt ℝ) × Mat4 ℝ)) (tr : List (Pose ℝ)) (steps : List (Fin 6 → ℝ)), ptss[i]? = some ps ∧ SerialSample leaf ps out ∧
    ModelTrajectory c pts leaf resolution maxD k (ptss.take i) calls tr ∧ steps.length ≤ 20 ∧ (i = 0 → steps = []) ∧
    ∃ p ∈ out, ¬ CellDefined (1 / resolution) (moved (Props.posesAfter (tr.getLast?.getD Pose.one) steps) p)

end Verif.Spec

namespace Verif.Props

open Matrix Verif Verif.Knn Verif.KdTree Verif.Proofs Verif.Proofs.RegMem Verif.Factors Verif.Reduction Verif.Optimizer Verif.PointCloud Verif.RegMem Verif.Spec Verif.Lie
open Verif.Pipeline Verif.Features Verif.Downsample Verif.Helper Verif.OdometryPipeline Verif.Odometry Verif.Voxel Verif.OdometryModel

/-! ### voxel maps -/

section Maps

variable {V : Type}

/-- **C65, bounded size.** A map never has more voxels than the points inserted by the last `horizon + cycle` calls. -/
theorem C65_bounded_size {K : Type} [Field K] [LinearOrder K] [IsStrictOrderedRing K] [FloorRing K] (c : Contents K V) (leaf : K) (horizon cycle : Nat) (offsets : List Coord) (hc : cycle ≠ 0)
    (calls : List (List (SrcPt K) × Mat4 K)) (hw : horizon + calls.length < 2 ^ 64) (hd : ∀ call ∈ calls, ∀ s ∈ call.1, CellDefined (1 / leaf) (mulPt call.2 s.pt)) :
    ∃ m, insertCalls c (userMap leaf horizon cycle offsets) calls = .ok m ∧
      m.flat.length ≤ ((calls.drop (calls.length - (horizon + cycle))).map (fun call => call.1.length)).sum := by
  obtain ⟨m, h1, h2⟩ := C12_eviction_closed_form c leaf horizon cycle offsets hc calls hw hd
  obtain ⟨m', h1', hI, _⟩ := insertCalls_ok c calls (userMap leaf horizon cycle offsets) (userMap_inv leaf horizon cycle hc offsets) (by simpa [userMap, VoxelMap.new] using hw) hd
  rw [h1] at h1'
  cases h1'
  refine ⟨m, h1, ?_⟩
  have hsub : coords m.flat ⊆ (calls.drop (calls.length - (horizon + cycle))).flatMap (fun call => call.1.map (fun s => cellOf (1 / leaf) (mulPt call.2 s.pt))) := by
    intro cell hcell
    obtain ⟨v, hv, rfl⟩ := List.mem_map.1 hcell
    obtain ⟨i, hi⟩ := List.getElem?_of_mem hv
    obtain ⟨⟨l, cell⟩, x⟩ := v
    obtain ⟨⟨call, k1, s, hs, k2⟩, _, k3⟩ := (h2 cell l).1 ⟨i, x, (hI.idx cell i).2 ⟨_, hi, rfl⟩, hi⟩
    have hl : l < calls.length := (List.getElem?_eq_some_iff.1 k1).1
    have hlast : calls.length < l + horizon + cycle := by
      by_contra hcon
      have hmod := Nat.mod_lt calls.length (Nat.pos_of_ne_zero hc)
      have hle := Nat.mod_le calls.length cycle
      have := k3 (calls.length - calls.length % cycle) (by omega) (by omega) (Nat.dvd_sub_mod _)
      omega
    refine List.mem_flatMap.2 ⟨call, ?_, List.mem_map.2 ⟨s, hs, k2⟩⟩
    refine List.mem_of_getElem? (i := l - (calls.length - (horizon + cycle))) ?_
    rw [List.getElem?_drop, ← k1]
    congr 1
    omega
  have hle := (hI.idx.nodup.subperm hsub).length_le
  rw [List.length_flatMap] at hle
  simpa [coords] using hle

theorem insertCalls_snoc {K : Type} [Field K] [LinearOrder K] [FloorRing K] (c : Contents K V) (call : List (SrcPt K) × Mat4 K) : ∀ (calls : List (List (SrcPt K) × Mat4 K)) (m : VoxelMap K V),
    insertCalls c m (calls ++ [call]) = (do let m ← insertCalls c m calls; Voxel.insert c m call.1 call.2)
  | [], m => by
    show (Voxel.insert c m call.1 call.2 >>= fun m => Except.ok m) = Voxel.insert c m call.1 call.2
    cases Voxel.insert c m call.1 call.2 <;> rfl
  | a :: calls, m => by
    simp only [List.cons_append, insertCalls]
    cases Voxel.insert c m a.1 a.2 with
    | error f => rfl
    | ok m' => exact insertCalls_snoc c call calls m'

theorem insertCalls_ops {K : Type} [Field K] [LinearOrder K] [FloorRing K] (c : Contents K V) : ∀ (calls : List (List (SrcPt K) × Mat4 K)) (m : VoxelMap K V),
    insertCalls c m calls = runOps c m (calls.map (fun call => .insert call.1 call.2))
  | [], m => rfl
  | a :: calls, m => by
    simp only [insertCalls, runOps, List.map_cons, applyOp]
    cases Voxel.insert c m a.1 a.2 with
    | error f => rfl
    | ok m' => exact insertCalls_ops c calls m'

theorem insert_undefined (c : Contents ℝ V) (m : VoxelMap ℝ V) (hI : Indexed m.table m.flat) (src : List (SrcPt ℝ)) (T : Mat4 ℝ)
    (h : ∃ s ∈ src, ¬ CellDefined m.invLeaf (mulPt T s.pt)) : Voxel.insert c m src T = .error .intOverflow := by
  unfold Voxel.insert
  rw [insertLoop_undefined c T src m hI h]
  rfl

theorem mulPt_matrix (T : Pose ℝ) (p : Pt ℝ) : mulPt T.matrix p = moved T p := by
  unfold moved Pose.apply toPt mulPt
  simp [Matrix.mulVec, dotProduct, Fin.sum_univ_four]

theorem one_matrix : (Pose.one : Pose ℝ).matrix = 1 := by
  ext i j
  fin_cases i <;> fin_cases j <;> simp [Pose.matrix, Pose.one, Matrix.one_apply]

theorem source_ok {out : List (Pt ℝ)} {maxD : ℝ} {k : Nat} {c : RCloud} (h : LocalCovs out maxD k c) : ∃ src, voxelSource c = .ok src ∧ FrameSource out maxD k src := by
  obtain ⟨_, c', h1, h2, h3⟩ := h
  have hsame : voxelSource c = voxelSource c' := by
    unfold voxelSource Cloud.size Cloud.point Cloud.cov
    rw [h2, h3]
  obtain ⟨src, k1, k2⟩ := voxelSource_ok h1
  refine ⟨src, hsame.trans k1, k2, c', h1, ?_⟩
  have hl : src.length = out.length := by rw [← k2, List.length_map]
  have hsz : c'.size = out.length := (features_points h1).2
  have hall : List.Forall₂ (fun i s => (do
      let p ← c'.point i
      let C ← c'.cov i
      return (⟨toPt p, ⟨0, 0, 0, 0⟩, C⟩ : SrcPt ℝ)) = .ok s) (List.range c'.size) src := by
    have : ∀ (f : Nat → Res (SrcPt ℝ)) (l : List Nat) (r : List (SrcPt ℝ)), l.mapM f = .ok r → List.Forall₂ (fun i s => f i = .ok s) l r := by
      intro f l
      induction l with
      | nil => intro r hr; cases hr; exact .nil
      | cons a l ih =>
        intro r hr
        rw [List.mapM_cons] at hr
        cases ha : f a with
        | error e => rw [ha] at hr; cases hr
        | ok b =>
          rw [ha, ok_bind] at hr
          cases hb : l.mapM f with
          | error e => rw [hb] at hr; cases hr
          | ok r' => rw [hb] at hr; cases hr; exact .cons ha (ih _ hb)
    exact this _ _ _ k1
  apply List.ext_getElem?
  intro i
  by_cases hi : i < out.length
  · have hf := (List.forall₂_iff_get.1 hall).2 i (by rw [List.length_range, hsz]; exact hi) (by omega)
    simp only [List.get_eq_getElem, List.getElem_range] at hf
    obtain ⟨_, n, C, _, _, hC, _⟩ := h1.2.2.2 i _ (List.getElem?_eq_getElem hi)
    rw [List.getElem?_map, List.getElem?_eq_getElem (by omega : i < src.length), hC]
    cases hp : c'.point i with
    | error e => rw [hp] at hf; cases hf
    | ok p =>
      simp only [hp, ok_bind, Cloud.cov, getSlot, rd, hC] at hf
      have := Except.ok.inj hf
      rw [← this]
      rfl
  · rw [List.getElem?_eq_none (by rw [h1.2.2.1]; omega), List.getElem?_eq_none (by rw [List.length_map]; omega)]

end Maps

/-! ### one registration to a map -/

section AlignMap

variable {V : Type} {e : Env} (he : EnvMeets e)

/-- The contents are searched as they should be, and covariances can be read. -/
structure KindOK (k : MapKind V) (pts : V → List (Pt ℝ)) : Prop where
  lawful : Lawful k.contents pts
  readable : ∀ (leaf : ℝ) (ops : List (MapOp ℝ)) (m : VoxelMap ℝ V), runOps k.contents (VoxelMap.new leaf) ops = .ok m → m.flat.length ≤ 2 ^ 32 → Readable pts k.attrs m ⟨false, true⟩

theorem gaussianKind_ok : KindOK gaussianKind (fun v => [v.mean]) where
  lawful := gaussian_lawful
  readable _ _ _ _ hs := ⟨hs, fun _ _ => by simp, fun h => (by cases h), fun _ v _ j _ => ⟨v.2.cov, rfl⟩⟩

theorem linearKind_ok : KindOK linearKind FlatVoxel.points where
  lawful := flat_lawful _
  readable leaf ops m hm hs := flat_readable covSetting (by norm_num [covSetting]) ⟨fun h => (by cases h), fun _ => rfl⟩ leaf ops m hm hs

include he in
/-- Registration of a preprocessed frame to a map. -/
theorem alignToMap_ok {k : MapKind V} {pts : V → List (Pt ℝ)} (hk : KindOK k pts) {resolution : ℝ} {ops : List (MapOp ℝ)} {m : VoxelMap ℝ V}
    (hm : runOps k.contents (VoxelMap.new resolution) ops = .ok m) (hsize : m.flat.length ≤ 2 ^ 32) (hinv : m.invLeaf = 1 / resolution) (hoff : m.offsets = [(0, 0, 0)])
    {out : List (Pt ℝ)} {nb : Nat} {c : RCloud} (hc : LocalCovs out e.maxD nb c) {x : FrameExec}
    (hx : ∀ T fs, fs.length = out.length → (x.lin T fs).Complete out.length ∧ (x.err T fs).Complete out.length) (gate : ℝ) (T0 : Pose ℝ) :
    (∃ T, alignToMap k e x gate m c T0 = .ok T ∧ (∃ steps : List (Fin 6 → ℝ), steps.length ≤ 20 ∧ T = posesAfter T0 steps) ∧
      ((∀ p ∈ out, ∀ i y, Held pts m (moved T0 p) i y → gate < sqd y (moved T0 p)) → T = T0)) ∨
    (alignToMap k e x gate m c T0 = .error .intOverflow ∧ ∃ steps : List (Fin 6 → ℝ), steps.length ≤ 20 ∧ ∃ p ∈ out, ¬ CellDefined (1 / resolution) (moved (posesAfter T0 steps) p)) := by
  classical
  obtain ⟨hP, hC, hpts, hsz⟩ := localCovs_regular hc
  have hget : ∀ (i : Nat) (p : Fin 4 → ℝ), c.points[i]? = some (some p) ↔ ∃ q, out[i]? = some q ∧ p = ![q.x, q.y, q.z, q.w] := by
    intro i p
    obtain ⟨_, c', h1, h2, _⟩ := hc
    rw [h2, h1.1, List.getElem?_map, Option.map_eq_some_iff]
    constructor
    · rintro ⟨q, hq, h⟩; exact ⟨q, hq, (Option.some.inj h).symm⟩
    · rintro ⟨q, hq, rfl⟩; exact ⟨q, hq, rfl⟩
  have hrange : ∀ q, QueryInRange m q ↔ CellDefined (1 / resolution) q := by
    intro q
    unfold QueryInRange
    rw [hinv, hoff]
    refine ⟨fun h => h.1, fun h => ⟨h, fun o ho => ?_⟩⟩
    rw [List.mem_singleton] at ho
    subst ho
    obtain ⟨h1, h2, h3, _⟩ := h
    simp only [shiftCell, add_zero]
    exact ⟨h1, h2, h3⟩
  have hI := (C11_index_consistent k.contents resolution ops m hm).1
  have hr := hk.readable resolution ops m hm hsize
  have hL : ∀ (T : Pose ℝ) (fs : List (GICP ℝ)), fs.length = c.size → (x.lin T fs).Complete c.size := fun T fs hl => by
    rw [hsz] at hl ⊢
    exact (hx T fs hl).1
  have hE : ∀ (T : Pose ℝ) (fs : List (GICP ℝ)), fs.length = c.size → (x.err T fs).Complete c.size := fun T fs hl => by
    rw [hsz] at hl ⊢
    exact (hx T fs hl).2
  have h := Ships.gicp (K := ℝ) e.inv
  obtain ⟨r, fs', log, hrun, hal, _⟩ := map_registration h hk.lawful k.attrs m hI hr c hP (fun _ => CovsRegular.set hC) e.maxD e.junk
    ⟨distanceRejector gate, nullFactor, e.solve, se3Exp, converged (1 / 10 * Real.pi / 180) (1 / 1000)⟩ x.lin x.err hL hE (.lm ⟨20, 10, 1 / 1000, 10⟩) T0
  obtain ⟨hvis, _⟩ := run_poses _ _ _ _ _ _ _ _ _ _ hrun
  obtain ⟨L, hends, _⟩ := run_ends _ _ _ _ _ _ _ _ _ _ hrun
  unfold alignToMap
  simp only [Registration.default]
  rw [hal]
  by_cases hall : ∀ it ∈ log, ∀ (i : Nat) (p : Fin 4 → ℝ), c.points[i]? = some (some p) → QueryInRange m (toPt (it.T0.apply p))
  · left
    rw [if_pos hall]
    refine ⟨r.T, rfl, endsAt_steps hends, fun hfar => ?_⟩
    obtain ⟨r', fs'', log', h1, h2, _⟩ := (C46_no_correspondence h.shipped (scene (mapWorld k.contents k.attrs e.maxD m c e.junk)) (fun q i d hq => by
        have hq : okOr none ((mapWorld k.contents k.attrs e.maxD m c e.junk).nn q) = some (i, d) := hq
        obtain ⟨n1, n2⟩ := mapNearest_spec hk.lawful k.attrs m hI hr.fit e.maxD c e.junk q
        by_cases hin : QueryInRange m (toPt q)
        · obtain ⟨o, ho, _, h3⟩ := n2 hin
          rw [ho] at hq
          obtain ⟨_, y, hy, _⟩ := h3 i d hq
          exact held_id hr hy
        · rw [n1 hin] at hq
          cases hq) (distanceRejector gate)
      nullFactor .null e.solve he.solve (1 / 10 * Real.pi / 180) (1 / 1000) T0 c.size (fun i hi => by
        rw [hsz] at hi
        have hg := (hget i _).2 ⟨_, List.getElem?_eq_getElem hi, rfl⟩
        have hsp : (scene (mapWorld k.contents k.attrs e.maxD m c e.junk)).srcPoint i = ![out[i].x, out[i].y, out[i].z, out[i].w] := by
          simp only [scene, mapWorld, Cloud.point, getSlot, rd, hg]
          rfl
        unfold correspondence
        rw [hsp]
        obtain ⟨n1, n2⟩ := mapNearest_spec hk.lawful k.attrs m hI hr.fit e.maxD c e.junk (T0.apply ![out[i].x, out[i].y, out[i].z, out[i].w])
        by_cases hin : QueryInRange m (toPt (T0.apply ![out[i].x, out[i].y, out[i].z, out[i].w]))
        · obtain ⟨o, ho, _, h3⟩ := n2 hin
          have hnn : (scene (mapWorld k.contents k.attrs e.maxD m c e.junk)).nn (T0.apply ![out[i].x, out[i].y, out[i].z, out[i].w]) = o := by
            show okOr none ((mapWorld k.contents k.attrs e.maxD m c e.junk).nn _) = o
            rw [ho]
            rfl
          rw [hnn]
          match o, h3 with
          | none, _ => rfl
          | some (j, d), h3 =>
            obtain ⟨_, y, hy, hd, _⟩ := h3 j d rfl
            have := hfar _ (List.getElem_mem hi) j y hy
            simp only [distanceRejector]
            rw [hd]
            have hg : gate < sqd y (toPt (T0.apply ![out[i].x, out[i].y, out[i].z, out[i].w])) := this
            simp [hg]
        · have hnn : (scene (mapWorld k.contents k.attrs e.maxD m c e.junk)).nn (T0.apply ![out[i].x, out[i].y, out[i].z, out[i].w]) = none := by
            show okOr none ((mapWorld k.contents k.attrs e.maxD m c e.junk).nn _) = none
            rw [n1 hin]
            rfl
          rw [hnn])).1 ⟨20, 10, 1 / 1000, 10⟩ (by norm_num) (by norm_num) (by norm_num)
    have hrun : alignLM _ _ _ _ _ = _ := hrun
    rw [h1] at hrun
    cases hrun
    exact h2
  · right
    rw [if_neg hall]
    refine ⟨rfl, ?_⟩
    push Not at hall
    obtain ⟨it, hit, i, p, hp, hq⟩ := hall
    obtain ⟨q, hq1, rfl⟩ := (hget i p).1 hp
    obtain ⟨steps, hs, hT⟩ := hvis it hit
    refine ⟨steps, by have hs : steps.length < (20 : Int).toNat := hs; omega, q, List.mem_of_getElem? hq1, fun hd => hq ((hrange _).2 ?_)⟩
    rw [hT]
    exact hd

end AlignMap

/-! ### trajectories -/

section Model

theorem snoc_get {α : Type} {l : List α} {x y : α} {i : Nat} : (l ++ [x])[i]? = some y ↔ l[i]? = some y ∨ (i = l.length ∧ x = y) := by
  rcases lt_trichotomy i l.length with h | h | h
  · rw [List.getElem?_append_left h]
    exact ⟨Or.inl, fun h' => h'.resolve_right (fun h'' => by omega)⟩
  · subst h
    simp
  · rw [List.getElem?_eq_none (by simp; omega), List.getElem?_eq_none (by omega)]
    simp
    omega

theorem walk_snoc {K S C D : Type} (sample : C → Res D) (step : S → D → Res (S × Pose K)) (c : C) : ∀ (l : List (Option C)) (s : S),
    walk sample step s (l ++ [some c]) = (do
      let w ← walk sample step s l
      let d ← sample c
      let q ← step w.1 d
      .ok (q.1, w.2 ++ [q.2]))
  | [], s => by
    simp only [List.nil_append, walk, ok_bind]
  | none :: l, s => rfl
  | some a :: l, s => by
    simp only [List.cons_append, walk]
    cases sample a with
    | error f => rfl
    | ok d =>
      simp only [ok_bind]
      cases step s d with
      | error f => rfl
      | ok q =>
        simp only [ok_bind]
        rw [walk_snoc sample step c l q.1]
        cases walk sample step q.1 l with
        | error f => rfl
        | ok w =>
          simp only [ok_bind]
          cases sample c with
          | error f => rfl
          | ok d' =>
            simp only [ok_bind]
            cases step w.1 d' <;> rfl

variable {V : Type} {e : Env} (he : EnvMeets e) {o : Params} (hleaf : o.downsamplingResolution ≠ 0) (hnb : 1 ≤ o.numNeighbors) (hres : o.voxelResolution ≠ 0)
variable {k : MapKind V} {pts : V → List (Pt ℝ)} (hk : KindOK k pts)

/-- The state after the insertions `calls` with poses `tr`. -/
def ModelState (k : MapKind V) (o : Params) (calls : List (List (SrcPt ℝ) × Mat4 ℝ)) (tr : List (Pose ℝ)) (s : ScanToModel V) : Prop :=
  s.T = tr.getLast?.getD Pose.one ∧ (calls = [] → s.map = none) ∧ (calls ≠ [] → ∃ m, s.map = some m ∧ insertCalls k.contents (VoxelMap.new o.voxelResolution) calls = .ok m ∧
    m.flat.length ≤ ((calls.drop (calls.length - 110)).map (fun call => call.1.length)).sum)

/-- The map after some insertions in range. -/
theorem map_after (c : Contents ℝ V) (resolution : ℝ) (calls : List (List (SrcPt ℝ) × Mat4 ℝ)) (hn : calls.length < 2 ^ 63)
    (hd : ∀ call ∈ calls, ∀ s ∈ call.1, CellDefined (1 / resolution) (mulPt call.2 s.pt)) :
    ∃ m, insertCalls c (VoxelMap.new resolution) calls = .ok m ∧ MapInv m ∧ m.invLeaf = 1 / resolution ∧ m.offsets = [(0, 0, 0)] ∧
      m.lruCounter = calls.length ∧ m.lruHorizon = 100 ∧ m.flat.length ≤ ((calls.drop (calls.length - 110)).map (fun call => call.1.length)).sum := by
  have hnew : (VoxelMap.new resolution : VoxelMap ℝ V) = userMap resolution 100 10 [(0, 0, 0)] := rfl
  obtain ⟨m, h1, h2⟩ := C65_bounded_size c resolution 100 10 [(0, 0, 0)] (by norm_num) calls (by omega) hd
  obtain ⟨m', h1', g1, g2, g3, _, g5, g6, _⟩ := insertCalls_ok c calls (userMap resolution 100 10 [(0, 0, 0)]) (userMap_inv resolution 100 10 (by norm_num) [(0, 0, 0)])
    (by simp [userMap, VoxelMap.new]; omega) hd
  rw [h1] at h1'
  cases h1'
  refine ⟨m, by rw [hnew]; exact h1, g1, g2, g5, ?_, g3, h2⟩
  rw [g6]
  simp [userMap, VoxelMap.new]

theorem window_sum (calls : List (List (SrcPt ℝ) × Mat4 ℝ)) (h : ∀ call ∈ calls, call.1.length ≤ 2 ^ 25) :
    ((calls.drop (calls.length - 110)).map (fun call => call.1.length)).sum ≤ 2 ^ 32 := by
  have h1 := List.sum_le_card_nsmul ((calls.drop (calls.length - 110)).map (fun call => call.1.length)) (2 ^ 25) (by
    intro n hn
    obtain ⟨call, hc, rfl⟩ := List.mem_map.1 hn
    exact h call (List.mem_of_mem_drop hc))
  rw [List.length_map, List.length_drop, smul_eq_mul] at h1
  have : calls.length - (calls.length - 110) ≤ 110 := by omega
  calc _ ≤ _ := h1
    _ ≤ 110 * 2 ^ 25 := Nat.mul_le_mul_right _ this
    _ ≤ 2 ^ 32 := by norm_num

include he hleaf hnb hres hk in
/-- One frame. -/
theorem model_frame {ptss : List (List (Pt ℝ))} {calls : List (List (SrcPt ℝ) × Mat4 ℝ)} {tr : List (Pose ℝ)}
    (htr : ModelTrajectory k.contents pts o.downsamplingResolution o.voxelResolution e.maxD o.numNeighbors.toNat ptss calls tr) (hn : ptss.length < 2 ^ 62)
    (hsz : ∀ call ∈ calls, call.1.length ≤ 2 ^ 25) {s : ScanToModel V} (hs : ModelState k o calls tr s)
    {f : Frame} {ps : List (Pt ℝ)} (hf : CloudOf o.downsamplingResolution f.cloud ps) (hps : ps.length ≤ 2 ^ 25)
    (hx : ∀ out, voxelgridSampling e.sort ps o.downsamplingResolution = .ok out → FrameRuns e { f.exec with tree := .sequential } out) :
    (∃ call T s', (sampleFrame e o f >>= modelStep k e o s) = .ok (s', T) ∧
      ModelTrajectory k.contents pts o.downsamplingResolution o.voxelResolution e.maxD o.numNeighbors.toNat (ptss ++ [ps]) (calls ++ [call]) (tr ++ [T]) ∧
      call.1.length ≤ 2 ^ 25 ∧ ModelState k o (calls ++ [call]) (tr ++ [T]) s' ∧
      ∃ out c, voxelgridSampling e.sort ps o.downsamplingResolution = .ok out ∧ SerialSample o.downsamplingResolution ps out ∧ LocalCovs out e.maxD o.numNeighbors.toNat c ∧ voxelSource c = .ok call.1 ∧
        (calls ≠ [] → ∃ m, insertCalls k.contents (VoxelMap.new o.voxelResolution) calls = .ok m ∧ m.flat.length ≤ 2 ^ 32 ∧ alignToMap k e f.exec 1 m c s.T = .ok T)) ∨
    ((sampleFrame e o f >>= modelStep k e o s) = .error .intOverflow ∧ ∃ out steps, SerialSample o.downsamplingResolution ps out ∧ steps.length ≤ 20 ∧ (ptss.length = 0 → steps = []) ∧
      ∃ p ∈ out, ¬ CellDefined (1 / o.voxelResolution) (moved (posesAfter (tr.getLast?.getD Pose.one) steps) p)) := by
  -- preprocessing
  obtain ⟨out, p, s1, s2, _, s4, s5⟩ := prepare_ok he hleaf hnb (f := ⟨{ f.exec with tree := .sequential }, f.cloud⟩) hf hx
  obtain ⟨out', t1, _, t3, _⟩ := serial_sample he hf.2.1 hleaf hf.2.2.2
  rw [s1] at t1
  cases t1
  obtain ⟨c1, _, _, _, c5⟩ := s5
  obtain ⟨src, d1, d2⟩ := source_ok c1
  have hsample : ∀ x, sampleFrame e o ⟨x, f.cloud⟩ = .ok ⟨x, sampledCloud out⟩ := by
    intro x
    unfold sampleFrame
    rw [cloudPoints_of f.cloud ps hf.1, ok_bind, s1, ok_bind]
    rfl
  have hown : ownCovariances e o ⟨f.exec, sampledCloud out⟩ = .ok p.cloud := by
    unfold sampleThenPrep at s4
    rw [hsample, ok_bind] at s4
    unfold ownCovariances
    rw [s4]
    rfl
  have hpre : (sampleFrame e o f >>= modelStep k e o s) = modelStep k e o s ⟨f.exec, sampledCloud out⟩ := by
    rw [show f = ⟨f.exec, f.cloud⟩ from rfl, hsample]
    rfl
  rw [hpre]
  unfold modelStep
  rw [hown, ok_bind]
  have hmem : ∀ x ∈ src, x.pt ∈ out := fun x hx => d2.1 ▸ List.mem_map_of_mem hx
  have hmem' : ∀ y ∈ out, ∃ x ∈ src, x.pt = y := fun y hy => List.mem_map.1 (d2.1 ▸ hy)
  have hlen : src.length ≤ 2 ^ 25 := by
    have : src.length = out.length := by rw [← d2.1, List.length_map]
    omega
  obtain ⟨l1, l2⟩ := And.intro htr.poses htr.insertions
  have hlast : ∀ i T, tr[i]? = some T → i + 1 = tr.length → tr.getLast?.getD Pose.one = T := by
    intro i T hT hi
    rw [List.getLast?_eq_getElem?, show tr.length - 1 = i by omega, hT]
    rfl
  have hdef : ∀ call ∈ calls, ∀ s ∈ call.1, CellDefined (1 / o.voxelResolution) (mulPt call.2 s.pt) := by
    intro call hcall s hs
    obtain ⟨i, hi⟩ := List.getElem?_of_mem hcall
    have hil := (List.getElem?_eq_some_iff.1 hi).1
    obtain ⟨a1, a2, _⟩ := htr.inserted i _ call _ (List.getElem?_eq_getElem (by omega)) hi (List.getElem?_eq_getElem (by omega))
    rw [a1, mulPt_matrix]
    exact a2 s hs
  -- the new trajectory
  have hext : ∀ T : Pose ℝ, (∀ s ∈ src, CellDefined (1 / o.voxelResolution) (moved T s.pt)) → (tr = [] → T = Pose.one) →
      (∀ T', tr.getLast? = some T' → (∃ steps : List (Fin 6 → ℝ), steps.length ≤ 20 ∧ T = posesAfter T' steps) ∧
        ∀ m, insertCalls k.contents (VoxelMap.new o.voxelResolution) calls = .ok m → (∀ s ∈ src, ∀ id x, Held pts m (moved T' s.pt) id x → 1 < sqd x (moved T' s.pt)) → T = T') →
      ModelTrajectory k.contents pts o.downsamplingResolution o.voxelResolution e.maxD o.numNeighbors.toNat (ptss ++ [ps]) (calls ++ [(src, T.matrix)]) (tr ++ [T]) := by
    intro T hT h0 hnext
    have hfirst : ∀ T', (tr ++ [T])[0]? = some T' → T' = Pose.one := by
      intro T' h
      rcases snoc_get.1 h with h | ⟨h', rfl⟩
      · exact htr.first T' h
      · exact h0 (List.length_eq_zero_iff.1 h'.symm)
    have hlastget : ∀ i T', tr[i]? = some T' → i + 1 = tr.length → tr.getLast? = some T' := by
      intro i T' h hi
      rw [List.getLast?_eq_getElem?, show tr.length - 1 = i by omega, h]
    have hn' : ∀ (i : Nat) T1 T2, (tr ++ [T])[i]? = some T1 → (tr ++ [T])[i + 1]? = some T2 → ∃ steps : List (Fin 6 → ℝ), steps.length ≤ 20 ∧ T2 = posesAfter T1 steps := by
      intro i T1 T2 h1 h2
      rcases snoc_get.1 h2 with h2 | ⟨hi, rfl⟩
      · have := (List.getElem?_eq_some_iff.1 h2).1
        rcases snoc_get.1 h1 with h1 | ⟨hi', rfl⟩
        · exact htr.next i T1 T2 h1 h2
        · omega
      · rcases snoc_get.1 h1 with h1 | ⟨hi', rfl⟩
        · exact (hnext T1 (hlastget i T1 h1 hi)).1
        · omega
    refine ⟨by simp [l1], by simp [l2], ?_, hfirst, hn', ?_, ?_⟩
    · intro i ps' call T' h1 h2 h3
      rcases snoc_get.1 h1 with h1 | ⟨hi, rfl⟩
      · have hi := (List.getElem?_eq_some_iff.1 h1).1
        rcases snoc_get.1 h2 with h2 | ⟨h2, _⟩
        · rcases snoc_get.1 h3 with h3 | ⟨h3, _⟩
          · exact htr.inserted i ps' call T' h1 h2 h3
          · omega
        · omega
      · rcases snoc_get.1 h2 with h2 | ⟨_, rfl⟩
        · have := (List.getElem?_eq_some_iff.1 h2).1
          omega
        · rcases snoc_get.1 h3 with h3 | ⟨_, rfl⟩
          · have := (List.getElem?_eq_some_iff.1 h3).1
            omega
          · exact ⟨rfl, hT, out, s2, d2⟩
    · intro i call T1 T2 m h1 h2 h3 hm hfar
      rcases snoc_get.1 h3 with h3 | ⟨hi, rfl⟩
      · have hi := (List.getElem?_eq_some_iff.1 h3).1
        rcases snoc_get.1 h2 with h2 | ⟨h2, _⟩
        · rcases snoc_get.1 h1 with h1 | ⟨h1, _⟩
          · refine htr.still i call T1 T2 m h1 h2 h3 ?_ hfar
            rwa [List.take_append_of_le_length (by omega)] at hm
          · omega
        · omega
      · rcases snoc_get.1 h2 with h2 | ⟨h2, _⟩
        · rcases snoc_get.1 h1 with h1 | ⟨_, rfl⟩
          · have := (List.getElem?_eq_some_iff.1 h1).1
            omega
          · refine (hnext T1 (hlastget i T1 h2 hi)).2 m ?_ hfar
            rwa [List.take_append_of_le_length (by omega), List.take_of_length_le (by omega)] at hm
        · omega
    · have hall : ∀ (i : Nat) T', (tr ++ [T])[i]? = some T' → ∃ steps : List (Fin 6 → ℝ), steps.length ≤ 20 * i ∧ T' = posesAfter Pose.one steps := by
        intro i
        induction i with
        | zero => exact fun T hT => ⟨[], by simp, hfirst T hT⟩
        | succ i ih =>
          intro T' hT'
          have hi := (List.getElem?_eq_some_iff.1 hT').1
          have e1 : (tr ++ [T])[i]? = some (tr ++ [T])[i] := List.getElem?_eq_getElem (by omega)
          obtain ⟨s1, hl1, hs1⟩ := ih _ e1
          obtain ⟨s2, hl2, hs2⟩ := hn' i _ T' e1 hT'
          refine ⟨s1 ++ s2, by simp; omega, ?_⟩
          rw [posesAfter_append, ← hs1, hs2]
      intro i T' hT' hi
      obtain ⟨steps, hl, rfl⟩ := hall i T' hT'
      exact C41_drift_bound Pose.one ⟨by simp [Pose.one], by simp [Pose.one]⟩ steps (by omega)
  -- the new state
  have hstate : ∀ (T : Pose ℝ) m, (∀ s ∈ src, CellDefined (1 / o.voxelResolution) (moved T s.pt)) →
      insertCalls k.contents (VoxelMap.new o.voxelResolution) (calls ++ [(src, T.matrix)]) = .ok m → ModelState k o (calls ++ [(src, T.matrix)]) (tr ++ [T]) ⟨some m, T⟩ := by
    intro T m hT hm
    obtain ⟨m', g1, _, _, _, _, _, g6⟩ := map_after k.contents o.voxelResolution (calls ++ [(src, T.matrix)]) (by simp; omega) (by
      intro call hcall s hs
      rcases List.mem_append.1 hcall with hcall | hcall
      · exact hdef call hcall s hs
      · rw [List.mem_singleton] at hcall
        subst hcall
        rw [mulPt_matrix]
        exact hT s hs)
    rw [hm] at g1
    cases g1
    exact ⟨by simp, by simp, fun _ => ⟨m, rfl, hm, g6⟩⟩
  obtain ⟨z1, z2, z3⟩ := hs
  by_cases hempty : calls = []
  · have htrnil : tr = [] := List.length_eq_zero_iff.1 (by rw [l1, ← l2, hempty]; rfl)
    have hT : s.T = Pose.one := by rw [z1, htrnil]; rfl
    rw [z2 hempty]
    simp only [newMap, d1, ok_bind, if_neg (fun h : o.voxelResolution = 0 ∧ src ≠ [] => hres h.1)]
    obtain ⟨m0, g1, g2, g3, _, g4, g5, _⟩ := map_after k.contents o.voxelResolution [] (by simp) (by simp)
    cases g1
    by_cases hall : ∀ x ∈ src, CellDefined (1 / o.voxelResolution) (moved Pose.one x.pt)
    · left
      have hall' : ∀ x ∈ src, CellDefined (VoxelMap.new o.voxelResolution : VoxelMap ℝ V).invLeaf (mulPt (1 : Mat4 ℝ) x.pt) := by
        intro x hx
        rw [← one_matrix, mulPt_matrix]
        exact hall x hx
      obtain ⟨m, h1, _⟩ := insert_ok k.contents (VoxelMap.new o.voxelResolution) g2 src 1 (by rw [g4, g5]; norm_num) hall'
      refine ⟨(src, (Pose.one : Pose ℝ).matrix), Pose.one, ⟨some m, Pose.one⟩, ?_, hext Pose.one hall (fun _ => rfl) (by rw [htrnil]; intro T' h; cases h), hlen, hstate _ m hall ?_,
        out, p.cloud, s1, s2, c1, d1, fun h => absurd hempty h⟩
      · rw [h1, hT]
        rfl
      · rw [insertCalls_snoc, hempty, one_matrix]
        exact h1
    · right
      push Not at hall
      obtain ⟨x, hx, hbad⟩ := hall
      refine ⟨?_, out, [], s2, by simp, fun _ => rfl, x.pt, hmem x hx, ?_⟩
      · rw [insert_undefined k.contents _ g2.idx src 1 ⟨x, hx, by rw [← one_matrix, mulPt_matrix]; exact hbad⟩]
        rfl
      · rw [htrnil]
        exact hbad
  · obtain ⟨m, e1, e2, e3⟩ := z3 hempty
    rw [e1]
    obtain ⟨m', g1, g2, g3, g4, g5, g6, _⟩ := map_after k.contents o.voxelResolution calls (by omega) hdef
    rw [e2] at g1
    cases g1
    have hlne : ptss.length ≠ 0 := fun h => hempty (List.length_eq_zero_iff.1 (by omega))
    have hTl : ∀ T', tr.getLast? = some T' → s.T = T' := by
      intro T' h
      rw [z1, h]
      rfl
    rcases alignToMap_ok he hk (ops := calls.map (fun call => .insert call.1 call.2)) (m := m) (by rw [← insertCalls_ops]; exact e2) (e3.trans (window_sum calls hsz)) g3 g4 c1 (x := f.exec)
        (hx out s1).2.2 1 s.T with ⟨T, a1, a2, a3⟩ | ⟨a1, steps, a2, a3⟩
    · have ha : alignToMap k e f.exec (Helper.Registration.default .gicp).maxDistSq m p.cloud s.T = .ok T := a1
      simp only [ha, ok_bind, d1]
      by_cases hall : ∀ x ∈ src, CellDefined (1 / o.voxelResolution) (moved T x.pt)
      · left
        obtain ⟨m', h1, _⟩ := insert_ok k.contents m g2 src T.matrix (by rw [g5, g6]; omega) (fun x hx => by rw [mulPt_matrix, g3]; exact hall x hx)
        refine ⟨(src, T.matrix), T, ⟨some m', T⟩, ?_, hext T hall (fun h => absurd (by rw [← l1, h]; rfl) hlne) ?_, hlen, hstate T m' hall ?_, out, p.cloud, s1, s2, c1, d1,
          fun _ => ⟨m, e2, e3.trans (window_sum calls hsz), a1⟩⟩
        · rw [h1]
          rfl
        · intro T' hT'
          have := hTl T' hT'
          subst this
          refine ⟨a2, fun m' hm' hfar => a3 ?_⟩
          rw [e2] at hm'
          cases hm'
          intro y hy i z hz
          obtain ⟨x, hx, rfl⟩ := hmem' y hy
          exact hfar x hx i z hz
        · rw [insertCalls_snoc, e2]
          exact h1
      · right
        push Not at hall
        obtain ⟨x, hx, hbad⟩ := hall
        obtain ⟨steps, b1, rfl⟩ := a2
        refine ⟨?_, out, steps, s2, b1, fun h => absurd h hlne, x.pt, hmem x hx, by rw [← z1]; exact hbad⟩
        rw [insert_undefined k.contents _ g2.idx src _ ⟨x, hx, by rw [mulPt_matrix, g3]; exact hbad⟩]
        rfl
    · right
      have ha : alignToMap k e f.exec (Helper.Registration.default .gicp).maxDistSq m p.cloud s.T = .error .intOverflow := a1
      simp only [ha]
      exact ⟨rfl, out, steps, s2, a2, fun h => absurd h hlne, by rw [← z1]; exact a3⟩

/-- How the frames of a trajectory were treated: covariances of the sampled points, registration to the map of the insertions before. -/
def ModelSteps (k : MapKind V) (e : Env) (o : Params) (frames : List Frame) (ptss : List (List (Pt ℝ))) (calls : List (List (SrcPt ℝ) × Mat4 ℝ)) (tr : List (Pose ℝ)) : Prop :=
  ∀ (i : Nat) call, calls[i]? = some call → ∃ f ps out c, frames[i]? = some f ∧ ptss[i]? = some ps ∧ voxelgridSampling e.sort ps o.downsamplingResolution = .ok out ∧
    SerialSample o.downsamplingResolution ps out ∧ LocalCovs out e.maxD o.numNeighbors.toNat c ∧ voxelSource c = .ok call.1 ∧
    ∀ j T T', i = j + 1 → tr[j]? = some T → tr[i]? = some T' →
      ∃ m, insertCalls k.contents (VoxelMap.new o.voxelResolution) (calls.take i) = .ok m ∧ m.flat.length ≤ 2 ^ 32 ∧ alignToMap k e f.exec 1 m c T = .ok T'

include he hleaf hnb hres hk in
/-- The loop over the frames. -/
theorem model_walk : ∀ (n : Nat) (frames : List Frame) (ptss : List (List (Pt ℝ))), frames.length = n → frames.length = ptss.length → frames.length < 2 ^ 62 →
    (∀ (i : Nat) f ps, frames[i]? = some f → ptss[i]? = some ps → CloudOf o.downsamplingResolution f.cloud ps ∧ ps.length ≤ 2 ^ 25 ∧
      ∀ out, voxelgridSampling e.sort ps o.downsamplingResolution = .ok out → FrameRuns e { f.exec with tree := .sequential } out) →
    (∃ s calls tr, walk (sampleFrame e o) (modelStep k e o) .init (frames.map some) = .ok (s, tr) ∧
      ModelTrajectory k.contents pts o.downsamplingResolution o.voxelResolution e.maxD o.numNeighbors.toNat ptss calls tr ∧ (∀ call ∈ calls, call.1.length ≤ 2 ^ 25) ∧
      ModelState k o calls tr s ∧ ModelSteps k e o frames ptss calls tr) ∨
    (walk (sampleFrame e o) (modelStep k e o) .init (frames.map some) = .error .intOverflow ∧
      LeavesRange k.contents pts o.downsamplingResolution o.voxelResolution e.maxD o.numNeighbors.toNat ptss) := by
  intro n
  induction n with
  | zero =>
    intro frames ptss h0 hl _ _
    have hf := List.length_eq_zero_iff.1 h0
    have hp : ptss = [] := List.length_eq_zero_iff.1 (by omega)
    subst hf
    subst hp
    exact Or.inl ⟨.init, [], [], rfl, ⟨rfl, rfl, by simp, by simp, by simp, by simp, by simp⟩, by simp, ⟨rfl, fun _ => rfl, fun h => absurd rfl h⟩, fun i call h => by cases h⟩
  | succ n ih =>
    intro frames ptss h0 hl hn hcl
    obtain ⟨fs, f, rfl⟩ : ∃ fs f, frames = fs ++ [f] := ⟨frames.dropLast, frames.getLast (by intro h; subst h; simp at h0), (List.dropLast_append_getLast _).symm⟩
    obtain ⟨pss, ps, rfl⟩ : ∃ pss ps, ptss = pss ++ [ps] := ⟨ptss.dropLast, ptss.getLast (by intro h; subst h; simp at hl), (List.dropLast_append_getLast _).symm⟩
    simp only [List.length_append, List.length_singleton] at h0 hl hn
    rw [List.map_append, List.map_singleton, walk_snoc]
    have htake : (pss ++ [ps]).take pss.length = pss := by simp
    rcases ih fs pss (by omega) (by omega) (by omega) (fun i f' ps' h1 h2 => hcl i f' ps' (snoc_get.2 (Or.inl h1)) (snoc_get.2 (Or.inl h2))) with
      ⟨s, calls, tr, w1, w2, w3, w4, w5⟩ | ⟨w1, i, ps', out, calls, tr, steps, w2, w3, w4, w5⟩
    · obtain ⟨c1, c2, c3⟩ := hcl fs.length f ps (snoc_get.2 (Or.inr ⟨rfl, rfl⟩)) (snoc_get.2 (Or.inr ⟨by omega, rfl⟩))
      rw [w1, ok_bind]
      rcases model_frame he hleaf hnb hres hk w2 (by omega) w3 w4 c1 c2 c3 with ⟨call, T, s', a1, a2, a3, a4, out, c, q1, q0, q2, q3, q4⟩ | ⟨a1, out, steps, a2, a3, a4, a5⟩
      · left
        refine ⟨s', calls ++ [call], tr ++ [T], ?_, a2, ?_, a4, ?_⟩
        · cases hs : sampleFrame e o f with
          | error x => rw [hs] at a1; cases a1
          | ok d =>
            rw [hs, ok_bind] at a1
            simp only [ok_bind, a1]
        · intro c hc
          rcases List.mem_append.1 hc with hc | hc
          · exact w3 c hc
          · rw [List.mem_singleton] at hc
            subst hc
            exact a3
        · have l1 := w2.poses
          have l2 := w2.insertions
          intro i call' hi
          rcases snoc_get.1 hi with hi | ⟨rfl, rfl⟩
          · have hlt := (List.getElem?_eq_some_iff.1 hi).1
            obtain ⟨f', ps', out', c', x1, x2, x3, x0, x4, x5, x6⟩ := w5 i call' hi
            refine ⟨f', ps', out', c', snoc_get.2 (Or.inl x1), snoc_get.2 (Or.inl x2), x3, x0, x4, x5, fun j T1 T2 hj h1 h2 => ?_⟩
            rw [List.take_append_of_le_length (by omega)]
            refine x6 j T1 T2 hj ?_ ?_
            · exact (snoc_get.1 h1).resolve_right (fun h => by omega)
            · exact (snoc_get.1 h2).resolve_right (fun h => by omega)
          · refine ⟨f, ps, out, c, snoc_get.2 (Or.inr ⟨by omega, rfl⟩), snoc_get.2 (Or.inr ⟨by omega, rfl⟩), q1, q0, q2, q3, fun j T1 T2 hj h1 h2 => ?_⟩
            obtain ⟨m, m1, m2, m3⟩ := q4 (fun h => by subst h; simp at hj)
            rw [List.take_append_of_le_length le_rfl, List.take_length]
            refine ⟨m, m1, m2, ?_⟩
            have hT1 : s.T = T1 := by
              have h1 := (snoc_get.1 h1).resolve_right (fun h => by omega)
              rw [w4.1, List.getLast?_eq_getElem?, show tr.length - 1 = j by omega, h1]
              rfl
            have hT2 : T = T2 := ((snoc_get.1 h2).resolve_left (fun h => by have := (List.getElem?_eq_some_iff.1 h).1; omega)).2
            rw [← hT1, ← hT2]
            exact m3
      · right
        refine ⟨?_, pss.length, ps, out, calls, tr, steps, snoc_get.2 (Or.inr ⟨rfl, rfl⟩), a2, by rw [htake]; exact w2, a3, a4, a5⟩
        cases hs : sampleFrame e o f with
        | error x => rw [hs] at a1; cases a1; rfl
        | ok d =>
          rw [hs, ok_bind] at a1
          simp only [ok_bind, a1]
          rfl
    · right
      rw [w1]
      have := (List.getElem?_eq_some_iff.1 w2).1
      exact ⟨rfl, i, ps', out, calls, tr, steps, snoc_get.2 (Or.inl w2), w3, by rw [List.take_append_of_le_length (by omega)]; exact w4, w5⟩

variable {frames : List Frame} {ptss : List (List (Pt ℝ))}

include he hleaf hnb hres hk in
/-- **C65.** The engines that register each frame to a voxel map of the earlier ones (`small_gicp_model_omp`, `small_gicp_model_tbb`, `small_vgicp_model_omp`, `small_vgicp_model_tbb`), on
frames given as points, with any executions of the parallel parts. The estimation returns one pose for each frame and a map which is the result of inserting the sampled points of all frames with
their poses (so that C12, C17, C18 and C64 apply to it), with no more voxels than points in the last 110 frames; all pointers of the input are null afterwards. The only fault is an
overflow of a cell coordinate: then a pose within 20 optimiser steps of the last one moves a sampled point to where there are no cells. A frame without points is no fault here. -/
theorem C65_model_odometry (hlen : frames.length = ptss.length) (hn : frames.length < 2 ^ 62)
    (hcl : ∀ (i : Nat) f ps, frames[i]? = some f → ptss[i]? = some ps → CloudOf o.downsamplingResolution f.cloud ps ∧ ps.length ≤ 2 ^ 25 ∧
      ∀ out, voxelgridSampling e.sort ps o.downsamplingResolution = .ok out → FrameRuns e { f.exec with tree := .sequential } out) :
    (∃ s calls tr, modelOnline k e o .init (frames.map some) = .ok (s, List.replicate frames.length none, tr) ∧
      ModelTrajectory k.contents pts o.downsamplingResolution o.voxelResolution e.maxD o.numNeighbors.toNat ptss calls tr ∧
      s.T = tr.getLast?.getD Pose.one ∧ (frames = [] → s.map = none) ∧
      (frames ≠ [] → ∃ m, s.map = some m ∧ insertCalls k.contents (VoxelMap.new o.voxelResolution) calls = .ok m ∧
        m.flat.length ≤ ((calls.drop (calls.length - 110)).map (fun call => call.1.length)).sum)) ∨
    (modelOnline k e o .init (frames.map some) = .error .intOverflow ∧
      LeavesRange k.contents pts o.downsamplingResolution o.voxelResolution e.maxD o.numNeighbors.toNat ptss) := by
  unfold modelOnline
  rw [online_walk]
  rcases model_walk he hleaf hnb hres hk _ frames ptss rfl hlen hn hcl with ⟨s, calls, tr, w1, w2, _, ⟨w4, w5, w6⟩, _⟩ | ⟨w1, w2⟩
  · left
    rw [w1]
    have hiff : calls = [] ↔ frames = [] := by
      rw [← List.length_eq_zero_iff, ← List.length_eq_zero_iff, w2.insertions, hlen]
    exact ⟨s, calls, tr, by rw [ok_bind, List.length_map], w2, w4, fun h => w5 (hiff.2 h), fun h => w6 (fun h' => h (hiff.1 h'))⟩
  · right
    rw [w1]
    exact ⟨rfl, w2⟩

end Model

/-! ### concrete cases -/

theorem single_sample {leaf : ℝ} {p : Pt ℝ} {out : List (Pt ℝ)} (hw : p.w = 1) (h : SerialSample leaf [p] out) : out = [p] := by
  by_cases hg : GridInRange leaf p
  · obtain ⟨cells, h1, h2, rfl⟩ := h.2.1 ⟨p, by simp, hg⟩
    have hc : cells = [gridCell leaf p] := by
      have hp : cells.Perm [gridCell leaf p] := (List.perm_ext_iff_of_nodup h1 (by simp)).2 (fun c => by
        rw [h2 c]
        simp only [List.mem_singleton]
        exact ⟨fun ⟨q, h1, _, h3⟩ => by rw [← h3, h1], fun h => ⟨p, rfl, hg, h.symm⟩⟩)
      exact List.perm_singleton.1 hp
    obtain ⟨x, y, z, w⟩ := p
    simp only at hw
    subst hw
    rw [hc]
    simp [cellPoints, centroid, hg]
  · obtain ⟨q, hq, rfl⟩ := h.2.2 (by simp) (by simpa using hg)
    rw [List.mem_singleton.1 hq]

theorem single_frame {e : Env} (he : EnvMeets e) {V : Type} {k : MapKind V} {pts : V → List (Pt ℝ)} (hk : KindOK k pts) {leaf : ℝ} (hleaf : leaf ≠ 0) {p : Pt ℝ} (hw : p.w = 1) (hkey : KeyDefined leaf p) :
    (CellDefined 1 p → ∃ m, modelOnline k e ⟨20, leaf, 1, 1⟩ .init [some (plainFrame [p])] = .ok (⟨some m, Pose.one⟩, [none], [Pose.one]) ∧ m.flat.length ≤ 1) ∧
    (¬ CellDefined 1 p → modelOnline k e ⟨20, leaf, 1, 1⟩ .init [some (plainFrame [p])] = .error .intOverflow) := by
  have hok := plainFrame_ok e (leaf := leaf) (pts := [p]) (by simpa using hw) (by simp) (by simpa using hkey)
  have hone : moved Pose.one p = p := by rw [← mulPt_matrix, one_matrix, mulPt_one]
  have h := C65_model_odometry he (o := ⟨20, leaf, 1, 1⟩) hleaf (by norm_num) one_ne_zero hk (frames := [plainFrame [p]]) (ptss := [[p]]) rfl (by simp) (by
    intro i f ps hf hp
    match i with
    | 0 => cases hf; cases hp; exact ⟨hok.1, by simp, fun out _ => hok.2 out⟩
    | i + 1 => cases hf)
  rcases h with ⟨s, calls, tr, h1, h2, h3, _, h5⟩ | ⟨h1, i, ps, out, calls, tr, steps, h2, h3, h4, _, h6, q, hq, hbad⟩
  · obtain ⟨m, g1, _, g3⟩ := h5 (by simp)
    obtain ⟨sm, sT⟩ := s
    simp only at g1 h3
    subst g1
    have hl1 := h2.poses
    have hl2 := h2.insertions
    match tr, calls, hl1, hl2 with
    | [T], [call], _, _ =>
      obtain rfl := h2.first T rfl
      obtain ⟨_, b2, out, b3, b4⟩ := h2.inserted 0 _ _ _ rfl rfl rfl
      have hout := single_sample hw b3
      subst hout
      have hlen : call.1.length = 1 := by
        have := congrArg List.length b4.1
        simpa using this
      have hin : CellDefined 1 p := by
        obtain ⟨x, hx⟩ := List.length_eq_one_iff.1 hlen
        have e1 := b4.1
        rw [hx] at e1
        have e1 : x.pt = p := by simpa using e1
        have := b2 x (by rw [hx]; simp)
        rw [e1, hone] at this
        simpa using this
      subst h3
      refine ⟨fun _ => ⟨m, h1, ?_⟩, fun h => absurd hin h⟩
      simpa [hlen] using g3
  · match i with
    | 0 =>
      cases h2
      have hout := single_sample hw h3
      subst hout
      rw [List.mem_singleton] at hq
      subst hq
      have htr : tr = [] := List.length_eq_zero_iff.1 h4.poses
      rw [htr, h6 rfl] at hbad
      have hbad : ¬ CellDefined (1 / 1) (moved Pose.one q) := hbad
      rw [hone] at hbad
      exact ⟨fun h => absurd (by simpa using h) hbad, fun _ => h1⟩
    | i + 1 => cases h2

/-- The premises of C65 are met by a frame with one point, for both kinds of maps. -/
example : ∃ e : Env, EnvMeets e ∧ (∃ m, modelOnline gaussianKind e ⟨20, 1, 1, 1⟩ .init [some (plainFrame [⟨5, 6, 7, 1⟩])] = .ok (⟨some m, Pose.one⟩, [none], [Pose.one]) ∧ m.flat.length ≤ 1) ∧
    ∃ m, modelOnline linearKind e ⟨20, 1, 1, 1⟩ .init [some (plainFrame [⟨5, 6, 7, 1⟩])] = .ok (⟨some m, Pose.one⟩, [none], [Pose.one]) ∧ m.flat.length ≤ 1 := by
  obtain ⟨e, he, _⟩ := env_exists 1000 (by norm_num) (0, 0)
  have hk : KeyDefined (1 : ℝ) ⟨5, 6, 7, 1⟩ := by simp [KeyDefined, KeyFits, INT_MIN, INT_MAX]
  have hd : CellDefined (1 : ℝ) ⟨5, 6, 7, 1⟩ := by simp [CellDefined, INT_MIN, INT_MAX]
  exact ⟨e, he, (single_frame he gaussianKind_ok one_ne_zero rfl hk).1 hd, (single_frame he linearKind_ok one_ne_zero rfl hk).1 hd⟩

/-- A point too far away for the voxel resolution, though not for the sampler. -/
example : ∃ e : Env, EnvMeets e ∧ modelOnline linearKind e ⟨20, 1000, 1, 1⟩ .init [some (plainFrame [⟨3000000000, 0, 0, 1⟩])] = .error .intOverflow := by
  obtain ⟨e, he, _⟩ := env_exists 1000 (by norm_num) (0, 0)
  refine ⟨e, he, (single_frame he linearKind_ok (by norm_num) rfl ?_).2 ?_⟩
  · simp only [KeyDefined, KeyFits, INT_MIN, INT_MAX]
    norm_num [Int.floor_le, Int.le_floor, Int.floor_lt]
  · simp [CellDefined, INT_MIN, INT_MAX]

end Verif.Props
