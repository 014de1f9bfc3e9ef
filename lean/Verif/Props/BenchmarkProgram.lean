import Verif.Model.BenchmarkEngines
import Verif.Props.Dataset
import Verif.Props.OdometryPipeline

/-!
C81, C82. The program `odometry_benchmark`: what its command line means, and what it writes.
-/

set_option linter.unusedSectionVars false
set_option linter.unusedSimpArgs false
set_option linter.unnecessarySeqFocus false

namespace Verif.Spec

open Verif Verif.Factors

/-- An option with its value, as text and as number. -/
inductive BenchOption (K : Type) where
  | visualize
  | numThreads (t : List Char) (n : Int)
  | numNeighbors (t : List Char) (n : Int)
  | downsampling (t : List Char) (x : K)
  | voxel (t : List Char) (x : K)
  | engine (t : List Char)

variable {K : Type}

/-- The words of an option on the command line. -/
def BenchOption.words : BenchOption K → List (List Char)
  | .visualize => ["--visualize".toList]
  | .numThreads t _ => ["--num_threads".toList, t]
  | .numNeighbors t _ => ["--num_neighbors".toList, t]
  | .downsampling t _ => ["--downsampling_resolution".toList, t]
  | .voxel t _ => ["--voxel_resolution".toList, t]
  | .engine t => ["--engine".toList, t]

/-- A word that begins with two dashes. -/
def Dashed (t : List Char) : Prop := ∃ r, t = '-' :: '-' :: r

/-- The text of the value is a number where one is needed, and does not look like an option. -/
def BenchOption.Valid (stoi : List Char → Res Int) (stod : List Char → Res K) : BenchOption K → Prop
  | .visualize => True
  | .numThreads t n => stoi t = .ok n ∧ ¬ Dashed t
  | .numNeighbors t n => stoi t = .ok n ∧ ¬ Dashed t
  | .downsampling t x => stod t = .ok x ∧ ¬ Dashed t
  | .voxel t x => stod t = .ok x ∧ ¬ Dashed t
  | .engine t => ¬ Dashed t

/-- The value given last, or the default. -/
def lastGiven {α : Type} (f : BenchOption K → Option α) (opts : List (BenchOption K)) (default : α) : α := ((opts.filterMap f).getLast?).getD default

def BenchOption.givenVisualize : BenchOption K → Option Bool | .visualize => some true | _ => none
def BenchOption.givenThreads : BenchOption K → Option Int | .numThreads _ n => some n | _ => none
def BenchOption.givenNeighbors : BenchOption K → Option Int | .numNeighbors _ n => some n | _ => none
def BenchOption.givenDownsampling : BenchOption K → Option K | .downsampling _ x => some x | _ => none
def BenchOption.givenVoxel : BenchOption K → Option K | .voxel _ x => some x | _ => none
def BenchOption.givenEngine : BenchOption K → Option (List Char) | .engine t => some t | _ => none

/-- The line of a pose: the upper three rows of its matrix, one after the other. -/
def poseLine (fmt : K → List Char) (T : Pose K) : List Char :=
  List.intercalate [' '] [fmt (T.R 0 0), fmt (T.R 0 1), fmt (T.R 0 2), fmt (T.t 0), fmt (T.R 1 0), fmt (T.R 1 1), fmt (T.R 1 2), fmt (T.t 1),
    fmt (T.R 2 0), fmt (T.R 2 1), fmt (T.R 2 2), fmt (T.t 2)]

/-- A line for each pose. -/
def trajectoryFile (fmt : K → List Char) (traj : List (Pose K)) : List Char := traj.flatMap (fun T => poseLine fmt T ++ ['\n'])

end Verif.Spec

namespace Verif.Props

open Matrix Verif Verif.Benchmark Verif.Spec Verif.Files Verif.PointCloud Verif.Proofs Verif.Factors

/-! ### the command line -/

section CommandLine

variable {K : Type} [Field K] (num : Numbers K)

theorem keywords_spelled : kwVisualize = "--visualize".toList ∧ kwNumThreads = "--num_threads".toList ∧ kwNumNeighbors = "--num_neighbors".toList ∧
    kwDownsampling = "--downsampling_resolution".toList ∧ kwVoxel = "--voxel_resolution".toList ∧ kwEngine = "--engine".toList ∧ smallGicp = "small_gicp".toList := by decide

theorem dashed_iff (t : Text) : Dashed t ↔ (t.length ≥ 2 && t.take 2 = ['-', '-']) = true := by
  constructor
  · rintro ⟨r, rfl⟩
    simp
  · intro h
    match t, h with
    | a :: b :: r, h =>
      have : a = '-' ∧ b = '-' := by simpa using h
      exact ⟨r, by rw [this.1, this.2]⟩
    | [], h => simp at h
    | [_], h => simp at h

theorem scan_skip {w : Text} (hw : ¬ Dashed w) (o : Params K) (e : Text) (rest : List Text) : scan num o e (w :: rest) = scan num o e rest := by
  have h (k : Text) (hk : Dashed k) : w ≠ k := fun h => hw (h ▸ hk)
  rw [scan, if_neg (h kwVisualize ⟨_, rfl⟩), if_neg (h kwNumThreads ⟨_, rfl⟩), if_neg (h kwNumNeighbors ⟨_, rfl⟩), if_neg (h kwDownsampling ⟨_, rfl⟩), if_neg (h kwVoxel ⟨_, rfl⟩),
    if_neg (h kwEngine ⟨_, rfl⟩),
    if_neg (fun h => hw ((dashed_iff w).2 h))]

theorem scan_unknown {w : Text} (hd : Dashed w) (hw : w ∉ [kwVisualize, kwNumThreads, kwNumNeighbors, kwDownsampling, kwVoxel, kwEngine]) (o : Params K) (e : Text) (rest : List Text) :
    scan num o e (w :: rest) = .ok none := by
  simp only [List.mem_cons, List.not_mem_nil, or_false, not_or] at hw
  rw [scan, if_neg hw.1, if_neg hw.2.1, if_neg hw.2.2.1, if_neg hw.2.2.2.1, if_neg hw.2.2.2.2.1, if_neg hw.2.2.2.2.2, if_pos ((dashed_iff w).1 hd)]

/-- The setting after an option. -/
def applied (s : Params K × Text) : BenchOption K → Params K × Text
  | .visualize => ({ s.1 with visualize := true }, s.2)
  | .numThreads _ n => ({ s.1 with numThreads := n }, s.2)
  | .numNeighbors _ n => ({ s.1 with numNeighbors := n }, s.2)
  | .downsampling _ x => ({ s.1 with downsamplingResolution := x }, s.2)
  | .voxel _ x => ({ s.1 with voxelResolution := x }, s.2)
  | .engine t => (s.1, t)

theorem scan_option (x : BenchOption K) (hx : x.Valid num.stoi num.stod) (s : Params K × Text) (rest : List Text) :
    scan num s.1 s.2 (x.words ++ rest) = scan num (applied s x).1 (applied s x).2 rest := by
  obtain ⟨k1, k2, k3, k4, k5, k6, _⟩ := keywords_spelled
  cases x with
  | visualize =>
    rw [BenchOption.words, ← k1, List.singleton_append, scan, if_pos rfl]
    rfl
  | numThreads t n =>
    rw [BenchOption.words, ← k2, List.cons_append, List.singleton_append, scan, if_neg (by decide), if_pos rfl, nextArg, ok_bind, hx.1, ok_bind, scan_skip num hx.2]
    rfl
  | numNeighbors t n =>
    rw [BenchOption.words, ← k3, List.cons_append, List.singleton_append, scan, if_neg (by decide), if_neg (by decide), if_pos rfl, nextArg, ok_bind, hx.1, ok_bind, scan_skip num hx.2]
    rfl
  | downsampling t n =>
    rw [BenchOption.words, ← k4, List.cons_append, List.singleton_append, scan, if_neg (by decide), if_neg (by decide), if_neg (by decide), if_pos rfl, nextArg, ok_bind, hx.1, ok_bind,
      scan_skip num hx.2]
    rfl
  | voxel t n =>
    rw [BenchOption.words, ← k5, List.cons_append, List.singleton_append, scan, if_neg (by decide), if_neg (by decide), if_neg (by decide), if_neg (by decide), if_pos rfl, nextArg, ok_bind,
      hx.1, ok_bind, scan_skip num hx.2]
    rfl
  | engine t =>
    rw [BenchOption.words, ← k6, List.cons_append, List.singleton_append, scan, if_neg (by decide), if_neg (by decide), if_neg (by decide), if_neg (by decide), if_neg (by decide), if_pos rfl,
      nextArg, ok_bind, scan_skip num hx]
    rfl

theorem scan_options : ∀ (opts : List (BenchOption K)), (∀ x ∈ opts, x.Valid num.stoi num.stod) → ∀ (s : Params K × Text) (rest : List Text),
    scan num s.1 s.2 (opts.flatMap BenchOption.words ++ rest) = scan num (opts.foldl applied s).1 (opts.foldl applied s).2 rest
  | [], _, _, _ => rfl
  | x :: opts, h, s, rest => by
    rw [List.flatMap_cons, List.append_assoc, scan_option num x (h x (by simp)), scan_options opts (fun y hy => h y (by simp [hy])), List.foldl_cons]

/-- What the options given mean. -/
def meaning (opts : List (BenchOption K)) : Params K × Text :=
  (⟨lastGiven BenchOption.givenVisualize opts false, lastGiven BenchOption.givenThreads opts 4, lastGiven BenchOption.givenNeighbors opts 20,
    lastGiven BenchOption.givenDownsampling opts (1 / 4), lastGiven BenchOption.givenVoxel opts 1, 1⟩, lastGiven BenchOption.givenEngine opts "small_gicp".toList)

theorem applied_meaning (opts : List (BenchOption K)) : opts.foldl applied ((Params.default : Params K), smallGicp) = meaning opts := by
  induction opts using List.reverseRecOn with
  | nil => simp [meaning, lastGiven, Params.default, keywords_spelled]
  | append_singleton opts x ih =>
    rw [List.foldl_append, ih, List.foldl_cons, List.foldl_nil]
    cases x <;> simp [applied, meaning, lastGiven, BenchOption.givenVisualize, BenchOption.givenThreads, BenchOption.givenNeighbors, BenchOption.givenDownsampling,
      BenchOption.givenVoxel, BenchOption.givenEngine]

variable {prog data out : Text} (hprog : ¬ Dashed prog) (hdata : ¬ Dashed data) (hout : ¬ Dashed out) (opts : List (BenchOption K)) (hopts : ∀ x ∈ opts, x.Valid num.stoi num.stod)

include hprog hdata hout hopts in
theorem scan_line (rest : List Text) :
    scan num Params.default smallGicp (prog :: data :: out :: (opts.flatMap BenchOption.words ++ rest)) = scan num (meaning opts).1 (meaning opts).2 rest := by
  rw [scan_skip num hprog, scan_skip num hdata, scan_skip num hout, ← applied_meaning]
  exact scan_options num opts hopts (Params.default, smallGicp) rest

include hprog hdata hout hopts in
/-- **C81, options.** Program name, two paths, then options with values in any order: every parameter has the value given last, or its default; so has the engine. -/
theorem C81_options :
    scan num Params.default smallGicp (prog :: data :: out :: opts.flatMap BenchOption.words) = .ok (some
      (⟨lastGiven BenchOption.givenVisualize opts false, lastGiven BenchOption.givenThreads opts 4, lastGiven BenchOption.givenNeighbors opts 20,
        lastGiven BenchOption.givenDownsampling opts (1 / 4), lastGiven BenchOption.givenVoxel opts 1, 1⟩, lastGiven BenchOption.givenEngine opts "small_gicp".toList)) := by
  have := scan_line num hprog hdata hout opts hopts []
  rw [List.append_nil] at this
  rw [this]
  rfl

variable {M : Type} (s : Setup K M) (hs : s.num = num) (disk : Disk)

include hprog hdata hout hopts hs in
/-- **C81, unknown options.** A word that begins with two dashes and is no option ends the program with code 1, and nothing is written. -/
theorem C81_unknown {w : Text} (hd : Dashed w)
    (hw : w ∉ ["--visualize".toList, "--num_threads".toList, "--num_neighbors".toList, "--downsampling_resolution".toList, "--voxel_resolution".toList, "--engine".toList]) (rest : List Text) :
    main s disk (prog :: data :: out :: (opts.flatMap BenchOption.words ++ w :: rest)) = .ok ⟨1, none⟩ := by
  obtain ⟨k1, k2, k3, k4, k5, k6, _⟩ := keywords_spelled
  have hscan := scan_line num hprog hdata hout opts hopts (w :: rest)
  rw [scan_unknown num hd (by rw [k1, k2, k3, k4, k5, k6]; exact hw)] at hscan
  unfold main
  rw [if_neg (by simp)]
  show (scan s.num _ _ _ >>= _) = _
  rw [hs, hscan]
  rfl

include hprog hdata hout hopts hs in
/-- **C81, violated.** An option that needs a value as the last word: the program reads through the null pointer at the end of the arguments. -/
theorem C81_missing_value_violated {w : Text}
    (hw : w ∈ ["--num_threads".toList, "--num_neighbors".toList, "--downsampling_resolution".toList, "--voxel_resolution".toList, "--engine".toList]) :
    main s disk (prog :: data :: out :: (opts.flatMap BenchOption.words ++ [w])) = .error .nullDeref := by
  obtain ⟨k1, k2, k3, k4, k5, k6, _⟩ := keywords_spelled
  have hnull : ∀ o e, scan num o e [w] = .error .nullDeref := by
    intro o e
    rw [← k2, ← k3, ← k4, ← k5, ← k6] at hw
    simp only [List.mem_cons, List.not_mem_nil, or_false] at hw
    rcases hw with rfl | rfl | rfl | rfl | rfl
    · rw [scan, if_neg (by decide), if_pos rfl]; rfl
    · rw [scan, if_neg (by decide), if_neg (by decide), if_pos rfl]; rfl
    · rw [scan, if_neg (by decide), if_neg (by decide), if_neg (by decide), if_pos rfl]; rfl
    · rw [scan, if_neg (by decide), if_neg (by decide), if_neg (by decide), if_neg (by decide), if_pos rfl]; rfl
    · rw [scan, if_neg (by decide), if_neg (by decide), if_neg (by decide), if_neg (by decide), if_neg (by decide), if_pos rfl]; rfl
  have hscan := scan_line num hprog hdata hout opts hopts [w]
  rw [hnull] at hscan
  unfold main
  rw [if_neg (by simp)]
  show (scan s.num _ _ _ >>= _) = _
  rw [hs, hscan]
  rfl

include hprog hdata hout hopts in
/-- **C81, violated.** A value is also read as an option: in `--engine --visualize` the second word is the engine and turns visualisation on. -/
theorem C81_value_violated :
    ∃ p, scan num Params.default smallGicp (prog :: data :: out :: (opts.flatMap BenchOption.words ++ ["--engine".toList, "--visualize".toList])) = .ok (some (p, "--visualize".toList)) ∧
      p.visualize = true := by
  obtain ⟨k1, _, _, _, _, k6, _⟩ := keywords_spelled
  rw [scan_line num hprog hdata hout opts hopts, ← k1, ← k6]
  refine ⟨{ (meaning opts).1 with visualize := true }, ?_, rfl⟩
  rw [scan, if_neg (by decide), if_neg (by decide), if_neg (by decide), if_neg (by decide), if_neg (by decide), if_pos rfl, nextArg, ok_bind, scan, if_pos rfl]
  rfl

/-- **C81, violated.** The text on usage gives 2.0 as the default of the voxel resolution; it is 1.0. The other defaults are as stated. -/
theorem C81_usage_violated [CharZero K] :
    (usageDefaults : Params K × Text).1.voxelResolution ≠ Params.default.voxelResolution ∧
    (Params.default : Params K) = { (usageDefaults : Params K × Text).1 with voxelResolution := 1 } ∧ (usageDefaults : Params K × Text).2 = smallGicp := by
  refine ⟨?_, rfl, rfl⟩
  show (2 : K) ≠ 1
  norm_num

end CommandLine

/-! ### engines -/

/-- **C82, registry.** Engines are found by the name they were registered with first; the number returned is the position in the list of names. -/
theorem C82_registry {P E : Type} (r : Registry P E) (name : Text) (factory : P → E) (p : P) :
    odometryNames (register r name factory).1 = odometryNames r ++ [name] ∧ (odometryNames (register r name factory).1)[(register r name factory).2]? = some name ∧
    (name ∉ odometryNames r → createOdometry (register r name factory).1 name p = some (factory p)) ∧
    (∀ n, n ∈ odometryNames r → createOdometry (register r name factory).1 n p = createOdometry r n p) ∧
    ∀ n, createOdometry r n p = none ↔ n ∉ odometryNames r := by
  refine ⟨by simp [odometryNames, register], by simp [odometryNames, register], fun h => ?_, fun n hn => ?_, fun n => ?_⟩
  · have : r.find? (fun q => decide (q.1 = name)) = none := by
      rw [List.find?_eq_none]
      intro q hq
      simp only [decide_eq_true_eq]
      exact fun h' => h (List.mem_map.2 ⟨q, hq, h'⟩)
    simp [createOdometry, register, List.find?_append, this]
  · obtain ⟨q, hq, rfl⟩ := List.mem_map.1 hn
    have : (r.find? (fun q' => decide (q'.1 = q.1))).isSome := by
      rw [List.find?_isSome]
      exact ⟨q, hq, by simp⟩
    obtain ⟨a, ha⟩ := Option.isSome_iff_exists.1 this
    simp [createOdometry, register, List.find?_append, ha]
  · simp only [createOdometry, odometryNames, Option.map_eq_none_iff, List.find?_eq_none, decide_eq_true_eq, List.mem_map, not_exists, not_and]

/-- **C82, order of registration.** Under different names the order in which engines are registered does not matter. -/
theorem C82_registration_order {P E : Type} {r r' : Registry P E} (hp : r.Perm r') (hn : (odometryNames r).Nodup) (n : Text) (p : P) : createOdometry r n p = createOdometry r' n p := by
  unfold createOdometry
  congr 1
  induction hp with
  | nil => rfl
  | cons x _ ih =>
    rw [List.find?_cons, List.find?_cons, ih (List.Nodup.of_cons hn)]
  | swap x y l =>
    have : x.1 ≠ y.1 := by
      intro h
      simp [odometryNames, h] at hn
    rw [List.find?_cons, List.find?_cons, List.find?_cons, List.find?_cons]
    by_cases hx : x.1 = n
    · have hy : ¬ y.1 = n := fun h => this (hx.trans h.symm)
      simp [hx, hy]
    · simp [hx]
  | trans h1 _ ih1 ih2 =>
    rw [ih1 hn, ih2 ((h1.map (fun q : Text × (P → E) => q.1)).nodup_iff.1 hn)]

theorem create_mem {P E : Type} {r : Registry P E} (hn : (odometryNames r).Nodup) {n : Text} {f : P → E} (h : (n, f) ∈ r) (p : P) : createOdometry r n p = some (f p) := by
  unfold createOdometry
  have : r.find? (fun q => decide (q.1 = n)) = some (n, f) := by
    induction r with
    | nil => cases h
    | cons q r ih =>
      rw [List.find?_cons]
      rcases List.mem_cons.1 h with h | h
      · rw [← h]
        simp
      · have hne : q.1 ≠ n := by
          intro hq
          simp only [odometryNames, List.map_cons, List.nodup_cons] at hn
          exact hn.1 (hq ▸ List.mem_map_of_mem (f := fun q : Text × (P → E) => q.1) h)
        simp only [hne, decide_false]
        exact ih (List.Nodup.of_cons hn) h
  rw [this]
  rfl

/-! ### the output -/

theorem twelve (g : Fin 3 → Nat → Text) (out : Text) :
    (List.finRange 3).foldl (fun out i => (List.range 4).foldl (fun out j => (if i.val ≠ 0 ∨ j ≠ 0 then out ++ [' '] else out) ++ g i j) out) out =
    out ++ List.intercalate [' '] [g 0 0, g 0 1, g 0 2, g 0 3, g 1 0, g 1 1, g 1 2, g 1 3, g 2 0, g 2 1, g 2 2, g 2 3] := by
  have h3 : List.finRange 3 = [0, 1, 2] := rfl
  have h4 : List.range 4 = [0, 1, 2, 3] := rfl
  rw [h3, h4]
  simp only [List.foldl_cons, List.foldl_nil, List.intercalate, List.intersperse, List.flatten_cons, List.flatten_nil]
  simp

theorem text_eq {K : Type} [Field K] (fmt : K → Text) (traj : List (Pose K)) : trajectoryText fmt traj = trajectoryFile fmt traj := by
  have key : ∀ (out : Text), traj.foldl (fun out T => (List.finRange 3).foldl (fun out i => (List.range 4).foldl (fun out j =>
      (if i.val ≠ 0 ∨ j ≠ 0 then out ++ [' '] else out) ++ fmt (entry T i j)) out) out ++ ['\n']) out = out ++ trajectoryFile fmt traj := by
    induction traj with
    | nil => intro out; simp [trajectoryFile]
    | cons T traj ih =>
      intro out
      rw [List.foldl_cons, ih]
      unfold trajectoryFile
      rw [List.flatMap_cons, twelve (fun i j => fmt (entry T i j))]
      have : List.intercalate [' '] [fmt (entry T 0 0), fmt (entry T 0 1), fmt (entry T 0 2), fmt (entry T 0 3), fmt (entry T 1 0), fmt (entry T 1 1), fmt (entry T 1 2),
        fmt (entry T 1 3), fmt (entry T 2 0), fmt (entry T 2 1), fmt (entry T 2 2), fmt (entry T 2 3)] = poseLine fmt T := by
        simp only [entry, poseLine]
        rfl
      rw [this]
      simp only [List.append_assoc]
  exact key []

/-! ### the program -/

section Program

variable {K : Type} [Field K] {M : Type} (s : Setup K M) (hsort : SortsTexts s.sort) (hone : s.value ⟨0, 0, 0x80, 0x3f⟩ = 1) (disk : Disk)
  {prog data out : Text} (hprog : ¬ Dashed prog) (hdata : ¬ Dashed data) (hout : ¬ Dashed out) (opts : List (BenchOption K)) (hopts : ∀ x ∈ opts, x.Valid s.num.stoi s.num.stod)

include hprog hdata hout hopts in
theorem main_line :
    main s disk (prog :: data :: out :: opts.flatMap BenchOption.words) =
      match createOdometry s.engines (meaning opts).2 (meaning opts).1 with
      | none => .ok ⟨1, none⟩
      | some estimate => do
        let points ← kittiDataset s.sort disk data 1000000
        let r ← convert s.value points true
        let traj ← estimate r.1
        return ⟨0, if disk.writable out then some (out, trajectoryText s.fmt traj) else none⟩ := by
  have h : scan s.num Params.default smallGicp (prog :: data :: out :: opts.flatMap BenchOption.words) = .ok (some (meaning opts)) :=
    C81_options s.num hprog hdata hout opts hopts
  unfold main
  rw [if_neg (by simp)]
  show (scan s.num _ _ _ >>= _) = _
  rw [h]
  show (match createOdometry s.engines (meaning opts).2 (meaning opts).1 with
    | none => _
    | some estimate => _) = _
  cases createOdometry s.engines (meaning opts).2 (meaning opts).1 <;> rfl

include hsort hone hprog hdata hout hopts in
/-- **C82, the program.** With valid options: an engine that is not registered gives code 1 and no file; a data set that cannot be listed is an exception; otherwise the engine, made with the
parameters given, gets the clouds of the data set, and its trajectory is written with one line for each pose. Faults of the engine are those of the program. -/
theorem C82_program :
    ((meaning opts).2 ∉ odometryNames s.engines → main s disk (prog :: data :: out :: opts.flatMap BenchOption.words) = .ok ⟨1, none⟩) ∧
    ∀ engine, createOdometry s.engines (meaning opts).2 (meaning opts).1 = some engine →
      (disk.dir data = none → main s disk (prog :: data :: out :: opts.flatMap BenchOption.words) = .error .exception) ∧
      ∀ names, disk.dir data = some names → ∃ (files : List Text) (frames : List (List V4)) (clouds : List (Cloud (Fin 4 → K) M)),
        datasetFiles s.sort disk data 1000000 = .ok files ∧ List.Forall₂ (fun f ps => HoldsPoints (disk.file f) ps) files frames ∧
        clouds.map (·.points) = frames.map (fun ps => ps.map (fun v => some ![s.value v.x, s.value v.y, s.value v.z, 1])) ∧
        (∀ traj, engine clouds = .ok traj → main s disk (prog :: data :: out :: opts.flatMap BenchOption.words)
          = .ok ⟨0, if disk.writable out then some (out, trajectoryFile s.fmt traj) else none⟩) ∧
        ∀ f, engine clouds = .error f → main s disk (prog :: data :: out :: opts.flatMap BenchOption.words) = .error f := by
  rw [main_line s disk hprog hdata hout opts hopts]
  refine ⟨fun h => ?_, fun engine he => ⟨fun hd => ?_, fun names hd => ?_⟩⟩
  · rw [((C82_registry s.engines [] (fun _ _ => .ok []) (meaning opts).1).2.2.2.2 _).2 h]
  · rw [he]
    show (kittiDataset s.sort disk data 1000000 >>= _) = _
    unfold kittiDataset
    rw [(C80_files hsort disk data 1000000).1 hd]
    rfl
  · obtain ⟨all, _, _, h3⟩ := (C80_files hsort disk data 1000000).2 names hd
    obtain ⟨frames, h4, h5⟩ := C80_frames disk data 1000000 h3
    obtain ⟨clouds, h6, _, _, h7, _⟩ := C80_convert (M := M) s.value hone disk h5
    rw [he]
    refine ⟨_, frames, clouds, h3, h5, h7, fun traj ht => ?_, fun f hf => ?_⟩
    · show (kittiDataset s.sort disk data 1000000 >>= _) = _
      rw [h4, ok_bind, h6, ok_bind, ht, ok_bind, text_eq]
      rfl
    · show (kittiDataset s.sort disk data 1000000 >>= _) = _
      rw [h4, ok_bind, h6, ok_bind, hf]
      rfl

end Program

/-- **C82, usage.** With fewer than two paths nothing is done. -/
theorem C82_usage {K M : Type} [Field K] (s : Setup K M) (disk : Disk) (argv : List Text) (h : argv.length < 3) : main s disk argv = .ok ⟨0, none⟩ := if_pos h

/-! ### the engines -/

section Engines

open Verif.Pipeline Verif.Features Verif.Downsample Verif.OdometryPipeline Verif.OdometryModel Verif.BenchmarkEngines Verif.Odometry

/-- A trajectory has a pose for each frame. -/
theorem online_length {K C D S : Type} [Field K] (sample : C → Res D) (step : S → D → Res (S × Pose K)) (s : S) (points : List (Option C)) {r} (h : online sample step s points = .ok r) :
    r.2.2.length = points.length := by
  have key : ∀ (l : List Nat) (st : S × List (Option C) × List (Pose K)) r, l.foldlM (fun (st : S × List (Option C) × List (Pose K)) i => do
      let q ← rd st.2.1 i
      match q with
      | none => .error .nullDeref
      | some c => do
        let d ← sample c
        let r ← step st.1 d
        let ps ← wr st.2.1 i none
        return (r.1, ps, st.2.2 ++ [r.2])) st = .ok r → r.2.2.length = st.2.2.length + l.length := by
    intro l
    induction l with
    | nil =>
      intro st r h
      cases h
      simp
    | cons i l ih =>
      intro st r h
      rw [List.foldlM_cons] at h
      obtain ⟨st', h1, h2⟩ := res_bind h
      obtain ⟨q, h3, h4⟩ := res_bind h1
      cases q with
      | none => cases h4
      | some c =>
        obtain ⟨d, h5, h6⟩ := res_bind h4
        obtain ⟨t, h7, h8⟩ := res_bind h6
        obtain ⟨ps, h9, h10⟩ := res_bind h8
        cases h10
        rw [ih _ _ h2]
        simp
        omega
  have := key _ _ _ h
  simpa using this

theorem engine_length {e : Env} {exec : Nat → FrameExec} {n : Text} {p : Benchmark.Params ℝ} {eng : List RCloud → Res (List (Pose ℝ))} (h : createOdometry (engines e exec) n p = some eng)
    (clouds : List RCloud) (traj : List (Pose ℝ)) (ht : eng clouds = .ok traj) : traj.length = clouds.length := by
  have key : ∀ q ∈ engines e exec, ∀ p clouds traj, q.2 p clouds = .ok traj → traj.length = clouds.length := by
    have hl : ∀ clouds, (framesOf exec clouds).length = clouds.length := fun clouds => by simp [framesOf]
    have hr : ∀ {S : Type} (sample : Frame → Res Frame) (step : S → Frame → Res (S × Pose ℝ)) (s : S) clouds traj,
        trajectoryOf (online sample step s (framesOf exec clouds)) = .ok traj → traj.length = clouds.length := by
      intro S sample step s clouds traj h
      obtain ⟨r, h1, h2⟩ := res_bind h
      cases h2
      rw [online_length _ _ _ _ h1, hl]
    intro q hq p clouds traj h
    simp only [engines, List.mem_cons, List.not_mem_nil, or_false] at hq
    rcases hq with rfl | rfl | rfl | rfl | rfl | rfl | rfl | rfl | rfl <;> exact hr _ _ _ _ _ h
  unfold createOdometry at h
  rw [Option.map_eq_some_iff] at h
  obtain ⟨q, hq, rfl⟩ := h
  exact key q (List.mem_of_find?_eq_some hq) p clouds traj ht

variable {e : Env} {exec : Nat → FrameExec} (s : Setup ℝ M4) (hsort : SortsTexts s.sort) (hone : s.value ⟨0, 0, 0x80, 0x3f⟩ = 1) (hreg : (engines e exec).Perm s.engines) (disk : Disk)
  {prog data out : Text} (hprog : ¬ Dashed prog) (hdata : ¬ Dashed data) (hout : ¬ Dashed out) (opts : List (BenchOption ℝ)) (hopts : ∀ x ∈ opts, x.Valid s.num.stoi s.num.stod)

theorem engines_nodup : (odometryNames (engines e exec)).Nodup := by
  have : odometryNames (engines e exec) = ["small_gicp".toList, "small_gicp_omp".toList, "small_vgicp_omp".toList, "small_gicp_tbb".toList, "small_vgicp_tbb".toList,
    "small_gicp_model_tbb".toList, "small_gicp_model_omp".toList, "small_vgicp_model_tbb".toList, "small_vgicp_model_omp".toList] := rfl
  rw [this]
  decide

include hsort hone hreg hprog hdata hout hopts in
/-- **C82, lines.** Whatever engine is chosen, if the program ends with a file written then the file has one line for each of the first million files of the data set. -/
theorem C82_lines {code : Int} {path text : Text} (h : main s disk (prog :: data :: out :: opts.flatMap BenchOption.words) = .ok ⟨code, some (path, text)⟩) :
    code = 0 ∧ path = out ∧ ∃ files traj, datasetFiles s.sort disk data 1000000 = .ok files ∧ text = trajectoryFile s.fmt traj ∧ traj.length = files.length := by
  obtain ⟨h1, h2⟩ := C82_program s hsort hone disk hprog hdata hout opts hopts
  cases hc : createOdometry s.engines (meaning opts).2 (meaning opts).1 with
  | none =>
    rw [h1 (((C82_registry s.engines [] (fun _ _ => .ok []) (meaning opts).1).2.2.2.2 _).1 hc)] at h
    cases h
  | some eng =>
    obtain ⟨h3, h4⟩ := h2 eng hc
    rw [← C82_registration_order hreg engines_nodup] at hc
    cases hd : disk.dir data with
    | none =>
      rw [h3 hd] at h
      cases h
    | some names =>
      obtain ⟨files, frames, clouds, g1, g2, g3, g4, g5⟩ := h4 names hd
      cases ht : eng clouds with
      | error f =>
        rw [g5 f ht] at h
        cases h
      | ok traj =>
        rw [g4 traj ht] at h
        by_cases hw : disk.writable out = true
        · rw [if_pos hw] at h
          cases h
          have hl := engine_length hc clouds traj ht
          have hl' := congrArg List.length g3
          simp only [List.length_map] at hl'
          exact ⟨rfl, rfl, files, traj, g1, rfl, by rw [hl, hl', g2.length_eq]⟩
        · rw [if_neg hw] at h
          cases h

/-- The points of frames as numbers. -/
def framePoints (value : F32 → ℝ) (frames : List (List Files.V4)) : List (List (Pt ℝ)) := frames.map (fun ps => ps.map (fun v => ⟨value v.x, value v.y, value v.z, 1⟩))

theorem holds_frames_unique {files : List Text} {a b : List (List Files.V4)} (ha : List.Forall₂ (fun f ps => HoldsPoints (disk.file f) ps) files a)
    (hb : List.Forall₂ (fun f ps => HoldsPoints (disk.file f) ps) files b) : a = b := by
  induction ha generalizing b with
  | nil => cases hb; rfl
  | cons h _ ih =>
    cases hb with
    | cons h' hb => rw [holds_unique h h', ih hb]

include hsort hone hreg hprog hdata hout hopts in
/-- **C82, from files to the trajectory.** With one of the engines `small_gicp`, `small_gicp_omp`, `small_gicp_tbb`, valid options and a data set of finite points: if a file without points comes directly before one with points,
the program is undefined; otherwise it ends with code 0, and the file written (if it can be written) is the text of an odometry trajectory with one pose for each file. -/
theorem C82_gicp (he : EnvMeets e) (hname : (meaning opts).2 ∈ ["small_gicp".toList, "small_gicp_omp".toList, "small_gicp_tbb".toList])
    (hleaf : lastGiven BenchOption.givenDownsampling opts (1 / 4) ≠ 0) (hk : 1 ≤ lastGiven BenchOption.givenNeighbors opts 20) (hgate : 1 < e.maxD)
    {files : List Text} {frames : List (List Files.V4)} (hfiles : datasetFiles s.sort disk data 1000000 = .ok files)
    (hframes : List.Forall₂ (fun f ps => HoldsPoints (disk.file f) ps) files frames)
    (hpts : ∀ (i : Nat) ps, (framePoints s.value frames)[i]? = some ps → ps.length < 2 ^ 32 ∧ (∀ p ∈ ps, KeyDefined (lastGiven BenchOption.givenDownsampling opts (1 / 4)) p) ∧
      ∀ out, voxelgridSampling e.sort ps (lastGiven BenchOption.givenDownsampling opts (1 / 4)) = .ok out → FrameRuns e (exec i) out) :
    (EmptyBefore (framePoints s.value frames) → main s disk (prog :: data :: out :: opts.flatMap BenchOption.words) = .error .uninit) ∧
    (¬ EmptyBefore (framePoints s.value frames) → ∃ tr, OdometryTrajectory (lastGiven BenchOption.givenDownsampling opts (1 / 4)) 1 (framePoints s.value frames) tr ∧
      main s disk (prog :: data :: out :: opts.flatMap BenchOption.words) = .ok ⟨0, if disk.writable out then some (out, trajectoryFile s.fmt tr) else none⟩) := by
  obtain ⟨_, h2⟩ := C82_program s hsort hone disk hprog hdata hout opts hopts
  have hc : createOdometry s.engines (meaning opts).2 (meaning opts).1 = some (gicpEngine e exec (meaning opts).1) := by
    rw [← C82_registration_order hreg engines_nodup]
    generalize (meaning opts).2 = n at hname
    simp only [List.mem_cons, List.not_mem_nil, or_false] at hname
    rcases hname with rfl | rfl | rfl
    · exact create_mem engines_nodup (.head _) _
    · exact create_mem engines_nodup (.tail _ (.head _)) _
    · exact create_mem engines_nodup (.tail _ (.tail _ (.tail _ (.head _)))) _
  obtain ⟨_, h4⟩ := h2 _ hc
  cases hd : disk.dir data with
  | none =>
    rw [(C80_files hsort disk data 1000000).1 hd] at hfiles
    cases hfiles
  | some names =>
    obtain ⟨files', frames', clouds, g1, g2, g3, g4, g5⟩ := h4 names hd
    rw [hfiles] at g1
    cases g1
    cases holds_frames_unique disk hframes g2
    have hfr : framesOf exec clouds = (clouds.mapIdx (fun i c => (⟨exec i, c⟩ : Frame))).map some := by
      apply List.ext_getElem?
      intro i
      simp [framesOf, Function.comp_def]
    have hlen : (clouds.mapIdx (fun i c => (⟨exec i, c⟩ : Frame))).length = (framePoints s.value frames).length := by
      have := congrArg List.length g3
      simpa [framePoints] using this
    have hC := C63_online he (o := engineParams (meaning opts).1) (frames := clouds.mapIdx (fun i c => (⟨exec i, c⟩ : Frame))) (ptss := framePoints s.value frames) hleaf hk hlen (by
      intro i f ps hf hp
      rw [List.getElem?_mapIdx, Option.map_eq_some_iff] at hf
      obtain ⟨c, hcl, rfl⟩ := hf
      obtain ⟨q1, q2, q3⟩ := hpts i ps hp
      have hw : ∀ p ∈ ps, p.w = 1 := by
        intro p hpp
        rw [framePoints, List.getElem?_map, Option.map_eq_some_iff] at hp
        obtain ⟨raw, _, rfl⟩ := hp
        obtain ⟨v, _, rfl⟩ := List.mem_map.1 hpp
        rfl
      refine ⟨⟨?_, hw, q1, q2⟩, q3⟩
      have e1 : (clouds.map (·.points))[i]? = some c.points := by rw [List.getElem?_map, hcl]; rfl
      rw [g3, List.getElem?_map, Option.map_eq_some_iff] at e1
      obtain ⟨raw, e2, e3⟩ := e1
      rw [framePoints, List.getElem?_map, e2] at hp
      cases hp
      show c.points = _
      rw [← e3, List.map_map]
      rfl) (by show (1 : ℝ) * 1 < e.maxD; rw [mul_one]; exact hgate)
    refine ⟨fun hE => g5 _ ?_, fun hE => ?_⟩
    · unfold gicpEngine
      rw [hfr, hC.1 hE]
      rfl
    · obtain ⟨st, ps, tr, r1, _, r2⟩ := hC.2 hE
      refine ⟨tr, ?_, g4 tr ?_⟩
      · have e1 : (engineParams (meaning opts).1).maxCorrespondenceDistance * (engineParams (meaning opts).1).maxCorrespondenceDistance = 1 := mul_one 1
        rw [e1] at r2
        exact r2
      · unfold gicpEngine
        rw [hfr, r1]
        rfl

end Engines

/-! ### concrete cases -/

section Cases

open Verif.Pipeline Verif.Features Verif.OdometryPipeline Verif.OdometryModel Verif.BenchmarkEngines

/-- A setup with the engines of the library, and a disk with one directory. -/
noncomputable def caseSetup (e : Env) (value : F32 → ℝ) (fmt : ℝ → Text) : Setup ℝ M4 :=
  ⟨⟨fun _ => .ok 2, fun _ => .ok 1⟩, fmt, fun l => l.mergeSort (fun a b => decide (a ≤ b)), value, engines e (fun _ => ⟨.sequential, .sequential, fun _ _ => .serial, fun _ _ => .serial⟩)⟩

def caseDisk (writable : Bool) (content : Option (List Byte)) : Disk :=
  ⟨fun p => if p = ['d'] then some [['1', '.', 'b', 'i', 'n'], ['x'], ['0', '.', 'b', 'i', 'n']] else none, fun _ => content, fun _ => writable⟩

/-- `odometry_benchmark d o --num_threads 2 --engine small_gicp_tbb` on a directory with two files without points: two poses are written, one line each, both the identity. -/
example (fmt : ℝ → Text) : ∃ e : Env, EnvMeets e ∧
    main (caseSetup e (fun _ => 1) fmt) (caseDisk true none) (["p".toList, "d".toList, "o".toList] ++ ["--num_threads".toList, "2".toList, "--engine".toList, "small_gicp_tbb".toList])
      = .ok ⟨0, some (['o'], poseLine fmt Pose.one ++ ['\n'] ++ (poseLine fmt Pose.one ++ ['\n']))⟩ := by
  obtain ⟨e, he, hm, _⟩ := env_exists 1000 (by norm_num) (0, 0)
  refine ⟨e, he, ?_⟩
  have hnd : ∀ c : Char, ¬ Dashed [c] := by
    rintro c ⟨r, hr⟩
    simp at hr
  have hdir : (caseDisk true none).dir ['d'] = some [['1', '.', 'b', 'i', 'n'], ['x'], ['0', '.', 'b', 'i', 'n']] := rfl
  obtain ⟨all, a1, a2, a3⟩ := (C80_files sortsTexts_exists (caseDisk true none) ['d'] 1000000).2 _ hdir
  have hall : all = [['d', '/', '0', '.', 'b', 'i', 'n'], ['d', '/', '1', '.', 'b', 'i', 'n']] :=
    List.Perm.eq_of_pairwise' a2 (by decide) (a1.trans (by decide))
  rw [hall] at a3
  obtain ⟨_, h⟩ := C82_gicp (e := e) (exec := fun _ => ⟨.sequential, .sequential, fun _ _ => .serial, fun _ _ => .serial⟩) (caseSetup e (fun _ => 1) fmt) sortsTexts_exists rfl (List.Perm.refl _) (caseDisk true none)
    (prog := ['p']) (data := ['d']) (out := ['o']) (hnd _) (hnd _) (hnd _) [.numThreads ['2'] 2, .engine "small_gicp_tbb".toList] (by
      intro x hx
      simp only [List.mem_cons, List.not_mem_nil, or_false] at hx
      rcases hx with rfl | rfl
      · exact ⟨rfl, hnd _⟩
      · rintro ⟨r, hr⟩
        simp at hr) he (by decide) (by show (1 / 4 : ℝ) ≠ 0; norm_num) (by show (1 : Int) ≤ 20; norm_num) (by rw [hm]; norm_num) a3
    (frames := [[], []]) (List.Forall₂.cons (Or.inl ⟨rfl, rfl⟩) (List.Forall₂.cons (Or.inl ⟨rfl, rfl⟩) List.Forall₂.nil)) (by
      intro i ps hp
      have : ps = [] := by
        match i, hp with
        | 0, hp => cases hp; rfl
        | 1, hp => cases hp; rfl
      subst this
      exact ⟨by simp, by simp, fun out _ => (plainFrame_ok e (leaf := 1) (pts := []) (by simp) (by simp) (by simp)).2 out⟩)
  obtain ⟨tr, h1, h2⟩ := h (by
    rintro ⟨i, ps, _, e2, e3⟩
    match i, e2 with
    | 0, e2 => cases e2; exact e3 rfl)
  obtain ⟨hl, h0, _, hsame, _⟩ := h1
  match tr, hl with
  | [a, b], _ =>
    have ha := h0 a rfl
    have hb := hsame 0 [] a b rfl rfl rfl rfl
    rw [ha] at hb
    rw [ha, hb] at h2
    refine Eq.trans h2 ?_
    simp [caseDisk, caseSetup, trajectoryFile]

/-- **C82, violated.** A file that cannot be written: the program ends with code 0 all the same. -/
theorem C82_silent_violated : ∃ (s : Setup ℚ Unit) (disk : Disk), SortsTexts s.sort ∧ disk.writable ['o'] = false ∧ main s disk [['p'], ['d'], ['o']] = .ok ⟨0, none⟩ := by
  refine ⟨⟨⟨fun _ => .ok 0, fun _ => .ok 0⟩, fun _ => [], fun l => l.mergeSort (fun a b => decide (a ≤ b)), fun _ => 1, [(smallGicp, fun _ _ => .ok [])]⟩, ⟨fun _ => some [], fun _ => none, fun _ => false⟩,
    sortsTexts_exists, rfl, ?_⟩
  simp [main, rd, scan, createOdometry, kittiDataset, datasetFiles, convert, smallGicp, kwVisualize, kwNumThreads, kwNumNeighbors, kwDownsampling, kwVoxel, kwEngine]
  rfl

end Cases

end Verif.Props
