import Verif.Model.Benchmark
import Verif.Props.PointFiles
import Verif.Props.PointCloud
import Mathlib.Data.List.Lex
import Mathlib.Data.Char
import Mathlib.Data.List.Sort
import Mathlib.Tactic.IntervalCases

/-!
C80. Data sets: the frames are the point files of the directory in the order of their names, whatever order the directory is listed in.
-/

set_option linter.unusedSectionVars false
set_option linter.unusedSimpArgs false
set_option linter.unnecessarySeqFocus false

namespace Verif.Spec

open Verif Verif.Files

/-- A sorting function on strings. -/
def SortsTexts (sort : List (List Char) → List (List Char)) : Prop := ∀ l, (sort l).Perm l ∧ (sort l).Pairwise (· ≤ ·)

/-- A name that ends in `.bin` and has something before it. -/
def BinName (n : List Char) : Prop := ['.', 'b', 'i', 'n'] <:+ n ∧ 4 < n.length

instance (n : List Char) : Decidable (BinName n) := by unfold BinName; infer_instance

/-- `ps` are the complete points of the content of a file, with `w` set to one; a file that cannot be read has none. -/
def HoldsPoints (content : Option (List Byte)) (ps : List V4) : Prop :=
  (content = none ∧ ps = []) ∨ ∃ (P : List V4) (tail : List Byte), content = some (P.flatMap V4.bytes ++ tail) ∧ tail.length < 16 ∧ ps = P.map (fun v => ⟨v.x, v.y, v.z, ⟨0, 0, 0x80, 0x3f⟩⟩)

/-- The decimal digits of `i`, with leading zeros, `w` of them. -/
def paddedDigits : Nat → Nat → List Char
  | 0, _ => []
  | w + 1, i => paddedDigits w (i / 10) ++ [Char.ofNat (48 + i % 10)]

/-- A numbered name as in the KITTI data set: `000017.bin`. -/
def numberedName (w i : Nat) : List Char := paddedDigits w i ++ ['.', 'b', 'i', 'n']

end Verif.Spec

namespace Verif.Props

open Verif Verif.Benchmark Verif.Spec Verif.Files Verif.PointCloud Verif.Proofs

/-! ### names -/

theorem extension_bin (name : Text) : extension name = dotBin ↔ BinName name := by
  constructor
  · intro h
    unfold extension at h
    simp only [] at h
    split at h
    · rename_i hlt
      have h1 : (name.reverse.takeWhile (· ≠ '.')).reverse = ['b', 'i', 'n'] := by simpa [dotBin] using h
      have h2 : name.reverse.takeWhile (· ≠ '.') = ['n', 'i', 'b'] := by rw [← List.reverse_reverse (name.reverse.takeWhile _), h1]; rfl
      have h3 := List.takeWhile_append_dropWhile (p := fun c : Char => decide (c ≠ '.')) (l := name.reverse)
      rw [h2] at hlt
      rw [h2] at h3
      cases hd : name.reverse.dropWhile (fun c => decide (c ≠ '.')) with
      | nil =>
        rw [hd] at h3
        have := congrArg List.length h3
        simp at this
        simp at hlt
        omega
      | cons c r =>
        have hc : c = '.' := by
          have := List.head_dropWhile_not (l := name.reverse) (fun c : Char => decide (c ≠ '.')) (by rw [hd]; simp)
          simp only [hd, List.head_cons] at this
          simpa using this
        subst hc
        rw [hd] at h3
        have h4 : name = r.reverse ++ ['.', 'b', 'i', 'n'] := by
          have := congrArg List.reverse h3
          simpa using this.symm
        refine ⟨⟨r.reverse, h4.symm⟩, ?_⟩
        simpa using hlt
    · cases h
  · rintro ⟨⟨stem, rfl⟩, hl⟩
    have h1 : (stem ++ ['.', 'b', 'i', 'n']).reverse.takeWhile (fun c => decide (c ≠ '.')) = ['n', 'i', 'b'] := by
      rw [List.reverse_append]
      simp [List.takeWhile]
    unfold extension
    simp only [h1]
    rw [if_pos (by simpa using hl)]
    rfl

theorem join_prefix (path : Text) : ∃ p : Text, ∀ n, join path n = p ++ n := by
  unfold join
  split
  · exact ⟨path, fun n => rfl⟩
  · exact ⟨path ++ ['/'], fun n => by simp⟩

theorem filter_bin (names : List Text) : names.filter (fun n => decide (extension n = dotBin)) = names.filter (fun n => decide (BinName n)) := by
  refine List.filter_congr fun n _ => ?_
  simp only [extension_bin]

/-- **C80, files.** The files are those with names that end in `.bin`, in the order of their names; if there are more than allowed, the last ones are left out. A directory that cannot be
listed is an exception. -/
theorem C80_files {sort : List Text → List Text} (hs : SortsTexts sort) (disk : Disk) (path : Text) (max : Nat) :
    (disk.dir path = none → datasetFiles sort disk path max = .error .exception) ∧
    ∀ names, disk.dir path = some names → ∃ all : List Text, all.Perm ((names.filter (fun n => decide (BinName n))).map (join path)) ∧ all.Pairwise (· ≤ ·) ∧
      datasetFiles sort disk path max = .ok (all.take max) := by
  refine ⟨fun h => by unfold datasetFiles; rw [h], fun names h => ⟨_, (hs _).1, (hs _).2, ?_⟩⟩
  unfold datasetFiles
  rw [h]
  simp only [filter_bin]
  split
  · rfl
  · rw [List.take_of_length_le (by omega)]

/-- **C80, order.** Neither the order in which the directory is listed nor the way of sorting matters. -/
theorem C80_order {sort sort' : List Text → List Text} (hs : SortsTexts sort) (hs' : SortsTexts sort') (disk disk' : Disk) (path : Text) (max : Nat) {names names' : List Text}
    (h : disk.dir path = some names) (h' : disk'.dir path = some names') (hp : names.Perm names') :
    datasetFiles sort disk path max = datasetFiles sort' disk' path max := by
  obtain ⟨a, a1, a2, a3⟩ := (C80_files hs disk path max).2 _ h
  obtain ⟨b, b1, b2, b3⟩ := (C80_files hs' disk' path max).2 _ h'
  have : a = b := by
    have hperm : a.Perm b := (a1.trans ((hp.filter _).map _)).trans b1.symm
    exact hperm.eq_of_pairwise' a2 b2
  rw [a3, b3, this]

/-! ### contents -/

theorem holds_read (content : Option (List Byte)) : ∃ ps, readPoints content = .ok ps ∧ HoldsPoints content ps := by
  cases content with
  | none => exact ⟨[], rfl, .inl ⟨rfl, rfl⟩⟩
  | some bytes =>
    obtain ⟨P, tail, h1, h2, _⟩ := bytes_split _ bytes rfl
    refine ⟨_, by rw [h1]; exact C56_roundtrip P tail h2, .inr ⟨P, tail, by rw [h1]; rfl, h2, rfl⟩⟩

/-- The points of a file are determined by its content. -/
theorem holds_unique {content : Option (List Byte)} {ps qs : List V4} (h : HoldsPoints content ps) (h' : HoldsPoints content qs) : ps = qs := by
  have key : ∀ {ps}, HoldsPoints content ps → readPoints content = .ok ps := by
    rintro ps (⟨rfl, rfl⟩ | ⟨P, tail, rfl, h2, rfl⟩)
    · rfl
    · exact C56_roundtrip P tail h2
  have := (key h).symm.trans (key h')
  cases this
  rfl

/-- **C80, frames.** Every data set whose directory can be listed is read without a fault; each frame holds the points of its file. -/
theorem C80_frames {sort : List Text → List Text} (disk : Disk) (path : Text) (max : Nat) {files : List Text} (h : datasetFiles sort disk path max = .ok files) :
    ∃ frames, kittiDataset sort disk path max = .ok frames ∧ List.Forall₂ (fun f ps => HoldsPoints (disk.file f) ps) files frames := by
  unfold kittiDataset
  rw [h, ok_bind]
  clear h
  induction files with
  | nil => exact ⟨[], rfl, .nil⟩
  | cons f files ih =>
    obtain ⟨frames, h1, h2⟩ := ih
    obtain ⟨ps, h3, h4⟩ := holds_read (disk.file f)
    refine ⟨ps :: frames, ?_, .cons h4 h2⟩
    rw [List.mapM_cons, h3, ok_bind, h1]
    rfl

/-! ### numbered files -/

theorem paddedDigits_length : ∀ w i, (paddedDigits w i).length = w
  | 0, _ => rfl
  | w + 1, i => by rw [paddedDigits, List.length_append, paddedDigits_length w]; rfl

theorem append_lt {a b : Text} (hl : a.length = b.length) (h : a < b) (s t : Text) : a ++ s < b ++ t := by
  induction a generalizing b with
  | nil =>
    cases b with
    | nil => exact absurd h (lt_irrefl _)
    | cons _ _ => cases hl
  | cons x a ih =>
    cases b with
    | nil => cases hl
    | cons y b =>
      rw [List.cons_lt_cons_iff] at h
      rw [List.cons_append, List.cons_append, List.cons_lt_cons_iff]
      rcases h with h | ⟨h1, h2⟩
      · exact .inl h
      · exact .inr ⟨h1, ih (by simpa using hl) h2⟩

theorem digit_lt {a b : Nat} (hb : b < 10) (h : a < b) : Char.ofNat (48 + a) < Char.ofNat (48 + b) := by
  interval_cases b <;> interval_cases a <;> decide

theorem paddedDigits_lt : ∀ (w : Nat) {i j : Nat}, i < j → j < 10 ^ w → paddedDigits w i < paddedDigits w j
  | 0, i, j, h, hj => by simp at hj; omega
  | w + 1, i, j, h, hj => by
    rw [paddedDigits, paddedDigits]
    rcases Nat.lt_or_ge (i / 10) (j / 10) with h1 | h1
    · exact append_lt (by rw [paddedDigits_length, paddedDigits_length]) (paddedDigits_lt w h1 (by rw [pow_succ] at hj; omega)) _ _
    · have : i / 10 = j / 10 := by omega
      rw [this]
      refine List.append_left_lt ?_
      rw [List.cons_lt_cons_iff]
      exact .inl (digit_lt (by omega) (by omega))

/-- **C80, numbered files.** Files numbered from zero with leading zeros are read in the order of their numbers. -/
theorem C80_numbered {sort : List Text → List Text} (hs : SortsTexts sort) (disk : Disk) (path : Text) {names : List Text} (h : disk.dir path = some names) {w n max : Nat}
    (hw : 0 < w) (hn : n ≤ 10 ^ w) (hmax : n ≤ max) (others : List Text) (ho : ∀ m ∈ others, ¬ BinName m) (hp : names.Perm (others ++ (List.range n).map (numberedName w))) :
    datasetFiles sort disk path max = .ok ((List.range n).map (fun i => join path (numberedName w i))) := by
  obtain ⟨all, h1, h2, h3⟩ := (C80_files hs disk path max).2 _ h
  have hbin : ∀ i, BinName (numberedName w i) := fun i => ⟨⟨_, rfl⟩, by rw [numberedName, List.length_append, paddedDigits_length]; simp; omega⟩
  have hf : (others ++ (List.range n).map (numberedName w)).filter (fun n => decide (BinName n)) = (List.range n).map (numberedName w) := by
    rw [List.filter_append, List.filter_eq_nil_iff.2 (fun m hm => by simpa using ho m hm), List.nil_append, List.filter_eq_self]
    intro m hm
    obtain ⟨i, _, rfl⟩ := List.mem_map.1 hm
    simpa using hbin i
  have hperm : all.Perm ((List.range n).map (fun i => join path (numberedName w i))) := by
    have := h1.trans ((hp.filter _).map (join path))
    rw [hf, List.map_map] at this
    exact this
  obtain ⟨p, hjoin⟩ := join_prefix path
  have hsorted : ((List.range n).map (fun i => join path (numberedName w i))).Pairwise (· ≤ ·) := by
    rw [List.pairwise_map]
    refine List.Pairwise.imp_of_mem ?_ (List.pairwise_lt_range (n := n))
    intro i j _ hj hij
    rw [hjoin, hjoin]
    refine le_of_lt (List.append_left_lt ?_)
    exact append_lt (by rw [paddedDigits_length, paddedDigits_length]) (paddedDigits_lt w hij (lt_of_lt_of_le (List.mem_range.1 hj) hn)) _ _
  have : all = _ := hperm.eq_of_pairwise' h2 hsorted
  rw [h3, this, List.take_of_length_le (by simpa using hmax)]

/-! ### conversion -/

/-- **C80, clouds.** Each cloud has the points of its frame; with `release` nothing is left for a second call, without it a second call gives the same. -/
theorem C80_convert {K M : Type} [Field K] (value : F32 → K) (hone : value ⟨0, 0, 0x80, 0x3f⟩ = 1) (disk : Disk) {files : List Text} {frames : List (List V4)}
    (h : List.Forall₂ (fun f ps => HoldsPoints (disk.file f) ps) files frames) :
    ∃ clouds : List (Cloud (Fin 4 → K) M), convert value frames true = .ok (clouds, []) ∧ convert value frames false = .ok (clouds, frames) ∧
      (convert value [] true : Res (List (Cloud (Fin 4 → K) M) × _)) = .ok ([], []) ∧
      clouds.map (·.points) = frames.map (fun ps => ps.map (fun v => some ![value v.x, value v.y, value v.z, 1])) ∧
      ∀ c ∈ clouds, (∀ s ∈ c.normals, s = none) ∧ ∀ s ∈ c.covs, s = none := by
  have hm : frames.mapM (fun raw => (Cloud.ofPoints (castPoint value) raw : Res (Cloud (Fin 4 → K) M)))
      = .ok (frames.map (fun raw => ⟨raw.map (fun p => some (castPoint value p)), List.replicate raw.length none, List.replicate raw.length none⟩)) :=
    mapM_ok _ _ _ fun raw _ => C50_constructor _ _
  refine ⟨_, by unfold convert; rw [hm]; rfl, by unfold convert; rw [hm]; rfl, rfl, ?_, ?_⟩
  · rw [List.map_map]
    refine List.map_congr_left fun ps hps => ?_
    obtain ⟨i, hi⟩ := List.getElem?_of_mem hps
    obtain ⟨p, rfl⟩ := List.getElem?_eq_some_iff.1 hi
    have hh := h.get (i := i) (by rw [h.length_eq]; exact p) p
    refine List.map_congr_left fun v hv => ?_
    simp only [List.get_eq_getElem] at hh
    rcases hh with ⟨_, h0⟩ | ⟨P, tail, _, _, h0⟩
    · rw [h0] at hv
      cases hv
    · rw [h0] at hv
      obtain ⟨u, _, rfl⟩ := List.mem_map.1 hv
      simp only [castPoint, hone]
  · intro c hc
    obtain ⟨raw, _, rfl⟩ := List.mem_map.1 hc
    exact ⟨fun s hs => List.eq_of_mem_replicate hs, fun s hs => List.eq_of_mem_replicate hs⟩

/-! ### concrete cases -/

theorem sortsTexts_exists : SortsTexts (fun l : List Text => l.mergeSort (fun a b => decide (a ≤ b))) := by
  intro l
  refine ⟨List.mergeSort_perm _ _, ?_⟩
  have := List.pairwise_mergeSort (le := fun a b : Text => decide (a ≤ b)) (fun a b c => by simpa using le_trans) (fun a b => by simpa using le_total a b) l
  simpa using this

/-- Three files and a text file, listed in some order. -/
example : ∃ sort, SortsTexts sort ∧ ∀ disk : Disk, disk.dir ['d'] = some [numberedName 2 1, ['a', '.', 't', 'x', 't'], numberedName 2 10, numberedName 2 0] →
    ∃ files, datasetFiles sort disk ['d'] 2 = .ok files ∧ files = [['d', '/', '0', '0', '.', 'b', 'i', 'n'], ['d', '/', '0', '1', '.', 'b', 'i', 'n']] := by
  refine ⟨_, sortsTexts_exists, fun disk h => ?_⟩
  obtain ⟨all, h1, h2, h3⟩ := (C80_files sortsTexts_exists disk ['d'] 2).2 _ h
  refine ⟨_, h3, ?_⟩
  have : all = [['d', '/', '0', '0', '.', 'b', 'i', 'n'], ['d', '/', '0', '1', '.', 'b', 'i', 'n'], ['d', '/', '1', '0', '.', 'b', 'i', 'n']] := by
    refine List.Perm.eq_of_pairwise' h2 (by decide) (h1.trans ?_)
    decide
  rw [this]
  rfl

/-- Numbers without leading zeros are not read in their order: the tenth file comes before the ninth. -/
example : (['1', '0', '.', 'b', 'i', 'n'] : Text) < ['9', '.', 'b', 'i', 'n'] := by decide

/-- Neither a file that is only called `.bin` nor one with another extension belongs to the data set. -/
example : ¬ BinName ['.', 'b', 'i', 'n'] ∧ ¬ BinName ['0', '.', 't', 'x', 't'] ∧ BinName ['0', '.', 'b', 'i', 'n'] := by decide

end Verif.Props
