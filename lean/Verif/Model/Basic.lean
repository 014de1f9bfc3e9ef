/-!
Outcomes of C++ code that are not a normal return, and bounds-checked memory access.

`/repo` code indexes raw pointers and `std::vector::operator[]` without checks; an access outside the
array is undefined behaviour. Here it is the distinct outcome `Fault.oob`.
-/

namespace Verif

/-- Abnormal outcomes. `oob`, `uninit`, `divByZero`, `intOverflow`, `nullDeref` are undefined behaviour;
`abort` is `std::abort`, `exception` a thrown exception, `stackOverflow` unbounded recursion. -/
inductive Fault where
  | oob
  | uninit
  | divByZero
  | intOverflow
  | nullDeref
  | abort
  | exception
  | stackOverflow
  deriving DecidableEq, Repr

abbrev Res := Except Fault

/-- Array read `a[i]`. -/
def rd {α : Type _} (l : List α) (i : Nat) : Res α :=
  match l[i]? with
  | some a => .ok a
  | none => .error .oob

/-- Array write `a[i] = x`. -/
def wr {α : Type _} (l : List α) (i : Nat) (x : α) : Res (List α) :=
  if i < l.length then .ok (l.set i x) else .error .oob

/-- The elements of `[first, last)`. -/
def slice {α : Type} (l : List α) (first last : Nat) : List α := (l.drop first).take (last - first)

/-- Overwrite `[first, last)`. -/
def overwrite {α : Type} (l : List α) (first last : Nat) (seg : List α) : List α :=
  l.take first ++ seg ++ l.drop last

end Verif
