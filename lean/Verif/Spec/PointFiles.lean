import Verif.Model.PointFiles

/-!
Specification of the point files: what a writer of the format puts into a file. Only the types of bytes, floats and vectors are shared with
the model.
-/

namespace Verif.Spec

open Verif.Files

/-- A line of the header of a simple PLY file: the number of vertices, a float property, or anything else (comments, format). -/
inductive PlyLine where
  | other (text : List Byte)
  | vertex (number : List Byte)
  | property (name : List Byte)

/-- The keywords of the format. -/
def plyElement : List Byte := ['e', 'l', 'e', 'm', 'e', 'n', 't'].map Char.toUInt8
def plyVertexWord : List Byte := ['v', 'e', 'r', 't', 'e', 'x'].map Char.toUInt8
def plyProperty : List Byte := ['p', 'r', 'o', 'p', 'e', 'r', 't', 'y'].map Char.toUInt8
def plyFloat : List Byte := ['f', 'l', 'o', 'a', 't'].map Char.toUInt8
def plyEnd : List Byte := ['e', 'n', 'd', '_', 'h', 'e', 'a', 'd', 'e', 'r'].map Char.toUInt8

/-- The text of a line. -/
def PlyLine.text : PlyLine → List Byte
  | .other t => t
  | .vertex ds => plyElement ++ [32] ++ plyVertexWord ++ [32] ++ ds
  | .property n => plyProperty ++ [32] ++ plyFloat ++ [32] ++ n

/-- Value of a string of digits. -/
def decimal (ds : List Byte) : Nat := ds.foldl (fun a c => 10 * a + (c.toNat - 48)) 0

/-- Well-formed lines: numbers are digits with a value in the range of `long`; names are words; other lines are not empty, are one line, and do not
begin with a keyword. -/
def PlyLine.Ok : PlyLine → Prop
  | .other t => t ≠ [] ∧ 10 ∉ t ∧ t ≠ plyEnd ∧ ¬ plyElement <+: t ∧ ¬ plyProperty <+: t
  | .vertex ds => ds ≠ [] ∧ (∀ c ∈ ds, 48 ≤ c ∧ c ≤ 57) ∧ decimal ds < 2 ^ 63
  | .property n => n ≠ [] ∧ ∀ c ∈ n, ¬ (c = 32 ∨ (9 ≤ c ∧ c ≤ 13))

/-- The names of the properties of a header. -/
def plyNames (lines : List PlyLine) : List (List Byte) :=
  lines.filterMap fun
    | .property n => some n
    | _ => none

/-- The numbers of vertices stated in a header. -/
def plyNumbers (lines : List PlyLine) : List Nat :=
  lines.filterMap fun
    | .vertex ds => some (decimal ds)
    | _ => none

/-- The bytes of a header. -/
def plyHeader (lines : List PlyLine) : List Byte :=
  (lines.flatMap fun l => l.text ++ [10]) ++ plyEnd ++ [10]

/-- A PLY file: header, vertices given by the values of their properties, and whatever follows. -/
def plyFile (lines : List PlyLine) (vertices : List (List F32)) (tail : List Byte) : List Byte :=
  plyHeader lines ++ (vertices.flatMap fun v => v.flatMap F32.bytes) ++ tail

/-- The point of a vertex: its first three values. -/
def plyPoint : List F32 → V4
  | x :: y :: z :: _ => ⟨x, y, z, ⟨0, 0, 0x80, 0x3f⟩⟩
  | _ => ⟨⟨0, 0, 0, 0⟩, ⟨0, 0, 0, 0⟩, ⟨0, 0, 0, 0⟩, ⟨0, 0, 0x80, 0x3f⟩⟩

/-- Header and vertices fit together. -/
structure PlyFits (lines : List PlyLine) (vertices : List (List F32)) : Prop where
  ok : ∀ l ∈ lines, l.Ok
  number : (plyNumbers lines).getLast? = some vertices.length
  width : ∀ v ∈ vertices, v.length = (plyNames lines).length

end Verif.Spec
