import Verif.Model.Basic

/-!
Model of `include/small_gicp/benchmark/read_points.hpp`. A file is its list of bytes; a `float` is its four bytes in memory order
(little endian, as on all platforms the code is used on). Writing to a file that has been opened succeeds, and memory suffices.
-/

namespace Verif.Files

open Verif

abbrev Byte := UInt8

/-- A `float` by its bytes. -/
structure F32 where
  b0 : Byte
  b1 : Byte
  b2 : Byte
  b3 : Byte
  deriving DecidableEq, Repr

/-- The value `1.0f`. -/
def F32.one : F32 := ⟨0, 0, 0x80, 0x3f⟩

def F32.zero : F32 := ⟨0, 0, 0, 0⟩

/-- `Eigen::Vector4f`. -/
structure V4 where
  x : F32
  y : F32
  z : F32
  w : F32
  deriving DecidableEq, Repr

/-- The bytes of a float, and of a vector. -/
def F32.bytes (f : F32) : List Byte := [f.b0, f.b1, f.b2, f.b3]
def V4.bytes (v : V4) : List Byte := v.x.bytes ++ v.y.bytes ++ v.z.bytes ++ v.w.bytes

/-- The `j`-th float of a memory block. -/
def floatAt (mem : List Byte) (j : Nat) : Res F32 := do
  let b0 ← rd mem (4 * j)
  let b1 ← rd mem (4 * j + 1)
  let b2 ← rd mem (4 * j + 2)
  let b3 ← rd mem (4 * j + 3)
  .ok ⟨b0, b1, b2, b3⟩

/-- The `i`-th vector of a memory block. -/
def vecAt (mem : List Byte) (i : Nat) : Res V4 := do
  let x ← floatAt mem (4 * i)
  let y ← floatAt mem (4 * i + 1)
  let z ← floatAt mem (4 * i + 2)
  let w ← floatAt mem (4 * i + 3)
  .ok ⟨x, y, z, w⟩

/-- `ifs.read(mem, count)` for a good stream with `rest` bytes left: as many bytes as there are, up to `count`, are stored. -/
def readInto (mem : List Byte) (count : Nat) (rest : List Byte) : Res (List Byte) :=
  if (rest.take count).length ≤ mem.length then .ok (rest.take count ++ mem.drop (rest.take count).length) else .error .oob

/-- `read_points` (read_points.hpp:15-33); `none` is a file that cannot be opened. The vector is zero-initialised here; all of its bytes are
overwritten. -/
def readPoints (file : Option (List Byte)) : Res (List V4) :=
  match file with
  | none => .ok []
  | some bytes => do
    let n := bytes.length / 16
    let mem ← readInto (List.replicate (16 * n) 0) (16 * n) bytes
    (List.range n).mapM fun i => do
      let v ← vecAt mem i
      .ok { v with w := F32.one }

/-- `write_points` (read_points.hpp:38-46): the content of the file afterwards. -/
def writePoints (points : List V4) : List Byte := points.flatMap V4.bytes

/-! ### read_ply -/

/-- ASCII strings as bytes. -/
def ascii (s : List Char) : List Byte := s.map Char.toUInt8

def kwElement : List Byte := ascii ['e', 'l', 'e', 'm', 'e', 'n', 't']
def kwVertex : List Byte := ascii ['v', 'e', 'r', 't', 'e', 'x']
def kwProperty : List Byte := ascii ['p', 'r', 'o', 'p', 'e', 'r', 't', 'y']
def kwFloat : List Byte := ascii ['f', 'l', 'o', 'a', 't']
def kwEndHeader : List Byte := ascii ['e', 'n', 'd', '_', 'h', 'e', 'a', 'd', 'e', 'r']

def newline : Byte := 10

/-- `std::isspace` in the "C" locale. -/
def isSpace (c : Byte) : Bool := c = 32 || (9 ≤ c && c ≤ 13)

def isDigit (c : Byte) : Bool := 48 ≤ c && c ≤ 57

/-- The words of a line, as extracted by `sst >> a >> b >> c`; `acc` is the current word, backwards. -/
def words (acc : List Byte) : List Byte → List (List Byte)
  | [] => if acc = [] then [] else [acc.reverse]
  | c :: cs => if isSpace c then (if acc = [] then words [] cs else acc.reverse :: words [] cs) else words (c :: acc) cs

/-- The `i`-th word, empty if there are not that many. -/
def word (line : List Byte) (i : Nat) : List Byte := ((words [] line)[i]?).getD []

/-- The digits at the beginning of a string, as a number continuing `acc`. -/
def digits (acc : Nat) : List Byte → Nat
  | [] => acc
  | c :: cs => if isDigit c then digits (10 * acc + (c.toNat - 48)) cs else acc

/-- `std::stol` of a word without leading white space: optional sign, digits, the rest is ignored; no digit or a value outside the range of
`long` is an exception. -/
def stol (s : List Byte) : Res Int :=
  let (neg, t) := match s with
    | c :: t => if c = 45 then (true, t) else if c = 43 then (false, t) else (false, s)
    | [] => (false, [])
  match t with
  | [] => .error .exception
  | c :: _ =>
    if isDigit c then
      let v : Int := if neg then -(digits 0 t : Int) else digits 0 t
      if -2 ^ 63 ≤ v ∧ v < 2 ^ 63 then .ok v else .error .exception
    else .error .exception

/-- State of the header loop: names of the properties and number of points. -/
structure Header where
  props : List (List Byte)
  num : Nat
  deriving DecidableEq

/-- What a line does (read_points.hpp:68-88): the new state, or `none` for `return {}`. A negative number of points is a
`std::length_error` of `resize`. -/
def headerLine (h : Header) (line : List Byte) : Res (Option Header) :=
  if kwElement.isPrefixOf line then
    if word line 0 ≠ kwElement ∨ word line 1 ≠ kwVertex then .ok none
    else do
      let n ← stol (word line 2)
      if n < 0 then .error .exception else .ok (some { h with num := n.toNat })
  else if kwProperty.isPrefixOf line then
    if word line 1 ≠ kwFloat then .ok none
    else .ok (some { h with props := h.props ++ [word line 2] })
  else .ok (some h)

/-- State after the header: the length of `line`, the header, the bytes left and whether the stream is still good. -/
structure AfterHeader where
  lineSize : Nat
  header : Header
  rest : List Byte
  good : Bool
  deriving DecidableEq

/-- The loop over the lines (read_points.hpp:63-89). `acc` is the current line, backwards. The loop ends with an empty line, with
`end_header` and at the end of the file. -/
def headerLoop (h : Header) (acc : List Byte) : List Byte → Res (Option AfterHeader)
  | [] =>
    if acc = [] ∨ acc.reverse = kwEndHeader then .ok (some ⟨acc.length, h, [], false⟩)
    else do
      match ← headerLine h acc.reverse with
      | none => .ok none
      | some h => .ok (some ⟨acc.length, h, [], false⟩)
  | c :: cs =>
    if c = newline then
      if acc = [] ∨ acc.reverse = kwEndHeader then .ok (some ⟨acc.length, h, cs, true⟩)
      else do
        match ← headerLine h acc.reverse with
        | none => .ok none
        | some h => headerLoop h [] cs
    else headerLoop h (c :: acc) cs

/-- The check of the properties (read_points.hpp:91-98). It only prints a warning, but it reads the first names: `properties[i]` for `i` up to
the first name that is not a single character. The length tested is that of the last line, not the number of properties. -/
def checkProperties (lineSize : Nat) (props : List (List Byte)) : Res Unit :=
  if lineSize < 3 then .ok ()
  else do
    let p0 ← rd props 0
    if p0.length ≠ 1 then .ok ()
    else do
      let p1 ← rd props 1
      if p1.length ≠ 1 then .ok ()
      else do
        let _ ← rd props 2
        .ok ()

/-- `read_ply` (read_points.hpp:52-109). The number of bytes read is that of four floats per point, whatever the number of properties
(line 101). -/
def readPly (file : Option (List Byte)) : Res (List V4) :=
  match file with
  | none => .ok []
  | some bytes => do
    match ← headerLoop ⟨[], 0⟩ [] bytes with
    | none => .ok []
    | some a => do
      checkProperties a.lineSize a.header.props
      let stride := a.header.props.length
      let n := a.header.num
      let mem ← readInto (List.replicate (4 * (stride * n)) 0) (16 * n) (if a.good then a.rest else [])
      (List.range n).mapM fun i => do
        let x ← floatAt mem (i * stride)
        let y ← floatAt mem (i * stride + 1)
        let z ← floatAt mem (i * stride + 2)
        .ok ⟨x, y, z, F32.one⟩

end Verif.Files
