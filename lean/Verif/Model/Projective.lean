import Verif.Model.Arith
import Verif.Model.KnnResult
import Mathlib.Analysis.SpecialFunctions.Trigonometric.Inverse
import Mathlib.Analysis.SpecialFunctions.Complex.Arg

/-!
Model of `include/small_gicp/ann/projective_search.hpp`. The projection, the border policies and the arithmetic are parameters, so
that the model covers every instance of the template; the shipped projection and policies are defined here as well.
-/

namespace Verif.Projective

open Verif Verif.Knn

/-- `BorderClamp` (projective_search.hpp:30-33). -/
def borderClamp (x : Int) (_width : Int) : Int := x

/-- `BorderRepeat` (projective_search.hpp:36-39). -/
def borderRepeat (x width : Int) : Int := if x < 0 then x + width else if x ≥ width then x - width else x

/-- The result of an `int` operation; outside the range of `int` it is undefined behaviour. -/
def toInt32 (x : Int) : Res Int := if -2 ^ 31 ≤ x ∧ x < 2 ^ 31 then .ok x else .error .intOverflow

/-- Template arguments, and `cast x n` for `static_cast<int>(x * n)`. -/
structure Config (D : Type) where
  project : Pt D → D × D
  cast : D → Nat → Res Int
  borderH : Int → Int → Int
  borderV : Int → Int → Int

/-- `index_map`: `rows` times `cols` entries, here row by row, and the two windows (projective_search.hpp:143-147). -/
structure Index where
  cols : Nat
  rows : Nat
  cells : List Nat
  windowH : Int
  windowV : Int
  deriving DecidableEq

/-- `invalid_index` (projective_search.hpp:141). -/
def invalidIndex : Nat := 2 ^ 32 - 1

variable {D : Type} [LT D] [LE D] [DecidableLT D] [DecidableLE D]

/-- The pixel of a point (projective_search.hpp:55-57, 109-111). -/
def pixel (cfg : Config D) (cols rows : Nat) (p : Pt D) : Res (Int × Int) := do
  let uv := cfg.project p
  let u ← cfg.cast uv.1 cols
  let v ← cfg.cast uv.2 rows
  .ok (u, v)

/-- One turn of the loop of the constructor (projective_search.hpp:54-62). The index is stored as `uint32_t`. -/
def insertPoint (cfg : Config D) (cols rows : Nat) (cells : List Nat) (p : Pt D) (i : Nat) : Res (List Nat) := do
  let (u, v) ← pixel cfg cols rows p
  if u < 0 ∨ u ≥ cols ∨ v < 0 ∨ v ≥ rows then .ok cells
  else wr cells (v.toNat * cols + u.toNat) (toU32 i)

/-- The loop of the constructor over the points from index `i` on. -/
def insertFrom (cfg : Config D) (cols rows : Nat) : Nat → List (Pt D) → List Nat → Res (List Nat)
  | _, [], cells => .ok cells
  | i, p :: ps, cells => do
    let cells ← insertPoint cfg cols rows cells p i
    insertFrom cfg cols rows (i + 1) ps cells

/-- Constructor (projective_search.hpp:49-64). Width and height are not negative. -/
def build (cfg : Config D) (cols rows : Nat) (points : List (Pt D)) : Res Index := do
  let cells ← insertFrom cfg cols rows 0 points (List.replicate (rows * cols) invalidIndex)
  .ok ⟨cols, rows, cells, 10, 5⟩

/-- The values `-w, ..., w` of a window loop. -/
def window (w : Int) : List Int := (List.range (2 * w + 1).toNat).map fun (j : Nat) => (j : Int) - w

/-- The inner loop (projective_search.hpp:119-136); the flag says that the search has returned. -/
def rowLoop (o : Ops D) (cfg : Config D) (points : List (Pt D)) (m : Index) (query : Pt D) (epsilon : D) (u v : Int) :
    List Int → KnnResult D → Res (Bool × KnnResult D)
  | [], r => .ok (false, r)
  | du :: dus, r => do
    let x ← toInt32 (u + du)
    let uc := cfg.borderH x m.cols
    if uc < 0 ∨ uc ≥ m.cols then rowLoop o cfg points m query epsilon u v dus r
    else do
      let index ← rd m.cells (v.toNat * m.cols + uc.toNat)
      if index = invalidIndex then rowLoop o cfg points m query epsilon u v dus r
      else do
        let p ← rd points index
        let r ← r.push id index (Pt.sqDist o p query)
        if ← fulfilled epsilon r then .ok (true, r)
        else rowLoop o cfg points m query epsilon u v dus r

/-- The outer loop (projective_search.hpp:113-137). -/
def imageLoop (o : Ops D) (cfg : Config D) (points : List (Pt D)) (m : Index) (query : Pt D) (epsilon : D) (u v : Int) :
    List Int → KnnResult D → Res (KnnResult D)
  | [], r => .ok r
  | dv :: dvs, r => do
    let y ← toInt32 (v + dv)
    let vc := cfg.borderV y m.rows
    if vc < 0 ∨ vc ≥ m.rows then imageLoop o cfg points m query epsilon u v dvs r
    else do
      let (stop, r) ← rowLoop o cfg points m query epsilon u vc (window m.windowH) r
      if stop then .ok r
      else imageLoop o cfg points m query epsilon u v dvs r

/-- `knn_search` (projective_search.hpp:83-87 with `N = -1`, 96-100 with static `N`, 104-138); `nearest_neighbor_search` (72-74)
is `N = 1`. -/
def knnSearch (o : Ops D) (maxD : D) (cfg : Config D) (points : List (Pt D)) (m : Index) (N k : Int) (indices : List Nat) (dists : List D)
    (query : Pt D) (epsilon : D) : Res (KnnResult D) := do
  let r ← construct maxD N indices dists k
  let (u, v) ← pixel cfg m.cols m.rows query
  imageLoop o cfg points m query epsilon u v (window m.windowV) r

/-! ### the shipped projection, over the real numbers -/

/-- `EquirectangularProjection` (projective_search.hpp:13-27); `std::atan2(y, x)` is the argument of `x + iy`. -/
noncomputable def equirectangular (p : Pt ℝ) : ℝ × ℝ :=
  let n := p.x ^ 2 + p.y ^ 2 + p.z ^ 2
  if n < 1 / 1000 then (1 / 2, 1 / 2)
  else
    let norm := Real.sqrt n
    let lat := -Real.arcsin (p.y / norm)
    let lon := Complex.arg ⟨p.z / norm, p.x / norm⟩
    (lon / (2 * Real.pi) + 1 / 2, lat / Real.pi + 1 / 2)

/-- Conversion of a real number to `int`: towards zero, undefined outside the range. -/
noncomputable def castReal (x : ℝ) (n : Nat) : Res Int :=
  toInt32 (if 0 ≤ x * n then ⌊x * n⌋ else ⌈x * n⌉)

/-- The default template arguments (projective_search.hpp:42). -/
noncomputable def defaultConfig : Config ℝ := ⟨equirectangular, castReal, borderRepeat, borderClamp⟩

end Verif.Projective
