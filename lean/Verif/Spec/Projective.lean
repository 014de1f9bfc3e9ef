import Verif.Spec.Knn

/-!
Specification of the projective search, independent of the index map and of the search loops.
-/

namespace Verif.Spec

/-- Item `j` is the last of the `n` items lying in cell `c`. -/
def LastAt (At : Nat → Int × Int → Prop) (n : Nat) (c : Int × Int) (j : Nat) : Prop :=
  j < n ∧ At j c ∧ ∀ j', j < j' → j' < n → ¬ At j' c

/-- `c` is a cell of a `cols` times `rows` image that the border policies assign to some offset of a window around `q`. -/
def InWindow (borderH borderV : Int → Int → Int) (cols rows wh wv : Int) (q c : Int × Int) : Prop :=
  (0 ≤ c.1 ∧ c.1 < cols ∧ 0 ≤ c.2 ∧ c.2 < rows) ∧
  ∃ du dv, -wh ≤ du ∧ du ≤ wh ∧ -wv ≤ dv ∧ dv ≤ wv ∧ c = (borderH (q.1 + du) cols, borderV (q.2 + dv) rows)

/-- Different offsets of a window of half width `w` around `x` are mapped to different coordinates. -/
def Separates (border : Int → Int → Int) (size w x : Int) : Prop :=
  ∀ d d', -w ≤ d → d ≤ w → -w ≤ d' → d' ≤ w → border (x + d) size = border (x + d') size → d = d'

/-- The reduction of a coordinate to `[0, width)` modulo the width. -/
structure IsWrapOf (x width y : Int) : Prop where
  nonneg : 0 ≤ y
  lt : y < width
  congruent : ∃ t, y = x + t * width

end Verif.Spec
