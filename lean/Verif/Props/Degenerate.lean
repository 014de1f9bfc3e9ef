import Verif.Props.KdTreeExamples

/-!
C09: degenerate searches. The first and third sentence of the property are false of the code; the negations are
proved here with concrete witnesses.
-/

namespace Verif.Props

open Verif Verif.Knn Verif.KdTree Verif.Proofs

/-- C09 (second clause, true). Asking for `k ≤ 0` neighbours is rejected by `abort()`, on every tree and query, before the
tree is read. -/
theorem C09_nonpositive_k_rejected {D : Type} [LT D] [LE D] [DecidableLT D] [DecidableLE D] (o : Ops D) (maxD eps : D)
    (points : List (Pt D)) (t : KdTree.Tree D) (fuel : Nat) (k : Int) (hk : k ≤ 0) (indices : List Nat) (dists : List D)
    (q : Pt D) : knnSearch o maxD points t fuel (-1) k indices dists q eps = .error .abort := by
  unfold knnSearch Knn.construct
  rw [if_neg (by omega), if_pos (by omega)]
  rfl

/-- C09 (first clause, false). The constructor accepts an empty cloud (it only prints a warning), but every search on
the resulting tree reads the uninitialised `root`. -/
theorem C09_empty_tree_search_is_undefined {D : Type} [LinearOrder D] (o : Ops D) (b : Builder D) (maxD eps : D)
    (fuel f2 : Nat) (k : Int) (hk : 0 < k) (indices : List Nat) (dists : List D) (hi : k.toNat ≤ indices.length)
    (hd : k.toNat ≤ dists.length) (q : Pt D) :
    ∃ t, KdTree.construct o b fuel [] = .ok t ∧ knnSearch o maxD [] t f2 (-1) k indices dists q eps = .error .uninit := by
  refine ⟨⟨[], [], none⟩, rfl, ?_⟩
  obtain ⟨r, h, _⟩ := construct_holds maxD (-1) indices dists k k.toNat (by simp) (by omega) (by omega) hi hd
  unfold knnSearch
  rw [h]
  rfl

/-- Distances with a NaN: every comparison with it is false (IEEE-754). -/
inductive FD where
  | num (i : Int)
  | nan
  deriving DecidableEq, Repr

namespace FD
def lt : FD → FD → Bool
  | num a, num b => decide (a < b)
  | _, _ => false
def le : FD → FD → Bool
  | num a, num b => decide (a ≤ b)
  | _, _ => false
instance : LT FD := ⟨fun a b => lt a b = true⟩
instance : LE FD := ⟨fun a b => le a b = true⟩
instance : DecidableLT FD := fun a b => inferInstanceAs (Decidable (lt a b = true))
instance : DecidableLE FD := fun a b => inferInstanceAs (Decidable (le a b = true))
def lift (f : Int → Int → Int) : FD → FD → FD
  | num a, num b => num (f a b)
  | _, _ => nan
def ops : Ops FD where
  zero := num 0
  add := lift (· + ·)
  sub := lift (· - ·)
  mul := lift (· * ·)
  div := lift (· / ·)
  sqNorm4 a b c d := lift (· + ·) (lift (· + ·) (lift (· * ·) a a) (lift (· * ·) b b)) (lift (· + ·) (lift (· * ·) c c) (lift (· * ·) d d))
  dot3 a b c x y z := lift (· + ·) (lift (· + ·) (lift (· * ·) a x) (lift (· * ·) b y)) (lift (· * ·) c z)
end FD

/-- A cloud with one NaN point: distances to the origin query are 1, NaN, 25. -/
def nanCloud : List (Pt FD) :=
  [⟨.num 1, .num 0, .num 0, .num 1⟩, ⟨.nan, .num 0, .num 0, .num 1⟩, ⟨.num 5, .num 0, .num 0, .num 1⟩]

/-- C09 (third clause, false). One NaN point hides the true nearest neighbour: for the query at the origin the
nearest-neighbour search returns point 2 (squared distance 25) although point 0 (squared distance 1) is closer. -/
theorem C09_nan_hides_neighbour : (do
    let t ← KdTree.construct FD.ops ⟨20, fun _ _ => .ok (.axis .x), fun l _ => l⟩ 5 nanCloud
    let r ← nearestNeighborSearch FD.ops (.num 1000) nanCloud t 5 [0] [.num 0] ⟨.num 0, .num 0, .num 0, .num 1⟩ (.num 0)
    return r.found : Res _) = .ok [(2, .num 25)] := by rfl

/-- The same search without the NaN point finds point 0. -/
example : (do
    let pts := nanCloud.eraseIdx 1
    let t ← KdTree.construct FD.ops ⟨20, fun _ _ => .ok (.axis .x), fun l _ => l⟩ 5 pts
    let r ← nearestNeighborSearch FD.ops (.num 1000) pts t 5 [0] [.num 0] ⟨.num 0, .num 0, .num 0, .num 1⟩ (.num 0)
    return r.found : Res _) = .ok [(0, .num 1)] := by rfl

/-- C09 (third clause) also fails for k = 2: a NaN candidate takes the first slot for good, so the second nearest real
candidate (index 2) is dropped. -/
theorem C09_nan_crowds_out_neighbour : (do
    let r ← Knn.construct (D := FD) (.num 1000) (-1) [0, 0] [.num 0, .num 0] 2
    let r ← r.pushAll id [(1, .nan), (0, .num 1), (2, .num 4)]
    return r.found : Res _) = .ok [(1, .nan), (0, .num 1)] := by rfl

end Verif.Props
