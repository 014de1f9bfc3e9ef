import Mathlib.Algebra.BigOperators.Group.List.Basic

/-! What a reduction has to compute, independently of the order of the work. -/

namespace Verif.Spec

/-- Every factor is linearised once; the systems of the factors that return one are summed. -/
def reduceSpec {F S : Type} [AddCommMonoid S] (lin : Nat → F → F × Option S) (fs : List F) : List F × S :=
  (fs.mapIdx (fun i f => (lin i f).1), (fs.mapIdx (fun i f => ((lin i f).2).getD 0)).sum)

/-- Sum of the errors of all factors. -/
def errorSpec {F E : Type} [AddCommMonoid E] (err : F → E) (fs : List F) : E := (fs.map err).sum

end Verif.Spec
