/-!
Specification of the padded results of the Python search functions.
-/

namespace Verif.Spec

/-- A row of `k` places holding the neighbours `found`, padded with `none` and `far`. -/
def paddedRow {D : Type} (k none : Nat) (far : D) (found : List (Nat × D)) : List Nat × List D :=
  (found.map Prod.fst ++ List.replicate (k - found.length) none, found.map Prod.snd ++ List.replicate (k - found.length) far)

end Verif.Spec
