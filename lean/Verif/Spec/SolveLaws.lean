import Verif.Spec.SolveSigned
import Verif.Spec.Compose

/-
Sequences of constraints added to a solver (C79).
-/

namespace P4C.Spec

/-- The texts, added one after the other, are all accepted. -/
def AllAccepted (z : Z3Oracle) (sys : Sys) : Solver → List Str → Prop
  | _, [] => True
  | s, text :: texts => ∃ s', s.addConstraintStr z sys text = (.ok true, s') ∧ AllAccepted z sys s' texts

end P4C.Spec
