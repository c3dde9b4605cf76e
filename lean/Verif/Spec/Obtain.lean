import Verif.Spec.SolveSigned
import Verif.Spec.Express

/-
Which entries a constraint solver can be made to return (C95).
-/

namespace P4C.Spec

/-- The two have the same matches, up to their order, and the same priority. -/
structure SameUpToOrder (a b : RtEntry) : Prop where
  table : a.tableId = b.tableId
  matches_ : a.matches_.Perm b.matches_
  priority : a.priority = b.priority

/-- The names of keys that are not skipped can be written in constraints. -/
def KeysNameable (d : TableDecl) (skip : Str → Bool) : Prop :=
  ∀ f ∈ d.matchFields, skip f.name = false → ∀ p ∈ splitDots f.name, Ident p

/-- The solver answers `true` to the text and then returns the entry, up to the order of the matches. -/
def Obtains (z : Z3Oracle) (sys : Sys) (s : Solver) (text : Str) (entry : RtEntry) : Prop :=
  ∃ s' out s'', s.addConstraintStr z sys text = (.ok true, s') ∧ s'.concretize z = (.ok out, s'') ∧ SameUpToOrder out entry

end P4C.Spec
