import Verif.Spec.Obtain

/-
A constraint that is attached to a table, or given to a solver (C98).
-/

namespace P4C.Spec

/-- Two declarations of a table. The constraint `text` is attached to `d`; none is attached to `a`. -/
structure Moved (text : Str) (a d : TableDecl) : Prop where
  id : a.preamble.id = d.preamble.id
  keys : a.matchFields = d.matchFields
  free : Attached .table a.preamble none
  attached : Says .table d.preamble text

end P4C.Spec
