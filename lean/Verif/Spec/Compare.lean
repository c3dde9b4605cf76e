import Verif.Spec.Compose
import Verif.Spec.Runtime
import Verif.Spec.Weaken

/-
Two versions of a table (C106).
-/

namespace P4C.Spec

/-- The programs `p` and `p'` declare the tables `d` and `d'`, which differ at most in their names and constraints, and the same
actions. The constraint of `d'` is the text `b`. -/
structure Versions (p p' : P4Info) (d d' : TableDecl) (b : Str) : Prop where
  here : d ∈ p.tables
  there : d' ∈ p'.tables
  same : SameTableKeys d d'
  actions : p.actions = p'.actions
  text : Says .table d'.preamble b
  closed : Closed b

end P4C.Spec
