import Verif.Spec.Verdict

/-
The size of constraints, as the number of nodes of their syntax trees.
-/

namespace P4C.Spec

/-- The number of nodes of an expression. -/
def nodes : Expr → Nat
  | .boolNeg _ e | .arithNeg _ e | .typeCast _ e | .field _ e _ => 1 + nodes e
  | .bin _ _ l r => 1 + nodes l + nodes r
  | _ => 1

/-- The number of nodes of a constraint; 0 if there is none. -/
def nodesOf : Option Expr → Nat
  | some e => nodes e
  | none => 0

/-- The number of nodes of the constraints that apply to an entry: that of its table, and those of its actions. -/
def nodesFor (ci : ConstraintInfo) (entry : RtEntry) : Nat :=
  nodesOf ((lookup entry.tableId ci.tables).bind (·.constraint)) +
  (((actionsOf entry.action).getD []).map fun a => nodesOf ((lookup a.actionId ci.actions).bind (·.constraint))).sum

/-- The length of the texts of the constraints that apply to an entry. -/
def textFor (ci : ConstraintInfo) (entry : RtEntry) : Nat :=
  (((lookup entry.tableId ci.tables).map (·.source.str.length)).getD 0) +
  (((actionsOf entry.action).getD []).map fun a => ((lookup a.actionId ci.actions).map (·.source.str.length)).getD 0).sum

end P4C.Spec
