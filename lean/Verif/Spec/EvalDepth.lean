import Verif.Spec.ParseCost

/-
The height of the constraints that apply to an entry.
-/

namespace P4C.Spec

/-- The height of a constraint; 0 if there is none. -/
def heightOf : Option Expr → Nat
  | some e => height e
  | none => 0

/-- The largest of some numbers; 0 if there are none. -/
def largest : List Nat → Nat
  | [] => 0
  | n :: ns => max n (largest ns)

/-- The height of the highest constraint that applies to an entry: that of its table, or that of one of its actions. -/
def heightFor (ci : ConstraintInfo) (entry : RtEntry) : Nat :=
  max (heightOf ((lookup entry.tableId ci.tables).bind (·.constraint)))
    (largest (((actionsOf entry.action).getD []).map fun a => heightOf ((lookup a.actionId ci.actions).bind (·.constraint))))

/-- The length of the longest text of a constraint that applies to an entry. -/
def longestFor (ci : ConstraintInfo) (entry : RtEntry) : Nat :=
  max (((lookup entry.tableId ci.tables).map (·.source.str.length)).getD 0)
    (largest (((actionsOf entry.action).getD []).map fun a => ((lookup a.actionId ci.actions).map (·.source.str.length)).getD 0))

/-- The constraint `true`, negated `n` times. -/
def negations : Nat → SExpr
  | 0 => .bool true
  | n + 1 => .not (negations n)

end P4C.Spec
