import Verif.Spec.Entry

/-
The situations in which a verdict is expected.
-/

namespace P4C.Spec

/-- `c` is what the type checker makes of a constraint with abstract syntax `s`. -/
def Checked (sc : Scope) (c : Expr) (s : SExpr) : Prop :=
  ∃ src e, inferAndCheck src sc e = .ok c ∧ abs e = some s

/-- The entry `entry`, for a table `ti` whose accepted constraint is `s`, is consistent with the table and
described by `ρ`. -/
structure TableCase (ci : ConstraintInfo) (entry : RtEntry) (ti : TableInfo) (s : SExpr) (ρ : Env) :
    Prop where
  found : lookup entry.tableId ci.tables = some ti
  wf : TableWF ti
  widths : WidthsOk (sigOf (.table ti.keysByName))
  checked : ∃ c, ti.constraint = some c ∧ Checked (.table ti.keysByName) c s
  boolean : HasTy (sigOf (.table ti.keysByName)) s .boolean
  ok : EntryOk ti entry
  env : EntryEnv ti entry ρ

/-- The action invocation `a`, of an action `ai` whose accepted constraint is `s`, is complete and
described by `ρ`. -/
structure ActionCase (ci : ConstraintInfo) (a : RtAction) (ai : ActionInfo) (s : SExpr) (ρ : Env) :
    Prop where
  found : lookup a.actionId ci.actions = some ai
  wf : ActionWF ai
  widths : WidthsOk (sigOf (.action ai.paramsByName))
  bits : ∀ n pi, (n, pi) ∈ ai.paramsByName → Supported pi.ty → ∃ w, pi.ty = .fixedUnsigned w
  checked : ∃ c, ai.constraint = some c ∧ Checked (.action ai.paramsByName) c s
  boolean : HasTy (sigOf (.action ai.paramsByName)) s .boolean
  ok : ActionOk ai a
  complete : ActionComplete ai a
  env : ActionEnv ai a ρ

/-- The actions of an entry whose constraints are to be checked: none, a direct action, or the actions of
a one-shot action set in order. References to action profile members or groups, and an action field
without content, are not supported. -/
def actionsOf : Option TableAction → Option (List RtAction)
  | none => some []
  | some (.action a) => some [a]
  | some (.actionSet as) => some as
  | some (.memberId _) | some (.groupId _) | some .notSet => none

end P4C.Spec
