import Verif.Spec.EntryFault

/-
Which entries are accepted, in terms of the declarations of the program.
-/

namespace P4C.Spec

/-- The constraint of the table has the value `b` for the entry, where operands of connectives that do not matter need not
have a value. -/
def TableValue (pton : Str → Option Bytes) (d : TableDecl) (entry : RtEntry) (b : Bool) : Prop :=
  ∃ (vs : List VarInfo) (src : ConstraintSource) (e : Expr) (s : SExpr) (ρ : Env),
    Each KeyDecl d.matchFields vs ∧ ReadConstraint pton .table (keySig vs) d.preamble (some (src, e, s, .boolean)) ∧
    EntryFits vs entry ∧ EntryMeans vs entry ρ ∧ Evaluates (keySig vs) ρ s .boolean (.bool b)

/-- The constraint of the action has the value `b` for the invocation. -/
def ActionValue (pton : Str → Option Bytes) (d : ActionDecl) (a : RtAction) (b : Bool) : Prop :=
  ∃ (vs : List VarInfo) (src : ConstraintSource) (e : Expr) (s : SExpr) (ρ : Env),
    Each ParamIs d.params vs ∧ ReadConstraint pton .action (paramSig vs) d.preamble (some (src, e, s, .boolean)) ∧
    ArgsFit vs a.params ∧ ActionMeans vs a ρ ∧ Evaluates (paramSig vs) ρ s .boolean (.bool b)

/-- The action is one of the program, and has no constraint, or one with the value true. -/
def ActionAccepted (pton : Str → Option Bytes) (p : P4Info) (a : RtAction) : Prop :=
  ∃ d ∈ p.actions, d.preamble.id = a.actionId ∧ (Attached .action d.preamble none ∨ ActionValue pton d a true)

/-- The action of an entry: none, one that is accepted, or a set of such. References to action profile members and groups
are not accepted. -/
inductive ActionsAccepted (pton : Str → Option Bytes) (p : P4Info) : Option TableAction → Prop where
  | none : ActionsAccepted pton p none
  | one {a : RtAction} : ActionAccepted pton p a → ActionsAccepted pton p (some (.action a))
  | set {as : List RtAction} : (∀ a ∈ as, ActionAccepted pton p a) → ActionsAccepted pton p (some (.actionSet as))

/-- The entry is for a table of the program, which has no constraint, or one with the value true, and its actions are
accepted. -/
def Accepted (pton : Str → Option Bytes) (p : P4Info) (entry : RtEntry) : Prop :=
  ∃ d ∈ p.tables, d.preamble.id = entry.tableId ∧
    (Attached .table d.preamble none ∨ TableValue pton d entry true) ∧ ActionsAccepted pton p entry.action

end P4C.Spec
