import Verif.Spec.Accept

/-
Programs that differ in names and ids only.
-/

namespace P4C.Spec

/-- The constraint with other names for keys and parameters. -/
def SExpr.renamed (f : Str → Str) : SExpr → SExpr
  | .bool b => .bool b
  | .int z => .int z
  | .key n => .key (f n)
  | .param n => .param (f n)
  | .attr n => .attr n
  | .not e => .not (e.renamed f)
  | .neg e => .neg (e.renamed f)
  | .cmp o l r => .cmp o (l.renamed f) (r.renamed f)
  | .conn o l r => .conn o (l.renamed f) (r.renamed f)
  | .field e n => .field (e.renamed f) n

/-- New names and ids. Those of keys depend on the (old) id of the table, those of parameters on that of the action. -/
structure Renaming where
  tableId : Nat → Nat
  actionId : Nat → Nat
  keyId : Nat → Nat → Nat
  keyName : Nat → Str → Str
  paramId : Nat → Nat → Nat
  paramName : Nat → Str → Str

/-- What was different stays different. -/
structure OneToOne (R : Renaming) : Prop where
  tableId : ∀ a b, R.tableId a = R.tableId b → a = b
  actionId : ∀ a b, R.actionId a = R.actionId b → a = b
  keyId : ∀ t a b, R.keyId t a = R.keyId t b → a = b
  keyName : ∀ t a b, R.keyName t a = R.keyName t b → a = b
  paramId : ∀ t a b, R.paramId t a = R.paramId t b → a = b
  paramName : ∀ t a b, R.paramName t a = R.paramName t b → a = b

/-- The texts attached to `p` and `p'` are constraints, according to the grammar, that differ in names only, as given by `f`;
or there are no such texts. -/
inductive SameUpTo (pton : Str → Option Bytes) (k : ConstraintKind) (f : Str → Str) (p p' : Preamble) : Prop where
  | none : Attached k p none → Attached k p' none → SameUpTo pton k f p p'
  | some {src src' : ConstraintSource} {ts ts' : List Token} {e e' : Expr} {s : SExpr} :
      Attached k p (some src) → Lexed src.loc src.str ts → Constraint pton k ts e → abs e = some s →
      Attached k p' (some src') → Lexed src'.loc src'.str ts' → Constraint pton k ts' e' → abs e' = some (s.renamed f) →
      SameUpTo pton k f p p'

/-- The table `d'` is `d` with other names and ids. -/
structure TableRenamed (pton : Str → Option Bytes) (R : Renaming) (d d' : TableDecl) : Prop where
  id : d'.preamble.id = R.tableId d.preamble.id
  keys : d'.matchFields =
    d.matchFields.map fun m => { m with id := R.keyId d.preamble.id m.id, name := R.keyName d.preamble.id m.name }
  constraint : SameUpTo pton .table (R.keyName d.preamble.id) d.preamble d'.preamble

/-- The action `d'` is `d` with other names and ids. -/
structure ActionRenamed (pton : Str → Option Bytes) (R : Renaming) (d d' : ActionDecl) : Prop where
  id : d'.preamble.id = R.actionId d.preamble.id
  params : d'.params =
    d.params.map fun m => { m with id := R.paramId d.preamble.id m.id, name := R.paramName d.preamble.id m.name }
  constraint : SameUpTo pton .action (R.paramName d.preamble.id) d.preamble d'.preamble

/-- The program `p'` is `p` with other names and ids. -/
structure ProgramRenamed (pton : Str → Option Bytes) (R : Renaming) (p p' : P4Info) : Prop where
  tables : Each (TableRenamed pton R) p.tables p'.tables
  actions : Each (ActionRenamed pton R) p.actions p'.actions

/-- The invocation, with the new ids. -/
def renamedAction (R : Renaming) (a : RtAction) : RtAction :=
  ⟨R.actionId a.actionId, a.params.map fun q => (R.paramId a.actionId q.1, q.2)⟩

/-- The action of an entry, with the new ids. -/
def renamedTableAction (R : Renaming) : TableAction → TableAction
  | .action a => .action (renamedAction R a)
  | .actionSet as => .actionSet (as.map (renamedAction R))
  | t => t

/-- The entry, with the new ids. -/
def renamedEntry (R : Renaming) (entry : RtEntry) : RtEntry :=
  { tableId := R.tableId entry.tableId
    matches_ := entry.matches_.map fun m => { m with fieldId := R.keyId entry.tableId m.fieldId }
    priority := entry.priority
    action := entry.action.map (renamedTableAction R) }

end P4C.Spec
