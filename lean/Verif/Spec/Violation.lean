import Verif.Spec.Accept
import Verif.Spec.Explain

/-
What is reported about entries that violate a constraint, in terms of the declarations of the program.
-/

namespace P4C.Spec

/-- The violation of a constraint of tables or of actions, `kind`, which is quoted as `text`. It, or the part quoted, has
the value `v`, where the opposite is required. -/
def violation (kind : Str) (v : Bool) (text : Str) : Str :=
  c!"All " ++ kind ++ c!" must " ++ (if v then c!"not satisfy:\n\n" else c!"satisfy:\n\n") ++ text ++
    (if v then c!"\nBut your entry does.\n" else c!"\nBut your entry does not.\n")

/-- The entry violates the constraint of the table `d`, and `msg` is the report: it quotes the explanation, and gives the
name of the table, the priority of the entry, and the values of the keys that the explanation mentions, in the order of
their names. -/
def TableReport (pton : Str → Option Bytes) (d : TableDecl) (entry : RtEntry) (msg : Str) : Prop :=
  ∃ (vs : List VarInfo) (src : ConstraintSource) (e y : Expr) (s : SExpr) (ρ : Env) (v : Bool) (text prio : Str)
    (lines : List ((Str × Value) × Str)),
    Each KeyDecl d.matchFields vs ∧ ReadConstraint pton .table (keySig vs) d.preamble (some (src, e, s, .boolean)) ∧
    EntryFits vs entry ∧ EntryMeans vs entry ρ ∧ Evaluates (keySig vs) ρ s .boolean (.bool false) ∧
    Explained (keySig vs) ρ e y ∧ Valued (keySig vs) ρ y v ∧ Quotation src y.start y.stop text ∧
    IntNumeral entry.priority prio ∧ (lines.Pairwise fun x y => Before x.1.1 y.1.1) ∧
    (∀ l ∈ lines, ValueText l.1.2 l.2) ∧ (∀ k a, (k, a) ∈ lines.map Prod.fst ↔ Mentions y k ∧ ρ.key k = some a) ∧
    msg = violation c!"entries" v text ++ c!">>>Relevant Entry Info<<<\nTable Name: \"" ++ d.preamble.name ++
      c!"\"\nPriority:" ++ prio ++ c!"\n" ++
      (lines.map fun l => c!"Field: \"" ++ l.1.1 ++ c!"\" -> Value: " ++ l.2 ++ c!"\n").flatten

/-- The invocation violates the constraint of the action `d`, and `msg` is the report. -/
def ActionReport (pton : Str → Option Bytes) (d : ActionDecl) (a : RtAction) (msg : Str) : Prop :=
  ∃ (vs : List VarInfo) (src : ConstraintSource) (e y : Expr) (s : SExpr) (ρ : Env) (v : Bool) (text : Str)
    (lines : List ((Str × Int) × Str)),
    Each ParamIs d.params vs ∧ ReadConstraint pton .action (paramSig vs) d.preamble (some (src, e, s, .boolean)) ∧
    ArgsFit vs a.params ∧ ActionMeans vs a ρ ∧ Evaluates (paramSig vs) ρ s .boolean (.bool false) ∧
    Explained (paramSig vs) ρ e y ∧ Valued (paramSig vs) ρ y v ∧ Quotation src y.start y.stop text ∧
    (lines.Pairwise fun x y => Before x.1.1 y.1.1) ∧
    (∀ l ∈ lines, IntNumeral l.1.2 l.2) ∧ (∀ k z, (k, z) ∈ lines.map Prod.fst ↔ Mentions y k ∧ ρ.param k = some z) ∧
    msg = violation c!"actions" v text ++ c!">>>Relevant Action Info<<<\nAction Name: \"" ++ d.preamble.name ++ c!"\"\n" ++
      (lines.map fun l => c!"Param name: \"" ++ l.1.1 ++ c!"\" -> Value: " ++ l.2 ++ c!"\n").flatten

/-- The entry violates a constraint, and `msg` is the report: the constraint of its table; or the constraint of one of its
actions, the first that is not accepted, provided that the table accepts the entry. -/
def ReportsViolation (pton : Str → Option Bytes) (p : P4Info) (entry : RtEntry) (msg : Str) : Prop :=
  ∃ d ∈ p.tables, d.preamble.id = entry.tableId ∧
    (TableReport pton d entry msg ∨
     (Attached .table d.preamble none ∨ TableValue pton d entry true) ∧
      ∃ pre a post, actionsOf entry.action = some (pre ++ a :: post) ∧ (∀ b ∈ pre, ActionAccepted pton p b) ∧
        ∃ da ∈ p.actions, da.preamble.id = a.actionId ∧ ActionReport pton da a msg)

end P4C.Spec
