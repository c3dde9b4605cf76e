import Verif.Spec.Violation
import Verif.Spec.Missing

/-
Entries about which something has to be said that cannot be: the process crashes.
-/

namespace P4C.Spec

/-- The part of the constraint `e` that is quoted when it is judged: the part that has no value; an operand without value that
did not matter for the verdict but stands in the way of an explanation; or the explanation of the violation. -/
inductive QuotedPart (name : Str) (Γ : Sig) (ρ : Env) (e : Expr) : Loc → Loc → Prop where
  | stuck {a b : Loc} {text : Str} : Stuck name Γ ρ e a b text → QuotedPart name Γ ρ e a b
  | operand {a b : Loc} {text : Str} : Valued Γ ρ e false → Unexplained name Γ ρ e (.place a b text) → QuotedPart name Γ ρ e a b
  | violation {y : Expr} : Valued Γ ρ e false → Explained Γ ρ e y → QuotedPart name Γ ρ e y.start y.stop

/-- Judging the entry by the constraint of the table `d` crashes. -/
def TableCrash (pton : Str → Option Bytes) (d : TableDecl) (entry : RtEntry) : Prop :=
  ∃ (vs : List VarInfo) (src : ConstraintSource) (e : Expr) (s : SExpr) (ρ : Env) (a b : Loc),
    Each KeyDecl d.matchFields vs ∧ ReadConstraint pton .table (keySig vs) d.preamble (some (src, e, s, .boolean)) ∧
    EntryFits vs entry ∧ EntryMeans vs entry ρ ∧ QuotedPart d.preamble.name (keySig vs) ρ e a b ∧ Unquotable src a b

/-- Judging the invocation by the constraint of the action `d` crashes. -/
def ActionCrash (pton : Str → Option Bytes) (d : ActionDecl) (i : RtAction) : Prop :=
  ∃ (vs : List VarInfo) (src : ConstraintSource) (e : Expr) (s : SExpr) (ρ : Env) (a b : Loc),
    Each ParamIs d.params vs ∧ ReadConstraint pton .action (paramSig vs) d.preamble (some (src, e, s, .boolean)) ∧
    ArgsFit vs i.params ∧ ActionMeans vs i ρ ∧ QuotedPart d.preamble.name (paramSig vs) ρ e a b ∧ Unquotable src a b

/-- Judging the entry crashes: by the constraint of its table; or by the constraint of one of its actions, the first that is
not accepted, provided that the table accepts the entry. -/
def EntryCrash (pton : Str → Option Bytes) (p : P4Info) (entry : RtEntry) : Prop :=
  ∃ d ∈ p.tables, d.preamble.id = entry.tableId ∧
    (TableCrash pton d entry ∨
     (Attached .table d.preamble none ∨ TableValue pton d entry true) ∧
      ∃ pre a post, actionsOf entry.action = some (pre ++ a :: post) ∧ (∀ b ∈ pre, ActionAccepted pton p b) ∧
        ∃ da ∈ p.actions, da.preamble.id = a.actionId ∧ ActionCrash pton da a)

/-- No constraint of the program has a line break within it. -/
def OneLineProgram (p : P4Info) : Prop :=
  (∀ d ∈ p.tables, ∀ src, Attached .table d.preamble (some src) → '\n' ∉ src.str ∧ '\r' ∉ src.str) ∧
  ∀ d ∈ p.actions, ∀ src, Attached .action d.preamble (some src) → '\n' ∉ src.str ∧ '\r' ∉ src.str

end P4C.Spec
