import Verif.Spec.Solve
import Verif.Spec.SymFault
import Verif.Spec.CrashProgram

/-
Texts on which the process stops when they are given to a constraint solver for a table (C87), and what is said about texts
with type errors (C88). In terms of the declarations of the program.
-/

namespace P4C.Spec

/-- The constraint `s` of the table converts a number to a bit string without bits, which Z3 refuses by stopping the process.
Keys of width 0 must be skipped, and before the conversion only keys that are not skipped are mentioned. -/
def ConvertsToNothing (vs : List VarInfo) (skip : Str → Bool) (s : SExpr) : Prop :=
  Bitless (keySig vs) (fun n => ∃ ki ∈ vs, ki.name = n ∧ skip n = false) (fun a => a = c!"priority" ∧ WithPriority vs) s

/-- The text says something boolean on the keys of the table and converts a number to a bit string without bits. -/
def BitlessText (pton : Str → Option Bytes) (d : TableDecl) (skip : Str → Bool) (text : Str) : Prop :=
  ∃ vs s, Each KeyDecl d.matchFields vs ∧ TextSays pton d text s ∧ ConvertsToNothing vs skip s

/-- The text has the grammar of constraints; the first part of it without a type is wrong in the way `m`, which concerns the
positions from `a` to `b`. -/
def TextFault (pton : Str → Option Bytes) (d : TableDecl) (text : Str) (a b : Loc) (m : Str) : Prop :=
  ∃ vs ts e y, Each KeyDecl d.matchFields vs ∧ Lexed { src := .tableName d.preamble.name } text ts ∧
    Constraint pton .table ts e ∧ First (keySig vs) e y ∧ Fault PrintedName false (keySig vs) y a b m

/-- The text has a type error, and the positions of the error cannot be quoted from the constraint of the table, from which
they are quoted (although they are positions in the text) if this has no file name. -/
def MisquotedText (pton : Str → Option Bytes) (d : TableDecl) (text : Str) : Prop :=
  ∃ a b m src, TextFault pton d text a b m ∧ Attached .table d.preamble (some src) ∧
    src.loc.src = .tableName d.preamble.name ∧ Unquotable src a b

end P4C.Spec
