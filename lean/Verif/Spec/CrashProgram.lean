import Verif.Spec.Crash
import Verif.Spec.Report

/-
Programs that cannot be read because something has to be said about them that cannot be: the process crashes.
-/

namespace P4C.Spec

/-- The first part of the constraint without a type cannot be quoted. -/
def UnquotableFault (pton : Str → Option Bytes) (k : ConstraintKind) (Γ : Sig) (p : Preamble) : Prop :=
  ∃ src ts e y a b text, Attached k p (some src) ∧ Lexed src.loc src.str ts ∧ Constraint pton k ts e ∧ First Γ e y ∧
    Fault PrintedName (k = .action) Γ y a b text ∧ Unquotable src a b

/-- Reading the table crashes. -/
def CrashingTable (pton : Str → Option Bytes) (d : TableDecl) : Prop :=
  ∃ vs, Each KeyDecl d.matchFields vs ∧ Distinct vs ∧ UnquotableFault pton .table (keySig vs) d.preamble

/-- Reading the action crashes. -/
def CrashingAction (pton : Str → Option Bytes) (d : ActionDecl) : Prop :=
  ∃ vs, Each ParamIs d.params vs ∧ Distinct vs ∧ UnquotableFault pton .action (paramSig vs) d.preamble

/-- Reading the program crashes. -/
def ProgramCrash (pton : Str → Option Bytes) (p : P4Info) : Prop :=
  (∃ d ∈ p.tables, CrashingTable pton d) ∨ ∃ d ∈ p.actions, CrashingAction pton d

/-- All definitions of the program are fine and have different ids. -/
def GoodProgram (pton : Str → Option Bytes) (p : P4Info) : Prop :=
  (p.tables.map fun t => t.preamble.id).Nodup ∧ (p.actions.map fun a => a.preamble.id).Nodup ∧
    (∀ d ∈ p.tables, GoodTable pton d) ∧ ∀ d ∈ p.actions, GoodAction pton d

end P4C.Spec
