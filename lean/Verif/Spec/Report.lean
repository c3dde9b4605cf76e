import Verif.Spec.Program
import Verif.Spec.Diagnosis
import Verif.Spec.TypeError
import Verif.Spec.Missing
import Verif.Model.Message

/-
What the error message about a P4 program should say.
-/

namespace P4C.Spec

/-- "table" or "action". -/
def kindName : ConstraintKind → Str
  | .table => c!"table"
  | .action => c!"action"

/-- What is wrong with the first bad key of the table called `name`: it has no match kind, or has the same id or name as
an earlier key. -/
inductive KeysFault (x : Texts) (name : Str) : List MatchField → Str → Prop where
  | invalid {a b : List MatchField} {f : MatchField} {vs : List VarInfo} : Each KeyDecl a vs → Distinct vs →
      f.kind = .matchType .invalid →
      KeysFault x name (a ++ f :: b) (c!"match key of invalid MatchType: " ++ x.matchType f)
  | unset {a b : List MatchField} {f : MatchField} {vs : List VarInfo} : Each KeyDecl a vs → Distinct vs →
      f.kind = .notSet → KeysFault x name (a ++ f :: b) (c!"unknown MatchField.match case: " ++ x.matchType f)
  | duplicate {a b : List MatchField} {f : MatchField} {vs : List VarInfo} {v : VarInfo} : Each KeyDecl a vs →
      Distinct vs → KeyDecl f v → ¬ Distinct (vs ++ [v]) →
      KeysFault x name (a ++ f :: b) (c!"table " ++ name ++ c!" has duplicate key: " ++ x.matchField f)

/-- The first parameter of the action called `name` with the same id or name as an earlier one. -/
inductive ParamsFault (x : Texts) (name : Str) : List ParamDecl → Str → Prop where
  | duplicate {a b : List ParamDecl} {f : ParamDecl} {vs : List VarInfo} {v : VarInfo} : Each ParamIs a vs →
      Distinct vs → ParamIs f v → ¬ Distinct (vs ++ [v]) →
      ParamsFault x name (a ++ f :: b) (c!"action " ++ name ++ c!" has duplicate param: " ++ x.param f)

/-- The first restriction annotation has the content `body`, up to a NUL character. -/
def Content (k : ConstraintKind) (p : Preamble) (body : Str) : Prop :=
  ∃ pre rest post, p.annotations = pre ++ (restriction k ++ (body ++ rest)) :: post ∧
    (∀ a ∈ pre, ¬ restriction k <+: a) ∧ '\x00' ∉ body ∧ ∀ c, rest.head? = some c → c = '\x00'

/-- What is wrong with the content of the restriction annotation. -/
inductive AnnotationFault (k : ConstraintKind) (p : Preamble) : Str → Prop where
  | notEnclosed {body : Str} : Content k p body → body ≠ [] → (∀ s, body ≠ c!"(\"" ++ s ++ c!"\")") →
      AnnotationFault k p (c!"In " ++ kindName k ++ c!" " ++ p.name ++ c!":\nSyntax error: " ++ restriction k ++
        c!" must be enclosed in '(\"' and '\")'")
  | quotes {s : Str} : Content k p (c!"(\"" ++ s ++ c!"\")") → (∀ parts, ¬ Quoted (c!"(\"" ++ s ++ c!"\")") parts) →
      AnnotationFault k p (c!"In " ++ kindName k ++ c!" " ++ p.name ++ c!":\nSyntax error: " ++ restriction k ++
        (c!" was parsed with unexpected quotation marks (\"). Ensure you aren't using any quotation marks in a comment. " ++
        c!"Otherwise, this suggests a parser assumption was violated, likely due to a p4c frontend change, or " ++
        c!"`@p4runtime_translation` support being added."))

/-- What is wrong with the constraint of a table or action with the variables `Γ`: the annotation, an address, the first
token that cannot continue the constraint, or the first part without a type. (The codes of the errors do not matter.) -/
inductive ConstraintFault (x : Texts) (pton : Str → Option Bytes) (k : ConstraintKind) (Γ : Sig) (p : Preamble) :
    Str → Prop where
  | annotation {m : Str} : AnnotationFault k p m → ConstraintFault x pton k Γ p m
  | address {src : ConstraintSource} {ts before after : List Token} {i s : Token} {m : Str} : Attached k p (some src) →
      Lexed src.loc src.str ts → Literal ts before i s after → AddressesOk pton ts before.length →
      AddressFault pton i.text s.text m → ConstraintFault x pton k Γ p m
  | syntax {src : ConstraintSource} {ts before after : List Token} {t : Token} {complaint m : Str} {c : Code} :
      Attached k p (some src) → Lexed src.loc src.str ts → Culprit ts before t after →
      AddressesOk pton ts before.length → Complaint (before.map (·.kind)) t complaint →
      Shown .invalidArgument c!"Parse error: " x.quoteFailure src t.start t.stop complaint c m →
      ConstraintFault x pton k Γ p m
  | type {src : ConstraintSource} {ts : List Token} {e y : Expr} {a b : Loc} {text m : Str} {c : Code} :
      Attached k p (some src) → Lexed src.loc src.str ts → Constraint pton k ts e → First Γ e y →
      Fault PrintedName (k = .action) Γ y a b text →
      Shown .invalidArgument c!"Type error: " x.quoteFailure src a b text c m → ConstraintFault x pton k Γ p m

/-- The first part of the constraint without a type extends over several lines. -/
def SplitFault (pton : Str → Option Bytes) (k : ConstraintKind) (Γ : Sig) (p : Preamble) : Prop :=
  ∃ src ts e y a b text, Attached k p (some src) ∧ Lexed src.loc src.str ts ∧ Constraint pton k ts e ∧ First Γ e y ∧
    Fault PrintedName (k = .action) Γ y a b text ∧ a.line ≠ b.line

/-- What is wrong with a table. -/
def TableFault (x : Texts) (pton : Str → Option Bytes) (d : TableDecl) (m : Str) : Prop :=
  KeysFault x d.preamble.name d.matchFields m ∨
    ∃ vs, Each KeyDecl d.matchFields vs ∧ Distinct vs ∧ ConstraintFault x pton .table (keySig vs) d.preamble m

/-- What is wrong with an action. -/
def ActionFault (x : Texts) (pton : Str → Option Bytes) (d : ActionDecl) (m : Str) : Prop :=
  ParamsFault x d.preamble.name d.params m ∨
    ∃ vs, Each ParamIs d.params vs ∧ Distinct vs ∧ ConstraintFault x pton .action (paramSig vs) d.preamble m

/-- The messages about a list of definitions, in order: one for each that is faulty, and one for each that is not, but has
the id of an earlier definition that is not faulty either. `seen` are the ids of these. -/
inductive Reports {δ : Type} (Good : δ → Prop) (Bad : δ → Str → Prop) (id : δ → Nat) (dup : δ → Str) :
    List Nat → List δ → List Str → Prop where
  | nil {seen : List Nat} : Reports Good Bad id dup seen [] []
  | fine {seen : List Nat} {d : δ} {ds : List δ} {ms : List Str} : Good d → id d ∉ seen →
      Reports Good Bad id dup (id d :: seen) ds ms → Reports Good Bad id dup seen (d :: ds) ms
  | duplicate {seen : List Nat} {d : δ} {ds : List δ} {ms : List Str} : Good d → id d ∈ seen →
      Reports Good Bad id dup seen ds ms → Reports Good Bad id dup seen (d :: ds) (dup d :: ms)
  | bad {seen : List Nat} {d : δ} {ds : List δ} {m : Str} {ms : List Str} : Bad d m →
      Reports Good Bad id dup seen ds ms → Reports Good Bad id dup seen (d :: ds) (m :: ms)

/-- The messages about a program: first those about its tables, then those about its actions. -/
def ProgramReports (x : Texts) (pton : Str → Option Bytes) (p : P4Info) (ms : List Str) : Prop :=
  ∃ ms₁ ms₂, ms = ms₁ ++ ms₂ ∧
    Reports (GoodTable pton) (TableFault x pton) (fun d => d.preamble.id) (fun d => c!"duplicate table: " ++ x.table d)
      [] p.tables ms₁ ∧
    Reports (GoodAction pton) (ActionFault x pton) (fun d => d.preamble.id) (fun d => c!"duplicate action: " ++ x.action d)
      [] p.actions ms₂

/-- The whole message. -/
def bulletList (ms : List Str) : Str :=
  c!"P4Info to constraint info translation failed with the following errors:\n" ++
    join c!"\n" (ms.map fun m => c!"- " ++ m ++ c!"\n")

/-- The constraint of some table or action has a type error that extends over several lines. -/
def SplitProgram (pton : Str → Option Bytes) (p : P4Info) : Prop :=
  (∃ d ∈ p.tables, ∃ vs, Each KeyDecl d.matchFields vs ∧ Distinct vs ∧ SplitFault pton .table (keySig vs) d.preamble) ∨
    ∃ d ∈ p.actions, ∃ vs, Each ParamIs d.params vs ∧ Distinct vs ∧ SplitFault pton .action (paramSig vs) d.preamble

end P4C.Spec
