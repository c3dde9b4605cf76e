import Verif.Spec.Violation
import Verif.Spec.Report
import Verif.Model.CliText

/-
What p4check prints, in terms of the declarations of the program.
-/

namespace P4C.Spec

/-- The id of a table with the upper eight bits that P4Runtime prescribes. -/
def fullId (id : Nat) : Nat := 2 * 2 ^ 24 + id % 2 ^ 24

/-- The program with the ids of tables in this form. -/
def fullIds (p : P4Info) : P4Info :=
  { p with tables := p.tables.map fun d => { d with preamble := { d.preamble with id := fullId d.preamble.id } } }

/-- The entry with the id of its table in this form. -/
def fullEntry (e : RtEntry) : RtEntry := { e with tableId := fullId e.tableId }

/-- The names of status codes. -/
inductive CodeName : Code → Str → Prop where
  | invalidArgument : CodeName .invalidArgument c!"INVALID_ARGUMENT"
  | internal : CodeName .internal c!"INTERNAL"
  | unimplemented : CodeName .unimplemented c!"UNIMPLEMENTED"
  | notFound : CodeName .notFound c!"NOT_FOUND"

/-- What is printed about an entry file, given the program with canonical ids: that it cannot be opened or read; that the
constraint is satisfied, which is said of an entry that is accepted; the report on the violation; or the error that prevents
a verdict. -/
inductive Verdict (x : EntryTexts) (pton : Str → Option Bytes) (p : P4Info) : FileRead RtEntry → Str → Prop where
  | missing : Verdict x pton p .missing c!"not found\n"
  | malformed : Verdict x pton p .malformed c!"unable to parse\n"
  | satisfied {e : RtEntry} : Accepted pton p (fullEntry e) → Verdict x pton p (.parsed e) c!"Constraint satisfied\n"
  | violated {e : RtEntry} {m : Str} : ReportsViolation pton p (fullEntry e) m → Verdict x pton p (.parsed e) m
  | error {e : RtEntry} {c : Code} {n m : Str} : EntryError x pton p (fullEntry e) c m → ¬ Accepted pton p (fullEntry e) →
      (∀ r, ¬ ReportsViolation pton p (fullEntry e) r) → CodeName c n →
      Verdict x pton p (.parsed e) (c!"Error: " ++ n ++ c!": " ++ m ++ c!"\n")

/-- What is printed about the entry file called `name`. -/
def fileSection (name verdict : Str) : Str :=
  c!"### P4Constraints Table Entry Test #######################\n=== Input Table Entry File ===\n" ++ name ++
    c!"\n=== Output ===\n" ++ verdict ++ c!"\n"

/-- What is printed, and the exit status, if there is no program to check entries against: it is not given, cannot be opened
or read, or is faulty. -/
inductive NoProgram (x : Texts) (pton : Str → Option Bytes) (name : Str) : FileRead P4Info → Str → Prop where
  | missing {f : FileRead P4Info} : name = [] → NoProgram x pton name f c!"Missing argument: --p4info=<file>\n"
  | unopened : name ≠ [] → NoProgram x pton name .missing (c!"Unable to open p4info file: " ++ name ++ c!"\n")
  | unreadable : name ≠ [] → NoProgram x pton name .malformed (c!"Unable to parse p4info file: " ++ name ++ c!"\n")
  | faulty {p : P4Info} {ms : List Str} : name ≠ [] → ms ≠ [] → ProgramReports x pton (fullIds p) ms →
      NoProgram x pton name (.parsed p) (bulletList ms)

end P4C.Spec
