import Verif.Spec.Cli
import Verif.Spec.CrashProgram

/-
Runs of p4check that end in a crash.
-/

namespace P4C.Spec

/-- The process crashes on the program; or the program is read, and the process crashes on one of the entries. -/
def CliCrash (pton : Str → Option Bytes) (name : Str) (program : FileRead P4Info) (files : List (Str × FileRead RtEntry)) :
    Prop :=
  name ≠ [] ∧ ∃ p, program = .parsed p ∧
    (ProgramCrash pton p ∨ GoodProgram pton (fullIds p) ∧
      ∃ f e, (f, FileRead.parsed e) ∈ files ∧ EntryCrash pton (fullIds p) (fullEntry e))

end P4C.Spec
