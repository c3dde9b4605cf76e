import Verif.Model.Cli
import Verif.Model.EntryMessage

/-
What `p4_constraints/cli/p4check.cc` prints. `Verif/Model/Cli.lean` models the same program with reports instead of text;
`Verif/Proofs/CliText.lean` proves that they agree. What is printed before a crash is not modelled.
-/

namespace P4C

/-- `absl::StatusCodeToString`, for the codes that occur. -/
def statusCodeToString : Code → Str
  | .invalidArgument => c!"INVALID_ARGUMENT"
  | .internal => c!"INTERNAL"
  | .unimplemented => c!"UNIMPLEMENTED"
  | .notFound => c!"NOT_FOUND"

/-- `ToString` (cli/p4check.cc:63-66). -/
def statusToString (c : Code) (m : Str) : Str := statusCodeToString c ++ c!": " ++ m

/-- Exit status, and what is written to `std::cout` and `std::cerr`. -/
structure CliText where
  status : Nat
  out : Str
  err : Str
deriving DecidableEq, Repr

/-- What is printed before an entry file is opened (cli/p4check.cc:113-116). -/
def fileHeader (name : Str) : Str :=
  c!"### P4Constraints Table Entry Test #######################\n" ++ c!"=== Input Table Entry File ===\n" ++
    name ++ c!"\n" ++ c!"=== Output ===\n"

/-- The rest of the body of the loop over entry files (cli/p4check.cc:118-148). -/
def printFile (x : EntryTexts) (ci : ConstraintInfo) : FileRead RtEntry → Res Str
  | .missing => .ok c!"not found\n\n"
  | .malformed => .ok c!"unable to parse\n\n"
  | .parsed entry =>
    match reasonEntryViolatesConstraintM x { entry with tableId := coerceId entry.tableId } ci with
    | .err c m => .ok (c!"Error: " ++ statusToString c m ++ c!"\n\n")
    | .ok r => .ok ((if r = [] then c!"Constraint satisfied\n" else r) ++ c!"\n")
    | .crash => .crash
    | .oof => .oof

/-- The loop over entry files (cli/p4check.cc:111-149). -/
def printFiles (x : EntryTexts) (ci : ConstraintInfo) : List (Str × FileRead RtEntry) → Res Str
  | [] => .ok []
  | f :: fs => do
    let t ← printFile x ci f.2
    let ts ← printFiles x ci fs
    .ok (fileHeader f.1 ++ t ++ ts)

/-- `main` (cli/p4check.cc:68-152), given the name of the program file, the outcome of reading it, and the entry
files. -/
def p4checkText (xp : Texts) (xe : EntryTexts) (sys : Sys) (name : Str) (program : FileRead P4Info)
    (files : List (Str × FileRead RtEntry)) : Res CliText :=
  if name = [] then .ok ⟨1, [], c!"Missing argument: --p4info=<file>\n"⟩
  else
    match program with
    | .missing => .ok ⟨1, [], c!"Unable to open p4info file: " ++ name ++ c!"\n"⟩
    | .malformed => .ok ⟨1, [], c!"Unable to parse p4info file: " ++ name ++ c!"\n"⟩
    | .parsed p =>
      match p4ToConstraintInfoM xp sys (coerceTables p) with
      | .err _ m => .ok ⟨1, [], m⟩
      | .ok ci => do
        let out ← printFiles xe ci files
        .ok ⟨0, out, []⟩
      | .crash => .crash
      | .oof => .oof

end P4C
