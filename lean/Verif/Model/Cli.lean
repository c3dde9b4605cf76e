import Verif.Model.ConstraintInfo

/-
Model of `p4_constraints/cli/p4check.cc`. Reading and parsing of files is not modelled: the outcome of it is an
input. The output is a sequence of reports instead of text.
-/

namespace P4C

/-- `CoerceToTableId` (cli/p4check.cc:59-61): `(table_id & 0x00FFFFFF) | (0x02 << 24)` on `uint32_t`. -/
def coerceToTableId (id : BitVec 32) : BitVec 32 := (id &&& 0x00FFFFFF#32) ||| (0x02#32 <<< 24)

/-- The same, on ids as they occur in messages. -/
def coerceId (id : Nat) : Nat := (coerceToTableId (BitVec.ofNat 32 id)).toNat

/-- Outcome of opening and parsing a file. -/
inductive FileRead (α : Type) where
  | missing
  | malformed
  | parsed (a : α)
deriving DecidableEq, Repr

/-- What is printed about an entry file under `=== Output ===`. -/
inductive Report where
  | notFound
  | unableToParse
  | error (code : Code)
  | satisfied
  | violated (reason : Str)
deriving DecidableEq, Repr

/-- Exit status, and the reports in order, each with the name of the file. -/
structure CliOutput where
  status : Nat
  reports : List (Str × Report)
deriving DecidableEq, Repr

/-- The loop over the tables of the program (cli/p4check.cc:99-101). -/
def coerceTables (p : P4Info) : P4Info :=
  { p with tables := p.tables.map fun t => { t with preamble := { t.preamble with id := coerceId t.preamble.id } } }

/-- One entry file (cli/p4check.cc:118-148). -/
def checkFile (ci : ConstraintInfo) : FileRead RtEntry → Res Report
  | .missing => .ok .notFound
  | .malformed => .ok .unableToParse
  | .parsed entry =>
    match reasonEntryViolatesConstraint { entry with tableId := coerceId entry.tableId } ci with
    | .ok [] => .ok .satisfied
    | .ok (c :: cs) => .ok (.violated (c :: cs))
    | .err x => .ok (.error x)
    | .crash => .crash
    | .oof => .oof

/-- The loop over entry files (cli/p4check.cc:111-149). -/
def checkFiles (ci : ConstraintInfo) : List (Str × FileRead RtEntry) → Res (List (Str × Report))
  | [] => .ok []
  | f :: fs => do
    let r ← checkFile ci f.2
    let rs ← checkFiles ci fs
    .ok ((f.1, r) :: rs)

/-- `main` (cli/p4check.cc:68-152), given the name of the program file, the outcome of reading it, and the entry
files. -/
def p4check (sys : Sys) (name : Str) (program : FileRead P4Info) (files : List (Str × FileRead RtEntry)) :
    Res CliOutput :=
  if name = [] then .ok ⟨1, []⟩
  else
    match program with
    | .missing | .malformed => .ok ⟨1, []⟩
    | .parsed p =>
      match p4ToConstraintInfo sys (coerceTables p) with
      | .ok ci => do
        let rs ← checkFiles ci files
        .ok ⟨0, rs⟩
      | .err _ => .ok ⟨1, []⟩
      | .crash => .crash
      | .oof => .oof

end P4C
