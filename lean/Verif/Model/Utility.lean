import Verif.Model.Ast

/-
Model of the functions of `p4_constraints/ast.cc` that only users of the library call.
-/

namespace P4C

/-- `SourceLocation::SourceCase` (ast.proto:177-192). -/
inductive SrcCase where
  | notSet | filePath | tableName | actionName
deriving DecidableEq, Repr

/-- `location.source_case()`. -/
def Loc.sourceCase (l : Loc) : SrcCase :=
  match l.src with
  | .notSet => .notSet
  | .filePath _ => .filePath
  | .tableName _ => .tableName
  | .actionName _ => .actionName

/-- `location.file_path()`: empty, unless it is the field of the `oneof` that is set. -/
def Loc.filePath (l : Loc) : Str :=
  match l.src with
  | .filePath s => s
  | _ => []

/-- `location.table_name()`. -/
def Loc.tableName (l : Loc) : Str :=
  match l.src with
  | .tableName s => s
  | _ => []

/-- `operator==(const SourceLocation&, const SourceLocation&)` (ast.cc:38-43). Note that `action_name()` is missing. -/
def locEq (left right : Loc) : Bool :=
  left.line = right.line && left.col = right.col && left.sourceCase = right.sourceCase &&
    left.filePath = right.filePath && left.tableName = right.tableName

/-- `SetTypeBitwidth` (ast.cc:129-152): the type afterwards, and the value returned. -/
def setTypeBitwidthB (t : Ty) (w : Int) : Ty × Bool :=
  match t with
  | .fixedUnsigned _ => (.fixedUnsigned w, true)
  | .exact _ => (.exact w, true)
  | .ternary _ => (.ternary w, true)
  | .lpm _ => (.lpm w, true)
  | .range _ => (.range w, true)
  | .optionalMatch _ => (.optionalMatch w, true)
  | t => (t, false)

end P4C
