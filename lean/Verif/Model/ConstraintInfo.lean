import Verif.Model.Parser
import Verif.Model.Interpreter

/-
Model of `p4_constraints/backend/constraint_info.cc`.
-/

namespace P4C

/-! ### Input messages (p4/config/v1/p4info.proto) -/

/-- `enum MatchField.MatchType`; `invalid` stands for UNSPECIFIED and for unknown enum values. -/
inductive MatchType where
  | invalid | exact | lpm | ternary | range | optional
deriving DecidableEq, Repr

/-- `oneof match` of `message MatchField`. -/
inductive MatchCase where
  | notSet
  | matchType (t : MatchType)
  | otherMatchType (name : Str)
deriving DecidableEq, Repr

/-- `message MatchField`. -/
structure MatchField where
  id : Nat
  name : Str
  bitwidth : Int
  kind : MatchCase
deriving DecidableEq, Repr

/-- `message Action.Param`; `typeName` is `type_name().name()`. -/
structure ParamDecl where
  id : Nat
  name : Str
  bitwidth : Int
  typeName : Str := []
deriving DecidableEq, Repr

/-- `message Preamble`. -/
structure Preamble where
  id : Nat
  name : Str
  annotations : List Str := []
deriving DecidableEq, Repr

/-- `message Table`. -/
structure TableDecl where
  preamble : Preamble
  matchFields : List MatchField
deriving DecidableEq, Repr

/-- `message Action`. -/
structure ActionDecl where
  preamble : Preamble
  params : List ParamDecl
deriving DecidableEq, Repr

/-- `message P4Info`. -/
structure P4Info where
  tables : List TableDecl
  actions : List ActionDecl
deriving DecidableEq, Repr

/-! ### Extracting the constraint -/

open Re in
/-- `file_annotation` (constraint_info.cc:107): `@file[(]"([^"]*)"[)]`. -/
def fileAnnotation : Re :=
  seq (lit c!"@file(\"") (seq (grp .file (star (noneOf c!"\""))) (lit c!"\")"))

open Re in
/-- `line_annotation` (constraint_info.cc:108): `@line[(](\d+)[)]`. -/
def lineAnnotation : Re :=
  seq (lit c!"@line(") (seq (grp .line (plus ⟨false, isDec⟩)) (lit c!")"))

/-- `GetConstraintAnnotation` (constraint_info.cc:53-66). -/
def constraintAnnotation : ConstraintKind → Re
  | .table => Re.lit c!"@entry_restriction"
  | .action => Re.lit c!"@action_restriction"

/-- State of the loop over annotations (constraint_info.cc:111-113): `src` is the `file_path` set so
far, `line` the line. -/
structure AnnState where
  file : Str := []
  line : Int := 0
deriving DecidableEq, Repr

/-- RE2's conversion of a captured digit string to `int` (`RE2::Arg` for `int`): fails out of range. -/
def parseInt32 (s : Str) : Option Int :=
  match setStr 10 s with
  | some n => if n ≤ 2147483647 then some n else none
  | none => none

/-- `RE2::Consume(&annotation, file_annotation, ..)`. -/
def consumeFile (a : Str) : Option Str := (fileAnnotation.first a).map (capture .file)

/-- `RE2::Consume(&annotation, line_annotation, &line)`. -/
def consumeLine (a : Str) : Option Int := (lineAnnotation.first a).bind fun m => parseInt32 (capture .line m)

/-- The loop of `ExtractConstraint` (constraint_info.cc:114-123): the final state and the text following
the restriction annotation, up to a NUL (`annotation.data()`); empty if there is none. -/
def annLoop (k : ConstraintKind) : AnnState → List Str → AnnState × Str
  | st, [] => (st, [])
  | st, a :: as =>
    match consumeFile a with
    | some f => annLoop k { st with file := f } as
    | none =>
      match consumeLine a with
      | some n => annLoop k { st with line := n } as
      | none =>
        match (constraintAnnotation k).first a with
        | some m => (st, cstr (a.drop m.1))
        | none => annLoop k st as

/-- `absl::ConsumePrefix`. -/
def consumePrefix (p s : Str) : Option Str := if p.isPrefixOf s then some (s.drop p.length) else none

/-- `absl::ConsumeSuffix`. -/
def consumeSuffix (p s : Str) : Option Str :=
  if p.isSuffixOf s then some (s.take (s.length - p.length)) else none

/-- `RE2::GlobalReplace(&s, "\" \"", "\n")` (constraint_info.cc:157): leftmost, non-overlapping. -/
def replaceQuotes : Str → Str
  | '"' :: ' ' :: '"' :: cs => '\n' :: replaceQuotes cs
  | c :: cs => c :: replaceQuotes cs
  | [] => []

/-- The location of the constraint (constraint_info.cc:127-131). -/
def constraintLoc (k : ConstraintKind) (name : Str) (st : AnnState) : Loc :=
  { line := st.line, col := 0,
    src := if st.file = [] then
        (match k with | .table => .tableName name | .action => .actionName name)
      else .filePath st.file }

/-- `ExtractConstraint` (constraint_info.cc:83-182). -/
def extractConstraint (k : ConstraintKind) (p : Preamble) : Res (Option ConstraintSource) :=
  let (st, s) := annLoop k {} p.annotations
  if s = [] then .ok none
  else
    match (consumePrefix c!"(\"" s).bind (consumeSuffix c!"\")") with
    | none => .err .invalidArgument
    | some s =>
      let s := replaceQuotes s
      if '"' ∈ s then .err .invalidArgument
      else .ok (some ⟨s, constraintLoc k p.name st⟩)

/-! ### Tables and actions -/

/-- `ParseKeyType` (constraint_info.cc:184-216). -/
def parseKeyType (f : MatchField) : Res Ty :=
  match f.kind with
  | .matchType .exact => .ok (.exact f.bitwidth)
  | .matchType .ternary => .ok (.ternary f.bitwidth)
  | .matchType .lpm => .ok (.lpm f.bitwidth)
  | .matchType .range => .ok (.range f.bitwidth)
  | .matchType .optional => .ok (.optionalMatch f.bitwidth)
  | .matchType .invalid => .err .invalidArgument
  | .otherMatchType n => .ok (.unsupported n)
  | .notSet => .err .internal

/-- `ParseParamType` (constraint_info.cc:218-229). -/
def parseParamType (p : ParamDecl) : Res Ty :=
  if p.typeName ≠ [] then .ok (.unsupported p.typeName) else .ok (.fixedUnsigned p.bitwidth)

/-- The two maps by id and by name. -/
abbrev VarMaps := List (Nat × VarInfo) × List (Str × VarInfo)

/-- Insert a definition into both maps; a duplicate is an error (constraint_info.cc:238-247, 285-294). -/
def insertVar (v : VarInfo) (m : VarMaps) : Res VarMaps :=
  match insertNew v.id v m.1 with
  | none => .err .invalidArgument
  | some byId =>
    match insertNew v.name v m.2 with
    | none => .err .invalidArgument
    | some byName => .ok (byId, byName)

/-- The loop over match fields (constraint_info.cc:235-248). -/
def parseKeys : VarMaps → List MatchField → Res VarMaps
  | m, [] => .ok m
  | m, f :: fs => do
    let t ← parseKeyType f
    let m ← insertVar ⟨f.id, f.name, t⟩ m
    parseKeys m fs

/-- The loop over action parameters (constraint_info.cc:282-299). -/
def parseParamDecls : VarMaps → List ParamDecl → Res VarMaps
  | m, [] => .ok m
  | m, p :: ps => do
    let t ← parseParamType p
    let m ← insertVar ⟨p.id, p.name, t⟩ m
    parseParamDecls m ps

/-- Extract, parse and type check a constraint (constraint_info.cc:250-273 and 300-320). -/
def parseAndCheck (sys : Sys) (k : ConstraintKind) (p : Preamble) (sc : Scope) :
    Res (Option Expr × ConstraintSource) := do
  let source ← extractConstraint k p
  match source with
  | none => .ok (none, {})
  | some src => do
    let e ← parseConstraint sys k src
    let e ← inferAndCheck src sc e
    .ok (some e, src)

/-- `ParseTableInfo` (constraint_info.cc:231-276). -/
def parseTableInfo (sys : Sys) (t : TableDecl) : Res TableInfo := do
  let (byId, byName) ← parseKeys ([], []) t.matchFields
  let (constraint, src) ← parseAndCheck sys .table t.preamble (.table byName)
  .ok ⟨t.preamble.id, t.preamble.name, constraint, src, byId, byName⟩

/-- `ParseActionInfo` (constraint_info.cc:278-322). -/
def parseActionInfo (sys : Sys) (a : ActionDecl) : Res ActionInfo := do
  let (byId, byName) ← parseParamDecls ([], []) a.params
  let (constraint, src) ← parseAndCheck sys .action a.preamble (.action byName)
  .ok ⟨a.preamble.id, a.preamble.name, constraint, src, byId, byName⟩

/-- The loops of `P4ToConstraintInfo` (constraint_info.cc:362-383): errors are collected (only whether
there was one matters here), crashes are not. -/
def collect {δ ι : Type} (parse : δ → Res ι) (id : δ → Nat) :
    List (Nat × ι) × Bool → List δ → Res (List (Nat × ι) × Bool)
  | acc, [] => .ok acc
  | (m, failed), d :: ds =>
    match parse d with
    | .ok i =>
      match insertNew (id d) i m with
      | some m => collect parse id (m, failed) ds
      | none => collect parse id (m, true) ds
    | .err _ => collect parse id (m, true) ds
    | .crash => .crash
    | .oof => .oof

/-- `P4ToConstraintInfo` (constraint_info.cc:354-398). -/
def p4ToConstraintInfo (sys : Sys) (p : P4Info) : Res ConstraintInfo := do
  let (tables, f1) ← collect (parseTableInfo sys) (fun t => t.preamble.id) ([], false) p.tables
  let (actions, f2) ← collect (parseActionInfo sys) (fun a => a.preamble.id) ([], false) p.actions
  if f1 || f2 then .err .invalidArgument else .ok ⟨actions, tables⟩

end P4C
