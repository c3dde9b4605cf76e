import Verif.Model.Basic

/-
Model of `p4_constraints/ast.proto` and `p4_constraints/ast.cc`.
-/

namespace P4C

/-- `message Type` (ast.proto:102-162). `notSet` is `TYPE_NOT_SET`. Bit widths are `int32`. -/
inductive Ty where
  | notSet
  | unknown
  | unsupported (name : Str)
  | boolean
  | arbitraryInt
  | fixedUnsigned (w : Int)
  | exact (w : Int)
  | ternary (w : Int)
  | lpm (w : Int)
  | range (w : Int)
  | optionalMatch (w : Int)
deriving DecidableEq, Repr

/-- `Type::TypeCase` (ast.proto:102-117). -/
inductive TyCase where
  | notSet | unknown | unsupported | boolean | arbitraryInt | fixedUnsigned | exact | ternary | lpm | range
  | optionalMatch
deriving DecidableEq, Repr

/-- `Type::type_case()`. -/
def Ty.case : Ty → TyCase
  | .notSet => .notSet
  | .unknown => .unknown
  | .unsupported _ => .unsupported
  | .boolean => .boolean
  | .arbitraryInt => .arbitraryInt
  | .fixedUnsigned _ => .fixedUnsigned
  | .exact _ => .exact
  | .ternary _ => .ternary
  | .lpm _ => .lpm
  | .range _ => .range
  | .optionalMatch _ => .optionalMatch

/-- `oneof source` of `message SourceLocation` (ast.proto:166-193). -/
inductive Src where
  | notSet
  | filePath (s : Str)
  | tableName (s : Str)
  | actionName (s : Str)
deriving DecidableEq, Repr

/-- `message SourceLocation` (ast.proto:166-193). -/
structure Loc where
  line : Int := 0
  col : Int := 0
  src : Src := .notSet
deriving DecidableEq, Repr

/-- `enum BinaryOperator` (ast.proto:87-100). -/
inductive BinOp where
  | unknown | eq | ne | gt | ge | lt | le | and | or | implies
deriving DecidableEq, Repr

/-- The fields common to all expressions: `start_location`, `end_location`, `type` (ast.proto:22-27). -/
structure Info where
  start : Loc := {}
  stop : Loc := {}
  ty : Ty := .notSet
deriving DecidableEq, Repr

/-- `message Expression` (ast.proto:22-85); one constructor per `oneof` case. -/
inductive Expr where
  | notSet (i : Info)
  | boolConst (i : Info) (b : Bool)
  | intConst (i : Info) (s : Str)
  | key (i : Info) (name : Str)
  | actionParam (i : Info) (name : Str)
  | boolNeg (i : Info) (e : Expr)
  | arithNeg (i : Info) (e : Expr)
  | typeCast (i : Info) (e : Expr)
  | bin (i : Info) (op : BinOp) (l r : Expr)
  | field (i : Info) (e : Expr) (f : Str)
  | attr (i : Info) (name : Str)
deriving DecidableEq, Repr

namespace Expr

/-- Common fields of an expression. -/
def info : Expr → Info
  | notSet i | boolConst i _ | intConst i _ | key i _ | actionParam i _ | boolNeg i _
  | arithNeg i _ | typeCast i _ | bin i _ _ _ | field i _ _ | attr i _ => i

/-- `expr.type()`. -/
def ty (e : Expr) : Ty := e.info.ty
/-- `expr.start_location()`. -/
def start (e : Expr) : Loc := e.info.start
/-- `expr.end_location()`. -/
def stop (e : Expr) : Loc := e.info.stop

end Expr

/-- `*expr->mutable_type() = t` on the common fields. -/
def Info.withTy (i : Info) (t : Ty) : Info := { i with ty := t }

/-- `TypeName` (ast.cc:55-82). -/
def typeName : Ty → Str
  | .unknown => c!"unknown"
  | .unsupported n => n
  | .boolean => c!"bool"
  | .arbitraryInt => c!"int"
  | .fixedUnsigned w => c!"bit<" ++ intDec w ++ c!">"
  | .exact w => c!"exact<" ++ intDec w ++ c!">"
  | .ternary w => c!"ternary<" ++ intDec w ++ c!">"
  | .lpm w => c!"bit<" ++ intDec w ++ c!">"
  | .range w => c!"range<" ++ intDec w ++ c!">"
  | .optionalMatch w => c!"optional<" ++ intDec w ++ c!">"
  | .notSet => c!"???"

/-- `TypeHasOrdering` (ast.cc:89-98). -/
def typeHasOrdering : Ty → Bool
  | .arbitraryInt | .fixedUnsigned _ | .exact _ => true
  | _ => false

/-- `TypeBitwidth` (ast.cc:100-117). -/
def typeBitwidth : Ty → Option Int
  | .fixedUnsigned w | .exact w | .ternary w | .lpm w | .range w | .optionalMatch w => some w
  | _ => none

/-- `TypeBitwidthOrStatus` (ast.cc:119-127). -/
def typeBitwidthOrStatus (t : Ty) : Res Int :=
  match typeBitwidth t with
  | some w => .ok w
  | none => .err .invalidArgument

/-- `SetTypeBitwidth` (ast.cc:129-152); types without bit width are unchanged. -/
def setTypeBitwidth (t : Ty) (w : Int) : Ty :=
  match t with
  | .fixedUnsigned _ => .fixedUnsigned w
  | .exact _ => .exact w
  | .ternary _ => .ternary w
  | .lpm _ => .lpm w
  | .range _ => .range w
  | .optionalMatch _ => .optionalMatch w
  | t => t

/-- `TypeCaseToType` (ast.cc:154-193). -/
def typeCaseToType : TyCase → Ty
  | .notSet => .notSet
  | .unknown => .unknown
  | .unsupported => .unsupported []
  | .boolean => .boolean
  | .arbitraryInt => .arbitraryInt
  | .fixedUnsigned => .fixedUnsigned 0
  | .exact => .exact 0
  | .ternary => .ternary 0
  | .lpm => .lpm 0
  | .range => .range 0
  | .optionalMatch => .optionalMatch 0

/-- `HaveSameSource` (ast.cc:196-206): same `oneof source`, ignoring line and column. -/
def haveSameSource (a b : Loc) : Bool := a.src = b.src

/-- `AddVariables` (ast.cc:209-244); the set is a list, duplicates are not inserted again. -/
def addVariables : Expr → List Str → List Str
  | .key _ n, s | .actionParam _ n, s => if n ∈ s then s else n :: s
  | .boolNeg _ e, s | .arithNeg _ e, s | .typeCast _ e, s | .field _ e _, s => addVariables e s
  | .bin _ _ l r, s => addVariables r (addVariables l s)
  | .attr .., s | .intConst .., s | .boolConst .., s | .notSet .., s => s

/-- `GetVariables` (ast.cc:246-250). -/
def getVariables (e : Expr) : List Str := addVariables e []

/-- `Size` (ast.cc:254-294) without cache. Note the missing case `kActionParameter`. -/
def size : Expr → Res Nat
  | .boolConst .. | .intConst .. | .key .. | .arithNeg .. | .typeCast .. | .field .. | .attr .. => .ok 1
  | .bin _ _ l r => do
    let ls ← size l
    let rs ← size r
    .ok (1 + ls + rs)
  | .boolNeg _ e => do
    let s ← size e
    .ok (1 + s)
  | .actionParam .. | .notSet .. => .err .invalidArgument

/-- A node of an expression, identified by the path leading to it; stands for the node's address. -/
abbrev Path := List Nat

/-- `SizeCache` (ast.h): `flat_hash_map<const Expression*, int>`. -/
abbrev SizeCache := List (Path × Nat)

/-- `Size` (ast.cc:254-294) with a `SizeCache`; `p` is the address of the expression. -/
def sizeC : Expr → Path → SizeCache → Res (Nat × SizeCache)
  | e, p, c =>
    match lookup p c with
    | some n => .ok (n, c)
    | none =>
      match e with
      | .boolConst .. | .intConst .. | .key .. | .arithNeg .. | .typeCast .. | .field .. | .attr .. =>
        .ok (1, c)
      | .bin _ _ l r => do
        let (ls, c) ← sizeC l (0 :: p) c
        let (rs, c) ← sizeC r (1 :: p) c
        let n := 1 + ls + rs
        .ok (n, (p, n) :: c)
      | .boolNeg _ e => do
        let (s, c) ← sizeC e (0 :: p) c
        let n := 1 + s
        .ok (n, (p, n) :: c)
      | .actionParam .. | .notSet .. => .err .invalidArgument

end P4C
