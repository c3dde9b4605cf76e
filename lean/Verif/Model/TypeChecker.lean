import Verif.Model.Quote

/-
Model of `p4_constraints/backend/type_checker.cc`.
-/

namespace P4C

/-- `struct KeyInfo` and `struct ParamInfo` (constraint_info.h:43-59). -/
structure VarInfo where
  id : Nat
  name : Str
  ty : Ty
deriving DecidableEq, Repr

/-- What a constraint is checked against: the keys of a table or the parameters of an action
(`TableInfo::keys_by_name`, `ActionInfo::params_by_name`). The C++ function takes two pointers of which
exactly one is non-null (type_checker.cc:231-246, 427-434). -/
inductive Scope where
  | table (keysByName : List (Str × VarInfo))
  | action (paramsByName : List (Str × VarInfo))
deriving DecidableEq, Repr

/-- `StrictlyAboveInCastabilityOrder` (type_checker.cc:90-110). -/
def strictlyAbove (left right : Ty) : Bool :=
  match left with
  | .exact _ | .ternary _ | .lpm _ | .range _ | .optionalMatch _ =>
    match right with
    | .fixedUnsigned _ => typeBitwidth left = typeBitwidth right
    | .arbitraryInt => true
    | _ => false
  | .fixedUnsigned _ =>
    match right with
    | .arbitraryInt => true
    | _ => false
  | _ => false

/-- `LeastUpperBound` (type_checker.cc:118-126). -/
def leastUpperBound (left right : Ty) : Option Ty :=
  if left = right then some left
  else if strictlyAbove left right then some left
  else if strictlyAbove right left then some right
  else none

/-- `WrapWithCast` (type_checker.cc:129-137). -/
def wrapWithCast (e : Expr) (t : Ty) : Expr := .typeCast ⟨e.start, e.stop, t⟩ e

/-- `CastTransitivelyTo` (type_checker.cc:141-160), the first `if`. -/
def castIntStep (e : Expr) (target : Ty) : Expr :=
  if strictlyAbove target e.ty ∧ e.ty = .arbitraryInt then
    wrapWithCast e (.fixedUnsigned ((typeBitwidth target).getD (-1)))
  else e

/-- Is it a `bit<W>` type? -/
def isFixedUnsigned : Ty → Bool
  | .fixedUnsigned _ => true
  | _ => false

/-- `CastTransitivelyTo` (type_checker.cc:141-160). -/
def castTransitivelyTo (e : Expr) (target : Ty) : Expr :=
  let e := castIntStep e target
  if strictlyAbove target e.ty ∧ isFixedUnsigned e.ty then wrapWithCast e target else e

/-- `Unify` (type_checker.cc:174-186). -/
def unify (src : ConstraintSource) (l r : Expr) : Res (Ty × Expr × Expr) :=
  match leastUpperBound l.ty r.ty with
  | none => quotingError src l.start r.stop
  | some t => .ok (t, castTransitivelyTo l t, castTransitivelyTo r t)

/-- `kFieldTypes` (type_checker.cc:193-204). -/
def kFieldTypes : TyCase → Str → Option TyCase := fun c f =>
  lookup (c, f)
    [((.exact, c!"value"), .fixedUnsigned),
     ((.ternary, c!"value"), .fixedUnsigned),
     ((.ternary, c!"mask"), .fixedUnsigned),
     ((.lpm, c!"value"), .fixedUnsigned),
     ((.lpm, c!"prefix_length"), .arbitraryInt),
     ((.range, c!"low"), .fixedUnsigned),
     ((.range, c!"high"), .fixedUnsigned),
     ((.optionalMatch, c!"value"), .fixedUnsigned),
     ((.optionalMatch, c!"mask"), .fixedUnsigned)]

/-- `FieldTypeOfCompositeType` (type_checker.cc:206-219). -/
def fieldTypeOfCompositeType (t : Ty) (f : Str) : Option Ty :=
  match kFieldTypes t.case f with
  | none => none
  | some c => some (setTypeBitwidth (typeCaseToType c) ((typeBitwidth t).getD (-1)))

/-- `GetAttributeInfo` (constraint_info.cc:326-338): the type of a known attribute. -/
def getAttributeInfo (name : Str) : Option Ty :=
  if name = c!"priority" then some .arbitraryInt else none

/-- Type is `unknown` or `unsupported` (type_checker.cc:273-274, 297-298). -/
def illegalType : Ty → Bool
  | .unknown | .unsupported _ => true
  | _ => false

/-- `InferAndCheckTypes` (type_checker.cc:231-434). Returns the mutated expression; on an error the
partially mutated argument is dropped. -/
def inferAndCheck (src : ConstraintSource) (sc : Scope) : Expr → Res Expr
  | .boolConst i b => .ok (.boolConst (i.withTy .boolean) b)
  | .intConst i s => .ok (.intConst (i.withTy .arbitraryInt) s)
  | .key i n =>
    match sc with
    | .action _ => quotingError src i.start i.stop
    | .table keys =>
      match lookup n keys with
      | none => quotingError src i.start i.stop
      | some ki =>
        if illegalType ki.ty then quotingError src i.start i.stop
        else .ok (.key (i.withTy ki.ty) n)
  | .actionParam i n =>
    match sc with
    | .table _ => quotingError src i.start i.stop
    | .action params =>
      match lookup n params with
      | none => quotingError src i.start i.stop
      | some pi =>
        if illegalType pi.ty then quotingError src i.start i.stop
        else .ok (.actionParam (i.withTy pi.ty) n)
  | .boolNeg i e => do
    let e ← inferAndCheck src sc e
    if e.ty ≠ .boolean then quotingError src e.start e.stop
    else .ok (.boolNeg (i.withTy .boolean) e)
  | .arithNeg i e => do
    let e ← inferAndCheck src sc e
    if e.ty ≠ .arbitraryInt then quotingError src e.start e.stop
    else .ok (.arithNeg (i.withTy .arbitraryInt) e)
  | .typeCast i _ => quotingError src i.start i.stop
  | .bin i op l r => do
    let l ← inferAndCheck src sc l
    let r ← inferAndCheck src sc r
    match op with
    | .and | .or | .implies =>
      if l.ty ≠ .boolean then quotingError src l.start l.stop
      else if r.ty ≠ .boolean then quotingError src r.start r.stop
      else .ok (.bin (i.withTy .boolean) op l r)
    | .gt | .ge | .lt | .le | .eq | .ne => do
      let (t, l, r) ← unify src l r
      if op ≠ .eq ∧ op ≠ .ne ∧ !typeHasOrdering t then quotingError src i.start i.stop
      else .ok (.bin (i.withTy .boolean) op l r)
    | .unknown => .err .internal
  | .field i e f => do
    let e ← inferAndCheck src sc e
    match fieldTypeOfCompositeType e.ty f with
    | none => quotingError src i.start i.stop
    | some t => .ok (.field (i.withTy t) e f)
  | .attr i n =>
    match getAttributeInfo n with
    | none => quotingError src i.start i.stop
    | some t =>
      if illegalType t then runtimeTypeError src i.start i.stop
      else .ok (.attr (i.withTy t) n)
  | .notSet i => quotingError src i.start i.stop

end P4C
