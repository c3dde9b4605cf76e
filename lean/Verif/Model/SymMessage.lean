import Verif.Model.Symbolic
import Verif.Model.EntryMessage

/-
The texts of the error statuses of `symbolic_interpreter.cc`: the functions of `Verif/Model/Symbolic.lean` once more,
with the messages. `Verif/Proofs/SymMessage.lean` proves that they agree up to `MRes.erase`.

Operations of Z3 return no statuses (they throw, a crash), so `MRes.ofRes []` adds no message.
-/

namespace P4C

/-- Texts that are not modelled, in addition to those of the parser and the type checker. -/
structure SymTexts extends Texts where
  /-- `operator<<` of `ast::Type`. -/
  type : Ty → Str
  /-- `Type::ShortDebugString`. -/
  shortType : Ty → Str
  /-- `operator<<` of `SymbolicKey`. -/
  symKey : SymKey → Str
  /-- `operator<<` of `SymbolicEvalResult`. -/
  symResult : SymResult → Str
  /-- `typeid(z3::expr).name()`. -/
  exprTypeId : Str

/-- `AbslStringify` of `KeyInfo` (constraint_info.h:61-65). -/
def keyInfoText (x : SymTexts) (ki : VarInfo) : Str :=
  c!"KeyInfo{ id: " ++ natDec ki.id ++ c!"; name: \"" ++ ki.name ++ c!"\"; type: { " ++ x.shortType ki.ty ++ c!" }; }"

/-- The text about range matches (symbolic_interpreter.cc:285-288, 561-564, 639-642). -/
def rangeText : Str :=
  c!"Range matches are not currently supported by the p4-constraints symbolic representation."

/-- `TypeBitwidthOrStatus` (ast.cc:119-127). -/
def typeBitwidthOrStatusM (x : SymTexts) (t : Ty) : MRes Int :=
  match typeBitwidth t with
  | some w => .ok w
  | none => .err .invalidArgument (c!"expected a type with bitwidth, but got: " ++ x.type t)

/-- `GetFieldAccess` (symbolic_interpreter.cc:53-77). -/
def getFieldAccessM (k : SymKey) (f : Str) : MRes Z3Expr :=
  match k with
  | .exact v => if f = c!"value" then .ok v else .err .invalidArgument (c!"Exact has no field '" ++ f ++ c!"'")
  | .ternary v m =>
    if f = c!"value" then .ok v else if f = c!"mask" then .ok m
    else .err .invalidArgument (c!"Ternary has no field \"" ++ f ++ c!"\"")
  | .lpm v p =>
    if f = c!"value" then .ok v else if f = c!"prefix_length" then .ok p
    else .err .invalidArgument (c!"LPM has no field \"" ++ f ++ c!"\"")

/-- `EvalBinaryExpression` on `z3::expr`s (symbolic_interpreter.cc:142-172). -/
def symBinExprM (x : SymTexts) (op : BinOp) (l r : Z3Expr) : MRes Z3Expr :=
  match op with
  | .unknown => .err .invalidArgument (c!"got invalid binary operation: " ++ x.operator op)
  | op => .ofRes [] (symBinExpr op l r)

/-- `EvalBinaryExpression` on ternaries and LPMs (symbolic_interpreter.cc:180-222), with
`EnsureBinopIsEqualsOrNotEquals` (symbolic_interpreter.cc:132-138). -/
def symBinPairM (x : SymTexts) (op : BinOp) (l1 l2 r1 r2 : Z3Expr) : MRes Z3Expr :=
  if op ≠ .eq ∧ op ≠ .ne then
    .err .invalidArgument (c!"Expected binary operation to be EQ or NE, but got: " ++ x.operator op)
  else do
    let a ← symBinExprM x op l1 r1
    let b ← symBinExprM x op l2 r2
    .ofRes [] (if op = .ne then a.or b else a.and b)

/-- `index()` of a `SymbolicKey`. -/
def SymKey.index : SymKey → Nat
  | .exact _ => 0
  | .ternary .. => 1
  | .lpm .. => 2

/-- `index()` of a `SymbolicEvalResult` (symbolic_interpreter.h:199). -/
def SymResult.index : SymResult → Nat
  | .key _ => 0
  | .expr _ => 1

/-- `EvalBinaryExpression` on keys (symbolic_interpreter.cc:224-235), with `EnsureSameType`
(symbolic_interpreter.cc:108-130). -/
def symBinKeyM (x : SymTexts) (op : BinOp) (l r : SymKey) : MRes Z3Expr :=
  match l, r with
  | .exact a, .exact b => symBinExprM x op a b
  | .ternary v m, .ternary v' m' => symBinPairM x op v m v' m'
  | .lpm v p, .lpm v' p' => symBinPairM x op v p v' p'
  | l, r => MRes.annotate (c!" for left key:\n" ++ x.symKey l ++ c!"\nAnd right key:\n" ++ x.symKey r)
      (.err .invalidArgument (c!"Expected key1 and key2 to have the same type, but got: '" ++ natDec l.index ++
        c!"' and '" ++ natDec r.index ++ c!"'."))

/-- `EvalBinaryExpression` on results (symbolic_interpreter.cc:237-249), with `EnsureSameType`
(symbolic_interpreter.cc:83-101). -/
def symBinM (x : SymTexts) (op : BinOp) (l r : SymResult) : MRes Z3Expr :=
  match l, r with
  | .expr a, .expr b => symBinExprM x op a b
  | .key a, .key b => symBinKeyM x op a b
  | l, r => MRes.annotate (c!" for left result:\n" ++ x.symResult l ++ c!"\nAnd right result:\n" ++ x.symResult r)
      (.err .invalidArgument (c!"Expected expr1 and expr2 to have the same result type, but got: '" ++
        natDec l.index ++ c!"' and '" ++ natDec r.index ++ c!"'."))

/-- `EvalTypeCast` (symbolic_interpreter.cc:251-302). -/
def symCastM (x : SymTexts) (e : Z3Expr) (t : Ty) : MRes SymResult := do
  let w ← (typeBitwidthOrStatusM x t).annotate
    (c!"expressions can only be cast to types with bitwidths, but got: " ++ x.type t)
  match t with
  | .fixedUnsigned _ => do
    let e ← MRes.ofRes [] (e.int2bv w)
    .ok (.expr e)
  | .exact _ => .ok (.key (.exact e))
  | .optionalMatch _ | .ternary _ => do
    let m ← MRes.ofRes [] (bvAllOnes w)
    .ok (.key (.ternary e m))
  | .lpm _ => .ok (.key (.lpm e ⟨.int, .intVal w⟩))
  | .range _ => .err .unimplemented rangeText
  | t => .err .invalidArgument (c!"cannot cast expression to type " ++ x.type t)

/-- `gutils::FindPtrOrStatus` (gutils/collections.h). -/
def findPtrOrStatusM {α : Type} (n : Str) (m : List (Str × α)) : MRes α :=
  match lookup n m with
  | some a => .ok a
  | none => .err .notFound (c!"Key not found: '" ++ n ++ c!"'")

/-- `EvalSymbolicallyTo<z3::expr>` (symbolic_interpreter.cc:309-327), with `RuntimeTypeError` (errors.cc:15-26). -/
def symToExprM (x : SymTexts) (src : ConstraintSource) (e : Expr) (r : MRes SymResult) : MRes Z3Expr := do
  let r ← r
  match r with
  | .expr z => .ok z
  | .key _ =>
    let text := c!"Expected an expression that evaluates to a '" ++ x.exprTypeId ++ c!"', but got: " ++ x.symResult r ++
      c!" for expression:\n" ++ x.expression e
    match quoteSub src e.start e.stop with
    | .ok q => .err .internal (q ++ c!"Runtime type error: " ++ text)
    | .err _ => .err .internal (x.quoteFailure src e.start e.stop ++ text)
    | .crash => .crash
    | .oof => .oof

/-- `EvalSymbolically` (symbolic_interpreter.cc:329-412). -/
def evalSymM (x : SymTexts) (src : ConstraintSource) (env : SymEnv) : Expr → MRes SymResult
  | .boolConst _ b => .ok (.expr ⟨.bool, .boolVal b⟩)
  | .boolNeg _ e => do
    let z ← symToExprM x src e (evalSymM x src env e)
    let z ← MRes.ofRes [] z.not
    .ok (.expr z)
  | .intConst _ s => do
    let z ← MRes.ofRes [] (intVal s)
    .ok (.expr z)
  | .arithNeg _ e => do
    let z ← symToExprM x src e (evalSymM x src env e)
    let z ← MRes.ofRes [] z.neg
    .ok (.expr z)
  | .key _ n => do
    let k ← findPtrOrStatusM n env.keys
    .ok (.key k)
  | .actionParam .. => .err .unimplemented c!"TODO: b/293656077 - Support action constraints"
  | .field _ e f => do
    let k ← findPtrOrStatusM (protoKey e) env.keys
    let z ← getFieldAccessM k f
    .ok (.expr z)
  | .attr _ n => do
    let z ← findPtrOrStatusM n env.attrs
    .ok (.expr z)
  | .bin _ op l r => do
    let l ← evalSymM x src env l
    let r ← evalSymM x src env r
    let z ← symBinM x op l r
    .ok (.expr z)
  | .typeCast i e => do
    let z ← symToExprM x src e (evalSymM x src env e)
    symCastM x z i.ty
  | .notSet i => .err .invalidArgument (c!"got invalid expression: " ++ x.expression (.notSet i))

/-- `EvaluateConstraintSymbolically` (symbolic_interpreter.cc:667-679). -/
def evaluateConstraintSymbolicallyM (x : SymTexts) (c : Expr) (src : ConstraintSource) (env : SymEnv) : MRes Z3Expr :=
  if c.ty ≠ .boolean then
    .err .invalidArgument (c!"expected a constraint of type boolean, but got:\n" ++ x.expression c)
  else symToExprM x src c (evalSymM x src env c)

/-- `AddSymbolicKey` (symbolic_interpreter.cc:587-657). The cases that succeed are those of `addSymbolicKey`. -/
def addSymbolicKeyM (x : SymTexts) (key : VarInfo) : MRes (SymKey × List (Term .bool)) := do
  let w ← typeBitwidthOrStatusM x key.ty
  if w = 0 then
    .err .invalidArgument (c!"expected a key type with bitwidth > 0, but got: " ++ keyInfoText x key)
  else
    match key.ty with
    | .exact _ | .optionalMatch _ | .ternary _ | .lpm _ => .ofRes [] (addSymbolicKey key)
    | .range _ => .err .unimplemented rangeText
    | _ => .err .invalidArgument (c!"expected a match type, but got: " ++ keyInfoText x key)

/-- `Z3BitvectorValueToP4RuntimeBytestring` (symbolic_interpreter.cc:472-482). -/
def z3ToBytesM (s : Str) (w : Nat) : MRes Bytes :=
  .ofRes (c!"Expected a Z3 bitvector value starting with '#x' or '#b', but got '" ++ s ++ c!"'.") (z3ToBytes s w)

/-- `ConcretizeKey` (symbolic_interpreter.cc:484-581); `none` is a wildcard. -/
def concretizeKeyM (x : SymTexts) (k : SymKey) (ki : VarInfo) (m : Interp) : MRes (Option FieldMatch) := do
  let w ← typeBitwidthOrStatusM x ki.ty
  match ki.ty with
  | .exact _ => do
    let v ← getFieldAccessM k c!"value"
    let bs ← z3ToBytesM (evalToString m v) w.toNat
    .ok (some ⟨ki.id, .exact bs⟩)
  | .optionalMatch _ => do
    let mask ← getFieldAccessM k c!"mask"
    if evalIsZero m mask then .ok none
    else do
      let v ← getFieldAccessM k c!"value"
      let bs ← z3ToBytesM (evalToString m v) w.toNat
      .ok (some ⟨ki.id, .optional bs⟩)
  | .ternary _ => do
    let mask ← getFieldAccessM k c!"mask"
    if evalIsZero m mask then .ok none
    else do
      let v ← getFieldAccessM k c!"value"
      let bs ← z3ToBytesM (evalToString m v) w.toNat
      let ms ← z3ToBytesM (evalToString m mask) w.toNat
      .ok (some ⟨ki.id, .ternary bs ms⟩)
  | .lpm _ => do
    let p ← getFieldAccessM k c!"prefix_length"
    match p with
    | ⟨.int, t⟩ =>
      let pl : Int := t.den m
      if pl < -2147483648 ∨ pl > 2147483647 then .crash
      else if pl = 0 then .ok none
      else do
        let v ← getFieldAccessM k c!"value"
        let bs ← z3ToBytesM (evalToString m v) w.toNat
        .ok (some ⟨ki.id, .lpm bs pl⟩)
    | _ => .crash
  | .range _ => .err .unimplemented rangeText
  | _ => .err .invalidArgument (c!"expected a match type, but got: " ++ keyInfoText x ki)

/-! ### The solver -/

/-- `AddConstraint(constraint, constraint_source)` (symbolic_interpreter.cc:731-751). -/
def Solver.addConstraintM (z : Z3Oracle) (x : SymTexts) (s : Solver) (c : Expr) (src : ConstraintSource) :
    MRes Bool × Solver :=
  let (r, s) := s.check z
  match r with
  | .sat .. =>
    match evaluateConstraintSymbolicallyM x c src s.env with
    | .ok ⟨.bool, t⟩ =>
      let (r, s') := Solver.check z { s with assertions := s.assertions ++ [t] }
      match r with
      | .sat .. => (.ok true, s')
      | _ => (.ok false, { s' with assertions := s.assertions })
    | .ok _ => (.crash, s)
    | .err c m => (.err c m, s)
    | .crash => (.crash, s)
    | .oof => (.oof, s)
  | _ => (.err .internal
      c!"Stored constraints are unsatisfiable. Constraint solver must hold a satisfiable constraint at all times.", s)

/-- `AddConstraint(constraint_string)` (symbolic_interpreter.cc:753-769). -/
def Solver.addConstraintStrM (z : Z3Oracle) (x : SymTexts) (sys : Sys) (s : Solver) (text : Str) :
    MRes Bool × Solver :=
  let src : ConstraintSource := ⟨text, { src := .tableName s.table.name }⟩
  match (do
    let e ← parseConstraintM x.toTexts sys .table src
    inferAndCheckM x.toTexts s.table.source (.table s.table.keysByName) e : MRes Expr) with
  | .ok e => s.addConstraintM z x e src
  | .err c m => (.err c m, s)
  | .crash => (.crash, s)
  | .oof => (.oof, s)

/-- The loop of `Create` over the ordered keys (symbolic_interpreter.cc:783-801). -/
def createKeysM (x : SymTexts) (skip : Str → MRes Bool) :
    List (Str × SymKey) → List (Term .bool) → List (Str × VarInfo) →
      MRes (List (Str × SymKey) × List (Term .bool))
  | ks, as, [] => .ok (ks, as)
  | ks, as, (n, ki) :: rest => do
    let skipped ← skip n
    if skipped then createKeysM x skip ks as rest
    else do
      let (k, as') ← addSymbolicKeyM x ki
      createKeysM x skip ((insertNew n k ks).getD ks) (as ++ as') rest

/-- `ConstraintSolver::Create` (symbolic_interpreter.cc:771-822). -/
def Solver.createM (z : Z3Oracle) (x : SymTexts) (table : TableInfo) (skip : Str → MRes Bool) : MRes Solver := do
  let keys := ordered table.keysByName
  let (ks, as) ← createKeysM x skip [] [] keys
  let requiresPriority := keys.any fun kv => needsPriority kv.2.ty
  let s : Solver :=
    if requiresPriority then
      ⟨0, as ++ priorityAssertions, table, ⟨ks, [(c!"priority", ⟨.int, priorityTerm⟩)]⟩, fun n => (skip n).erase⟩
    else ⟨0, as, table, ⟨ks, []⟩, fun n => (skip n).erase⟩
  match table.constraint with
  | none => .ok s
  | some c =>
    match s.addConstraintM z x c table.source with
    | (.ok true, s) => .ok s
    | (.ok false, _) => .err .invalidArgument (c!"TableInfo provided an unsatisfiable constraint. " ++
        c!"ConstraintSolver must contain a satisfiable constraint at all times so creation failed.\n " ++
        c!"Unsatisfiable Constraint: " ++ table.source.str)
    | (.err c m, _) => .err c m
    | (.crash, _) => .crash
    | (.oof, _) => .oof

/-- The loop of `ConcretizeEntry` over the ordered keys (symbolic_interpreter.cc:693-709). -/
def concretizeKeysM (x : SymTexts) (skip : Str → MRes Bool) (env : SymEnv) (m : Interp) :
    List (Str × VarInfo) → MRes (List FieldMatch)
  | [] => .ok []
  | (n, ki) :: rest => do
    let skipped ← skip n
    if skipped then concretizeKeysM x skip env m rest
    else do
      let k ← findPtrOrStatusM n env.keys
      let fm ← concretizeKeyM x k ki m
      let fms ← concretizeKeysM x skip env m rest
      .ok (match fm with | some fm => fm :: fms | none => fms)

/-- The priority part of `ConcretizeEntry` (symbolic_interpreter.cc:711-727). -/
def concretizePriorityM (env : SymEnv) (m : Interp) (hasInterp : Str → Srt → Bool) : MRes Int :=
  .ofRes (c!"A priority SymbolicAttribute existed, but it was not constrained. This should never happen. Please use " ++
    c!"AddSymbolicPriority to initialize a priority for the symbolic interpreter.")
    (concretizePriority env m hasInterp)

/-- `ConcretizeEntry` (symbolic_interpreter.cc:683-729), where `skip` is `skip_key_named_` with its messages. -/
def Solver.concretizeM (z : Z3Oracle) (x : SymTexts) (skip : Str → MRes Bool) (s : Solver) : MRes RtEntry × Solver :=
  let (r, s) := s.check z
  match r with
  | .sat m h =>
    ((do
      let fms ← concretizeKeysM x skip s.env m (ordered s.table.keysByName)
      let prio ← concretizePriorityM s.env m h
      .ok { tableId := s.table.id, matches_ := fms, priority := prio }), s)
  | _ => (.err .internal c!"Constraints are not satisfiable.", s)

end P4C
