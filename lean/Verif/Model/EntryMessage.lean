import Verif.Model.Message

/-
The texts of the error statuses of `interpreter.cc`: the functions of `Verif/Model/Interpreter.lean` once more, with the
messages. `Verif/Proofs/EntryMessage.lean` proves that they agree up to `MRes.erase`.
-/

namespace P4C

/-- Texts that are not modelled, as unknown functions of what they describe: protobuf `DebugString`s, enum names and
numbers, and the messages of failing `RET_CHECK`s and of failing quotations. -/
structure EntryTexts where
  /-- `Failed to quote sub-constraint: ..` (errors.cc:19-23). -/
  quoteFailure : ConstraintSource → Loc → Loc → Str
  /-- The status of `QuoteSubConstraint`. -/
  quoteStatus : ConstraintSource → Loc → Loc → Str
  /-- `RET_CHECK failure (file:line) condition` (ret_check.cc:20-31), before the text streamed into it. -/
  retCheck : MatchVal → Str
  /-- The number of the case of `field_match_type`. -/
  matchCase : MatchVal → Str
  /-- The number of the case of `TableAction::type`. -/
  actionCase : TableAction → Str
  /-- `Type::DebugString`. -/
  type : Ty → Str
  /-- `Expression::DebugString`. -/
  expression : Expr → Str
  /-- `ast::BinaryOperator_Name`. -/
  operator : BinOp → Str
  /-- `TableEntry::DebugString`. -/
  entry : RtEntry → Str

namespace MRes

/-- `ASSIGN_OR_RETURN(.., .., _ << text)`: the text is appended to the message of the status (`Annotate`,
status_builder.cc:29-41). -/
def annotate {α : Type} (text : Str) : MRes α → MRes α
  | .err c m => .err c (if m = [] then text else m ++ c!"; " ++ text)
  | r => r

/-- A status without modelled text gets the given one. -/
def ofRes {α : Type} (text : Str) : Res α → MRes α
  | .ok a => .ok a
  | .err c => .err c text
  | .crash => .crash
  | .oof => .oof

end MRes

/-! ### Pretty printing -/

/-- A hexadecimal digit, in lower case. -/
def hexChar (d : Nat) : Char := if d < 10 then Char.ofNat (48 + d) else Char.ofNat (87 + d)

/-- Hexadecimal digits of a number, most significant first; `fuel` bounds their number. -/
def natHexF : Nat → Nat → Str
  | 0, _ => []
  | fuel + 1, n => if n < 16 then [hexChar n] else natHexF fuel (n / 16) ++ [hexChar (n % 16)]

/-- `%.8x`: at least eight digits. -/
def hex8 (n : Nat) : Str :=
  let s := natHexF (n + 1) n
  List.replicate (8 - s.length) '0' ++ s

/-- `P4IDToString` (interpreter.cc:64-74); `& 0x00ffffff` are the low 24 bits. -/
def p4IdToString (id : Nat) : Str :=
  if id % 2 ^ 24 = id then natDec id ++ c!" (0x" ++ hex8 id ++ c!")"
  else natDec (id % 2 ^ 24) ++ c!" (full ID: " ++ natDec id ++ c!" (0x" ++ hex8 id ++ c!"))"

/-! ### Parsing entries -/

/-- `ParseKey` (interpreter.cc:125-183). -/
def parseKeyM (x : EntryTexts) (fm : FieldMatch) (ti : TableInfo) : MRes (Str × Value) :=
  let inconsistent : MRes (Str × Value) :=
    .err .internal (x.retCheck fm.val ++ c!"P4RT table entry inconsistent with P4 program")
  match lookup fm.fieldId ti.keysById with
  | none => .err .invalidArgument (c!"unknown table key with ID " ++ p4IdToString fm.fieldId)
  | some key =>
    match fm.val with
    | .exact v =>
      match key.ty with
      | .exact _ => .ok (key.name, .exact (parseP4RTInteger v))
      | _ => inconsistent
    | .ternary v m =>
      match key.ty with
      | .ternary _ => .ok (key.name, .ternary (parseP4RTInteger v) (parseP4RTInteger m))
      | _ => inconsistent
    | .lpm v p =>
      match key.ty with
      | .lpm _ => .ok (key.name, .lpm (parseP4RTInteger v) p)
      | _ => inconsistent
    | .range l h =>
      match key.ty with
      | .range _ => .ok (key.name, .range (parseP4RTInteger l) (parseP4RTInteger h))
      | _ => inconsistent
    | .optional v =>
      match key.ty with
      | .optionalMatch w => do
        let m ← .ofRes [] (maxValueForBitwidth w)
        .ok (key.name, .ternary (parseP4RTInteger v) m)
      | _ => inconsistent
    | .notSet | .other => .err .invalidArgument (c!"unsupported P4RT field match type " ++ x.matchCase fm.val)

/-- First loop of `ParseTableEntry` (interpreter.cc:190-198). -/
def parseMatchesM (x : EntryTexts) (ti : TableInfo) : List (Str × Value) → List FieldMatch → MRes (List (Str × Value))
  | keys, [] => .ok keys
  | keys, fm :: fms => do
    let (n, v) ← parseKeyM x fm ti
    match insertNew n v keys with
    | none => .err .invalidArgument (c!"duplicate match on key " ++ n ++ c!" with ID " ++ p4IdToString fm.fieldId)
    | some keys => parseMatchesM x ti keys fms

/-- Default value of an omitted key (interpreter.cc:204-232). -/
def defaultValueM (x : EntryTexts) (ki : VarInfo) : MRes Value :=
  match ki.ty with
  | .exact _ => .err .invalidArgument (c!"missing exact match key '" ++ ki.name ++ c!"'")
  | .ternary _ | .optionalMatch _ => .ok (.ternary 0 0)
  | .lpm _ => .ok (.lpm 0 0)
  | .range w => do
    let m ← .ofRes [] (maxValueForBitwidth w)
    .ok (.range 0 m)
  | t => .err .internal (c!"Key '" ++ ki.name ++ c!"' of invalid match type detected at runtime: " ++ x.type t)

/-- Second loop of `ParseTableEntry` (interpreter.cc:202-233), in the iteration order of the hash map. -/
def addDefaultsM (x : EntryTexts) : List (Str × Value) → List (Str × VarInfo) → MRes (List (Str × Value))
  | keys, [] => .ok keys
  | keys, (name, ki) :: rest =>
    if hasKey name keys then addDefaultsM x keys rest
    else do
      let v ← defaultValueM x ki
      addDefaultsM x ((name, v) :: keys) rest

/-- `ParseTableEntry` (interpreter.cc:185-245). -/
def parseTableEntryM (x : EntryTexts) (entry : RtEntry) (ti : TableInfo) : MRes EvalCtx := do
  let keys ← parseMatchesM x ti [] entry.matches_
  let keys ← addDefaultsM x keys ti.keysByName
  .ok ⟨.table ⟨ti.name, entry.priority, keys⟩, ti.source⟩

/-- The loop of `ParseAction` (interpreter.cc:252-264). -/
def parseParamsM (ai : ActionInfo) : List (Str × Int) → List (Nat × Bytes) → MRes (List (Str × Int))
  | ps, [] => .ok ps
  | ps, (id, v) :: rest =>
    match lookup id ai.paramsById with
    | none => .err .invalidArgument (c!"unknown action param with ID " ++ p4IdToString id)
    | some pi =>
      if hasKey pi.name ps then .err .invalidArgument (c!"duplicate action param with ID " ++ p4IdToString id)
      else parseParamsM ai ((pi.name, parseP4RTInteger v) :: ps) rest

/-- `ParseAction` (interpreter.cc:247-275). -/
def parseActionM (a : RtAction) (ai : ActionInfo) : MRes EvalCtx := do
  let ps ← parseParamsM ai [] a.params
  .ok ⟨.action ⟨a.actionId, ai.name, ps⟩, ai.source⟩

/-! ### Evaluation -/

/-- `RuntimeTypeError(..) << text` (errors.cc:15-26) at an expression. -/
def rtErrorM {α : Type} (x : EntryTexts) (ctx : EvalCtx) (e : Expr) (text : Str) : MRes α :=
  match quoteSub ctx.src e.start e.stop with
  | .ok q => .err .internal (q ++ c!"Runtime type error: " ++ text)
  | .err _ => .err .internal (x.quoteFailure ctx.src e.start e.stop ++ text)
  | .crash => .crash
  | .oof => .oof

/-- `EvalToBool` (interpreter.cc:281-298). -/
def evalToBoolWithM (x : EntryTexts) (ctx : EvalCtx) (e : Expr) (p : Path) (run : Cache → MRes (Value × Cache))
    (c : Cache) : MRes (Bool × Cache) :=
  match c.bind (lookup p) with
  | some b => .ok (b, c)
  | none => do
    let (v, c) ← run c
    match v with
    | .bool b => .ok (b, c.map fun m => (insertNew p b m).getD m)
    | _ => rtErrorM x ctx e c!"expected expression of type bool"

/-- `EvalToInt` (interpreter.cc:301-310). -/
def evalToIntWithM (x : EntryTexts) (ctx : EvalCtx) (e : Expr) (run : Cache → MRes (Value × Cache)) (c : Cache) :
    MRes (Int × Cache) := do
  let (v, c) ← run c
  match v with
  | .int z => .ok (z, c)
  | _ => rtErrorM x ctx e c!"expected expression of integral type"

/-- The switch of `EvalAndCastTo` (interpreter.cc:317-364) on an already evaluated operand `e`. -/
def castValueM (x : EntryTexts) (ctx : EvalCtx) (e : Expr) (t : Ty) (v : Value) : MRes Value :=
  let fails : MRes Value :=
    rtErrorM x ctx e (c!"cannot cast expression of type " ++ typeName e.ty ++ c!" to type " ++ typeName t)
  match v with
  | .int z =>
    match t with
    | .fixedUnsigned w => do
      let d ← .ofRes [] (shl1 w)
      let r := z.tmod d
      .ok (.int (if r < 0 then r + d else r))
    | .exact _ => .ok (.exact z)
    | .ternary w | .optionalMatch w => do
      let d ← .ofRes [] (shl1 w)
      .ok (.ternary z (d - 1))
    | .lpm w => .ok (.lpm z w)
    | .range _ => .ok (.range z z)
    | _ => fails
  | _ => fails

/-- The names used by `EvalFieldAccess` (interpreter.cc:443-476). -/
def valueTypeName : Value → Str
  | .exact _ => c!"exact"
  | .ternary .. => c!"ternary"
  | .lpm .. => c!"lpm"
  | .range .. => c!"range"
  | .bool _ => c!"bool"
  | .int _ => c!"int"

/-- Wrapper of `Eval` around `Eval_` (interpreter.cc:824-830) with `DynamicTypeCheck` (interpreter.cc:786-818). -/
def dynCheckM (x : EntryTexts) (ctx : EvalCtx) (e : Expr) (r : MRes (Value × Cache)) : MRes (Value × Cache) := do
  let (v, c) ← r
  if valueMatchesTy e.ty v then .ok (v, c)
  else rtErrorM x ctx e (c!"unexpected runtime representation of type " ++ typeName e.ty)

/-- `Eval` and `Eval_` (interpreter.cc:664-830), with `EvalBinaryExpression` (interpreter.cc:367-441)
inlined. `p` is the address of the expression. -/
def evalM (x : EntryTexts) (ctx : EvalCtx) : Expr → Path → Cache → MRes (Value × Cache)
  | .boolConst i b, _, c => dynCheckM x ctx (.boolConst i b) (.ok (.bool b, c))
  | .intConst i s, _, c => dynCheckM x ctx (.intConst i s)
      (match setStr 10 s with
       | some z => .ok (.int z, c)
       | none => .err .internal (c!"AST invariant violated; invalid decimal string: " ++ s))
  | .key i n, _, c => dynCheckM x ctx (.key i n)
      (match ctx.vals with
       | .action _ => rtErrorM x ctx (.key i n) c!"Found a reference to a key in an action constraint."
       | .table t =>
         match lookup n t.keys with
         | some v => .ok (v, c)
         | none => rtErrorM x ctx (.key i n) (c!"unknown key " ++ n ++ c!" in table " ++ t.tableName))
  | .actionParam i n, _, c => dynCheckM x ctx (.actionParam i n)
      (match ctx.vals with
       | .table _ =>
         rtErrorM x ctx (.actionParam i n) c!"Found a reference to an action parameter in a table constraint."
       | .action a =>
         match lookup n a.params with
         | some z => .ok (.int z, c)
         | none => rtErrorM x ctx (.actionParam i n) (c!"unknown action parameter " ++ n ++ c!" in action " ++ a.actionName))
  | .attr i n, _, c => dynCheckM x ctx (.attr i n)
      (match ctx.vals with
       | .action _ => rtErrorM x ctx (.attr i n) c!"The constraint context does not contain a TableEntry."
       | .table t =>
         if n = c!"priority" then .ok (.int t.priority, c)
         else rtErrorM x ctx (.attr i n) (c!"unknown attribute '" ++ n ++ c!"'"))
  | .boolNeg i e, p, c => dynCheckM x ctx (.boolNeg i e) (do
      let (b, c) ← evalToBoolWithM x ctx e (0 :: p) (fun c => evalM x ctx e (0 :: p) c) c
      .ok (.bool (!b), c))
  | .arithNeg i e, p, c => dynCheckM x ctx (.arithNeg i e) (do
      let (z, c) ← evalToIntWithM x ctx e (fun c => evalM x ctx e (0 :: p) c) c
      .ok (.int (-z), c))
  | .typeCast i e, p, c => dynCheckM x ctx (.typeCast i e) (do
      let (v, c) ← evalM x ctx e (0 :: p) c
      let v ← castValueM x ctx e i.ty v
      .ok (v, c))
  | .bin i op l r, p, c => dynCheckM x ctx (.bin i op l r)
      (match op with
       | .eq | .ne => do
         let (lv, c) ← evalM x ctx l (0 :: p) c
         let (rv, c) ← evalM x ctx r (1 :: p) c
         .ok (.bool (if op = .eq then lv = rv else !(lv = rv)), c)
       | .gt | .ge | .lt | .le => do
         let (lv, c) ← (evalToIntWithM x ctx l (fun c => evalM x ctx l (0 :: p) c) c).annotate c!" in ordered comparison"
         let (rv, c) ← (evalToIntWithM x ctx r (fun c => evalM x ctx r (1 :: p) c) c).annotate c!" in ordered comparison"
         .ok (.bool (match op with
           | .gt => lv > rv
           | .ge => lv ≥ rv
           | .lt => lv < rv
           | _ => lv ≤ rv), c)
       | .and => do
         let (lb, c) ← evalToBoolWithM x ctx l (0 :: p) (fun c => evalM x ctx l (0 :: p) c) c
         if lb then do
           let (rb, c) ← evalToBoolWithM x ctx r (1 :: p) (fun c => evalM x ctx r (1 :: p) c) c
           .ok (.bool rb, c)
         else .ok (.bool false, c)
       | .or => do
         let (lb, c) ← evalToBoolWithM x ctx l (0 :: p) (fun c => evalM x ctx l (0 :: p) c) c
         if lb then .ok (.bool true, c)
         else do
           let (rb, c) ← evalToBoolWithM x ctx r (1 :: p) (fun c => evalM x ctx r (1 :: p) c) c
           .ok (.bool rb, c)
       | .implies => do
         let (lb, c) ← evalToBoolWithM x ctx l (0 :: p) (fun c => evalM x ctx l (0 :: p) c) c
         if lb then do
           let (rb, c) ← evalToBoolWithM x ctx r (1 :: p) (fun c => evalM x ctx r (1 :: p) c) c
           .ok (.bool rb, c)
         else .ok (.bool true, c)
       | .unknown =>
         .err .internal (c!"unknown binary operator " ++ x.operator .unknown ++ c!" encountered at runtime"))
  | .field i e f, p, c => dynCheckM x ctx (.field i e f) (do
      let (v, c) ← evalM x ctx e (0 :: p) c
      match evalFieldAccess f v with
      | some v => .ok (v, c)
      | none => rtErrorM x ctx (.field i e f) (c!"value of type " ++ valueTypeName v ++ c!" has no field " ++ f))
  | .notSet i, _, _ => dynCheckM x ctx (.notSet i) (.err .invalidArgument (c!"invalid expression: " ++ x.expression (.notSet i)))

/-- `EvalToBool` (interpreter.cc:281-298). -/
def evalToBoolM (x : EntryTexts) (ctx : EvalCtx) (e : Expr) (p : Path) (c : Cache) : MRes (Bool × Cache) :=
  evalToBoolWithM x ctx e p (fun c => evalM x ctx e p c) c

/-! ### Explanation -/

/-- `EvalToBool(.., &eval_cache)` with a non-null cache. -/
def evalToBoolCM (x : EntryTexts) (ctx : EvalCtx) (e : Expr) (p : Path) (c : EvalCache) : MRes (Bool × EvalCache) := do
  let (b, c') ← evalToBoolM x ctx e p (some c)
  .ok (b, c'.getD c)

/-- `Size` (ast.cc:254-294) with a `SizeCache`; `p` is the address of the expression. -/
def sizeCM (x : EntryTexts) : Expr → Path → SizeCache → MRes (Nat × SizeCache)
  | e, p, c =>
    match lookup p c with
    | some n => .ok (n, c)
    | none =>
      match e with
      | .boolConst .. | .intConst .. | .key .. | .arithNeg .. | .typeCast .. | .field .. | .attr .. =>
        .ok (1, c)
      | .bin _ _ l r => do
        let (ls, c) ← sizeCM x l (0 :: p) c
        let (rs, c) ← sizeCM x r (1 :: p) c
        let n := 1 + ls + rs
        .ok (n, (p, n) :: c)
      | .boolNeg _ e => do
        let (s, c) ← sizeCM x e (0 :: p) c
        let n := 1 + s
        .ok (n, (p, n) :: c)
      | .actionParam .. | .notSet .. => .err .invalidArgument (c!"invalid expression: " ++ x.expression e)

/-- `MinimalSubexpressionLeadingToEvalResult` (interpreter.cc:480-588). -/
def minimalSubM (x : EntryTexts) (ctx : EvalCtx) : Expr → Path → Caches → MRes (Node × Caches)
  | .boolConst i b, p, cs => .ok ((.boolConst i b, p), cs)
  | .boolNeg _ e, p, cs => minimalSubM x ctx e (0 :: p) cs
  | .bin i op l r, p, cs =>
    match op with
    | .eq | .ne | .gt | .ge | .lt | .le => .ok ((.bin i op l r, p), cs)
    | .and | .or | .implies => do
      let (lb, ec) ← evalToBoolCM x ctx l (0 :: p) cs.1
      let (rb, ec) ← evalToBoolCM x ctx r (1 :: p) ec
      let cs := (ec, cs.2)
      -- Is the left (right) operand a candidate?
      let lc := if op = .or then lb else !lb
      let rc := if op = .and then !rb else rb
      match lc, rc with
      | false, false => .ok ((.bin i op l r, p), cs)
      | true, false => minimalSubM x ctx l (0 :: p) cs
      | false, true => minimalSubM x ctx r (1 :: p) cs
      | true, true => do
        let (n0, cs) ← minimalSubM x ctx l (0 :: p) cs
        let (n1, cs) ← minimalSubM x ctx r (1 :: p) cs
        let (s0, sc) ← sizeCM x n0.1 n0.2 cs.2
        let (s1, sc) ← sizeCM x n1.1 n1.2 sc
        .ok (if s0 ≤ s1 then n0 else n1, (cs.1, sc))
    | .unknown => .err .internal (c!"unknown binary operator " ++ x.operator .unknown ++ c!" encountered at runtime")
  | .notSet i, _, _ => notBoolean x (.notSet i)
  | .intConst i s, _, _ => notBoolean x (.intConst i s)
  | .key i n, _, _ => notBoolean x (.key i n)
  | .actionParam i n, _, _ => notBoolean x (.actionParam i n)
  | .arithNeg i e, _, _ => notBoolean x (.arithNeg i e)
  | .typeCast i e, _, _ => notBoolean x (.typeCast i e)
  | .field i e f, _, _ => notBoolean x (.field i e f)
  | .attr i n, _, _ => notBoolean x (.attr i n)
where
  /-- The default case (interpreter.cc:583-586). -/
  notBoolean (x : EntryTexts) (e : Expr) : MRes (Node × Caches) :=
    .err .internal (c!"Explanation search should terminate at boolean expressions\n Non-boolean expression reached: " ++
      x.expression e)

/-- `ExplainConstraintViolation` (interpreter.cc:591-656). -/
def explainViolationM (x : EntryTexts) (ctx : EvalCtx) (e : Expr) (ec : EvalCache) : MRes Str := do
  let (n, cs) ← minimalSubM x ctx e [] (ec, [])
  let (truth, _) ← evalToBoolCM x ctx n.1 n.2 cs.1
  let reason ← .ofRes (x.quoteStatus ctx.src n.1.start n.1.stop) (quoteSub ctx.src n.1.start n.1.stop)
  .ok (violationText ctx.vals truth reason (getVariables n.1))

/-- The part common to table and action constraints (interpreter.cc:845-863 and 902-923), where `kind` is "table" or
"action" and `name` its name. -/
def checkConstraintM (x : EntryTexts) (kind name : Str) (constraint : Expr) (parse : MRes EvalCtx) : MRes Str :=
  if constraint.ty ≠ .boolean then
    .err .invalidArgument (kind ++ c!" " ++ name ++ c!" has non-boolean constraint: " ++ x.expression constraint)
  else do
    let ctx ← parse.annotate (c!" while parsing P4RT table entry for " ++ kind ++ c!" '" ++ name ++ c!"':")
    let (b, ec) ← evalToBoolCM x ctx constraint [] []
    if b then .ok [] else explainViolationM x ctx constraint ec

/-- `ReasonEntryViolatesConstraint(Action)` (interpreter.cc:832-864). -/
def reasonActionM (x : EntryTexts) (a : RtAction) (ci : ConstraintInfo) : MRes Str :=
  match getActionInfo ci a.actionId with
  | none => .err .invalidArgument (c!"action entry with unknown action ID " ++ p4IdToString a.actionId)
  | some ai =>
    match ai.constraint with
    | none => .ok []
    | some constraint => checkConstraintM x c!"action" ai.name constraint (parseActionM a ai)

/-- `ReasonEntryViolatesConstraint(ActionProfileActionSet)` (interpreter.cc:866-877). -/
def reasonActionSetM (x : EntryTexts) (ci : ConstraintInfo) : List RtAction → MRes Str
  | [] => .ok []
  | a :: as => do
    let reason ← reasonActionM x a ci
    if reason ≠ [] then .ok reason else reasonActionSetM x ci as

/-- The action part of `ReasonEntryViolatesConstraint(TableEntry)` (interpreter.cc:925-945). -/
def reasonTableActionM (x : EntryTexts) (ci : ConstraintInfo) (entry : RtEntry) : MRes Str :=
  match entry.action with
  | none => .ok []
  | some (.action a) => reasonActionM x a ci
  | some (.memberId _) | some (.groupId _) =>
    .err .invalidArgument (c!"action restrictions not supported for entries with the given kind of action: " ++ x.entry entry)
  | some (.actionSet as) => reasonActionSetM x ci as
  | some .notSet => .err .invalidArgument (c!"unknown action type " ++ x.actionCase .notSet)

/-- `ReasonEntryViolatesConstraint(TableEntry)` (interpreter.cc:883-946), the public entry point. -/
def reasonEntryViolatesConstraintM (x : EntryTexts) (entry : RtEntry) (ci : ConstraintInfo) : MRes Str :=
  match getTableInfo ci entry.tableId with
  | none => .err .invalidArgument (c!"table entry with unknown table ID " ++ p4IdToString entry.tableId)
  | some ti =>
    match ti.constraint with
    | none => reasonTableActionM x ci entry
    | some constraint => do
      let reason ← checkConstraintM x c!"table" ti.name constraint (parseTableEntryM x entry ti)
      if reason ≠ [] then .ok reason else reasonTableActionM x ci entry

end P4C
