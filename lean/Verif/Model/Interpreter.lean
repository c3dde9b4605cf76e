import Verif.Model.TypeChecker

/-
Model of `p4_constraints/backend/interpreter.h` and `interpreter.cc`.
-/

namespace P4C

/-! ### Input messages (p4/v1/p4runtime.proto) -/

/-- `oneof field_match_type` of `message FieldMatch`. -/
inductive MatchVal where
  | notSet
  | exact (value : Bytes)
  | ternary (value mask : Bytes)
  | lpm (value : Bytes) (prefixLen : Int)
  | range (low high : Bytes)
  | optional (value : Bytes)
  | other
deriving DecidableEq, Repr

/-- `message FieldMatch`. -/
structure FieldMatch where
  fieldId : Nat
  val : MatchVal
deriving DecidableEq, Repr

/-- `message Action`; `params` are (param_id, value) pairs. -/
structure RtAction where
  actionId : Nat
  params : List (Nat × Bytes)
deriving DecidableEq, Repr

/-- `oneof type` of `message TableAction`; an action set is the list of its actions. -/
inductive TableAction where
  | notSet
  | action (a : RtAction)
  | memberId (n : Nat)
  | groupId (n : Nat)
  | actionSet (as : List RtAction)
deriving DecidableEq, Repr

/-- `message TableEntry`; `action = none` means `!has_action()`. -/
structure RtEntry where
  tableId : Nat
  matches_ : List FieldMatch
  priority : Int := 0
  action : Option TableAction := none
deriving DecidableEq, Repr

/-! ### Definitions (constraint_info.h) -/

/-- `struct TableInfo` (constraint_info.h:67-81). -/
structure TableInfo where
  id : Nat
  name : Str
  constraint : Option Expr
  source : ConstraintSource
  keysById : List (Nat × VarInfo)
  keysByName : List (Str × VarInfo)
deriving DecidableEq, Repr

/-- `struct ActionInfo` (constraint_info.h:83-97). -/
structure ActionInfo where
  id : Nat
  name : Str
  constraint : Option Expr
  source : ConstraintSource
  paramsById : List (Nat × VarInfo)
  paramsByName : List (Str × VarInfo)
deriving DecidableEq, Repr

/-- `struct ConstraintInfo` (constraint_info.h:100-105). -/
structure ConstraintInfo where
  actions : List (Nat × ActionInfo)
  tables : List (Nat × TableInfo)
deriving DecidableEq, Repr

/-! ### Runtime values (interpreter.h:58-100) -/

/-- `EvalResult` (interpreter.h:58-84) with its equality (interpreter.h:86-100). -/
inductive Value where
  | bool (b : Bool)
  | int (z : Int)
  | exact (v : Int)
  | ternary (v m : Int)
  | lpm (v p : Int)
  | range (lo hi : Int)
deriving DecidableEq, Repr

/-- `struct TableEntry` (interpreter.h:136-143). -/
structure EntryVals where
  tableName : Str
  priority : Int
  keys : List (Str × Value)
deriving DecidableEq, Repr

/-- `struct ActionInvocation` (interpreter.h:146-151). -/
structure ActionVals where
  actionId : Nat
  actionName : Str
  params : List (Str × Int)
deriving DecidableEq, Repr

/-- The variant in `EvaluationContext` (interpreter.h:168). -/
inductive CtxVals where
  | table (t : EntryVals)
  | action (a : ActionVals)
deriving DecidableEq, Repr

/-- `struct EvaluationContext` (interpreter.h:167-170). -/
structure EvalCtx where
  vals : CtxVals
  src : ConstraintSource
deriving DecidableEq, Repr

/-! ### Parsing entries -/

/-- `EvalResultToString` (interpreter.cc:76-100). -/
def evalResultToString : Value → Str
  | .bool b => if b then c!"true" else c!"false"
  | .int z => intDec z
  | .exact v => c!"Exact{.value = " ++ intDec v ++ c!"}"
  | .ternary v m => c!"Ternary{.value = " ++ intDec v ++ c!", .mask = " ++ intDec m ++ c!"}"
  | .lpm v p => c!"Lpm{.value = " ++ intDec v ++ c!", .prefix_length = " ++ intDec p ++ c!"}"
  | .range l h => c!"Range{.low = " ++ intDec l ++ c!", .high = " ++ intDec h ++ c!"}"

/-- `mpz_import(.., order = most significant first, size = 1, ..)`. -/
def mpzImport (bs : Bytes) : Nat := bs.foldl (fun acc b => acc * 256 + b.toNat) 0

/-- `int_str.erase(0, int_str.find_first_not_of('\0'))`; if every byte is zero, `find_first_not_of` is
`npos` and everything is erased. -/
def eraseLeadingZeros (bs : Bytes) : Bytes := bs.dropWhile (· = 0)

/-- `ParseP4RTInteger` (interpreter.cc:104-117). -/
def parseP4RTInteger (bs : Bytes) : Int := (mpzImport (eraseLeadingZeros bs) : Nat)

/-- `mpz_class(1) << w`; a negative `int` converts to a huge shift count, on which GMP aborts. -/
def shl1 (w : Int) : Res Int := if w < 0 then .crash else .ok (2 ^ w.toNat)

/-- `MaxValueForBitwidth` (interpreter.cc:119-122). -/
def maxValueForBitwidth (w : Int) : Res Int := do
  let m ← shl1 w
  .ok (m - 1)

/-- `ParseKey` (interpreter.cc:125-183). A failing `RET_CHECK` is an Internal error. -/
def parseKey (fm : FieldMatch) (ti : TableInfo) : Res (Str × Value) :=
  match lookup fm.fieldId ti.keysById with
  | none => .err .invalidArgument
  | some key =>
    match fm.val with
    | .exact v =>
      match key.ty with
      | .exact _ => .ok (key.name, .exact (parseP4RTInteger v))
      | _ => .err .internal
    | .ternary v m =>
      match key.ty with
      | .ternary _ => .ok (key.name, .ternary (parseP4RTInteger v) (parseP4RTInteger m))
      | _ => .err .internal
    | .lpm v p =>
      match key.ty with
      | .lpm _ => .ok (key.name, .lpm (parseP4RTInteger v) p)
      | _ => .err .internal
    | .range l h =>
      match key.ty with
      | .range _ => .ok (key.name, .range (parseP4RTInteger l) (parseP4RTInteger h))
      | _ => .err .internal
    | .optional v =>
      match key.ty with
      | .optionalMatch w => do
        let m ← maxValueForBitwidth w
        .ok (key.name, .ternary (parseP4RTInteger v) m)
      | _ => .err .internal
    | .notSet | .other => .err .invalidArgument

/-- First loop of `ParseTableEntry` (interpreter.cc:190-198). -/
def parseMatches (ti : TableInfo) : List (Str × Value) → List FieldMatch → Res (List (Str × Value))
  | keys, [] => .ok keys
  | keys, fm :: fms => do
    let (n, v) ← parseKey fm ti
    match insertNew n v keys with
    | none => .err .invalidArgument
    | some keys => parseMatches ti keys fms

/-- Default value of an omitted key (interpreter.cc:204-232). -/
def defaultValue (ki : VarInfo) : Res Value :=
  match ki.ty with
  | .exact _ => .err .invalidArgument
  | .ternary _ | .optionalMatch _ => .ok (.ternary 0 0)
  | .lpm _ => .ok (.lpm 0 0)
  | .range w => do
    let m ← maxValueForBitwidth w
    .ok (.range 0 m)
  | _ => .err .internal

/-- Second loop of `ParseTableEntry` (interpreter.cc:202-233), in the iteration order of the hash map. -/
def addDefaults : List (Str × Value) → List (Str × VarInfo) → Res (List (Str × Value))
  | keys, [] => .ok keys
  | keys, (name, ki) :: rest =>
    if hasKey name keys then addDefaults keys rest
    else do
      let v ← defaultValue ki
      addDefaults ((name, v) :: keys) rest

/-- `ParseTableEntry` (interpreter.cc:185-245). -/
def parseTableEntry (entry : RtEntry) (ti : TableInfo) : Res EvalCtx := do
  let keys ← parseMatches ti [] entry.matches_
  let keys ← addDefaults keys ti.keysByName
  .ok ⟨.table ⟨ti.name, entry.priority, keys⟩, ti.source⟩

/-- The loop of `ParseAction` (interpreter.cc:252-264). -/
def parseParams (ai : ActionInfo) : List (Str × Int) → List (Nat × Bytes) → Res (List (Str × Int))
  | ps, [] => .ok ps
  | ps, (id, v) :: rest =>
    match lookup id ai.paramsById with
    | none => .err .invalidArgument
    | some pi =>
      if hasKey pi.name ps then .err .invalidArgument
      else parseParams ai ((pi.name, parseP4RTInteger v) :: ps) rest

/-- `ParseAction` (interpreter.cc:247-275). -/
def parseAction (a : RtAction) (ai : ActionInfo) : Res EvalCtx := do
  let ps ← parseParams ai [] a.params
  .ok ⟨.action ⟨a.actionId, ai.name, ps⟩, ai.source⟩

/-! ### Evaluation -/

/-- `EvaluationCache` (interpreter.h:187). -/
abbrev EvalCache := List (Path × Bool)

/-- `EvaluationCache*`; `none` is the null pointer. On an error the cache is dropped. -/
abbrev Cache := Option EvalCache

/-- `RuntimeTypeError` at an expression. -/
def rtError {α : Type} (ctx : EvalCtx) (e : Expr) : Res α :=
  runtimeTypeError ctx.src e.start e.stop

/-- `EvalToBool` (interpreter.cc:281-298), where `run` is `Eval(expr, context, ·)` and `p` the address of
`expr`. -/
def evalToBoolWith (ctx : EvalCtx) (e : Expr) (p : Path) (run : Cache → Res (Value × Cache))
    (c : Cache) : Res (Bool × Cache) :=
  match c.bind (lookup p) with
  | some b => .ok (b, c)
  | none => do
    let (v, c) ← run c
    match v with
    | .bool b => .ok (b, c.map fun m => (insertNew p b m).getD m)
    | _ => rtError ctx e

/-- `EvalToInt` (interpreter.cc:301-310). -/
def evalToIntWith (ctx : EvalCtx) (e : Expr) (run : Cache → Res (Value × Cache)) (c : Cache) :
    Res (Int × Cache) := do
  let (v, c) ← run c
  match v with
  | .int z => .ok (z, c)
  | _ => rtError ctx e

/-- The switch of `EvalAndCastTo` (interpreter.cc:317-364) on an already evaluated operand `e`. -/
def castValue (ctx : EvalCtx) (e : Expr) (t : Ty) (v : Value) : Res Value :=
  match v with
  | .int z =>
    match t with
    | .fixedUnsigned w => do
      let d ← shl1 w
      let r := z.tmod d
      .ok (.int (if r < 0 then r + d else r))
    | .exact _ => .ok (.exact z)
    | .ternary w | .optionalMatch w => do
      let d ← shl1 w
      .ok (.ternary z (d - 1))
    | .lpm w => .ok (.lpm z w)
    | .range _ => .ok (.range z z)
    | _ => rtError ctx e
  | _ => rtError ctx e

/-- `EvalFieldAccess` (interpreter.cc:443-476); `none` is the error. -/
def evalFieldAccess (f : Str) : Value → Option Value
  | .exact v => if f = c!"value" then some (.int v) else none
  | .ternary v m =>
    if f = c!"value" then some (.int v) else if f = c!"mask" then some (.int m) else none
  | .lpm v p =>
    if f = c!"value" then some (.int v) else if f = c!"prefix_length" then some (.int p) else none
  | .range l h =>
    if f = c!"low" then some (.int l) else if f = c!"high" then some (.int h) else none
  | .bool _ | .int _ => none

/-- `DynamicTypeCheck` (interpreter.cc:786-818): is the runtime representation right for the type? -/
def valueMatchesTy : Ty → Value → Bool
  | .boolean, .bool _ => true
  | .arbitraryInt, .int _ => true
  | .fixedUnsigned _, .int _ => true
  | .exact _, .exact _ => true
  | .ternary _, .ternary _ _ => true
  | .lpm _, .lpm _ _ => true
  | .range _, .range _ _ => true
  | .optionalMatch _, .ternary _ _ => true
  | _, _ => false

/-- Wrapper of `Eval` around `Eval_` (interpreter.cc:824-830). -/
def dynCheck (ctx : EvalCtx) (e : Expr) (r : Res (Value × Cache)) : Res (Value × Cache) := do
  let (v, c) ← r
  if valueMatchesTy e.ty v then .ok (v, c) else rtError ctx e

/-- `Eval` and `Eval_` (interpreter.cc:664-830), with `EvalBinaryExpression` (interpreter.cc:367-441)
inlined. `p` is the address of the expression. -/
def eval (ctx : EvalCtx) : Expr → Path → Cache → Res (Value × Cache)
  | .boolConst i b, _, c => dynCheck ctx (.boolConst i b) (.ok (.bool b, c))
  | .intConst i s, _, c => dynCheck ctx (.intConst i s)
      (match setStr 10 s with
       | some z => .ok (.int z, c)
       | none => .err .internal)
  | .key i n, _, c => dynCheck ctx (.key i n)
      (match ctx.vals with
       | .action _ => rtError ctx (.key i n)
       | .table t =>
         match lookup n t.keys with
         | some v => .ok (v, c)
         | none => rtError ctx (.key i n))
  | .actionParam i n, _, c => dynCheck ctx (.actionParam i n)
      (match ctx.vals with
       | .table _ => rtError ctx (.actionParam i n)
       | .action a =>
         match lookup n a.params with
         | some z => .ok (.int z, c)
         | none => rtError ctx (.actionParam i n))
  | .attr i n, _, c => dynCheck ctx (.attr i n)
      (match ctx.vals with
       | .action _ => rtError ctx (.attr i n)
       | .table t =>
         if n = c!"priority" then .ok (.int t.priority, c)
         else rtError ctx (.attr i n))
  | .boolNeg i e, p, c => dynCheck ctx (.boolNeg i e) (do
      let (b, c) ← evalToBoolWith ctx e (0 :: p) (fun c => eval ctx e (0 :: p) c) c
      .ok (.bool (!b), c))
  | .arithNeg i e, p, c => dynCheck ctx (.arithNeg i e) (do
      let (z, c) ← evalToIntWith ctx e (fun c => eval ctx e (0 :: p) c) c
      .ok (.int (-z), c))
  | .typeCast i e, p, c => dynCheck ctx (.typeCast i e) (do
      let (v, c) ← eval ctx e (0 :: p) c
      let v ← castValue ctx e i.ty v
      .ok (v, c))
  | .bin i op l r, p, c => dynCheck ctx (.bin i op l r)
      (match op with
       | .eq | .ne => do
         let (lv, c) ← eval ctx l (0 :: p) c
         let (rv, c) ← eval ctx r (1 :: p) c
         .ok (.bool (if op = .eq then lv = rv else !(lv = rv)), c)
       | .gt | .ge | .lt | .le => do
         let (lv, c) ← evalToIntWith ctx l (fun c => eval ctx l (0 :: p) c) c
         let (rv, c) ← evalToIntWith ctx r (fun c => eval ctx r (1 :: p) c) c
         .ok (.bool (match op with
           | .gt => lv > rv
           | .ge => lv ≥ rv
           | .lt => lv < rv
           | _ => lv ≤ rv), c)
       | .and => do
         let (lb, c) ← evalToBoolWith ctx l (0 :: p) (fun c => eval ctx l (0 :: p) c) c
         if lb then do
           let (rb, c) ← evalToBoolWith ctx r (1 :: p) (fun c => eval ctx r (1 :: p) c) c
           .ok (.bool rb, c)
         else .ok (.bool false, c)
       | .or => do
         let (lb, c) ← evalToBoolWith ctx l (0 :: p) (fun c => eval ctx l (0 :: p) c) c
         if lb then .ok (.bool true, c)
         else do
           let (rb, c) ← evalToBoolWith ctx r (1 :: p) (fun c => eval ctx r (1 :: p) c) c
           .ok (.bool rb, c)
       | .implies => do
         let (lb, c) ← evalToBoolWith ctx l (0 :: p) (fun c => eval ctx l (0 :: p) c) c
         if lb then do
           let (rb, c) ← evalToBoolWith ctx r (1 :: p) (fun c => eval ctx r (1 :: p) c) c
           .ok (.bool rb, c)
         else .ok (.bool true, c)
       | .unknown => .err .internal)
  | .field i e f, p, c => dynCheck ctx (.field i e f) (do
      let (v, c) ← eval ctx e (0 :: p) c
      match evalFieldAccess f v with
      | some v => .ok (v, c)
      | none => rtError ctx (.field i e f))
  | .notSet i, _, _ => dynCheck ctx (.notSet i) (.err .invalidArgument)

/-- `EvalToBool` (interpreter.cc:281-298). -/
def evalToBool (ctx : EvalCtx) (e : Expr) (p : Path) (c : Cache) : Res (Bool × Cache) :=
  evalToBoolWith ctx e p (fun c => eval ctx e p c) c

/-! ### Explanation -/

/-- A node: a subexpression together with its address. -/
abbrev Node := Expr × Path

/-- Caches threaded through the explanation search. -/
abbrev Caches := EvalCache × SizeCache

/-- `EvalToBool(.., &eval_cache)` with a non-null cache. -/
def evalToBoolC (ctx : EvalCtx) (e : Expr) (p : Path) (c : EvalCache) : Res (Bool × EvalCache) := do
  let (b, c') ← evalToBool ctx e p (some c)
  .ok (b, c'.getD c)

/-- `MinimalSubexpressionLeadingToEvalResult` (interpreter.cc:480-588). -/
def minimalSub (ctx : EvalCtx) : Expr → Path → Caches → Res (Node × Caches)
  | .boolConst i b, p, cs => .ok ((.boolConst i b, p), cs)
  | .boolNeg _ e, p, cs => minimalSub ctx e (0 :: p) cs
  | .bin i op l r, p, cs =>
    match op with
    | .eq | .ne | .gt | .ge | .lt | .le => .ok ((.bin i op l r, p), cs)
    | .and | .or | .implies => do
      let (lb, ec) ← evalToBoolC ctx l (0 :: p) cs.1
      let (rb, ec) ← evalToBoolC ctx r (1 :: p) ec
      let cs := (ec, cs.2)
      -- Is the left (right) operand a candidate?
      let lc := if op = .or then lb else !lb
      let rc := if op = .and then !rb else rb
      match lc, rc with
      | false, false => .ok ((.bin i op l r, p), cs)
      | true, false => minimalSub ctx l (0 :: p) cs
      | false, true => minimalSub ctx r (1 :: p) cs
      | true, true => do
        let (n0, cs) ← minimalSub ctx l (0 :: p) cs
        let (n1, cs) ← minimalSub ctx r (1 :: p) cs
        let (s0, sc) ← sizeC n0.1 n0.2 cs.2
        let (s1, sc) ← sizeC n1.1 n1.2 sc
        .ok (if s0 ≤ s1 then n0 else n1, (cs.1, sc))
    | .unknown => .err .internal
  | .notSet _, _, _ | .intConst .., _, _ | .key .., _, _ | .actionParam .., _, _ | .arithNeg .., _, _
  | .typeCast .., _, _ | .field .., _, _ | .attr .., _, _ => .err .internal

/-- `operator<` of `std::string`. -/
def strLt : Str → Str → Bool
  | _, [] => false
  | [], _ :: _ => true
  | a :: as, b :: bs => a.toNat < b.toNat || (a.toNat == b.toNat && strLt as bs)

/-- Insert into a list ordered by key. -/
def orderedInsert {α : Type} (k : Str) (a : α) : List (Str × α) → List (Str × α)
  | [] => [(k, a)]
  | (k', a') :: m => if strLt k k' then (k, a) :: (k', a') :: m else (k', a') :: orderedInsert k a m

/-- `gutils::Ordered` (gutils/ordered_map.h): iteration in the order of keys. -/
def ordered {α : Type} : List (Str × α) → List (Str × α)
  | [] => []
  | (k, a) :: m => orderedInsert k a (ordered m)

/-- The field listing (interpreter.cc:611-621). -/
def keyListing (relevant : List Str) (keys : List (Str × Value)) : Str :=
  ((ordered keys).map fun kv =>
    if kv.1 ∈ relevant then
      c!"Field: \"" ++ kv.1 ++ c!"\" -> Value: " ++ evalResultToString kv.2 ++ c!"\n"
    else []).flatten

/-- The parameter listing (interpreter.cc:635-645). -/
def paramListing (relevant : List Str) (params : List (Str × Int)) : Str :=
  ((ordered params).map fun kv =>
    if kv.1 ∈ relevant then
      c!"Param name: \"" ++ kv.1 ++ c!"\" -> Value: " ++ intDec kv.2 ++ c!"\n"
    else []).flatten

/-- The text of a violation (interpreter.cc:607-655). -/
def violationText (vals : CtxVals) (truth : Bool) (reason : Str) (relevant : List Str) : Str :=
  match vals with
  | .table t =>
    c!"All entries must " ++ (if truth then c!"not " else []) ++ c!"satisfy:\n\n" ++ reason ++
    c!"\nBut your entry does" ++ (if truth then [] else c!" not") ++
    c!".\n>>>Relevant Entry Info<<<\nTable Name: \"" ++ t.tableName ++ c!"\"\nPriority:" ++
    intDec t.priority ++ c!"\n" ++ keyListing relevant t.keys
  | .action a =>
    c!"All actions must " ++ (if truth then c!"not " else []) ++ c!"satisfy:\n\n" ++ reason ++
    c!"\nBut your entry does" ++ (if truth then [] else c!" not") ++
    c!".\n>>>Relevant Action Info<<<\nAction Name: \"" ++ a.actionName ++ c!"\"\n" ++
    paramListing relevant a.params

/-- `ExplainConstraintViolation` (interpreter.cc:591-656). -/
def explainViolation (ctx : EvalCtx) (e : Expr) (ec : EvalCache) : Res Str := do
  let (n, cs) ← minimalSub ctx e [] (ec, [])
  let (truth, _) ← evalToBoolC ctx n.1 n.2 cs.1
  let reason ← quoteSub ctx.src n.1.start n.1.stop
  .ok (violationText ctx.vals truth reason (getVariables n.1))

/-- The part common to table and action constraints (interpreter.cc:845-863 and 902-923): the constraint
must be boolean; parse the entry; evaluate; explain. -/
def checkConstraint (constraint : Expr) (parse : Res EvalCtx) : Res Str :=
  if constraint.ty ≠ .boolean then .err .invalidArgument
  else do
    let ctx ← parse
    let (b, ec) ← evalToBoolC ctx constraint [] []
    if b then .ok [] else explainViolation ctx constraint ec

/-- `GetTableInfoOrNull` (constraint_info.cc:340-345). -/
def getTableInfo (ci : ConstraintInfo) (id : Nat) : Option TableInfo := lookup id ci.tables

/-- `GetActionInfoOrNull` (constraint_info.cc:347-352). -/
def getActionInfo (ci : ConstraintInfo) (id : Nat) : Option ActionInfo := lookup id ci.actions

/-- `ReasonEntryViolatesConstraint(Action)` (interpreter.cc:832-864). -/
def reasonAction (a : RtAction) (ci : ConstraintInfo) : Res Str :=
  match getActionInfo ci a.actionId with
  | none => .err .invalidArgument
  | some ai =>
    match ai.constraint with
    | none => .ok []
    | some constraint => checkConstraint constraint (parseAction a ai)

/-- `ReasonEntryViolatesConstraint(ActionProfileActionSet)` (interpreter.cc:866-877). -/
def reasonActionSet (ci : ConstraintInfo) : List RtAction → Res Str
  | [] => .ok []
  | a :: as => do
    let reason ← reasonAction a ci
    if reason ≠ [] then .ok reason else reasonActionSet ci as

/-- The action part of `ReasonEntryViolatesConstraint(TableEntry)` (interpreter.cc:925-945). -/
def reasonTableAction (ci : ConstraintInfo) : Option TableAction → Res Str
  | none => .ok []
  | some (.action a) => reasonAction a ci
  | some (.memberId _) | some (.groupId _) => .err .invalidArgument
  | some (.actionSet as) => reasonActionSet ci as
  | some .notSet => .err .invalidArgument

/-- `ReasonEntryViolatesConstraint(TableEntry)` (interpreter.cc:883-946), the public entry point. -/
def reasonEntryViolatesConstraint (entry : RtEntry) (ci : ConstraintInfo) : Res Str :=
  match getTableInfo ci entry.tableId with
  | none => .err .invalidArgument
  | some ti => do
    let reason ←
      match ti.constraint with
      | none => .ok []
      | some constraint => checkConstraint constraint (parseTableEntry entry ti)
    if reason ≠ [] then .ok reason else reasonTableAction ci entry.action

end P4C
