import Verif.Model.Z3
import Verif.Model.ConstraintInfo

/-
Model of `p4_constraints/backend/symbolic_interpreter.h` and `symbolic_interpreter.cc`.
-/

namespace P4C

/-- `SymbolicKey` (symbolic_interpreter.h:50-83). -/
inductive SymKey where
  | exact (value : Z3Expr)
  | ternary (value mask : Z3Expr)
  | lpm (value prefixLength : Z3Expr)

/-- `SymbolicEvalResult` (symbolic_interpreter.h:199). -/
inductive SymResult where
  | key (k : SymKey)
  | expr (e : Z3Expr)

/-- `SymbolicEnvironment` (symbolic_interpreter.h:85-89). -/
structure SymEnv where
  keys : List (Str × SymKey) := []
  attrs : List (Str × Z3Expr) := []

/-- `GetFieldAccess` (symbolic_interpreter.cc:54-77); also `GetValue`, `GetMask`, `GetPrefixLength`
(symbolic_interpreter.cc:824-834). -/
def getFieldAccess (k : SymKey) (f : Str) : Res Z3Expr :=
  match k with
  | .exact v => if f = c!"value" then .ok v else .err .invalidArgument
  | .ternary v m =>
    if f = c!"value" then .ok v else if f = c!"mask" then .ok m else .err .invalidArgument
  | .lpm v p =>
    if f = c!"value" then .ok v else if f = c!"prefix_length" then .ok p else .err .invalidArgument

/-- `EvalBinaryExpression` on `z3::expr`s (symbolic_interpreter.cc:142-172). -/
def symBinExpr (op : BinOp) (l r : Z3Expr) : Res Z3Expr :=
  match op with
  | .eq => l.eq r
  | .ne => l.ne r
  | .gt => l.gt r
  | .ge => l.ge r
  | .lt => l.lt r
  | .le => l.le r
  | .and => l.and r
  | .or => l.or r
  | .implies => l.implies r
  | .unknown => .err .invalidArgument

/-- `EvalBinaryExpression` on ternaries and LPMs (symbolic_interpreter.cc:180-222): pairs of terms. -/
def symBinPair (op : BinOp) (l1 l2 r1 r2 : Z3Expr) : Res Z3Expr :=
  if op ≠ .eq ∧ op ≠ .ne then .err .invalidArgument
  else do
    let a ← symBinExpr op l1 r1
    let b ← symBinExpr op l2 r2
    if op = .ne then a.or b else a.and b

/-- `EvalBinaryExpression` on keys and results, with `EnsureSameType`
(symbolic_interpreter.cc:83-130, 174-249). -/
def symBin (op : BinOp) (l r : SymResult) : Res Z3Expr :=
  match l, r with
  | .expr a, .expr b => symBinExpr op a b
  | .key (.exact a), .key (.exact b) => symBinExpr op a b
  | .key (.ternary v m), .key (.ternary v' m') => symBinPair op v m v' m'
  | .key (.lpm v p), .key (.lpm v' p') => symBinPair op v p v' p'
  | _, _ => .err .invalidArgument

/-- `EvalTypeCast` (symbolic_interpreter.cc:251-302). -/
def symCast (e : Z3Expr) (t : Ty) : Res SymResult := do
  let w ← typeBitwidthOrStatus t
  match t with
  | .fixedUnsigned _ => do
    let e ← e.int2bv w
    .ok (.expr e)
  | .exact _ => .ok (.key (.exact e))
  | .optionalMatch _ | .ternary _ => do
    let m ← bvAllOnes w
    .ok (.key (.ternary e m))
  | .lpm _ => .ok (.key (.lpm e ⟨.int, .intVal w⟩))
  | .range _ => .err .unimplemented
  | _ => .err .invalidArgument

/-- `gutils::FindPtrOrStatus`. -/
def findPtrOrStatus {α : Type} (n : Str) (m : List (Str × α)) : Res α :=
  match lookup n m with
  | some a => .ok a
  | none => .err .notFound

/-- `expr.key()` of the proto: the empty string if the case is not `kKey`. -/
def protoKey : Expr → Str
  | .key _ n => n
  | _ => []

/-- `EvalSymbolicallyTo<z3::expr>` (symbolic_interpreter.cc:309-327), applied to the result of
`EvalSymbolically(expr)`. -/
def symToExpr (src : ConstraintSource) (e : Expr) (r : Res SymResult) : Res Z3Expr := do
  let r ← r
  match r with
  | .expr z => .ok z
  | .key _ => runtimeTypeError src e.start e.stop

/-- `EvalSymbolically` (symbolic_interpreter.cc:329-412). -/
def evalSym (src : ConstraintSource) (env : SymEnv) : Expr → Res SymResult
  | .boolConst _ b => .ok (.expr ⟨.bool, .boolVal b⟩)
  | .boolNeg _ e => do
    let z ← symToExpr src e (evalSym src env e)
    let z ← z.not
    .ok (.expr z)
  | .intConst _ s => do
    let z ← intVal s
    .ok (.expr z)
  | .arithNeg _ e => do
    let z ← symToExpr src e (evalSym src env e)
    let z ← z.neg
    .ok (.expr z)
  | .key _ n => do
    let k ← findPtrOrStatus n env.keys
    .ok (.key k)
  | .actionParam .. => .err .unimplemented
  | .field _ e f => do
    let k ← findPtrOrStatus (protoKey e) env.keys
    let z ← getFieldAccess k f
    .ok (.expr z)
  | .attr _ n => do
    let z ← findPtrOrStatus n env.attrs
    .ok (.expr z)
  | .bin _ op l r => do
    let l ← evalSym src env l
    let r ← evalSym src env r
    let z ← symBin op l r
    .ok (.expr z)
  | .typeCast i e => do
    let z ← symToExpr src e (evalSym src env e)
    symCast z i.ty
  | .notSet _ => .err .invalidArgument

/-- `EvaluateConstraintSymbolically` (symbolic_interpreter.cc:667-679). -/
def evaluateConstraintSymbolically (c : Expr) (src : ConstraintSource) (env : SymEnv) : Res Z3Expr :=
  if c.ty ≠ .boolean then .err .invalidArgument else symToExpr src c (evalSym src env c)

/-! ### Creating symbolic keys -/

/-- `AddSymbolicKey` (symbolic_interpreter.cc:587-657): the symbolic key and the new assertions. The
names of Z3 constants are C strings. A negative width makes Z3 throw. -/
def addSymbolicKey (key : VarInfo) : Res (SymKey × List (Term .bool)) := do
  let w ← typeBitwidthOrStatus key.ty
  if w = 0 then .err .invalidArgument
  else
    let n := w.toNat
    match key.ty with
    | .exact _ => if w < 0 then .crash else .ok (.exact ⟨.bv n, .const (cstr key.name) (.bv n)⟩, [])
    | .optionalMatch _ =>
      if w < 0 then .crash
      else
        let v : Term (.bv n) := .const (cstr key.name) (.bv n)
        let m : Term (.bv n) := .const (cstr (key.name ++ c!"_mask")) (.bv n)
        .ok (.ternary ⟨_, v⟩ ⟨_, m⟩,
          [.eq (.bvand m v) v,
           .or (.eq m (.bvVal (BitVec.ofInt n 0))) (.eq m (.bvVal (BitVec.ofInt n (-1))))])
    | .ternary _ =>
      if w < 0 then .crash
      else
        let v : Term (.bv n) := .const (cstr key.name) (.bv n)
        let m : Term (.bv n) := .const (cstr (key.name ++ c!"_mask")) (.bv n)
        .ok (.ternary ⟨_, v⟩ ⟨_, m⟩, [.eq (.bvand m v) v])
    | .lpm _ =>
      if w < 0 then .crash
      else
        let v : Term (.bv n) := .const (cstr key.name) (.bv n)
        let p : Term .int := .const (cstr (key.name ++ c!"_prefix_length")) .int
        let sfx : Term (.bv n) := .int2bv n (.sub (.intVal w) p)
        .ok (.lpm ⟨_, v⟩ ⟨_, p⟩,
          [.and (.and (.ge p (.intVal 0)) (.le p (.intVal w)))
            (.eq (.shl (.lshr v sfx) sfx) v)])
    | .range _ => .err .unimplemented
    | _ => .err .invalidArgument

/-- The constant created by `AddSymbolicPriority` (symbolic_interpreter.cc:659-665). -/
def priorityTerm : Term .int := .const c!"priority" .int

/-- The assertions added by `AddSymbolicPriority` (symbolic_interpreter.cc:659-665). -/
def priorityAssertions : List (Term .bool) :=
  [.gt priorityTerm (.intVal 0), .le priorityTerm (.intVal 2147483647)]

/-! ### Concretizing -/

/-- Lower-case hexadecimal digit. -/
def hexDigit (n : Nat) : Char := if n < 10 then Char.ofNat (48 + n) else Char.ofNat (87 + n)

/-- The `k` hexadecimal digits of a number, most significant first. -/
def hexDigits : Nat → Nat → Str
  | 0, _ => []
  | k + 1, n => hexDigits k (n / 16) ++ [hexDigit (n % 16)]

/-- `expr::to_string()` of a bit-vector value (Z3's default printer): `#x…` if the width is divisible by
4 and `#b…` otherwise. -/
def bvToString {w : Nat} (v : BitVec w) : Str :=
  if w % 4 = 0 then c!"#x" ++ hexDigits (w / 4) v.toNat else c!"#b" ++ bitsetToString w v.toNat

/-- The loop of `BitstringToP4RuntimeBytestring` (symbolic_interpreter.cc:432-446): `i` is the index,
`byte` the byte under construction, `seen` is `seen_non_zero_byte`. -/
def bitLoop : Nat → UInt8 → Bool → Str → Bytes
  | _, _, _, [] => []
  | i, byte, seen, c :: cs =>
    let byte := byte * 2 + (if c = '1' then 1 else 0)
    if (i + 1) % 8 = 0 then
      if seen || byte ≠ 0 then byte :: bitLoop (i + 1) 0 true cs
      else bitLoop (i + 1) 0 seen cs
    else bitLoop (i + 1) byte seen cs

/-- `BitstringToP4RuntimeBytestring` (symbolic_interpreter.cc:416-453). -/
def bitstringToBytes (s : Str) (w : Nat) : Bytes :=
  let padded := if w % 8 ≠ 0 then List.replicate (8 - w % 8) '0' ++ s else s
  let bs := bitLoop 0 0 false padded
  if bs.isEmpty then [0] else bs

/-- `absl::HexStringToBytes` on a string of even length. -/
def hexStringToBytes : Str → Bytes
  | a :: b :: cs => UInt8.ofNat (xdigitVal a * 16 + xdigitVal b) :: hexStringToBytes cs
  | _ => []

/-- `HexstringToP4RuntimeBytestring` (symbolic_interpreter.cc:457-470). -/
def hexstringToBytes (s : Str) : Bytes :=
  let s := s.dropWhile (· = '0')
  if s.isEmpty then [0]
  else hexStringToBytes (if s.length % 2 ≠ 0 then '0' :: s else s)

/-- `Z3BitvectorValueToP4RuntimeBytestring` (symbolic_interpreter.cc:472-482). -/
def z3ToBytes (s : Str) (w : Nat) : Res Bytes :=
  match consumePrefix c!"#x" s with
  | some s => .ok (hexstringToBytes s)
  | none =>
    match consumePrefix c!"#b" s with
    | some s => .ok (bitstringToBytes s w)
    | none => .err .invalidArgument

/-- `model.eval(e, true).to_string()` for a bit-vector; other sorts print differently (not `#x`/`#b`). -/
def evalToString (m : Interp) : Z3Expr → Str
  | ⟨.bv _, t⟩ => bvToString (t.den m)
  | ⟨.int, t⟩ => intDec (t.den m)
  | ⟨.bool, t⟩ => if t.den m then c!"true" else c!"false"

/-- `model.eval(e == 0, true).is_true()`. -/
def evalIsZero (m : Interp) : Z3Expr → Bool
  | ⟨.bv w, t⟩ => (t.den m : BitVec w) == BitVec.ofInt w 0
  | ⟨.int, t⟩ => (t.den m : Int) == 0
  | ⟨.bool, _⟩ => false

/-- `ConcretizeKey` (symbolic_interpreter.cc:484-581); `none` is a wildcard. -/
def concretizeKey (k : SymKey) (ki : VarInfo) (m : Interp) : Res (Option FieldMatch) := do
  let w ← typeBitwidthOrStatus ki.ty
  match ki.ty with
  | .exact _ => do
    let v ← getFieldAccess k c!"value"
    let bs ← z3ToBytes (evalToString m v) w.toNat
    .ok (some ⟨ki.id, .exact bs⟩)
  | .optionalMatch _ => do
    let mask ← getFieldAccess k c!"mask"
    if evalIsZero m mask then .ok none
    else do
      let v ← getFieldAccess k c!"value"
      let bs ← z3ToBytes (evalToString m v) w.toNat
      .ok (some ⟨ki.id, .optional bs⟩)
  | .ternary _ => do
    let mask ← getFieldAccess k c!"mask"
    if evalIsZero m mask then .ok none
    else do
      let v ← getFieldAccess k c!"value"
      let bs ← z3ToBytes (evalToString m v) w.toNat
      let ms ← z3ToBytes (evalToString m mask) w.toNat
      .ok (some ⟨ki.id, .ternary bs ms⟩)
  | .lpm _ => do
    let p ← getFieldAccess k c!"prefix_length"
    match p with
    | ⟨.int, t⟩ =>
      let pl : Int := t.den m
      -- `get_numeral_int` throws if the value is not an `int`.
      if pl < -2147483648 ∨ pl > 2147483647 then .crash
      else if pl = 0 then .ok none
      else do
        let v ← getFieldAccess k c!"value"
        let bs ← z3ToBytes (evalToString m v) w.toNat
        .ok (some ⟨ki.id, .lpm bs pl⟩)
    | _ => .crash
  | .range _ => .err .unimplemented
  | _ => .err .invalidArgument

/-! ### The solver -/

/-- `class ConstraintSolver` (symbolic_interpreter.h:96-144): the assertions on the Z3 solver, the table,
the environment, and the number of `check` calls made so far. A `push` that is never popped is not
observable, so the stack is a list of assertions. -/
structure Solver where
  calls : Nat
  assertions : List (Term .bool)
  table : TableInfo
  env : SymEnv
  skip : Str → Res Bool

/-- `solver_->check()`. -/
def Solver.check (z : Z3Oracle) (s : Solver) : CheckResult × Solver :=
  (z.check s.calls s.assertions, { s with calls := s.calls + 1 })

/-- `AddConstraint(constraint, constraint_source)` (symbolic_interpreter.cc:731-751): result and new
state. Since the C++ method mutates the object, the state is returned also for errors. -/
def Solver.addConstraint (z : Z3Oracle) (s : Solver) (c : Expr) (src : ConstraintSource) :
    Res Bool × Solver :=
  let (r, s) := s.check z
  match r with
  | .sat .. =>
    match evaluateConstraintSymbolically c src s.env with
    | .ok ⟨.bool, t⟩ =>
      let (r, s') := Solver.check z { s with assertions := s.assertions ++ [t] }
      match r with
      | .sat .. => (.ok true, s')
      | _ => (.ok false, { s' with assertions := s.assertions })
    | .ok _ => (.crash, s)
    | .err c => (.err c, s)
    | .crash => (.crash, s)
    | .oof => (.oof, s)
  | _ => (.err .internal, s)

/-- `AddConstraint(constraint_string)` (symbolic_interpreter.cc:753-769). Type errors are quoted from the source of
the constraint of the table (type_checker.cc:225-234, 427-429), not from the text given. -/
def Solver.addConstraintStr (z : Z3Oracle) (sys : Sys) (s : Solver) (text : Str) : Res Bool × Solver :=
  let src : ConstraintSource := ⟨text, { src := .tableName s.table.name }⟩
  match (do
    let e ← parseConstraint sys .table src
    inferAndCheck s.table.source (.table s.table.keysByName) e : Res Expr) with
  | .ok e => s.addConstraint z e src
  | .err c => (.err c, s)
  | .crash => (.crash, s)
  | .oof => (.oof, s)

/-- Does the key require the table to have priorities (symbolic_interpreter.cc:785-789)? -/
def needsPriority : Ty → Bool
  | .ternary _ | .optionalMatch _ => true
  | _ => false

/-- The loop of `Create` over the ordered keys (symbolic_interpreter.cc:783-801). -/
def createKeys (skip : Str → Res Bool) :
    List (Str × SymKey) → List (Term .bool) → List (Str × VarInfo) →
      Res (List (Str × SymKey) × List (Term .bool))
  | ks, as, [] => .ok (ks, as)
  | ks, as, (n, ki) :: rest => do
    let skipped ← skip n
    if skipped then createKeys skip ks as rest
    else do
      let (k, as') ← addSymbolicKey ki
      createKeys skip ((insertNew n k ks).getD ks) (as ++ as') rest

/-- `ConstraintSolver::Create` (symbolic_interpreter.cc:771-822). -/
def Solver.create (z : Z3Oracle) (table : TableInfo) (skip : Str → Res Bool) : Res Solver := do
  let keys := ordered table.keysByName
  let (ks, as) ← createKeys skip [] [] keys
  let requiresPriority := keys.any fun kv => needsPriority kv.2.ty
  let s : Solver :=
    if requiresPriority then
      ⟨0, as ++ priorityAssertions, table, ⟨ks, [(c!"priority", ⟨.int, priorityTerm⟩)]⟩, skip⟩
    else ⟨0, as, table, ⟨ks, []⟩, skip⟩
  match table.constraint with
  | none => .ok s
  | some c =>
    match s.addConstraint z c table.source with
    | (.ok true, s) => .ok s
    | (.ok false, _) => .err .invalidArgument
    | (.err c, _) => .err c
    | (.crash, _) => .crash
    | (.oof, _) => .oof

/-- The loop of `ConcretizeEntry` over the ordered keys (symbolic_interpreter.cc:693-709). -/
def concretizeKeys (skip : Str → Res Bool) (env : SymEnv) (m : Interp) :
    List (Str × VarInfo) → Res (List FieldMatch)
  | [] => .ok []
  | (n, ki) :: rest => do
    let skipped ← skip n
    if skipped then concretizeKeys skip env m rest
    else do
      let k ← findPtrOrStatus n env.keys
      let fm ← concretizeKey k ki m
      let fms ← concretizeKeys skip env m rest
      .ok (match fm with | some fm => fm :: fms | none => fms)

/-- The priority part of `ConcretizeEntry` (symbolic_interpreter.cc:711-727). -/
def concretizePriority (env : SymEnv) (m : Interp) (hasInterp : Str → Srt → Bool) : Res Int :=
  match lookup c!"priority" env.attrs with
  | none => .ok 0
  | some ⟨.int, .const n .int⟩ =>
    if hasInterp n .int then
      let p : Int := (Term.const n .int).den m
      if p < -2147483648 ∨ p > 2147483647 then .crash else .ok p
    else .err .invalidArgument
  | some _ => .crash

/-- `ConcretizeEntry` (symbolic_interpreter.cc:683-729). -/
def Solver.concretize (z : Z3Oracle) (s : Solver) : Res RtEntry × Solver :=
  let (r, s) := s.check z
  match r with
  | .sat m h =>
    ((do
      let fms ← concretizeKeys s.skip s.env m (ordered s.table.keysByName)
      let prio ← concretizePriority s.env m h
      .ok { tableId := s.table.id, matches_ := fms, priority := prio }), s)
  | _ => (.err .internal, s)

end P4C
