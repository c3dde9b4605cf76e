import Verif.Model.Interpreter

/-
The tests of `backend/interpreter_test.cc`, run on the model.
-/

namespace P4C.Golden.Eval

local instance : DecidableEq (Value × Cache) := inferInstance
local instance : DecidableEq (Bool × Cache) := inferInstance

/-- The common fields of an expression of the given type. -/
def i (t : Ty) : Info := ⟨{}, {}, t⟩

/-- The common fields of a Boolean expression at a location. -/
def at_ (s : Src) : Info := ⟨⟨0, 0, s⟩, ⟨0, 0, s⟩, .boolean⟩

/-- `kTableInfo`, where only one key is found by its number. -/
def tableInfo : TableInfo where
  id := 1
  name := c!"table"
  constraint := none
  source := ⟨[], {}⟩
  keysById := [(1, ⟨1, c!"exact32", .exact 32⟩)]
  keysByName := [(c!"exact32", ⟨1, c!"exact32", .exact 32⟩), (c!"ternary32", ⟨2, c!"ternary32", .ternary 32⟩),
    (c!"lpm32", ⟨3, c!"lpm32", .lpm 32⟩), (c!"range32", ⟨4, c!"range32", .range 32⟩),
    (c!"optional32", ⟨5, c!"optional32", .optionalMatch 32⟩)]

/-- `kParsedEntry`. -/
def parsedKeys : List (Str × Value) :=
  [(c!"exact32", .exact 42), (c!"ternary32", .ternary 12 128), (c!"lpm32", .lpm 0 32), (c!"range32", .range 5 500),
   (c!"optional32", .ternary 12 (2 ^ 32 - 1))]

/-- `MakeEvaluationContext`. -/
def ctxOf (keys : List (Str × Value)) : EvalCtx := ⟨.table ⟨c!"table", 0, keys⟩, ⟨c!"source", {}⟩⟩

/-- `kEvaluationContext`. -/
def ctx : EvalCtx := ctxOf parsedKeys

/-- `kTableEntry`, with the given value of the key. -/
def entry (bs : Bytes := [65]) (priority : Int := 0) : RtEntry := ⟨1, [⟨1, .exact bs⟩], priority, none⟩

/-- `MakeConstraintInfo`. -/
def infoOf (e : Expr) : ConstraintInfo :=
  ⟨[], [(1, { tableInfo with constraint := some e, source := ⟨[], ⟨0, 0, .tableName c!"table"⟩⟩ })]⟩

/-- `KeyExpr`. -/
def keyExpr (k : Str) : Expr := .key (i ((lookup k tableInfo.keysByName).elim .notSet VarInfo.ty)) k

/-- `FieldAccessExpr` of a field of 32 bits. -/
def fieldExpr (f k : Str) : Expr := .field (i (.fixedUnsigned 32)) (keyExpr k) f

/-- Boolean and integer constants. -/
def bool (b : Bool) : Expr := .boolConst (i .boolean) b
@[inherit_doc bool] def int (s : Str) : Expr := .intConst (i .arbitraryInt) s

/-- `BinaryBooleanExpr`. -/
def boolExpr (l : Bool) (op : BinOp) (r : Bool) : Expr := .bin (i .boolean) op (bool l) (bool r)

/-- The constraint `p != 0` on a parameter. -/
def notZero (j : Info) (p : Str) : Expr :=
  .bin j .ne (.actionParam (i (.fixedUnsigned 32)) p) (.typeCast (i (.fixedUnsigned 32)) (int c!"0"))

/-- `kMulticastGroupIdActionInfo` and `kActionInfoVlanId`: actions of one parameter of the same name. -/
def actionInfo (id : Nat) (p : Str) : Nat × ActionInfo :=
  (id, ⟨id, p, some (notZero (i .boolean) p), ⟨[], {}⟩, [(1, ⟨1, p, .fixedUnsigned 32⟩)], [(p, ⟨1, p, .fixedUnsigned 32⟩)]⟩)

/-- The same with locations. -/
def actionInfoAt (id : Nat) (p : Str) : Nat × ActionInfo :=
  (id, ⟨id, p, some (notZero (at_ (.actionName p)) p), ⟨[], ⟨0, 0, .actionName p⟩⟩, [(1, ⟨1, p, .fixedUnsigned 32⟩)],
    [(p, ⟨1, p, .fixedUnsigned 32⟩)]⟩)

/-- The names of the parameters. -/
def group : Str := c!"multicast_group_id"
@[inherit_doc group] def vlan : Str := c!"vlan_id"

/-- An entry with an action. -/
def withAction (a : TableAction) : RtEntry := ⟨1, [], 0, some a⟩

/-- An action with one parameter. -/
def act (id : Nat) (b : UInt8) : RtAction := ⟨id, [(1, [b])]⟩

/-- A violation is reported. -/
def violates : Res Str → Bool
  | .ok s => s ≠ []
  | _ => false

/-! ### ReasonEntryViolatesConstraintTest -/

-- EntryShouldMeetActionConstraint
example : reasonEntryViolatesConstraint (withAction (.action (act 123 6))) ⟨[actionInfo 123 group], [(1, tableInfo)]⟩ = .ok [] := by
  decide +kernel

-- MissingActionIdShouldFailForAction, MissingActionIdShouldFailForActionProfileActionSet
example : reasonEntryViolatesConstraint (withAction (.action (act 123 0))) ⟨[], [(1, tableInfo)]⟩ = .err .invalidArgument := by
  decide +kernel
example : reasonEntryViolatesConstraint (withAction (.actionSet [act 123 6, act 124 6]))
    ⟨[(1, (actionInfo 123 group).2), (2, (actionInfo 124 vlan).2)], [(1, tableInfo)]⟩ = .err .invalidArgument := by decide +kernel

-- ActionProfileMemberIdReturnsUnimplementedError, ActionProfileGroupIdReturnsUnimplementedError
example : ∀ a ∈ [TableAction.memberId 1, .groupId 1],
    reasonEntryViolatesConstraint (withAction a) ⟨[actionInfo 123 group], [(1, tableInfo)]⟩ = .err .invalidArgument := by decide +kernel

-- EntryShouldViolateActionConstraint
example : violates (reasonEntryViolatesConstraint (withAction (.action (act 123 0))) ⟨[actionInfoAt 123 group], [(1, tableInfo)]⟩) := by
  decide +kernel

-- EntryShouldMeetActionProfileActionSetConstraint, EntryShouldViolateActionProfileActionSetConstraint
example : reasonEntryViolatesConstraint (withAction (.actionSet [act 123 6, act 124 6]))
    ⟨[actionInfo 123 group, actionInfo 124 vlan], [(1, tableInfo)]⟩ = .ok [] := by decide +kernel
example : violates (reasonEntryViolatesConstraint (withAction (.actionSet [act 123 6, act 124 0]))
    ⟨[actionInfoAt 123 group, actionInfoAt 124 vlan], [(1, tableInfo)]⟩) := by decide +kernel

-- EmptyExpressionErrors, BooleanConstants
example : reasonEntryViolatesConstraint entry (infoOf (.notSet {})) = .err .invalidArgument := by decide +kernel
example : reasonEntryViolatesConstraint entry (infoOf (bool true)) = .ok [] := by decide +kernel
example : violates (reasonEntryViolatesConstraint entry (infoOf (.boolConst (at_ (.tableName c!"table")) false))) := by decide +kernel

-- NonBooleanConstraintsAreRejected
example : ∀ t ∈ [Ty.arbitraryInt, .fixedUnsigned 16, .fixedUnsigned 32],
    reasonEntryViolatesConstraint entry (infoOf (.intConst (i t) c!"42")) = .err .invalidArgument := by decide +kernel
example : ∀ k ∈ [c!"exact32", c!"ternary32", c!"lpm32", c!"range32"],
    reasonEntryViolatesConstraint entry (infoOf (keyExpr k)) = .err .invalidArgument := by decide +kernel

/-- The constraint `exact32 == n`. -/
def exactIs (j : Info) (n : Str) : Expr :=
  .bin j .eq (keyExpr c!"exact32") (.typeCast (i (.exact 32)) (.typeCast (i (.fixedUnsigned 32)) (int n)))

-- EntriesWithLeadingZeroesWork
example : reasonEntryViolatesConstraint entry (infoOf (exactIs (i .boolean) c!"65")) = .ok [] := by decide +kernel
example : reasonEntryViolatesConstraint (entry [0, 65]) (infoOf (exactIs (i .boolean) c!"65")) = .ok [] := by decide +kernel

-- EntriesWithOnlyZeroesWork, EntriesWithZeroAsciiValueWorks
example : ∀ x ∈ [(c!"0", (0 : UInt8)), (c!"48", 48)],
    violates (reasonEntryViolatesConstraint entry (infoOf (exactIs (at_ (.tableName c!"table")) x.1))) ∧
    reasonEntryViolatesConstraint (entry [x.2]) (infoOf (exactIs (at_ (.tableName c!"table")) x.1)) = .ok [] := by decide +kernel

/-- `GetPriorityEqualityConstraint`. -/
def priorityIs (j : Info) (n : Str) : Expr := .bin j .eq (.attr (i .arbitraryInt) c!"priority") (int n)

-- PriorityConstraintWorksWithDefaultPriority, PriorityConstraintWorksWithNonDefaultPriority
example : reasonEntryViolatesConstraint entry (infoOf (priorityIs (i .boolean) c!"0")) = .ok [] := by decide +kernel
example : violates (reasonEntryViolatesConstraint (entry [49, 50, 51, 52] 10) (infoOf (priorityIs (at_ (.tableName c!"table")) c!"0"))) := by
  decide +kernel
example : reasonEntryViolatesConstraint (entry [49, 50, 51, 52] 10) (infoOf (priorityIs (i .boolean) c!"10")) = .ok [] := by decide +kernel

/-! ### EvalTest -/

/-- `Eval(e, kEvaluationContext, nullptr)`. -/
def evaluated (e : Expr) : Res (Value × Cache) := eval ctx e [] none

-- IntegerConstant
example : ∀ n ∈ [(0 : Int), -1, 1, 42, -9042852073498123679518173785123857], ∀ t ∈ [Ty.arbitraryInt, .fixedUnsigned 16, .fixedUnsigned 32],
    evaluated (.intConst (i t) (intDec n)) = .ok (.int n, none) := by decide +kernel

-- Key
example : ∀ k ∈ parsedKeys, evaluated (keyExpr k.1) = .ok (k.2, none) := by decide +kernel

/-- `n` negations. -/
def negs (f : Expr → Expr) : Nat → Expr → Expr
  | 0, e => e
  | n + 1, e => f (negs f n e)

-- BooleanNegation, ArithmeticNegation
example : ∀ b ∈ [true, false], ∀ n ∈ [0, 1, 2, 3],
    evaluated (negs (.boolNeg (i .boolean)) (n + 1) (bool b)) = .ok (.bool (if n % 2 = 0 then !b else b), none) := by decide +kernel
example : ∀ n ∈ [0, 1, 2, 3],
    evaluated (negs (.arithNeg (i .arbitraryInt)) (n + 1) (int c!"42")) = .ok (.int (if n % 2 = 0 then -42 else 42), none) := by
  decide +kernel

-- TypeCast
example : ∀ x ∈ [((-1 : Int), (2 ^ 32 - 1 : Int)), (42, 42)],
    let fixed := Expr.typeCast (i (.fixedUnsigned 32)) (int (intDec x.1))
    evaluated fixed = .ok (.int x.2, none) ∧
    evaluated (.typeCast (i (.exact 32)) fixed) = .ok (.exact x.2, none) ∧
    evaluated (.typeCast (i (.ternary 32)) fixed) = .ok (.ternary x.2 (2 ^ 32 - 1), none) ∧
    evaluated (.typeCast (i (.lpm 32)) fixed) = .ok (.lpm x.2 32, none) ∧
    evaluated (.typeCast (i (.range 32)) fixed) = .ok (.range x.2 x.2, none) := by decide +kernel

-- BinaryExpression_BooleanArguments
example : ∀ l r : Bool, evaluated (boolExpr l .and r) = .ok (.bool (l && r), none) ∧
    evaluated (boolExpr l .or r) = .ok (.bool (l || r), none) ∧ evaluated (boolExpr l .implies r) = .ok (.bool (!l || r), none) ∧
    evaluated (boolExpr l .eq r) = .ok (.bool (l == r), none) ∧ evaluated (boolExpr l .ne r) = .ok (.bool (l != r), none) ∧
    ∀ op ∈ [BinOp.gt, .ge, .lt, .le], evaluated (boolExpr l op r) = .err .internal := by decide +kernel

/-- The numbers of the test. -/
def numbers : List Int := [-1, 0, 42, -452389348125871341098532412564, 53871347531398537818732785237812312987523]

-- BinaryExpression_NumericArguments
example : ∀ l ∈ numbers, ∀ r ∈ numbers,
    let e op := evaluated (.bin (i .boolean) op (int (intDec l)) (int (intDec r)))
    e .eq = .ok (.bool (l = r), none) ∧ e .ne = .ok (.bool (l ≠ r), none) ∧ e .gt = .ok (.bool (l > r), none) ∧
    e .ge = .ok (.bool (l ≥ r), none) ∧ e .lt = .ok (.bool (l < r), none) ∧ e .le = .ok (.bool (l ≤ r), none) ∧
    ∀ op ∈ [BinOp.and, .or, .implies], e op = .err .internal := by decide +kernel

-- BinaryExpression_CompositeArguments
example : ∀ k ∈ [c!"exact32", c!"ternary32", c!"lpm32", c!"range32"],
    let e op := evaluated (.bin (i .boolean) op (keyExpr k) (keyExpr k))
    e .eq = .ok (.bool true, none) ∧ e .ne = .ok (.bool false, none) ∧
    ∀ op ∈ [BinOp.gt, .ge, .lt, .le, .and, .or, .implies], e op = .err .internal := by decide +kernel

-- FieldAccess
example : ∀ x ∈ [(c!"exact32", Value.exact 42, [(c!"value", (42 : Int))], [c!"mask", c!"prefix_length", c!"low", c!"high", c!"xy"]),
    (c!"ternary32", .ternary 42 (-21), [(c!"value", 42), (c!"mask", -21)], [c!"prefix_length", c!"low", c!"high", c!"xy", c!"foo"]),
    (c!"lpm32", .lpm 42 (-21), [(c!"value", 42), (c!"prefix_length", -21)], [c!"mask", c!"low", c!"high", c!"xy", c!"foo", c!"bar"]),
    (c!"range32", .range 42 (-21), [(c!"low", 42), (c!"high", -21)], [c!"value", c!"mask", c!"prefix_length", c!"xy", c!"fo"])],
    let c := ctxOf ((x.1, x.2.1) :: parsedKeys.filter fun k => k.1 ≠ x.1)
    (∀ f ∈ x.2.2.1, eval c (fieldExpr f.1 x.1) [] none = .ok (.int f.2, none)) ∧
    ∀ f ∈ x.2.2.2, eval c (fieldExpr f x.1) [] none = .err .internal := by decide +kernel

/-! ### EvalToBoolCacheTest -/

/-- `EvalToBool(e, kEvaluationContext, &eval_cache)`. -/
def toBool (e : Expr) (p : Path) (c : EvalCache) : Res (Bool × Cache) := evalToBool ctx e p (some c)

-- CacheGetsPopulatedForBooleanConstant
example : toBool (bool true) [0] [] = .ok (true, some [([0], true)]) ∧
    toBool (bool false) [1] [([0], true)] = .ok (false, some [([1], false), ([0], true)]) := by decide +kernel

-- CacheGetsPopulatedForBooleanNegation
example : ∀ b : Bool, toBool (negs (.boolNeg (i .boolean)) 5 (bool b)) [] [] =
    .ok (!b, some ((List.range 6).map fun n => (List.replicate n 0, if n % 2 = 0 then !b else b))) := by decide +kernel

-- CacheGetsPopulatedForBooleanComparison, CacheRespectsShortCircuit
example : toBool (boolExpr true .and false) [] [] = .ok (false, some [([], false), ([1], false), ([0], true)]) := by decide +kernel
example : toBool (boolExpr true .or false) [] [] = .ok (true, some [([], true), ([0], true)]) ∧
    toBool (boolExpr true .or false) [] [([], true), ([0], true)] = .ok (true, some [([], true), ([0], true)]) := by decide +kernel

-- CacheGetsPopulatedForNonBooleanComparison, CacheIsUsed
example : toBool (priorityIs (i .boolean) c!"42") [] [] = .ok (false, some [([], false)]) := by decide +kernel
example : toBool (boolExpr true .or true) [] [([], false)] = .ok (false, some [([], false)]) := by decide +kernel

/-! ### MinimalSubexpressionLeadingToEvalResultTest -/

/-- The address of the subexpression found. -/
def minimal (e : Expr) : Res Path := do
  let (n, _) ← minimalSub ctx e [] ([], [])
  .ok n.2

-- ExplainBoolConstantIsConstant, ExplainNegationIsInnerExpression, ExplainNonBooleanComparisonIsComparison
example : ∀ b : Bool, minimal (bool b) = .ok [] := by decide +kernel
example : ∀ b : Bool, ∀ n ∈ [1, 2, 3, 4, 5], minimal (negs (.boolNeg (i .boolean)) n (bool b)) = .ok (List.replicate n 0) := by
  decide +kernel
example : minimal (priorityIs (i .boolean) c!"42") = .ok [] := by decide +kernel

-- ExplainIntegerConstantIsError, ExplainKeyIsError
example : ∀ n ∈ [c!"0", c!"-1", c!"1", c!"42", c!"-9042852073498123679518173785123857"],
    ∀ t ∈ [Ty.arbitraryInt, .fixedUnsigned 16, .fixedUnsigned 32], minimal (.intConst (i t) n) = .err .internal := by decide +kernel
example : ∀ k ∈ parsedKeys, minimal (keyExpr k.1) = .err .internal := by decide +kernel

-- ExplainTrueANDIsAND … ExplainFalseIMPLIESIsIMPLIES
example : ∀ x ∈ [(true, BinOp.and, true, []), (true, .and, false, [1]), (false, .and, false, [0]), (true, .or, false, [0]),
    (true, .or, true, [0]), (false, .or, false, []), (false, .implies, false, [0]), (true, .implies, true, [1]),
    (false, .implies, true, [0]), (true, .implies, false, [])],
    minimal (boolExpr x.1 x.2.1 x.2.2.1) = .ok x.2.2.2 := by decide +kernel

/-! ### ParseP4RTInteger -/

example : parseP4RTInteger [0] = 0 ∧ parseP4RTInteger [0xe0, 0, 0, 0] = 0xe0000000 := by decide +kernel

end P4C.Golden.Eval
