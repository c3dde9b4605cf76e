import Verif.Model.TypeChecker

/-
The tests of `backend/type_checker_test.cc`, run on the model. All of them are run with the locations that the tests use to
avoid errors of quoting.
-/

namespace P4C.Golden.Types

/-- `kMockLocation`. -/
def mock : Loc := ⟨0, 0, .filePath c!"Mock"⟩

/-- The common fields of the expressions. -/
def i : Info := ⟨mock, mock, .notSet⟩

/-- The keys of `kTableInfo`. -/
def keys : List (Str × Ty) :=
  [(c!"unknown", .unknown), (c!"unsupported", .unsupported c!"optional"), (c!"bool", .boolean), (c!"int", .arbitraryInt),
   (c!"bit16", .fixedUnsigned 16), (c!"bit32", .fixedUnsigned 32), (c!"exact32", .exact 32), (c!"ternary32", .ternary 32),
   (c!"lpm32", .lpm 32), (c!"range32", .range 32)]

/-- `InferAndCheckTypes(&expr, kTableInfo)`. -/
def inTable (e : Expr) : Res Expr := inferAndCheck ⟨c!" ", mock⟩ (.table (keys.map fun k => (k.1, ⟨0, k.1, k.2⟩))) e

/-- `InferAndCheckTypes(&expr, kActionInfo)`. -/
def inAction (e : Expr) : Res Expr :=
  inferAndCheck ⟨c!" ", mock⟩ (.action ([(c!"bit16", .fixedUnsigned 16), (c!"bit32", .fixedUnsigned 32)].map fun k => (k.1, ⟨0, k.1, k.2⟩))) e

/-- Accepted, with the given type. -/
def hasType (r : Res Expr) (t : Ty) : Bool :=
  match r with
  | .ok e => e.ty = t
  | _ => false

-- InvalidExpressions
example : ∀ e ∈ [.notSet i, .boolNeg i (.notSet i), .typeCast i (.notSet i), .bin i .unknown (.notSet i) (.notSet i)],
    inTable e = .err .invalidArgument := by decide +kernel

-- BooleanConstant, IntegerConstant
example : ∀ b : Bool, hasType (inTable (.boolConst i b)) .boolean := by decide +kernel
example : hasType (inTable (.intConst i c!"123")) .arbitraryInt := by decide +kernel

-- KnownVariablesTypeCheck, KnownVariablesTypeForActionsCheck
example : ∀ k ∈ keys.drop 2, hasType (inTable (.key i k.1)) k.2 := by decide +kernel
example : hasType (inAction (.actionParam i c!"bit16")) (.fixedUnsigned 16) := by decide +kernel
example : hasType (inAction (.actionParam i c!"bit32")) (.fixedUnsigned 32) := by decide +kernel

-- UnknownVariablesDontTypeCheck
example : ∀ v ∈ [c!"unknown", c!"unsupported", c!"not even valid"],
    inTable (.key i v) = .err .invalidArgument ∧ inAction (.actionParam i v) = .err .invalidArgument := by decide +kernel

-- BooleanNegationOfBooleansTypeChecks
example : ∀ e ∈ [.boolConst i true, .boolNeg i (.boolConst i false), .key i c!"bool"],
    hasType (inTable (.boolNeg i e)) .boolean := by decide +kernel

-- BooleanNegationOfNonBooleansDoesNotTypeCheck
example : ∀ e ∈ [.notSet i, .intConst i c!"0"] ++ [c!"unknown", c!"unsupported", c!"int", c!"bit32", c!"exact32", c!"ternary32",
    c!"lpm32", c!"range32"].map (.key i), inTable (.boolNeg i e) = .err .invalidArgument := by decide +kernel
example : ∀ p ∈ [c!"bit16", c!"bit32"], inAction (.boolNeg i (.actionParam i p)) = .err .invalidArgument := by decide +kernel

-- ArithmeticNegationOfIntTypeChecks
example : ∀ e ∈ [.intConst i c!"0", .arithNeg i (.intConst i c!"1"), .key i c!"int"],
    hasType (inTable (.arithNeg i e)) .arbitraryInt := by decide +kernel

-- ArithmeticNegationOfNonIntDoesNotTypeChecks
example : ∀ e ∈ [.notSet i, .boolConst i true] ++ [c!"unknown", c!"unsupported", c!"bool", c!"bit32", c!"exact32", c!"ternary32",
    c!"lpm32", c!"range32"].map (.key i), inTable (.arithNeg i e) = .err .invalidArgument := by decide +kernel
example : ∀ p ∈ [c!"bit32", c!"bit16"], inAction (.arithNeg i (.actionParam i p)) = .err .invalidArgument := by decide +kernel

-- TypeCastNeverTypeChecks
example : inTable (.typeCast i (.intConst i c!"0")) = .err .invalidArgument := by decide +kernel

/-- The result is a comparison whose left side was cast to the type of its right side. -/
def leftCast : Res Expr → Bool
  | .ok (.bin _ _ (.typeCast j _) r) => j.ty = r.ty
  | _ => false

-- LegalTypeCastEqualityComparisonTypeChecks
example : ∀ op ∈ [BinOp.eq, .ne], ∀ p ∈ [(c!"int", c!"bit16"), (c!"int", c!"exact32"), (c!"int", c!"ternary32"), (c!"int", c!"lpm32"),
    (c!"int", c!"range32"), (c!"bit32", c!"exact32"), (c!"bit32", c!"ternary32"), (c!"bit32", c!"lpm32"), (c!"bit32", c!"range32")],
    leftCast (inTable (.bin i op (.key i p.1) (.key i p.2))) := by decide +kernel

-- IllegalTypeCastEqualityComparisonFails
example : ∀ op ∈ [BinOp.eq, .ne], ∀ p ∈ [(c!"bool", c!"int"), (c!"bool", c!"bit32"), (c!"bool", c!"exact32"), (c!"bool", c!"ternary32"),
    (c!"bool", c!"lpm32"), (c!"bool", c!"range32"), (c!"bit16", c!"bit32"), (c!"bit16", c!"exact32"), (c!"bit16", c!"ternary32"),
    (c!"bit16", c!"lpm32"), (c!"bit16", c!"range32"), (c!"exact32", c!"ternary32"), (c!"ternary32", c!"lpm32"), (c!"lpm32", c!"range32")],
    inTable (.bin i op (.key i p.1) (.key i p.2)) = .err .invalidArgument := by decide +kernel

/-- The type-checked expression. -/
def checked (r : Res Expr) : Expr :=
  match r with
  | .ok e => e
  | _ => .notSet i

-- BinaryBooleanOperators: the nested expressions have been type-checked before
example : ∀ op ∈ [BinOp.and, .or, .implies],
    let e := inTable (.bin i op (.key i c!"bool") (.boolConst i false))
    let nested := .bin i op (checked e) (checked e)
    hasType e .boolean ∧ hasType (inTable nested) .boolean ∧
    inTable (.bin i .unknown (checked (inTable nested)) (checked (inTable nested))) = .err .internal ∧
    ∀ k ∈ [c!"int", c!"bit32", c!"exact32", c!"ternary32", c!"lpm32", c!"range32"],
      let bad := .bin i op (.key i c!"bool") (.key i k)
      inTable bad = .err .invalidArgument ∧ inTable (.bin i op (checked e) bad) = .err .invalidArgument := by decide +kernel

-- OrderedComparisonOperatorsFails, OrderedComparisonOperatorsTypeChecks
example : ∀ op ∈ [BinOp.gt, .ge, .lt, .le], ∀ k ∈ [c!"bool", c!"ternary32", c!"lpm32", c!"range32"],
    inTable (.bin i op (.key i k) (.key i k)) = .err .invalidArgument := by decide +kernel
example : ∀ op ∈ [BinOp.gt, .ge, .lt, .le], ∀ k ∈ [c!"int", c!"bit16", c!"exact32"],
    hasType (inTable (.bin i op (.key i k) (.key i k))) .boolean := by decide +kernel

-- FieldAccessTypeChecks
example : ∀ x ∈ [(c!"exact32", c!"value", .fixedUnsigned 32), (c!"ternary32", c!"value", .fixedUnsigned 32),
    (c!"ternary32", c!"mask", .fixedUnsigned 32), (c!"lpm32", c!"value", .fixedUnsigned 32), (c!"lpm32", c!"prefix_length", .arbitraryInt),
    (c!"range32", c!"low", .fixedUnsigned 32), (c!"range32", c!"high", Ty.fixedUnsigned 32)],
    hasType (inTable (.field i (.key i x.1) x.2.1)) x.2.2 := by decide +kernel

-- FieldAccess_AccessNonExistingField
example : ∀ x ∈ [(c!"exact32", [c!"mask", c!"prefix_length", c!"low", c!"high", c!"foo", c!"bar"]),
    (c!"ternary32", [c!"prefix_length", c!"low", c!"high", c!"foo", c!"bar"]), (c!"lpm32", [c!"mask", c!"low", c!"high", c!"foo", c!"bar"]),
    (c!"range32", [c!"mask", c!"prefix_length", c!"foo", c!"bar"])], ∀ f ∈ x.2,
    inTable (.field i (.key i x.1) f) = .err .invalidArgument := by decide +kernel

-- FieldAccess_AccessFieldOfScalarExpression
example : ∀ k ∈ [c!"unknown", c!"unsupported", c!"bool", c!"int", c!"bit16", c!"bit32"],
    ∀ f ∈ [c!"value", c!"mask", c!"prefix_length", c!"low", c!"high", c!"foo", c!"bar"],
    inTable (.field i (.key i k) f) = .err .invalidArgument := by decide +kernel

-- AttributeAccessTypeChecks
example : hasType (inTable (.attr i c!"priority")) .arbitraryInt := by decide +kernel

end P4C.Golden.Types
