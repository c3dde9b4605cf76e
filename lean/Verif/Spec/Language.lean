import Verif.Model.Interpreter

/-
Specification of the constraint language: abstract syntax without locations, typing rules, and meaning
(docs/language-specification.md, ast.proto, comments of type_checker.h). It uses the data types of the
model (`Ty`, `Value`, `Expr`, ...) but none of its functions.
-/

namespace P4C.Spec

/-- Comparison operators. -/
inductive Cmp where
  | eq | ne | lt | le | gt | ge
deriving DecidableEq, Repr

/-- Boolean connectives. -/
inductive Conn where
  | and | or | implies
deriving DecidableEq, Repr

/-- Constraints without source locations and types. -/
inductive SExpr where
  | bool (b : Bool)
  | int (z : Int)
  | key (n : Str)
  | param (n : Str)
  | attr (n : Str)
  | not (e : SExpr)
  | neg (e : SExpr)
  | cmp (o : Cmp) (l r : SExpr)
  | conn (o : Conn) (l r : SExpr)
  | field (e : SExpr) (f : Str)
deriving DecidableEq, Repr

/-! ### From syntax trees to abstract syntax -/

/-- Value of a decimal digit. -/
def digit? (c : Char) : Option Nat := if '0' ≤ c ∧ c ≤ '9' then some (c.toNat - '0'.toNat) else none

/-- Positional value of a digit string, continuing from `acc`. -/
def digitsVal (acc : Nat) : Str → Option Nat
  | [] => some acc
  | c :: cs => (digit? c).bind fun d => digitsVal (10 * acc + d) cs

/-- The number written in decimal: a non-empty digit string. -/
def decimal? (s : Str) : Option Nat := if s = [] then none else digitsVal 0 s

/-- Operators of syntax trees. -/
def binop : BinOp → SExpr → SExpr → Option SExpr
  | .eq, l, r => some (.cmp .eq l r)
  | .ne, l, r => some (.cmp .ne l r)
  | .lt, l, r => some (.cmp .lt l r)
  | .le, l, r => some (.cmp .le l r)
  | .gt, l, r => some (.cmp .gt l r)
  | .ge, l, r => some (.cmp .ge l r)
  | .and, l, r => some (.conn .and l r)
  | .or, l, r => some (.conn .or l r)
  | .implies, l, r => some (.conn .implies l r)
  | .unknown, _, _ => none

/-- The abstract syntax represented by a tree. There is none if the tree contains casts, missing
subexpressions, unknown operators, or integer constants that are not decimal numbers. -/
def abs : Expr → Option SExpr
  | .notSet _ => none
  | .boolConst _ b => some (.bool b)
  | .intConst _ s => (decimal? s).map fun (n : Nat) => .int (n : Int)
  | .key _ n => some (.key n)
  | .actionParam _ n => some (.param n)
  | .attr _ n => some (.attr n)
  | .boolNeg _ e => (abs e).map .not
  | .arithNeg _ e => (abs e).map .neg
  | .typeCast _ _ => none
  | .bin _ op l r => (abs l).bind fun l => (abs r).bind fun r => binop op l r
  | .field _ e f => (abs e).map fun e => .field e f

/-! ### Types -/

/-- The names a constraint may refer to. -/
structure Sig where
  /-- Types of the keys of the table; none in an action. -/
  key : Str → Option Ty
  /-- Types of the parameters of the action; none in a table. -/
  param : Str → Option Ty

/-- One implicit conversion step (ast.proto, `type_cast`): `int` to `bit<W>`, `bit<W>` to a match type of
the same width. -/
inductive CastStep : Ty → Ty → Prop where
  | intBit (w : Int) : CastStep .arbitraryInt (.fixedUnsigned w)
  | bitExact (w : Int) : CastStep (.fixedUnsigned w) (.exact w)
  | bitTernary (w : Int) : CastStep (.fixedUnsigned w) (.ternary w)
  | bitLpm (w : Int) : CastStep (.fixedUnsigned w) (.lpm w)
  | bitRange (w : Int) : CastStep (.fixedUnsigned w) (.range w)
  | bitOptional (w : Int) : CastStep (.fixedUnsigned w) (.optionalMatch w)

/-- Castability in zero or more steps. -/
inductive CastsTo : Ty → Ty → Prop where
  | refl (t : Ty) : CastsTo t t
  | step {a b c : Ty} : CastStep a b → CastsTo b c → CastsTo a c

/-- `t` is the least type to which both `a` and `b` cast. -/
def IsJoin (a b t : Ty) : Prop :=
  CastsTo a t ∧ CastsTo b t ∧ ∀ u, CastsTo a u → CastsTo b u → CastsTo t u

/-- Types of fields (table in docs/language-specification.md, "Accessing the fields of a key"). -/
inductive FieldTy : Ty → Str → Ty → Prop where
  | exactValue (w : Int) : FieldTy (.exact w) c!"value" (.fixedUnsigned w)
  | ternaryValue (w : Int) : FieldTy (.ternary w) c!"value" (.fixedUnsigned w)
  | ternaryMask (w : Int) : FieldTy (.ternary w) c!"mask" (.fixedUnsigned w)
  | optionalValue (w : Int) : FieldTy (.optionalMatch w) c!"value" (.fixedUnsigned w)
  | optionalMask (w : Int) : FieldTy (.optionalMatch w) c!"mask" (.fixedUnsigned w)
  | lpmValue (w : Int) : FieldTy (.lpm w) c!"value" (.fixedUnsigned w)
  | lpmPrefix (w : Int) : FieldTy (.lpm w) c!"prefix_length" .arbitraryInt
  | rangeLow (w : Int) : FieldTy (.range w) c!"low" (.fixedUnsigned w)
  | rangeHigh (w : Int) : FieldTy (.range w) c!"high" (.fixedUnsigned w)

/-- Types whose values are ordered (ast.h, `TypeHasOrdering`). -/
inductive Ordered : Ty → Prop where
  | int : Ordered .arbitraryInt
  | bit (w : Int) : Ordered (.fixedUnsigned w)
  | exact (w : Int) : Ordered (.exact w)

/-- Is it one of `<`, `<=`, `>`, `>=`? -/
def Cmp.isOrder : Cmp → Bool
  | .eq | .ne => false
  | _ => true

/-- A type a variable may have. -/
def Supported (t : Ty) : Prop := t ≠ .unknown ∧ ∀ n, t ≠ .unsupported n

/-- Typing rules. -/
inductive HasTy (Γ : Sig) : SExpr → Ty → Prop where
  | bool (b : Bool) : HasTy Γ (.bool b) .boolean
  | int (z : Int) : HasTy Γ (.int z) .arbitraryInt
  | key {n : Str} {t : Ty} : Γ.key n = some t → Supported t → HasTy Γ (.key n) t
  | param {n : Str} {t : Ty} : Γ.param n = some t → Supported t → HasTy Γ (.param n) t
  | priority : HasTy Γ (.attr c!"priority") .arbitraryInt
  | not {e : SExpr} : HasTy Γ e .boolean → HasTy Γ (.not e) .boolean
  | neg {e : SExpr} : HasTy Γ e .arbitraryInt → HasTy Γ (.neg e) .arbitraryInt
  | conn {o : Conn} {l r : SExpr} : HasTy Γ l .boolean → HasTy Γ r .boolean →
      HasTy Γ (.conn o l r) .boolean
  | cmp {o : Cmp} {l r : SExpr} {a b t : Ty} : HasTy Γ l a → HasTy Γ r b → IsJoin a b t →
      (o.isOrder = true → Ordered t) → HasTy Γ (.cmp o l r) .boolean
  | field {e : SExpr} {f : Str} {a t : Ty} : HasTy Γ e a → FieldTy a f t → HasTy Γ (.field e f) t

/-! ### Meaning -/

/-- What a constraint talks about: an entry (keys and priority) or an action invocation (parameters). -/
structure Env where
  key : Str → Option Value
  param : Str → Option Int
  priority : Option Int

/-- Shape of the values of a type. -/
inductive HasShape : Ty → Value → Prop where
  | bool (b : Bool) : HasShape .boolean (.bool b)
  | int (z : Int) : HasShape .arbitraryInt (.int z)
  | bit (w z : Int) : HasShape (.fixedUnsigned w) (.int z)
  | exact (w v : Int) : HasShape (.exact w) (.exact v)
  | ternary (w v m : Int) : HasShape (.ternary w) (.ternary v m)
  | optional (w v m : Int) : HasShape (.optionalMatch w) (.ternary v m)
  | lpm (w v p : Int) : HasShape (.lpm w) (.lpm v p)
  | range (w l h : Int) : HasShape (.range w) (.range l h)

/-- The exact match on the value `n`, for a key of the given type. -/
def exactMatch (t : Ty) (n : Int) : Value :=
  match t with
  | .exact _ => .exact n
  | .ternary w | .optionalMatch w => .ternary n (2 ^ w.toNat - 1)
  | .lpm w => .lpm n w
  | .range _ => .range n n
  | _ => .int n

/-- Implicit conversion of a value: an integer is reduced modulo 2^W, a `bit<W>` value becomes the exact
match for it. -/
def convert (a t : Ty) (v : Value) : Value :=
  if a = t then v
  else match v, a, t with
    | .int z, .arbitraryInt, .fixedUnsigned w => .int (z % 2 ^ w.toNat)
    | .int z, .arbitraryInt, .exact w | .int z, .arbitraryInt, .ternary w
    | .int z, .arbitraryInt, .lpm w | .int z, .arbitraryInt, .range w
    | .int z, .arbitraryInt, .optionalMatch w => exactMatch t (z % 2 ^ w.toNat)
    | .int z, .fixedUnsigned _, t => exactMatch t z
    | v, _, _ => v

/-- The number compared by `<` etc. -/
def orderKey : Value → Option Int
  | .int z => some z
  | .exact v => some v
  | _ => none

/-- Comparison of two values of the same type. -/
def compareVals (o : Cmp) (a b : Value) : Option Bool :=
  match o with
  | .eq => some (decide (a = b))
  | .ne => some (decide (a ≠ b))
  | .lt => (orderKey a).bind fun x => (orderKey b).map fun y => decide (x < y)
  | .le => (orderKey a).bind fun x => (orderKey b).map fun y => decide (x ≤ y)
  | .gt => (orderKey a).bind fun x => (orderKey b).map fun y => decide (y < x)
  | .ge => (orderKey a).bind fun x => (orderKey b).map fun y => decide (y ≤ x)

/-- Truth tables of the connectives. -/
def Conn.apply : Conn → Bool → Bool → Bool
  | .and, a, b => a && b
  | .or, a, b => a || b
  | .implies, a, b => !a || b

/-- Fields of match values. -/
inductive FieldVal : Value → Str → Int → Prop where
  | exactValue (v : Int) : FieldVal (.exact v) c!"value" v
  | ternaryValue (v m : Int) : FieldVal (.ternary v m) c!"value" v
  | ternaryMask (v m : Int) : FieldVal (.ternary v m) c!"mask" m
  | lpmValue (v p : Int) : FieldVal (.lpm v p) c!"value" v
  | lpmPrefix (v p : Int) : FieldVal (.lpm v p) c!"prefix_length" p
  | rangeLow (l h : Int) : FieldVal (.range l h) c!"low" l
  | rangeHigh (l h : Int) : FieldVal (.range l h) c!"high" h

/-- `Means Γ ρ e t v`: under the declarations `Γ`, the expression `e` has type `t` and, of the entry or
action invocation `ρ`, the value `v`. Connectives are total boolean functions of both operands (no
short-circuiting), comparisons are at the join of the operand types. -/
inductive Means (Γ : Sig) (ρ : Env) : SExpr → Ty → Value → Prop where
  | bool (b : Bool) : Means Γ ρ (.bool b) .boolean (.bool b)
  | int (z : Int) : Means Γ ρ (.int z) .arbitraryInt (.int z)
  | key {n : Str} {t : Ty} {v : Value} : Γ.key n = some t → ρ.key n = some v → Means Γ ρ (.key n) t v
  | param {n : Str} {t : Ty} {z : Int} : Γ.param n = some t → ρ.param n = some z →
      Means Γ ρ (.param n) t (.int z)
  | priority {p : Int} : ρ.priority = some p → Means Γ ρ (.attr c!"priority") .arbitraryInt (.int p)
  | not {e : SExpr} {b : Bool} : Means Γ ρ e .boolean (.bool b) → Means Γ ρ (.not e) .boolean (.bool (!b))
  | neg {e : SExpr} {z : Int} : Means Γ ρ e .arbitraryInt (.int z) →
      Means Γ ρ (.neg e) .arbitraryInt (.int (-z))
  | conn {o : Conn} {l r : SExpr} {a b : Bool} : Means Γ ρ l .boolean (.bool a) →
      Means Γ ρ r .boolean (.bool b) → Means Γ ρ (.conn o l r) .boolean (.bool (o.apply a b))
  | cmp {o : Cmp} {l r : SExpr} {a b t : Ty} {v w : Value} {c : Bool} : Means Γ ρ l a v →
      Means Γ ρ r b w → IsJoin a b t → compareVals o (convert a t v) (convert b t w) = some c →
      Means Γ ρ (.cmp o l r) .boolean (.bool c)
  | field {e : SExpr} {f : Str} {a t : Ty} {v : Value} {z : Int} : Means Γ ρ e a v → FieldTy a f t →
      FieldVal v f z → Means Γ ρ (.field e f) t (.int z)

/-- The constraint holds of the entry or action invocation. -/
def Holds (Γ : Sig) (ρ : Env) (e : SExpr) : Prop := Means Γ ρ e .boolean (.bool true)

/-- The constraint is false of the entry or action invocation. -/
def Fails (Γ : Sig) (ρ : Env) (e : SExpr) : Prop := Means Γ ρ e .boolean (.bool false)

end P4C.Spec
