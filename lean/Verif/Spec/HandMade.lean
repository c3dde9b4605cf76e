import Verif.Spec.Repr

/-
Specification of outcomes of checking entries against constraint infos of any origin (property C101), such as ones whose
constraints are syntax trees that were not produced by the parser and the type checker.
-/

namespace P4C.Spec

/-- The predicate is true of all parts of a syntax tree. -/
def Everywhere (P : Expr → Prop) : Expr → Prop
  | .boolNeg i e => P (.boolNeg i e) ∧ Everywhere P e
  | .arithNeg i e => P (.arithNeg i e) ∧ Everywhere P e
  | .typeCast i e => P (.typeCast i e) ∧ Everywhere P e
  | .field i e f => P (.field i e f) ∧ Everywhere P e
  | .bin i op l r => P (.bin i op l r) ∧ Everywhere P l ∧ Everywhere P r
  | .notSet i => P (.notSet i)
  | .boolConst i b => P (.boolConst i b)
  | .intConst i s => P (.intConst i s)
  | .key i n => P (.key i n)
  | .actionParam i n => P (.actionParam i n)
  | .attr i n => P (.attr i n)

/-- The locations of this part are on one line, and in order. (They are if they are not set.) If it is a type cast, then
not to a type of negative width. -/
structure Tame (e : Expr) : Prop where
  line : e.start.line = e.stop.line
  col : 0 ≤ e.start.col
  order : e.start.col ≤ e.stop.col
  width : ∀ i e', e = .typeCast i e' → NonNeg i.ty

/-- No constraint has locations that extend over several lines, and there are no negative widths. -/
structure TameInfo (ci : ConstraintInfo) : Prop where
  tables : ∀ id ti c, (id, ti) ∈ ci.tables → ti.constraint = some c → Everywhere Tame c
  actions : ∀ id ai c, (id, ai) ∈ ci.actions → ai.constraint = some c → Everywhere Tame c
  byId : ∀ id ti n ki, (id, ti) ∈ ci.tables → (n, ki) ∈ ti.keysById → NonNeg ki.ty
  byName : ∀ id ti n ki, (id, ti) ∈ ci.tables → (n, ki) ∈ ti.keysByName → NonNeg ki.ty

/-- An answer, or one of the two codes for errors. -/
def Answers {α : Type} (r : Res α) : Prop := (∃ a, r = .ok a) ∨ r = .err .invalidArgument ∨ r = .err .internal

/-- The value is of the kind that the type calls for. -/
inductive SuitsType : Ty → Value → Prop where
  | boolean (b : Bool) : SuitsType .boolean (.bool b)
  | int (z : Int) : SuitsType .arbitraryInt (.int z)
  | bits (w z : Int) : SuitsType (.fixedUnsigned w) (.int z)
  | exact (w z : Int) : SuitsType (.exact w) (.exact z)
  | ternary (w v m : Int) : SuitsType (.ternary w) (.ternary v m)
  | lpm (w v p : Int) : SuitsType (.lpm w) (.lpm v p)
  | range (w l h : Int) : SuitsType (.range w) (.range l h)
  | optional (w v m : Int) : SuitsType (.optionalMatch w) (.ternary v m)

/-- Types of numbers. -/
def IntTy (t : Ty) : Prop := t = .arbitraryInt ∨ ∃ w, t = .fixedUnsigned w

/-- The operators that evaluate their right operand only if need be. -/
def ShortCircuits (op : BinOp) : Prop := op = .and ∨ op = .or ∨ op = .implies

/-- The type of this part, and of what it is composed of, is as the type checker would have it; it is not required that the
two sides of an equation have the same type. -/
def Marked : Expr → Prop
  | .notSet _ => False
  | .boolConst i _ => i.ty = .boolean
  | .intConst i _ | .actionParam i _ | .attr i _ | .field i _ _ => IntTy i.ty
  | .key i _ => ∃ v, SuitsType i.ty v
  | .boolNeg i e => i.ty = .boolean ∧ e.ty = .boolean
  | .arithNeg i e => IntTy i.ty ∧ IntTy e.ty
  | .typeCast i e => IntTy e.ty ∧ i.ty ≠ .boolean ∧ i.ty ≠ .arbitraryInt ∧ ∃ v, SuitsType i.ty v
  | .bin i op l r => i.ty = .boolean ∧ op ≠ .unknown ∧ (ShortCircuits op → l.ty = .boolean) ∧
      (op = .lt ∨ op = .le ∨ op = .gt ∨ op = .ge → IntTy l.ty ∧ IntTy r.ty)

/-- `x` is a part of the tree that is evaluated whatever the values are. -/
inductive Reached : Expr → Expr → Prop where
  | self (e : Expr) : Reached e e
  | boolNeg {i : Info} {e x : Expr} : Reached e x → Reached (.boolNeg i e) x
  | arithNeg {i : Info} {e x : Expr} : Reached e x → Reached (.arithNeg i e) x
  | typeCast {i : Info} {e x : Expr} : Reached e x → Reached (.typeCast i e) x
  | field {i : Info} {e x : Expr} {f : Str} : Reached e x → Reached (.field i e f) x
  | left {i : Info} {op : BinOp} {l r x : Expr} : Reached l x → Reached (.bin i op l r) x
  | right {i : Info} {op : BinOp} {l r x : Expr} : ¬ ShortCircuits op → Reached r x → Reached (.bin i op l r) x

end P4C.Spec
