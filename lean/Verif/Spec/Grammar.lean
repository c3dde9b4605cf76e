import Verif.Spec.Numeral
import Verif.Model.Parser

/-
The grammar of constraints (docs/language-specification.md, p4_constraints/frontend/parser.h),
stratified by precedence. Only the token and expression types of the model are used.
-/

namespace P4C.Spec

/-- The span of a node; the parser leaves types unset. -/
def span (a b : Loc) : Info := { start := a, stop := b, ty := .notSet }

/-- `Infix k op n l r`: the infix operator `k` denotes `op`; it forms an expression of level `n` from
a left operand of level `l` and a right operand of level `r`. So `;`, `||` and `&&` associate to the
left, `->` and comparisons do not associate. -/
inductive Infix : Kind → BinOp → Nat → Nat → Nat → Prop where
  | semicolon : Infix .semicolon .and 1 1 2
  | implies : Infix .implies .implies 2 3 3
  | or : Infix .or .or 3 3 4
  | and : Infix .and .and 4 4 5
  | eq : Infix .eq .eq 5 6 6
  | ne : Infix .ne .ne 5 6 6
  | gt : Infix .gt .gt 5 6 6
  | ge : Infix .ge .ge 5 6 6
  | lt : Infix .lt .lt 5 6 6
  | le : Infix .le .le 5 6 6

/-- `Dotted sep ts name a b`: the tokens `ID (. ID)*` spanning `a` to `b`, with the name obtained by
joining the identifiers with `sep`. -/
inductive Dotted (sep : Str) : List Token → Str → Loc → Loc → Prop where
  | one {t : Token} : t.kind = .id → Dotted sep [t] t.text t.start t.stop
  | snoc {ts : List Token} {name : Str} {a b : Loc} {d t : Token} : Dotted sep ts name a b →
      d.kind = .dot → t.kind = .id → Dotted sep (ts ++ [d, t]) (name ++ sep ++ t.text) a t.stop

/-- `G pton k n ts e`: the tokens `ts` form the expression `e` of level `n` (8: primary, 7: field
access, 6: unary, 5: comparison, 4: conjunction, 3: disjunction, 2: implication, 1: sequence,
0: sequence with optional trailing semicolon). `k` selects entry or action restrictions: in action
restrictions dotted names are parameters and the dots are dropped, as ast_constructors.cc:326-331 does. -/
inductive G (pton : Str → Option Bytes) (k : ConstraintKind) : Nat → List Token → Expr → Prop where
  | true_ {t : Token} : t.kind = .true_ → G pton k 8 [t] (.boolConst (span t.start t.stop) true)
  | false_ {t : Token} : t.kind = .false_ → G pton k 8 [t] (.boolConst (span t.start t.stop) false)
  | numeral {t : Token} {b n : Nat} {s : Str} : baseOf t.kind = some b → NumVal b t.text n → Canonical s n →
      G pton k 8 [t] (.intConst (span t.start t.stop) s)
  | address {t l a r : Token} {n : Nat} {s : Str} : t.kind = .id → l.kind = .lpar → a.kind = .string →
      r.kind = .rpar → Address pton t.text a.text n → Canonical s n →
      G pton k 8 [t, l, a, r] (.intConst (span t.start r.stop) s)
  | key {ts : List Token} {name : Str} {a b : Loc} : k = .table → Dotted c!"." ts name a b →
      G pton k 8 ts (.key (span a b) name)
  | param {ts : List Token} {name : Str} {a b : Loc} : k = .action → Dotted [] ts name a b →
      G pton k 8 ts (.actionParam (span a b) name)
  | attr {d t : Token} : d.kind = .doubleColon → t.kind = .id →
      G pton k 8 [d, t] (.attr (span d.start t.stop) t.text)
  | paren {l r : Token} {ts : List Token} {e : Expr} : l.kind = .lpar → G pton k 0 ts e → r.kind = .rpar →
      G pton k 8 (l :: ts ++ [r]) e
  | up {n : Nat} {ts : List Token} {e : Expr} : n < 8 → G pton k (n + 1) ts e → G pton k n ts e
  | field {ts : List Token} {e : Expr} {d t : Token} : G pton k 7 ts e → d.kind = .doubleColon → t.kind = .id →
      G pton k 7 (ts ++ [d, t]) (.field (span e.start t.stop) e t.text)
  | not {t : Token} {ts : List Token} {e : Expr} : t.kind = .bang → G pton k 6 ts e →
      G pton k 6 (t :: ts) (.boolNeg (span t.start e.stop) e)
  | neg {t : Token} {ts : List Token} {e : Expr} : t.kind = .minus → G pton k 6 ts e →
      G pton k 6 (t :: ts) (.arithNeg (span t.start e.stop) e)
  | bin {o : Token} {op : BinOp} {n l r : Nat} {ts us : List Token} {e f : Expr} : Infix o.kind op n l r →
      G pton k l ts e → G pton k r us f → G pton k n (ts ++ o :: us) (.bin (span e.start f.stop) op e f)
  | trailing {ts : List Token} {o : Token} {e : Expr} : G pton k 1 ts e → o.kind = .semicolon →
      G pton k 0 (ts ++ [o]) e

/-- A complete constraint: the tokens of an expression, followed by the end of the input. -/
def Constraint (pton : Str → Option Bytes) (k : ConstraintKind) (ts : List Token) (e : Expr) : Prop :=
  ∃ a b, ts = a ++ b ∧ G pton k 0 a e ∧ (b = [] ∨ ∃ t b', b = t :: b' ∧ t.kind = .endOfInput)

end P4C.Spec
