import Verif.Spec.Grammar
import Verif.Spec.Layout
import Verif.Spec.Language

/-
Writing constraints down: interchangeable tokens, pretty-printing, and nesting of source spans.
-/

namespace P4C.Spec

/-- Tokens that mean the same: they agree up to location, or are numerals of the same value. -/
def SameTok (t u : Token) : Prop :=
  kindText t = kindText u ∨
    ∃ b c n, baseOf t.kind = some b ∧ NumVal b t.text n ∧ baseOf u.kind = some c ∧ NumVal c u.text n

/-- Token sequences that mean the same. -/
inductive SameToks : List Token → List Token → Prop where
  | nil : SameToks [] []
  | cons {t u : Token} {ts us : List Token} : SameTok t u → SameToks ts us → SameToks (t :: ts) (u :: us)

/-! ### Pretty-printing -/

/-- The parts of a dotted name. -/
def splitDots : Str → List Str
  | [] => [[]]
  | c :: cs =>
    if c = '.' then [] :: splitDots cs
    else match splitDots cs with
      | p :: ps => (c :: p) :: ps
      | [] => [[c]]

/-- Identifiers. Identifiers starting with `true` or `false` cannot be written (see property C22). -/
def Ident (s : Str) : Prop :=
  (∃ c cs, s = c :: cs ∧ Letter c ∧ ∀ d ∈ cs, Letter d ∨ Digit d) ∧ ¬ c!"true" <+: s ∧ ¬ c!"false" <+: s

/-- Constraints that can be written down: names are identifiers (dotted ones for keys), numbers are not
negative (negative ones are written with the operator `-`), keys occur in entry restrictions and
parameters in action restrictions. -/
def Writable (k : ConstraintKind) : SExpr → Prop
  | .bool _ => True
  | .int z => 0 ≤ z
  | .key n => k = .table ∧ ∀ p ∈ splitDots n, Ident p
  | .param n => k = .action ∧ Ident n
  | .attr n => Ident n
  | .not e | .neg e => Writable k e
  | .cmp _ l r | .conn _ l r => Writable k l ∧ Writable k r
  | .field e f => Writable k e ∧ Ident f

/-- Tokens of comparison operators. -/
def cmpTok : Cmp → Kind × Str
  | .eq => (.eq, c!"==")
  | .ne => (.ne, c!"!=")
  | .lt => (.lt, c!"<")
  | .le => (.le, c!"<=")
  | .gt => (.gt, c!">")
  | .ge => (.ge, c!">=")

/-- Parentheses around an expression of level `m` where one of level `n` is expected. -/
def paren (m n : Nat) (b : List (Kind × Str)) : List (Kind × Str) :=
  if n ≤ m then b else (.lpar, c!"(") :: b ++ [(.rpar, c!")")]

/-- Tokens of a dotted name. -/
def nameToks : List Str → List (Kind × Str)
  | [] => []
  | [p] => [(.id, p)]
  | p :: ps => (.id, p) :: (.dot, c!".") :: nameToks ps

/-- The tokens of a constraint where an expression of level `n` is expected, with parentheses only where
necessary; `num` writes numbers in decimal. -/
def print (num : Nat → Str) : SExpr → Nat → List (Kind × Str)
  | .bool true, _ => [(.true_, c!"true")]
  | .bool false, _ => [(.false_, c!"false")]
  | .int z, _ => [(.decimal, num z.toNat)]
  | .key s, _ => nameToks (splitDots s)
  | .param s, _ => [(.id, s)]
  | .attr s, _ => [(.doubleColon, c!"::"), (.id, s)]
  | .field e f, n => paren 7 n (print num e 7 ++ [(.doubleColon, c!"::"), (.id, f)])
  | .not e, n => paren 6 n ((.bang, c!"!") :: print num e 6)
  | .neg e, n => paren 6 n ((.minus, c!"-") :: print num e 6)
  | .cmp o l r, n => paren 5 n (print num l 6 ++ cmpTok o :: print num r 6)
  | .conn .and l r, n => paren 4 n (print num l 4 ++ (.and, c!"&&") :: print num r 5)
  | .conn .or l r, n => paren 3 n (print num l 3 ++ (.or, c!"||") :: print num r 4)
  | .conn .implies l r, n => paren 2 n (print num l 3 ++ (.implies, c!"->") :: print num r 3)

/-- The text of a token sequence, with a blank after each token. Strings do not occur, and numerals are
decimal. -/
def toText (ts : List (Kind × Str)) : Str := (ts.map fun t => t.2 ++ c!" ").flatten

/-! ### Sequences -/

/-- The conjuncts of a constraint, from left to right. -/
def conjuncts : SExpr → List SExpr
  | .conn .and l r => conjuncts l ++ conjuncts r
  | e => [e]

/-! ### Source spans -/

/-- Every node spans a non-empty interval that contains the spans of its children, which come in order. -/
def Nested : Expr → Prop
  | .boolNeg i e | .arithNeg i e | .typeCast i e | .field i e _ =>
      LocLt i.start i.stop ∧ LocLe i.start e.start ∧ LocLe e.stop i.stop ∧ Nested e
  | .bin i _ l r => LocLt i.start i.stop ∧ LocLe i.start l.start ∧ LocLe l.stop r.start ∧ LocLe r.stop i.stop ∧
      Nested l ∧ Nested r
  | .notSet i | .boolConst i _ | .intConst i _ | .key i _ | .actionParam i _ | .attr i _ => LocLt i.start i.stop

end P4C.Spec
