import Verif.Spec.Cost
import Verif.Spec.Print

/-
The shape of syntax trees: depth of nodes and height.
-/

namespace P4C.Spec

/-- The sum of the depths of all nodes of an expression, which is itself at depth `d`. -/
def depths : Nat → Expr → Nat
  | d, .boolNeg _ e | d, .arithNeg _ e | d, .typeCast _ e | d, .field _ e _ => d + depths (d + 1) e
  | d, .bin _ _ l r => d + depths (d + 1) l + depths (d + 1) r
  | d, _ => d

/-- The height of an expression; constants and variables are of height 1. -/
def height : Expr → Nat
  | .boolNeg _ e | .arithNeg _ e | .typeCast _ e | .field _ e _ => 1 + height e
  | .bin _ _ l r => 1 + max (height l) (height r)
  | _ => 1

/-- The number of prefix operators at the top of an expression. -/
def prefixes : Expr → Nat
  | .boolNeg _ e | .arithNeg _ e => 1 + prefixes e
  | _ => 0

/-- The text `true && true && … && true `, with `n` operators. -/
def trues : Nat → Str
  | 0 => c!"true "
  | n + 1 => trues n ++ c!"&& true "

/-- The text `! ! … ! true `, with `n` operators. -/
def bangs : Nat → Str
  | 0 => c!"true "
  | n + 1 => c!"! " ++ bangs n

end P4C.Spec
