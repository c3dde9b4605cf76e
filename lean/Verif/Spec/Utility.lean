import Verif.Model.Utility

/-
Sizes of syntax trees, widths of types and equality of source locations, as documented in ast.h.
-/

namespace P4C.Spec

/-- Binary expressions and boolean negations. -/
inductive Composite : Expr → Prop where
  | bin (i : Info) (op : BinOp) (l r : Expr) : Composite (.bin i op l r)
  | not (i : Info) (e : Expr) : Composite (.boolNeg i e)

/-- The size of a syntax tree: each binary expression and each boolean negation counts one more than its operands; everything
else that is set counts one. -/
inductive HasSize : Expr → Nat → Prop where
  | bin {l r : Expr} {m n : Nat} (i : Info) (op : BinOp) : HasSize l m → HasSize r n → HasSize (.bin i op l r) (1 + m + n)
  | not {e : Expr} {n : Nat} (i : Info) : HasSize e n → HasSize (.boolNeg i e) (1 + n)
  | other {e : Expr} : ¬ Composite e → (∀ i, e ≠ .notSet i) → HasSize e 1

/-- `CountedPart e p x q`: the size of `e`, which is at `p`, counts its part `x`, which is at `q`. -/
inductive CountedPart (e : Expr) (p : Path) : Expr → Path → Prop where
  | here : CountedPart e p e p
  | left {i : Info} {op : BinOp} {l r : Expr} {q : Path} : CountedPart e p (.bin i op l r) q → CountedPart e p l (0 :: q)
  | right {i : Info} {op : BinOp} {l r : Expr} {q : Path} : CountedPart e p (.bin i op l r) q → CountedPart e p r (1 :: q)
  | not {i : Info} {x : Expr} {q : Path} : CountedPart e p (.boolNeg i x) q → CountedPart e p x (0 :: q)

/-- The size is `n`, and no part that counts is a parameter of an action. -/
def SizedNoParam (e : Expr) (n : Nat) : Prop :=
  HasSize e n ∧ ∀ x q i m, CountedPart e [] x q → x ≠ .actionParam i m

/-- A cache with right sizes for the parts of `e`, which is at `p`. Sizes of other syntax trees may be in the cache as well. -/
def RightSizes (e : Expr) (p : Path) (c : SizeCache) : Prop :=
  ∀ x q n, CountedPart e p x q → lookup q c = some n → SizedNoParam x n

/-- The types of a fixed size `w`. -/
inductive FixedSize : Ty → Int → Prop where
  | bit (w : Int) : FixedSize (.fixedUnsigned w) w
  | exact (w : Int) : FixedSize (.exact w) w
  | ternary (w : Int) : FixedSize (.ternary w) w
  | lpm (w : Int) : FixedSize (.lpm w) w
  | range (w : Int) : FixedSize (.range w) w
  | optional (w : Int) : FixedSize (.optionalMatch w) w

end P4C.Spec
