import Verif.Spec.Explain

/-
Smallest explanations (interpreter.h:200-217).
-/

namespace P4C.Spec

/-- `Part n k`: the node `k` is reached from the node `n` via negations and connectives. -/
inductive Part : Node → Node → Prop where
  | self (n : Node) : Part n n
  | not {i : Info} {e : Expr} {p : Path} {k : Node} : Part (e, 0 :: p) k → Part (.boolNeg i e, p) k
  | left {i : Info} {op : BinOp} {l r : Expr} {p : Path} {k : Node} : op = .and ∨ op = .or ∨ op = .implies →
      Part (l, 0 :: p) k → Part (.bin i op l r, p) k
  | right {i : Info} {op : BinOp} {l r : Expr} {p : Path} {k : Node} : op = .and ∨ op = .or ∨ op = .implies →
      Part (r, 1 :: p) k → Part (.bin i op l r, p) k

/-- Neither a negation nor a connective. -/
def Atomic : Expr → Prop
  | .boolNeg _ _ => False
  | .bin _ op _ _ => op ≠ .and ∧ op ≠ .or ∧ op ≠ .implies
  | _ => True

/-- The value that `k` has in `ctx` determines the value of `e`: in all contexts of the class `C` in which `k` has that
value, `e` has the same value as in `ctx`. -/
def Sufficient (C : EvalCtx → Prop) (ctx : EvalCtx) (e k : Expr) : Prop :=
  ∀ v b, Val ctx k v → Val ctx e b → ∀ ctx', C ctx' → Val ctx' k v → Val ctx' e b

/-- All parts of the expression have values in the contexts of the class. -/
def Defined (C : EvalCtx → Prop) (n : Node) : Prop := ∀ ctx, C ctx → ∀ k, Part n k → ∃ v, Val ctx k.1 v

/-- Every combination of values of the atomic parts occurs in a context of the class. So there are no constants, and no
atomic parts that are the same or related otherwise. -/
def Independent (C : EvalCtx → Prop) (n : Node) : Prop :=
  ∀ σ : Path → Bool, ∃ ctx, C ctx ∧ ∀ k, Part n k → Atomic k.1 → Val ctx k.1 (σ k.2)

end P4C.Spec
