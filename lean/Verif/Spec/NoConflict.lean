import Verif.Spec.Sorts
import Verif.Model.Interpreter

/-
Specification of the syntax trees, of any origin, that the interpreter and the constraint solver read alike (property C105).
-/

namespace P4C.Spec

/-- The interpreter finds this value, starting with nothing known. -/
def Finds (ctx : EvalCtx) (e : Expr) (v : Value) : Prop := eval ctx e [] none = .ok (v, none)

/-- An ordered comparison. -/
def IsOrdered (op : BinOp) : Prop := op = .lt ∨ op = .le ∨ op = .gt ∨ op = .ge

/-- The node means the same to the interpreter and to the solver: constants are in decimal, fields are those of keys, bit
strings are not negated, and are compared in order only if their top bits are clear. -/
def ReadAlike (K : Str → Form → Prop) (A : Str → Prop) (ctx : EvalCtx) : Expr → Prop
  | .intConst _ s => ∃ n, decimal? s = some n
  | .field _ e _ => ∃ i n, e = .key i n
  | .arithNeg _ e => ∀ w, ¬ Sorted K A e (.plain (.bv w))
  | .bin _ op l r => IsOrdered op → ∀ w, Sorted K A l (.plain (.bv w)) → ∀ x y, Finds ctx l (.int x) → Finds ctx r (.int y) →
      2 * x < 2 ^ w ∧ 2 * y < 2 ^ w
  | _ => True

end P4C.Spec
