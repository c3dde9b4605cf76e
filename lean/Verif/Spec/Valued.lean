import Verif.Spec.Repr
import Verif.Spec.Solve

/-
Constraints in which the values of exact keys are ordered, instead of the keys (property C112).
-/

namespace P4C.Spec

/-- `k::value` for keys of match kind `exact`. -/
def asValue (Γ : Sig) : SExpr → SExpr
  | .key n =>
    match Γ.key n with
    | some (.exact _) => .field (.key n) c!"value"
    | _ => .key n
  | e => e

/-- The same constraint, with `k::value` for exact keys `k` next to `<`, `<=`, `>` and `>=`. -/
def valued (Γ : Sig) : SExpr → SExpr
  | .not e => .not (valued Γ e)
  | .conn o l r => .conn o (valued Γ l) (valued Γ r)
  | .cmp o l r => if o.isOrder then .cmp o (asValue Γ l) (asValue Γ r) else .cmp o (valued Γ l) (valued Γ r)
  | e => e

/-- What is documented of the constraint `s` for the entry: it consists of the keys, and the constraint is `b`. -/
def Documented (vs : List VarInfo) (entry : RtEntry) (s : SExpr) (b : Bool) : Prop :=
  EntryFits vs entry ∧ ∃ ρ, EntryMeans vs entry ρ ∧ Means (keySig vs) ρ s .boolean (.bool b)

end P4C.Spec
