import Verif.Spec.Layout
import Verif.Model.Quote

/-
Parts of a text taken for themselves.
-/

namespace P4C.Spec

/-- The text `m` is the part of the source from location `a` to location `b`. -/
def Between (src : ConstraintSource) (a b : Loc) (m : Str) : Prop :=
  ∃ pre post, src.str = pre ++ m ++ post ∧ a = advance src.loc pre ∧ b = advance src.loc (pre ++ m)

/-- Every parenthesis has a partner. -/
def Balanced (ks : List Kind) : Prop :=
  ks.count .lpar = ks.count .rpar ∧ ∀ a b, ks = a ++ b → a.count .rpar ≤ a.count .lpar

end P4C.Spec
