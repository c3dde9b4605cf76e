import Verif.Spec.Grammar

/-
Names of variables in the text of a constraint.
-/

namespace P4C.Spec

/-- A variable is written among the tokens: identifiers separated by dots, not preceded by `::` (which makes the identifier
the name of a field or attribute) and not followed by `(` (which makes it the name of a kind of address). Its name is what
is written, including the dots. -/
def Writes (ts : List Token) (name : Str) : Prop :=
  ∃ pre run post a b, ts = pre ++ run ++ post ∧ Dotted c!"." run name a b ∧
    (∀ t, pre.getLast? = some t → t.kind ≠ .doubleColon ∧ t.kind ≠ .dot) ∧
    (∀ t, post.head? = some t → t.kind ≠ .dot ∧ t.kind ≠ .lpar)

end P4C.Spec
