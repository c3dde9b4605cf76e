import Verif.Spec.Symbolic

/-
Specification of the tables whose entries have priorities (property C64), after the P4Runtime specification,
section 9.1 on table entries: the priority must be positive if the table has a ternary, range or optional match
field, and zero otherwise.
-/

namespace P4C.Spec

/-- The match kinds for which entries have priorities. -/
inductive Prioritized : Ty → Prop where
  | ternary (w : Int) : Prioritized (.ternary w)
  | range (w : Int) : Prioritized (.range w)
  | optional (w : Int) : Prioritized (.optionalMatch w)

/-- The priority is one that P4Runtime allows for entries of the table. -/
def PriorityValid (ti : TableInfo) (p : Int) : Prop :=
  ((∃ n ki, (n, ki) ∈ ti.keysByName ∧ Prioritized ki.ty) ∧ 0 < p ∧ p < 2 ^ 31) ∨
  ((∀ n ki, (n, ki) ∈ ti.keysByName → ¬ Prioritized ki.ty) ∧ p = 0)

end P4C.Spec
