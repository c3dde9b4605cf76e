import Verif.Spec.Constant

/-
Keys without bits: P4Info declares keys whose values are strings with width 0.
-/

namespace P4C.Spec

/-- All bytes of the string are zero. -/
def AllZero (bs : Bytes) : Prop := ∀ b ∈ bs, b = 0

/-- All bytes of the match are zero, and so is the length of a prefix. -/
inductive ZeroMatch : MatchVal → Prop where
  | exact {v : Bytes} : AllZero v → ZeroMatch (.exact v)
  | ternary {v m : Bytes} : AllZero v → AllZero m → ZeroMatch (.ternary v m)
  | lpm {v : Bytes} : AllZero v → ZeroMatch (.lpm v 0)
  | range {l h : Bytes} : AllZero l → AllZero h → ZeroMatch (.range l h)
  | optional {v : Bytes} : AllZero v → ZeroMatch (.optional v)

/-- The entry omits the key, or matches it on nothing but zeros. -/
def OmittedOrZero (f : MatchField) (entry : RtEntry) : Prop :=
  ∀ m ∈ entry.matches_, m.fieldId = f.id → ZeroMatch m.val

end P4C.Spec
