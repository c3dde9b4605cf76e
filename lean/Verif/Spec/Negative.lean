import Verif.Spec.Solve
import Verif.Spec.Evolve

/-
Entries for tables that may have keys of a negative width.
-/

namespace P4C.Spec

/-- The match is of the kind of the key. -/
inductive OfDeclared : MatchCase → MatchVal → Prop where
  | exact (v : Bytes) : OfDeclared (.matchType .exact) (.exact v)
  | ternary (v m : Bytes) : OfDeclared (.matchType .ternary) (.ternary v m)
  | lpm (v : Bytes) (p : Int) : OfDeclared (.matchType .lpm) (.lpm v p)
  | range (l h : Bytes) : OfDeclared (.matchType .range) (.range l h)
  | optional (v : Bytes) : OfDeclared (.matchType .optional) (.optional v)

/-- The matches of the entry are for different keys, and of their kinds, and keys that must not be omitted are not. Widths do
not matter. -/
structure EntryShaped (fs : List MatchField) (entry : RtEntry) : Prop where
  known : ∀ m ∈ entry.matches_, ∃ f ∈ fs, f.id = m.fieldId ∧ OfDeclared f.kind m.val
  once : (entry.matches_.map FieldMatch.fieldId).Nodup
  complete : ∀ f ∈ fs, (∃ m ∈ entry.matches_, m.fieldId = f.id) ∨ MayOmit f

/-- The entry omits a range key of negative width, or matches on an optional key of negative width. -/
def NeedsMask (fs : List MatchField) (entry : RtEntry) : Prop :=
  ∃ f ∈ fs, f.bitwidth < 0 ∧
    (f.kind = .matchType .range ∧ (∀ m ∈ entry.matches_, m.fieldId ≠ f.id) ∨
     f.kind = .matchType .optional ∧ ∃ m ∈ entry.matches_, m.fieldId = f.id)

end P4C.Spec
