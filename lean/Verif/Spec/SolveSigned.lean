import Verif.Spec.Solve
import Verif.Spec.Signed

/-
What a constraint solver answers, for any constraints: `<`, `<=`, `>` and `>=` between bit strings are about two's complement
numbers.
-/

namespace P4C.Spec

/-- What `s` says is true of the entry, if ordered comparisons of bit strings are read as being about two's complement
numbers. -/
def SignedTrueOf (d : TableDecl) (entry : RtEntry) (s : SExpr) : Prop :=
  ∃ vs ρ, Each KeyDecl d.matchFields vs ∧ EntryFits vs entry ∧ EntryMeans vs entry ρ ∧ SignedHolds (keySig vs) ρ s

/-- An entry of the table in canonical form that satisfies the constraint of the table, if there is one, and those given as
texts, in this reading. -/
structure SignedSolution (pton : Str → Option Bytes) (d : TableDecl) (skip : Str → Bool) (texts : List Str)
    (entry : RtEntry) : Prop where
  canonical : CanonicalFor d skip entry
  table : Attached .table d.preamble none ∨ ∃ s, TableSays pton d s ∧ SignedTrueOf d entry s
  texts : ∀ text ∈ texts, ∃ s, TextSays pton d text s ∧ SignedTrueOf d entry s

end P4C.Spec
