import Verif.Spec.Obtain

/-
Tables without the keys that a constraint solver is told to skip (C99).
-/

namespace P4C.Spec

/-- The table without the keys that are skipped. -/
def unskipped (skip : Str → Bool) (d : TableDecl) : TableDecl :=
  { d with matchFields := d.matchFields.filter fun f => !skip f.name }

/-- The program with this table. -/
def withUnskipped (skip : Str → Bool) (d : TableDecl) (p : P4Info) : P4Info :=
  { p with tables := p.tables.map fun t => if t.preamble.id = d.preamble.id then unskipped skip t else t }

/-- If the table has ternary or optional keys, one of them is not skipped. -/
def KeepsPriority (skip : Str → Bool) (d : TableDecl) : Prop :=
  (∃ f ∈ d.matchFields, f.kind = .matchType .ternary ∨ f.kind = .matchType .optional) →
    ∃ f ∈ d.matchFields, (f.kind = .matchType .ternary ∨ f.kind = .matchType .optional) ∧ skip f.name = false

end P4C.Spec
