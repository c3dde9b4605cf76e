import Verif.Spec.Obtain

/-
Enumerating entries with a constraint solver (C97).
-/

namespace P4C.Spec

/-- The text says that an entry in canonical form is not this one. -/
def Excludes (pton : Str → Option Bytes) (d : TableDecl) (skip : Str → Bool) (text : Str) (entry : RtEntry) : Prop :=
  ∃ s, TextSays pton d text s ∧ Mentionable d skip s ∧
    ∀ other, CanonicalFor d skip other → (SignedTrueOf d other s ↔ ¬ SameUpToOrder other entry)

/-- Beginning with the solver `s`, entries are requested and excluded one after the other, which leads to the solver `s'`; the
entries, latest first. -/
inductive Enumeration (z : Z3Oracle) (sys : Sys) (d : TableDecl) (skip : Str → Bool) (s : Solver) : List RtEntry → Solver → Prop where
  | start : Enumeration z sys d skip s [] s
  | next {entries : List RtEntry} {s1 s2 s3 : Solver} {entry : RtEntry} {text : Str} :
      Enumeration z sys d skip s entries s1 → s1.concretize z = (.ok entry, s2) → Excludes sys.inetPton6 d skip text entry →
      s2.addConstraintStr z sys text = (.ok true, s3) → Enumeration z sys d skip s (entry :: entries) s3

/-- The number of bits of the keys of the table. -/
def keyBits (d : TableDecl) : Nat := (d.matchFields.map fun f => f.bitwidth.toNat).sum

end P4C.Spec
