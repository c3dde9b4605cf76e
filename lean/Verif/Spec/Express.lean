import Verif.Spec.Compose
import Verif.Spec.Packets
import Verif.Spec.Print

/-
Writing a constraint into an annotation (property C68).
-/

namespace P4C.Spec

/-- None of the annotations is a restriction. -/
def Bare (k : ConstraintKind) (p : Preamble) : Prop := ∀ a ∈ p.annotations, ¬ restriction k <+: a

/-- The same with a restriction after the other annotations. -/
def restricted (k : ConstraintKind) (p : Preamble) (text : Str) : Preamble :=
  { p with annotations := p.annotations ++ [restriction k ++ (c!"(\"" ++ text ++ c!"\")")] }

/-- The table with the constraint. -/
def tableWith (d : TableDecl) (text : Str) : TableDecl := { d with preamble := restricted .table d.preamble text }

/-- The action with the constraint. -/
def actionWith (d : ActionDecl) (text : Str) : ActionDecl := { d with preamble := restricted .action d.preamble text }

/-- The names of keys can be written in constraints. -/
def Nameable (d : TableDecl) : Prop := ∀ f ∈ d.matchFields, ∀ p ∈ splitDots f.name, Ident p

/-- No constraint of the table `d` tells the entries apart. -/
def Indistinguishable (sys : Sys) (d : TableDecl) (ts : List TableDecl) (as : List ActionDecl) (a b : RtEntry) : Prop :=
  ∀ text ci, p4ToConstraintInfo sys ⟨tableWith d text :: ts, as⟩ = .ok ci →
    (reasonEntryViolatesConstraint a ci = .ok [] ↔ reasonEntryViolatesConstraint b ci = .ok [])

end P4C.Spec
