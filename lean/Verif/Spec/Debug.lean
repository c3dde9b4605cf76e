import Verif.Spec.Lexical
import Verif.Spec.HandMade
import Verif.Model.ConstraintInfo

/-
Specification for C103: builds with assertions.
-/

namespace P4C.Spec

/-- The outcome of the build with assertions is that of the build without, or it is that the process is stopped. -/
def SameOrStopped {α : Type} (withAssertions without : Res α) : Prop :=
  withAssertions = without ∨ withAssertions = .crash

/-- A text in UTF-8, one `Char` for each byte. -/
def utf8 (text : String) : Str := text.toList.flatMap fun c => (String.utf8EncodeChar c).map fun b => Char.ofNat b.toNat

/-- All annotations consist of characters. -/
structure Encoded (p : P4Info) : Prop where
  tables : ∀ t ∈ p.tables, ∀ a ∈ t.preamble.annotations, Runes a
  actions : ∀ d ∈ p.actions, ∀ a ∈ d.preamble.annotations, Runes a

/-- No key or parameter is declared with the width -1. -/
structure NoneOfWidthMinusOne (p : P4Info) : Prop where
  keys : ∀ t ∈ p.tables, ∀ f ∈ t.matchFields, f.bitwidth ≠ -1
  params : ∀ d ∈ p.actions, ∀ q ∈ d.params, q.bitwidth ≠ -1

/-- A type with a width, which is not -1. -/
def Sized (t : Ty) : Prop :=
  ∃ w, w ≠ -1 ∧ (t = .fixedUnsigned w ∨ t = .exact w ∨ t = .ternary w ∨ t = .lpm w ∨ t = .range w ∨ t = .optionalMatch w)

/-- If it is a type cast, then to a type with a width. -/
def SizedCast (e : Expr) : Prop := ∀ i e', e = .typeCast i e' → Sized i.ty

/-- The keys or parameters in scope. -/
def scopeVars : Scope → List (Str × VarInfo)
  | .table ks => ks
  | .action ps => ps

/-- The type has no width, or one that is not -1. -/
def WidthNotMinusOne (t : Ty) : Prop :=
  t ≠ .fixedUnsigned (-1) ∧ t ≠ .exact (-1) ∧ t ≠ .ternary (-1) ∧ t ≠ .lpm (-1) ∧ t ≠ .range (-1) ∧ t ≠ .optionalMatch (-1)

end P4C.Spec
