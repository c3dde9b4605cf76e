import Verif.Spec.Compose

/-
Constraints with a part that is exchanged for another.
-/

namespace P4C.Spec

/-- The text with the part `(a)` between `p` and `s`, where all of them are on lines of their own. -/
def enclosed (p a s : Str) : Str := p ++ c!"\n(\n" ++ a ++ c!"\n)\n" ++ s

/-- The text, taken by itself, is an expression of type `t` over the variables `Γ`, and says `s`. -/
def PartSays (pton : Str → Option Bytes) (k : ConstraintKind) (Γ : Sig) (text : Str) (s : SExpr) (t : Ty) : Prop :=
  ∃ ts e, Lexed {} text ts ∧ Constraint pton k ts e ∧ abs e = some s ∧ HasTy Γ s t

/-- Two declarations of a table, alike except that the constraint of `d` has the part `(a)` where that of `d'` has the part
`(b)`. -/
structure TableExchanged (a b : Str) (d d' : TableDecl) : Prop where
  ids : d.preamble.id = d'.preamble.id
  keys : d.matchFields = d'.matchFields
  texts : ∃ p s, Says .table d.preamble (enclosed p a s) ∧ Says .table d'.preamble (enclosed p b s) ∧
    Closed p ∧ Closed a ∧ Closed b

/-- The same for actions. -/
structure ActionExchanged (a b : Str) (d d' : ActionDecl) : Prop where
  ids : d.preamble.id = d'.preamble.id
  params : d.params = d'.params
  texts : ∃ p s, Says .action d.preamble (enclosed p a s) ∧ Says .action d'.preamble (enclosed p b s) ∧
    Closed p ∧ Closed a ∧ Closed b

/-- Both texts are expressions over the keys of the table, of the same type. -/
def SameType (pton : Str → Option Bytes) (d : TableDecl) (a b : Str) : Prop :=
  ∃ vs x y t, Each KeyDecl d.matchFields vs ∧ PartSays pton .table (keySig vs) a x t ∧ PartSays pton .table (keySig vs) b y t

/-- Both texts are expressions over the keys of the table, of the same type and with the same value for the entry (or
both without one). -/
def SameValue (pton : Str → Option Bytes) (d : TableDecl) (entry : RtEntry) (a b : Str) : Prop :=
  ∃ vs x y t, Each KeyDecl d.matchFields vs ∧ PartSays pton .table (keySig vs) a x t ∧
    PartSays pton .table (keySig vs) b y t ∧ ∀ ρ, EntryMeans vs entry ρ →
      ∀ v, Evaluates (keySig vs) ρ x t v ↔ Evaluates (keySig vs) ρ y t v

/-- The same for actions. -/
def SameArgType (pton : Str → Option Bytes) (d : ActionDecl) (a b : Str) : Prop :=
  ∃ vs x y t, Each ParamIs d.params vs ∧ PartSays pton .action (paramSig vs) a x t ∧ PartSays pton .action (paramSig vs) b y t

def SameArgValue (pton : Str → Option Bytes) (d : ActionDecl) (inv : RtAction) (a b : Str) : Prop :=
  ∃ vs x y t, Each ParamIs d.params vs ∧ PartSays pton .action (paramSig vs) a x t ∧
    PartSays pton .action (paramSig vs) b y t ∧ ∀ ρ, ActionMeans vs inv ρ →
      ∀ v, Evaluates (paramSig vs) ρ x t v ↔ Evaluates (paramSig vs) ρ y t v

end P4C.Spec
