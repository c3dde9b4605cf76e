import Verif.Spec.Formula

/-
Constraints that are weaker than others.
-/

namespace P4C.Spec

/-- `Weakened R true s s'`: `s'` is `s` with parts replaced by what follows from them, according to `R`. Below a negation, or
left of an implication, parts are instead replaced by what they follow from; `Weakened R false s s'` is about parts there. -/
inductive Weakened (R : SExpr → SExpr → Prop) : Bool → SExpr → SExpr → Prop where
  | same (up : Bool) (s : SExpr) : Weakened R up s s
  | weaker {s s' : SExpr} : R s s' → Weakened R true s s'
  | stronger {s s' : SExpr} : R s' s → Weakened R false s s'
  | not {up : Bool} {s s' : SExpr} : Weakened R (!up) s s' → Weakened R up (.not s) (.not s')
  | and {up : Bool} {s s' u u' : SExpr} : Weakened R up s s' → Weakened R up u u' →
      Weakened R up (.conn .and s u) (.conn .and s' u')
  | or {up : Bool} {s s' u u' : SExpr} : Weakened R up s s' → Weakened R up u u' →
      Weakened R up (.conn .or s u) (.conn .or s' u')
  | implies {up : Bool} {s s' u u' : SExpr} : Weakened R (!up) s s' → Weakened R up u u' →
      Weakened R up (.conn .implies s u) (.conn .implies s' u')

/-- If `s` is true of the entry, then `s'` is not false. -/
def Entails (vs : List VarInfo) (entry : RtEntry) (s s' : SExpr) : Prop :=
  ∀ ρ, EntryMeans vs entry ρ → Evaluates (keySig vs) ρ s .boolean (.bool true) →
    ¬ Evaluates (keySig vs) ρ s' .boolean (.bool false)

/-- If `s` is true of the invocation, then `s'` is not false. -/
def ArgsEntail (vs : List VarInfo) (a : RtAction) (s s' : SExpr) : Prop :=
  ∀ ρ, ActionMeans vs a ρ → Evaluates (paramSig vs) ρ s .boolean (.bool true) →
    ¬ Evaluates (paramSig vs) ρ s' .boolean (.bool false)

/-- Two declarations of a table that are alike, except that they may have different constraints. -/
structure SameTableKeys (d d' : TableDecl) : Prop where
  ids : d.preamble.id = d'.preamble.id
  keys : d.matchFields = d'.matchFields

/-- The same for actions. -/
structure SameActionParams (d d' : ActionDecl) : Prop where
  ids : d.preamble.id = d'.preamble.id
  params : d.params = d'.params

end P4C.Spec
