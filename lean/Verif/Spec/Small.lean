import Verif.Spec.SolveSigned
import Verif.Spec.Repr

/-
Entries of which constraints order only bit strings whose most significant bit is not set (C72, C106).
-/

namespace P4C.Spec

/-- For this entry, the constraint orders only integers and values of fields whose most significant bit is not set. -/
def OrdersSmall (d : TableDecl) (entry : RtEntry) (s : SExpr) : Prop :=
  ∀ vs ρ, Each KeyDecl d.matchFields vs → EntryMeans vs entry ρ → OrderSafe (keySig vs) ρ s ∧ NoOrderedExact (keySig vs) s

/-- So do the constraint of the table and the constraints given as texts. -/
structure SmallFor (pton : Str → Option Bytes) (d : TableDecl) (texts : List Str) (entry : RtEntry) : Prop where
  table : ∀ s, TableSays pton d s → OrdersSmall d entry s
  texts : ∀ text ∈ texts, ∀ s, TextSays pton d text s → OrdersSmall d entry s

end P4C.Spec
